import Verif.Spec.ServerConn
import Verif.Props.ServerCrash
/-
C39: forward open and forward close; C65: who may close.
-/
set_option linter.unusedSimpArgs false

namespace Gologix.Server
open Gologix.Server.Spec M

theorem words_small (w : Byte) (h : w.toNat < 128) : (w * 2#8).toNat = 2 * w.toNat := by
  rw [BitVec.toNat_mul]; simp; omega

theorem readBV32_le (v : BitVec 32) (rest : Bytes) : readBV 32 (le 4 v.toNat ++ rest) = .ok (v, rest) :=
  readU32 v rest

theorem readBV16_le (v : BitVec 16) (rest : Bytes) : readBV 16 (le 2 v.toNat ++ rest) = .ok (v, rest) :=
  readU16 v rest

/-- The fields of a forward open request as the server reads them. -/
def fwdOf (o : OpenReq) : FwdOpen where
  service := o.service
  ot := o.ot
  to := o.to
  serial := o.serial
  vendor := o.vendor
  oserial := o.oserial
  otrpi := o.otrpi
  torpi := o.torpi
  trigger := o.trigger
  psize := o.words

theorem readN_exact (k : Nat) (a rest : Bytes) (h : a.length = k) : readN k (a ++ rest) = .ok (a, rest) :=
  readN_append' h

theorem readFwdOpen_bytes (o : OpenReq) (ho : o.sized) :
    readFwdOpen o.large o.bytes = .ok (fwdOf o, o.path ++ o.more) := by
  obtain ⟨h1, h2, h3, h4⟩ := ho
  have hb : o.bytes = (o.service :: (o.head ++ (le 4 o.ot.toNat ++ (le 4 o.to.toNat ++ (le 2 o.serial.toNat ++
    (le 2 o.vendor.toNat ++ (le 4 o.oserial.toNat ++ (o.mult ++ (le 4 o.otrpi.toNat ++ (o.otpar ++
      (le 4 o.torpi.toNat ++ (o.topar ++ [o.trigger, o.words])))))))))))) ++ (o.path ++ o.more) := by
    simp [OpenReq.bytes]
  unfold readFwdOpen
  rw [hb, readN_exact _ _ _ (by
    simp only [List.length_cons, List.length_append, le_length, h1, h2, h3, h4, List.length_nil]
    cases o.large <;> simp), Res.bind_ok]
  simp only
  rw [← List.cons_append, readN_exact 8 (o.service :: o.head) _ (by simp [h1]), Res.bind_ok]
  simp only
  rw [readBV32_le, Res.bind_ok]
  simp only
  rw [readBV32_le, Res.bind_ok]
  simp only
  rw [readBV16_le, Res.bind_ok]
  simp only
  rw [readBV16_le, Res.bind_ok]
  simp only
  rw [readBV32_le, Res.bind_ok]
  simp only
  obtain ⟨m, hm⟩ := readBV_of_length 4 (o.mult ++ (le 4 o.otrpi.toNat ++ (o.otpar ++
      (le 4 o.torpi.toNat ++ (o.topar ++ [o.trigger, o.words]))))) (by simp [h2]) 32 rfl
  rw [hm, Res.bind_ok, List.drop_left' h2]
  simp only
  rw [readBV32_le, Res.bind_ok]
  simp only
  rw [readN_exact _ _ _ h3, Res.bind_ok]
  simp only
  rw [readBV32_le, Res.bind_ok]
  simp only
  rw [readN_exact _ _ _ h4, Res.bind_ok]
  simp only
  rw [readBV_cons8, Res.bind_ok]
  simp only
  rw [readBV_cons8, Res.bind_ok]
  rfl

theorem fwdOpenReply_eq (o : OpenReq) (ot to : BitVec 32) : fwdOpenReply (fwdOf o) ot to = o.reply ot to := rfl

theorem rrData_frame (h : Handler) (data : Bytes) :
    rrData (frameOf h 0x6F#16 (serializeItems [Item.new 0x0#16, (Item.new 0xB2#16).write data])) = data := by
  unfold rrData
  rw [show 40 = 24 + 16 from rfl, ← List.drop_drop, frameOf_drop, rr_payload]
  simp [Gologix.Spec.cpf, Gologix.Spec.item, le]

/-- The identifier that is used when `asked` is asked for and `choice` is what the server would choose. -/
def usedId (asked choice : BitVec 32) : BitVec 32 := if asked = 0#32 then choice else asked

theorem chooseId_eq (k : BitVec 32) (st : St) : ∃ rnd', chooseId k st =
    (.ok (usedId k (st.srv.rnd 0)), { st with srv := { st.srv with rnd := rnd' } }) := by
  unfold chooseId usedId
  split
  · exact ⟨_, rfl⟩
  · exact ⟨st.srv.rnd, rfl⟩

theorem keeps_startIO {γ : Type} {g : St → γ} (hg : ∀ st io, g { st with srv := { st.srv with io := io } } = g st)
    (f : FwdOpen) (ref : Nat) (path : Bytes) : Keeps g (startIO f ref path) := by
  unfold startIO
  exact keeps_bind (keeps_resolve _) fun ep => keeps_ite keeps_crash (fun st => hg st _)

theorem startIO_conns (f : FwdOpen) (ref : Nat) (path : Bytes) (st : St) :
    (startIO f ref path st).2.srv.conns = st.srv.conns :=
  keeps_startIO (g := fun st => st.srv.conns) (fun _ _ => rfl) f ref path st

theorem startIO_nextRef (f : FwdOpen) (ref : Nat) (path : Bytes) (st : St) :
    (startIO f ref path st).2.srv.nextRef = st.srv.nextRef :=
  keeps_startIO (g := fun st => st.srv.nextRef) (fun _ _ => rfl) f ref path st

theorem startIO_sent (f : FwdOpen) (ref : Nat) (path : Bytes) (st : St) :
    (startIO f ref path st).2.sent = st.sent :=
  keeps_startIO (g := fun st => st.sent) (fun _ _ => rfl) f ref path st

/-- What a forward open does once it has been read. -/
theorem forwardOpen_core (large : Bool) (d r fpath more : Bytes) (f : FwdOpen)
    (hf : readFwdOpen large d = .ok (f, r)) (hp : readN (f.psize * 2#8).toNat r = .ok (fpath, more))
    (hl : 2 ≤ fpath.length) (st : St) :
    ∃ ot to, (f.ot ≠ 0#32 → ot = f.ot) ∧ (f.to ≠ 0#32 → to = f.to) ∧
      (forwardOpen large d st).2.srv.conns = st.srv.conns.add
        { ref := st.srv.nextRef, id := f.serial, ot, to, rpi := f.torpi, path := fpath.take 2 } ∧
      (forwardOpen large d st).2.srv.nextRef = st.srv.nextRef + 1 ∧
      (∃ h : Handler, (forwardOpen large d st).2.sent = st.sent ++ [frameOf h 0x6F#16
        (serializeItems [Item.new 0x0#16, (Item.new 0xB2#16).write (fwdOpenReply f ot to)])]) ∧
      (¬ (f.trigger = 1#8 ∧ large = false) → (forwardOpen large d st).1 = .ok ()) := by
  obtain ⟨rnd1, hto⟩ := chooseId_eq f.to st
  obtain ⟨rnd2, hot⟩ := chooseId_eq f.ot { st with srv := { st.srv with rnd := rnd1 } }
  refine ⟨usedId f.ot (rnd1 0), usedId f.to (st.srv.rnd 0), fun h => by simp [usedId, h],
    fun h => by simp [usedId, h], ?_⟩
  unfold forwardOpen
  rw [hf, lift_ok_bind]
  simp only
  rw [hp, lift_ok_bind]
  simp only
  rw [if_neg (by omega), bind_def, hto]
  simp only
  rw [bind_def, hot]
  simp only
  rw [bind_def]
  simp only [M.modify]
  rw [bind_def]
  simp only [sendRR, send]
  rw [bind_def]
  simp only [addConn]
  refine ⟨?_, ?_, ⟨{ st.h with ot := usedId f.ot (rnd1 0), to := usedId f.to (st.srv.rnd 0) }, ?_⟩, fun hn => ?_⟩
  · split
    · exact startIO_conns _ _ _ _
    · rfl
  · split
    · exact startIO_nextRef _ _ _ _
    · rfl
  · split
    · exact startIO_sent _ _ _ _
    · rfl
  · rw [if_neg hn]; rfl

/-- The request as the handler of unconnected data sees it. -/
theorem serveStep_unconnected (C : Conv) (st : St) (d : Bytes) (h : Unconnected st.inp d) :
    ∃ st0, serveStep C st = unconnectedData C d st0 ∧ st0.srv = st.srv ∧ st0.sent = st.sent := by
  obtain ⟨r, rest, hr, hi, hcmd, hid, rfl⟩ := h
  refine ⟨{ st with inp := rest, h := { st.h with context := r.context } }, ?_, rfl, rfl⟩
  rw [serveStep_rr C r hr rest st hi hcmd]
  simp only [rrItems, hid]
  rw [if_neg (by simp), if_pos trivial]

theorem unconnectedData_open (C : Conv) (o : OpenReq) (st : St) :
    unconnectedData C o.bytes st = forwardOpen o.large o.bytes st := by
  have hb : readBV 8 o.bytes = .ok (o.service, o.bytes.tail) := readBV_cons8 _ _
  unfold unconnectedData
  rw [hb, lift_ok_bind]
  unfold OpenReq.service
  cases o.large <;> rfl

theorem unconnectedData_close (C : Conv) (q : CloseReq) (st : St) :
    unconnectedData C q.bytes st = forwardClose q.bytes st := by
  have hb : readBV 8 q.bytes = .ok (0x4E#8, q.bytes.tail) := readBV_cons8 _ _
  unfold unconnectedData
  rw [hb, lift_ok_bind]
  rfl

/-- What a forward close does: nothing is sent; the result is an error when the serial number is unknown, or
when fewer bytes follow than the request path has. -/
theorem forwardClose_run (q : CloseReq) (hq : q.wf) (st : St) :
    (forwardClose q.bytes st).2.srv.conns = (st.srv.conns.closeByID q.serial).2 ∧
    (forwardClose q.bytes st).2.srv.nextRef = st.srv.nextRef ∧
    (forwardClose q.bytes st).2.sent = st.sent ∧
    ((st.srv.conns.closeByID q.serial).1 = .ok () → (q.head.getD 0 0#8 * 2#8).toNat ≤ q.more.length →
      (forwardClose q.bytes st).1 = .ok ()) := by
  obtain ⟨h1, h2⟩ := hq
  have hb : q.bytes = (0x4E#8 :: (q.head ++ (le 2 q.serial.toNat ++ (q.ids ++ [q.words])))) ++ q.more := by
    simp [CloseReq.bytes]
  unfold forwardClose
  rw [hb, readN_exact 17 _ _ (by simp [h1, h2]), lift_ok_bind]
  simp only
  have hd : (0x4E#8 :: (q.head ++ (le 2 q.serial.toNat ++ (q.ids ++ [q.words])))).drop 8 =
      le 2 q.serial.toNat ++ (q.ids ++ [q.words]) := by
    rw [← List.cons_append, List.drop_left' (by simp [h1])]
  rw [hd, readBV16_le, lift_ok_bind]
  simp only
  rw [bind_def]
  have hsafe := closeBy_safe st.srv.conns (·.id == q.serial)
  simp only [closeConn]
  cases hc : (st.srv.conns.closeByID q.serial).1 with
  | ok u =>
    simp only
    rw [bind_def]
    simp only [lift_def]
    have hg : (0x4E#8 :: (q.head ++ (le 2 q.serial.toNat ++ (q.ids ++ [q.words])))).getD 1 0#8 =
        q.head.getD 0 0#8 := by
      cases hh : q.head with
      | nil => simp [hh] at h1
      | cons a b => rfl
    rw [hg]
    refine ⟨?_, ?_, ?_, fun _ hl => ?_⟩
    · cases readN (q.head.getD 0 0#8 * 2#8).toNat q.more <;> rfl
    · cases readN (q.head.getD 0 0#8 * 2#8).toNat q.more <;> rfl
    · cases readN (q.head.getD 0 0#8 * 2#8).toNat q.more <;> rfl
    · have : readN (q.head.getD 0 0#8 * 2#8).toNat q.more = .ok (q.more.take (q.head.getD 0 0#8 * 2#8).toNat,
          q.more.drop (q.head.getD 0 0#8 * 2#8).toNat) := by
        conv => lhs; rw [← List.take_append_drop (q.head.getD 0 0#8 * 2#8).toNat q.more]
        exact readN_append' (List.length_take_of_le hl)
      rw [this]; rfl
  | err e => exact ⟨rfl, rfl, rfl, fun h => nomatch h⟩
  | panic => simp only [ConnTable.closeByID] at hc; rw [hc] at hsafe; exact absurd hsafe (by simp)

/-- C39, the open: a well-formed forward open request, standard or large, is answered with one frame that
carries the connection identifiers under which the server has entered the connection into its table and
echoes serial number, vendor, originator and intervals. -/
theorem C39_open (C : Conv) (st : St) (o : OpenReq) (ho : o.wf) (hi : Unconnected st.inp o.bytes) :
    ∃ c : Conn, Asks st.inp (.add c) ∧ c.ref = st.srv.nextRef ∧
      (serveStep C st).2.srv.conns = st.srv.conns.add c ∧
      ∃ f, newFrames st (serveStep C st).2 = [f] ∧ rrData f = o.reply c.ot c.to := by
  obtain ⟨st0, hs, hsrv, hsent⟩ := serveStep_unconnected C st _ hi
  have hp : readN ((fwdOf o).psize * 2#8).toNat (o.path ++ o.more) = .ok (o.path, o.more) := by
    apply readN_exact
    rw [ho.2.1]
    exact (words_small o.words ho.2.2.2).symm
  have hl : 2 ≤ o.path.length := by have := ho.2; omega
  obtain ⟨ot, to, h1, h2, h3, h4, ⟨h, h5⟩, h7⟩ :=
    forwardOpen_core o.large o.bytes _ _ _ _ (readFwdOpen_bytes o ho.1) hp hl st0
  rw [unconnectedData_open] at hs
  refine ⟨{ ref := st.srv.nextRef, id := o.serial, ot, to, rpi := o.torpi, path := o.path.take 2 },
    ⟨o, ho.1, hl, hi, rfl, h1, h2, rfl, rfl⟩, rfl, ?_, _, ?_, rrData_frame h _⟩
  · rw [hs, h3, hsrv]; rfl
  · rw [hs, newFrames, h5, hsent, List.drop_left]; rfl

/-- C39, the close: if the serial numbers in the table are distinct, a forward close removes exactly the
connection with its serial number. -/
theorem C39_close (C : Conv) (st : St) (q : CloseReq) (hq : q.wf) (hi : Unconnected st.inp q.bytes)
    (hd : ∀ c ∈ st.srv.conns.conns, ∀ d ∈ st.srv.conns.conns, c.id = d.id → c = d)
    (hn : st.srv.conns.conns.Nodup) (c : Conn) :
    c ∈ (serveStep C st).2.srv.conns.conns ↔ c ∈ st.srv.conns.conns ∧ c.id ≠ q.serial := by
  obtain ⟨st0, hs, hsrv, -⟩ := serveStep_unconnected C st _ hi
  rw [unconnectedData_close] at hs
  rw [hs, (forwardClose_run q hq st0).1, hsrv, ConnTable.closeByID]
  cases hf : st.srv.conns.conns.find? (·.id == q.serial) with
  | none =>
    rw [closeBy_none hf]
    have := List.find?_eq_none.mp hf
    constructor
    · intro hc; exact ⟨hc, by simpa using this c hc⟩
    · exact fun h => h.1
  | some x =>
    obtain ⟨as, bs, hl, hx, ha⟩ := find_split hf
    rw [closeBy_split hl hx ha]
    simp only [mem_joinLast, hl]
    have hxs : x.id = q.serial := by simpa using hx
    rw [hl] at hd hn
    constructor
    · intro hc
      refine ⟨by rcases hc with h | h <;> simp [h], fun he => ?_⟩
      have hcx : c = x := hd c (by rcases hc with h | h <;> simp [h]) x (by simp) (by rw [he, hxs])
      subst hcx
      rw [List.nodup_append] at hn
      rcases hc with h | h
      · exact hn.2.2 c h c (by simp) rfl
      · exact (List.nodup_cons.mp hn.2.1).1 h
    · rintro ⟨hc, hne⟩
      simp only [List.mem_append, List.mem_cons] at hc
      rcases hc with h | rfl | h
      · exact .inl h
      · exact absurd hxs hne
      · exact .inr h

/-- C39 is false for the acknowledgement: a forward close is never answered. -/
theorem C39_close_not_acknowledged (C : Conv) (st : St) (q : CloseReq) (hq : q.wf)
    (hi : Unconnected st.inp q.bytes) : newFrames st (serveStep C st).2 = [] := by
  obtain ⟨st0, hs, -, hsent⟩ := serveStep_unconnected C st _ hi
  rw [unconnectedData_close] at hs
  rw [hs, newFrames, (forwardClose_run q hq st0).2.2.1, hsent]
  simp

/-! ### Histories -/

theorem keeps_registerSession {γ : Type} {g : St → γ} (hg : Stable g) (hr : ∀ k, Keeps g (recv k))
    (hc : ∀ k, Keeps g (chooseId k)) (hdr : EipHeader) : Keeps g (registerSession hdr) := by
  unfold registerSession
  refine keeps_bind (hr _) fun b => keeps_bind (hc _) fun _ => keeps_bind (fun st => hg.hdl st _) fun _ => ?_
  exact keeps_send hg _ _

/-- The part of the state an iteration of the loop changes only by opening and closing. -/
def tab (st : St) : ConnTable × Nat := (st.srv.conns, st.srv.nextRef)

theorem stable_tab : Stable tab := ⟨fun _ _ => rfl, fun _ _ => rfl, fun _ _ => rfl⟩

theorem keeps_tab_recv (n : Nat) : Keeps tab (recv n) := by
  intro st; unfold recv; split <;> rfl

theorem keeps_tab_recvItems : Keeps tab recvItems := by
  intro st; unfold recvItems; split <;> rfl

theorem keeps_tab_chooseId (k : BitVec 32) : Keeps tab (chooseId k) := by
  intro st; unfold chooseId; split <;> rfl

theorem readN_cases (n : Nat) (d : Bytes) : (∃ e, readN n d = .err e) ∨ ∃ a b, readN n d = .ok (a, b) := by
  cases h : readN n d with
  | ok p => exact .inr ⟨p.1, p.2, rfl⟩
  | err e => exact .inl ⟨e, rfl⟩
  | panic => have := readN_safe n d; simp [h] at this

/-- A forward open of any bytes changes nothing in the table or adds the connection that was asked for. -/
theorem forwardOpen_tab (large : Bool) (d : Bytes) (hs : d.head? = some (if large then 0x5B#8 else 0x54#8))
    (inp : Bytes) (hi : Unconnected inp d) (st : St) :
    tab (forwardOpen large d st).2 = tab st ∨
      ∃ c, Asks inp (.add c) ∧ c.ref = st.srv.nextRef ∧
        tab (forwardOpen large d st).2 = (st.srv.conns.add c, st.srv.nextRef + 1) := by
  cases hf : readFwdOpen large d with
  | err e => left; unfold forwardOpen; rw [hf, bind_def]; rfl
  | panic => left; unfold forwardOpen; rw [hf, bind_def]; rfl
  | ok p =>
    obtain ⟨f, r⟩ := p
    cases hp : readN (f.psize * 2#8).toNat r with
    | err e => left; unfold forwardOpen; rw [hf, lift_ok_bind]; simp only; rw [hp, bind_def]; rfl
    | panic => left; unfold forwardOpen; rw [hf, lift_ok_bind]; simp only; rw [hp, bind_def]; rfl
    | ok q =>
      obtain ⟨fpath, more⟩ := q
      by_cases hl : fpath.length < 2
      · left
        unfold forwardOpen
        rw [hf, lift_ok_bind]
        simp only
        rw [hp, lift_ok_bind]
        simp only
        rw [if_pos hl]
        rfl
      · right
        obtain ⟨ot, to, h1, h2, h3, h4, -, -⟩ := forwardOpen_core large d r fpath more f hf hp (by omega) st
        obtain ⟨hd, x, p1, p2, l0, -, lx, l1, l2, e⟩ := fwdOpen_bytes hf
        obtain ⟨-, er⟩ := readN_ok hp
        refine ⟨{ ref := st.srv.nextRef, id := f.serial, ot, to, rpi := f.torpi, path := fpath.take 2 }, ?_, rfl, ?_⟩
        · refine ⟨⟨large, hd.tail, f.ot, f.to, f.serial, f.vendor, f.oserial, x, f.otrpi, p1, f.torpi, p2, f.trigger,
            f.psize, fpath, more⟩, ⟨by simp [l0], lx, l1, l2⟩, by simp only; omega, ?_, rfl, h1, h2, rfl, rfl⟩
          have hb : OpenReq.bytes ⟨large, hd.tail, f.ot, f.to, f.serial, f.vendor, f.oserial, x, f.otrpi, p1, f.torpi, p2,
              f.trigger, f.psize, fpath, more⟩ = d := by
            cases hd with
            | nil => simp at l0
            | cons a b =>
              have ha : a = if large then 0x5B#8 else 0x54#8 := by rw [e] at hs; simpa using hs
              rw [e, er, ha]
              simp only [OpenReq.bytes, OpenReq.service, List.tail_cons, List.cons_append]
              rfl
          rw [hb]
          exact hi
        · simp only [tab, h3, h4]

/-- A forward close of any bytes changes nothing in the table or does the close that was asked for. -/
theorem forwardClose_tab (d : Bytes) (hs : d.head? = some 0x4E#8) (inp : Bytes) (hi : Unconnected inp d) (st : St) :
    tab (forwardClose d st).2 = tab st ∨
      ∃ k, Asks inp (.closeID k) ∧
        tab (forwardClose d st).2 = ((st.srv.conns.closeByID k).2, st.srv.nextRef) := by
  rcases readN_cases 17 d with ⟨e, h⟩ | ⟨b, r, h⟩
  · left; unfold forwardClose; rw [h, bind_def]; rfl
  · right
    obtain ⟨hl, hd⟩ := readN_ok h
    obtain ⟨k, hk⟩ := readBV_of_length 2 (b.drop 8) (by simp [hl]) 16 rfl
    have ek := readBV_ok (by decide) hk
    have hb8 : b = b.take 8 ++ (putBV k ++ (b.drop 8).drop 2) := by rw [← ek, List.take_append_drop]
    have h0 : b.take 8 = 0x4E#8 :: (b.take 8).tail := by
      cases b with
      | nil => simp at hl
      | cons x xs => rw [hd] at hs; simp at hs; simp [hs]
    have hw : (b.drop 8).drop 2 = ((b.drop 8).drop 2).take 6 ++ [((b.drop 8).drop 2).getD 6 0#8] := by
      have hlen : ((b.drop 8).drop 2).length = 7 := by simp [hl]
      generalize (b.drop 8).drop 2 = w at hlen
      match w, hlen with
      | [a, b, c, d, e, f, g], _ => rfl
    let q : CloseReq := ⟨(b.take 8).tail, k, ((b.drop 8).drop 2).take 6, ((b.drop 8).drop 2).getD 6 0#8, r⟩
    have hq : q.wf := ⟨by simp [q, hl], by simp [q, hl]⟩
    have hqb : q.bytes = d := by
      rw [hd]
      conv => rhs; rw [hb8, hw, h0]
      simp [q, CloseReq.bytes, putBV]
    refine ⟨k, ⟨q, hq, by rw [hqb]; exact hi, rfl⟩, ?_⟩
    have := forwardClose_run q hq st
    rw [hqb] at this
    simp only [tab, this.1, this.2.1]
    rfl

/-- One iteration of the loop, on any bytes, changes nothing in the connection table or does what the peer
asked for. -/
theorem C39_step (C : Conv) (st : St) :
    tab (serveStep C st).2 = tab st ∨
      (∃ c, Asks st.inp (.add c) ∧ c.ref = st.srv.nextRef ∧
        tab (serveStep C st).2 = (st.srv.conns.add c, st.srv.nextRef + 1)) ∨
      (∃ k, Asks st.inp (.closeID k) ∧
        tab (serveStep C st).2 = ((st.srv.conns.closeByID k).2, st.srv.nextRef)) := by
  cases hh : readEIPHeader st.inp with
  | err e => left; unfold serveStep; rw [bind_def]; simp only [recvHeader, hh]; rfl
  | panic => left; unfold serveStep; rw [bind_def]; simp only [recvHeader, hh]
  | ok p =>
    obtain ⟨hdr, rest0⟩ := p
    have e0 := header_ok hh
    have hrun : serveStep C st = dispatch C hdr
        { st with inp := rest0, h := { st.h with context := hdr.context } } := by
      unfold serveStep
      rw [bind_def]
      simp only [recvHeader, hh]
      rfl
    by_cases hcmd : hdr.command = 0x6F#16
    · have hrr : dispatch C hdr = handleRRData C := by simp [dispatch, hcmd]
      rw [hrun, hrr]
      generalize hst0 : ({ st with inp := rest0, h := { st.h with context := hdr.context } } : St) = st0
      have htab : tab st0 = tab st := by rw [← hst0]; rfl
      have hinp : st0.inp = rest0 := by rw [← hst0]
      unfold handleRRData
      rw [bind_def]
      rcases readN_cases 4 st0.inp with ⟨e, h4⟩ | ⟨b4, r4, h4⟩
      · left; simp only [recv, h4]; exact htab
      simp only [recv, h4]
      rw [bind_def]
      rcases readN_cases 2 r4 with ⟨e, h2⟩ | ⟨b2, r2, h2⟩
      · left; simp only [recv, h2]; exact htab
      simp only [recv, h2]
      rw [bind_def]
      cases hi : readItems r2 with
      | err e => left; simp only [recvItems, hi]; exact htab
      | panic => left; simp only [recvItems, hi]; exact htab
      | ok p =>
        obtain ⟨its, rest⟩ := p
        simp only [recvItems, hi]
        obtain ⟨hs, -, hall⟩ := (C04_items_hostile r2).2 _ _ hi
        generalize hst1 : ({ st0 with inp := rest } : St) = st1
        have htab1 : tab st1 = tab st := by rw [← hst1]; exact htab
        have hc1 : st1.srv.conns = st.srv.conns := congrArg Prod.fst htab1
        have hn1 : st1.srv.nextRef = st.srv.nextRef := congrArg Prod.snd htab1
        by_cases hspecial : ∃ i0 i1, its = [i0, i1] ∧ i1.id = 0xB2#16 ∧
            (i1.data.head? = some 0x54#8 ∨ i1.data.head? = some 0x5B#8 ∨ i1.data.head? = some 0x4E#8)
        · obtain ⟨i0, i1, rfl, hid, hsv⟩ := hspecial
          have hu : Unconnected st.inp i1.data := by
            refine ⟨⟨hdr.command, hdr.length, hdr.session, hdr.status, hdr.context, hdr.options, b4 ++ b2, i0.id,
              i0.data, i1.id, i1.data⟩, rest, ⟨?_, ?_, ?_⟩, ?_, hcmd, hid, rfl⟩
            · simp [(readN_ok h4).1, (readN_ok h2).1]
            · rw [← (hall i0 (by simp)).2]; exact i0.length.isLt
            · rw [← (hall i1 (by simp)).2]; exact i1.length.isLt
            · rw [e0, ← hinp, (readN_ok h4).2, (readN_ok h2).2, hs, req_header]
              simp
          have hrun1 : rrItems C [i0, i1] st1 = unconnectedData C i1.data st1 := by
            simp only [rrItems, hid]
            rw [if_neg (by simp), if_pos trivial]
          rw [hrun1]
          obtain ⟨svc, body, hd⟩ : ∃ svc body, i1.data = svc :: body := by
            cases h : i1.data with
            | nil => simp [h] at hsv
            | cons a b => exact ⟨a, b, rfl⟩
          have hun : unconnectedData C i1.data st1 =
              (if svc = 0x54#8 then forwardOpen false i1.data
              else if svc = 0x5B#8 then forwardOpen true i1.data
              else if svc = 0x4E#8 then forwardClose i1.data
              else if svc = 0x01#8 then unconnectedGetAttributeAll body
              else if svc = 0x0E#8 then unconnectedGetAttrSingle body
              else if svc = 0x10#8 then unconnectedSetAttrSingle C body
              else if svc = 0x52#8 then unconnectedSend C body
              else sendUnconn svc 0x08#8 []) st1 := by
            have hb : readBV 8 i1.data = .ok (svc, body) := by rw [hd]; exact readBV_cons8 _ _
            unfold unconnectedData
            rw [hb, lift_ok_bind]
          rw [hun]
          have hsv' : svc = 0x54#8 ∨ svc = 0x5B#8 ∨ svc = 0x4E#8 := by
            rw [hd] at hsv; simpa using hsv
          rcases hsv' with rfl | rfl | rfl
          · rw [if_pos rfl]
            rcases forwardOpen_tab false i1.data (by rw [hd]; rfl) st.inp hu st1 with h | ⟨c, h1, h2, h3⟩
            · exact .inl (h.trans htab1)
            · exact .inr (.inl ⟨c, h1, by rw [h2, hn1], by rw [h3, hc1, hn1]⟩)
          · rw [if_neg (by decide), if_pos rfl]
            rcases forwardOpen_tab true i1.data (by rw [hd]; rfl) st.inp hu st1 with h | ⟨c, h1, h2, h3⟩
            · exact .inl (h.trans htab1)
            · exact .inr (.inl ⟨c, h1, by rw [h2, hn1], by rw [h3, hc1, hn1]⟩)
          · rw [if_neg (by decide), if_neg (by decide), if_pos rfl]
            rcases forwardClose_tab i1.data (by rw [hd]; rfl) st.inp hu st1 with h | ⟨k, h1, h3⟩
            · exact .inl (h.trans htab1)
            · exact .inr (.inr ⟨k, h1, by rw [h3, hc1, hn1]⟩)
        · left
          rw [keeps_rrItems stable_tab C its ?_ ?_ st1]
          · exact htab1
          · intro i0 i1 large he hid hsv
            exact absurd ⟨i0, i1, he, hid, by cases large <;> simp at hsv <;> simp [hsv]⟩ hspecial
          · intro i0 i1 he hid hsv
            exact absurd ⟨i0, i1, he, hid, .inr (.inr hsv)⟩ hspecial
    · left
      rw [hrun]
      have hk : Keeps tab (dispatch C hdr) := by
        unfold dispatch
        refine keeps_ite (keeps_registerSession stable_tab keeps_tab_recv keeps_tab_chooseId hdr) ?_
        rw [if_neg hcmd]
        refine keeps_ite ?_ (keeps_ite (keeps_send stable_tab _ _) (keeps_ite ?_ (keeps_pure _)))
        · unfold handleUnitData
          exact keeps_bind (keeps_tab_recv _) fun _ => keeps_bind (keeps_tab_recv _) fun _ =>
            keeps_bind keeps_tab_recvItems fun its => keeps_unitItems stable_tab C its
        · unfold sendListIdentity
          exact keeps_bind (keeps_look _) fun _ => keeps_send stable_tab _ _
      exact hk _

/-- The same, and the first case does not apply to well-formed requests to open or close. -/
theorem C39_step' (C : Conv) (st : St) :
    (¬ Orders st.inp ∧ tab (serveStep C st).2 = tab st) ∨
      (∃ c, Asks st.inp (.add c) ∧ c.ref = st.srv.nextRef ∧
        tab (serveStep C st).2 = (st.srv.conns.add c, st.srv.nextRef + 1)) ∨
      (∃ k, Asks st.inp (.closeID k) ∧
        tab (serveStep C st).2 = ((st.srv.conns.closeByID k).2, st.srv.nextRef)) := by
  by_cases hq : ∃ q : CloseReq, q.wf ∧ Unconnected st.inp q.bytes
  · obtain ⟨q, hq, hi⟩ := hq
    obtain ⟨st0, hs, hsrv, -⟩ := serveStep_unconnected C st _ hi
    rw [unconnectedData_close] at hs
    refine .inr (.inr ⟨q.serial, ⟨q, hq, hi, rfl⟩, ?_⟩)
    rw [hs]
    simp only [tab, (forwardClose_run q hq st0).1, (forwardClose_run q hq st0).2.1, hsrv]
  rcases C39_step C st with h | h | h
  · refine .inl ⟨?_, h⟩
    rintro (⟨o, ho, hi⟩ | h')
    · obtain ⟨c, -, -, h1, -⟩ := C39_open C st o ho hi
      have h2 : (serveStep C st).2.srv.conns.conns = st.srv.conns.conns := by
        simp only [tab, Prod.mk.injEq] at h; rw [h.1]
      rw [h1] at h2
      have := congrArg List.length h2
      simp [ConnTable.add] at this
    · exact hq h'
  · exact .inr (.inl h)
  · exact .inr (.inr h)

/-- The requests the server serves, in the order in which they reach the connection table: each is served on
some TCP connection (its handler state and the bytes it has received). An iteration of a loop uses the table
at most once, so every interleaving of several loops is such an order. -/
def serveAll (C : Conv) : Srv → List (Handler × Bytes) → Srv
  | srv, [] => srv
  | srv, (h, inp) :: evs => serveAll C (serveStep C { h, srv, inp, sent := [] }).2.srv evs

theorem serveAll_snoc (C : Conv) (evs : List (Handler × Bytes)) (e : Handler × Bytes) (srv : Srv) :
    serveAll C srv (evs ++ [e]) =
      (serveStep C { h := e.1, srv := serveAll C srv evs, inp := e.2, sent := [] }).2.srv := by
  induction evs generalizing srv with
  | nil => rfl
  | cons a as ih => exact ih _

theorem joinLast_nodup {as bs : List Conn} {x : Conn} (h : (as ++ x :: bs).Nodup) : (joinLast as bs).Nodup := by
  have h' : (as ++ bs).Nodup := by
    simp only [List.nodup_append, List.nodup_cons, List.mem_cons] at h ⊢
    exact ⟨h.1, h.2.1.2, fun a ha b hb => h.2.2 a ha b (.inr hb)⟩
  unfold joinLast
  cases hb : bs.getLast? with
  | none => simp only; exact (List.nodup_append.mp h').1
  | some y =>
    obtain ⟨ys, rfl⟩ := List.getLast?_eq_some_iff.mp hb
    simp only [List.dropLast_concat]
    refine (List.Perm.nodup_iff ?_).mp h'
    exact List.Perm.append_left as (List.perm_append_comm (l₁ := ys) (l₂ := [y]))

/-- The table after any requests is the result of operations the requests have asked for, and the
connections opened are numbered. -/
theorem serveAll_table (C : Conv) (srv : Srv) (hc : srv.conns = ConnTable.init) (evs : List (Handler × Bytes)) :
    ∃ h, Asked evs h ∧ (serveAll C srv evs).conns = connRun h ∧
      (∀ c, ConnOp.add c ∈ h → c.ref < (serveAll C srv evs).nextRef) ∧
      (∀ pre c post, h = pre ++ .add c :: post → ∀ c', .add c' ∈ pre → c'.ref < c.ref) := by
  induction hn : evs.length generalizing evs with
  | zero =>
    obtain rfl : evs = [] := List.eq_nil_of_length_eq_zero hn
    exact ⟨[], .nil, hc, by simp, by simp⟩
  | succ n ih =>
    obtain ⟨evs', e, rfl⟩ : ∃ l e, evs = l ++ [e] :=
      ⟨evs.dropLast, evs.getLast (by intro h; simp [h] at hn), (List.dropLast_concat_getLast _).symm⟩
    obtain ⟨h, ha, ht, hr, ho⟩ := ih evs' (by simpa using hn)
    rw [serveAll_snoc]
    have hstep := C39_step' C { h := e.1, srv := serveAll C srv evs', inp := e.2, sent := [] }
    generalize hsrv' : (serveStep C { h := e.1, srv := serveAll C srv evs', inp := e.2, sent := [] }).2 = st' at hstep
    simp only [tab] at hstep
    rcases hstep with ⟨h0, h1⟩ | ⟨c, h1, h2, h3⟩ | ⟨k, h1, h3⟩
    · injection h1 with e1 e2
      exact ⟨h, .skip e ha h0, by rw [e1, ht], by rw [e2]; exact hr, ho⟩
    · injection h3 with e1 e2
      refine ⟨h ++ [.add c], .op e ha h1, by rw [e1, ht, connRun_snoc]; rfl, ?_, ?_⟩
      · intro d hd
        rw [e2]
        simp only [List.mem_append, List.mem_singleton, ConnOp.add.injEq] at hd
        rcases hd with hd | rfl
        · have := hr d hd; omega
        · rw [h2]; omega
      · intro pre d post he c' hc'
        rcases List.eq_nil_or_concat post with rfl | ⟨post', x, rfl⟩
        · have := List.append_inj' he rfl
          obtain ⟨rfl, h5⟩ := this
          simp only [List.cons.injEq, ConnOp.add.injEq, and_true] at h5
          rw [← h5, h2]
          exact hr c' hc'
        · rw [List.concat_eq_append, ← List.cons_append, ← List.append_assoc] at he
          exact ho pre d post' (List.append_inj' he rfl).1 c' hc'
    · injection h3 with e1 e2
      refine ⟨h ++ [.closeID k], .op e ha h1, by rw [e1, ht, connRun_snoc]; rfl, ?_, ?_⟩
      · intro d hd
        rw [e2]
        simp only [List.mem_append, List.mem_singleton, reduceCtorEq, or_false] at hd
        exact hr d hd
      · intro pre d post he c' hc'
        rcases List.eq_nil_or_concat post with rfl | ⟨post', x, rfl⟩
        · have := List.append_inj' he rfl
          obtain ⟨rfl, h5⟩ := this
          simp at h5
        · rw [List.concat_eq_append, ← List.cons_append, ← List.append_assoc] at he
          exact ho pre d post' (List.append_inj' he rfl).1 c' hc'

/-- The table after operations that number the connections and open no serial number twice at the same time
holds exactly the open connections. -/
theorem table_open (h : List ConnOp) (hop : ∀ o ∈ h, (∃ c, o = .add c) ∨ ∃ k, o = .closeID k)
    (ho : ∀ pre c post, h = pre ++ .add c :: post → ∀ c', ConnOp.add c' ∈ pre → c'.ref < c.ref)
    (hs : DistinctSerials h) :
    (∀ c, c ∈ (connRun h).conns ↔ OpenAfter h c) ∧ (connRun h).conns.Nodup ∧
      (∀ c ∈ (connRun h).conns, ∀ d ∈ (connRun h).conns, c.id = d.id → c = d) := by
  induction hn : h.length generalizing h with
  | zero =>
    obtain rfl : h = [] := List.eq_nil_of_length_eq_zero hn
    refine ⟨fun c => ⟨fun hc => by simp [connRun, ConnTable.init] at hc, fun hc => absurd hc (openAfter_nil c)⟩, ?_, ?_⟩ <;>
      simp [connRun, ConnTable.init]
  | succ n ih =>
    obtain ⟨h', o, rfl⟩ : ∃ l e, h = l ++ [e] :=
      ⟨h.dropLast, h.getLast (by intro e; simp [e] at hn), (List.dropLast_concat_getLast _).symm⟩
    obtain ⟨h1, h2, h3⟩ := ih h' (fun o ho => hop o (by simp [ho]))
      (fun pre c post he => ho pre c (post ++ [o]) (by simp [he]))
      (fun pre c post he => hs pre c (post ++ [o]) (by simp [he])) (by simpa using hn)
    rw [connRun_snoc]
    rcases hop o (by simp) with ⟨c, rfl⟩ | ⟨k, rfl⟩
    · have hnew : ∀ d ∈ (connRun h').conns, d.id ≠ c.id :=
        fun d hd => hs h' c [] (by simp) d ((h1 d).mp hd)
      have hadd : ((connRun h').apply (.add c)).conns = (connRun h').conns ++ [c] := rfl
      rw [hadd]
      refine ⟨fun d => ?_, ?_, ?_⟩
      · rw [openAfter_snoc_add, ← h1]
        simp
      · rw [List.nodup_append]
        refine ⟨h2, by simp, fun a ha b hb hab => ?_⟩
        simp only [List.mem_singleton] at hb
        subst hb; subst hab
        exact hnew a ha rfl
      · intro a ha b hb hab
        simp only [List.mem_append, List.mem_singleton] at ha hb
        rcases ha with ha | rfl <;> rcases hb with hb | rfl
        · exact h3 a ha b hb hab
        · exact absurd hab (hnew a ha)
        · exact absurd hab.symm (hnew b hb)
        · rfl
    · have hcl : (connRun h').apply (.closeID k) = ((connRun h').closeByID k).2 := rfl
      rw [hcl, ConnTable.closeByID]
      have hopen : ∀ c, OpenAfter (h' ++ [.closeID k]) c ↔ c ∈ (connRun h').conns ∧ c.id ≠ k := by
        intro c
        rw [openAfter_snoc_close (by simp), h1]
        simp [ConnOp.closes]
      cases hf : (connRun h').conns.find? (·.id == k) with
      | none =>
        rw [closeBy_none hf]
        have := List.find?_eq_none.mp hf
        refine ⟨fun c => ?_, h2, h3⟩
        rw [hopen]
        exact ⟨fun hc => ⟨hc, by simpa using this c hc⟩, fun hc => hc.1⟩
      | some x =>
        obtain ⟨as, bs, hl, hx, ha⟩ := find_split hf
        have hxs : x.id = k := by simpa using hx
        rw [closeBy_split hl hx ha]
        simp only [mem_joinLast]
        rw [hl] at h2 h3
        have hmem : ∀ c, c ∈ as ∨ c ∈ bs → c ∈ as ++ x :: bs := by
          intro c hc; rcases hc with h | h <;> simp [h]
        refine ⟨fun c => ?_, ?_, fun a ha b hb => h3 a (hmem a ha) b (hmem b hb)⟩
        · rw [hopen, hl]
          constructor
          · intro hc
            refine ⟨hmem c hc, fun he => ?_⟩
            have hcx : c = x := h3 c (hmem c hc) x (by simp) (by rw [he, hxs])
            subst hcx
            rw [List.nodup_append] at h2
            rcases hc with h | h
            · exact h2.2.2 c h c (by simp) rfl
            · exact (List.nodup_cons.mp h2.2.1).1 h
          · rintro ⟨hc, hne⟩
            simp only [List.mem_append, List.mem_cons] at hc
            rcases hc with h | rfl | h
            · exact .inl h
            · exact absurd hxs hne
            · exact .inr h
        · exact joinLast_nodup h2

/-- C39, histories: the connection table after any requests holds exactly the connections that requests have
opened and none has closed since, if no serial number is opened while it is in use. -/
theorem C39_table_partial (C : Conv) (srv : Srv) (hc : srv.conns = ConnTable.init) (evs : List (Handler × Bytes)) :
    ∃ h, Asked evs h ∧ (DistinctSerials h →
      (∀ c, c ∈ (serveAll C srv evs).conns.conns ↔ OpenAfter h c) ∧
      (serveAll C srv evs).conns.conns.Nodup ∧
      ∀ c ∈ (serveAll C srv evs).conns.conns, ∀ d ∈ (serveAll C srv evs).conns.conns, c.id = d.id → c = d) := by
  obtain ⟨h, ha, ht, -, ho⟩ := serveAll_table C srv hc evs
  refine ⟨h, ha, fun hs => ?_⟩
  rw [ht]
  refine table_open h ?_ ho hs
  clear ht ho hs
  induction ha with
  | nil => simp
  | skip e _ _ ih => exact ih
  | op e _ hop ih =>
    intro o' ho'
    simp only [List.mem_append, List.mem_singleton] at ho'
    rcases ho' with h | rfl
    · exact ih o' h
    · cases o' with
      | add c => exact .inl ⟨c, rfl⟩
      | closeID k => exact .inr ⟨k, rfl⟩
      | _ => exact absurd hop (by simp [Asks])

/-! ### Concrete requests -/

/-- An open request with serial number 0x0203 from originator 0x01020304. -/
def openDemo (serial : BitVec 16) : OpenReq where
  large := false
  head := [2, 0x20, 6, 0x24, 1, 7, 0xE9]
  ot := 0#32
  to := 0x55#32
  serial := serial
  vendor := 0x1234#16
  oserial := 0x01020304#32
  mult := [3, 0, 0, 0]
  otrpi := 0x1000#32
  otpar := [0xF4, 0x43]
  torpi := 0x2000#32
  topar := [0xF4, 0x43]
  trigger := 0xA3#8
  words := 3#8
  path := [1, 0, 0x20, 2, 0x24, 1]
  more := []

/-- A close request from a vendor and originator of its own. -/
def closeDemo (serial : BitVec 16) : CloseReq where
  head := [2, 0x20, 6, 0x24, 1, 7, 0xE9]
  serial := serial
  ids := [0x99, 0x99, 9, 9, 9, 9]
  words := 0#8
  more := [1, 0, 0, 0]

/-- A frame is an unconnected request for its data. -/
theorem demo_unconnected (d : Bytes) (h : d.length < 65536) : Unconnected (demoRR d).bytes d :=
  ⟨demoRR d, [], ⟨rfl, Nat.zero_lt_of_lt h, h⟩, by simp, rfl, rfl, rfl⟩

example : ∃ c : Conn, c.ref = 1 ∧
    (serveStep demoConv (demoSt (demoRR (openDemo 0x0203#16).bytes).bytes)).2.srv.conns = demoSrv.conns.add c ∧
    ∃ f, newFrames (demoSt (demoRR (openDemo 0x0203#16).bytes).bytes)
        (serveStep demoConv (demoSt (demoRR (openDemo 0x0203#16).bytes).bytes)).2 = [f] ∧
      rrData f = (openDemo 0x0203#16).reply c.ot c.to := by
  obtain ⟨c, -, h1, h2, h3⟩ := C39_open demoConv (demoSt (demoRR (openDemo 0x0203#16).bytes).bytes) (openDemo 0x0203#16)
    (by decide) (demo_unconnected _ (by decide))
  exact ⟨c, h1, h2, h3⟩

/-- The connection of the demo server is gone after its close, and the peer is not told. -/
example : (∀ c, c ∉ (serveStep demoConv (demoSt (demoRR (closeDemo 7#16).bytes).bytes)).2.srv.conns.conns) ∧
    newFrames (demoSt (demoRR (closeDemo 7#16).bytes).bytes)
      (serveStep demoConv (demoSt (demoRR (closeDemo 7#16).bytes).bytes)).2 = [] := by
  refine ⟨fun c hc => ?_, C39_close_not_acknowledged demoConv _ (closeDemo 7#16) (by decide) (demo_unconnected _ (by decide))⟩
  rw [C39_close demoConv _ (closeDemo 7#16) (by decide) (demo_unconnected _ (by decide))
    (by intro c hc d hd _; simp [demoSt, demoSrv, ConnTable.add, ConnTable.init] at hc hd; rw [hc, hd])
    (by simp [demoSt, demoSrv, ConnTable.add, ConnTable.init])] at hc
  simp [demoSt, demoSrv, ConnTable.add, ConnTable.init, closeDemo] at hc
  exact hc.2 (by rw [hc.1])

/-- C39 is false without distinct serial numbers: originators number their connections themselves, and with two
open connections of the same number a close leaves one of them open. -/
theorem C39_serials_collide : ∃ (srv : Srv) (evs : List (Handler × Bytes)) (k : BitVec 16),
    srv.conns = ConnTable.init ∧ (∃ evs' e, evs = evs' ++ [e] ∧ Asks e.2 (.closeID k)) ∧
    ∃ c ∈ (serveAll demoConv srv evs).conns.conns, c.id = k := by
  refine ⟨{ demoSrv with conns := ConnTable.init },
    [((demoSt []).h, (demoRR (openDemo 7#16).bytes).bytes), ((demoSt []).h, (demoRR (openDemo 7#16).bytes).bytes),
     ((demoSt []).h, (demoRR (closeDemo 7#16).bytes).bytes)], 7#16, rfl,
    ⟨[((demoSt []).h, (demoRR (openDemo 7#16).bytes).bytes), ((demoSt []).h, (demoRR (openDemo 7#16).bytes).bytes)],
      ((demoSt []).h, (demoRR (closeDemo 7#16).bytes).bytes), rfl,
      closeDemo 7#16, by decide, demo_unconnected _ (by decide), rfl⟩, by decide +kernel⟩

/-- C65 is false: a close is carried out whatever vendor and originator it names and whichever peer sends it. -/
theorem C65_close_by_anyone (C : Conv) (st : St) (q : CloseReq) (hq : q.wf) (hi : Unconnected st.inp q.bytes) :
    (∀ c ∈ st.srv.conns.conns, ∀ d ∈ st.srv.conns.conns, c.id = d.id → c = d) → st.srv.conns.conns.Nodup →
    ∀ c ∈ st.srv.conns.conns, c.id = q.serial → c ∉ (serveStep C st).2.srv.conns.conns := by
  intro hd hn c _ hcs hc'
  exact ((C39_close C st q hq hi hd hn c).mp hc').2 hcs

/-- C65 is false: a peer that has opened nothing removes the connection of another. -/
theorem C65_stranger_closes : ∃ (srv : Srv) (a b : Handler) (o : OpenReq) (q : CloseReq),
    o.wf ∧ q.wf ∧ le 2 o.vendor.toNat ++ le 4 o.oserial.toNat ≠ q.ids ∧ srv.conns = ConnTable.init ∧
    (serveAll demoConv srv [(a, (demoRR o.bytes).bytes)]).conns.conns ≠ [] ∧
    (serveAll demoConv srv [(a, (demoRR o.bytes).bytes), (b, (demoRR q.bytes).bytes)]).conns.conns = [] :=
  ⟨{ demoSrv with conns := ConnTable.init }, (demoSt []).h, { (demoSt []).h with handle := 0x77#32 },
    openDemo 7#16, closeDemo 7#16, by decide, by decide, by decide, rfl, by decide +kernel, by decide +kernel⟩

end Gologix.Server
