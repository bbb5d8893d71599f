import Verif.Spec.ServerSenders
import Verif.Props.ServerConn
/-
C95: for which connections the server sends cyclic data.
-/
set_option linter.unusedSimpArgs false

namespace Gologix.Server
open Gologix.Server.Spec M

/-- The random numbers left after an identifier has been chosen for a request that asks for `k`. -/
def restRnd (k : BitVec 32) (rnd : Nat → BitVec 32) : Nat → BitVec 32 :=
  if k = 0#32 then fun n => rnd (n + 1) else rnd

theorem chooseId_run (k : BitVec 32) (st : St) : chooseId k st =
    (.ok (usedId k (st.srv.rnd 0)), { st with srv := { st.srv with rnd := restRnd k st.srv.rnd } }) := by
  unfold chooseId usedId restRnd
  split <;> rfl

/-- A forward open that has been read, up to the start of cyclic data. -/
theorem forwardOpen_run (large : Bool) (d r fpath more : Bytes) (f : FwdOpen)
    (hf : readFwdOpen large d = .ok (f, r)) (hp : readN (f.psize * 2#8).toNat r = .ok (fpath, more))
    (hl : 2 ≤ fpath.length) (st : St) :
    ∃ st1 : St, forwardOpen large d st =
      (if f.trigger = 1#8 ∧ large = false then startIO f st.srv.nextRef (fpath.take 2) else pure ()) st1 ∧
      st1.srv = { st.srv with
        rnd := restRnd f.ot (restRnd f.to st.srv.rnd)
        nextRef := st.srv.nextRef + 1
        conns := st.srv.conns.add ⟨st.srv.nextRef, f.serial, usedId f.ot (restRnd f.to st.srv.rnd 0),
          usedId f.to (st.srv.rnd 0), f.torpi, fpath.take 2⟩ } := by
  unfold forwardOpen
  rw [hf, lift_ok_bind]
  simp only
  rw [hp, lift_ok_bind]
  simp only
  rw [if_neg (by omega), bind_def, chooseId_run]
  simp only
  rw [bind_def, chooseId_run]
  simp only
  rw [bind_def]
  simp only [M.modify]
  rw [bind_def]
  simp only [sendRR, send]
  rw [bind_def]
  simp only [addConn]
  exact ⟨_, rfl, rfl⟩

/-- What the sender list becomes. -/
theorem startIO_run (f : FwdOpen) (ref : Nat) (path : Bytes) (st : St) :
    startIO f ref path st =
      match st.srv.router.resolve path with
      | .ok ep =>
        if f.torpi = 0#32 then (.panic, st)
        else (.ok (), { st with srv := { st.srv with io := st.srv.io ++ [(ref, ep)] } })
      | .err e => (.err e, st)
      | .panic => (.panic, st) := by
  unfold startIO
  rw [bind_def]
  simp only [resolve]
  cases st.srv.router.resolve path with
  | ok ep => simp only; split <;> rfl
  | err e => rfl
  | panic => rfl

/-- A cyclic request as it is read. -/
theorem cyclic_read (o : OpenReq) (h : o.cyclic) :
    readFwdOpen o.large o.bytes = .ok (fwdOf o, o.path ++ o.more) ∧
      readN ((fwdOf o).psize * 2#8).toNat (o.path ++ o.more) = .ok (o.path, o.more) := by
  refine ⟨readFwdOpen_bytes o h.1, readN_exact _ _ _ ?_⟩
  rw [h.2.2.2, BitVec.toNat_mul]
  show _ = (o.words.toNat * 2) % 256
  rw [Nat.mul_comm]

/-- What the server does with a request for cyclic data. -/
theorem cyclic_run (C : Conv) (st : St) (o : OpenReq) (ho : o.cyclic) (hi : Unconnected st.inp o.bytes) :
    ∃ st1 : St, serveStep C st =
      (if o.large = false then startIO (fwdOf o) st.srv.nextRef (o.path.take 2) else pure ()) st1 ∧
      st1.srv.io = st.srv.io ∧ st1.srv.router = st.srv.router ∧
      ∃ c, st1.srv.conns = st.srv.conns.add c ∧ c.ref = st.srv.nextRef ∧ c.id = o.serial := by
  obtain ⟨st0, hs, hsrv, -⟩ := serveStep_unconnected C st _ hi
  obtain ⟨h1, h2⟩ := cyclic_read o ho
  obtain ⟨st1, h3, h4⟩ := forwardOpen_run o.large o.bytes _ _ _ _ h1 h2 ho.2.2.1 st0
  have ht : (fwdOf o).trigger = 1#8 := ho.2.1
  rw [unconnectedData_open, h3] at hs
  refine ⟨st1, ?_, by rw [h4, hsrv], by rw [h4, hsrv], _, by rw [h4, hsrv], rfl, rfl⟩
  rw [hs, hsrv]
  simp [ht]

/-- C95, the start: a request for cyclic data in the standard form, along a path that leads to an endpoint and
with an interval, starts one sender, for the connection it opens and with the data of that endpoint. The other
senders go on. -/
theorem C95_start (C : Conv) (st : St) (path : Bytes) (h : WantsData st.inp path) (ep : Nat)
    (he : st.srv.router.resolve path = .ok ep) :
    (serveStep C st).1 = .ok () ∧ (serveStep C st).2.srv.io = st.srv.io ++ [(st.srv.nextRef, ep)] ∧
      ∃ c, (serveStep C st).2.srv.conns = st.srv.conns.add c ∧ c.ref = st.srv.nextRef := by
  obtain ⟨o, ho, hl, ht, hi, rfl⟩ := h
  obtain ⟨st1, hs, hio, hr, c, hc, hcr, -⟩ := cyclic_run C st o ho hi
  rw [if_pos hl, startIO_run, hr, he] at hs
  simp only at hs
  rw [if_neg (show ¬ (fwdOf o).torpi = 0#32 from ht)] at hs
  rw [hs]
  exact ⟨rfl, by simp only [hio], c, hc, hcr⟩

/-- C95 is false for the large form: the connection is opened, and no data is ever sent. -/
theorem C95_large_no_data (C : Conv) (st : St) (o : OpenReq) (ho : o.cyclic) (hl : o.large = true)
    (hi : Unconnected st.inp o.bytes) :
    (serveStep C st).1 = .ok () ∧ (serveStep C st).2.srv.io = st.srv.io ∧
      ∃ c, (serveStep C st).2.srv.conns = st.srv.conns.add c ∧ c.id = o.serial := by
  obtain ⟨st1, hs, hio, -, c, hc, -, hcid⟩ := cyclic_run C st o ho hi
  rw [if_neg (by simp [hl])] at hs
  rw [hs]
  exact ⟨rfl, hio, c, hc, hcid⟩

/-- C95 is false for paths that lead nowhere: the connection is acknowledged and stays in the table, no data is
sent, and the session ends. -/
theorem C95_no_endpoint (C : Conv) (st : St) (o : OpenReq) (ho : o.cyclic) (hl : o.large = false)
    (hi : Unconnected st.inp o.bytes) (e : Err) (he : st.srv.router.resolve (o.path.take 2) = .err e) :
    (serveStep C st).1 = .err e ∧ (serveStep C st).2.srv.io = st.srv.io ∧
      ∃ c, (serveStep C st).2.srv.conns = st.srv.conns.add c ∧ c.id = o.serial := by
  obtain ⟨st1, hs, hio, hr, c, hc, -, hcid⟩ := cyclic_run C st o ho hi
  rw [if_pos hl, startIO_run, hr, he] at hs
  rw [hs]
  exact ⟨rfl, hio, c, hc, hcid⟩

/-- C95: an interval of zero ends the whole server. -/
theorem C95_zero_interval (C : Conv) (st : St) (o : OpenReq) (ho : o.cyclic) (hl : o.large = false)
    (hi : Unconnected st.inp o.bytes) (ep : Nat) (he : st.srv.router.resolve (o.path.take 2) = .ok ep)
    (hz : o.torpi = 0#32) : (serveStep C st).1 = .panic := by
  obtain ⟨st1, hs, hio, hr, -⟩ := cyclic_run C st o ho hi
  rw [if_pos hl, startIO_run, hr, he] at hs
  simp only at hs
  rw [if_pos (show (fwdOf o).torpi = 0#32 from hz)] at hs
  rw [hs]

/-! ### Nothing else starts or stops a sender -/

/-- The senders and the routes. -/
def sends (st : St) : List (Nat × Nat) × Router Nat := (st.srv.io, st.srv.router)

theorem stable_sends : Stable sends := ⟨fun _ _ => rfl, fun _ _ => rfl, fun _ _ => rfl⟩

theorem keeps_sends_recv (n : Nat) : Keeps sends (recv n) := by
  intro st; unfold recv; split <;> rfl

theorem keeps_sends_recvItems : Keeps sends recvItems := by
  intro st; unfold recvItems; split <;> rfl

theorem keeps_sends_chooseId (k : BitVec 32) : Keeps sends (chooseId k) := by
  intro st; unfold chooseId; split <;> rfl

theorem keeps_sends_close (d : Bytes) : Keeps sends (forwardClose d) := by
  unfold forwardClose
  refine keeps_bind (keeps_lift _) fun ⟨b, r⟩ => keeps_bind (keeps_lift _) fun ⟨serial, _⟩ => ?_
  exact keeps_bind (fun _ => rfl) fun _ => keeps_bind (keeps_lift _) fun _ => keeps_pure _

/-- A forward open of any bytes starts a sender only if the request wants one. -/
theorem forwardOpen_sends (large : Bool) (d : Bytes) (hs : d.head? = some (if large then 0x5B#8 else 0x54#8))
    (inp : Bytes) (hi : Unconnected inp d) (st : St) :
    sends (forwardOpen large d st).2 = sends st ∨
      ∃ path ep, WantsData inp path ∧ st.srv.router.resolve path = .ok ep ∧
        sends (forwardOpen large d st).2 = (st.srv.io ++ [(st.srv.nextRef, ep)], st.srv.router) := by
  cases hf : readFwdOpen large d with
  | err e => left; unfold forwardOpen; rw [hf, bind_def]; rfl
  | panic => left; unfold forwardOpen; rw [hf, bind_def]; rfl
  | ok p =>
    obtain ⟨f, r⟩ := p
    cases hp : readN (f.psize * 2#8).toNat r with
    | err e => left; unfold forwardOpen; rw [hf, lift_ok_bind]; simp only; rw [hp, bind_def]; rfl
    | panic => left; unfold forwardOpen; rw [hf, lift_ok_bind]; simp only; rw [hp, bind_def]; rfl
    | ok q =>
      obtain ⟨fpath, more⟩ := q
      by_cases hl : fpath.length < 2
      · left
        unfold forwardOpen
        rw [hf, lift_ok_bind]
        simp only
        rw [hp, lift_ok_bind]
        simp only
        rw [if_pos hl]
        rfl
      · obtain ⟨st1, hrun, hsrv⟩ := forwardOpen_run large d r fpath more f hf hp (by omega) st
        have hio : st1.srv.io = st.srv.io := by rw [hsrv]
        have hro : st1.srv.router = st.srv.router := by rw [hsrv]
        rw [hrun]
        by_cases ht : f.trigger = 1#8 ∧ large = false
        · rw [if_pos ht, startIO_run, hro]
          cases hr : st.srv.router.resolve (fpath.take 2) with
          | err e => left; simp only [sends, hio, hro]
          | panic => left; simp only [sends, hio, hro]
          | ok ep =>
            simp only
            by_cases hz : f.torpi = 0#32
            · left; rw [if_pos hz]; simp only [sends, hio, hro]
            · right
              rw [if_neg hz]
              obtain ⟨hd, x, p1, p2, l0, -, lx, l1, l2, e⟩ := fwdOpen_bytes hf
              obtain ⟨el, er⟩ := readN_ok hp
              refine ⟨fpath.take 2, ep, ?_, hr, by simp only [sends, hio, hro]⟩
              refine ⟨⟨large, hd.tail, f.ot, f.to, f.serial, f.vendor, f.oserial, x, f.otrpi, p1, f.torpi, p2, f.trigger,
                f.psize, fpath, more⟩, ⟨⟨by simp [l0], lx, l1, l2⟩, ht.1, by simp only; omega, ?_⟩, ht.2, hz, ?_, rfl⟩
              · simp only
                rw [el, BitVec.toNat_mul]
                show (f.psize.toNat * 2) % 256 = _
                rw [Nat.mul_comm]
              · have hb : OpenReq.bytes ⟨large, hd.tail, f.ot, f.to, f.serial, f.vendor, f.oserial, x, f.otrpi, p1,
                    f.torpi, p2, f.trigger, f.psize, fpath, more⟩ = d := by
                  cases hd with
                  | nil => simp at l0
                  | cons a b =>
                    have ha : a = if large then 0x5B#8 else 0x54#8 := by rw [e] at hs; simpa using hs
                    rw [e, er, ha]
                    simp only [OpenReq.bytes, OpenReq.service, List.tail_cons, List.cons_append]
                    rfl
                rw [hb]
                exact hi
        · left
          rw [if_neg ht]
          show (st1.srv.io, st1.srv.router) = _
          rw [hio, hro]
          rfl

/-- An unconnected request in any input that is not a forward open leaves the senders alone; the result of an
iteration on one that is. -/
theorem step_sends (C : Conv) (st : St) :
    sends (serveStep C st).2 = sends st ∨
      ∃ path ep, WantsData st.inp path ∧ st.srv.router.resolve path = .ok ep ∧
        sends (serveStep C st).2 = (st.srv.io ++ [(st.srv.nextRef, ep)], st.srv.router) := by
  cases hh : readEIPHeader st.inp with
  | err e => left; unfold serveStep; rw [bind_def]; simp only [recvHeader, hh]; rfl
  | panic => left; unfold serveStep; rw [bind_def]; simp only [recvHeader, hh]
  | ok p =>
    obtain ⟨hdr, rest0⟩ := p
    have e0 := header_ok hh
    have hrun : serveStep C st = dispatch C hdr
        { st with inp := rest0, h := { st.h with context := hdr.context } } := by
      unfold serveStep
      rw [bind_def]
      simp only [recvHeader, hh]
      rfl
    by_cases hcmd : hdr.command = 0x6F#16
    · have hrr : dispatch C hdr = handleRRData C := by simp [dispatch, hcmd]
      rw [hrun, hrr]
      generalize hst0 : ({ st with inp := rest0, h := { st.h with context := hdr.context } } : St) = st0
      have hsrv0 : st0.srv = st.srv := by rw [← hst0]
      have htab : sends st0 = sends st := by simp only [sends, hsrv0]
      have hinp : st0.inp = rest0 := by rw [← hst0]
      unfold handleRRData
      rw [bind_def]
      rcases readN_cases 4 st0.inp with ⟨e, h4⟩ | ⟨b4, r4, h4⟩
      · left; simp only [recv, h4]; exact htab
      simp only [recv, h4]
      rw [bind_def]
      rcases readN_cases 2 r4 with ⟨e, h2⟩ | ⟨b2, r2, h2⟩
      · left; simp only [recv, h2]; exact htab
      simp only [recv, h2]
      rw [bind_def]
      cases hi : readItems r2 with
      | err e => left; simp only [recvItems, hi]; exact htab
      | panic => left; simp only [recvItems, hi]; exact htab
      | ok p =>
        obtain ⟨its, rest⟩ := p
        simp only [recvItems, hi]
        obtain ⟨hs, -, hall⟩ := (C04_items_hostile r2).2 _ _ hi
        generalize hst1 : ({ st0 with inp := rest } : St) = st1
        have hsrv1 : st1.srv = st.srv := by rw [← hst1]; exact hsrv0
        have htab1 : sends st1 = sends st := by simp only [sends, hsrv1]
        by_cases hspecial : ∃ (i0 i1 : Item) (large : Bool), its = [i0, i1] ∧ i1.id = 0xB2#16 ∧
            i1.data.head? = some (if large then 0x5B#8 else 0x54#8)
        · obtain ⟨i0, i1, large, rfl, hid, hsv⟩ := hspecial
          have hu : Unconnected st.inp i1.data := by
            refine ⟨⟨hdr.command, hdr.length, hdr.session, hdr.status, hdr.context, hdr.options, b4 ++ b2, i0.id,
              i0.data, i1.id, i1.data⟩, rest, ⟨?_, ?_, ?_⟩, ?_, hcmd, hid, rfl⟩
            · simp [(readN_ok h4).1, (readN_ok h2).1]
            · rw [← (hall i0 (by simp)).2]; exact i0.length.isLt
            · rw [← (hall i1 (by simp)).2]; exact i1.length.isLt
            · rw [e0, ← hinp, (readN_ok h4).2, (readN_ok h2).2, hs, req_header]
              simp
          have hrun1 : rrItems C [i0, i1] st1 = unconnectedData C i1.data st1 := by
            simp only [rrItems, hid]
            rw [if_neg (by simp), if_pos trivial]
          rw [hrun1]
          obtain ⟨svc, body, hd⟩ : ∃ svc body, i1.data = svc :: body := by
            cases h : i1.data with
            | nil => simp [h] at hsv
            | cons a b => exact ⟨a, b, rfl⟩
          have hun : unconnectedData C i1.data st1 = forwardOpen large i1.data st1 := by
            have hb : readBV 8 i1.data = .ok (svc, body) := by rw [hd]; exact readBV_cons8 _ _
            have hsv' : svc = if large then 0x5B#8 else 0x54#8 := by rw [hd] at hsv; simpa using hsv
            unfold unconnectedData
            rw [hb, lift_ok_bind]
            simp only
            cases large
            · rw [if_pos (by simpa using hsv')]
            · rw [if_neg (by rw [hsv']; decide), if_pos (by simpa using hsv')]
          rw [hun]
          have := forwardOpen_sends large i1.data hsv st.inp hu st1
          rw [htab1, hsrv1] at this
          exact this
        · left
          rw [keeps_rrItems stable_sends C its ?_ ?_ st1]
          · exact htab1
          · intro i0 i1 large he hid hsv
            exact absurd ⟨i0, i1, large, he, hid, hsv⟩ hspecial
          · intro i0 i1 he hid hsv
            exact keeps_sends_close _
    · left
      rw [hrun]
      have hk : Keeps sends (dispatch C hdr) := by
        unfold dispatch
        refine keeps_ite (keeps_registerSession stable_sends keeps_sends_recv keeps_sends_chooseId hdr) ?_
        rw [if_neg hcmd]
        refine keeps_ite ?_ (keeps_ite (keeps_send stable_sends _ _) (keeps_ite ?_ (keeps_pure _)))
        · unfold handleUnitData
          exact keeps_bind (keeps_sends_recv _) fun _ => keeps_bind (keeps_sends_recv _) fun _ =>
            keeps_bind keeps_sends_recvItems fun its => keeps_unitItems stable_sends C its
        · unfold sendListIdentity
          exact keeps_bind (keeps_look _) fun _ => keeps_send stable_sends _ _
      exact hk _

/-- C95: one iteration of the loop, on any bytes, starts no sender but the one the request wants, and stops
none. -/
theorem C95_only (C : Conv) (st : St) :
    (serveStep C st).2.srv.io = st.srv.io ∨
      ∃ path ep, WantsData st.inp path ∧ st.srv.router.resolve path = .ok ep ∧
        (serveStep C st).2.srv.io = st.srv.io ++ [(st.srv.nextRef, ep)] := by
  rcases step_sends C st with h | ⟨path, ep, h1, h2, h3⟩
  · exact .inl (congrArg Prod.fst h)
  · exact .inr ⟨path, ep, h1, h2, congrArg Prod.fst h3⟩

theorem serveAll_router (C : Conv) (srv : Srv) (evs : List (Handler × Bytes)) :
    (serveAll C srv evs).router = srv.router := by
  induction evs generalizing srv with
  | nil => rfl
  | cons e es ih =>
    show (serveAll C _ es).router = _
    rw [ih]
    rcases step_sends C { h := e.1, srv, inp := e.2, sent := [] } with h | ⟨_, _, _, _, h⟩
    · exact congrArg Prod.snd h
    · exact congrArg Prod.snd h

/-- C95, histories: whatever requests arrive, the senders are exactly those that some request wanted, along a
path with an endpoint: each for the connection that the request opened and with the data of its endpoint. -/
theorem C95_senders_partial (C : Conv) (srv : Srv) (h0 : srv.io = []) (evs : List (Handler × Bytes)) (ref ep : Nat) :
    (ref, ep) ∈ (serveAll C srv evs).io ↔
      ∃ pre e post path, evs = pre ++ e :: post ∧ WantsData e.2 path ∧ srv.router.resolve path = .ok ep ∧
        ref = (serveAll C srv pre).nextRef := by
  induction hn : evs.length generalizing evs with
  | zero =>
    obtain rfl : evs = [] := List.eq_nil_of_length_eq_zero hn
    constructor
    · intro h; rw [show (serveAll C srv []).io = srv.io from rfl, h0] at h; simp at h
    · rintro ⟨pre, e, post, path, h, -⟩; simp at h
  | succ n ih =>
    obtain ⟨evs', e, rfl⟩ : ∃ l e, evs = l ++ [e] :=
      ⟨evs.dropLast, evs.getLast (by intro h; simp [h] at hn), (List.dropLast_concat_getLast _).symm⟩
    have ih' := ih evs' (by simpa using hn)
    have hrest : (∃ pre e' post path, evs' ++ [e] = pre ++ e' :: post ∧ WantsData e'.2 path ∧
        srv.router.resolve path = .ok ep ∧ ref = (serveAll C srv pre).nextRef) ↔
        ((ref, ep) ∈ (serveAll C srv evs').io ∨ ∃ path, WantsData e.2 path ∧
          srv.router.resolve path = .ok ep ∧ ref = (serveAll C srv evs').nextRef) := by
      rw [ih']
      constructor
      · rintro ⟨pre, e', post, path, h1, h2, h3, h4⟩
        rcases List.eq_nil_or_concat post with rfl | ⟨post', x, rfl⟩
        · obtain ⟨rfl, h6⟩ := List.append_inj' h1 rfl
          simp only [List.cons.injEq, and_true] at h6
          subst h6
          exact .inr ⟨path, h2, h3, h4⟩
        · rw [List.concat_eq_append, ← List.cons_append, ← List.append_assoc] at h1
          exact .inl ⟨pre, e', post', path, (List.append_inj' h1 rfl).1, h2, h3, h4⟩
      · rintro (⟨pre, e', post, path, h1, h2⟩ | ⟨path, h2⟩)
        · exact ⟨pre, e', post ++ [e], path, by simp [h1], h2⟩
        · exact ⟨evs', e, [], path, rfl, h2⟩
    rw [hrest, serveAll_snoc]
    have hr := serveAll_router C srv evs'
    have hstep := C95_only C { h := e.1, srv := serveAll C srv evs', inp := e.2, sent := [] }
    have hstart := C95_start C { h := e.1, srv := serveAll C srv evs', inp := e.2, sent := [] }
    simp only [hr] at hstep hstart
    constructor
    · intro h
      rcases hstep with h1 | ⟨path, ep', h1, h2, h3⟩
      · rw [h1] at h; exact .inl h
      · rw [h3] at h
        simp only [List.mem_append, List.mem_singleton, Prod.mk.injEq] at h
        rcases h with h | ⟨rfl, rfl⟩
        · exact .inl h
        · exact .inr ⟨path, h1, h2, rfl⟩
    · rintro (h | ⟨path, h1, h2, rfl⟩)
      · rcases hstep with h1 | ⟨path, ep', h1, h2, h3⟩
        · rw [h1]; exact h
        · rw [h3]; simp [h]
      · rw [(hstart path h1 ep h2).2.1]; simp

/-- C95: no connection has two senders. -/
theorem C95_one_each (C : Conv) (srv : Srv) (h0 : srv.io = []) (evs : List (Handler × Bytes)) :
    ((serveAll C srv evs).io.map Prod.fst).Nodup ∧
      ∀ p ∈ (serveAll C srv evs).io, p.1 < (serveAll C srv evs).nextRef := by
  induction hn : evs.length generalizing evs with
  | zero =>
    obtain rfl : evs = [] := List.eq_nil_of_length_eq_zero hn
    simp [serveAll, h0]
  | succ n ih =>
    obtain ⟨evs', e, rfl⟩ : ∃ l e, evs = l ++ [e] :=
      ⟨evs.dropLast, evs.getLast (by intro h; simp [h] at hn), (List.dropLast_concat_getLast _).symm⟩
    obtain ⟨ih1, ih2⟩ := ih evs' (by simpa using hn)
    rw [serveAll_snoc]
    have hle : (serveAll C srv evs').nextRef ≤
        (serveStep C { h := e.1, srv := serveAll C srv evs', inp := e.2, sent := [] }).2.srv.nextRef := by
      rcases C39_step C { h := e.1, srv := serveAll C srv evs', inp := e.2, sent := [] } with h | ⟨c, -, -, h⟩ | ⟨k, -, h⟩
      · exact Nat.le_of_eq (congrArg Prod.snd h).symm
      · have := congrArg Prod.snd h; simp only [tab] at this; omega
      · exact Nat.le_of_eq (congrArg Prod.snd h).symm
    rcases C95_only C { h := e.1, srv := serveAll C srv evs', inp := e.2, sent := [] } with h | ⟨path, ep, h1, h2, h3⟩
    · rw [h]
      exact ⟨ih1, fun p hp => Nat.lt_of_lt_of_le (ih2 p hp) hle⟩
    · obtain ⟨-, -, c, -, -⟩ := C95_start C { h := e.1, srv := serveAll C srv evs', inp := e.2, sent := [] } path h1 ep h2
      have hlt : (serveAll C srv evs').nextRef <
          (serveStep C { h := e.1, srv := serveAll C srv evs', inp := e.2, sent := [] }).2.srv.nextRef := by
        obtain ⟨o, ho, hl, ht, hi, rfl⟩ := h1
        obtain ⟨st0, hs, hsrv, -⟩ := serveStep_unconnected C _ _ hi
        obtain ⟨g1, g2⟩ := cyclic_read o ho
        obtain ⟨_, _, _, _, _, g4, _⟩ := forwardOpen_core o.large o.bytes _ _ _ _ g1 g2 ho.2.2.1 st0
        rw [hs, unconnectedData_open, g4, hsrv]
        exact Nat.lt_succ_self _
      rw [h3]
      refine ⟨?_, ?_⟩
      · simp only [List.map_append, List.map_cons, List.map_nil]
        rw [List.nodup_append]
        refine ⟨ih1, by simp, ?_⟩
        intro a ha b hb hab
        simp only [List.mem_singleton] at hb
        obtain ⟨p, hp, rfl⟩ := List.mem_map.mp ha
        have := ih2 p hp
        omega
      · intro p hp
        simp only [List.mem_append, List.mem_singleton] at hp
        rcases hp with hp | rfl
        · exact Nat.lt_of_lt_of_le (ih2 p hp) hle
        · exact hlt

/-- The flags by which senders notice that their connection is closed. -/
theorem serveAll_flags (C : Conv) (srv : Srv) (hc : srv.conns = ConnTable.init) (evs : List (Handler × Bytes)) :
    (∀ r, (serveAll C srv evs).conns.isOpen r = true ↔ ∃ c ∈ (serveAll C srv evs).conns.conns, c.ref = r) ∧
      (∀ c ∈ (serveAll C srv evs).conns.conns, c.ref < (serveAll C srv evs).nextRef) ∧
      ((serveAll C srv evs).conns.conns.map Conn.ref).Nodup := by
  induction hn : evs.length generalizing evs with
  | zero =>
    obtain rfl : evs = [] := List.eq_nil_of_length_eq_zero hn
    simp [serveAll, hc, ConnTable.init]
  | succ n ih =>
    obtain ⟨evs', e, rfl⟩ : ∃ l e, evs = l ++ [e] :=
      ⟨evs.dropLast, evs.getLast (by intro h; simp [h] at hn), (List.dropLast_concat_getLast _).symm⟩
    obtain ⟨h1, h2, h3⟩ := ih evs' (by simpa using hn)
    rw [serveAll_snoc]
    have hstep := C39_step C { h := e.1, srv := serveAll C srv evs', inp := e.2, sent := [] }
    generalize hsrv' : (serveStep C { h := e.1, srv := serveAll C srv evs', inp := e.2, sent := [] }).2 = st' at hstep
    simp only [tab] at hstep
    rcases hstep with h | ⟨c, -, hr, h⟩ | ⟨k, -, h⟩
    · injection h with e1 e2
      rw [e1, e2]
      exact ⟨h1, h2, h3⟩
    · injection h with e1 e2
      rw [e1, e2]
      refine ⟨fun r => ?_, fun d hd => ?_, ?_⟩
      · simp only [ConnTable.add, List.mem_append, List.mem_singleton]
        by_cases hrc : r = c.ref
        · rw [if_pos hrc]
          exact ⟨fun _ => ⟨c, .inr rfl, hrc.symm⟩, fun _ => rfl⟩
        · rw [if_neg hrc, h1]
          constructor
          · rintro ⟨d, hd, rfl⟩; exact ⟨d, .inl hd, rfl⟩
          · rintro ⟨d, hd | rfl, hdr⟩
            · exact ⟨d, hd, hdr⟩
            · exact absurd hdr.symm hrc
      · simp only [ConnTable.add, List.mem_append, List.mem_singleton] at hd
        rcases hd with hd | rfl
        · exact Nat.lt_succ_of_lt (h2 d hd)
        · rw [hr]; exact Nat.lt_succ_self _
      · simp only [ConnTable.add, List.map_append, List.map_cons, List.map_nil]
        rw [List.nodup_append]
        refine ⟨h3, by simp, fun a ha b hb hab => ?_⟩
        simp only [List.mem_singleton] at hb
        obtain ⟨d, hd, rfl⟩ := List.mem_map.mp ha
        have := h2 d hd
        rw [hab, hb, hr] at this
        omega
    · injection h with e1 e2
      rw [e1, e2, ConnTable.closeByID]
      cases hf : (serveAll C srv evs').conns.conns.find? (·.id == k) with
      | none => rw [closeBy_none hf]; exact ⟨h1, h2, h3⟩
      | some x =>
        obtain ⟨as, bs, hl, hx, ha⟩ := find_split hf
        rw [closeBy_split hl hx ha]
        rw [hl] at h2 h3
        simp only [hl] at h1
        simp only [mem_joinLast]
        have hne : ∀ d, d ∈ as ∨ d ∈ bs → d.ref ≠ x.ref := by
          intro d hd he
          simp only [List.map_append, List.map_cons, List.nodup_append, List.nodup_cons] at h3
          rcases hd with hd | hd
          · exact h3.2.2 _ (List.mem_map_of_mem hd) _ (by simp) he
          · exact h3.2.1.1 (he ▸ List.mem_map_of_mem hd)
        refine ⟨fun r => ?_, fun d hd => h2 d (by rcases hd with h | h <;> simp [h]), ?_⟩
        · by_cases hrc : r = x.ref
          · rw [if_pos hrc]
            constructor
            · intro h; exact absurd h (by simp)
            · rintro ⟨d, hd, rfl⟩; exact absurd hrc (hne d hd)
          · rw [if_neg hrc, h1]
            constructor
            · rintro ⟨d, hd, rfl⟩
              simp only [List.mem_append, List.mem_cons] at hd
              rcases hd with hd | rfl | hd
              · exact ⟨d, .inl hd, rfl⟩
              · exact absurd rfl hrc
              · exact ⟨d, .inr hd, rfl⟩
            · rintro ⟨d, hd, rfl⟩
              exact ⟨d, by rcases hd with h | h <;> simp [h], rfl⟩
        · have hp : (joinLast as bs).Perm (as ++ bs) := by
            unfold joinLast
            cases hb : bs.getLast? with
            | none => rw [List.getLast?_eq_none_iff.mp hb]; simp
            | some y =>
              obtain ⟨ys, rfl⟩ := List.getLast?_eq_some_iff.mp hb
              simp only [List.dropLast_concat]
              exact List.Perm.append_left as (List.perm_append_comm (l₁ := [y]) (l₂ := ys))
          rw [(hp.map Conn.ref).nodup_iff]
          refine h3.sublist (List.Sublist.map _ (List.Sublist.append_left (List.sublist_cons_self _ _) _))

/-- C95: a sender goes on as long as its connection is in the table, and no longer. -/
theorem C95_running (C : Conv) (srv : Srv) (hc : srv.conns = ConnTable.init) (evs : List (Handler × Bytes)) (ref : Nat) :
    (serveAll C srv evs).conns.isOpen ref = true ↔ ∃ c ∈ (serveAll C srv evs).conns.conns, c.ref = ref :=
  (serveAll_flags C srv hc evs).1 ref

/-! ### Concrete requests -/

/-- A request for cyclic data. -/
def cyclicDemo (serial : BitVec 16) (large : Bool) (path : Bytes) : OpenReq :=
  { openDemo serial with
    large := large, trigger := 1#8, path := path, words := BitVec.ofNat 8 (path.length / 2)
    otpar := if large then [0xF4, 0x43, 0, 0] else [0xF4, 0x43]
    topar := if large then [0xF4, 0x43, 0, 0] else [0xF4, 0x43] }

theorem cyclicDemo_wants : WantsData (demoRR (cyclicDemo 9#16 false [1, 0, 0x20, 4]).bytes).bytes [1, 0] :=
  ⟨cyclicDemo 9#16 false [1, 0, 0x20, 4], by decide, rfl, by decide, demo_unconnected _ (by decide), rfl⟩

example : (serveStep demoConv (demoSt (demoRR (cyclicDemo 9#16 false [1, 0, 0x20, 4]).bytes).bytes)).2.srv.io = [(1, 0)] :=
  (C95_start demoConv (demoSt _) _ cyclicDemo_wants 0 rfl).2.1

/-- Two connections for cyclic data, one of them closed, and one for messages. -/
example : (serveAll demoConv demoSrv
    [((demoSt []).h, (demoRR (cyclicDemo 9#16 false [1, 0, 0x20, 4]).bytes).bytes),
     ((demoSt []).h, (demoRR (openDemo 10#16).bytes).bytes),
     ((demoSt []).h, (demoRR (cyclicDemo 11#16 false [1, 0]).bytes).bytes),
     ((demoSt []).h, (demoRR (closeDemo 9#16).bytes).bytes)]).io = [(1, 0), (3, 0)] := by
  decide +kernel

example : (serveStep demoConv (demoSt (demoRR (cyclicDemo 9#16 true [1, 0]).bytes).bytes)).2.srv.io = [] :=
  (C95_large_no_data demoConv (demoSt _) (cyclicDemo 9#16 true [1, 0]) (by decide) rfl
    (demo_unconnected _ (by decide))).2.1

example : (serveStep demoConv (demoSt (demoRR (cyclicDemo 9#16 false [1, 5]).bytes).bytes)).1 = .err .fail :=
  (C95_no_endpoint demoConv (demoSt _) (cyclicDemo 9#16 false [1, 5]) (by decide) rfl
    (demo_unconnected _ (by decide)) .fail rfl).1

end Gologix.Server
