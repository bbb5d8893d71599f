import Verif.Model.Connect
import Verif.Model.Path
import Verif.Spec.Connect
import Verif.Props.ServerRoundtrip
import Verif.Props.ServerConn
/-
C70–C72: opening and closing the client's connection.
-/
set_option linter.unusedSimpArgs false
namespace Gologix.Connect
open Gologix Gologix.Server Gologix.Server.Spec Gologix.Connect.Spec

theorem connPath_eq (p : Bytes) : connPath p = target p := by
  simp [connPath, target, classBytes, instanceBytes]

theorem large_params (s : BitVec 16) :
    putBV (0#32 <<< 31 ||| 2#32 <<< 29 ||| 0#32 <<< 26 ||| 1#32 <<< 25 ||| s.setWidth 32) =
      netParams true s.toNat := by
  have hs := s.isLt
  have h : (0#32 <<< 31 ||| 2#32 <<< 29 ||| 0#32 <<< 26 ||| 1#32 <<< 25 ||| s.setWidth 32).toNat =
      s.toNat + 2 ^ 25 + 2 * 2 ^ 29 := by
    have e : (0#32 <<< 31 ||| 2#32 <<< 29 ||| 0#32 <<< 26 ||| 1#32 <<< 25) = 0x42000000#32 := by decide
    rw [e, BitVec.toNat_or, BitVec.toNat_setWidth, Nat.mod_eq_of_lt (by omega)]
    have := Nat.two_pow_add_eq_or_of_lt (i := 25) (b := s.toNat) (by omega) 33
    simp at this ⊢
    omega
  rw [putBV, h]
  rfl

theorem standard_params (s : BitVec 16) (hs : s.toNat < 512) :
    putBV (0#16 <<< 15 ||| 2#16 <<< 13 ||| 0#16 <<< 10 ||| 1#16 <<< 9 ||| s) = netParams false s.toNat := by
  have h : (0#16 <<< 15 ||| 2#16 <<< 13 ||| 0#16 <<< 10 ||| 1#16 <<< 9 ||| s).toNat =
      s.toNat + 2 ^ 9 + 2 * 2 ^ 13 := by
    have e : (0#16 <<< 15 ||| 2#16 <<< 13 ||| 0#16 <<< 10 ||| 1#16 <<< 9) = 0x4200#16 := by decide
    rw [e, BitVec.toNat_or]
    have := Nat.two_pow_add_eq_or_of_lt (i := 9) (b := s.toNat) (by omega) 33
    simp at this ⊢
    omega
  rw [putBV, h]
  rfl

/-- The request `openMsg` makes. -/
def asReq (large : Bool) (priority ticks : Byte) (mult : BitVec 32) (params : Bytes) (c : Cfg) : OpenReq where
  large
  head := [0x02#8, 0x20#8, 0x06#8, 0x24#8, 0x01#8, priority, ticks]
  ot := c.seq + 1#32
  to := c.seq + 2#32
  serial := c.serial
  vendor := c.vendor
  oserial := c.oserial
  mult := putBV mult
  otrpi := c.rpi
  otpar := params
  torpi := c.rpi
  topar := params
  trigger := 0xA3#8
  words := BitVec.ofNat 8 ((target c.path).length / 2)
  path := target c.path
  more := []

theorem openMsg_bytes (large : Bool) (priority ticks : Byte) (mult : BitVec 32) (params : Bytes) (c : Cfg) :
    openMsg (if large then 0x5B#8 else 0x54#8) priority ticks mult params c =
      (asReq large priority ticks mult params c).bytes := by
  cases large <;> simp [openMsg, OpenReq.bytes, asReq, OpenReq.service, connPath_eq, putBV]

theorem target_length (r : Bytes) : (target r).length = r.length + 4 := by simp [target]

theorem asReq_wf {large : Bool} {priority ticks : Byte} {mult : BitVec 32} {params : Bytes} {c : Cfg}
    (hp : params.length = if large then 4 else 2) (hr : Routable c.path) :
    (asReq large priority ticks mult params c).wf := by
  obtain ⟨h1, h2⟩ := hr
  have hw : ((asReq large priority ticks mult params c).words).toNat = (c.path.length + 4) / 2 := by
    simp only [asReq, target_length, BitVec.toNat_ofNat]
    exact Nat.mod_eq_of_lt (by omega)
  refine ⟨⟨rfl, by simp [asReq, putBV], hp, hp⟩, ?_, by omega, by omega⟩
  rw [hw]
  simp only [asReq, target_length]
  omega

/-- The two requests. -/
def newOpen (large : Bool) (c : Cfg) : Bytes × Cfg :=
  if large then newForwardOpenLarge c else newForwardOpenStandard c

theorem netParams_length (large : Bool) (n : Nat) :
    (netParams large n).length = if large then 4 else 2 := by
  cases large <;> simp [netParams]

/-- What the request functions make. -/
theorem newOpen_req (large : Bool) (c : Cfg) :
    ∃ prio ticks mult, ∃ s : BitVec 16, s.toNat = asked large c.size.toNat ∧
      (newOpen large c).2 = { c with size := s, seq := c.seq + 3#32, serial := (c.seq + 1#32).setWidth 16 } ∧
      (newOpen large c).1 = (asReq large prio ticks mult (netParams large s.toNat)
        { c with size := s, seq := c.seq + 1#32, serial := (c.seq + 1#32).setWidth 16 }).bytes := by
  have h3 : c.seq + 1#32 + 2#32 = c.seq + 3#32 := by rw [BitVec.add_assoc]; rfl
  cases large with
  | true =>
    refine ⟨0x0A#8, 0x0E#8, 3#32, if c.size = 0#16 then 4000#16 else c.size, ?_, ?_, ?_⟩
    · unfold asked
      by_cases h : c.size = 0#16
      · simp [h]
      · have : c.size.toNat ≠ 0 := fun e => h (BitVec.eq_of_toNat_eq (by simpa using e))
        simp [h, this]
    · simp only [newOpen, newForwardOpenLarge, if_true]
      by_cases h : c.size = 0#16 <;> simp [h, h3]
    · rw [← openMsg_bytes, ← large_params]
      simp only [newOpen, newForwardOpenLarge, if_true]
      by_cases h : c.size = 0#16 <;> simp [h, openMsg]
  | false =>
    refine ⟨0x07#8, 0xE9#8, 0#32, if c.size = 0#16 then 511#16 else if 511 < c.size.toNat then 511#16 else c.size,
      ?_, ?_, ?_⟩
    · unfold asked
      by_cases h : c.size = 0#16
      · simp [h]
      · have : c.size.toNat ≠ 0 := fun e => h (BitVec.eq_of_toNat_eq (by simpa using e))
        by_cases h' : 511 < c.size.toNat
        · simp [h, this, h']; omega
        · simp [h, this, h']; omega
    · simp only [newOpen, newForwardOpenStandard]
      by_cases h : c.size = 0#16
      · simp [h, h3]
      · by_cases h' : 511 < c.size.toNat <;> simp [h, h', h3]
    · rw [← openMsg_bytes, ← standard_params _ (by
        by_cases h : c.size = 0#16
        · simp [h]
        · by_cases h' : 511 < c.size.toNat
          · simp [h, h']
          · simp only [h, h', if_false]; omega)]
      simp only [newOpen, newForwardOpenStandard]
      by_cases h : c.size = 0#16
      · simp [h, openMsg]
      · by_cases h' : 511 < c.size.toNat <;> simp [h, h', openMsg]

theorem asked_fits (large : Bool) (s : BitVec 16) :
    asked large s.toNat < if large then 2 ^ 16 else 2 ^ 9 := by
  have := s.isLt
  unfold asked
  cases large <;> simp <;> split <;> omega

/-- C70, the fields: for every client, what it sends to open its connection is a request for a connection to the
message router at the end of its route, for messages of its connection size, with the numbers of the client; serial
number and identifiers are the next three values of its sequence number. -/
theorem C70_fields (large : Bool) (c : Cfg) :
    ∃ o : OpenReq, (newOpen large c).1 = o.bytes ∧ o.sized ∧ (Routable c.path → o.wf) ∧ o.large = large ∧
      OpensTo o c.path (asked large c.size.toNat) c.vendor c.oserial c.rpi ∧
      o.serial = (c.seq + 1#32).setWidth 16 ∧ o.ot = c.seq + 2#32 ∧ o.to = c.seq + 3#32 ∧
      (newOpen large c).2.serial = o.serial ∧ (newOpen large c).2.size.toNat = asked large c.size.toNat := by
  obtain ⟨prio, ticks, mult, s, hs, h2, h1⟩ := newOpen_req large c
  refine ⟨_, h1, ⟨rfl, by simp [asReq, putBV], netParams_length _ _, netParams_length _ _⟩,
    fun hr => asReq_wf (netParams_length _ _) hr, rfl, ?_, rfl, ?_, ?_, by rw [h2]; rfl, by rw [h2, hs]⟩
  · rw [← hs]
    exact ⟨rfl, rfl, rfl, rfl, rfl, rfl, rfl, hs ▸ asked_fits large c.size, rfl, rfl, rfl⟩
  · simp only [asReq]; rw [BitVec.add_assoc]; rfl
  · simp only [asReq]; rw [BitVec.add_assoc]; rfl

/-- C70, the request: with a route of whole words it is well formed. -/
theorem C70_request_partial (large : Bool) (c : Cfg) (hr : Routable c.path) :
    ∃ o : OpenReq, (newOpen large c).1 = o.bytes ∧ o.wf ∧ o.large = large ∧
      OpensTo o c.path (asked large c.size.toNat) c.vendor c.oserial c.rpi ∧
      o.serial = (c.seq + 1#32).setWidth 16 ∧ o.ot = c.seq + 2#32 ∧ o.to = c.seq + 3#32 ∧
      (newOpen large c).2.serial = o.serial ∧ (newOpen large c).2.size.toNat = asked large c.size.toNat := by
  obtain ⟨o, h1, -, h2, h3⟩ := C70_fields large c
  exact ⟨o, h1, h2 hr, h3⟩

/-! ### The server's side -/

theorem frame_unconnected (c : Cfg) (m rest : Bytes) (hm : m.length < 65536) :
    Unconnected (unconnectedFrame c m ++ rest) m := by
  refine ⟨{ cmd := 0x6F#16, length := BitVec.ofNat 16 (serializeItems [Item.new 0x0#16, (Item.new 0xB2#16).write m]).length, session := c.session, status := 0#32,
            context := c.context, options := 0#32, pre := [0, 0, 0, 0, 0, 0], id0 := 0#16, data0 := [],
            id1 := 0xB2#16, data1 := m }, rest, ⟨rfl, by simp, hm⟩, ?_, rfl, rfl, rfl⟩
  unfold unconnectedFrame
  rw [C01_frame_layout]
  simp only [List.flatten_cons, List.flatten_nil, List.append_nil]
  rw [rr_payload]
  simp [Gologix.Spec.frame, Req.bytes]
  exact (le_mod 2 _).symm

/-- The client takes the identifier out of the server's reply. -/
theorem reply_read (h : Handler) (o : OpenReq) (ot to : BitVec 32) (more : Bytes) :
    ∃ hdr p, recvData (frameOf h 0x6F#16 (serializeItems [Item.new 0x0#16, (Item.new 0xB2#16).write (o.reply ot to)])
        ++ more) = .ok (hdr, p, more) ∧
      forwardOpenReply (.ok ⟨hdr.status, p⟩) = .ok ot := by
  have hl : (o.reply ot to).length = 30 := by simp [OpenReq.reply]
  have hpl : (serializeItems [Item.new 0x0#16, (Item.new 0xB2#16).write (o.reply ot to)]).length = 46 := by
    rw [rr_payload]; simp [Gologix.Spec.cpf, Gologix.Spec.item, hl]
  refine ⟨{ command := 0x6F#16, length := 46#16, session := h.handle, status := 0, context := h.context,
            options := h.options },
    serializeItems [Item.new 0x0#16, (Item.new 0xB2#16).write (o.reply ot to)], ?_, ?_⟩
  · unfold recvData frameOf
    rw [List.append_assoc, readEIPHeader_encode, Res.bind_ok]
    simp only [hpl]
    rw [if_pos (by decide), show (BitVec.ofNat 16 46).toNat = 46 from rfl, readN_exact 46 _ _ hpl, Res.bind_ok]
  · have hi := readItems_cpf [(0x0#16, []), (0xB2#16, o.reply ot to)] [] (by simp) (by simp [hl])
    rw [List.append_nil] at hi
    have hit : item1 (Gologix.Spec.cpf [(0x0#16, []), (0xB2#16, o.reply ot to)]) = .ok (o.reply ot to) := by
      unfold item1; rw [hi]; rfl
    unfold forwardOpenReply
    rw [Res.bind_ok, rr_payload]
    unfold parseResponse
    rw [if_neg (by simp)]
    simp only
    rw [readN_exact 6 _ _ rfl, Res.bind_ok]
    simp only
    rw [hit, Res.bind_ok]
    have hsp : o.reply ot to = [o.service ||| 0x80#8, 0#8, 0#8, 0#8] ++ ((le 4 ot.toNat ++ (le 4 to.toNat ++
        le 2 o.serial.toNat ++ le 2 o.vendor.toNat ++ le 4 o.oserial.toNat ++ le 4 o.otrpi.toNat ++
        le 4 o.torpi.toNat ++ [0#8, 0#8])) ++ []) := by simp [OpenReq.reply]
    rw [hsp, readN_exact 4 _ _ rfl, Res.bind_ok]
    simp only [List.getD_cons_succ, List.getD_cons_zero, ne_eq, not_true, if_false, Res.bind_ok]
    rw [readN_exact 26 _ _ (by simp), Res.bind_ok]
    simp only
    rw [readBV32_le, Res.bind_ok]

/-- What the server makes of the client's open request, and the client of the reply. -/
theorem server_opens (C : Conv) (st : St) (o : OpenReq) (ho : o.wf) (ht : o.trigger = 0xA3#8)
    (hi : Unconnected st.inp o.bytes) :
    ∃ (k : Conn) (f : Bytes), (serveStep C st).1 = .ok () ∧
      (serveStep C st).2.srv.conns = st.srv.conns.add k ∧ newFrames st (serveStep C st).2 = [f] ∧
      k.ref = st.srv.nextRef ∧ k.id = o.serial ∧ (o.ot ≠ 0#32 → k.ot = o.ot) ∧ (o.to ≠ 0#32 → k.to = o.to) ∧
      k.rpi = o.torpi ∧ k.path = o.path.take 2 ∧
      ∀ more, ∃ hdr p, recvData (f ++ more) = .ok (hdr, p, more) ∧
        forwardOpenReply (.ok ⟨hdr.status, p⟩) = .ok k.ot := by
  obtain ⟨st0, hs, hsrv, hsent⟩ := serveStep_unconnected C st _ hi
  have hp : readN ((fwdOf o).psize * 2#8).toNat (o.path ++ o.more) = .ok (o.path, o.more) := by
    apply readN_exact
    rw [ho.2.1]
    exact (words_small o.words ho.2.2.2).symm
  have hl : 2 ≤ o.path.length := by have := ho.2; omega
  obtain ⟨ot, to, h1, h2, h3, h4, ⟨h, h5⟩, h7⟩ :=
    forwardOpen_core o.large o.bytes _ _ _ _ (readFwdOpen_bytes o ho.1) hp hl st0
  rw [unconnectedData_open] at hs
  refine ⟨{ ref := st.srv.nextRef, id := o.serial, ot, to, rpi := o.torpi, path := o.path.take 2 }, _, ?_, ?_, ?_,
    rfl, rfl, h1, h2, rfl, rfl, reply_read h o ot to⟩
  · rw [hs]; exact h7 (by simp [fwdOf, ht])
  · rw [hs, h3, hsrv]; rfl
  · rw [hs, newFrames, h5, hsent, List.drop_left]; rfl

theorem open_length (large : Bool) (c : Cfg) (hr : Routable c.path) : (newOpen large c).1.length < 65536 := by
  obtain ⟨o, h, ho, hL, hO, -⟩ := C70_request_partial large c hr
  obtain ⟨⟨h1, h2, h3, h4⟩, h5, h6, h7⟩ := ho
  rw [h]
  unfold OpenReq.bytes
  simp only [List.length_cons, List.length_append, le_length, h1, h2, h3, h4, h5, hO.more, List.length_nil]
  split <;> omega

/-- C70, the exchange: a server that gets the client's open request enters one connection with the client's serial
number, identifiers and interval; its one reply makes the client use the identifier of that connection. -/
theorem C70_connects_partial (C : Conv) (st : St) (large : Bool) (c : Cfg) (rest : Bytes) (hr : Routable c.path)
    (hi : st.inp = unconnectedFrame c (newOpen large c).1 ++ rest) :
    ∃ (k : Conn) (f : Bytes), (serveStep C st).1 = .ok () ∧
      (serveStep C st).2.srv.conns = st.srv.conns.add k ∧ newFrames st (serveStep C st).2 = [f] ∧
      k.ref = st.srv.nextRef ∧ k.id = (newOpen large c).2.serial ∧ (c.seq + 2#32 ≠ 0#32 → k.ot = c.seq + 2#32) ∧
      (c.seq + 3#32 ≠ 0#32 → k.to = c.seq + 3#32) ∧ k.rpi = c.rpi ∧ (c.path.length = 2 → k.path = c.path) ∧
      (∀ more, ∃ hdr p, recvData (f ++ more) = .ok (hdr, p, more) ∧
        forwardOpenReply (.ok ⟨hdr.status, p⟩) = .ok k.ot) ∧
      ((∀ d ∈ st.srv.conns.conns, d.ot ≠ k.ot) → (serveStep C st).2.srv.conns.getByOT k.ot = .ok k) := by
  obtain ⟨o, h1, h2, -, h4, h5, h6, h7, h8, -⟩ := C70_request_partial large c hr
  have hu : Unconnected st.inp o.bytes := by
    rw [hi, ← h1]; exact frame_unconnected _ _ _ (open_length large c hr)
  obtain ⟨k, f, a1, a2, a3, a4, a5, a6, a7, a8, a9, a10⟩ := server_opens C st o h2 h4.trigger hu
  refine ⟨k, f, a1, a2, a3, a4, by rw [a5, h8], by rw [← h6]; exact a6, by rw [← h7]; exact a7, by rw [a8, h4.torpi],
    ?_, a10, ?_⟩
  · intro hl
    rw [a9, h4.path, target, ← hl, List.take_left]
  · intro hd
    rw [a2]
    unfold ConnTable.getByOT ConnTable.getBy ConnTable.add
    have : (st.srv.conns.conns.find? fun x => x.ot == k.ot) = none := by
      rw [List.find?_eq_none]; intro d hd'; simpa using hd d hd'
    simp only [List.find?_append, this]
    simp

/-! ### Closing -/

/-- The request `closeMsg` makes. -/
def asClose (c : Cfg) : CloseReq where
  head := [0x02#8, 0x20#8, 0x06#8, 0x24#8, 0x01#8, 0x0A#8, 0x0E#8]
  serial := c.serial
  ids := le 2 c.vendor.toNat ++ le 4 c.oserial.toNat
  words := BitVec.ofNat 8 ((target c.path).length / 2)
  more := 0#8 :: target c.path

theorem closeMsg_bytes (c : Cfg) : closeMsg c = (asClose c).bytes := by
  simp [closeMsg, CloseReq.bytes, asClose, connPath_eq, putBV]

/-- C71, the request: what the client sends to close its connection is a well-formed request to close the connection
with the client's serial number, in the client's name. -/
theorem C71_request_partial (c : Cfg) (hr : Routable c.path) :
    ∃ q : CloseReq, closeMsg c = q.bytes ∧ q.wf ∧ ClosesTo q c.path c.serial c.vendor c.oserial := by
  refine ⟨asClose c, closeMsg_bytes c, ⟨rfl, by simp [asClose]⟩, rfl, rfl, rfl, ?_, rfl⟩
  obtain ⟨h1, h2⟩ := hr
  simp only [asClose, target_length, BitVec.toNat_ofNat]
  rw [Nat.mod_eq_of_lt (by omega)]
  omega

theorem close_length (c : Cfg) (hr : Routable c.path) : (closeMsg c).length < 65536 := by
  have := hr.2
  simp [closeMsg, connPath_eq, target, putBV]
  omega

/-- C71, the server: with distinct serial numbers in the table, the request removes the connection with the client's
serial number and no other, and the server goes on. -/
theorem C71_closes_partial (C : Conv) (st : St) (c : Cfg) (rest : Bytes) (hr : Routable c.path)
    (hi : st.inp = unconnectedFrame c (closeMsg c) ++ rest)
    (hd : ∀ x ∈ st.srv.conns.conns, ∀ y ∈ st.srv.conns.conns, x.id = y.id → x = y)
    (hn : st.srv.conns.conns.Nodup) :
    (∀ x, x ∈ (serveStep C st).2.srv.conns.conns ↔ x ∈ st.srv.conns.conns ∧ x.id ≠ c.serial) ∧
    ((∃ x ∈ st.srv.conns.conns, x.id = c.serial) → (serveStep C st).1 = .ok ()) := by
  obtain ⟨q, h1, h2, h3⟩ := C71_request_partial c hr
  have hu : Unconnected st.inp q.bytes := by
    rw [hi, ← h1]; exact frame_unconnected _ _ _ (close_length c hr)
  refine ⟨fun x => ?_, ?_⟩
  · rw [C39_close C st q h2 hu hd hn x, h3.serial]
  · rintro ⟨x, hx, hxs⟩
    obtain ⟨st0, hs, hsrv, -⟩ := serveStep_unconnected C st _ hu
    rw [unconnectedData_close] at hs
    rw [hs]
    have hm := h3.manager
    refine (forwardClose_run q h2 st0).2.2.2 ?_ ?_
    · rw [hsrv, ConnTable.closeByID]
      cases hf : st.srv.conns.conns.find? (·.id == q.serial) with
      | none =>
        have := List.find?_eq_none.mp hf x hx
        simp [hxs, h3.serial] at this
      | some y =>
        obtain ⟨as, bs, hl, hy, ha⟩ := find_split hf
        rw [closeBy_split hl hy ha]
    · have : q.head.getD 0 0#8 = 2#8 := by
        have h0 := congrArg (fun l : Bytes => l.getD 0 0#8) hm
        simpa [List.getD_eq_getElem?_getD, List.getElem?_take] using h0
      rw [this, h3.more]
      simp [target]

/-- C71 is false for the acknowledgement: the server never answers the request, so that the client waits until its
socket times out. -/
theorem C71_not_acknowledged (C : Conv) (st : St) (c : Cfg) (rest : Bytes) (hr : Routable c.path)
    (hi : st.inp = unconnectedFrame c (closeMsg c) ++ rest) : newFrames st (serveStep C st).2 = [] := by
  obtain ⟨q, h1, h2, h3⟩ := C71_request_partial c hr
  exact C39_close_not_acknowledged C st q h2 (by
    rw [hi, ← h1]; exact frame_unconnected _ _ _ (close_length c hr))

/-- C71, the whole life: a client opens its connection and later closes it, on this socket or another and whatever
the server state is by then apart from its table: the table has what it had before. -/
theorem C71_opened_and_closed_partial (C : Conv) (st st2 : St) (large : Bool) (c c' : Cfg) (rest rest2 : Bytes)
    (hr : Routable c.path) (hi : st.inp = unconnectedFrame c (newOpen large c).1 ++ rest)
    (hserial : c'.serial = (newOpen large c).2.serial) (hpath : c'.path = c.path)
    (htab : st2.srv.conns = (serveStep C st).2.srv.conns) (hi2 : st2.inp = unconnectedFrame c' (closeMsg c') ++ rest2)
    (hd : ∀ x ∈ st.srv.conns.conns, ∀ y ∈ st.srv.conns.conns, x.id = y.id → x = y)
    (hn : st.srv.conns.conns.Nodup) (hfresh : ∀ x ∈ st.srv.conns.conns, x.id ≠ (newOpen large c).2.serial) :
    (serveStep C st2).1 = .ok () ∧
      ∀ x, x ∈ (serveStep C st2).2.srv.conns.conns ↔ x ∈ st.srv.conns.conns := by
  obtain ⟨k, f, -, a2, -, -, a5, -⟩ := C70_connects_partial C st large c rest hr hi
  have ht : st2.srv.conns.conns = st.srv.conns.conns ++ [k] := by rw [htab, a2]; rfl
  have hk : ∀ x ∈ st.srv.conns.conns, x.id ≠ k.id := by rw [a5]; exact hfresh
  obtain ⟨b1, b2⟩ := C71_closes_partial C st2 c' rest2 (by rw [hpath]; exact hr) hi2
    (by
      rw [ht]
      intro x hx y hy hxy
      simp only [List.mem_append, List.mem_singleton] at hx hy
      rcases hx with hx | rfl <;> rcases hy with hy | rfl
      · exact hd x hx y hy hxy
      · exact absurd hxy (hk x hx)
      · exact absurd hxy.symm (hk y hy)
      · rfl)
    (by
      rw [ht, List.nodup_append]
      refine ⟨hn, by simp, ?_⟩
      intro x hx y hy he
      simp only [List.mem_singleton] at hy
      subst hy; subst he
      exact hk x hx rfl)
  refine ⟨b2 ⟨k, by simp [ht], by rw [a5, hserial]⟩, fun x => ?_⟩
  rw [b1, ht, hserial]
  simp only [List.mem_append, List.mem_singleton]
  constructor
  · rintro ⟨hx | rfl, hne⟩
    · exact hx
    · exact absurd a5 hne
  · exact fun hx => ⟨.inl hx, hfresh x hx⟩

/-! ### Large and standard -/

theorem newOpen_session (large : Bool) (c : Cfg) : (newOpen large c).2.path = c.path ∧
    (newOpen large c).2.vendor = c.vendor ∧ (newOpen large c).2.oserial = c.oserial ∧
    (newOpen large c).2.rpi = c.rpi ∧ (newOpen large c).2.seq = c.seq + 3#32 ∧ (newOpen large c).2.ot = c.ot := by
  obtain ⟨_, _, _, s, -, h, -⟩ := newOpen_req large c
  rw [h]
  exact ⟨rfl, rfl, rfl, rfl, rfl, rfl⟩

theorem openConnection_eq (c : Cfg) (large standard : Res Reply) :
    openConnection c large standard =
      (let d := if c.size = 0#16 then { c with size := 4000#16 } else c
       if 511 < d.size.toNat then
         match forwardOpenReply large with
         | .ok ot => ([(newOpen true d).1], { (newOpen true d).2 with ot := ot }, .ok ())
         | .err _ =>
           let e := { (newOpen true d).2 with size := 511#16 }
           match forwardOpenReply standard with
           | .ok ot => ([(newOpen true d).1, (newOpen false e).1], { (newOpen false e).2 with ot := ot }, .ok ())
           | .err x => ([(newOpen true d).1, (newOpen false e).1], (newOpen false e).2, .err x)
           | .panic => ([(newOpen true d).1, (newOpen false e).1], (newOpen false e).2, .panic)
         | .panic => ([(newOpen true d).1], (newOpen true d).2, .panic)
       else
         match forwardOpenReply standard with
         | .ok ot => ([(newOpen false d).1], { (newOpen false d).2 with ot := ot }, .ok ())
         | .err x => ([(newOpen false d).1], (newOpen false d).2, .err x)
         | .panic => ([(newOpen false d).1], (newOpen false d).2, .panic)) := by
  unfold openConnection
  simp only
  generalize (if c.size = 0#16 then { c with size := 4000#16 } else c) = d
  by_cases hd : 511 < d.size.toNat
  · simp only [hd, if_true]
    have hs : ¬ (newForwardOpenLarge d).2.size.toNat ≤ 511 := by
      obtain ⟨_, _, _, s, h1, h2, -⟩ := newOpen_req true d
      simp only [newOpen, if_true] at h2
      rw [h2]
      simp only [asked] at h1
      rw [if_neg (by omega)] at h1
      simp at h1
      simp only
      omega
    cases hl : forwardOpenReply large with
    | ok ot => simp [hs, newOpen]
    | err e =>
      simp only [Bool.false_eq_true, if_false]
      rw [if_pos (by simp)]
      cases hst : forwardOpenReply standard <;> simp [newOpen]
    | panic => simp [newOpen]
  · simp only [hd, if_false, Bool.false_eq_true]
    rw [if_pos (by omega)]
    cases hst : forwardOpenReply standard <;> simp [newOpen]

/-- When `Connect` has opened its connection, the last request it sent is the one that was accepted: it asked
for the size the client now works with, under the serial number the client will close it with, and the identifier
the client now uses is the one in the reply to it.  The size is the wanted one, unless the large form has been tried
and refused, after which it is 511. -/
theorem opened_by (c : Cfg) (large standard : Res Reply) (ms : List Bytes) (c' : Cfg)
    (h : openConnection c large standard = (ms, c', .ok ())) :
    ∃ (pre : List Bytes) (o : OpenReq), ms = pre ++ [o.bytes] ∧ o.sized ∧
      OpensTo o c.path c'.size.toNat c.vendor c.oserial c.rpi ∧ c'.serial = o.serial ∧
      forwardOpenReply (if o.large then large else standard) = .ok c'.ot ∧
      ((c'.size.toNat = wanted c.size.toNat ∧ pre = []) ∨
        (511 < wanted c.size.toNat ∧ (forwardOpenReply large).isErr = true ∧ c'.size = 511#16 ∧
          o.large = false ∧ ∃ p : OpenReq, pre = [p.bytes] ∧ p.sized ∧ p.large = true ∧
            OpensTo p c.path (wanted c.size.toNat) c.vendor c.oserial c.rpi ∧ p.serial ≠ o.serial)) := by
  rw [openConnection_eq] at h
  simp only at h
  have hw : (if c.size = 0#16 then { c with size := 4000#16 } else c).size.toNat = wanted c.size.toNat := by
    unfold wanted
    by_cases h0 : c.size = 0#16
    · simp [h0]
    · have : c.size.toNat ≠ 0 := fun e => h0 (BitVec.eq_of_toNat_eq (by simpa using e))
      simp [h0, this]
  have hsame : (if c.size = 0#16 then { c with size := 4000#16 } else c).path = c.path ∧
      (if c.size = 0#16 then { c with size := 4000#16 } else c).vendor = c.vendor ∧
      (if c.size = 0#16 then { c with size := 4000#16 } else c).oserial = c.oserial ∧
      (if c.size = 0#16 then { c with size := 4000#16 } else c).rpi = c.rpi := by
    split <;> exact ⟨rfl, rfl, rfl, rfl⟩
  have hw0 : wanted c.size.toNat ≠ 0 := by unfold wanted; split <;> omega
  generalize (if c.size = 0#16 then { c with size := 4000#16 } else c) = d at h hw hsame
  obtain ⟨hp, hv, hos, hrpi⟩ := hsame
  by_cases hd : 511 < d.size.toNat
  · rw [if_pos hd] at h
    obtain ⟨o, h1, h2, -, h3, h4, h5, -, -, h8, h9⟩ := C70_fields true d
    have hask : asked true d.size.toNat = wanted c.size.toNat := by
      rw [hw]; simp [asked, hw0]
    rw [hp, hv, hos, hrpi, hask] at h4
    cases hl : forwardOpenReply large with
    | ok ot =>
      rw [hl] at h
      simp only [Prod.mk.injEq, and_true] at h
      obtain ⟨rfl, rfl⟩ := h
      refine ⟨[], o, by rw [h1]; rfl, h2, ?_, h8, by rw [h3, if_pos rfl]; exact hl, .inl ⟨?_, rfl⟩⟩
      · simp only [h9, hask]; exact h4
      · simp only [h9, hask]
    | panic => rw [hl] at h; simp at h
    | err e =>
      rw [hl] at h
      simp only at h
      obtain ⟨q, g1, g2, -, g3, g4, g5, -, -, g8, g9⟩ := C70_fields false
        { (newOpen true d).2 with size := 511#16 }
      simp only [(newOpen_session true d).1, (newOpen_session true d).2.1, (newOpen_session true d).2.2.1,
        (newOpen_session true d).2.2.2.1, (newOpen_session true d).2.2.2.2.1, hp, hv, hos, hrpi,
        show asked false (511#16).toNat = 511 from rfl] at g4 g5
      have g9' : (newOpen false { (newOpen true d).2 with size := 511#16 }).2.size = 511#16 :=
        BitVec.eq_of_toNat_eq g9
      cases hst : forwardOpenReply standard with
      | err x => rw [hst] at h; simp at h
      | panic => rw [hst] at h; simp at h
      | ok ot =>
        rw [hst] at h
        simp only [Prod.mk.injEq, and_true] at h
        obtain ⟨rfl, rfl⟩ := h
        refine ⟨[o.bytes], q, by rw [← h1, ← g1]; rfl, g2, ?_, g8, by rw [g3]; exact hst, .inr ⟨by omega, rfl, ?_, g3, o, rfl,
          h2, h3, h4, ?_⟩⟩
        · simp only [g9']; exact g4
        · exact g9'
        · rw [h5, g5]
          intro he
          have := congrArg BitVec.toNat he
          simp only [BitVec.toNat_setWidth, BitVec.toNat_add, BitVec.toNat_ofNat] at this
          omega
  · rw [if_neg hd] at h
    obtain ⟨o, h1, h2, -, h3, h4, h5, -, -, h8, h9⟩ := C70_fields false d
    have hask : asked false d.size.toNat = wanted c.size.toNat := by
      rw [hw] at hd ⊢; simp [asked, hw0]; omega
    rw [hp, hv, hos, hrpi, hask] at h4
    cases hst : forwardOpenReply standard with
    | err x => rw [hst] at h; simp at h
    | panic => rw [hst] at h; simp at h
    | ok ot =>
      rw [hst] at h
      simp only [Prod.mk.injEq, and_true] at h
      obtain ⟨rfl, rfl⟩ := h
      refine ⟨[], o, by rw [h1]; rfl, h2, ?_, h8, by rw [h3]; exact hst, .inl ⟨?_, rfl⟩⟩
      · simp only [h9, hask]; exact h4
      · simp only [h9, hask]

/-- `Connect` fails exactly when the standard form is refused and the large form has been refused or was
not wanted. -/
theorem opened_not (c : Cfg) (large standard : Res Reply) :
    (openConnection c large standard).2.2.isErr = true ↔
      (forwardOpenReply standard).isErr = true ∧
        (wanted c.size.toNat ≤ 511 ∨ (forwardOpenReply large).isErr = true) := by
  rw [openConnection_eq]
  simp only
  have hw : (if c.size = 0#16 then { c with size := 4000#16 } else c).size.toNat = wanted c.size.toNat := by
    unfold wanted
    by_cases h0 : c.size = 0#16
    · simp [h0]
    · have : c.size.toNat ≠ 0 := fun e => h0 (BitVec.eq_of_toNat_eq (by simpa using e))
      simp [h0, this]
  generalize (if c.size = 0#16 then { c with size := 4000#16 } else c) = d at hw ⊢
  rw [hw]
  by_cases hd : 511 < wanted c.size.toNat
  · rw [if_pos hd]
    cases forwardOpenReply large <;> cases forwardOpenReply standard <;> simp [Res.isErr] <;> omega
  · rw [if_neg hd]
    cases forwardOpenReply standard <;> simp [Res.isErr] <;> omega

/-! ### What the server and the routes get wrong -/

/-- C70 is false for other routes: the server keeps two bytes of a longer route, so that clients with different
routes are given connections to the same endpoint. -/
theorem C70_route_cut (C : Conv) (st : St) (large : Bool) (c : Cfg) (rest : Bytes) (hr : Routable c.path)
    (hlong : 2 < c.path.length) (hi : st.inp = unconnectedFrame c (newOpen large c).1 ++ rest) :
    ∃ k : Conn, (serveStep C st).2.srv.conns = st.srv.conns.add k ∧ k.path = c.path.take 2 ∧ k.path ≠ c.path := by
  obtain ⟨o, h1, h2, -, h4, -⟩ := C70_request_partial large c hr
  have hu : Unconnected st.inp o.bytes := by
    rw [hi, ← h1]; exact frame_unconnected _ _ _ (open_length large c hr)
  obtain ⟨k, f, -, a2, -, -, -, -, -, -, a9, -⟩ := server_opens C st o h2 h4.trigger hu
  have e : k.path = c.path.take 2 := by
    rw [a9, h4.path, target, List.take_append_of_le_length (by omega)]
  refine ⟨k, a2, e, fun h => ?_⟩
  have := congrArg List.length (e.symm.trans h)
  rw [List.length_take] at this
  omega

/-- C70 is false for a client without a route (`Controller.Path` an empty buffer): the connection is entered under
the first segment of the message router. -/
theorem C70_no_route (C : Conv) (st : St) (large : Bool) (c : Cfg) (rest : Bytes) (hp : c.path = [])
    (hi : st.inp = unconnectedFrame c (newOpen large c).1 ++ rest) :
    ∃ k : Conn, (serveStep C st).2.srv.conns = st.srv.conns.add k ∧ k.path = [0x20#8, 0x02#8] := by
  have hr : Routable c.path := by rw [hp]; decide
  obtain ⟨o, h1, h2, -, h4, -⟩ := C70_request_partial large c hr
  have hu : Unconnected st.inp o.bytes := by
    rw [hi, ← h1]; exact frame_unconnected _ _ _ (open_length large c hr)
  obtain ⟨k, f, -, a2, -, -, -, -, -, -, a9, -⟩ := server_opens C st o h2 h4.trigger hu
  exact ⟨k, a2, by rw [a9, h4.path, hp]; rfl⟩

/-- C70 is false for a route of an odd number of bytes: whatever request the bytes are read as, the length they give
for the connection path is not the length of the path. -/
theorem C70_odd_route (large : Bool) (c : Cfg) (ho : c.path.length % 2 = 1) (o : OpenReq)
    (h : (newOpen large c).1 = o.bytes) (hL : o.large = large) (hs : o.sized) (hm : o.more = []) :
    o.path.length ≠ 2 * o.words.toNat := by
  obtain ⟨prio, ticks, mult, s, -, -, h1⟩ := newOpen_req large c
  rw [h] at h1
  have hl := congrArg List.length h1
  obtain ⟨g1, g2, g3, g4⟩ := hs
  have np := netParams_length large s.toNat
  unfold OpenReq.bytes at hl
  simp only [asReq, List.length_cons, List.length_append, le_length, g1, g2, g3, g4, hm, List.length_nil, hL, np,
    target_length, putBV] at hl
  omega

/-- Route strings with addresses of odd length give such routes: `ParsePath` does not pad them. -/
theorem C70_odd_route_parsed : ∃ (s : Str) (p : Bytes), parsePath s = .ok p ∧ p.length % 2 = 1 :=
  -- "1,1,2,10.0.0.15"
  ⟨[0x31, 0x2C, 0x31, 0x2C, 0x32, 0x2C, 0x31, 0x30, 0x2E, 0x30, 0x2E, 0x30, 0x2E, 0x31, 0x35],
    [1, 1, 0x12, 9, 0x31, 0x30, 0x2E, 0x30, 0x2E, 0x30, 0x2E, 0x31, 0x35], by decide +kernel, by decide⟩

/-- C70 is false for identifiers that are taken: clients number their connections themselves (by the clock, in
milliseconds), the server does not compare, and requests with the identifier go to the older connection. -/
theorem C70_ids_collide (C : Conv) (st : St) (large : Bool) (c : Cfg) (rest : Bytes) (hr : Routable c.path)
    (hi : st.inp = unconnectedFrame c (newOpen large c).1 ++ rest) (hz : c.seq + 2#32 ≠ 0#32)
    (d : Conn) (hd : d ∈ st.srv.conns.conns) (hot : d.ot = c.seq + 2#32) :
    ∃ k x : Conn, (serveStep C st).2.srv.conns = st.srv.conns.add k ∧ k.ot = d.ot ∧
      (serveStep C st).2.srv.conns.getByOT k.ot = .ok x ∧ x ∈ st.srv.conns.conns := by
  obtain ⟨k, f, -, a2, -, -, -, a6, -⟩ := C70_connects_partial C st large c rest hr hi
  have hk : k.ot = d.ot := by rw [a6 hz, hot]
  cases hf : st.srv.conns.conns.find? (fun x => x.ot == k.ot) with
  | none =>
    have := List.find?_eq_none.mp hf d hd
    simp [hk] at this
  | some x =>
    refine ⟨k, x, a2, hk, ?_, List.mem_of_find?_eq_some hf⟩
    rw [a2]
    unfold ConnTable.getByOT ConnTable.getBy ConnTable.add
    simp only [List.find?_append, hf]
    rfl

/-- C71 is false after a fallback: if the server has accepted the large request but the client has not understood the
reply, the client opens a second connection and closes only that one; the first stays in the table. -/
theorem C71_first_left_open (C : Conv) (st st2 st3 : St) (c : Cfg) (rest rest2 rest3 : Bytes) (large : Res Reply)
    (e : Err) (hr : Routable c.path) (hsize : 511 < c.size.toNat) (hrefused : forwardOpenReply large = .err e)
    (hi : st.inp = unconnectedFrame c (newOpen true c).1 ++ rest)
    (c1 c2 : Cfg) (hc1 : c1 = { (newOpen true c).2 with size := 511#16 }) (hc2 : c2 = (newOpen false c1).2)
    (ht2 : st2.srv.conns = (serveStep C st).2.srv.conns)
    (hi2 : st2.inp = unconnectedFrame c1 (newOpen false c1).1 ++ rest2)
    (ht3 : st3.srv.conns = (serveStep C st2).2.srv.conns) (hi3 : st3.inp = unconnectedFrame c2 (closeMsg c2) ++ rest3)
    (hempty : st.srv.conns.conns = []) (standard : Res Reply) :
    (openConnection c large standard).1 = [(newOpen true c).1, (newOpen false c1).1] ∧
      ∃ k, k.id = (newOpen true c).2.serial ∧ (serveStep C st3).2.srv.conns.conns = [k] := by
  constructor
  · rw [openConnection_eq]
    have h0 : c.size ≠ 0#16 := by intro h; rw [h] at hsize; simp at hsize
    simp only [h0, if_false, hsize, if_true, hrefused]
    rw [← hc1]
    cases forwardOpenReply standard <;> rfl
  · have hr1 : Routable c1.path := by rw [hc1]; simp only [(newOpen_session true c).1]; exact hr
    have hr2 : Routable c2.path := by rw [hc2, (newOpen_session false c1).1]; exact hr1
    obtain ⟨k, f, -, a2, -, -, a5, -⟩ := C70_connects_partial C st true c rest hr hi
    obtain ⟨k2, f2, -, b2, -, -, b5, -⟩ := C70_connects_partial C st2 false c1 rest2 hr1 hi2
    have hne : k.id ≠ k2.id := by
      obtain ⟨_, _, _, s, -, g1, -⟩ := newOpen_req true c
      obtain ⟨_, _, _, s', -, g2, -⟩ := newOpen_req false c1
      rw [a5, b5, g2, hc1, g1]
      intro he
      have := congrArg BitVec.toNat he
      simp only [BitVec.toNat_setWidth, BitVec.toNat_add, BitVec.toNat_ofNat] at this
      omega
    have ht : st3.srv.conns.conns = [k, k2] := by
      rw [ht3, b2, ConnTable.add, ht2, a2, ConnTable.add, hempty]; rfl
    refine ⟨k, a5, ?_⟩
    obtain ⟨q, h1, h2, h3⟩ := C71_request_partial c2 hr2
    have hu : Unconnected st3.inp q.bytes := by
      rw [hi3, ← h1]; exact frame_unconnected _ _ _ (close_length c2 hr2)
    obtain ⟨st0, hs, hsrv, -⟩ := serveStep_unconnected C st3 _ hu
    rw [unconnectedData_close] at hs
    rw [hs, (forwardClose_run q h2 st0).1, hsrv, ConnTable.closeByID, ConnTable.closeBy, ht, h3.serial, hc2, ← b5]
    simp [List.findIdx?_cons, List.find?_cons, hne]

/-! ### Examples -/

/-- A client for slot 0 of the local chassis. -/
def cfgDemo : Cfg where
  path := [1, 0]
  size := 4000#16
  vendor := 0x9999#16
  oserial := 42#32
  rpi := 2500000#32
  seq := 0x01020304#32
  serial := 0#16
  ot := 0#32
  session := 0x55#32
  context := 0x1122334455667788#64

/-- The large request of the demo client, byte for byte. -/
example : (newForwardOpenLarge cfgDemo).1 =
    [0x5B, 0x02, 0x20, 0x06, 0x24, 0x01, 0x0A, 0x0E, 0x06, 0x03, 0x02, 0x01, 0x07, 0x03, 0x02, 0x01, 0x05, 0x03,
     0x99, 0x99, 42, 0, 0, 0, 3, 0, 0, 0, 0xA0, 0x25, 0x26, 0, 0xA0, 0x0F, 0x00, 0x42, 0xA0, 0x25, 0x26, 0, 0xA0, 0x0F, 0x00, 0x42,
     0xA3, 3, 1, 0, 0x20, 0x02, 0x24, 0x01] := by decide +kernel

/-- The demo server accepts both forms, and the client reads the identifier it asked for. -/
example (large : Bool) (C : Conv) : ∃ k f, newFrames (demoSt (unconnectedFrame cfgDemo (newOpen large cfgDemo).1))
      (serveStep C (demoSt (unconnectedFrame cfgDemo (newOpen large cfgDemo).1))).2 = [f] ∧
    (serveStep C (demoSt (unconnectedFrame cfgDemo (newOpen large cfgDemo).1))).2.srv.conns = demoSrv.conns.add k ∧
    k.ot = 0x01020306#32 ∧ k.id = 0x0305#16 ∧ k.path = [1, 0] := by
  obtain ⟨k, f, -, a2, a3, -, a5, a6, -, -, a9, -⟩ := C70_connects_partial C
    (demoSt (unconnectedFrame cfgDemo (newOpen large cfgDemo).1)) large cfgDemo [] (by decide) (by simp [demoSt])
  refine ⟨k, f, a3, a2, a6 (by decide), ?_, a9 rfl⟩
  rw [a5]; cases large <;> decide +kernel

/-- A client whose large request is refused falls back to 511 bytes; a second refusal is an error. -/
example : (openConnection cfgDemo (.err .fail) (.err .eof)).1.length = 2 ∧
    (openConnection cfgDemo (.err .fail) (.err .eof)).2.1.size = 511#16 ∧
    (openConnection cfgDemo (.err .fail) (.err .eof)).2.2 = .err .eof := by decide +kernel

end Gologix.Connect
