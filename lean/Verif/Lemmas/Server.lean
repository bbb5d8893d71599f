import Verif.Model.Server
import Verif.Spec.Server
import Verif.Props.Wire
/-
Reasoning about handler functions.
-/
set_option linter.unusedSimpArgs false

namespace Gologix.Server
open Gologix.Server.Spec M

theorem bind_def {α β : Type} (m : M α) (f : α → M β) (st : St) :
    (m >>= f) st = match m st with
      | (.ok a, st') => f a st'
      | (.err e, st') => (.err e, st')
      | (.panic, st') => (.panic, st') := rfl

theorem bind_ok {α β : Type} {m : M α} {f : α → M β} {st st' : St} {a : α}
    (h : m st = (.ok a, st')) : (m >>= f) st = f a st' := by
  rw [bind_def, h]

theorem bind_err {α β : Type} {m : M α} {f : α → M β} {st st' : St} {e : Err}
    (h : m st = (.err e, st')) : (m >>= f) st = (.err e, st') := by
  rw [bind_def, h]

theorem bind_panic {α β : Type} {m : M α} {f : α → M β} {st st' : St}
    (h : m st = (.panic, st')) : (m >>= f) st = (.panic, st') := by
  rw [bind_def, h]

@[simp] theorem pure_def {α : Type} (a : α) (st : St) : (pure a : M α) st = (.ok a, st) := rfl
@[simp] theorem lift_def {α : Type} (r : Res α) (st : St) : (lift r : M α) st = (r, st) := rfl

@[simp] theorem lift_ok_bind {α β : Type} (a : α) (f : α → M β) (st : St) :
    ((lift (.ok a) : M α) >>= f) st = f a st := rfl

/-! ### Replies -/

/-- `m` sends nothing and keeps handle and context. -/
def Quiet {α : Type} (m : M α) : Prop :=
  ∀ st, (m st).2.sent = st.sent ∧ (m st).2.h.context = st.h.context ∧ (m st).2.h.handle = st.h.handle

/-- `m` sends at most one frame, which satisfies `P`, exactly one when it succeeds, and keeps handle and
context. -/
def Replies (ctx : BitVec 64) (hd : BitVec 32) (P : Bytes → Prop) (m : M Unit) : Prop :=
  ∀ st, st.h.context = ctx → st.h.handle = hd →
    (∃ new, (m st).2.sent = st.sent ++ new ∧ (∀ f ∈ new, P f) ∧ new.length ≤ 1 ∧
      ((m st).1 = .ok () → new.length = 1)) ∧
    (m st).2.h.context = ctx ∧ (m st).2.h.handle = hd

theorem quiet_lift {α : Type} (r : Res α) : Quiet (lift r : M α) := fun _ => ⟨rfl, rfl, rfl⟩
theorem quiet_pure {α : Type} (a : α) : Quiet (pure a : M α) := fun _ => ⟨rfl, rfl, rfl⟩
theorem quiet_crash {α : Type} : Quiet (crash : M α) := fun _ => ⟨rfl, rfl, rfl⟩
theorem quiet_look {α : Type} (r : St → Res α) : Quiet (look r : M α) := fun _ => ⟨rfl, rfl, rfl⟩
theorem quiet_modify {f : St → St} (h : ∀ st, (f st).sent = st.sent ∧ (f st).h.context = st.h.context ∧
    (f st).h.handle = st.h.handle) : Quiet (M.modify f) := h
theorem quiet_fail {α : Type} : Quiet (fail : M α) := fun _ => ⟨rfl, rfl, rfl⟩

theorem quiet_bind {α β : Type} {m : M α} {f : α → M β} (hm : Quiet m) (hf : ∀ a, Quiet (f a)) :
    Quiet (m >>= f) := by
  intro st
  rw [bind_def]
  have h1 := hm st
  cases h : m st with
  | mk r st' =>
    rw [h] at h1
    cases r with
    | ok a =>
      have h2 := hf a st'
      exact ⟨h2.1.trans h1.1, h2.2.1.trans h1.2.1, h2.2.2.trans h1.2.2⟩
    | err e => exact h1
    | panic => exact h1

theorem replies_bind {α : Type} {ctx : BitVec 64} {hd : BitVec 32} {P : Bytes → Prop} {m : M α}
    {f : α → M Unit} (hm : Quiet m) (hf : ∀ a, Replies ctx hd P (f a)) : Replies ctx hd P (m >>= f) := by
  intro st hc hh
  rw [bind_def]
  have h1 := hm st
  cases h : m st with
  | mk r st' =>
    rw [h] at h1
    simp only at h1
    cases r with
    | ok a =>
      have h2 := hf a st' (h1.2.1.trans hc) (h1.2.2.trans hh)
      rw [h1.1] at h2
      exact h2
    | err e => exact ⟨⟨[], by simp [h1.1], by simp, by simp, by simp⟩, h1.2.1.trans hc, h1.2.2.trans hh⟩
    | panic => exact ⟨⟨[], by simp [h1.1], by simp, by simp, by simp⟩, h1.2.1.trans hc, h1.2.2.trans hh⟩

/-- Work after the reply. -/
theorem replies_then {ctx : BitVec 64} {hd : BitVec 32} {P : Bytes → Prop} {m : M Unit}
    {f : Unit → M Unit} (hm : Replies ctx hd P m) (hf : ∀ a, Quiet (f a)) : Replies ctx hd P (m >>= f) := by
  intro st hc hh
  rw [bind_def]
  obtain ⟨⟨new, h1, h2, h3, h4⟩, h5, h6⟩ := hm st hc hh
  cases h : m st with
  | mk r st' =>
    rw [h] at h1 h4 h5 h6
    simp only at h1 h4 h5 h6
    cases r with
    | ok a =>
      have hq := hf a st'
      exact ⟨⟨new, by rw [← h1]; exact hq.1, h2, h3, fun _ => h4 rfl⟩, hq.2.1.trans h5, hq.2.2.trans h6⟩
    | err e => exact ⟨⟨new, h1, h2, h3, by simp⟩, h5, h6⟩
    | panic => exact ⟨⟨new, h1, h2, h3, by simp⟩, h5, h6⟩

/-- An error reply and the end of the connection, or going on. -/
theorem replies_orElse {α : Type} {ctx : BitVec 64} {hd : BitVec 32} {P : Bytes → Prop}
    {r : St → Res α} {e : M Unit} {f : α → M Unit} (he : Replies ctx hd P e)
    (hf : ∀ a, Replies ctx hd P (f a)) :
    Replies ctx hd P ((orElseAt r e : M α) >>= f) := by
  intro st hc hh
  rw [bind_def]
  simp only [orElseAt, orElse]
  cases h : r st with
  | ok a => exact hf a st hc hh
  | err x =>
    obtain ⟨⟨new, h1, h2, h3, -⟩, h5, h6⟩ := he st hc hh
    exact ⟨⟨new, h1, h2, h3, by simp⟩, h5, h6⟩
  | panic => exact ⟨⟨[], by simp, by simp, by simp, by simp⟩, hc, hh⟩

theorem replies_orElse' {α : Type} {ctx : BitVec 64} {hd : BitVec 32} {P : Bytes → Prop}
    {r : Res α} {e : M Unit} {f : α → M Unit} (he : Replies ctx hd P e)
    (hf : ∀ a, Replies ctx hd P (f a)) :
    Replies ctx hd P ((orElse r e : M α) >>= f) := replies_orElse (r := fun _ => r) he hf

theorem replies_fail {ctx : BitVec 64} {hd : BitVec 32} {P : Bytes → Prop} :
    Replies ctx hd P fail := fun _ hc hh => ⟨⟨[], by simp [fail], by simp, by simp, by simp [fail]⟩, hc, hh⟩

theorem replies_crash {ctx : BitVec 64} {hd : BitVec 32} {P : Bytes → Prop} :
    Replies ctx hd P crash := fun _ hc hh => ⟨⟨[], by simp [crash], by simp, by simp, by simp [crash]⟩, hc, hh⟩

theorem replies_ite {ctx : BitVec 64} {hd : BitVec 32} {P : Bytes → Prop} {c : Prop} [Decidable c]
    {a b : M Unit} (ha : c → Replies ctx hd P a) (hb : ¬ c → Replies ctx hd P b) :
    Replies ctx hd P (if c then a else b) := by
  split
  · exact ha ‹_›
  · exact hb ‹_›

/-- Looking at the state to decide what to do. -/
theorem replies_depend {ctx : BitVec 64} {hd : BitVec 32} {P : Bytes → Prop} {f : St → M Unit}
    (hf : ∀ s, Replies ctx hd P (f s)) : Replies ctx hd P (depend f) :=
  fun st hc hh => hf st st hc hh

theorem quiet_depend {α : Type} {f : St → M α} (hf : ∀ s, Quiet (f s)) : Quiet (depend f) :=
  fun st => hf st st

/-! ### Frames -/

theorem frameOf_parts (h : Handler) (cmd : BitVec 16) (p : Bytes) :
    commandOf (frameOf h cmd p) = le 2 cmd.toNat ∧ sessionOf (frameOf h cmd p) = le 4 h.handle.toNat ∧
      contextOf (frameOf h cmd p) = le 8 h.context.toNat := by
  refine ⟨?_, ?_, ?_⟩
  all_goals
    simp [commandOf, sessionOf, contextOf, field, frameOf, EipHeader.encode, putBV, le]

theorem frameOf_drop (h : Handler) (cmd : BitVec 16) (p : Bytes) : (frameOf h cmd p).drop 24 = p := by
  unfold frameOf
  rw [List.drop_append_of_le_length (by simp [encode_length])]
  rw [List.drop_of_length_le (by simp [encode_length])]
  simp

theorem frameOf_get (h : Handler) (cmd : BitVec 16) (p : Bytes) (n : Nat) :
    (frameOf h cmd p)[24 + n]? = p[n]? := by
  rw [← List.getElem?_drop, frameOf_drop]

/-- The payload of a connected reply. -/
theorem unit_payload (conn : BitVec 32) (data : Bytes) :
    serializeItems [(Item.new 0xA1#16).write (putBV conn), (Item.new 0xB1#16).write data] =
      [0, 0, 0, 0, 0, 0] ++ Gologix.Spec.cpf [(0xA1#16, putBV conn), (0xB1#16, data)] := by
  have h := C03_items_layout [(0xA1#16, [putBV conn]), (0xB1#16, [data])]
  simpa [buildItem] using h

/-- The payload of an unconnected reply. -/
theorem rr_payload (data : Bytes) :
    serializeItems [Item.new 0x0#16, (Item.new 0xB2#16).write data] =
      [0, 0, 0, 0, 0, 0] ++ Gologix.Spec.cpf [(0x0#16, []), (0xB2#16, data)] := by
  have h := C03_items_layout [(0x0#16, []), (0xB2#16, [data])]
  simpa [buildItem] using h

theorem unit_service (h : Handler) (conn : BitVec 32) (seq : Bytes) (hs : seq.length = 2) (s : Byte)
    (rest : Bytes) :
    Echo h.context h.handle s
      (frameOf h 0x70#16 (serializeItems [(Item.new 0xA1#16).write (putBV conn),
        (Item.new 0xB1#16).write (seq ++ ((s ||| 0x80#8) :: rest))])) := by
  obtain ⟨h1, h2, h3⟩ := frameOf_parts h 0x70#16 (serializeItems [(Item.new 0xA1#16).write (putBV conn),
        (Item.new 0xB1#16).write (seq ++ ((s ||| 0x80#8) :: rest))])
  refine ⟨h3, h2, ?_⟩
  unfold serviceOf
  rw [h1, if_pos (by decide), show 46 = 24 + 22 from rfl, frameOf_get, unit_payload]
  match seq, hs with
  | [a, b], _ => simp [Gologix.Spec.cpf, Gologix.Spec.item, le, putBV]

theorem rr_service (h : Handler) (s : Byte) (rest : Bytes) :
    Echo h.context h.handle s
      (frameOf h 0x6F#16 (serializeItems [Item.new 0x0#16,
        (Item.new 0xB2#16).write ((s ||| 0x80#8) :: rest)])) := by
  obtain ⟨h1, h2, h3⟩ := frameOf_parts h 0x6F#16 (serializeItems [Item.new 0x0#16,
        (Item.new 0xB2#16).write ((s ||| 0x80#8) :: rest)])
  refine ⟨h3, h2, ?_⟩
  unfold serviceOf
  rw [h1, if_neg (by decide), if_pos (by decide), show 40 = 24 + 16 from rfl, frameOf_get, rr_payload]
  simp [Gologix.Spec.cpf, Gologix.Spec.item, le]

theorem replies_send {ctx : BitVec 64} {hd : BitVec 32} {P : Bytes → Prop} {cmd : BitVec 16} {p : Bytes}
    (h : ∀ h : Handler, h.context = ctx → h.handle = hd → P (frameOf h cmd p)) :
    Replies ctx hd P (send cmd p) := by
  intro st hc hh
  refine ⟨⟨[frameOf st.h cmd p], rfl, ?_, by simp, by simp⟩, hc, hh⟩
  intro f hf
  rw [List.mem_singleton] at hf
  subst hf
  exact h st.h hc hh

theorem replies_sendConnected {ctx : BitVec 64} {hd : BitVec 32} (s status : Byte) (seq : BitVec 16)
    (conn : BitVec 32) (p : Bytes) :
    Replies ctx hd (Echo ctx hd s) (sendConnected s seq conn status p) := by
  refine replies_send fun h hc hh => ?_
  subst hc hh
  have := unit_service h conn (putBV seq) (by simp) s ([0#8, status, 0#8] ++ p)
  simpa [resultHdr] using this

theorem replies_sendUnitData {ctx : BitVec 64} {hd : BitVec 32} (s status : Byte) (p : Bytes) :
    Replies ctx hd (Echo ctx hd s) (sendUnitData s status p) :=
  replies_depend (f := fun st => sendUnit st.h.to (putBV st.h.seq ++ resultHdr s status ++ p)) fun st =>
    replies_sendConnected s status st.h.seq st.h.to p

theorem replies_sendUnconn {ctx : BitVec 64} {hd : BitVec 32} (s status : Byte) (p : Bytes) :
    Replies ctx hd (Echo ctx hd s) (sendUnconn s status p) := by
  refine replies_send fun h hc hh => ?_
  subst hc hh
  have := rr_service h s ([0#8, status, 0#8] ++ p)
  simpa [resultHdr] using this

/-! ### Quiet parts -/

theorem quiet_getByOT (k : BitVec 32) : Quiet (getByOT k) := fun _ => ⟨rfl, rfl, rfl⟩
theorem quiet_resolve (p : Bytes) : Quiet (resolve p) := fun _ => ⟨rfl, rfl, rfl⟩

theorem quiet_readTag (ep : Nat) (tag : Str) (qty : BitVec 16) : Quiet (readTag ep tag qty) := by
  intro st
  unfold readTag
  split <;> exact ⟨rfl, rfl, rfl⟩

theorem quiet_writeTag (C : Conv) (ep : Nat) (tag : Str) (v : TVal) : Quiet (writeTag C ep tag v) := by
  intro st
  unfold writeTag
  split <;> exact ⟨rfl, rfl, rfl⟩

theorem quiet_writeValues (C : Conv) (ep : Nat) (tag : Str) (vs : List Scal) :
    Quiet (writeValues C ep tag vs) := by
  unfold writeValues
  split
  · exact quiet_crash
  · exact quiet_writeTag _ _ _ _
  · exact quiet_writeTag _ _ _ _

theorem quiet_ite {α : Type} {c : Prop} [Decidable c] {a b : M α} (ha : Quiet a) (hb : Quiet b) :
    Quiet (if c then a else b) := by
  split
  · exact ha
  · exact hb

theorem quiet_multiOne (C : Conv) (ep : Nat) (d : Bytes) (off : BitVec 16) :
    Quiet (multiOne C ep d off) := by
  unfold multiOne
  refine quiet_ite quiet_crash ?_
  refine quiet_bind (quiet_lift _) fun ⟨svc, r⟩ => ?_
  refine quiet_bind (quiet_lift _) fun ⟨_, r⟩ => ?_
  refine quiet_ite ?_ (quiet_ite ?_ (quiet_pure _))
  · refine quiet_bind (quiet_lift _) fun ⟨tag, r⟩ => ?_
    refine quiet_bind (quiet_lift _) fun ⟨qty, r⟩ => ?_
    exact quiet_bind (quiet_readTag _ _ _) fun _ => quiet_lift _
  · refine quiet_bind (quiet_lift _) fun ⟨tag, r⟩ => ?_
    refine quiet_bind (quiet_lift _) fun ⟨typ, r⟩ => ?_
    refine quiet_bind (quiet_lift _) fun ⟨_, r⟩ => ?_
    refine quiet_bind (quiet_lift _) fun ⟨qty, r⟩ => ?_
    refine quiet_bind (quiet_lift _) fun ⟨vs, r⟩ => ?_
    exact quiet_bind (quiet_writeValues _ _ _ _) fun _ => quiet_pure _

theorem quiet_multiAll (C : Conv) (ep : Nat) (d : Bytes) (offs : List (BitVec 16)) :
    Quiet (multiAll C ep d offs) := by
  induction offs with
  | nil => exact quiet_pure _
  | cons o os ih =>
    exact quiet_bind (quiet_multiOne _ _ _ _) fun _ => quiet_bind ih fun _ => quiet_pure _

theorem quiet_recv (n : Nat) : Quiet (recv n) := by
  intro st
  unfold recv
  split <;> exact ⟨rfl, rfl, rfl⟩

theorem quiet_tryWrite (C : Conv) (ep : Nat) (tag : Str) (v : TVal) : Quiet (tryWrite C ep tag v) := by
  intro st
  have h := quiet_writeTag C ep tag v st
  unfold tryWrite
  split <;> simp_all

theorem quiet_recvItems : Quiet recvItems := by
  intro st
  unfold recvItems
  split <;> exact ⟨rfl, rfl, rfl⟩

theorem quiet_chooseId (k : BitVec 32) : Quiet (chooseId k) := by
  intro st
  unfold chooseId
  split <;> exact ⟨rfl, rfl, rfl⟩

theorem quiet_addConn (id : BitVec 16) (ot to rpi : BitVec 32) (path : Bytes) :
    Quiet (addConn id ot to rpi path) := fun _ => ⟨rfl, rfl, rfl⟩

theorem quiet_startIO (f : FwdOpen) (ref : Nat) (path : Bytes) : Quiet (startIO f ref path) := by
  unfold startIO
  refine quiet_bind (quiet_resolve _) fun ep => quiet_ite quiet_crash ?_
  exact quiet_modify fun _ => ⟨rfl, rfl, rfl⟩

theorem quiet_forwardClose (d : Bytes) : Quiet (forwardClose d) := by
  unfold forwardClose
  refine quiet_bind (quiet_lift _) fun ⟨b, r⟩ => ?_
  refine quiet_bind (quiet_lift _) fun ⟨serial, _⟩ => ?_
  refine quiet_bind (fun _ => ⟨rfl, rfl, rfl⟩ : Quiet (closeConn serial)) fun _ => ?_
  exact quiet_bind (quiet_lift _) fun _ => quiet_pure _

/-! ### Reading a request -/

theorem req_header (r : Req) :
    r.bytes = EipHeader.encode ⟨r.cmd, r.length, r.session, r.status, r.context, r.options⟩ ++
      (r.pre ++ Gologix.Spec.cpf [(r.id0, r.data0), (r.id1, r.data1)]) := by
  simp [Req.bytes, EipHeader.encode, putBV]

theorem readItems_cpf (r : Req) (hr : r.wf) (rest : Bytes) :
    readItems (Gologix.Spec.cpf [(r.id0, r.data0), (r.id1, r.data1)] ++ rest) =
      .ok ([⟨r.id0, BitVec.ofNat 16 r.data0.length, r.data0, 0⟩,
        ⟨r.id1, BitVec.ofNat 16 r.data1.length, r.data1, 0⟩], rest) := by
  obtain ⟨-, h0, h1⟩ := hr
  have hn := readItemsN_bytes [⟨r.id0, BitVec.ofNat 16 r.data0.length, r.data0, 0⟩,
        ⟨r.id1, BitVec.ofNat 16 r.data1.length, r.data1, 0⟩] rest (by simp; omega)
  have hb : Gologix.Spec.cpf [(r.id0, r.data0), (r.id1, r.data1)] ++ rest =
      putBV (2#16) ++ (([⟨r.id0, BitVec.ofNat 16 r.data0.length, r.data0, 0⟩,
        ⟨r.id1, BitVec.ofNat 16 r.data1.length, r.data1, 0⟩].map Item.bytes).flatten ++ rest) := by
    simp only [Gologix.Spec.cpf, Gologix.Spec.item, Item.bytes, putBV_ofNat16, List.map_cons, List.map_nil,
      List.flatten_cons, List.flatten_nil, List.append_assoc, List.length_cons, List.length_nil]
    rfl
  rw [hb]
  simp only [readItems, readU16, Res.bind_ok]
  exact hn

/-- Receiving the two items of a request. -/
theorem recv_items (r : Req) (hr : r.wf) (rest : Bytes) (st : St)
    (hi : st.inp = r.pre ++ (Gologix.Spec.cpf [(r.id0, r.data0), (r.id1, r.data1)] ++ rest))
    (f : List Item → M Unit) :
    ((do
      let _ ← recv 4
      let _ ← recv 2
      let items ← recvItems
      f items : M Unit) st) =
    f [⟨r.id0, BitVec.ofNat 16 r.data0.length, r.data0, 0⟩,
        ⟨r.id1, BitVec.ofNat 16 r.data1.length, r.data1, 0⟩] { st with inp := rest } := by
  have hp : r.pre.length = 6 := hr.1
  have h4 : readN 4 st.inp = .ok (r.pre.take 4, r.pre.drop 4 ++
      (Gologix.Spec.cpf [(r.id0, r.data0), (r.id1, r.data1)] ++ rest)) := by
    rw [hi]
    have : r.pre ++ (Gologix.Spec.cpf [(r.id0, r.data0), (r.id1, r.data1)] ++ rest) =
        r.pre.take 4 ++ (r.pre.drop 4 ++ (Gologix.Spec.cpf [(r.id0, r.data0), (r.id1, r.data1)] ++ rest)) := by
      rw [← List.append_assoc (r.pre.take 4), List.take_append_drop]
    rw [this]
    exact readN_append' (by simp; omega)
  have h2 : readN 2 (r.pre.drop 4 ++ (Gologix.Spec.cpf [(r.id0, r.data0), (r.id1, r.data1)] ++ rest)) =
      .ok (r.pre.drop 4, Gologix.Spec.cpf [(r.id0, r.data0), (r.id1, r.data1)] ++ rest) :=
    readN_append' (by simp; omega)
  rw [bind_def]
  simp only [recv, h4]
  rw [bind_def]
  simp only [recv, h2]
  rw [bind_def]
  simp only [recvItems, readItems_cpf r hr rest]

/-- One iteration of the server loop on a request with two items. -/
theorem serveStep_req (C : Conv) (r : Req) (rest : Bytes) (st : St)
    (hi : st.inp = r.bytes ++ rest) :
    serveStep C st = dispatch C ⟨r.cmd, r.length, r.session, r.status, r.context, r.options⟩
      { st with inp := r.pre ++ (Gologix.Spec.cpf [(r.id0, r.data0), (r.id1, r.data1)] ++ rest),
                h := { st.h with context := r.context } } := by
  unfold serveStep
  rw [bind_def]
  simp only [recvHeader, hi, req_header, List.append_assoc, readEIPHeader_encode]
  rfl

theorem serveStep_unit (C : Conv) (r : Req) (hr : r.wf) (rest : Bytes) (st : St)
    (hi : st.inp = r.bytes ++ rest) (hc : r.cmd = 0x70#16) :
    serveStep C st = unitItems C [⟨r.id0, BitVec.ofNat 16 r.data0.length, r.data0, 0⟩,
        ⟨r.id1, BitVec.ofNat 16 r.data1.length, r.data1, 0⟩]
      { st with inp := rest, h := { st.h with context := r.context } } := by
  rw [serveStep_req C r rest st hi]
  simp only [dispatch, hc]
  exact recv_items r hr rest _ rfl _

theorem serveStep_rr (C : Conv) (r : Req) (hr : r.wf) (rest : Bytes) (st : St)
    (hi : st.inp = r.bytes ++ rest) (hc : r.cmd = 0x6F#16) :
    serveStep C st = rrItems C [⟨r.id0, BitVec.ofNat 16 r.data0.length, r.data0, 0⟩,
        ⟨r.id1, BitVec.ofNat 16 r.data1.length, r.data1, 0⟩]
      { st with inp := rest, h := { st.h with context := r.context } } := by
  rw [serveStep_req C r rest st hi]
  simp only [dispatch, hc]
  exact recv_items r hr rest _ rfl _

end Gologix.Server
