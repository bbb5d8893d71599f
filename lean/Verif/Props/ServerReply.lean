import Verif.Lemmas.Server
import Verif.Props.ServerDemo
import Verif.Props.ServerEcho
/-
C78: the frames, sequence counts and connections of the server's replies.  C79: what the server reports.
-/
set_option linter.unusedSimpArgs false

namespace Gologix.Server
open Gologix.Server.Spec M

/-! ### Handlers that keep a property of the state -/

/-- In states with `I`, `m` keeps `I` and sends only frames with `P`. -/
def Tells {α : Type} (I : St → Prop) (P : Bytes → Prop) (m : M α) : Prop :=
  ∀ st, I st → I (m st).2 ∧ ∃ new, (m st).2.sent = st.sent ++ new ∧ ∀ f ∈ new, P f

section
variable {I : St → Prop} {P : Bytes → Prop}

theorem tells_bind {α β : Type} {m : M α} {f : α → M β} (hm : Tells I P m) (hf : ∀ a, Tells I P (f a)) :
    Tells I P (m >>= f) := by
  intro st hi
  rw [bind_def]
  have h := hm st hi
  cases hm' : m st with
  | mk r st' =>
    rw [hm'] at h
    obtain ⟨h1, new, h2, h3⟩ := h
    simp only at h1 h2
    cases r with
    | ok a =>
      obtain ⟨k1, new', k2, k3⟩ := hf a st' h1
      refine ⟨k1, new ++ new', by simp only [k2, h2, List.append_assoc], ?_⟩
      intro f hf
      rcases List.mem_append.mp hf with hf | hf
      · exact h3 f hf
      · exact k3 f hf
    | err e => exact ⟨h1, new, h2, h3⟩
    | panic => exact ⟨h1, new, h2, h3⟩

theorem tells_lift {α : Type} (r : Res α) : Tells I P (lift r : M α) := fun _ hi => ⟨hi, [], by simp, by simp⟩
theorem tells_pure {α : Type} (a : α) : Tells I P (pure a : M α) := fun _ hi => ⟨hi, [], by simp, by simp⟩
theorem tells_fail {α : Type} : Tells I P (fail : M α) := fun _ hi => ⟨hi, [], by simp [fail], by simp⟩
theorem tells_crash {α : Type} : Tells I P (crash : M α) := fun _ hi => ⟨hi, [], by simp [crash], by simp⟩
theorem tells_look {α : Type} (r : St → Res α) : Tells I P (look r : M α) := fun _ hi => ⟨hi, [], by simp [look], by simp⟩
theorem tells_getByOT (k : BitVec 32) : Tells I P (getByOT k) := fun _ hi => ⟨hi, [], by simp [getByOT], by simp⟩
theorem tells_resolve (p : Bytes) : Tells I P (resolve p) := fun _ hi => ⟨hi, [], by simp [resolve], by simp⟩

theorem tells_modify {f : St → St} (hk : ∀ st, I st → I (f st)) (hs : ∀ st, (f st).sent = st.sent) :
    Tells I P (M.modify f) := fun st hi => ⟨hk st hi, [], by simp [M.modify, hs], by simp⟩

theorem tells_ite {α : Type} {c : Prop} [Decidable c] {a b : M α} (ha : c → Tells I P a) (hb : ¬ c → Tells I P b) :
    Tells I P (if c then a else b) := by
  split
  · exact ha ‹_›
  · exact hb ‹_›

theorem tells_depend {α : Type} {f : St → M α} (hf : ∀ s, I s → Tells I P (f s)) : Tells I P (depend f) :=
  fun st hi => hf st hi st hi

theorem tells_orElseAt {α : Type} {r : St → Res α} {e : M Unit} (he : Tells I P e) :
    Tells I P (orElseAt r e : M α) := by
  intro st hi
  simp only [orElseAt, orElse]
  cases h : r st with
  | ok a => exact ⟨hi, [], by simp, by simp⟩
  | err x => exact he st hi
  | panic => exact ⟨hi, [], by simp, by simp⟩

theorem tells_orElse {α : Type} {r : Res α} {e : M Unit} (he : Tells I P e) :
    Tells I P (orElse r e : M α) := tells_orElseAt (r := fun _ => r) he

/-- The same with the value that is found. -/
theorem tells_orElse_of {α β : Type} {r : St → Res α} {e : M Unit} {f : α → M β} (he : Tells I P e)
    (hf : ∀ a, (∃ st, I st ∧ r st = .ok a) → Tells I P (f a)) : Tells I P ((orElseAt r e : M α) >>= f) := by
  intro st hi
  rw [bind_def]
  simp only [orElseAt, orElse]
  cases h : r st with
  | ok a => exact hf a ⟨st, hi, h⟩ st hi
  | err x => exact he st hi
  | panic => exact ⟨hi, [], by simp, by simp⟩

theorem tells_orElse_const {α β : Type} {r : Res α} {e : M Unit} {f : α → M β} (he : Tells I P e)
    (hf : ∀ a, r = .ok a → Tells I P (f a)) : Tells I P ((orElse r e : M α) >>= f) :=
  tells_orElse_of (r := fun _ => r) he fun a ⟨_, _, h⟩ => hf a h

theorem tells_bind_of {α β : Type} {m : M α} {f : α → M β} (hm : Tells I P m)
    (hf : ∀ a, (∃ st, I st ∧ (m st).1 = .ok a) → Tells I P (f a)) : Tells I P (m >>= f) := by
  intro st hi
  rw [bind_def]
  have h := hm st hi
  cases hm' : m st with
  | mk r st' =>
    rw [hm'] at h
    obtain ⟨h1, new, h2, h3⟩ := h
    simp only at h1 h2
    cases r with
    | ok a =>
      obtain ⟨k1, new', k2, k3⟩ := hf a ⟨st, hi, by rw [hm']⟩ st' h1
      refine ⟨k1, new ++ new', by simp only [k2, h2, List.append_assoc], ?_⟩
      intro f hf
      rcases List.mem_append.mp hf with hf | hf
      · exact h3 f hf
      · exact k3 f hf
    | err e => exact ⟨h1, new, h2, h3⟩
    | panic => exact ⟨h1, new, h2, h3⟩

theorem tells_send {cmd : BitVec 16} {p : Bytes} (hk : ∀ st s, I st → I { st with sent := s })
    (h : ∀ st, I st → P (frameOf st.h cmd p)) : Tells I P (send cmd p) := by
  intro st hi
  refine ⟨hk st _ hi, [frameOf st.h cmd p], rfl, ?_⟩
  intro f hf
  rw [List.mem_singleton] at hf
  subst hf
  exact h st hi

end

section
variable {I : St → Prop} {P : Bytes → Prop}

theorem tells_readTag (ep : Nat) (tag : Str) (qty : BitVec 16) : Tells I P (readTag ep tag qty) := by
  intro st hi
  have h : (readTag ep tag qty st).2 = st := by unfold readTag; split <;> rfl
  rw [h]
  exact ⟨hi, [], by simp, by simp⟩

/-- A property that does not depend on the tags. -/
def FreeOfTags (I : St → Prop) : Prop := ∀ st e, I st → I { st with srv := { st.srv with eps := e } }

theorem tells_writeTag (hk : FreeOfTags I) (C : Conv) (ep : Nat) (tag : Str) (v : TVal) :
    Tells I P (writeTag C ep tag v) := by
  intro st hi
  unfold writeTag
  split
  · exact ⟨hk _ _ hi, [], by simp, by simp⟩
  · exact ⟨hi, [], by simp, by simp⟩

theorem tells_writeValues (hk : FreeOfTags I) (C : Conv) (ep : Nat) (tag : Str) (vs : List Scal) :
    Tells I P (writeValues C ep tag vs) := by
  unfold writeValues
  split
  · exact tells_crash
  · exact tells_writeTag hk _ _ _ _
  · exact tells_writeTag hk _ _ _ _

theorem tells_multiOne (hk : FreeOfTags I) (C : Conv) (ep : Nat) (d : Bytes) (off : BitVec 16) :
    Tells I P (multiOne C ep d off) := by
  unfold multiOne
  refine tells_ite (fun _ => tells_crash) fun _ => ?_
  refine tells_bind (tells_lift _) fun ⟨svc, r⟩ => ?_
  refine tells_bind (tells_lift _) fun ⟨_, r⟩ => ?_
  refine tells_ite (fun _ => ?_) fun _ => tells_ite (fun _ => ?_) fun _ => tells_pure _
  · refine tells_bind (tells_lift _) fun ⟨tag, r⟩ => ?_
    refine tells_bind (tells_lift _) fun ⟨qty, r⟩ => ?_
    exact tells_bind (tells_readTag _ _ _) fun _ => tells_lift _
  · refine tells_bind (tells_lift _) fun ⟨tag, r⟩ => ?_
    refine tells_bind (tells_lift _) fun ⟨typ, r⟩ => ?_
    refine tells_bind (tells_lift _) fun ⟨_, r⟩ => ?_
    refine tells_bind (tells_lift _) fun ⟨qty, r⟩ => ?_
    refine tells_bind (tells_lift _) fun ⟨vs, r⟩ => ?_
    exact tells_bind (tells_writeValues hk _ _ _ _) fun _ => tells_pure _

theorem tells_multiAll (hk : FreeOfTags I) (C : Conv) (ep : Nat) (d : Bytes) (offs : List (BitVec 16)) :
    Tells I P (multiAll C ep d offs) := by
  induction offs with
  | nil => exact tells_pure _
  | cons o os ih => exact tells_bind (tells_multiOne hk _ _ _ _) fun _ => tells_bind ih fun _ => tells_pure _

end

/-! ### Lengths -/

theorem frameOf_framed (h : Handler) (cmd : BitVec 16) (p : Bytes) : Framed (frameOf h cmd p) := by
  have hl : (frameOf h cmd p).length = 24 + p.length := by simp [frameOf, encode_length]
  refine ⟨by omega, ?_⟩
  rw [hl, show 24 + p.length - 24 = p.length by omega]
  have : le 2 p.length = putBV (BitVec.ofNat 16 p.length) := by
    unfold putBV
    rw [BitVec.toNat_ofNat, show (2 : Nat) = 16 / 8 from rfl]
    exact (le_mod 2 p.length).symm
  rw [this]
  simp [field, frameOf, EipHeader.encode, putBV, le]

/-- `m` sends only whole frames. -/
abbrev Whole {α : Type} (m : M α) : Prop := Tells (fun _ => True) Framed m

theorem whole_send (cmd : BitVec 16) (p : Bytes) : Whole (send cmd p) :=
  tells_send (fun _ _ _ => trivial) fun _ _ => frameOf_framed _ _ _

theorem whole_sendConnected (s status : Byte) (seq : BitVec 16) (conn : BitVec 32) (p : Bytes) :
    Whole (sendConnected s seq conn status p) := whole_send _ _
theorem whole_sendUnitData (s status : Byte) (p : Bytes) : Whole (sendUnitData s status p) := fun st hi => whole_send _ _ st hi
theorem whole_sendUnconn (s status : Byte) (p : Bytes) : Whole (sendUnconn s status p) := whole_send _ _

/-- A handler that sends nothing. -/
theorem whole_quiet {α : Type} {m : M α} (h : ∀ st, (m st).2.sent = st.sent) : Whole m :=
  fun st _ => ⟨trivial, [], by simp [h], by simp⟩

theorem whole_bind {α β : Type} {m : M α} {f : α → M β} (hm : Whole m) (hf : ∀ a, Whole (f a)) : Whole (m >>= f) :=
  tells_bind hm hf

theorem whole_quietly {α : Type} {m : M α} (h : Quiet m) : Whole m := whole_quiet fun st => (h st).1

theorem whole_writeValues (C : Conv) (ep : Nat) (tag : Str) (vs : List Scal) : Whole (writeValues C ep tag vs) :=
  tells_writeValues (fun _ _ _ => trivial) _ _ _ _
theorem whole_multiAll (C : Conv) (ep : Nat) (d : Bytes) (offs : List (BitVec 16)) : Whole (multiAll C ep d offs) :=
  tells_multiAll (fun _ _ _ => trivial) _ _ _ _

syntax "whole" : tactic
macro_rules
  | `(tactic| whole) => `(tactic| repeat' first
    | with_reducible exact tells_lift _ | with_reducible exact tells_pure _ | with_reducible exact tells_fail | with_reducible exact tells_crash | with_reducible exact tells_look _
    | with_reducible exact tells_getByOT _ | with_reducible exact tells_resolve _ | with_reducible exact tells_readTag _ _ _
    | with_reducible exact whole_sendConnected _ _ _ _ _ | with_reducible exact whole_sendUnitData _ _ _ | with_reducible exact whole_sendUnconn _ _ _
    | with_reducible exact whole_send _ _ | with_reducible exact tells_orElse (whole_sendConnected _ _ _ _ _)
    | with_reducible exact tells_orElseAt (whole_sendConnected _ _ _ _ _)
    | with_reducible exact whole_writeValues _ _ _ _ | with_reducible exact whole_multiAll _ _ _ _
    | with_reducible exact whole_quietly (quiet_chooseId _) | with_reducible exact whole_quietly (quiet_addConn _ _ _ _ _)
    | with_reducible exact whole_quietly (quiet_startIO _ _ _) | with_reducible exact whole_quietly (quiet_forwardClose _)
    | with_reducible exact whole_quietly (quiet_recv _) | with_reducible exact whole_quietly quiet_recvItems
    | with_reducible exact whole_quietly (quiet_tryWrite _ _ _ _)
    | with_reducible exact tells_modify (fun _ _ => trivial) (fun _ => rfl)
    | with_reducible refine tells_bind ?_ fun _ => ?_
    | with_reducible refine tells_ite (fun _ => ?_) fun _ => ?_
    | with_reducible refine tells_depend fun _ _ => ?_
    | split)

theorem whole_read (svc : Byte) (addr data : Bytes) : Whole (connectedRead svc addr data) := by
  unfold connectedRead; whole

theorem whole_unitService (C : Conv) (addr data : Bytes) (conn : BitVec 32) (svc : Byte) (r : Bytes) :
    Whole (unitService C addr data conn svc r) := by
  unfold unitService cipConnectedWrite connectedMulti connectedGetAttr connectedGetAttributeAll connectedSymbolList
  refine tells_ite (fun _ => by whole) fun _ => tells_ite (fun _ => whole_read _ _ _) fun _ =>
    tells_ite (fun _ => whole_read _ _ _) fun _ => ?_
  whole

theorem whole_unitItems (C : Conv) (items : List Item) : Whole (unitItems C items) := by
  unfold unitItems
  split
  · refine tells_ite (fun _ => tells_fail) fun _ => ?_
    refine whole_bind (tells_lift _) fun _ => whole_bind (tells_lift _) fun _ => whole_bind
      (tells_modify (fun _ _ => trivial) fun _ => rfl) fun _ => whole_bind (tells_lift _) fun _ =>
      whole_unitService _ _ _ _ _ _
  · exact tells_fail

theorem whole_forwardOpen (large : Bool) (d : Bytes) : Whole (forwardOpen large d) := by
  unfold forwardOpen sendRR; whole

theorem whole_getAttrSingle (r : Bytes) : Whole (unconnectedGetAttrSingle r) := by
  unfold unconnectedGetAttrSingle; whole

theorem whole_setAttrSingle (C : Conv) (r : Bytes) : Whole (unconnectedSetAttrSingle C r) := by
  unfold unconnectedSetAttrSingle; whole

theorem whole_attributeAll (r : Bytes) : Whole (unconnectedGetAttributeAll r) := by
  unfold unconnectedGetAttributeAll; whole

theorem whole_unconnectedSend (C : Conv) (r : Bytes) : Whole (unconnectedSend C r) := by
  unfold unconnectedSend
  refine whole_bind (tells_lift _) fun _ => whole_bind (tells_lift _) fun _ => whole_bind (tells_lift _) fun _ =>
    whole_bind (tells_lift _) fun _ => whole_bind (tells_lift _) fun _ => ?_
  refine tells_ite (fun _ => by unfold unconnectedWrite; whole) fun _ =>
    tells_ite (fun _ => by unfold unconnectedRead; whole) fun _ =>
    tells_ite (fun _ => whole_getAttrSingle _) fun _ => tells_ite (fun _ => whole_setAttrSingle _ _) fun _ =>
    tells_ite (fun _ => whole_attributeAll _) fun _ => whole_sendUnconn _ _ _

theorem whole_unconnected (C : Conv) (d : Bytes) : Whole (unconnectedData C d) := by
  unfold unconnectedData
  refine whole_bind (tells_lift _) fun _ => ?_
  refine tells_ite (fun _ => whole_forwardOpen _ _) fun _ => tells_ite (fun _ => whole_forwardOpen _ _) fun _ =>
    tells_ite (fun _ => whole_quietly (quiet_forwardClose _)) fun _ => tells_ite (fun _ => whole_attributeAll _) fun _ =>
    tells_ite (fun _ => whole_getAttrSingle _) fun _ => tells_ite (fun _ => whole_setAttrSingle _ _) fun _ =>
    tells_ite (fun _ => whole_unconnectedSend _ _) fun _ => whole_sendUnconn _ _ _

theorem whole_rrItems (C : Conv) (items : List Item) : Whole (rrItems C items) := by
  unfold rrItems
  split
  · exact tells_ite (fun _ => whole_bind (tells_lift _) fun _ => whole_read _ _ _) fun _ =>
      tells_ite (fun _ => whole_unconnected _ _) fun _ => tells_pure _
  · exact tells_fail

theorem whole_serveStep (C : Conv) : Whole (serveStep C) := by
  unfold serveStep
  have hh : Whole recvHeader := whole_quiet fun st => by unfold recvHeader; split <;> rfl
  refine whole_bind hh fun hdr => whole_bind (tells_modify (fun _ _ => trivial) fun _ => rfl) fun _ => ?_
  unfold dispatch
  refine tells_ite (fun _ => by unfold registerSession; whole) fun _ => tells_ite (fun _ => ?_) fun _ =>
    tells_ite (fun _ => ?_) fun _ => tells_ite (fun _ => whole_send _ _) fun _ =>
    tells_ite (fun _ => by unfold sendListIdentity; whole) fun _ => tells_pure _
  · unfold handleRRData
    exact whole_bind (whole_quietly (quiet_recv _)) fun _ => whole_bind (whole_quietly (quiet_recv _)) fun _ =>
      whole_bind (whole_quietly quiet_recvItems) fun _ => whole_rrItems _ _
  · unfold handleUnitData
    exact whole_bind (whole_quietly (quiet_recv _)) fun _ => whole_bind (whole_quietly (quiet_recv _)) fun _ =>
      whole_bind (whole_quietly quiet_recvItems) fun _ => whole_unitItems _ _

theorem whole_serve (C : Conv) (n : Nat) : Whole (serve C n) := by
  induction n with
  | zero => exact tells_pure _
  | succ n ih => exact whole_bind (whole_serveStep C) fun _ => ih

/-- C78, frames: whatever arrives, and however long the server runs, every frame it sends has the length its header
gives, modulo the size of that field. -/
theorem C78_framed (C : Conv) (st : St) (n : Nat) :
    ∃ new, (serve C n st).2.sent = st.sent ++ new ∧ ∀ f ∈ new, Framed f :=
  (whole_serve C n st trivial).2

/-- C78 is false for replies that do not fit the length field: the header then gives another length. -/
theorem C78_long_reply (h : Handler) (cmd : BitVec 16) (p : Bytes) (hp : 65536 ≤ p.length) :
    unle (field 2 2 (frameOf h cmd p)) < p.length := by
  rw [(frameOf_framed h cmd p).2, unle_le]
  have hl : (frameOf h cmd p).length = 24 + p.length := by simp [frameOf, encode_length]
  rw [hl]
  have := Nat.mod_lt (24 + p.length - 24) (show 0 < 256 ^ 2 by decide)
  omega

/-! ### Sequence counts and connections -/

theorem unit_fields (h : Handler) (conn : BitVec 32) (seq : BitVec 16) (s status : Byte) (p : Bytes) :
    let f := frameOf h 0x70#16 (serializeItems [(Item.new 0xA1#16).write (putBV conn),
      (Item.new 0xB1#16).write (putBV seq ++ resultHdr s status ++ p)])
    connOf f = le 4 conn.toNat ∧ seqOf f = le 2 seq.toNat ∧ statusOf f = some status ∧ answerOf f = p := by
  simp only [connOf, seqOf, statusOf, answerOf, field]
  rw [show (36 : Nat) = 24 + 12 from rfl, show (44 : Nat) = 24 + 20 from rfl, show (50 : Nat) = 24 + 26 from rfl,
    show (48 : Nat) = 24 + 24 from rfl, ← List.drop_drop, ← List.drop_drop, ← List.drop_drop, frameOf_drop, frameOf_get,
    unit_payload]
  have e4 : putBV conn = [_, _, _, _] := rfl
  have e2 : putBV seq = [_, _] := rfl
  refine ⟨?_, ?_, ?_, ?_⟩ <;> simp [Gologix.Spec.cpf, Gologix.Spec.item, le, putBV, resultHdr]

/-- The request came with sequence count `seq` on connection `k`, which is `c`, and `to` is the connection opened last
over this session. -/
def OnConn (k : BitVec 32) (c : Conn) (seq : BitVec 16) (to : BitVec 32) (st : St) : Prop :=
  st.srv.conns.getByOT k = .ok c ∧ st.h.seq = seq ∧ st.h.to = to

/-- Addressed with a sequence count to one of two connections. -/
def Addressed (seq : BitVec 16) (to1 to2 : BitVec 32) (f : Bytes) : Prop :=
  seqOf f = le 2 seq.toNat ∧ (connOf f = le 4 to1.toNat ∨ connOf f = le 4 to2.toNat)

section
variable {k : BitVec 32} {c : Conn} {seq : BitVec 16} {to to' : BitVec 32}

theorem onConn_tags : FreeOfTags (OnConn k c seq to) := fun _ _ h => h

theorem addr_sendConnected (s status : Byte) (p : Bytes) :
    Tells (OnConn k c seq to) (Addressed seq c.to to') (sendConnected s seq c.to status p) :=
  tells_send (fun _ _ h => h) fun st _ => by
    have h := unit_fields st.h c.to seq s status p
    exact ⟨h.2.1, .inl h.1⟩

theorem addr_sendUnitData (s status : Byte) (p : Bytes) :
    Tells (OnConn k c seq to) (Addressed seq c.to to) (sendUnitData s status p) := by
  intro st hi
  refine tells_send (I := OnConn k c seq to) (fun _ _ h => h) (fun st' hi' => ?_) st hi
  have h := unit_fields st'.h st.h.to st.h.seq s status p
  refine ⟨?_, .inr ?_⟩
  · rw [← hi.2.1]; exact h.2.1
  · rw [← hi.2.2]; exact h.1

theorem addr_getByOT {β : Type} {P : Bytes → Prop} {f : Conn → M β} (h : Tells (OnConn k c seq to) P (f c)) :
    Tells (OnConn k c seq to) P (getByOT k >>= f) := by
  refine tells_bind_of (tells_getByOT k) fun a ha => ?_
  obtain ⟨st, hi, ha⟩ := ha
  have : a = c := by
    have h1 := hi.1
    simp only [getByOT] at ha
    rw [ha] at h1
    cases h1
    rfl
  rw [this]
  exact h

theorem addr_read (svc : Byte) (addr more data body : Bytes) (ha : readBV 32 addr = .ok (k, more))
    (hd : readBV 16 data = .ok (seq, body)) :
    Tells (OnConn k c seq to) (Addressed seq c.to to') (connectedRead svc addr data) := by
  unfold connectedRead
  rw [ha, hd]
  refine tells_bind_of (m := orElse (.ok (k, more)) _) (fun st hi => ⟨hi, [], by simp [orElse], by simp⟩) fun a ha => ?_
  obtain ⟨_, -, ha⟩ := ha
  cases ha
  simp only
  refine tells_bind_of (m := orElseAt _ _) ?_ fun a ha => ?_
  · intro st hi
    simp only [orElseAt, orElse, hi.1]
    exact ⟨hi, [], by simp, by simp⟩
  obtain ⟨st, hi, ha⟩ := ha
  have hac : a = c := by
    simp only [orElseAt, orElse, hi.1] at ha
    cases ha
    rfl
  subst hac
  refine tells_bind_of (m := orElse (.ok (seq, body)) _) (fun st hi => ⟨hi, [], by simp [orElse], by simp⟩) fun a ha => ?_
  obtain ⟨_, -, ha⟩ := ha
  cases ha
  simp only
  refine tells_bind (tells_orElse (addr_sendConnected _ _ _)) fun ⟨_, r⟩ => ?_
  refine tells_bind (tells_orElse (addr_sendConnected _ _ _)) fun ⟨tag, r⟩ => ?_
  refine tells_bind (tells_orElse (addr_sendConnected _ _ _)) fun ⟨qty, r⟩ => ?_
  refine tells_bind (tells_orElseAt (addr_sendConnected _ _ _)) fun ep => ?_
  refine tells_bind (tells_orElseAt (addr_sendConnected _ _ _)) fun v => ?_
  exact tells_bind (tells_lift _) fun b => addr_sendConnected _ _ _

theorem addr_multi (C : Conv) (data body : Bytes) (hd : readBV 16 data = .ok (seq, body)) :
    Tells (OnConn k c seq to) (Addressed seq c.to to') (connectedMulti C k data) := by
  unfold connectedMulti
  refine addr_getByOT (tells_bind (tells_resolve _) fun ep => ?_)
  rw [hd]
  refine tells_bind_of (m := lift _) (tells_lift _) fun a ha => ?_
  obtain ⟨_, -, ha⟩ := ha
  cases ha
  simp only
  refine tells_bind (tells_lift _) fun ⟨_, r⟩ => ?_
  refine tells_bind (tells_lift _) fun ⟨plen, r⟩ => ?_
  refine tells_bind (tells_lift _) fun ⟨_, r⟩ => ?_
  refine tells_bind (tells_lift _) fun ⟨qty, r⟩ => ?_
  refine tells_bind (tells_lift _) fun ⟨tab, _⟩ => ?_
  refine tells_bind (tells_multiAll onConn_tags _ _ _ _) fun results => ?_
  exact addr_sendConnected _ _ _

theorem addr_getAttr (data body : Bytes) (hd : readBV 16 data = .ok (seq, body)) :
    Tells (OnConn k c seq to) (Addressed seq c.to to') (connectedGetAttr k data) := by
  unfold connectedGetAttr
  refine addr_getByOT ?_
  rw [hd]
  refine tells_bind_of (m := lift _) (tells_lift _) fun a ha => ?_
  obtain ⟨_, -, ha⟩ := ha
  cases ha
  simp only
  refine tells_bind (tells_lift _) fun ⟨_, r⟩ => ?_
  refine tells_bind (tells_lift _) fun ⟨plen, r⟩ => ?_
  refine tells_ite (fun _ => tells_fail) fun _ => ?_
  refine tells_bind (tells_lift _) fun ⟨cls, r⟩ => ?_
  refine tells_bind (tells_lift _) fun ⟨inst, r⟩ => ?_
  refine tells_ite (fun _ => tells_fail) fun _ => ?_
  refine tells_bind (tells_lift _) fun ⟨attr, r⟩ => ?_
  refine tells_bind (tells_look _) fun a => ?_
  exact tells_bind (tells_lift _) fun b => addr_sendConnected _ _ _

theorem addr_unitService (C : Conv) (addr more data body : Bytes) (ha : readBV 32 addr = .ok (k, more))
    (hd : readBV 16 data = .ok (seq, body)) (svc : Byte) (r : Bytes) :
    Tells (OnConn k c seq to) (Addressed seq c.to to) (unitService C addr data k svc r) := by
  unfold unitService
  refine tells_ite (fun _ => ?_) fun _ => tells_ite (fun _ => addr_read _ _ _ _ _ ha hd) fun _ =>
    tells_ite (fun _ => addr_read _ _ _ _ _ ha hd) fun _ => tells_ite (fun _ => addr_multi C _ _ hd) fun _ =>
    tells_ite (fun _ => addr_getAttr _ _ hd) fun _ => tells_ite (fun _ => ?_) fun _ => tells_ite (fun _ => ?_) fun _ =>
    addr_sendUnitData _ _ _
  · unfold cipConnectedWrite
    refine tells_bind (tells_lift _) fun ⟨_, r⟩ => ?_
    refine tells_bind (tells_lift _) fun ⟨tag, r⟩ => ?_
    refine tells_bind (tells_lift _) fun ⟨vs, r⟩ => ?_
    refine tells_bind (tells_getByOT _) fun c => ?_
    refine tells_bind (tells_resolve _) fun ep => ?_
    refine tells_bind (tells_writeValues onConn_tags _ _ _ _) fun _ => ?_
    exact addr_sendUnitData _ _ _
  · unfold connectedGetAttributeAll
    refine tells_bind (tells_lift _) fun ⟨_, r⟩ => ?_
    refine tells_bind (tells_lift _) fun ⟨_, r⟩ => ?_
    refine tells_bind (tells_lift _) fun ⟨plen, r⟩ => ?_
    refine tells_bind (tells_lift _) fun ⟨path, _⟩ => ?_
    simp only
    split
    · exact tells_bind (tells_look _) fun ⟨_, _⟩ => addr_sendUnitData _ _ _
    · exact addr_sendUnitData _ _ _
  · unfold connectedSymbolList
    refine tells_bind (tells_getByOT _) fun c => ?_
    refine tells_bind (tells_resolve _) fun ep => ?_
    refine tells_depend fun st _ => ?_
    split <;> exact addr_sendUnitData _ _ _

end

/-- C78, sequence counts and connections: a request with sequence count `seq` on an open connection `c` is answered, if
at all, with this sequence count, and to the originator of `c` or of the connection opened last over the session. -/
theorem C78_addressed_partial (C : Conv) (st : St) (r : Req) (hr : r.wf) (rest : Bytes)
    (hi : st.inp = r.bytes ++ rest) (hcmd : r.cmd = 0x70#16)
    (k : BitVec 32) (more : Bytes) (h0 : r.data0 = le 4 k.toNat ++ more) (c : Conn)
    (hc : st.srv.conns.getByOT k = .ok c)
    (seq : BitVec 16) (body : Bytes) (hd : r.data1 = le 2 seq.toNat ++ body) :
    ∀ f ∈ newFrames st (serveStep C st).2,
      seqOf f = le 2 seq.toNat ∧ (connOf f = le 4 c.to.toNat ∨ connOf f = le 4 st.h.to.toNat) := by
  rw [serveStep_unit C r hr rest st hi hcmd]
  have hk : readBV 32 r.data0 = .ok (k, more) := by rw [h0]; exact readU32 k more
  have hs : readBV 16 r.data1 = .ok (seq, body) := by rw [hd]; exact readU16 seq body
  unfold unitItems
  simp only
  by_cases hid : r.id0 ≠ 0xA1#16
  · rw [if_pos hid]
    intro f hf
    simp [newFrames, fail] at hf
  · rw [if_neg hid, hk, hs, lift_ok_bind]
    simp only
    rw [lift_ok_bind, bind_def]
    simp only [M.modify]
    have key : Tells (OnConn k c seq st.h.to) (Addressed seq c.to st.h.to)
        (lift (readBV 8 body) >>= fun x => unitService C r.data0 r.data1 k x.1 x.2) :=
      tells_bind (tells_lift _) fun ⟨svc, r'⟩ => addr_unitService C _ _ _ _ hk hs svc r'
    obtain ⟨-, new, h1, h2⟩ := key { st with inp := rest, h := { { st.h with context := r.context } with seq := seq } }
      ⟨hc, rfl, rfl⟩
    intro f hf
    have : f ∈ new := by
      simp only [newFrames] at hf
      erw [h1] at hf
      simpa using hf
    exact h2 f this

/-- A request, from its items on. -/
theorem unit_request (C : Conv) (st : St) (r : Req) (hr : r.wf) (rest : Bytes)
    (hi : st.inp = r.bytes ++ rest) (hcmd : r.cmd = 0x70#16) (hid : r.id0 = 0xA1#16)
    (k : BitVec 32) (more : Bytes) (h0 : r.data0 = le 4 k.toNat ++ more)
    (seq : BitVec 16) (svc : Byte) (body : Bytes) (hd : r.data1 = le 2 seq.toNat ++ svc :: body) :
    serveStep C st = unitService C r.data0 r.data1 k svc body
      { st with inp := rest, h := { st.h with context := r.context, seq := seq } } := by
  rw [serveStep_unit C r hr rest st hi hcmd]
  have hk : readBV 32 r.data0 = .ok (k, more) := by rw [h0]; exact readU32 k more
  have hs : readBV 16 r.data1 = .ok (seq, svc :: body) := by rw [hd]; exact readU16 seq _
  unfold unitItems
  simp only
  rw [if_neg (by simp [hid]), hk, hs, lift_ok_bind]
  simp only
  rw [lift_ok_bind, bind_def]
  simp only [M.modify]
  rw [readBV_cons8, lift_ok_bind]

/-- C78, services that look the connection up: reads, fragmented reads, multiple service requests and attribute reads
are answered to the connection they came on. -/
theorem C78_lookup_addressed (C : Conv) (st : St) (r : Req) (hr : r.wf) (rest : Bytes)
    (hi : st.inp = r.bytes ++ rest) (hcmd : r.cmd = 0x70#16) (hid : r.id0 = 0xA1#16)
    (k : BitVec 32) (more : Bytes) (h0 : r.data0 = le 4 k.toNat ++ more) (c : Conn)
    (hc : st.srv.conns.getByOT k = .ok c)
    (seq : BitVec 16) (svc : Byte) (hsvc : svc ∈ [0x52#8, 0x4C#8, 0x0A#8, 0x0E#8]) (body : Bytes)
    (hd : r.data1 = le 2 seq.toNat ++ svc :: body) :
    ∀ f ∈ newFrames st (serveStep C st).2, seqOf f = le 2 seq.toNat ∧ connOf f = le 4 c.to.toNat := by
  have hk : readBV 32 r.data0 = .ok (k, more) := by rw [h0]; exact readU32 k more
  have hs : readBV 16 r.data1 = .ok (seq, svc :: body) := by rw [hd]; exact readU16 seq _
  rw [unit_request C st r hr rest hi hcmd hid k more h0 seq svc body hd]
  have key : Tells (OnConn k c seq st.h.to) (Addressed seq c.to c.to) (unitService C r.data0 r.data1 k svc body) := by
    simp only [List.mem_cons, List.not_mem_nil, or_false] at hsvc
    rcases hsvc with rfl | rfl | rfl | rfl
    · exact addr_read _ _ _ _ _ hk hs
    · exact addr_read _ _ _ _ _ hk hs
    · exact addr_multi C _ _ hs
    · exact addr_getAttr _ _ hs
  obtain ⟨-, new, h1, h2⟩ := key { st with inp := rest, h := { st.h with context := r.context, seq := seq } }
    ⟨hc, rfl, rfl⟩
  intro f hf
  have hm : f ∈ new := by
    simp only [newFrames] at hf
    erw [h1] at hf
    simpa using hf
  obtain ⟨a, b⟩ := h2 f hm
  exact ⟨a, b.elim id id⟩

/-- C78 is false for connections: a write is acknowledged to the connection opened last over the session, whichever
connection it came on. -/
theorem C78_write_misaddressed (C : Conv) (st : St) (r : Req) (hr : r.wf) (rest : Bytes)
    (hi : st.inp = r.bytes ++ rest) (hcmd : r.cmd = 0x70#16) (hid : r.id0 = 0xA1#16)
    (k : BitVec 32) (more : Bytes) (h0 : r.data0 = le 4 k.toNat ++ more) (c : Conn)
    (hne : c.to ≠ st.h.to)
    (seq : BitVec 16) (body : Bytes) (hd : r.data1 = le 2 seq.toNat ++ 0x4D#8 :: body) :
    ∀ f ∈ newFrames st (serveStep C st).2, connOf f = le 4 st.h.to.toNat ∧ connOf f ≠ le 4 c.to.toNat := by
  rw [unit_request C st r hr rest hi hcmd hid k more h0 seq 0x4D#8 body hd]
  have key : Tells (fun s => s.h.to = st.h.to) (fun f => connOf f = le 4 st.h.to.toNat)
      (unitService C r.data0 r.data1 k 0x4D#8 body) := by
    unfold unitService
    rw [if_pos rfl]
    unfold cipConnectedWrite
    refine tells_bind (tells_lift _) fun ⟨_, r⟩ => ?_
    refine tells_bind (tells_lift _) fun ⟨tag, r⟩ => ?_
    refine tells_bind (tells_lift _) fun ⟨vs, r⟩ => ?_
    refine tells_bind (tells_getByOT _) fun c => ?_
    refine tells_bind (tells_resolve _) fun ep => ?_
    refine tells_bind (tells_writeValues (fun _ _ h => h) _ _ _ _) fun _ => ?_
    intro s hs
    refine tells_send (I := fun s => s.h.to = st.h.to) (fun _ _ h => h) (fun s' _ => ?_) s hs
    rw [← hs]
    exact (unit_fields s'.h s.h.to s.h.seq 0x4D#8 0#8 []).1
  obtain ⟨-, new, h1, h2⟩ := key { st with inp := rest, h := { st.h with context := r.context, seq := seq } } rfl
  intro f hf
  have hf' : f ∈ new := by
    simp only [newFrames] at hf
    erw [h1] at hf
    simpa using hf
  refine ⟨h2 f hf', ?_⟩
  rw [h2 f hf']
  intro he
  exact hne (putBV_inj (by decide) (show putBV c.to = putBV st.h.to from he.symm))

/-- C78 is false for reads on a connection that does not exist: the error is sent to connection 0 with sequence
count 0. -/
theorem C78_unknown_connection (C : Conv) (st : St) (r : Req) (hr : r.wf) (rest : Bytes)
    (hi : st.inp = r.bytes ++ rest) (hcmd : r.cmd = 0x70#16) (hid : r.id0 = 0xA1#16)
    (k : BitVec 32) (more : Bytes) (h0 : r.data0 = le 4 k.toNat ++ more) (e : Err)
    (hc : st.srv.conns.getByOT k = .err e)
    (seq : BitVec 16) (svc : Byte) (hsvc : svc = 0x4C#8 ∨ svc = 0x52#8) (body : Bytes)
    (hd : r.data1 = le 2 seq.toNat ++ svc :: body) :
    ∃ f, newFrames st (serveStep C st).2 = [f] ∧ seqOf f = [0#8, 0#8] ∧ connOf f = [0#8, 0#8, 0#8, 0#8] ∧
      statusOf f = some 0x07#8 := by
  rw [unit_request C st r hr rest hi hcmd hid k more h0 seq svc body hd]
  have hk : readBV 32 r.data0 = .ok (k, more) := by rw [h0]; exact readU32 k more
  have hs : unitService C r.data0 r.data1 k svc body = connectedRead svc r.data0 r.data1 := by
    rcases hsvc with rfl | rfl <;> rfl
  rw [hs]
  unfold connectedRead
  rw [hk]
  have h := unit_fields { st.h with context := r.context, seq := seq } 0#32 0#16 svc 0x07#8 []
  refine ⟨_, ?_, h.2.1, h.1, h.2.2.1⟩
  rw [bind_def]
  simp only [orElse]
  rw [bind_def]
  simp only [orElseAt, orElse, hc]
  simp [newFrames, sendConnected, sendUnit, send]

/-! ### What is reported -/

theorem readBV16_cons (a b : Byte) (r : Bytes) :
    readBV 16 (a :: b :: r) = .ok (BitVec.ofNat 16 (a.toNat + 256 * b.toNat), r) := by
  simp [readBV, readLE, readN, unle]
  rfl

/-- C79, reads: a read is answered with success only if there was a value, and the answer then is this value.  `n` is
the length of the path, which is not looked at. -/
theorem C79_read_done (C : Conv) (st : St) (r : Req) (hr : r.wf) (rest : Bytes)
    (hi : st.inp = r.bytes ++ rest) (hcmd : r.cmd = 0x70#16) (hid : r.id0 = 0xA1#16)
    (k : BitVec 32) (more : Bytes) (h0 : r.data0 = le 4 k.toNat ++ more)
    (seq : BitVec 16) (svc n : Byte) (hsvc : svc = 0x4C#8 ∨ svc = 0x52#8) (body : Bytes)
    (hd : r.data1 = le 2 seq.toNat ++ svc :: n :: body) :
    ∀ f ∈ newFrames st (serveStep C st).2, statusOf f = some 0#8 →
      ∃ c tag r1 qty r2 ep v, st.srv.conns.getByOT k = .ok c ∧ getTagFromPath body = .ok (tag, r1) ∧
        readBV 16 r1 = .ok (qty, r2) ∧ st.srv.router.resolve c.path = .ok ep ∧
        (readTag ep tag qty st).1 = .ok v ∧ readPayload v = .ok (answerOf f) := by
  rw [unit_request C st r hr rest hi hcmd hid k more h0 seq svc (n :: body) hd]
  have hk : readBV 32 r.data0 = .ok (k, more) := by rw [h0]; exact readU32 k more
  have hs : readBV 16 r.data1 = .ok (seq, svc :: n :: body) := by rw [hd]; exact readU16 seq _
  have hsn : readBV 16 (svc :: n :: body) = .ok (BitVec.ofNat 16 (svc.toNat + 256 * n.toNat), body) := readBV16_cons _ _ _
  have hsv : unitService C r.data0 r.data1 k svc (n :: body) = connectedRead svc r.data0 r.data1 := by
    rcases hsvc with rfl | rfl <;> rfl
  rw [hsv]
  let Q : Bytes → Prop := fun f => statusOf f = some 0#8 →
      ∃ c tag r1 qty r2 ep v, st.srv.conns.getByOT k = .ok c ∧ getTagFromPath body = .ok (tag, r1) ∧
        readBV 16 r1 = .ok (qty, r2) ∧ st.srv.router.resolve c.path = .ok ep ∧
        (readTag ep tag qty st).1 = .ok v ∧ readPayload v = .ok (answerOf f)
  have err : ∀ (seq : BitVec 16) (to : BitVec 32) (s : Byte), s ≠ 0#8 →
      Tells (fun s => s.srv = st.srv) Q (sendConnected svc seq to s []) := by
    intro seq to s hs0
    refine tells_send (fun _ _ h => h) fun st' _ h => ?_
    rw [(unit_fields st'.h to seq svc s []).2.2.1] at h
    cases h
    exact absurd rfl hs0
  have key : Tells (fun s => s.srv = st.srv) Q (connectedRead svc r.data0 r.data1) := by
    unfold connectedRead
    rw [hk, hs]
    refine tells_orElse_const (err _ _ _ (by decide)) fun a ha => ?_
    cases ha
    simp only
    refine tells_orElse_of (err _ _ _ (by decide)) fun c hc => ?_
    obtain ⟨s1, hs1, hc⟩ := hc
    refine tells_orElse_const (err _ _ _ (by decide)) fun a ha => ?_
    cases ha
    simp only
    rw [hsn]
    refine tells_orElse_const (err _ _ _ (by decide)) fun a ha => ?_
    cases ha
    simp only
    refine tells_orElse_const (err _ _ _ (by decide)) fun ⟨tag, r1⟩ ht => ?_
    simp only
    refine tells_orElse_const (err _ _ _ (by decide)) fun ⟨qty, r2⟩ hq => ?_
    simp only
    refine tells_orElse_of (err _ _ _ (by decide)) fun ep he => ?_
    obtain ⟨s2, hs2, he⟩ := he
    refine tells_orElse_of (err _ _ _ (by decide)) fun v hv => ?_
    obtain ⟨s3, hs3, hv⟩ := hv
    refine tells_bind_of (tells_lift _) fun b hb => ?_
    obtain ⟨_, -, hb⟩ := hb
    refine tells_send (fun _ _ h => h) fun st' _ _ => ?_
    refine ⟨c, tag, r1, qty, r2, ep, v, hs1 ▸ hc, ht, hq, hs2 ▸ he, ?_, ?_⟩
    · rw [← hv]
      unfold readTag
      rw [hs3]
      split <;> rfl
    · rw [(unit_fields st'.h c.to seq svc 0#8 b).2.2.2]
      exact hb
  obtain ⟨-, new, h1, h2⟩ := key { st with inp := rest, h := { st.h with context := r.context, seq := seq } } rfl
  intro f hf
  have hf' : f ∈ new := by
    simp only [newFrames] at hf
    erw [h1] at hf
    simpa using hf
  exact h2 f hf'

theorem orElse_found {α β : Type} (a : α) (h : M Unit) (k : α → M β) : (orElse (.ok a) h >>= k) = k a := by
  funext st
  rw [bind_def]
  rfl

theorem orElseAt_found {α β : Type} (f : St → Res α) (g : M Unit) (k : α → M β) (st : St) (a : α)
    (h : f st = .ok a) : (orElseAt f g >>= k) st = k a st := by
  rw [bind_def]
  simp only [orElseAt, orElse, h]

/-- C79, failing reads: a read of something that is not there is answered with an error status and changes nothing.
After the answer the server ends the session (`(serveStep C st).1` is an error), so that C79 is false for what
follows. -/
theorem C79_read_failed (C : Conv) (st : St) (r : Req) (hr : r.wf) (rest : Bytes)
    (hi : st.inp = r.bytes ++ rest) (hcmd : r.cmd = 0x70#16) (hid : r.id0 = 0xA1#16)
    (k : BitVec 32) (more : Bytes) (h0 : r.data0 = le 4 k.toNat ++ more)
    (seq : BitVec 16) (svc n : Byte) (hsvc : svc = 0x4C#8 ∨ svc = 0x52#8) (body : Bytes)
    (hd : r.data1 = le 2 seq.toNat ++ svc :: n :: body)
    (c : Conn) (hc : st.srv.conns.getByOT k = .ok c) (tag : Str) (r1 : Bytes)
    (ht : getTagFromPath body = .ok (tag, r1)) (qty : BitVec 16) (r2 : Bytes) (hq : readBV 16 r1 = .ok (qty, r2))
    (ep : Nat) (he : st.srv.router.resolve c.path = .ok ep) (e : Err) (hf : (readTag ep tag qty st).1 = .err e) :
    (∃ f s, newFrames st (serveStep C st).2 = [f] ∧ statusOf f = some s ∧ s ≠ 0#8 ∧ seqOf f = le 2 seq.toNat ∧
        answerOf f = [] ∧ connOf f = le 4 c.to.toNat) ∧
      (serveStep C st).2.srv = st.srv ∧ (serveStep C st).1 = .err e := by
  rw [unit_request C st r hr rest hi hcmd hid k more h0 seq svc (n :: body) hd]
  have hk : readBV 32 r.data0 = .ok (k, more) := by rw [h0]; exact readU32 k more
  have hs : readBV 16 r.data1 = .ok (seq, svc :: n :: body) := by rw [hd]; exact readU16 seq _
  have hsv : unitService C r.data0 r.data1 k svc (n :: body) = connectedRead svc r.data0 r.data1 := by
    rcases hsvc with rfl | rfl <;> rfl
  rw [hsv]
  have hf' : (readTag ep tag qty { st with inp := rest, h := { st.h with context := r.context, seq := seq } }).1 =
      .err e := by
    rw [← hf]
    unfold readTag
    simp only
    split <;> rfl
  have hrun : connectedRead svc r.data0 r.data1
      { st with inp := rest, h := { st.h with context := r.context, seq := seq } } =
      (.err e, (sendConnected svc seq c.to 0x28#8 []
        { st with inp := rest, h := { st.h with context := r.context, seq := seq } }).2) := by
    unfold connectedRead
    rw [hk, hs, orElse_found]
    simp only
    rw [orElseAt_found (a := c) (h := hc), orElse_found]
    simp only
    rw [readBV16_cons, orElse_found]
    simp only
    rw [ht, orElse_found]
    simp only
    rw [hq, orElse_found]
    simp only
    rw [orElseAt_found (a := ep) (h := he), bind_def]
    simp only [orElseAt, orElse]
    simp only [hf']
  rw [hrun]
  refine ⟨?_, rfl, rfl⟩
  have h := unit_fields { st.h with context := r.context, seq := seq } c.to seq svc 0x28#8 []
  refine ⟨_, 0x28#8, ?_, h.2.2.1, by decide, h.2.1, h.2.2.2, h.1⟩
  simp [newFrames, sendConnected, sendUnit, send]

theorem writeTag_tags (C : Conv) (ep : Nat) (tag : Str) (v : TVal) (st st' : St) (h : st'.srv = st.srv) :
    (writeTag C ep tag v st').1 = (writeTag C ep tag v st).1 ∧
      (writeTag C ep tag v st').2.srv = (writeTag C ep tag v st).2.srv ∧
      (writeTag C ep tag v st').2.h = st'.h ∧ (writeTag C ep tag v st').2.sent = st'.sent := by
  unfold writeTag
  rw [h]
  split
  · simp [h]
  · simp [h]

theorem writeValues_tags (C : Conv) (ep : Nat) (tag : Str) (vs : List Scal) (st st' : St) (h : st'.srv = st.srv) :
    (writeValues C ep tag vs st').1 = (writeValues C ep tag vs st).1 ∧
      (writeValues C ep tag vs st').2.srv = (writeValues C ep tag vs st).2.srv ∧
      (writeValues C ep tag vs st').2.h = st'.h ∧ (writeValues C ep tag vs st').2.sent = st'.sent := by
  unfold writeValues
  split
  · exact ⟨rfl, h, rfl, rfl⟩
  · exact writeTag_tags C ep tag _ st st' h
  · exact writeTag_tags C ep tag _ st st' h

/-- A write request with everything it names found. -/
theorem write_run (C : Conv) (st : St) (r : Req) (hr : r.wf) (rest : Bytes)
    (hi : st.inp = r.bytes ++ rest) (hcmd : r.cmd = 0x70#16) (hid : r.id0 = 0xA1#16)
    (k : BitVec 32) (more : Bytes) (h0 : r.data0 = le 4 k.toNat ++ more)
    (seq : BitVec 16) (n : Byte) (body : Bytes) (hd : r.data1 = le 2 seq.toNat ++ 0x4D#8 :: n :: body) :
    serveStep C st = (do
      let (tag, r) ← lift (getTagFromPath body)
      let (vs, _) ← lift (parseWriteValues r)
      let c ← getByOT k
      let ep ← resolve c.path
      writeValues C ep tag vs
      sendUnitData 0x4D#8 0#8 [] : M Unit)
      { st with inp := rest, h := { st.h with context := r.context, seq := seq } } := by
  rw [unit_request C st r hr rest hi hcmd hid k more h0 seq 0x4D#8 (n :: body) hd]
  unfold unitService
  rw [if_pos rfl]
  unfold cipConnectedWrite
  rw [readBV_cons8, lift_ok_bind]

/-- C79, writes: a write is acknowledged only if the value was stored, and then everything else is as it was. -/
theorem C79_write_done (C : Conv) (st : St) (r : Req) (hr : r.wf) (rest : Bytes)
    (hi : st.inp = r.bytes ++ rest) (hcmd : r.cmd = 0x70#16) (hid : r.id0 = 0xA1#16)
    (k : BitVec 32) (more : Bytes) (h0 : r.data0 = le 4 k.toNat ++ more)
    (seq : BitVec 16) (n : Byte) (body : Bytes) (hd : r.data1 = le 2 seq.toNat ++ 0x4D#8 :: n :: body)
    (hf : newFrames st (serveStep C st).2 ≠ []) :
    ∃ tag r1 vs r2 c ep, getTagFromPath body = .ok (tag, r1) ∧ parseWriteValues r1 = .ok (vs, r2) ∧
      st.srv.conns.getByOT k = .ok c ∧ st.srv.router.resolve c.path = .ok ep ∧
      (writeValues C ep tag vs st).1 = .ok () ∧ (serveStep C st).2.srv = (writeValues C ep tag vs st).2.srv ∧
      ∃ f, newFrames st (serveStep C st).2 = [f] ∧ statusOf f = some 0#8 ∧ seqOf f = le 2 seq.toNat := by
  rw [write_run C st r hr rest hi hcmd hid k more h0 seq n body hd] at hf ⊢
  cases ht : getTagFromPath body with
  | err e => rw [ht, bind_def] at hf; simp [newFrames] at hf
  | panic => rw [ht, bind_def] at hf; simp [newFrames] at hf
  | ok tr =>
    obtain ⟨tag, r1⟩ := tr
    rw [ht, lift_ok_bind] at hf
    simp only at hf
    cases hp : parseWriteValues r1 with
    | err e => rw [hp, bind_def] at hf; simp [newFrames] at hf
    | panic => rw [hp, bind_def] at hf; simp [newFrames] at hf
    | ok vr =>
      obtain ⟨vs, r2⟩ := vr
      rw [hp, lift_ok_bind] at hf
      simp only at hf
      cases hc : st.srv.conns.getByOT k with
      | err e => rw [bind_def] at hf; simp [newFrames, getByOT, hc] at hf
      | panic => rw [bind_def] at hf; simp [newFrames, getByOT, hc] at hf
      | ok c =>
        rw [bind_def] at hf
        simp only [getByOT, hc] at hf
        cases he : st.srv.router.resolve c.path with
        | err e => rw [bind_def] at hf; simp [newFrames, resolve, he] at hf
        | panic => rw [bind_def] at hf; simp [newFrames, resolve, he] at hf
        | ok ep =>
          rw [bind_def] at hf
          simp only [resolve, he] at hf
          refine ⟨tag, r1, vs, r2, c, ep, rfl, hp, rfl, he, ?_⟩
          obtain ⟨w1, w2, w3, w4⟩ := writeValues_tags C ep tag vs st
            { st with inp := rest, h := { st.h with context := r.context, seq := seq } } rfl
          rw [lift_ok_bind]
          simp only
          rw [hp, lift_ok_bind]
          simp only
          rw [bind_def]
          simp only [getByOT, hc]
          rw [bind_def]
          simp only [resolve, he]
          rw [bind_def] at hf ⊢
          generalize writeValues C ep tag vs
            { st with inp := rest, h := { st.h with context := r.context, seq := seq } } = w at hf w1 w2 w3 w4
          obtain ⟨wr, ws⟩ := w
          simp only at w1 w2 w3 w4
          cases wr with
          | err e => simp [newFrames, w4] at hf
          | panic => simp [newFrames, w4] at hf
          | ok u =>
            refine ⟨w1.symm, w2, ?_⟩
            have h := unit_fields ws.h ws.h.to ws.h.seq 0x4D#8 0#8 []
            refine ⟨_, ?_, h.2.2.1, ?_⟩
            · simp [newFrames, sendUnitData, sendUnit, send, w4]
            · rw [h.2.1, w3]

/-- C79 is false for failing writes: nothing is answered and the server ends the session. -/
theorem C79_write_failed_silent (C : Conv) (st : St) (r : Req) (hr : r.wf) (rest : Bytes)
    (hi : st.inp = r.bytes ++ rest) (hcmd : r.cmd = 0x70#16) (hid : r.id0 = 0xA1#16)
    (k : BitVec 32) (more : Bytes) (h0 : r.data0 = le 4 k.toNat ++ more)
    (seq : BitVec 16) (n : Byte) (body : Bytes) (hd : r.data1 = le 2 seq.toNat ++ 0x4D#8 :: n :: body)
    (tag : Str) (r1 : Bytes) (ht : getTagFromPath body = .ok (tag, r1)) (vs : List Scal) (r2 : Bytes)
    (hp : parseWriteValues r1 = .ok (vs, r2)) (c : Conn) (hc : st.srv.conns.getByOT k = .ok c) (ep : Nat)
    (he : st.srv.router.resolve c.path = .ok ep) (e : Err) (hw : (writeValues C ep tag vs st).1 = .err e) :
    newFrames st (serveStep C st).2 = [] ∧ (serveStep C st).1 = .err e := by
  rw [write_run C st r hr rest hi hcmd hid k more h0 seq n body hd, ht, lift_ok_bind]
  simp only
  rw [hp, lift_ok_bind]
  simp only
  rw [bind_def]
  simp only [getByOT, hc]
  rw [bind_def]
  simp only [resolve, he]
  obtain ⟨w1, w2, w3, w4⟩ := writeValues_tags C ep tag vs st
    { st with inp := rest, h := { st.h with context := r.context, seq := seq } } rfl
  rw [bind_def]
  generalize writeValues C ep tag vs
    { st with inp := rest, h := { st.h with context := r.context, seq := seq } } = w at w1 w2 w3 w4
  obtain ⟨wr, ws⟩ := w
  simp only at w1 w2 w3 w4
  rw [w1, hw]
  simp [newFrames, w4]

/-- C79, services the server does not know: answered with an error status, nothing changes, the session goes on. -/
theorem C79_unknown_service (C : Conv) (st : St) (r : Req) (hr : r.wf) (rest : Bytes)
    (hi : st.inp = r.bytes ++ rest) (hcmd : r.cmd = 0x70#16) (hid : r.id0 = 0xA1#16)
    (k : BitVec 32) (more : Bytes) (h0 : r.data0 = le 4 k.toNat ++ more)
    (seq : BitVec 16) (svc : Byte) (body : Bytes) (hd : r.data1 = le 2 seq.toNat ++ svc :: body)
    (hsvc : svc ∉ [0x4D#8, 0x52#8, 0x4C#8, 0x0A#8, 0x0E#8, 0x01#8, 0x55#8]) :
    (∃ f s, newFrames st (serveStep C st).2 = [f] ∧ statusOf f = some s ∧ s ≠ 0#8 ∧ seqOf f = le 2 seq.toNat) ∧
      (serveStep C st).2.srv = st.srv ∧ (serveStep C st).1 = .ok () := by
  rw [unit_request C st r hr rest hi hcmd hid k more h0 seq svc body hd]
  simp only [List.mem_cons, List.not_mem_nil, or_false, not_or] at hsvc
  obtain ⟨a1, a2, a3, a4, a5, a6, a7⟩ := hsvc
  unfold unitService
  rw [if_neg a1, if_neg a2, if_neg a3, if_neg a4, if_neg a5, if_neg a6, if_neg a7]
  have h := unit_fields { st.h with context := r.context, seq := seq } st.h.to seq svc 0x08#8 []
  refine ⟨⟨_, 0x08#8, ?_, h.2.2.1, by decide, h.2.1⟩, rfl, rfl⟩
  simp [newFrames, sendUnitData, sendUnit, send]

/-- A read of a tag that is not there: status 0x28, and the session ends. -/
example :
    let r := demoUnit ([5#8, 0#8, 0x4C#8, 4#8, 0x91#8, 5#8] ++ str "other" ++ [0#8, 1#8, 0#8])
    (newFrames (demoSt r.bytes) (serveStep demoConv (demoSt r.bytes)).2).map (fun f => (statusOf f, seqOf f, connOf f)) =
      [(some 0x28#8, [5#8, 0#8], [0x22#8, 0#8, 0#8, 0#8])] ∧
    (serveStep demoConv (demoSt r.bytes)).1 = .err .fail := by
  decide +kernel

/-- A read of `count`. -/
example :
    let r := demoUnit ([5#8, 0#8, 0x4C#8, 4#8, 0x91#8, 5#8] ++ str "count" ++ [0#8, 1#8, 0#8])
    (newFrames (demoSt r.bytes) (serveStep demoConv (demoSt r.bytes)).2).map (fun f => (statusOf f, answerOf f)) =
      [(some 0#8, [0xC4#8, 0#8, 5#8, 0#8, 0#8, 0#8])] := by
  decide +kernel

/-- A write to an element beyond the end of `arr`: no answer. -/
example :
    let r := demoUnit ([5#8, 0#8, 0x4D#8, 4#8, 0x91#8, 3#8] ++ str "arr" ++ [0#8, 0x28#8, 9#8, 0xC4#8, 0#8, 1#8, 0#8, 7#8, 0#8, 0#8, 0#8])
    newFrames (demoSt r.bytes) (serveStep demoConv (demoSt r.bytes)).2 = [] ∧
    (serveStep demoConv (demoSt r.bytes)).1 = .err .fail := by
  decide +kernel

/-- A write on one of two connections is acknowledged to the other. -/
example :
    let r := demoUnit ([5#8, 0#8, 0x4D#8, 4#8, 0x91#8, 5#8] ++ str "count" ++ [0#8, 0xC4#8, 0#8, 1#8, 0#8, 7#8, 0#8, 0#8, 0#8])
    let st := { demoSt r.bytes with h := { (demoSt r.bytes).h with to := 0x33#32 } }
    (newFrames st (serveStep demoConv st).2).map connOf = [[0x33#8, 0#8, 0#8, 0#8]] := by
  decide +kernel

end Gologix.Server
