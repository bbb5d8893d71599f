import Verif.Lemmas.Server
import Verif.Props.Wire
/-
What the handlers of the server leave alone.
-/
namespace Gologix.Server
open Gologix.Server.Spec M

/-- `g` looks at nothing that is changed by sending, by bookkeeping in the handler or by tag writes. -/
structure Stable {γ : Type} (g : St → γ) : Prop where
  sent : ∀ st s, g { st with sent := s } = g st
  hdl  : ∀ st h, g { st with h := h } = g st
  eps  : ∀ st e, g { st with srv := { st.srv with eps := e } } = g st

/-- `m` leaves `g` unchanged, however it ends. -/
def Keeps {α γ : Type} (g : St → γ) (m : M α) : Prop := ∀ st, g (m st).2 = g st

section
variable {γ : Type} {g : St → γ}

theorem keeps_lift {α : Type} (r : Res α) : Keeps g (lift r : M α) := fun _ => rfl
theorem keeps_pure {α : Type} (a : α) : Keeps g (pure a : M α) := fun _ => rfl
theorem keeps_crash {α : Type} : Keeps g (crash : M α) := fun _ => rfl
theorem keeps_fail {α : Type} : Keeps g (fail : M α) := fun _ => rfl
theorem keeps_look {α : Type} (r : St → Res α) : Keeps g (look r) := fun _ => rfl

theorem keeps_bind {α β : Type} {m : M α} {f : α → M β} (hm : Keeps g m) (hf : ∀ a, Keeps g (f a)) :
    Keeps g (m >>= f) := by
  intro st
  rw [bind_def]
  have h := hm st
  cases h1 : m st with
  | mk r st' =>
    rw [h1] at h
    cases r with
    | ok a => exact (hf a st').trans h
    | err e => exact h
    | panic => exact h

theorem keeps_ite {α : Type} {c : Prop} [Decidable c] {a b : M α} (ha : Keeps g a) (hb : Keeps g b) :
    Keeps g (if c then a else b) := by
  split
  · exact ha
  · exact hb

theorem keeps_ite' {α : Type} {c : Prop} [Decidable c] {a b : M α} (ha : c → Keeps g a)
    (hb : ¬ c → Keeps g b) : Keeps g (if c then a else b) := by
  split
  · exact ha ‹_›
  · exact hb ‹_›

theorem keeps_lift_bind {α β : Type} {r : Res α} {f : α → M β} (hf : ∀ a, r = .ok a → Keeps g (f a)) :
    Keeps g (lift r >>= f) := by
  intro st
  rw [bind_def]
  cases r with
  | ok a => exact hf a rfl st
  | err e => rfl
  | panic => rfl

theorem keeps_orElseAt {α : Type} {r : St → Res α} {e : M Unit} (he : Keeps g e) : Keeps g (orElseAt r e) := by
  intro st
  simp only [orElseAt, orElse]
  split
  · rfl
  · exact he st
  · rfl

theorem keeps_orElse {α : Type} {r : Res α} {e : M Unit} (he : Keeps g e) : Keeps g (orElse r e) :=
  keeps_orElseAt (r := fun _ => r) he

theorem keeps_depend {α : Type} {f : St → M α} (hf : ∀ s, Keeps g (f s)) : Keeps g (depend f) :=
  fun st => hf st st

theorem keeps_getByOT (k : BitVec 32) : Keeps g (getByOT k) := fun _ => rfl
theorem keeps_resolve (p : Bytes) : Keeps g (resolve p) := fun _ => rfl

theorem keeps_readTag (ep : Nat) (tag : Str) (q : BitVec 16) : Keeps g (readTag ep tag q) := by
  intro st
  unfold readTag
  split <;> rfl

variable (hg : Stable g)
include hg

theorem keeps_send (cmd : BitVec 16) (p : Bytes) : Keeps g (send cmd p) := fun st => hg.sent st _

theorem keeps_sendUnitData (s status : Byte) (p : Bytes) : Keeps g (sendUnitData s status p) :=
  fun st => keeps_send hg _ _ st

theorem keeps_sendUnconn (s status : Byte) (p : Bytes) : Keeps g (sendUnconn s status p) := keeps_send hg _ _

theorem keeps_sendConnected (s : Byte) (seq : BitVec 16) (conn : BitVec 32) (status : Byte) (p : Bytes) :
    Keeps g (sendConnected s seq conn status p) := keeps_send hg _ _

theorem keeps_writeTag (C : Conv) (ep : Nat) (tag : Str) (v : TVal) : Keeps g (writeTag C ep tag v) := by
  intro st
  unfold writeTag
  split
  · exact hg.eps st _
  · rfl

theorem keeps_writeValues (C : Conv) (ep : Nat) (tag : Str) (vs : List Scal) :
    Keeps g (writeValues C ep tag vs) := by
  unfold writeValues
  split
  · exact keeps_crash
  · exact keeps_writeTag hg _ _ _ _
  · exact keeps_writeTag hg _ _ _ _

theorem keeps_tryWrite (C : Conv) (ep : Nat) (tag : Str) (v : TVal) : Keeps g (tryWrite C ep tag v) := by
  intro st
  have := keeps_writeTag hg C ep tag v st
  unfold tryWrite
  split
  all_goals
    next h => rw [h] at this; exact this

theorem keeps_multiOne (C : Conv) (ep : Nat) (d : Bytes) (off : BitVec 16) : Keeps g (multiOne C ep d off) := by
  unfold multiOne
  refine keeps_ite keeps_crash (keeps_bind (keeps_lift _) fun ⟨svc, r⟩ => keeps_bind (keeps_lift _) fun ⟨_, r⟩ => ?_)
  refine keeps_ite ?_ (keeps_ite ?_ (keeps_pure _))
  · refine keeps_bind (keeps_lift _) fun ⟨tag, r⟩ => keeps_bind (keeps_lift _) fun ⟨q, _⟩ => ?_
    exact keeps_bind (keeps_readTag _ _ _) fun v => keeps_lift _
  · refine keeps_bind (keeps_lift _) fun ⟨tag, r⟩ => keeps_bind (keeps_lift _) fun ⟨typ, r⟩ => ?_
    refine keeps_bind (keeps_lift _) fun ⟨_, r⟩ => keeps_bind (keeps_lift _) fun ⟨q, r⟩ => ?_
    refine keeps_bind (keeps_lift _) fun ⟨vs, _⟩ => ?_
    exact keeps_bind (keeps_writeValues hg _ _ _ _) fun _ => keeps_pure _

theorem keeps_multiAll (C : Conv) (ep : Nat) (d : Bytes) (offs : List (BitVec 16)) :
    Keeps g (multiAll C ep d offs) := by
  induction offs with
  | nil => exact keeps_pure _
  | cons o os ih =>
    unfold multiAll
    exact keeps_bind (keeps_multiOne hg C ep d o) fun _ => keeps_bind ih fun _ => keeps_pure _

theorem keeps_connectedRead (svc : Byte) (addr data : Bytes) : Keeps g (connectedRead svc addr data) := by
  unfold connectedRead
  have h := keeps_sendConnected hg
  refine keeps_bind (keeps_orElse (h _ _ _ _ _)) fun ⟨conn, _⟩ => ?_
  refine keeps_bind (keeps_orElseAt (h _ _ _ _ _)) fun c => ?_
  refine keeps_bind (keeps_orElse (h _ _ _ _ _)) fun ⟨seq, r⟩ => ?_
  refine keeps_bind (keeps_orElse (h _ _ _ _ _)) fun ⟨_, r⟩ => ?_
  refine keeps_bind (keeps_orElse (h _ _ _ _ _)) fun ⟨tag, r⟩ => ?_
  refine keeps_bind (keeps_orElse (h _ _ _ _ _)) fun ⟨q, _⟩ => ?_
  refine keeps_bind (keeps_orElseAt (h _ _ _ _ _)) fun ep => ?_
  refine keeps_bind (keeps_orElseAt (h _ _ _ _ _)) fun v => ?_
  exact keeps_bind (keeps_lift _) fun b => h _ _ _ _ _

theorem keeps_unitService (C : Conv) (addr data : Bytes) (conn : BitVec 32) (svc : Byte) (r : Bytes) :
    Keeps g (unitService C addr data conn svc r) := by
  unfold unitService
  refine keeps_ite ?_ (keeps_ite (keeps_connectedRead hg _ _ _) (keeps_ite (keeps_connectedRead hg _ _ _)
    (keeps_ite ?_ (keeps_ite ?_ (keeps_ite ?_ (keeps_ite ?_ (keeps_sendUnitData hg _ _ _)))))))
  · unfold cipConnectedWrite
    refine keeps_bind (keeps_lift _) fun ⟨_, r⟩ => keeps_bind (keeps_lift _) fun ⟨tag, r⟩ => ?_
    refine keeps_bind (keeps_lift _) fun ⟨vs, _⟩ => keeps_bind (keeps_getByOT _) fun c => ?_
    refine keeps_bind (keeps_resolve _) fun ep => keeps_bind (keeps_writeValues hg _ _ _ _) fun _ => ?_
    exact keeps_sendUnitData hg _ _ _
  · unfold connectedMulti
    refine keeps_bind (keeps_getByOT _) fun c => keeps_bind (keeps_resolve _) fun ep => ?_
    refine keeps_bind (keeps_lift _) fun ⟨_, r⟩ => keeps_bind (keeps_lift _) fun ⟨_, r⟩ => ?_
    refine keeps_bind (keeps_lift _) fun ⟨_, r⟩ => keeps_bind (keeps_lift _) fun ⟨_, r⟩ => ?_
    refine keeps_bind (keeps_lift _) fun ⟨_, r⟩ => keeps_bind (keeps_lift _) fun ⟨_, _⟩ => ?_
    exact keeps_bind (keeps_multiAll hg _ _ _ _) fun _ => keeps_sendConnected hg _ _ _ _ _
  · unfold connectedGetAttr
    refine keeps_bind (keeps_getByOT _) fun c => keeps_bind (keeps_lift _) fun ⟨_, r⟩ => ?_
    refine keeps_bind (keeps_lift _) fun ⟨_, r⟩ => keeps_bind (keeps_lift _) fun ⟨_, r⟩ => ?_
    refine keeps_ite keeps_fail (keeps_bind (keeps_lift _) fun ⟨_, r⟩ => keeps_bind (keeps_lift _) fun ⟨_, r⟩ => ?_)
    refine keeps_ite keeps_fail (keeps_bind (keeps_lift _) fun ⟨_, _⟩ => keeps_bind (keeps_look _) fun _ => ?_)
    exact keeps_bind (keeps_lift _) fun _ => keeps_sendConnected hg _ _ _ _ _
  · unfold connectedGetAttributeAll
    refine keeps_bind (keeps_lift _) fun ⟨_, r⟩ => keeps_bind (keeps_lift _) fun ⟨_, r⟩ => ?_
    refine keeps_bind (keeps_lift _) fun ⟨_, r⟩ => keeps_bind (keeps_lift _) fun ⟨path, _⟩ => ?_
    simp only
    cases hp : parseClassInstance path with
    | ok p => exact keeps_bind (keeps_look _) fun ⟨_, _⟩ => keeps_sendUnitData hg _ _ _
    | err e => exact keeps_sendUnitData hg _ _ _
    | panic => exact keeps_sendUnitData hg _ _ _
  · unfold connectedSymbolList
    refine keeps_bind (keeps_getByOT _) fun c => keeps_bind (keeps_resolve _) fun ep => ?_
    refine keeps_depend fun st => ?_
    cases he : st.srv.eps ep with
    | tags s k => exact keeps_sendUnitData hg _ _ _
    | other => exact keeps_sendUnitData hg _ _ _

theorem keeps_unitItems (C : Conv) (its : List Item) : Keeps g (unitItems C its) := by
  unfold unitItems
  split
  · refine keeps_ite keeps_fail (keeps_bind (keeps_lift _) fun ⟨_, _⟩ => keeps_bind (keeps_lift _) fun ⟨_, _⟩ => ?_)
    refine keeps_bind (fun st => hg.hdl st _) fun _ => keeps_bind (keeps_lift _) fun ⟨_, _⟩ => ?_
    exact keeps_unitService hg _ _ _ _ _ _
  · exact keeps_fail

theorem keeps_uGetAttributeAll (r : Bytes) : Keeps g (unconnectedGetAttributeAll r) := by
  unfold unconnectedGetAttributeAll
  refine keeps_bind (keeps_lift _) fun ⟨_, r⟩ => keeps_bind (keeps_lift _) fun ⟨path, _⟩ => ?_
  simp only
  cases hp : parseClassInstance path with
  | ok p => exact keeps_bind (keeps_look _) fun ⟨_, _⟩ => keeps_sendUnconn hg _ _ _
  | err e => exact keeps_sendUnconn hg _ _ _
  | panic => exact keeps_sendUnconn hg _ _ _

theorem keeps_uGetAttr (r : Bytes) : Keeps g (unconnectedGetAttrSingle r) := by
  unfold unconnectedGetAttrSingle
  refine keeps_bind (keeps_lift _) fun p => ?_
  match p with
  | none => exact keeps_sendUnconn hg _ _ _
  | some (cls, inst, attr, _) =>
    refine keeps_depend fun st => keeps_ite ?_ (keeps_ite (keeps_sendUnconn hg _ _ _) ?_)
    · cases hc : customTag st.srv (BitVec.ofNat 16 inst.toNat) with
      | none => exact keeps_sendUnconn hg _ _ _
      | some q =>
        obtain ⟨ep, tag⟩ := q
        refine keeps_ite (keeps_sendUnconn hg _ _ _) ?_
        cases hr : (readTag ep tag 1#16 st).1 with
        | ok v => exact keeps_bind (keeps_lift _) fun b => keeps_sendUnconn hg _ _ _
        | err e => exact keeps_sendUnconn hg _ _ _
        | panic => exact keeps_crash
    · cases ha : st.srv.attrs attr with
      | none => exact keeps_sendUnconn hg _ _ _
      | some v => exact keeps_bind (keeps_lift _) fun b => keeps_sendUnconn hg _ _ _

theorem keeps_uSetAttr (C : Conv) (r : Bytes) : Keeps g (unconnectedSetAttrSingle C r) := by
  unfold unconnectedSetAttrSingle
  refine keeps_bind (keeps_lift _) fun p => ?_
  match p with
  | none => exact keeps_sendUnconn hg _ _ _
  | some (cls, inst, attr, r) =>
    refine keeps_ite (keeps_sendUnconn hg _ _ _) (keeps_ite (keeps_sendUnconn hg _ _ _) (keeps_depend fun st => ?_))
    cases hc : customTag st.srv (BitVec.ofNat 16 inst.toNat) with
    | none => exact keeps_sendUnconn hg _ _ _
    | some q =>
      obtain ⟨ep, tag⟩ := q
      refine keeps_bind (keeps_lift _) fun ⟨vs, _⟩ => ?_
      match vs with
      | [] => exact keeps_sendUnconn hg _ _ _
      | v :: _ =>
        exact keeps_bind (keeps_tryWrite hg _ _ _ _) fun ok =>
          keeps_ite (keeps_sendUnconn hg _ _ _) (keeps_sendUnconn hg _ _ _)

theorem keeps_uSend (C : Conv) (r : Bytes) : Keeps g (unconnectedSend C r) := by
  unfold unconnectedSend
  refine keeps_bind (keeps_lift _) fun ⟨_, r⟩ => keeps_bind (keeps_lift _) fun ⟨_, r⟩ => ?_
  refine keeps_bind (keeps_lift _) fun ⟨_, r⟩ => keeps_bind (keeps_lift _) fun ⟨_, r⟩ => ?_
  refine keeps_bind (keeps_lift _) fun ⟨svc, r⟩ => keeps_ite ?_ (keeps_ite ?_ (keeps_ite (keeps_uGetAttr hg _)
    (keeps_ite (keeps_uSetAttr hg _ _) (keeps_ite (keeps_uGetAttributeAll hg _) (keeps_sendUnconn hg _ _ _)))))
  · unfold unconnectedWrite
    refine keeps_bind (keeps_lift _) fun ⟨_, r⟩ => keeps_bind (keeps_lift _) fun ⟨_, r⟩ => ?_
    refine keeps_bind (keeps_lift _) fun ⟨_, r⟩ => keeps_bind (keeps_lift _) fun ⟨_, r⟩ => ?_
    refine keeps_bind (keeps_lift _) fun ⟨_, _⟩ => keeps_bind (keeps_resolve _) fun ep => ?_
    exact keeps_bind (keeps_writeValues hg _ _ _ _) fun _ => keeps_sendUnconn hg _ _ _
  · unfold unconnectedRead
    refine keeps_bind (keeps_lift _) fun ⟨_, r⟩ => keeps_bind (keeps_lift _) fun ⟨_, r⟩ => ?_
    refine keeps_bind (keeps_lift _) fun ⟨_, r⟩ => keeps_bind (keeps_lift _) fun ⟨_, r⟩ => ?_
    refine keeps_bind (keeps_lift _) fun ⟨_, _⟩ => keeps_bind (keeps_resolve _) fun ep => ?_
    refine keeps_bind (keeps_readTag _ _ _) fun v => keeps_bind (keeps_lift _) fun _ => ?_
    exact keeps_sendUnconn hg _ _ _

/-- Every unconnected service except the opening and the closing of connections. -/
theorem keeps_unconnected (C : Conv) (d : Bytes)
    (ho : ∀ large, d.head? = some (if large then 0x5B#8 else 0x54#8) → Keeps g (forwardOpen large d))
    (hc : d.head? = some 0x4E#8 → Keeps g (forwardClose d)) : Keeps g (unconnectedData C d) := by
  unfold unconnectedData
  refine keeps_lift_bind fun ⟨svc, r⟩ h => ?_
  have e := readBV_ok (by decide) h
  rw [putBV_eight] at e
  simp only at e ⊢
  have hd : d.head? = some svc := by rw [e]; rfl
  refine keeps_ite' (fun hs => ho false (by simp [hd, hs])) fun _ => ?_
  refine keeps_ite' (fun hs => ho true (by simp [hd, hs])) fun _ => ?_
  refine keeps_ite' (fun hs => hc (by simp [hd, hs])) fun _ => ?_
  exact keeps_ite (keeps_uGetAttributeAll hg _) (keeps_ite (keeps_uGetAttr hg _) (keeps_ite
    (keeps_uSetAttr hg _ _) (keeps_ite (keeps_uSend hg _ _) (keeps_sendUnconn hg _ _ _))))

theorem keeps_rrItems (C : Conv) (its : List Item)
    (ho : ∀ i0 i1 large, its = [i0, i1] → i1.id = 0xB2#16 →
      i1.data.head? = some (if large then 0x5B#8 else 0x54#8) → Keeps g (forwardOpen large i1.data))
    (hc : ∀ i0 i1, its = [i0, i1] → i1.id = 0xB2#16 → i1.data.head? = some 0x4E#8 →
      Keeps g (forwardClose i1.data)) : Keeps g (rrItems C its) := by
  unfold rrItems
  split
  · next i0 i1 =>
    refine keeps_ite (keeps_bind (keeps_lift _) fun ⟨svc, _⟩ => keeps_connectedRead hg _ _ _) ?_
    refine keeps_ite' (fun hid => ?_) fun _ => keeps_pure _
    exact keeps_unconnected hg C _ (fun l => ho i0 i1 l rfl hid) (hc i0 i1 rfl hid)
  · exact keeps_fail

end

/-! ### The bytes not yet read -/

theorem stable_inp : Stable (fun st : St => st.inp) := ⟨fun _ _ => rfl, fun _ _ => rfl, fun _ _ => rfl⟩
theorem stable_conns : Stable (fun st : St => st.srv.conns) := ⟨fun _ _ => rfl, fun _ _ => rfl, fun _ _ => rfl⟩

theorem keeps_inp_chooseId (k : BitVec 32) : Keeps (fun st => st.inp) (chooseId k) := by
  intro st
  unfold chooseId
  split <;> rfl

theorem keeps_inp_forwardOpen (large : Bool) (d : Bytes) : Keeps (fun st => st.inp) (forwardOpen large d) := by
  unfold forwardOpen
  refine keeps_bind (keeps_lift _) fun ⟨f, r⟩ => keeps_bind (keeps_lift _) fun ⟨fpath, _⟩ => ?_
  refine keeps_ite keeps_crash (keeps_bind (keeps_inp_chooseId _) fun _ => keeps_bind (keeps_inp_chooseId _) fun _ => ?_)
  refine keeps_bind (fun _ => rfl) fun _ => keeps_bind (keeps_send stable_inp _ _) fun _ => ?_
  refine keeps_bind (fun _ => rfl) fun ref => keeps_ite ?_ (keeps_pure _)
  unfold startIO
  exact keeps_bind (keeps_resolve _) fun ep => keeps_ite keeps_crash (fun _ => rfl)

theorem keeps_inp_forwardClose (d : Bytes) : Keeps (fun st => st.inp) (forwardClose d) := by
  unfold forwardClose
  refine keeps_bind (keeps_lift _) fun ⟨b, r⟩ => keeps_bind (keeps_lift _) fun ⟨serial, _⟩ => ?_
  exact keeps_bind (fun _ => rfl) fun _ => keeps_bind (keeps_lift _) fun _ => keeps_pure _

/-- `m` only consumes input. -/
def Consumes {α : Type} (m : M α) : Prop := ∀ st, (m st).2.inp <:+ st.inp

theorem consumes_of_keeps {α : Type} {m : M α} (h : Keeps (fun st => st.inp) m) : Consumes m :=
  fun st => by rw [show (m st).2.inp = st.inp from h st]; exact List.suffix_refl _

theorem consumes_bind {α β : Type} {m : M α} {f : α → M β} (hm : Consumes m) (hf : ∀ a, Consumes (f a)) :
    Consumes (m >>= f) := by
  intro st
  rw [bind_def]
  have h := hm st
  cases h1 : m st with
  | mk r st' =>
    rw [h1] at h
    cases r with
    | ok a => exact (hf a st').trans h
    | err e => exact h
    | panic => exact h

theorem consumes_recv (n : Nat) : Consumes (recv n) := by
  intro st
  unfold recv
  cases h : readN n st.inp with
  | ok p => rw [(readN_ok h).2]; exact ⟨p.1, rfl⟩
  | err e => exact List.nil_suffix
  | panic => exact List.suffix_refl _

theorem consumes_recvItems : Consumes recvItems := by
  intro st
  unfold recvItems
  cases h : readItems st.inp with
  | ok p => rw [((C04_items_hostile st.inp).2 p.1 p.2 h).1]; exact ⟨_, rfl⟩
  | err e => exact List.nil_suffix
  | panic => exact List.suffix_refl _

theorem consumes_dispatch (C : Conv) (hdr : EipHeader) : Consumes (dispatch C hdr) := by
  unfold dispatch
  split
  · unfold registerSession
    refine consumes_bind (consumes_recv 4) fun b => consumes_bind (consumes_of_keeps (keeps_inp_chooseId _)) fun _ => ?_
    refine consumes_bind (consumes_of_keeps fun _ => rfl) fun _ => ?_
    exact consumes_of_keeps (keeps_send stable_inp _ _)
  split
  · unfold handleRRData
    refine consumes_bind (consumes_recv 4) fun _ => consumes_bind (consumes_recv 2) fun _ => ?_
    refine consumes_bind consumes_recvItems fun its => consumes_of_keeps ?_
    exact keeps_rrItems stable_inp C its (fun _ _ _ _ _ _ => keeps_inp_forwardOpen _ _)
      (fun _ _ _ _ _ => keeps_inp_forwardClose _)
  split
  · unfold handleUnitData
    refine consumes_bind (consumes_recv 4) fun _ => consumes_bind (consumes_recv 2) fun _ => ?_
    exact consumes_bind consumes_recvItems fun its => consumes_of_keeps (keeps_unitItems stable_inp C its)
  split
  · exact consumes_of_keeps (keeps_send stable_inp _ _)
  split
  · unfold sendListIdentity
    exact consumes_of_keeps (keeps_bind (keeps_look _) fun _ => keeps_send stable_inp _ _)
  · exact consumes_of_keeps (keeps_pure _)

theorem header_ok {src rest : Bytes} {h : EipHeader} (hh : readEIPHeader src = .ok (h, rest)) :
    src = h.encode ++ rest := by
  unfold readEIPHeader at hh
  rw [Res.bind_eq_ok] at hh; obtain ⟨⟨b, rest'⟩, h0, hh⟩ := hh
  rw [Res.bind_eq_ok] at hh; obtain ⟨⟨command, b1⟩, h1, hh⟩ := hh
  rw [Res.bind_eq_ok] at hh; obtain ⟨⟨length, b2⟩, h2, hh⟩ := hh
  rw [Res.bind_eq_ok] at hh; obtain ⟨⟨session, b3⟩, h3, hh⟩ := hh
  rw [Res.bind_eq_ok] at hh; obtain ⟨⟨status, b4⟩, h4, hh⟩ := hh
  rw [Res.bind_eq_ok] at hh; obtain ⟨⟨context, b5⟩, h5, hh⟩ := hh
  rw [Res.bind_eq_ok] at hh; obtain ⟨⟨options, b6⟩, h6, hh⟩ := hh
  obtain ⟨l0, e0⟩ := readN_ok h0
  have e1 := readBV_ok (by decide) h1
  have e2 := readBV_ok (by decide) h2
  have e3 := readBV_ok (by decide) h3
  have e4 := readBV_ok (by decide) h4
  have e5 := readBV_ok (by decide) h5
  have e6 := readBV_ok (by decide) h6
  simp only [Res.ok.injEq, Prod.mk.injEq] at hh e0 e1 e2 e3 e4 e5 e6 l0
  obtain ⟨rfl, rfl⟩ := hh
  have hb6 : b6 = [] := by
    apply List.eq_nil_of_length_eq_zero
    rw [e1, e2, e3, e4, e5, e6] at l0
    simp only [List.length_append, putBV_length] at l0
    omega
  subst hb6
  rw [e0, e1, e2, e3, e4, e5, e6]
  simp [EipHeader.encode]

theorem consumes_serveStep (C : Conv) : Consumes (serveStep C) := by
  unfold serveStep
  refine consumes_bind ?_ fun hdr => consumes_bind (consumes_of_keeps fun _ => rfl) fun _ => consumes_dispatch C hdr
  intro st
  unfold recvHeader
  cases h : readEIPHeader st.inp with
  | ok p => rw [header_ok h]; exact ⟨_, rfl⟩
  | err e => exact List.nil_suffix
  | panic => exact List.suffix_refl _

/-- An iteration of the loop that does not fail consumes a header at least. -/
theorem serveStep_shorter (C : Conv) (st : St) (h : (serveStep C st).1 = .ok ()) :
    (serveStep C st).2.inp.length + 24 ≤ st.inp.length := by
  unfold serveStep at h ⊢
  rw [bind_def] at h ⊢
  cases hh : readEIPHeader st.inp with
  | ok p =>
    simp only [recvHeader, hh] at h ⊢
    have e := header_ok hh
    have hs : Consumes (M.modify (fun st : St => { st with h := { st.h with context := p.1.context } }) >>=
        fun _ => dispatch C p.1) :=
      consumes_bind (consumes_of_keeps fun _ => rfl) fun _ => consumes_dispatch C p.1
    have h1 := (hs { st with inp := p.2 }).length_le
    have h2 : st.inp.length = 24 + p.2.length := by
      rw [e, List.length_append, encode_length]
    rw [h2]
    have h3 : ({ st with inp := p.2 } : St).inp.length = p.2.length := rfl
    rw [h3] at h1
    exact Nat.le_trans (Nat.add_le_add_right h1 24) (by omega)
  | err e => simp [recvHeader, hh] at h
  | panic => simp [recvHeader, hh] at h

/-- More iterations than there are bytes change nothing. -/
theorem serve_fuel (C : Conv) (n m : Nat) (st : St) (hn : st.inp.length < n) (hm : st.inp.length < m) :
    serve C n st = serve C m st := by
  induction n generalizing m st with
  | zero => omega
  | succ n ih =>
    cases m with
    | zero => omega
    | succ m =>
      simp only [serve]
      rw [bind_def, bind_def]
      cases h : serveStep C st with
      | mk r st' =>
        cases r with
        | ok u =>
          have := serveStep_shorter C st (by rw [h])
          rw [h] at this
          exact ih m st' (by simp only at this; omega) (by simp only at this; omega)
        | err e => rfl
        | panic => rfl

end Gologix.Server
