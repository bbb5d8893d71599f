import Verif.Props.ServerReply
/-
C80, continued: the list of tags stays complete whatever the server is asked to do.
-/
set_option linter.unusedSimpArgs false

namespace Gologix.Server
open Gologix.Server.Spec M

/-- The names listed for a provider are those of its tags, each once. -/
def ListsAll (st : St) : Prop :=
  ∀ ep s keys, st.srv.eps ep = .tags s keys → keys.Nodup ∧ ∀ name, name ∈ keys ↔ (s name).isSome

/-- The values a request can ask to be written: a single one, or several as a `[]any`. -/
inductive FromWire : TVal → Prop
  | one (v : Scal) : FromWire (.scal v)
  | many (vs : List Scal) : FromWire (.slice none (vs.map TVal.scal))

/-- `J` is about the tags only, and is kept by a write of a value out of a request. -/
class Closed (J : St → Prop) : Prop where
  tags : ∀ st st' : St, st'.srv.eps = st.srv.eps → J st → J st'
  write : ∀ (C : Conv) (ep : Nat) (tag : Str) (v : TVal) (st : St), FromWire v → J st → J (writeTag C ep tag v st).2

/-- `m` keeps `J`. -/
abbrev Lists (J : St → Prop) {α : Type} (m : M α) : Prop := Tells J (fun _ => True) m

theorem tagWrite_sets (C : Conv) (s : Store) (tag : Str) (v : TVal) :
    (tagWrite C s tag v).2 = s ∨ ∃ b w, ((s b).isSome ∨ b = toLower tag) ∧ (tagWrite C s tag v).2 = s.set b w := by
  unfold tagWrite
  split
  · split
    · exact .inl rfl
    · exact .inl rfl
    · next base idx _ e vs hb =>
      split
      · exact .inl rfl
      · split
        · exact .inr ⟨_, _, .inl (by rw [hb]; rfl), rfl⟩
        · exact .inl rfl
        · exact .inl rfl
  · split
    · split
      · exact .inr ⟨_, _, .inr rfl, rfl⟩
      · exact .inl rfl
      · exact .inl rfl
    · exact .inr ⟨_, _, .inr rfl, rfl⟩

theorem tagWrite_domain (C : Conv) (s : Store) (tag : Str) (v : TVal) (name : Str) :
    ((tagWrite C s tag v).2 name).isSome ↔
      (s name).isSome ∨ name = toLower tag ∧ ((tagWrite C s tag v).2 (toLower tag)).isSome := by
  have key : ∀ b w, (s b).isSome ∨ b = toLower tag →
      (((s.set b w) name).isSome ↔ (s name).isSome ∨ name = toLower tag ∧ ((s.set b w) (toLower tag)).isSome) := by
    intro b w hb
    unfold Store.set
    by_cases h : name = b
    · subst h
      simp only [if_true, Option.isSome_some, true_iff]
      rcases hb with hb | rfl
      · exact .inl hb
      · exact .inr ⟨rfl, by simp⟩
    · rw [if_neg h]
      constructor
      · exact .inl
      · rintro (h' | ⟨rfl, h'⟩)
        · exact h'
        · rw [if_neg h] at h'; exact h'
  have same : (s name).isSome ↔ (s name).isSome ∨ name = toLower tag ∧ (s (toLower tag)).isSome := by
    constructor
    · exact .inl
    · rintro (h | ⟨rfl, h⟩) <;> exact h
  rcases tagWrite_sets C s tag v with h | ⟨b, w, hb, h⟩
  · rw [h]; exact same
  · rw [h]; exact key b w hb

theorem listsAll_write (C : Conv) (ep : Nat) (tag : Str) (v : TVal) (st : St) (hi : ListsAll st) :
    ListsAll (writeTag C ep tag v st).2 := by
  unfold writeTag
  cases he : st.srv.eps ep with
  | other => exact hi
  | tags s keys =>
    intro ep' s' keys' h
    simp only at h
    by_cases hep : ep' = ep
    · rw [if_pos hep] at h
      cases h
      obtain ⟨hn, hk⟩ := hi ep s keys he
      have hd := tagWrite_domain C s tag v
      generalize (tagWrite C s tag v).2 = s2 at hd
      cases h1 : (s (toLower tag)).isSome with
      | true =>
        have : (s (toLower tag)).isNone = false := by
          cases h2 : s (toLower tag) <;> simp [h2] at h1 ⊢
        simp only [this, Bool.false_and, Bool.false_eq_true, if_false]
        refine ⟨hn, fun name => ?_⟩
        rw [hk, hd]
        constructor
        · exact .inl
        · rintro (h | ⟨rfl, -⟩)
          · exact h
          · exact h1
      | false =>
        have : (s (toLower tag)).isNone = true := by
          cases h2 : s (toLower tag) <;> simp [h2] at h1 ⊢
        simp only [this, Bool.true_and]
        by_cases h2 : (s2 (toLower tag)).isSome
        · rw [if_pos h2]
          have hnot : toLower tag ∉ keys := by rw [hk, h1]; simp
          refine ⟨?_, fun name => ?_⟩
          · rw [List.nodup_append]
            refine ⟨hn, by simp, ?_⟩
            intro a ha b hb
            rw [List.mem_singleton] at hb
            subst hb
            rintro rfl
            exact hnot ha
          · rw [List.mem_append, List.mem_singleton, hk, hd, h2]
            simp
        · rw [if_neg h2]
          refine ⟨hn, fun name => ?_⟩
          rw [hk, hd]
          constructor
          · exact .inl
          · rintro (h | ⟨-, h⟩)
            · exact h
            · exact absurd h h2
    · rw [if_neg hep] at h
      exact hi ep' s' keys' h

instance : Closed ListsAll where
  tags _ _ he hi ep s keys hk := hi ep s keys (he ▸ hk)
  write C ep tag v st _ hi := listsAll_write C ep tag v st hi

section
variable {J : St → Prop} [Closed J]

theorem lists_writeTag (C : Conv) (ep : Nat) (tag : Str) {v : TVal} (hv : FromWire v) : Lists J (writeTag C ep tag v) := by
  intro st hi
  refine ⟨Closed.write C ep tag v st hv hi, [], ?_, by simp⟩
  unfold writeTag
  cases st.srv.eps ep <;> simp

theorem lists_send (cmd : BitVec 16) (p : Bytes) : Lists J (send cmd p) := 
  tells_send (fun st _ h => Closed.tags st _ rfl h) fun _ _ => trivial
theorem lists_sendConnected (s status : Byte) (seq : BitVec 16) (conn : BitVec 32) (p : Bytes) :
    Lists J (sendConnected s seq conn status p) := lists_send _ _
theorem lists_sendUnitData (s status : Byte) (p : Bytes) : Lists J (sendUnitData s status p) := fun st hi => lists_send _ _ st hi
theorem lists_sendUnconn (s status : Byte) (p : Bytes) : Lists J (sendUnconn s status p) := lists_send _ _

/-- A handler that sends nothing and does not touch the tags. -/
theorem lists_quiet {α : Type} {m : M α} (h : ∀ st, (m st).2.sent = st.sent) (he : ∀ st, (m st).2.srv.eps = st.srv.eps) :
    Lists J m := by
  intro st hi
  exact ⟨Closed.tags _ _ (he st) hi, [], by simp [h], by simp⟩

theorem lists_writeValues (C : Conv) (ep : Nat) (tag : Str) (vs : List Scal) : Lists J (writeValues C ep tag vs) := by
  unfold writeValues
  split
  · exact tells_crash
  · exact lists_writeTag _ _ _ (.one _)
  · exact lists_writeTag _ _ _ (.many _)

theorem lists_tryWrite (C : Conv) (ep : Nat) (tag : Str) {v : TVal} (hv : FromWire v) :
    Lists J (tryWrite C ep tag v) := by
  intro st hi
  have h := lists_writeTag (J := J) C ep tag hv st hi
  unfold tryWrite
  cases hw : writeTag C ep tag v st with
  | mk r st' =>
    rw [hw] at h
    cases r <;> exact h

theorem lists_chooseId (k : BitVec 32) : Lists J (chooseId k) :=
  lists_quiet (fun st => by unfold chooseId; split <;> rfl) fun st => by unfold chooseId; split <;> rfl
theorem lists_addConn (id : BitVec 16) (ot to rpi : BitVec 32) (path : Bytes) : Lists J (addConn id ot to rpi path) :=
  lists_quiet (fun _ => rfl) fun _ => rfl
theorem lists_closeConn (serial : BitVec 16) : Lists J (closeConn serial) := lists_quiet (fun _ => rfl) fun _ => rfl
theorem lists_recv (n : Nat) : Lists J (recv n) :=
  lists_quiet (fun st => by unfold recv; split <;> rfl) fun st => by unfold recv; split <;> rfl
theorem lists_recvItems : Lists J recvItems :=
  lists_quiet (fun st => by unfold recvItems; split <;> rfl) fun st => by unfold recvItems; split <;> rfl
theorem lists_modify {f : St → St} (he : ∀ st, (f st).srv.eps = st.srv.eps) (hs : ∀ st, (f st).sent = st.sent) :
    Lists J (M.modify f) := lists_quiet hs he

omit [Closed J] in
theorem lists_bind {α β : Type} {m : M α} {f : α → M β} (hm : Lists J m) (hf : ∀ a, Lists J (f a)) : Lists J (m >>= f) :=
  tells_bind hm hf

syntax "listed" : tactic
macro_rules
  | `(tactic| listed) => `(tactic| repeat' first
    | with_reducible exact tells_lift _ | with_reducible exact tells_pure _ | with_reducible exact tells_fail | with_reducible exact tells_crash | with_reducible exact tells_look _
    | with_reducible exact tells_getByOT _ | with_reducible exact tells_resolve _ | with_reducible exact tells_readTag _ _ _
    | with_reducible exact lists_sendConnected _ _ _ _ _ | with_reducible exact lists_sendUnitData _ _ _ | with_reducible exact lists_sendUnconn _ _ _
    | with_reducible exact lists_send _ _ | with_reducible exact tells_orElse (lists_sendConnected _ _ _ _ _)
    | with_reducible exact tells_orElseAt (lists_sendConnected _ _ _ _ _)
    | with_reducible exact lists_writeValues _ _ _ _ | with_reducible exact lists_tryWrite _ _ _ (.one _)
    | with_reducible exact lists_chooseId _ | with_reducible exact lists_addConn _ _ _ _ _
    | with_reducible exact lists_closeConn _
    | with_reducible exact lists_recv _ | with_reducible exact lists_recvItems
    | with_reducible exact lists_modify (fun _ => rfl) (fun _ => rfl)
    | with_reducible refine tells_bind ?_ fun _ => ?_
    | with_reducible refine tells_ite (fun _ => ?_) fun _ => ?_
    | with_reducible refine tells_depend fun _ _ => ?_
    | split)

theorem lists_multiOne (C : Conv) (ep : Nat) (d : Bytes) (off : BitVec 16) : Lists J (multiOne C ep d off) := by
  unfold multiOne; listed

theorem lists_multiAll (C : Conv) (ep : Nat) (d : Bytes) (offs : List (BitVec 16)) : Lists J (multiAll C ep d offs) := by
  induction offs with
  | nil => exact tells_pure _
  | cons o os ih => exact lists_bind (lists_multiOne _ _ _ _) fun _ => lists_bind ih fun _ => tells_pure _

theorem lists_multi (C : Conv) (conn : BitVec 32) (data : Bytes) : Lists J (connectedMulti C conn data) := by
  unfold connectedMulti
  refine tells_bind (tells_getByOT _) fun _ => tells_bind (tells_resolve _) fun _ => ?_
  iterate 6 refine tells_bind (tells_lift _) fun _ => ?_
  exact tells_bind (lists_multiAll _ _ _ _) fun _ => lists_sendConnected _ _ _ _ _

theorem lists_read (svc : Byte) (addr data : Bytes) : Lists J (connectedRead svc addr data) := by
  unfold connectedRead; listed

theorem lists_unitService (C : Conv) (addr data : Bytes) (conn : BitVec 32) (svc : Byte) (r : Bytes) :
    Lists J (unitService C addr data conn svc r) := by
  unfold unitService cipConnectedWrite connectedGetAttr connectedGetAttributeAll connectedSymbolList
  refine tells_ite (fun _ => by listed) fun _ => tells_ite (fun _ => lists_read _ _ _) fun _ =>
    tells_ite (fun _ => lists_read _ _ _) fun _ => tells_ite (fun _ => lists_multi _ _ _) fun _ => ?_
  listed

theorem lists_unitItems (C : Conv) (items : List Item) : Lists J (unitItems C items) := by
  unfold unitItems
  split
  · refine tells_ite (fun _ => tells_fail) fun _ => ?_
    refine lists_bind (tells_lift _) fun _ => lists_bind (tells_lift _) fun _ => lists_bind
      (lists_modify (fun _ => rfl) fun _ => rfl) fun _ => lists_bind (tells_lift _) fun _ =>
      lists_unitService _ _ _ _ _ _
  · exact tells_fail

theorem lists_startIO (f : FwdOpen) (ref : Nat) (path : Bytes) : Lists J (startIO f ref path) := by
  unfold startIO; listed

theorem lists_forwardOpen (large : Bool) (d : Bytes) : Lists J (forwardOpen large d) := by
  unfold forwardOpen sendRR startIO; listed

theorem lists_forwardClose (d : Bytes) : Lists J (forwardClose d) := by
  unfold forwardClose; listed

theorem lists_getAttrSingle (r : Bytes) : Lists J (unconnectedGetAttrSingle r) := by
  unfold unconnectedGetAttrSingle; listed

theorem lists_setAttrSingle (C : Conv) (r : Bytes) : Lists J (unconnectedSetAttrSingle C r) := by
  unfold unconnectedSetAttrSingle; listed

theorem lists_attributeAll (r : Bytes) : Lists J (unconnectedGetAttributeAll r) := by
  unfold unconnectedGetAttributeAll; listed

theorem lists_unconnectedSend (C : Conv) (r : Bytes) : Lists J (unconnectedSend C r) := by
  unfold unconnectedSend
  iterate 5 refine tells_bind (tells_lift _) fun _ => ?_
  refine tells_ite (fun _ => by unfold unconnectedWrite; listed) fun _ =>
    tells_ite (fun _ => by unfold unconnectedRead; listed) fun _ =>
    tells_ite (fun _ => lists_getAttrSingle _) fun _ => tells_ite (fun _ => lists_setAttrSingle _ _) fun _ =>
    tells_ite (fun _ => lists_attributeAll _) fun _ => lists_sendUnconn _ _ _

theorem lists_unconnected (C : Conv) (d : Bytes) : Lists J (unconnectedData C d) := by
  unfold unconnectedData
  refine lists_bind (tells_lift _) fun _ => ?_
  refine tells_ite (fun _ => lists_forwardOpen _ _) fun _ => tells_ite (fun _ => lists_forwardOpen _ _) fun _ =>
    tells_ite (fun _ => lists_forwardClose _) fun _ => tells_ite (fun _ => lists_attributeAll _) fun _ =>
    tells_ite (fun _ => lists_getAttrSingle _) fun _ => tells_ite (fun _ => lists_setAttrSingle _ _) fun _ =>
    tells_ite (fun _ => lists_unconnectedSend _ _) fun _ => lists_sendUnconn _ _ _

theorem lists_rrItems (C : Conv) (items : List Item) : Lists J (rrItems C items) := by
  unfold rrItems
  split
  · exact tells_ite (fun _ => lists_bind (tells_lift _) fun _ => lists_read _ _ _) fun _ =>
      tells_ite (fun _ => lists_unconnected _ _) fun _ => tells_pure _
  · exact tells_fail

theorem lists_serveStep (C : Conv) : Lists J (serveStep C) := by
  unfold serveStep
  have hh : Lists J recvHeader :=
    lists_quiet (fun st => by unfold recvHeader; split <;> rfl) fun st => by unfold recvHeader; split <;> rfl
  refine lists_bind hh fun hdr => lists_bind (lists_modify (fun _ => rfl) fun _ => rfl) fun _ => ?_
  unfold dispatch
  refine tells_ite (fun _ => by unfold registerSession; listed) fun _ => tells_ite (fun _ => ?_) fun _ =>
    tells_ite (fun _ => ?_) fun _ => tells_ite (fun _ => lists_send _ _) fun _ =>
    tells_ite (fun _ => by unfold sendListIdentity; listed) fun _ => tells_pure _
  · unfold handleRRData
    exact lists_bind (lists_recv _) fun _ => lists_bind (lists_recv _) fun _ =>
      lists_bind lists_recvItems fun _ => lists_rrItems _ _
  · unfold handleUnitData
    exact lists_bind (lists_recv _) fun _ => lists_bind (lists_recv _) fun _ =>
      lists_bind lists_recvItems fun _ => lists_unitItems _ _

theorem lists_serve (C : Conv) (n : Nat) : Lists J (serve C n) := by
  induction n with
  | zero => exact tells_pure _
  | succ n ih => exact lists_bind (lists_serveStep C) fun _ => ih

end

/-- C80, completeness: whatever arrives, and however long the server runs, the names listed (`C80_listed`) are those of
all tags there are, also of those that a write has added. -/
theorem C80_complete (C : Conv) (st : St) (n : Nat) (h : ListsAll st) : ListsAll (serve C n st).2 :=
  (lists_serve C n st h).1

example : ListsAll (demoSt []) := by
  intro ep s keys h
  simp only [demoSt, demoSrv] at h
  by_cases he : ep = 0
  · rw [if_pos he] at h
    cases h
    refine ⟨by decide, fun name => ?_⟩
    unfold demoStore
    by_cases h1 : name = str "count"
    · subst h1; decide
    · by_cases h2 : name = str "arr"
      · subst h2; decide
      · simp [h1, h2]
  · rw [if_neg he] at h
    cases h

/-- A write of a new name adds it to the list. -/
example : (match (serveStep demoConv (demoSt ((demoUnit (le 2 5 ++ [0x4D#8, 2#8, 0x91#8, 1#8, 0x78#8, 0#8, 0xC4#8, 0#8,
    1#8, 0#8, 7#8, 0#8, 0#8, 0#8])).bytes))).2.srv.eps 0 with
    | .tags _ keys => keys
    | .other => []) = [str "count", str "arr", str "x"] := by decide +kernel

end Gologix.Server
