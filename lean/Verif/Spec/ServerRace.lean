import Verif.Model.ServerRace
import Verif.Spec.ServerTables
/-
What it means that reads and writes at the same time behave as if one came after the other.
-/
namespace Gologix.Server.Spec

/-- What the tags hold, whatever the sharing. -/
def held (s : AStore) : Store := fun k => (s.data k).map s.deref

/-- The tags held `c` at some time while `evs` happened. -/
def During (C : Conv) (w : Race) (evs : List Ev) (c : Store) : Prop :=
  ∃ k ≤ evs.length, c = held (w.run C (evs.take k)).store

/-- Connection `i` is asked for `qty` elements of `tag`, other things happen while it works on this request, and the outcome
is `v`. -/
def Answers (C : Conv) (w : Race) (i : Nat) (tag : Str) (qty : Int) (mid : List Ev) (v : TVal) : Prop :=
  (∀ e a off len got, w.jobs i ≠ .copying e a off len got) ∧ (∀ t q, Ev.look i t q ∉ mid) ∧
  (w.run C (.look i tag qty :: mid)).jobs i = .done v

/-- `tag` names the array `base`, or an element of it. -/
def ofArray (tag base : Str) : Prop :=
  (wholeName tag ∧ sameName tag base) ∨ ∃ text n, sameName tag (elemText base text) ∧ atoi text = .ok n

/-- No element of the array `base` is written. -/
def untouched (base : Str) (evs : List Ev) : Prop :=
  ∀ t v text, Ev.write t v ∈ evs → 0x5B#8 ∉ text → ¬ sameName t (elemText base text)

end Gologix.Server.Spec
