import Verif.Spec.DataTable
import Verif.Spec.UdtSize
/-
What a tag of a data table takes (Logix data access manual 1756-PM020: type codes and sizes; a standard string takes 88
bytes), independent of the client code.
-/
namespace Gologix.Spec

/-- The bytes of a value of a type: of a string or a structure those the controller told for it (`known`), or 88 when it
told nothing; else those of the elementary type. -/
def slotBytes (known : Option Nat) (t : Byte) : Option Nat :=
  if t.toNat = 0xA0 ∨ t.toNat = 0xFF then
    match known with
    | some (n + 1) => some (n + 1)
    | _ => some 88
  else atomSize t.toNat

/-- A date or time type, for which the manual tells no size. -/
def isTime (t : Byte) : Prop := t.toNat ∈ [0xC0, 0xCD, 0xCE]

instance (t : Byte) : Decidable (isTime t) := by unfold isTime; infer_instance

/-- The tag of the name and type is shown by slot `s`: its size and its path. -/
def ShownBy (E : DEnv) (name : Str) (t : Byte) (s : Slot) : Prop :=
  E.ioi name t = .ok s.2 ∧ slotBytes ((E.udtSize (toLower name)).map (·.toNat)) t = some s.1 ∧ s.1 < 65536

/-- There is no path for the tag, or its type has no size. -/
def CannotShow (E : DEnv) (name : Str) (t : Byte) : Prop :=
  (∃ x, E.ioi name t = .err x) ∨
  (∃ p, E.ioi name t = .ok p) ∧ slotBytes ((E.udtSize (toLower name)).map (·.toNat)) t = none ∧ ¬ isTime t

/-- A tag as it is added: its name, type, slot and variable. -/
structure NewTag where
  name : Str
  typ  : Byte
  slot : Slot
  var  : Option VRef := none
deriving DecidableEq, Repr

/-- `b'` is `b` with the tags `new`, none of which the controller has been told of; they get the next positions. -/
def Added (b b' : DBuf) (new : List NewTag) : Prop :=
  b'.inst = b.inst ∧ b'.created = b.created ∧ b'.expansions = b.expansions ∧ b'.synched = false ∧
  ∃ ts : List DTag, b'.tags = b.tags ++ ts ∧
    (ts.map fun t => (⟨t.name, t.typ, (t.size.toNat, t.ioi), t.var⟩ : NewTag)) = new ∧
    (∀ t ∈ ts, t.synched = false ∧ t.batch = 0) ∧
    ∀ i t, ts[i]? = some t → t.index.toNat = (b.tags.length + 1 + i) % 65536

end Gologix.Spec
