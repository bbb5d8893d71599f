import Verif.Model.L5x
import Verif.Spec.Values
/-
Project exports, independent of the loader.
-/
namespace Gologix.Spec

/-- A whole number written in decimal. -/
def decimalText (z : Int) : Str := if z < 0 then 0x2D#8 :: dec z.natAbs else dec z.natAbs

/-- The integer data types of a controller: name, range, and the Go type of that size and sign. -/
def intTypes : List (Str × Int × Int × GoTy) := [
  (str "SINT", -2 ^ 7, 2 ^ 7, .i8), (str "INT", -2 ^ 15, 2 ^ 15, .i16), (str "DINT", -2 ^ 31, 2 ^ 31, .i32),
  (str "LINT", -2 ^ 63, 2 ^ 63, .i64), (str "BYTE", 0, 2 ^ 8, .u8), (str "WORD", 0, 2 ^ 16, .u16),
  (str "DWORD", 0, 2 ^ 32, .u32), (str "LWORD", 0, 2 ^ 64, .u64), (str "USINT", 0, 2 ^ 8, .u8),
  (str "UINT", 0, 2 ^ 16, .u16), (str "UDINT", 0, 2 ^ 32, .u32), (str "ULINT", 0, 2 ^ 64, .u64)]

/-- What the values of a program tag are, given what each single value is. -/
def ProgValue (conv : Str → Str → Scal) (t : L5xTag) (v : LVal) : Prop :=
  ∃ a d rest, t.data = a :: d :: rest ∧
    ((∃ x, d.value = some x ∧ v = .scal (conv t.typ x)) ∨
     (d.value = none ∧ ∃ ms, d.struct = some ms ∧ ∃ m, v = .map m ∧
       ∀ e ∈ ms, (∀ e' ∈ ms, e'.name = e.name → e' = e) → m.lookup e.name = some (conv e.typ e.value)) ∨
     (d.value = none ∧ d.struct = none ∧ ∃ es, d.array = some es ∧ ∃ vs, v = .arr vs ∧ vs.length = es.length ∧
       ∀ (i : Nat) e, es[i]? = some e → e.struct = none → vs[i]? = some (.inl (conv t.typ e.value))))

end Gologix.Spec
