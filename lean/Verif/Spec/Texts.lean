import Verif.Base.Str
/-
What a printed status, service or type should tell its reader.
-/
namespace Gologix.Spec.Texts

/-- Different values are printed differently. -/
def TellsApart {α : Type} (p : α → Prop) (f : α → Str) : Prop := ∀ a b, p a → p b → f a = f b → a = b

/-- The value of a hexadecimal digit. -/
def digit (b : Byte) : Option Nat :=
  if 48 ≤ b.toNat ∧ b.toNat ≤ 57 then some (b.toNat - 48)
  else if 65 ≤ b.toNat ∧ b.toNat ≤ 70 then some (b.toNat - 55)
  else if 97 ≤ b.toNat ∧ b.toNat ≤ 102 then some (b.toNat - 87)
  else none

/-- The number written with hexadecimal digits, after the digits of `acc`. -/
def number (acc : Nat) : Str → Option Nat
  | [] => some acc
  | b :: s => match digit b with
    | some d => number (16 * acc + d) s
    | none => none

/-- The text starts with `pre`, then shows `0x` and the number `n`, then something else. -/
def Shows (text pre : Str) (n : Nat) : Prop :=
  ∃ digits rest : Str, text = pre ++ str "0x" ++ digits ++ rest ∧ digits ≠ [] ∧ number 0 digits = some n ∧
    (∀ b, rest.head? = some b → digit b = none)

/-- The text shows the number somewhere. -/
def Mentions (text : Str) (n : Nat) : Prop := ∃ pre, Shows text pre n

end Gologix.Spec.Texts
