import Verif.Spec.Listing
import Verif.Model.Members
/-
What the members of a structure occupy (Logix data access manual 1756-PM020: type codes, type words, member
descriptions).
-/
namespace Gologix.Spec

/-- Bytes of an elementary type, by code. -/
def atomSize (code : Nat) : Option Nat :=
  match code with
  | 0xC1 => some 1 | 0xC2 => some 1 | 0xC3 => some 2 | 0xC4 => some 4 | 0xC5 => some 8
  | 0xC6 => some 1 | 0xC7 => some 2 | 0xC8 => some 4 | 0xC9 => some 8 | 0xCA => some 4 | 0xCB => some 8
  | 0xD1 => some 1 | 0xD2 => some 2 | 0xD3 => some 4 | 0xD4 => some 8
  | _ => none

/-- A member that is one value of an elementary type of `k` bytes: the type word is the code. -/
def Atomic (m : MemberInfo) (k : Nat) : Prop := m.type.toNat < 256 ∧ atomSize m.type.toNat = some k

/-- A member that is an array of `m.info` values of an elementary type of `k` bytes: bit 13 of the type word. -/
def AtomicArray (m : MemberInfo) (k : Nat) : Prop :=
  m.type.toNat / 256 = 0x20 ∧ atomSize (m.type.toNat % 256) = some k

/-- The member with the description `sub` of its structure occupies `k` bytes. -/
inductive Occupies (m : MemberInfo) : Option Udt → Nat → Prop
  | atomic {k} : Atomic m k → Occupies m none k
  | array {k} : AtomicArray m k → Occupies m none (m.info.toNat * k)
  | struct {u} : IsStructure m.type.toNat → ¬ bitSet m.type.toNat 13 → Occupies m (some u) u.info.bytes.toNat
  | structs {u} : IsStructure m.type.toNat → bitSet m.type.toNat 13 →
      Occupies m (some u) (m.info.toNat * u.info.bytes.toNat)

/-- The members of the structure lie within `n` bytes. -/
def Within (u : Udt) (n : Nat) : Prop :=
  ∀ m ∈ u.members, ∀ k, Occupies m.2.1 m.2.2 k → m.2.1.offset.toNat + k ≤ n

/-- `n` is the size of what the members of the structure occupy. -/
def IsExtent (u : Udt) (n : Nat) : Prop := Within u n ∧ ∀ n', Within u n' → n ≤ n'

end Gologix.Spec
