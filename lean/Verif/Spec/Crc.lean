import Verif.Base.Bytes
import Mathlib.Algebra.Polynomial.Div
import Mathlib.Data.ZMod.Basic
/-
CRC-16 as division of polynomials over the field with two elements.
-/
namespace Gologix.Spec
open Polynomial

/-- A bit as an element of the field with two elements. -/
def bit2 (b : Bool) : ZMod 2 := if b then 1 else 0

/-- The polynomial with the given coefficients, the one of the highest power first. -/
noncomputable def bitsPoly (bits : List Bool) : (ZMod 2)[X] := bits.foldl (fun p b => X * p + C (bit2 b)) 0

/-- The bits of a message in the order of transmission: bytes in order, least significant bit first. -/
def msgBits (s : Bytes) : List Bool := s.flatMap fun b => (List.range 8).map b.getLsbD

/-- The bits of a checksum, least significant first: bit 0 is the coefficient of the highest power. -/
def crcBits (v : BitVec 16) : List Bool := (List.range 16).map v.getLsbD

/-- x¹⁶ + x¹⁵ + x² + 1. -/
noncomputable def generator : (ZMod 2)[X] := X ^ 16 + X ^ 15 + X ^ 2 + 1

/-- `v` is the CRC of `s`: the remainder of the message shifted by 16 places, bit-reflected, zero initial
value. -/
def IsCrc (s : Bytes) (v : BitVec 16) : Prop :=
  bitsPoly (crcBits v) = (bitsPoly (msgBits s) * X ^ 16) %ₘ generator

/-- Two messages that differ only in a burst of at most 16 bits. -/
def BurstChange (s t : Bytes) : Prop :=
  ∃ pre x y post : List Bool, msgBits s = pre ++ x ++ post ∧ msgBits t = pre ++ y ++ post ∧
    x.length = y.length ∧ x.length ≤ 16 ∧ x ≠ y

end Gologix.Spec
