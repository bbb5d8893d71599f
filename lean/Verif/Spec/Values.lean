import Verif.Model.Values
/-
What values mean, independent of the codecs.
-/
namespace Gologix.Spec

/-- The integer a Go integer value stands for. -/
def intVal : Scal → Option Int
  | .u8 v => some v.toNat
  | .u16 v => some v.toNat
  | .u32 v => some v.toNat
  | .u64 v => some v.toNat
  | .i8 v => some v.toInt
  | .i16 v => some v.toInt
  | .i32 v => some v.toInt
  | .i64 v => some v.toInt
  | _ => none

/-- Bit `n` of an integer in two's complement: the parity of `⌊z / 2^n⌋`. -/
def bitOf (z : Int) (n : Nat) : Bool := decide ((z / 2 ^ n) % 2 = 1)

/-- Bits in an integer type, by CIP type code. -/
def intWidth (t : Byte) : Option Nat :=
  match t.toNat with
  | 0xC2 => some 8     -- SINT
  | 0xC3 => some 16    -- INT
  | 0xC4 => some 32    -- DINT
  | 0xC5 => some 64    -- LINT
  | 0xC6 => some 8     -- USINT
  | 0xC7 => some 16    -- UINT
  | 0xC8 => some 32    -- UDINT
  | 0xD1 => some 8     -- BYTE
  | 0xD2 => some 16    -- WORD
  | 0xD3 => some 32    -- DWORD
  | 0xD4 => some 64    -- LWORD
  | _ => none

/-- Bytes each Go value takes on the wire. -/
def goSize : GoTy → Nat
  | .bool => 1 | .u8 => 1 | .i8 => 1 | .u16 => 2 | .i16 => 2 | .u32 => 4 | .i32 => 4
  | .u64 => 8 | .i64 => 8 | .f32 => 4 | .f64 => 8 | .str => 88

end Gologix.Spec
