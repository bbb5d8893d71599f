import Verif.Base.Bytes
/-
Logical segments as published (CIP volume 1, appendix C): the first byte is `001 ttt ff`, `ttt` the
logical type and `ff` the format; 16 and 32 bit formats have a pad byte before the value.
-/
namespace Gologix.Spec

inductive LogicalType where
  | classId | instanceId | memberId | connectionPoint | attributeId | special | service | reserved
deriving DecidableEq, Repr

def logicalType (b : Byte) : LogicalType :=
  match (b.toNat / 4) % 8 with
  | 0 => .classId
  | 1 => .instanceId
  | 2 => .memberId
  | 3 => .connectionPoint
  | 4 => .attributeId
  | 5 => .special
  | 6 => .service
  | _ => .reserved

/-- Decode one logical segment; `none` if the bytes are not a complete logical segment. -/
def decodeLogical : Bytes → Option (LogicalType × Nat × Bytes)
  | b :: rest =>
    if b.toNat / 32 ≠ 1 then none
    else match b.toNat % 4, rest with
      | 0, v :: rest => some (logicalType b, v.toNat, rest)
      | 1, _ :: v0 :: v1 :: rest => some (logicalType b, v0.toNat + 256 * v1.toNat, rest)
      | 2, _ :: v0 :: v1 :: v2 :: v3 :: rest =>
        some (logicalType b, v0.toNat + 256 * v1.toNat + 65536 * v2.toNat + 16777216 * v3.toNat, rest)
      | _, _ => none
  | [] => none

/-- Decode a path made of logical segments. -/
def decodePath : Nat → Bytes → Option (List (LogicalType × Nat))
  | _, [] => some []
  | 0, _ :: _ => none
  | fuel + 1, b :: bs =>
    match decodeLogical (b :: bs) with
    | none => none
    | some (t, v, rest) => (decodePath fuel rest).map ((t, v) :: ·)

end Gologix.Spec
