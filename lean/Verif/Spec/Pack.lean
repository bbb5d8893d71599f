import Verif.Model.Pack
/-
Controller layout of structures, as bit positions.

Booleans of a structure occupy consecutive bits, least significant first.  Any other field starts at the
next multiple of its alignment, counted from the start of its structure.  A nested structure is aligned as
its widest member and ends at a byte boundary.  The scalars of an array follow each other; for an array of structures
that is the layout only if the structures need no padding (`dense`).
-/
namespace Gologix.Spec

/-- A scalar at a place: start of its structure, its own start and its width in bits, and its value. -/
structure Leaf where
  base  : Nat
  off   : Nat
  width : Nat
  val   : Nat
deriving DecidableEq, Repr

def Leaf.shift (s : Nat) (l : Leaf) : Leaf := { l with base := l.base + s, off := l.off + s }

/-- Bit `i` of a byte string, least significant bit of the first byte first. -/
def bitAt (b : Bytes) (i : Nat) : Bool := (b.getD (i / 8) 0#8).getLsbD (i % 8)

/-- Some scalar has its bit `i` set. -/
def covered (ls : List Leaf) (i : Nat) : Bool :=
  ls.any fun l => decide (l.off ≤ i) && decide (i < l.off + l.width) && l.val.testBit (i - l.off)

/-- The image of scalars at their places, in `bits` bits: whole bytes, each scalar's bits where it is
placed, all other bits zero. -/
def IsImage (img : Bytes) (ls : List Leaf) (bits : Nat) : Prop :=
  img.length = (bits + 7) / 8 ∧ ∀ i, bitAt img i = covered ls i

/-- Natural alignment in bytes. -/
def natAlign : Ty → Nat
  | .num k => k
  | .bool => 1
  | .arr _ t => natAlign t
  | .nil => 1
  | .cons _ f rest => max (natAlign f) (natAlign rest)

/-- The scalars of a field outside bit packing, in order: size in bytes and value. -/
def scalars : (t : Ty) → t.Val → List (Nat × Nat)
  | .num k, v => [(k, BitVec.toNat (w := 8 * k) v)]
  | .bool, v => [(1, Bool.toNat v)]
  | .arr n t, v => (Rep.toList n v).flatMap (scalars t)
  | .nil, _ => []
  | .cons _ f rest, v => scalars f v.1 ++ scalars rest v.2

/-- Scalars of given widths one after the other from bit `c`. -/
def run (c : Nat) : List (Nat × Nat) → List Leaf
  | [] => []
  | (w, v) :: xs => ⟨0, c, w, v⟩ :: run (c + w) xs

/-- The booleans of a field that shares bytes with its neighbours. -/
def packedBools : (nopack : Bool) → (t : Ty) → t.Val → Option (List Bool)
  | false, .bool, b => some [b]
  | false, .arr n .bool, v => some (Rep.toList n v)
  | _, _, _ => none

/-- Places of the fields of a structure, from bit `c` of it on, and the first bit after them. -/
def place : (t : Ty) → t.Val → Nat → List Leaf × Nat
  | .cons np f rest, v, c =>
    let (ls, e) : List Leaf × Nat := match packedBools np f v.1 with
      | some bs => (run c (bs.map fun b => (1, b.toNat)), c + bs.length)
      | none =>
        let c0 := roundUp c (8 * natAlign f)
        if f.isStruct then
          ((place f v.1 0).1.map (Leaf.shift c0), c0 + roundUp (place f v.1 0).2 8)
        else (run c0 ((scalars f v.1).map fun x => (8 * x.1, x.2)), c0 + 8 * ((scalars f v.1).map (·.1)).sum)
    (ls ++ (place rest v.2 e).1, (place rest v.2 e).2)
  | _, _, c => ([], c)

/-- Places of structures that follow each other from bit `c` on, each at the next multiple of their alignment. -/
def placeAll (t : Ty) : List t.Val → Nat → List Leaf
  | [], _ => []
  | x :: xs, c =>
    (place t x 0).1.map (Leaf.shift c) ++ placeAll t xs (c + roundUp (place t x 0).2 (8 * natAlign t))

/-- Where a scalar is, without the start of its structure. -/
def Leaf.spot (l : Leaf) : Nat × Nat × Nat := (l.off, l.width, l.val)

/-- All scalars of a value in order. -/
def values : (t : Ty) → t.Val → List Nat
  | .num k, v => [BitVec.toNat (w := 8 * k) v]
  | .bool, v => [Bool.toNat v]
  | .arr n t, v => (Rep.toList n v).flatMap (values t)
  | .nil, _ => []
  | .cons _ f rest, v => values f v.1 ++ values rest v.2

/-- Arrays of numbers, of any dimension. -/
def numbers : Ty → Bool
  | .num _ => true
  | .arr _ t => numbers t
  | _ => false

/-- Size in bytes of the scalars of a type. -/
def bytes : Ty → Nat
  | .num k => k
  | .bool => 1
  | .arr n t => n * bytes t
  | .nil => 0
  | .cons _ f rest => bytes f + bytes rest

/-- Shapes that need no padding from byte `o` of a structure on, and have no booleans: every field starts at a multiple
of its alignment right after the one before, and its size is a multiple of its alignment too. -/
def dense : Ty → Nat → Bool
  | .num k, o => o % k == 0
  | .bool, _ => false
  | .arr n t, o => 0 < n && 0 < bytes t && bytes t % natAlign t == 0 && dense t o
  | .nil, _ => true
  | .cons _ f rest, o =>
    o % natAlign f == 0 && 0 < bytes f && bytes f % natAlign f == 0 && dense f o && dense rest (o + bytes f)

/-- Shapes without arrays of structures that need padding or have booleans, and without arrays of arrays of booleans. -/
def plain : Ty → Bool
  | .num _ => true
  | .bool => true
  | .arr n t => t == .bool || numbers t || dense (.arr n t) 0
  | .nil => true
  | .cons _ f rest => plain f && plain rest

/-- Shapes without booleans. -/
def boolFree : Ty → Bool
  | .num _ => true
  | .bool => false
  | .arr _ t => boolFree t
  | .nil => true
  | .cons _ f rest => boolFree f && boolFree rest

/-- Every boolean of the structure shares its byte with its neighbours: none of them, and no array of them, is tagged
nopack. -/
def bitBools : Ty → Bool
  | .cons np f rest => (!np || boolFree f || f.isStruct) && bitBools f && bitBools rest
  | _ => true

/-- The scalars are in these bytes, each at its place. -/
def Found (src : Bytes) (ls : List Leaf) : Prop :=
  ∀ l ∈ ls, 0 < l.width ∧ l.off + l.width ≤ 8 * src.length ∧
    ∀ j, j < l.width → bitAt src (l.off + j) = l.val.testBit j

end Gologix.Spec
