import Verif.Spec.Pack
import Verif.Model.PackOwn
/-
Controller layout of structures with TIMER, COUNTER and CONTROL members.

Each of them is three words of 32 bits: the control word with its flags from bit 31 down, then the two numbers.  They are
aligned to 4 bytes, and follow each other in an array.
-/
namespace Gologix.Spec

/-- The flags in the control word: bit and value. -/
def ownFlags : (k : Own) → k.Val → List (Nat × Bool)
  | .timer, (t : Timer) => [(29, t.dn), (30, t.tt), (31, t.en)]
  | .counter, (t : Counter) => [(27, t.un), (28, t.ov), (29, t.dn), (30, t.cd), (31, t.cu)]
  | .control, (t : Control) =>
    [(24, t.fd), (25, t.in_), (26, t.ul), (27, t.er), (28, t.em), (29, t.dn), (30, t.eu), (31, t.en)]

/-- The numbers in the second and the third word. -/
def ownNumbers : (k : Own) → k.Val → BitVec 32 × BitVec 32
  | .timer, (t : Timer) => (t.pre, t.acc)
  | .counter, (t : Counter) => (t.pre, t.acc)
  | .control, (t : Control) => (t.len, t.pos)

/-- The flags in the order they are declared in Go. -/
def ownDeclared : (k : Own) → k.Val → List Bool
  | .timer, (t : Timer) => [t.en, t.tt, t.dn, t.fs, t.ls, t.ov, t.er]
  | .counter, (t : Counter) => [t.cu, t.cd, t.dn, t.ov, t.un]
  | .control, (t : Control) => [t.en, t.eu, t.dn, t.em, t.er, t.ul, t.in_, t.fd]

/-- The fields of the Go type one after the other, each flag a byte. -/
def ownFields (k : Own) (v : k.Val) : Bytes :=
  putBV (ownNumbers k v).1 ++ putBV (ownNumbers k v).2 ++ (ownDeclared k v).map fun b => if b then 1#8 else 0#8

/-- The scalars of a built-in type from bit `c` on. -/
def ownLeaves (k : Own) (v : k.Val) (c : Nat) : List Leaf :=
  (ownFlags k v).map (fun x => ⟨0, c + x.1, 1, x.2.toNat⟩) ++
    [⟨0, c + 32, 32, (ownNumbers k v).1.toNat⟩, ⟨0, c + 64, 32, (ownNumbers k v).2.toNat⟩]

/-- The scalars of built-in types that follow each other. -/
def ownsLeaves (k : Own) : List k.Val → Nat → List Leaf
  | [], _ => []
  | v :: vs, c => ownLeaves k v c ++ ownsLeaves k vs (c + 96)

def ownAlign : OTy → Nat
  | .ty t => natAlign t
  | .own _ => 4
  | .owns _ _ => 4
  | .nil => 1
  | .cons _ f rest => max (ownAlign f) (ownAlign rest)

/-- Places of a field that is no structure with built-in types in it, from bit `c` on, and the first bit after it. -/
def placeField : (f : OTy) → Bool → f.Val → Nat → List Leaf × Nat
  | .ty t, np, v, c => place (.cons np t .nil) (v, ()) c
  | .own k, _, v, c => (ownLeaves k v (roundUp c 32), roundUp c 32 + 96)
  | .owns n k, _, v, c => (ownsLeaves k (Rep.toList n v) (roundUp c 32), roundUp c 32 + 96 * n)
  | _, _, _, c => ([], c)

/-- Places of the fields of a structure, from bit `c` of it on, and the first bit after them. -/
def placeOwn : (t : OTy) → t.Val → Nat → List Leaf × Nat
  | .cons np f rest, v, c =>
    let (ls, e) : List Leaf × Nat :=
      if f.isStruct then
        let c0 := roundUp c (8 * ownAlign f)
        ((placeOwn f v.1 0).1.map (Leaf.shift c0), c0 + roundUp (placeOwn f v.1 0).2 8)
      else placeField f np v.1 c
    (ls ++ (placeOwn rest v.2 e).1, (placeOwn rest v.2 e).2)
  | _, _, c => ([], c)

/-- Shapes without arrays of built-in types; see `plain`. -/
def plainOwn : OTy → Bool
  | .ty t => plain t
  | .own _ => true
  | .owns _ _ => false
  | .nil => true
  | .cons _ f rest => plainOwn f && plainOwn rest

/-- The value a structure has after `v` was read into it: FS, LS, OV and ER of a TIMER are not in the image and stay. -/
def ownKept : (t : OTy) → (old v : t.Val) → t.Val
  | .ty _, _, v => v
  | .own .timer, (old : Timer), (v : Timer) =>
    (⟨v.pre, v.acc, v.en, v.tt, v.dn, old.fs, old.ls, old.ov, old.er⟩ : Timer)
  | .own .counter, _, v => v
  | .own .control, _, v => v
  | .owns _ _, _, v => v
  | .nil, _, v => v
  | .cons _ f rest, old, v => (ownKept f old.1 v.1, ownKept rest old.2 v.2)

/-- Places of something that is read by itself, and the first bit after it. -/
def placeWhole : (t : OTy) → t.Val → List Leaf × Nat
  | .own k, v => (ownLeaves k v 0, 96)
  | t, v => placeOwn t v 0

/-- The bytes hold the value, and reach to its end. -/
def HoldsOwn (t : OTy) (b : Bytes) (v : t.Val) : Prop :=
  (placeWhole t v).2 ≤ 8 * b.length ∧ Found b (placeWhole t v).1

/-- The bytes of a value up to the next multiple of its alignment. -/
def ownStride (t : OTy) (v : t.Val) : Nat := roundUp (((placeWhole t v).2 + 7) / 8) (ownAlign t)

/-- The bytes hold an array; the padding of the last element is there too. -/
def HoldsOwns (t : OTy) : Bytes → List t.Val → Prop
  | _, [] => True
  | b, v :: vs => HoldsOwn t b v ∧ ownStride t v ≤ b.length ∧ HoldsOwns t (b.drop (ownStride t v)) vs

/-- The values of a slice after an array was read into it. -/
def ownsKept (t : OTy) : (olds vs : List t.Val) → List t.Val
  | old :: olds, v :: vs => ownKept t old v :: ownsKept t olds vs
  | _, _ => []

end Gologix.Spec
