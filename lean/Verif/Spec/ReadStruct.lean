import Verif.Spec.Pack
/-
What a controller's image of a structure, and of an array of structures, means.
-/
namespace Gologix.Spec

/-- The bytes hold the value: every scalar of it at its place in the controller's layout, and the bytes reach to the
end of the structure.  The bits between the scalars can be anything. -/
def HoldsValue (t : Ty) (b : Bytes) (v : t.Val) : Prop :=
  (place t v 0).2 ≤ 8 * b.length ∧ Found b (place t v 0).1

/-- The bytes of a structure up to the next multiple of its alignment; all values have the same. -/
def strideOf (t : Ty) (v : t.Val) : Nat := roundUp (((place t v 0).2 + 7) / 8) (natAlign t)

/-- The bytes hold an array: each element where the one before it, padded to its alignment, ends; the padding of the
last one is there too. -/
def HoldsArray (t : Ty) : Bytes → List t.Val → Prop
  | _, [] => True
  | b, v :: vs => HoldsValue t b v ∧ strideOf t v ≤ b.length ∧ HoldsArray t (b.drop (strideOf t v)) vs

/-- The data of the reply to a read of a structure: a handle, then the image. -/
def structData (handle : BitVec 16) (image : Bytes) : Bytes := le 2 handle.toNat ++ image

end Gologix.Spec
