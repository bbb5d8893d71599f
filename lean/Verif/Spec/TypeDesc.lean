import Verif.Model.TypeEncode
/-
Type descriptions of structures (Rockwell, "Type encoding"): the name of the structure, then for each member a comma and
its description; runs of booleans are bytes of eight.  Only the type `DTy` is taken from the model.
-/
namespace Gologix.Spec

/-- Logix names of Go's number types. -/
def typeNames : List (Str × Str) :=
  [(str "int8", str "SINT"), (str "int16", str "INT"), (str "int32", str "DINT"), (str "int64", str "LINT"),
   (str "uint8", str "SINT"), (str "uint16", str "UINT"), (str "uint32", str "UDINT"), (str "uint64", str "ULINT"),
   (str "float32", str "REAL"), (str "float64", str "LREAL")]

mutual
/-- `Describes t d`: `d` is the description of `t`. -/
inductive Describes : DTy → Str → Prop
  | number {n l : Str} : (n, l) ∈ typeNames → Describes (.basic n) l
  | known {d : Str} {i : BitVec 16} : Describes (.known d i) d
  | array {n : Nat} {e : DTy} {d : Str} : Describes e d → Describes (.arr n e) (d ++ str "[" ++ dec n ++ str "]")
  | struct {name : Str} {fs : List DTy} {ds : List Str} : Members fs ds →
      Describes (.struct name fs) (name ++ ds.flatMap (str "," ++ ·))

/-- The descriptions of the members of a structure. -/
inductive Members : List DTy → List Str → Prop
  | nil : Members [] []
  | field {t : DTy} {d : Str} {fs : List DTy} {ds : List Str} : Describes t d → Members fs ds → Members (t :: fs) (d :: ds)
  | bools {k : Nat} {fs : List DTy} {ds : List Str} : 1 ≤ k → k ≤ 8 → (k = 8 ∨ fs.head? ≠ some .bool) → Members fs ds →
      Members (List.replicate k .bool ++ fs) (str "SINT" :: ds)
end

mutual
/-- Types whose description gologix gets right: numbers with a Logix name, arrays of these or of structures (not empty),
no array right after a boolean. -/
inductive Plain : DTy → Prop
  | number {n l : Str} : (n, l) ∈ typeNames → Plain (.basic n)
  | known {d : Str} {i : BitVec 16} : Plain (.known d i)
  | struct {name : Str} {fs : List DTy} : PlainFields false fs → Plain (.struct name fs)

/-- The flag tells whether the field before is a boolean. -/
inductive PlainFields : Bool → List DTy → Prop
  | nil {p : Bool} : PlainFields p []
  | bool {p : Bool} {fs : List DTy} : PlainFields true fs → PlainFields p (.bool :: fs)
  | one {p : Bool} {t : DTy} {fs : List DTy} : Plain t → PlainFields false fs → PlainFields p (t :: fs)
  | array {n : Nat} {e : DTy} {fs : List DTy} : 0 < n → Plain e → PlainFields false fs → PlainFields false (.arr n e :: fs)
end

/-- A structure, or a built-in one. -/
def StructType : DTy → Prop
  | .struct _ _ => True
  | .known _ _ => True
  | _ => False

/-- The structure has an array of no structures in it, at any depth. -/
inductive HasEmpty : DTy → Prop
  | here {name : Str} {fs : List DTy} {e : DTy} : .arr 0 e ∈ fs → StructType e → HasEmpty (.struct name fs)
  | inner {name : Str} {fs : List DTy} {t : DTy} : t ∈ fs → HasEmpty t → HasEmpty (.struct name fs)
  | element {name : Str} {fs : List DTy} {n : Nat} {t : DTy} : .arr n t ∈ fs → HasEmpty t → HasEmpty (.struct name fs)

end Gologix.Spec
