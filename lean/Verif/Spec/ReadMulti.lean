import Verif.Spec.Multi
import Verif.Model.ReadMulti
/-
Reading into structures and maps: what is asked for, and where the values go.
-/
namespace Gologix.Spec

/-- How a variable is asked for: its type and number of elements; a structure is read into a new variable of the
same size, new slices are empty. -/
inductive Asked : MVal → MTag → Prop
  | number (x : Scal) (T : GoTy) (io : Ioi) : x.ty = some T → T ≠ .str → Asked (.one x) ⟨io, cipOfGo T, 1, .sized x.encode.length⟩
  | text (s : Bytes) (io : Ioi) : Asked (.one (.str s)) ⟨io, tSTRING, 1, .unsized⟩
  | whatever (io : Ioi) : Asked (.one .nil) ⟨io, tUnknown, 1, .untyped⟩
  | numbers (T : GoTy) (xs : List Scal) (io : Ioi) : T ≠ .bool → T ≠ .str → Asked (.list T xs) ⟨io, cipOfGo T, xs.length, .sized 0⟩
  | texts (xs : List Scal) (io : Ioi) : Asked (.list .str xs) ⟨io, tSTRING, xs.length, .unsized⟩
  | image (b : Bytes) (io : Ioi) : Asked (.image b) ⟨io, tStruct, 1, .sized b.length⟩

/-- `new` is left in a field that was `old` when `v` was read for it: the value, in the type of the field. -/
inductive Stored : MVal → RV → MVal → Prop where
  | one (x y : Scal) (T : GoTy) : x.ty = some T → y.ty = some T → Stored (.one x) (.one y) (.one y)
  | list (T : GoTy) (xs ys : List Scal) : ys.length = xs.length → (∀ y ∈ ys, y.ty = some T) →
      Stored (.list T xs) (.many ys) (.list T ys)
  | image (a b : Bytes) : b.length = a.length → Stored (.image a) (.one (.bytes b)) (.image b)

/-- `new` is left under a key of a map that held `old` when `v` was read for it. -/
inductive Put : MVal → RV → MVal → Prop where
  | one (old : MVal) (y : Scal) (T : GoTy) : y.ty = some T → Put old (.one y) (.one y)
  | many (old : MVal) (ys : List Scal) : Put old (.many ys) (.anys ys)
  | image (a b : Bytes) : Put (.image a) (.one (.bytes b)) (.image b)

/-- The tagged fields of a structure: name with the arguments filled in, number and contents. -/
def taggedOf (args : List Str) : Nat → List (Option Str × MVal) → List (Str × Nat × MVal)
  | _, [] => []
  | i, (tag, v) :: rest =>
    match tag with
    | some (c :: cs) => (formatName (c :: cs) args, i, v) :: taggedOf args (i + 1) rest
    | _ => taggedOf args (i + 1) rest

/-- The fields after a read: `val` by tag, the fields without a tag as they were. -/
def afterRead (args : List Str) (val : Str → MVal) : List (Option Str × MVal) → List MVal
  | [] => []
  | (tag, v) :: rest =>
    (match tag with
    | some (c :: cs) => val (formatName (c :: cs) args)
    | _ => v) :: afterRead args val rest

/-- The Go type of a CIP type. -/
inductive TypeOf : Byte → GoTy → Prop
  | bool : TypeOf tBOOL .bool
  | sint : TypeOf tSINT .i8
  | byte : TypeOf tBYTE .u8
  | usint : TypeOf tUSINT .u8
  | int : TypeOf tINT .i16
  | uint : TypeOf tUINT .u16
  | word : TypeOf tWORD .u16
  | dint : TypeOf tDINT .i32
  | udint : TypeOf tUDINT .u32
  | dword : TypeOf tDWORD .u32
  | lint : TypeOf tLINT .i64
  | lword : TypeOf tLWORD .u64
  | ulint : TypeOf tULINT .u64
  | real : TypeOf tREAL .f32
  | lreal : TypeOf tLREAL .f64
  | text : TypeOf tSTRING .str

/-- How a tag of a group is asked for: by its type, and as many elements as were defined, at least one. -/
structure DefAsked (d : TagDef) (T : GoTy) (t : MTag) : Prop where
  type : TypeOf d.typ T
  typ  : t.typ = cipOfGo T
  elements : (t.elements : Int) = if 1 < d.elements then d.elements else 1
  dest : t.dest = if T = .str then .unsized else .sized (if 1 < d.elements then 0 else goSize T)

end Gologix.Spec
