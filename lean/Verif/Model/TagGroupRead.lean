import Verif.Model.ReadMulti
/-
Reading a tag group: taggroup_readmap.go, and the accessors of `TagGroupResult`, taggroup.go:163-330.

`checkConnection` is left out.
-/
namespace Gologix

/-- The zero of a Go type. -/
def GoTy.zero : GoTy → Scal
  | .bool => .bool false
  | .u8 => .u8 0
  | .i8 => .i8 0
  | .u16 => .u16 0
  | .i16 => .i16 0
  | .u32 => .u32 0
  | .i32 => .i32 0
  | .u64 => .u64 0
  | .i64 => .i64 0
  | .f32 => .f32 0
  | .f64 => .f64 0
  | .str => .str []

/-- taggroup.go:57-116 `zeroValueForTagDef`. -/
def zeroValue (d : TagDef) : MVal :=
  if d.elements > 1 then .list (zeroType d.typ true) (List.replicate d.elements.toNat (zeroType d.typ true).zero)
  else .one (zeroType d.typ false).zero

/-- taggroup_readmap.go:26-31: the map. -/
def groupMap (args : List Str) (defs : List TagDef) : List (Str × MVal) :=
  defs.foldl (fun m d => mapPut m (formatName d.name args) (zeroValue d)) []

/-- taggroup_readmap.go:20-39 `ReadTagGroup`; `ord` is the order in which the map is visited. -/
def readTagGroup (fuel conn : Nat) (ioi : Str → Byte → Res Ioi) (ord : List (Str × MVal) → List (Str × MVal))
    (defs : List TagDef) (args : List Str) (replies : List Reply) : Option (MultiRun (List (Str × MVal))) :=
  readMap fuel conn ioi (ord (groupMap args defs)) replies

abbrev GroupResult := List (Str × MVal)

/-- taggroup.go:179-185 `Value` -/
def GroupResult.value (r : GroupResult) (name : Str) : Res MVal :=
  match r.lookup name with
  | some v => .ok v
  | none => .err .fail

/-- taggroup.go:188-198 `String` -/
def GroupResult.string (r : GroupResult) (name : Str) : Res Str :=
  match r.lookup name with
  | some (.one (.str s)) => .ok s
  | _ => .err .fail

/-- taggroup.go:201-211 `Bool` -/
def GroupResult.bool (r : GroupResult) (name : Str) : Res Bool :=
  match r.lookup name with
  | some (.one (.bool b)) => .ok b
  | _ => .err .fail

/-- taggroup.go:214-224 `Int16` -/
def GroupResult.int16 (r : GroupResult) (name : Str) : Res (BitVec 16) :=
  match r.lookup name with
  | some (.one (.i16 v)) => .ok v
  | _ => .err .fail

/-- taggroup.go:227-237 `Int32` -/
def GroupResult.int32 (r : GroupResult) (name : Str) : Res (BitVec 32) :=
  match r.lookup name with
  | some (.one (.i32 v)) => .ok v
  | _ => .err .fail

/-- taggroup.go:242-255 `Uint32`: also of an `int32`. -/
def GroupResult.uint32 (r : GroupResult) (name : Str) : Res (BitVec 32) :=
  match r.lookup name with
  | some (.one (.u32 v)) => .ok v
  | some (.one (.i32 v)) => .ok v
  | _ => .err .fail

/-- taggroup.go:258-268 `Float32` -/
def GroupResult.float32 (r : GroupResult) (name : Str) : Res (BitVec 32) :=
  match r.lookup name with
  | some (.one (.f32 v)) => .ok v
  | _ => .err .fail

/-- taggroup.go:271-281 `Float64` -/
def GroupResult.float64 (r : GroupResult) (name : Str) : Res (BitVec 64) :=
  match r.lookup name with
  | some (.one (.f64 v)) => .ok v
  | _ => .err .fail

/-- The loops of taggroup.go:295-303 and 317-325: every element must have the type. -/
def elemsAs (f : Scal → Option (BitVec 32)) : List Scal → Res (List (BitVec 32))
  | [] => .ok []
  | v :: vs => match f v with
    | none => .err .fail
    | some x => match elemsAs f vs with
      | .ok xs => .ok (x :: xs)
      | .err e => .err e
      | .panic => .panic

def asI32 : Scal → Option (BitVec 32)
  | .i32 v => some v
  | _ => none

def asF32 : Scal → Option (BitVec 32)
  | .f32 v => some v
  | _ => none

/-- taggroup.go:285-307 `Int32Slice` -/
def GroupResult.int32Slice (r : GroupResult) (name : Str) : Res (List (BitVec 32)) :=
  match r.lookup name with
  | some (.list .i32 vs) => elemsAs asI32 vs
  | some (.anys vs) => elemsAs asI32 vs
  | _ => .err .fail

/-- taggroup.go:310-332 `Float32Slice` -/
def GroupResult.float32Slice (r : GroupResult) (name : Str) : Res (List (BitVec 32)) :=
  match r.lookup name with
  | some (.list .f32 vs) => elemsAs asF32 vs
  | some (.anys vs) => elemsAs asF32 vs
  | _ => .err .fail

end Gologix
