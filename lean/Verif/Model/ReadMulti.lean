import Verif.Model.Multi
import Verif.Model.DataTable
/-
Reading into structures and maps: read.go `ReadMulti` and `ReadMap`.

`checkConnection` is left out.  `newIOI` (C08-C11) is a parameter.
-/
namespace Gologix

/-- A Go value given to `ReadMulti` or `ReadMap`, or left there by them: one of `GoLogixTypes` or nil, a slice of one
of them, a structure of fixed size (its image), a `[]any`, and a field that is not exported. -/
inductive MVal where
  | one (v : Scal)
  | list (T : GoTy) (vs : List Scal)
  | image (b : Bytes)
  | anys (vs : List Scal)
  | hidden
deriving DecidableEq, Repr

/-- types.go:22-69 `GoVarToCIPType`. -/
def MVal.cipType : MVal → Byte × Nat
  | .one v => match v.ty with
    | some T => (cipOfGo T, 1)
    | none => (tUnknown, 1)
  | .list T vs => if T = .bool then (tStruct, 1) else (cipOfGo T, vs.length)
  | .image _ => (tStruct, 1)
  | .anys _ => (tStruct, 1)
  | .hidden => (tUnknown, 1)

/-- What a structure is unpacked into (read.go:974-988): a new value of the same type; new slices are empty. -/
def MVal.dest : MVal → Dest
  | .one v => match v.ty with
    | some T => if T = .str then .unsized else .sized (cipSize (cipOfGo T))
    | none => .untyped
  | .list T _ => if T = .str then .unsized else .sized 0
  | .image b => .sized b.length
  | .anys _ => .unsized
  | .hidden => .unsized

/-- read.go:722-739: the tags of the visible fields with their number and value; `direct[i]` is the field `Field(i)`
gives, `Interface` panics for fields that are not exported. -/
def multiFields (direct : List MVal) (args : List Str) : Nat → List (Option Str) → Res (List (Str × Nat × MVal))
  | _, [] => .ok []
  | i, none :: rest => multiFields direct args (i + 1) rest
  | i, some [] :: rest => multiFields direct args (i + 1) rest
  | i, some (c :: cs) :: rest =>
    match direct[i]? with
    | none => .panic
    | some .hidden => .panic
    | some v => match multiFields direct args (i + 1) rest with
      | .ok l => .ok ((formatName (c :: cs) args, i, v) :: l)
      | .err e => .err e
      | .panic => .panic

/-- read.go:780-788: the paths, all built before anything is sent. -/
def multiDescs (ioi : Str → Byte → Res Ioi) : List (Str × MVal) → Res (List MTag)
  | [] => .ok []
  | (p, v) :: rest =>
    match ioi p v.cipType.1 with
    | .err e => .err e
    | .panic => .panic
    | .ok io => match multiDescs ioi rest with
      | .ok l => .ok (⟨io, v.cipType.1, v.cipType.2, v.dest⟩ :: l)
      | .err e => .err e
      | .panic => .panic

/-- read.go:758-766: one value is stored in a field; `reflect` panics when it does not have the type of the field.
A structure read for a field of a plain type was unpacked as that type (read.go:982-988). -/
def storeField (f : MVal) (v : RV) : Res MVal :=
  match f, v with
  | .one x, .one (.bytes b) =>
    match x.ty with
    | some T => if T = .str then .panic else match readValue (cipOfGo T) b with
      | .ok (y, _) => .ok (.one y)
      | _ => .panic
    | none => .panic
  | .one x, .one y => if y ≠ .nil ∧ x.ty = y.ty then .ok (.one y) else .panic
  | .image _, .one (.bytes b) => .ok (.image b)
  | .list T xs, .many vs =>
    if xs.length ≤ vs.length ∧ (vs.take xs.length).all (fun y => y.ty = some T) then .ok (.list T (vs.take xs.length))
    else .panic
  | .list T [], .one _ => .ok (.list T [])
  | _, _ => .panic

/-- read.go:750-751 `tag_map`: the number of the last field with a tag. -/
def fieldNo (all : List (Str × Nat × MVal)) (p : Str) : Nat := ((all.reverse.lookup p).map Prod.fst).getD 0

/-- read.go:750-767: the loop over the tags. -/
def storeFields (all : List (Str × Nat × MVal)) : List (Str × Nat × MVal) → List RV → List MVal → Res (List MVal)
  | [], _, fs => .ok fs
  | _ :: _, [], _ => .panic
  | (p, _) :: ts, v :: vs, fs =>
    match fs[fieldNo all p]? with
    | none => .panic
    | some f => match storeField f v with
      | .ok f' => storeFields all ts vs (fs.set (fieldNo all p) f')
      | .err e => .err e
      | .panic => .panic

/-- What a `ReadMulti` did: its result with the fields after it, the tags of the requests sent. -/
structure MultiRun (α : Type) where
  res : Res α
  log : List (List MTag)
deriving DecidableEq, Repr

/-- read.go:703-769 `ReadMulti` for a pointer to a structure; `fuel` is that of `readList`. -/
def readMulti (fuel conn : Nat) (ioi : Str → Byte → Res Ioi) (tags : List (Option Str)) (direct : List MVal)
    (args : List Str) (replies : List Reply) : Option (MultiRun (List MVal)) :=
  match multiFields direct args 0 tags with
  | .panic => some ⟨.panic, []⟩
  | .err e => some ⟨.err e, []⟩
  | .ok fields =>
    match multiDescs ioi (fields.map fun f => (f.1, f.2.2)) with
    | .panic => some ⟨.panic, []⟩
    | .err e => some ⟨.err e, []⟩
    | .ok descs =>
      match readList fuel conn descs replies with
      | none => none
      | some ⟨.ok vs, log, _⟩ => some ⟨storeFields fields fields vs direct, log⟩
      | some ⟨.err e, log, _⟩ => some ⟨.err e, log⟩
      | some ⟨.panic, log, _⟩ => some ⟨.panic, log⟩

/-- The value put in the map for a result (read.go:1148-1151).  A structure read for an entry of another type was
unpacked as that type (read.go:971-988). -/
def mapValue (old : MVal) : RV → MVal
  | .many vs => .anys vs
  | .one (.bytes b) => match old with
    | .one x => match x.ty with
      | none => .list .u8 (b.map Scal.u8)
      | some T => match readValue (cipOfGo T) b with
        | .ok (y, _) => .one y
        | _ => .image b
    | .list T _ => .list T []
    | _ => .image b
  | .one v => .one v

/-- read.go:1148-1151: `m[indexes[i]] = result_values[i]`; the entries are in the order they were visited. -/
def storeEntries : List (Str × MVal) → List RV → List (Str × MVal)
  | [], _ => []
  | m, [] => m
  | (k, old) :: m, v :: vs => (k, mapValue old v) :: storeEntries m vs

/-- read.go:1107-1154 `ReadMap`; `m` is the map in the order it is visited, `fuel` is that of `readBatches`.  The
paths are built batch by batch; here an error of any of them is taken to come before the first request. -/
def readMap (fuel conn : Nat) (ioi : Str → Byte → Res Ioi) (m : List (Str × MVal)) (replies : List Reply) :
    Option (MultiRun (List (Str × MVal))) :=
  match multiDescs ioi m with
  | .panic => some ⟨.panic, []⟩
  | .err e => some ⟨.err e, []⟩
  | .ok descs =>
    match readBatches fuel conn descs replies with
    | none => none
    | some ⟨.ok vs, log, _⟩ => some ⟨.ok (storeEntries m vs), log⟩
    | some ⟨.err e, log, _⟩ => some ⟨.err e, log⟩
    | some ⟨.panic, log, _⟩ => some ⟨.panic, log⟩

end Gologix
