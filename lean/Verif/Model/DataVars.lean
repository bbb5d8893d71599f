import Verif.Model.DataTable
/-
Variables bound to the tags of a data table, raw reads, and the life of a data table: datatable.go.
-/
namespace Gologix

/-- types.go:22-69 `GoVarToCIPType` for a pointer or a single value. -/
def VTy.cipType : VTy → Byte
  | .go T => cipOfGo T
  | .any => tStruct
  | .other => tStruct

/-- The type of what is given to `AddTagRef`. -/
def refType : Option VRef → Byte
  | some r => r.ty.cipType
  | none => tUnknown

/-- datatable.go:327-358 `AddTagRef`.  A `nil` interface is given as `none`. -/
def addTagRef (E : DEnv) (b : DBuf) (name : Str) (data : Option VRef) : Res Unit × DBuf :=
  if !b.created then (.err .fail, b)
  else
    let t := refType data
    match E.ioi name t with
    | .ok ioi =>
      match resolveTypeSize E name t with
      | .ok size =>
        (.ok (), { b with synched := false, tags := b.tags ++ [
          { name := name, typ := t, size := size, index := BitVec.ofNat 16 (b.tags.length + 1), ioi := ioi,
            batch := 0, synched := false, var := data }] })
      | .err _ => (.err .fail, b)
      | .panic => (.panic, b)
    | .err _ => (.err .fail, b)
    | .panic => (.panic, b)

/-- The variables of the program. -/
abbrev Mem := Nat → Scal

def Mem.set (m : Mem) (id : Nat) (v : Scal) : Mem := fun i => if i = id then v else m i

/-- `AssignableTo` of datatable.go:585. -/
def VTy.takes : VTy → Scal → Bool
  | .go T, v => v.ty = some T
  | .any, _ => true
  | .other, _ => false

/-- datatable.go:576-590 `setGoVar`; line 585 panics for a nil value. -/
def setGoVar (r : VRef) (v : Scal) (mem : Mem) : Res Mem :=
  if !r.ptr then .err .fail
  else if v = .nil then .panic
  else if !r.ty.takes v then .err .fail
  else .ok (mem.set r.id v)

/-- datatable.go:537-571: the loop over the sorted tags. -/
def readTagsV : List DTag → BitVec 16 → Bytes → List (Str × Scal) → Mem → Res (List (Str × Scal)) × Mem
  | [], _, _, m, mem => (.ok m, mem)
  | t :: ts, cur, d, m, mem =>
    match (if t.batch ≠ cur then do
        let (_, d) ← getU 2 d
        .ok d
      else .ok d) with
    | .err e => (.err e, mem)
    | .panic => (.panic, mem)
    | .ok d =>
      if d.length < t.size.toNat then (.err .fail, mem)
      else match decodeDataTable t.typ (d.take t.size.toNat) with
        | .err e => (.err e, mem)
        | .panic => (.panic, mem)
        | .ok v =>
          match t.var with
          | none => readTagsV ts t.batch (d.drop t.size.toNat) (mapPut m t.name v) mem
          | some r =>
            match setGoVar r v mem with
            | .ok mem => readTagsV ts t.batch (d.drop t.size.toNat) (mapPut m t.name v) mem
            | .err e => (.err e, mem)
            | .panic => (.panic, mem)

/-- datatable.go:510-574 `ReadAll`. -/
def readAllV (W : DWorld) (b : DBuf) (mem : Mem) : Res (List (Str × Scal)) × DBuf × Mem :=
  if !b.created then (.err .fail, b, mem)
  else if b.tags = [] then (.err .fail, b, mem)
  else match (if b.synched then (.ok (), b) else syncTags W.addNet W.seq1 b) with
    | (.ok (), b) =>
      match (W.readNet (genericRequest W.seq2 0x4C#8 (dataTablePath b.inst) [])).bind fun r =>
          genericReply 0x4C#8 r with
      | .ok d =>
        let (res, mem) := readTagsV (W.sort b.tags) 0 d [] mem
        (res, b, mem)
      | .err e => (.err e, b, mem)
      | .panic => (.panic, b, mem)
    | (.err e, b) => (.err e, b, mem)
    | (.panic, b) => (.panic, b, mem)

/-- A field of a tagged structure: one variable, a slice (its elements are variables), or a field that is not
exported, on which `Interface` panics (datatable.go:789). -/
inductive FVal where
  | one (ty : VTy) (id : Nat)
  | slice (T : GoTy) (id : Nat) (elems : List Nat)
  | hidden
deriving DecidableEq, Repr

/-- datatable.go:782-810: the loop over the visible fields, from field `i` on.  `direct` are the fields of the
structure itself (line 788 takes the field number `i` of those); `addr` tells whether a pointer to the structure was
given, without which `Addr` panics.  Slices of booleans are of type Struct to `GoVarToCIPType`. -/
def taggedFields (addr : Bool) (direct : List FVal) (args : List Str) :
    Nat → List (Option Str) → List (Str × List Str) → List (Str × Byte) → List (Str × VRef) →
    Res (List (Str × List Str) × List (Str × Byte) × List (Str × VRef))
  | _, [], ex, m, ps => .ok (ex, m, ps)
  | i, tag :: rest, ex, m, ps =>
    match tag with
    | none => taggedFields addr direct args (i + 1) rest ex m ps
    | some [] => taggedFields addr direct args (i + 1) rest ex m ps
    | some tag =>
      let path := formatName tag args
      match direct[i]? with
      | none => .panic
      | some .hidden => .panic
      | some (.one ty id) =>
        if !addr then .panic
        else taggedFields addr direct args (i + 1) rest (mapPut ex path [path]) (mapPut m path ty.cipType)
          (mapPut ps path ⟨true, id, ty⟩)
      | some (.slice T id elems) =>
        if T = .bool ∨ elems.length ≤ 1 then
          if !addr then .panic
          else taggedFields addr direct args (i + 1) rest (mapPut ex path [path])
            (mapPut m path (if T = .bool then tStruct else cipOfGo T)) (mapPut ps path ⟨true, id, .other⟩)
        else
          let names := expandArrayTag path elems.length
          taggedFields addr direct args (i + 1) rest (mapPut ex path names)
            (names.foldl (fun m n => mapPut m n (cipOfGo T)) m)
            ((names.zip elems).foldl (fun ps e => mapPut ps e.1 ⟨true, e.2, .go T⟩) ps)

/-- datatable.go:817-821: every tag of a name in the map gets the pointer of that name. -/
def bindVars (ps : List (Str × VRef)) (t : DTag) : DTag :=
  match ps.lookup t.name with
  | some r => { t with var := some r }
  | none => t

/-- datatable.go:760-824 `AddTaggedStruct`: `tags` are the `gologix` tags of the visible fields; `ord` is the order
in which the map is visited. -/
def addTaggedStruct (E : DEnv) (ord : List (Str × Byte) → List (Str × Byte)) (b : DBuf) (addr : Bool)
    (tags : List (Option Str)) (direct : List FVal) (args : List Str) : Res Unit × DBuf :=
  if !b.created then (.err .fail, b)
  else match taggedFields addr direct args 0 tags b.expansions [] [] with
    | .ok (ex, m, ps) =>
      match addTags E { b with expansions := ex } (ord m) with
      | (.ok (), b) => (.ok (), { b with tags := b.tags.map (bindVars ps) })
      | (.err e, b) => (.err e, b)
      | (.panic, b) => (.panic, b)
    | .err e => (.err e, b)
    | .panic => (.panic, b)

/-- datatable.go:624-643: the loop of `ReadAllRaw`. -/
def readTagsRaw : List DTag → BitVec 16 → Bytes → List (Str × Bytes) → Res (List (Str × Bytes))
  | [], _, _, m => .ok m
  | t :: ts, cur, d, m => do
    let d ← if t.batch ≠ cur then do
        let (_, d) ← getU 2 d
        .ok d
      else .ok d
    if d.length < t.size.toNat then .err .fail
    else readTagsRaw ts t.batch (d.drop t.size.toNat) (mapPut m t.name (d.take t.size.toNat))

/-- datatable.go:598-646 `ReadAllRaw`. -/
def readAllRaw (W : DWorld) (b : DBuf) : Res (List (Str × Bytes)) × DBuf :=
  if !b.created then (.err .fail, b)
  else if b.tags = [] then (.err .fail, b)
  else match (if b.synched then (.ok (), b) else syncTags W.addNet W.seq1 b) with
    | (.ok (), b) =>
      ((W.readNet (genericRequest W.seq2 0x4C#8 (dataTablePath b.inst) [])).bind fun r => do
        let d ← genericReply 0x4C#8 r
        readTagsRaw (W.sort b.tags) 0 d [], b)
    | (.err e, b) => (.err e, b)
    | (.panic, b) => (.panic, b)

/-- datatable.go:138-158 `CreateDataTableBuffer` and 310-322 `NewDataTableBuffer`; `net` is the exchange. -/
def newDataTable (net : Bytes → Res Reply) (seq : BitVec 16) : Res DBuf :=
  (net (genericRequest seq 0x08#8 (dataTablePath 0) [0x01#8, 0#8, 0x03#8, 0#8, 0x03#8, 0#8])).bind fun r => do
    let d ← genericReply 0x08#8 r
    let (id, _) ← getU 2 d
    .ok (DBuf.new (BitVec.ofNat 16 id))

/-- datatable.go:678-688 `Close` (162-175 `DeleteDataTableBuffer`): the result, the requests sent, the buffer. -/
def closeDataTable (net : Bytes → Res Reply) (seq : BitVec 16) (b : DBuf) : Res Unit × List Bytes × DBuf :=
  if !b.created then (.ok (), [], b)
  else
    let req := genericRequest seq 0x09#8 (dataTablePath b.inst) []
    match (net req).bind (genericReply 0x09#8) with
    | .ok _ => (.ok (), [req], { b with created := false })
    | .err _ => (.err .fail, [req], { b with created := false })
    | .panic => (.panic, [req], b)

end Gologix
