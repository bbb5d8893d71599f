import Verif.Model.Listing
import Verif.Model.Values
/-
Data table buffers: datatable.go, and tag groups: taggroup.go.

Variables bound to tags are in DataVars.lean.  The accessors of `TagGroupResult` are in
TagGroupRead.lean.  Not modelled: `checkConnection`.
-/
namespace Gologix

/-- What a variable can hold: a value of one of `GoLogixTypes`, any value (`any`), or something else (slices,
arrays, structures, other named types), to which no value of a tag can be assigned. -/
inductive VTy where
  | go (T : GoTy)
  | any
  | other
deriving DecidableEq, Repr

/-- The `Var` of a tag: whether it is a pointer that is not nil, which variable it points to, and its type. -/
structure VRef where
  ptr : Bool
  id  : Nat
  ty  : VTy
deriving DecidableEq, Repr

/-- datatable.go:14-23 `DataTableBufferTag`. -/
structure DTag where
  name    : Str
  typ     : Byte
  size    : BitVec 16
  index   : BitVec 16
  ioi     : Bytes
  batch   : BitVec 16
  synched : Bool
  var     : Option VRef := none
deriving DecidableEq, Repr

/-- datatable.go:37-48 `DataTableBuffer`. -/
structure DBuf where
  inst       : BitVec 16
  tags       : List DTag
  expansions : List (Str × List Str)
  created    : Bool
  synched    : Bool
deriving DecidableEq, Repr

/-- What registering a tag takes from the client: the path `newIOI` builds (C08-C11) and the size of the
known tag's structure, by name in lower case. -/
structure DEnv where
  ioi     : Str → Byte → Res Bytes
  udtSize : Str → Option (BitVec 32)

/-- datatable.go:315-321. -/
def DBuf.new (inst : BitVec 16) : DBuf :=
  { inst := inst, tags := [], expansions := [], created := true, synched := false }

/-- datatable.go:62-66 `dataTablePath`. -/
def dataTablePath (inst : BitVec 16) : Bytes := [0x20#8, 0xB2#8, 0x25#8, 0#8] ++ putBV inst

/-- datatable.go:74-87 `dataTableTypeSize`. -/
def dataTableTypeSize (t : Byte) : Res (BitVec 16) :=
  if t = tSTRING then .ok 88
  else if t = tStruct then .ok 88
  else if cipSize t = 0 then .err .fail
  else .ok (BitVec.ofNat 16 (cipSize t))

/-- datatable.go:96-104 `resolveTypeSize`. -/
def resolveTypeSize (E : DEnv) (name : Str) (t : Byte) : Res (BitVec 16) :=
  if t = tSTRING ∨ t = tStruct then
    match E.udtSize (toLower name) with
    | some n => if 0 < n.toNat then .ok (n.setWidth 16) else dataTableTypeSize t
    | none => dataTableTypeSize t
  else dataTableTypeSize t

/-- datatable.go:111-127 `decodeDataTableValue`. -/
def decodeDataTable (t : Byte) (raw : Bytes) : Res Scal :=
  if t = tSTRING ∨ t = tStruct then
    if raw.length < 4 then .err .fail
    else
      let n := unle (raw.take 4)
      let n := if raw.length - 4 < n then raw.length - 4 else n
      let n := if 82 < n then 82 else n
      .ok (.str ((raw.drop 4).take n))
  else do
    let (v, _) ← readValue t raw
    .ok v

/-- getattr.go:427-443: the data of item 1 of a request of `GenericCIPMessage`. -/
def genericRequest (seq : BitVec 16) (svc : Byte) (path data : Bytes) : Bytes :=
  putBV seq ++ [svc, pathLengthOf path] ++ path ++ data

/-- datatable.go:365-393 `AddTag`. -/
def addTag (E : DEnv) (b : DBuf) (name : Str) (t : Byte) : Res Unit × DBuf :=
  if !b.created then (.err .fail, b)
  else match E.ioi name t with
    | .ok ioi =>
      match resolveTypeSize E name t with
      | .ok size =>
        (.ok (), { b with synched := false, tags := b.tags ++ [
          { name := name, typ := t, size := size, index := BitVec.ofNat 16 (b.tags.length + 1), ioi := ioi,
            batch := 0, synched := false }] })
      | .err _ => (.err .fail, b)
      | .panic => (.panic, b)
    | .err _ => (.err .fail, b)
    | .panic => (.panic, b)

/-- datatable.go:439-454, 466-477: the loop preparing the tags and the records appended for them; `i` is the
index of the first. -/
def prepareTags (E : DEnv) (i : BitVec 16) : List (Str × Byte) → Res (List DTag)
  | [] => .ok []
  | (name, t) :: rest =>
    match E.ioi name t with
    | .ok ioi =>
      match resolveTypeSize E name t with
      | .ok size =>
        match prepareTags E (i + 1) rest with
        | .ok ts => .ok ({ name := name, typ := t, size := size, index := i, ioi := ioi, batch := 0,
                           synched := false } :: ts)
        | .err e => .err e
        | .panic => .panic
      | .err _ => .err .fail
      | .panic => .panic
    | .err _ => .err .fail
    | .panic => .panic

/-- datatable.go:425-481 `AddTags`; `tags` is the map in the order the loop visits it. -/
def addTags (E : DEnv) (b : DBuf) (tags : List (Str × Byte)) : Res Unit × DBuf :=
  if !b.created then (.err .fail, b)
  else match prepareTags E (BitVec.ofNat 16 (b.tags.length + 1)) tags with
    | .ok ts => (.ok (), { b with tags := b.tags ++ ts, synched := false })
    | .err e => (.err e, b)
    | .panic => (.panic, b)

/-- datatable.go:220-229: one entry of an add request. -/
def addEntry (t : DTag) : Bytes := putBV t.size ++ [BitVec.ofNat 8 (t.ioi.length / 2)] ++ t.ioi

/-- datatable.go:399-405: the tags not sent yet. -/
def DBuf.pending (b : DBuf) : List DTag := b.tags.filter fun t => !t.synched

/-- datatable.go:208-229: the data of an add request. -/
def addData (ts : List DTag) : Bytes :=
  [0x02#8, 0x00#8, 0x01#8, 0x01#8] ++ [BitVec.ofNat 8 ts.length] ++ (ts.map addEntry).flatten

/-- datatable.go:411-414: the tags sent get the number of the batch. -/
def markSynched (id : BitVec 16) (t : DTag) : DTag := if t.synched then t else { t with batch := id, synched := true }

/-- datatable.go:398-417 `SyncTags`; `net` is the exchange. -/
def syncTags (net : Bytes → Res Reply) (seq : BitVec 16) (b : DBuf) : Res Unit × DBuf :=
  match (net (genericRequest seq 0x4E#8 (dataTablePath b.inst) (addData b.pending))).bind fun r => do
      let d ← genericReply 0x4E#8 r
      getU 2 d with
  | .ok (id, _) => (.ok (), { b with tags := b.tags.map (markSynched (BitVec.ofNat 16 id)), synched := true })
  | .err _ => (.err .fail, b)
  | .panic => (.panic, b)

/-- datatable.go:537-571: the loop over the sorted tags, when no variables are bound to them. -/
def readTags : List DTag → BitVec 16 → Bytes → List (Str × Scal) → Res (List (Str × Scal))
  | [], _, _, m => .ok m
  | t :: ts, cur, d, m => do
    let d ← if t.batch ≠ cur then do
        let (_, d) ← getU 2 d
        .ok d
      else .ok d
    if d.length < t.size.toNat then .err .fail
    else
      let v ← decodeDataTable t.typ (d.take t.size.toNat)
      readTags ts t.batch (d.drop t.size.toNat) (mapPut m t.name v)

/-- The world of a read: the two exchanges (adding, reading), their sequence numbers, and what `sort.Slice`
does, which is not specified for equal indices. -/
structure DWorld where
  addNet  : Bytes → Res Reply
  readNet : Bytes → Res Reply
  seq1    : BitVec 16
  seq2    : BitVec 16
  sort    : List DTag → List DTag

/-- datatable.go:510-574 `ReadAll`, when no variables are bound to the tags. -/
def readAll (W : DWorld) (b : DBuf) : Res (List (Str × Scal)) × DBuf :=
  if !b.created then (.err .fail, b)
  else if b.tags = [] then (.err .fail, b)
  else match (if b.synched then (.ok (), b) else syncTags W.addNet W.seq1 b) with
    | (.ok (), b) =>
      ((W.readNet (genericRequest W.seq2 0x4C#8 (dataTablePath b.inst) [])).bind fun r => do
        let d ← genericReply 0x4C#8 r
        readTags (W.sort b.tags) 0 d [], b)
    | (.err e, b) => (.err e, b)
    | (.panic, b) => (.panic, b)

/-- datatable.go:655-661: the first tag of a name. -/
def DBuf.find (b : DBuf) (name : Str) : Option Nat := b.tags.findIdx? fun t => t.name = name

/-- datatable.go:650-673 `RemoveTag`; `net` is the exchange. -/
def removeTag (net : Bytes → Res Reply) (seq : BitVec 16) (b : DBuf) (name : Str) : Res Unit × DBuf :=
  if !b.created then (.err .fail, b)
  else match b.find name with
    | none => (.err .fail, b)
    | some i =>
      let index := ((b.tags[i]?).map (·.index)).getD 0
      match (net (genericRequest seq 0x4F#8 (dataTablePath b.inst) (putBV index))).bind (genericReply 0x4F#8) with
      | .ok _ => (.ok (), { b with tags := b.tags.eraseIdx i })
      | .err _ => (.err .fail, b)
      | .panic => (.panic, b)

/-! ### Tag groups -/

/-- taggroup.go:10-14 `TagDef`. -/
structure TagDef where
  name     : Str
  typ      : Byte
  elements : Int
deriving DecidableEq, Repr

/-- taggroup.go:25-34 `NewTagGroup`. -/
def newTagGroup (defs : List TagDef) : List TagDef :=
  defs.map fun d => if d.elements ≤ 0 then { d with elements := 1 } else d

/-- `strings.ReplaceAll(s, old, new)` for a non-empty `old`. -/
def replaceAllAux (old new : Str) : Nat → Str → Str
  | 0, s => s
  | _ + 1, [] => []
  | f + 1, c :: cs =>
    if old.isPrefixOf (c :: cs) then new ++ replaceAllAux old new f ((c :: cs).drop old.length)
    else c :: replaceAllAux old new f cs

def replaceAll (old new s : Str) : Str := replaceAllAux old new (s.length + 1) s

/-- taggroup.go:48: the placeholder of argument `i`. -/
def placeholder (i : Nat) : Str := [0x7B#8] ++ dec i ++ [0x7D#8]

/-- taggroup.go:45-52 `formatName` from argument `i` on; the arguments are given as `%v` prints them. -/
def formatFrom : Nat → List Str → Str → Str
  | _, [], s => s
  | i, a :: as, s => formatFrom (i + 1) as (replaceAll (placeholder i) a s)

def formatName (template : Str) (args : List Str) : Str := formatFrom 0 args template

/-- `%d` of an `int`. -/
def decInt (z : Int) : Str := if z < 0 then 0x2D#8 :: dec z.natAbs else dec z.natAbs

/-- `strings.LastIndex(s, "[")` and the text before it. -/
def beforeBracket (s : Str) : Option Str :=
  match s.reverse.dropWhile (· ≠ 0x5B#8) with
  | [] => none
  | _ :: r => some r.reverse

/-- `int` arithmetic wraps. -/
def wrapInt (z : Int) : Int := (z + 2 ^ 63) % 2 ^ 64 - 2 ^ 63

/-- taggroup.go:121-161 `expandArrayTag`. -/
def expandArrayTag (base : Str) (count : Int) : List Str :=
  if count ≤ 1 then [base]
  else
    let n := count.toNat
    let (tag, ok) := parseTagName base
    match ok, tag.arrayOrder.getLast?, beforeBracket base with
    | true, some last, some pre =>
      (List.range n).map fun i =>
        pre ++ [0x5B#8] ++ joinWith 0x2C#8 ((tag.arrayOrder.dropLast.map decInt) ++ [decInt (wrapInt (last + (i : Nat)))]) ++
          [0x5D#8]
    | _, _, _ => List.replicate n base

/-- datatable.go:718-731: the loop over the definitions; the expansions and the map of tags. -/
def expandDefs (args : List Str) : List TagDef → List (Str × List Str) → List (Str × Byte) →
    List (Str × List Str) × List (Str × Byte)
  | [], ex, m => (ex, m)
  | d :: ds, ex, m =>
    let base := formatName d.name args
    let names := if d.elements > 1 then expandArrayTag base d.elements else [base]
    expandDefs args ds (mapPut ex base names) (names.foldl (fun m n => mapPut m n d.typ) m)

/-- datatable.go:710-734 `AddTagGroup`; `ord` is the order in which the map is visited. -/
def addTagGroup (E : DEnv) (ord : List (Str × Byte) → List (Str × Byte)) (b : DBuf) (group : List TagDef)
    (args : List Str) : Res Unit × DBuf :=
  if !b.created then (.err .fail, b)
  else
    let (ex, m) := expandDefs args group b.expansions []
    addTags E { b with expansions := ex } (ord m)

/-- The values of a `TagGroupResult`: as read, or a slice. -/
inductive GVal where
  | one (v : Scal)
  | many (vs : List Scal)
deriving DecidableEq, Repr

/-- datatable.go:856-863: the values of the elements. -/
def collapse (raw : List (Str × Scal)) : List Str → Res (List Scal)
  | [] => .ok []
  | n :: ns =>
    match raw.lookup n with
    | none => .err .fail
    | some v => match collapse raw ns with
      | .ok vs => .ok (v :: vs)
      | .err e => .err e
      | .panic => .panic

/-- datatable.go:852-874: the loop over the expansions. -/
def collapseAll (raw : List (Str × Scal)) : List (Str × List Str) → List (Str × GVal) → Res (List (Str × GVal))
  | [], m => .ok m
  | (base, names) :: rest, m =>
    match collapse raw names with
    | .ok vs =>
      match vs with
      | [] => collapseAll raw rest m
      | [v] => collapseAll raw rest (mapPut m base (.one v))
      | vs => collapseAll raw rest (mapPut m base (.many vs))
    | .err e => .err e
    | .panic => .panic

/-- datatable.go:835-884 `ReadAllTyped`, what it does with the values. -/
def typedResult (raw : List (Str × Scal)) (ex : List (Str × List Str)) : Res (List (Str × GVal)) :=
  match collapseAll raw ex [] with
  | .ok m =>
    .ok ((raw.filter fun e => !(ex.any fun x => x.2.contains e.1)).foldl (fun m e => mapPut m e.1 (.one e.2)) m)
  | .err e => .err e
  | .panic => .panic

/-- taggroup.go:57-116 `zeroValueForTagDef`: the type `ReadMap` reads a tag as, by CIP type and whether more
than one element is read. -/
def zeroType (t : Byte) (many : Bool) : GoTy :=
  if t = tBOOL then .bool
  else if t = tSINT then .i8
  else if t = tBYTE ∨ t = tUSINT then .u8
  else if t = tINT then .i16
  else if t = tUINT then .u16
  else if t = tWORD ∧ many = false then .u16
  else if t = tDINT then .i32
  else if t = tUDINT ∨ t = tDWORD then .u32
  else if t = tLINT then .i64
  else if t = tLWORD ∨ t = tULINT then .u64
  else if t = tREAL then .f32
  else if t = tLREAL then .f64
  else if t = tSTRING then .str
  else .i32

end Gologix
