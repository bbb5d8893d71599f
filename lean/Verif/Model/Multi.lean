import Verif.Model.Read
/-
Multi-service requests: read.go (readList, ReadMap), partialread.go (ReadList, countIOIsThatFit).

As in `Verif.Model.Read`, an exchange takes the next reply of a list, and the requests sent are
returned as a log: here the tags of each request.
-/
namespace Gologix

/-- What read.go:974-988 unpacks a structure into: `tagDesc.Struct`. -/
inductive Dest where
  | untyped             -- nil
  | sized (n : Nat)     -- a value of `n` bytes for `encoding/binary`
  | unsized             -- a value `encoding/binary` refuses
deriving DecidableEq, Repr

/-- read.go:770-775 `tagDesc` with the IOI `newIOI` built for its name.  A list with a name that does not
parse is refused before anything is sent, so it has no counterpart here.  `elements` is a
non-negative `int`. -/
structure MTag where
  ioi      : Ioi
  typ      : Byte
  elements : Nat
  dest     : Dest
deriving DecidableEq, Repr

/-- One embedded read request, read.go:807-822. -/
def MTag.entry (t : MTag) : Bytes :=
  [0x4C#8, BitVec.ofNat 8 (t.ioi.buffer.length / 2)] ++ t.ioi.buffer ++ putBV (BitVec.ofNat 16 t.elements)

/-- The jump table of read.go:803-806 and udt_write.go:163-166; `blen` is `b.Len()`. -/
def jumpTable (start : Nat) : Nat → List Bytes → List (BitVec 16)
  | _, [] => []
  | blen, e :: es => BitVec.ofNat 16 (start + blen) :: jumpTable start (blen + e.length) es

/-- The data of item 1 of a multi-service request: read.go:792-798, 846-847 and udt_write.go:152-158,
200-201. -/
def multiBytes (seq : BitVec 16) (entries : List Bytes) : Bytes :=
  putBV seq ++ [0x0A#8, 0x02#8, 0x20#8, 0x02#8, 0x24#8, 0x01#8] ++
    putBV (BitVec.ofNat 16 entries.length) ++
    ((jumpTable (2 + entries.length * 2) 0 entries).map putBV).flatten ++ entries.flatten

/-- The data of item 1 of the request for `tags`. -/
def readListBytes (seq : BitVec 16) (tags : List MTag) : Bytes := multiBytes seq (tags.map MTag.entry)

/-- read.go:824-829: the index at which the list is split, if it is. -/
def splitIndex (conn : Nat) : Nat → Nat → List MTag → Option Nat
  | _, _, [] => none
  | i, blen, t :: ts =>
    if blen + t.entry.length + 2 + 2 + 2 > conn then some i
    else splitIndex conn (i + 1) (blen + t.entry.length) ts

/-- The second of exactly two items (read.go:875-882). -/
def secondItem (src : Bytes) : Res Item := do
  let (items, _) ← readItems src
  match items with
  | [_, it] => .ok it
  | _ => .err .fail

/-- The item getters `Uint16` and `Byte` (items.go:111-140) on the data not yet read. -/
def getU (k : Nat) (d : Bytes) : Res (Nat × Bytes) :=
  if d.length < k then .err .fail else .ok (unle (d.take k), d.drop k)

/-- read.go:939-1021: the value of one embedded reply. -/
def multiValue (t : MTag) (typ : Byte) (d : Bytes) : Res RV :=
  if t.elements = 1 then
    if t.typ = tBOOL ∧ typ ≠ tBOOL ∧ t.ioi.bitAccess = true then do
      let (v, _) ← readValue typ d
      match getBit typ v t.ioi.bitPosition with
      | .ok b => .ok (.one (.bool b))
      | .err _ => .ok (.one .nil)
      | .panic => .panic
    else if t.typ = tSTRING then do
      let (h, d) ← readN 6 d
      let (s, _) ← readN (unle (h.drop 2)) d
      .ok (.one (.str s))
    else if typ = tStruct then do
      let (_, d) ← readN 2 d
      match t.dest with
      | .untyped => .ok (.one (.bytes d))
      | .sized n => do
        let (x, _) ← readN n d
        .ok (.one (.bytes x))
      | .unsized => .err .fail
    else do
      let (v, _) ← readValue typ d
      .ok (.one v)
  else if t.typ = tSTRING then do
    let vs ← readTimes (fun d => do
      let (v, d) ← readString82 d
      match v with
      | .bytes s => .ok (.str s, d)
      | v => .ok (v, d)) t.elements d
    .ok (.many vs)
  else do
    let vs ← readTimes (readValue typ) t.elements d
    .ok (.many vs)

/-- read.go:925-938, then the value.  `tags[i]` panics beyond the list, in the error text as well. -/
def multiEntry (tag : Option MTag) (rb : Bytes) (off : BitVec 16) : Res RV :=
  let o := (off + 10#16).toNat
  if rb.length < o then .panic
  else do
    let (h, d) ← readN 6 (rb.drop o)
    if h.getD 0 0#8 &&& 0x80#8 = 0#8 then .err .fail
    else match tag with
      | none => .panic
      | some t =>
        if unle ((h.drop 2).take 2) ≠ 0 then .err .fail
        else multiValue t (h.getD 4 0#8) d

/-- The loop of read.go:924-1024. -/
def multiEntries (rb : Bytes) : List MTag → List (BitVec 16) → Res (List RV)
  | _, [] => .ok []
  | tags, off :: offs => do
    let v ← multiEntry tags.head? rb off
    let vs ← multiEntries rb tags.tail offs
    .ok (v :: vs)

/-- `binary.Read` into a slice of `uint16`. -/
def unU16s : Bytes → List (BitVec 16)
  | a :: b :: r => (b ++ a) :: unU16s r
  | _ => []

/-- read.go:864-1026: what the reply of an exchange turns into. -/
def multiReply (tags : List MTag) (r : Reply) : Res (List RV) :=
  if r.status ≠ 0 then .err .fail
  else do
    let it ← secondItem (if r.payload.length < 6 then [] else r.payload.drop 6)
    let (_, d) ← getU 2 it.data
    let (_, d) ← getU 1 d
    let (_, d) ← getU 1 d
    let (status, d) ← getU 2 d
    if status ≠ 0 then .err .fail
    else do
      let (count, d) ← getU 2 d
      let (tab, _) ← readN (2 * count) d
      multiEntries it.bytes tags (unU16s tab)

/-- What a `readList` call did: its result, the tags of the requests sent, the replies left. -/
structure ListRun where
  res  : Res (List RV)
  log  : List (List MTag)
  rest : List Reply
deriving DecidableEq, Repr

/-- read.go:849-1026: send the request for `tags` and use the reply. -/
def exchangeList (tags : List MTag) : List Reply → ListRun
  | [] => ⟨.err .fail, [tags], []⟩
  | r :: rs => ⟨multiReply tags r, [tags], rs⟩

/-- read.go:777-1028 `readList`.  The first argument bounds the depth of the recursion; `none` means that
it was exceeded. -/
def readList : Nat → Nat → List MTag → List Reply → Option ListRun
  | 0, _, _, _ => none
  | fuel + 1, conn, tags, replies =>
    match splitIndex conn 0 0 tags with
    | some i =>
      match readList fuel conn (tags.take i) replies with
      | none => none
      | some ⟨.ok v0, log0, rest0⟩ =>
        match readList fuel conn (tags.drop i) rest0 with
        | none => none
        | some ⟨.ok v1, log1, rest1⟩ => some ⟨.ok (v0 ++ v1), log0 ++ log1, rest1⟩
        | some ⟨res, log1, rest1⟩ => some ⟨res, log0 ++ log1, rest1⟩
      | some run => some run
    | none => some (exchangeList tags replies)

/-- The loop of partialread.go:119-158. -/
def countFitLoop (conn : Nat) : Nat → Nat → Nat → Nat → List MTag → Nat
  | _, n, _, _, [] => n
  | i, n, blen, resp, t :: ts =>
    let newSize := 10 + 2 * n + blen + (2 + t.ioi.buffer.length + 2)
    let resp' := resp + cipSize t.typ * t.elements
    if newSize ≥ conn ∨ resp' ≥ conn then n
    else countFitLoop conn (i + 1) (i + 1) (blen + (2 + t.ioi.buffer.length + 2)) resp' ts

/-- partialread.go:91-164 `countIOIsThatFit`. -/
def countFit (conn : Nat) (tags : List MTag) : Nat := countFitLoop conn 0 1 0 0 tags

/-- The loops of partialread.go:71-85 `ReadList` and read.go:1133-1146 `ReadMap`.  The first argument
bounds the depth, as in `readList`. -/
def readBatches : Nat → Nat → List MTag → List Reply → Option ListRun
  | 0, _, _, _ => none
  | fuel + 1, conn, tags, replies =>
    if tags = [] then some ⟨.ok [], [], replies⟩
    else
      let n := countFit conn tags
      match readList fuel conn (tags.take n) replies with
      | none => none
      | some ⟨.ok v0, log0, rest0⟩ =>
        match readBatches fuel conn (tags.drop n) rest0 with
        | none => none
        | some ⟨.ok v1, log1, rest1⟩ => some ⟨.ok (v0 ++ v1), log0 ++ log1, rest1⟩
        | some ⟨res, log1, rest1⟩ => some ⟨res, log0 ++ log1, rest1⟩
      | some run => some run

end Gologix
