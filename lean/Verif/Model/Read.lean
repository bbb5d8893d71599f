import Verif.Model.Values
import Verif.Model.Items
/-
Single-tag reads and fragmented reads: read.go (Read, Read_single, read, readArray, readFragmented,
sendFragReadRequest).

The network is a list of replies: each exchange (sendreceive.go `send_recv_data`) takes the next one,
and no reply left stands for a transport error.  The requests sent are returned as a log.
-/
namespace Gologix

/-- A reply as returned by `send_recv_data`: the status of the encapsulation header and the payload. -/
structure Reply where
  status  : BitVec 32
  payload : Bytes
deriving DecidableEq, Repr

/-- A read request as sent by read.go:416-427 (`offset = none`, service 0x4C) and by read.go:1191-1199
(`offset = some _`, service 0x52). -/
structure ReadReq where
  path     : Bytes
  elements : BitVec 16
  offset   : Option (BitVec 32)
deriving DecidableEq, Repr

/-- The data of item 1 of a read request: messages.go:22-26 `msgCIPConnectedServiceReq`, the path, the
element count and (FragRead only) the offset. -/
def ReadReq.bytes (seq : BitVec 16) (r : ReadReq) : Bytes :=
  putBV seq ++ [match r.offset with | none => 0x4C#8 | some _ => 0x52#8] ++
    [BitVec.ofNat 8 (r.path.length / 2)] ++ r.path ++ putBV r.elements ++
    (match r.offset with | none => [] | some o => putBV o)

/-- What `Read_single` returns as `any`: one value or a `[]any`. -/
inductive RV where
  | one (v : Scal)
  | many (vs : List Scal)
deriving DecidableEq, Repr

/-- messages.go:74-80 `msgCIPReadResultData` (`Status` is [reserved, general status, size]). -/
structure ReadHdr where
  service : Byte
  status  : Byte
  typ     : Byte
deriving DecidableEq, Repr

/-- `DeSerialize(&hdr2)`: 8 bytes in one read. -/
def readHdr (d : Bytes) : Res (ReadHdr × Bytes) := do
  let (h, d) ← readN 8 d
  .ok ({ service := h.getD 2 0#8, status := h.getD 4 0#8, typ := h.getD 6 0#8 }, d)

/-- The data of the second of exactly two items (read.go:446-453 and 1214-1220). -/
def secondOfTwo (src : Bytes) : Res Bytes := do
  let (items, _) ← readItems src
  match items with
  | [_, it] => .ok it.data
  | _ => .err .fail

/-- read.go:441-453: the 6-byte result header, whose read error is only logged (the reader is then
empty), the items, and the data of the second. -/
def replyItem (payload : Bytes) : Res Bytes :=
  secondOfTwo (if payload.length < 6 then [] else payload.drop 6)

/-- read.go:1210-1228: the same for a FragRead reply, where a header error is returned. -/
def fragReply (payload : Bytes) : Res (Bytes × Byte) := do
  let (_, d) ← readN 6 payload
  let d ← secondOfTwo d
  let (h, d) ← readHdr d
  .ok (d, h.status)

/-- read.go:1165-1181 `readFragmented`: result, requests sent, replies left. -/
def readFragmented (path : Bytes) (elements : BitVec 16) :
    List Reply → Bytes → Res Bytes × List ReadReq × List Reply
  | [], acc => (.err .fail, [⟨path, elements, some (BitVec.ofNat 32 acc.length)⟩], [])
  | r :: rs, acc =>
    let req : ReadReq := ⟨path, elements, some (BitVec.ofNat 32 acc.length)⟩
    match fragReply r.payload with
    | .err e => (.err e, [req], rs)
    | .panic => (.panic, [req], rs)
    | .ok (d, status) =>
      if status = 0#8 then (.ok (acc ++ d), [req], rs)
      else if status ≠ 0x06#8 then (.err .fail, [req], rs)
      else
        let (res, reqs, rest) := readFragmented path elements rs (acc ++ d)
        (res, req :: reqs, rest)

/-- read.go:497-510 (`cipStringHeader`, then a buffer of `Length` bytes).  The allocation of up to 4 GiB
that the length field may ask for is not modelled. -/
def readString1 (d : Bytes) : Res Scal := do
  let (h, d) ← readN 6 d
  let (s, _) ← readN (unle (h.drop 2)) d
  .ok (.bytes s)

/-- One element of read.go:513-525: header, 82 bytes, `str[:Length]` which panics beyond 82. -/
def readString82 (d : Bytes) : Res (Scal × Bytes) := do
  let (h, d) ← readN 6 d
  let (s, d) ← readN 82 d
  let n := unle (h.drop 2)
  if n ≤ 82 then .ok (.bytes (s.take n), d) else .panic

/-- The loops `for i := 0; i < n; i++` over element readers. -/
def readTimes (f : Bytes → Res (Scal × Bytes)) : Nat → Bytes → Res (List Scal)
  | 0, _ => .ok []
  | n + 1, d => do
    let (v, d) ← f d
    let vs ← readTimes f n d
    .ok (v :: vs)

/-- read.go:494-549: decode the data following the header. -/
def decodeRead (datatype : Byte) (elements : Nat) (bitAccess : Bool) (bitPos : Int) (typ : Byte)
    (d : Bytes) : Res RV :=
  if typ = tStruct then
    if datatype = tSTRING then
      if elements = 1 then do let v ← readString1 d; .ok (.one v)
      else do let vs ← readTimes readString82 elements d; .ok (.many vs)
    else do
      let (_, d) ← readN 2 d
      .ok (.one (.bytes d))
  else if elements = 1 then
    if datatype = tBOOL ∧ typ ≠ tBOOL ∧ bitAccess = true then do
      let (v, _) ← readValue typ d
      let b ← getBit typ v bitPos
      .ok (.one (.bool b))
    else do
      let (v, _) ← readValue typ d
      .ok (.one v)
  else do
    let vs ← readTimes (readValue typ) elements d
    .ok (.many vs)

/-- read.go:401-550 `Read_single` after `newIOI` succeeded.  The status of the encapsulation header is
not looked at. -/
def readSingle (ioi : Ioi) (datatype : Byte) (elements : BitVec 16) (replies : List Reply) :
    Res RV × List ReadReq × List Reply :=
  let req : ReadReq := ⟨ioi.buffer, elements, none⟩
  match replies with
  | [] => (.err .fail, [req], [])
  | r :: rs =>
    match (do let d ← replyItem r.payload; readHdr d) with
    | .err e => (.err e, [req], rs)
    | .panic => (.panic, [req], rs)
    | .ok (h, d) =>
      if h.status = 0x06#8 then
        if h.typ = tStruct then (.err .fail, [req], rs)
        else
          match readFragmented ioi.buffer elements rs d with
          | (.ok merged, reqs, rest) =>
            (decodeRead datatype elements.toNat ioi.bitAccess ioi.bitPosition h.typ merged, req :: reqs, rest)
          | (.err e, reqs, rest) => (.err e, req :: reqs, rest)
          | (.panic, reqs, rest) => (.panic, req :: reqs, rest)
      else if h.status ≠ 0#8 then (.err .fail, [req], rs)
      else (decodeRead datatype elements.toNat ioi.bitAccess ioi.bitPosition h.typ d, [req], rs)

/-- read.go:597-636 `read[T]`, the conversion of the value. -/
def castOne (T : GoTy) : RV → Res Scal
  | .one (.bytes b) => if T = .str then .ok (.str b) else .err .fail
  | .one v => if T ≠ .str ∧ v.ty = some T then .ok v else .err .fail
  | .many _ => .err .fail

/-- One element of read.go:572-592. -/
def castElem (T : GoTy) : Scal → Res Scal
  | .bytes b => if T = .str then .ok (.str b) else .err .fail
  | v => if T ≠ .str ∧ v.ty = some T then .ok v else .err .fail

def castElems (T : GoTy) : List Scal → Res (List Scal)
  | [] => .ok []
  | v :: vs => do
    let v ← castElem T v
    let vs ← castElems T vs
    .ok (v :: vs)

/-- read.go:567-594: only a `[]any` is accepted, which `Read_single` never returns for one element. -/
def castMany (T : GoTy) : RV → Res (List Scal)
  | .one _ => .err .fail
  | .many vs => castElems T vs

/-- read.go:597-636 `read[T]`. -/
def readT (T : GoTy) (ioi : Ioi) (replies : List Reply) : Res Scal :=
  (readSingle ioi (cipOfGo T) 1#16 replies).1 >>= castOne T

/-- read.go:552-595 `readArray[T]`: `t[0]` panics when `elements` is 0. -/
def readArrayT (T : GoTy) (ioi : Ioi) (elements : BitVec 16) (replies : List Reply) :
    Res (List Scal) :=
  if elements = 0#16 then .panic
  else (readSingle ioi (cipOfGo T) elements replies).1 >>= castMany T

/-- read.go:159-310, the slice cases of `Read`: `n` is the length of the caller's slice. -/
def readSliceT (T : GoTy) (ioi : Ioi) (n : Nat) (replies : List Reply) : Res (List Scal) := do
  let v ← readArrayT T ioi (BitVec.ofNat 16 n) replies
  if v.length ≠ n then .err .fail else .ok v

/-- The bits of a word, read.go:140-142 and 152-157. -/
def wordBools : Scal → List Bool
  | .u32 w => (List.range 32).map fun i => maskTest w i
  | _ => []

/-- read.go:129-158, the `[]bool` case of `Read`. -/
def readBools (ioi : Ioi) (n : Nat) (replies : List Reply) : Res (List Bool) :=
  let count := n / 32
  if count * 32 ≠ n then .err .fail
  else if count = 1 then do
    let v ← readT .u32 ioi replies
    .ok (wordBools v)
  else do
    let v ← readArrayT .u32 ioi (BitVec.ofNat 16 count) replies
    if v.length ≠ count then .err .fail
    else .ok (v.map wordBools).flatten

end Gologix
