import Verif.Model.Multi
/-
Writes and attribute requests: write.go, udt_write.go, getattr.go; the reply checks of connect.go.

Each operation is split into the request it builds and what it makes of the reply.
-/
namespace Gologix

/-- A value to be written: a scalar, or a slice of `GoLogixTypes` elements. -/
inductive WVal where
  | one (v : Scal)
  | many (T : GoTy) (vs : List Scal)
deriving DecidableEq, Repr

/-- The CIP type of a value, types.go:22-69 `GoVarToCIPType` (first result). -/
def WVal.cipType : WVal → Byte
  | .one v => match v.ty with
    | some T => cipOfGo T
    | none => tUnknown
  | .many T _ => if T = .bool then tStruct else cipOfGo T

/-- messages.go:37-53 `msgCIPWriteIOIFooter.Bytes`. -/
def writeFooter (typ : Byte) (elements : BitVec 16) : Bytes :=
  if typ = tSTRING then [0xA0#8, 0x02#8, 0xCE#8, 0x0F#8] ++ putBV elements
  else [typ, 0#8] ++ putBV elements

/-- write.go:221-268 `write_single`: the data of item 1. -/
def writeBytes (seq : BitVec 16) (ioi : Ioi) (v : WVal) : Bytes :=
  let elements : BitVec 16 := match v with
    | .one _ => 1#16
    | .many _ vs => BitVec.ofNat 16 vs.length
  putBV seq ++ [0x4D#8, BitVec.ofNat 8 (ioi.buffer.length / 2)] ++ ioi.buffer ++
    writeFooter v.cipType elements ++
    (match v with
      | .one x => x.encode
      | .many _ vs => encodeSlice vs)

/-- write.go:116-180 `write_udt`: the data of item 1, given the type checksum and the packed value. -/
def writeUdtBytes (seq : BitVec 16) (ioi : Ioi) (crc : BitVec 16) (packed : Bytes) : Bytes :=
  putBV seq ++ [0x4D#8, BitVec.ofNat 8 (ioi.buffer.length / 2)] ++ ioi.buffer ++
    ([tStruct, 2#8] ++ putBV crc ++ putBV 1#16) ++ packed

/-- `items[1]` of the items in a reader; the index panics when there are fewer. -/
def item1 (src : Bytes) : Res Bytes := do
  let (items, _) ← readItems src
  match items with
  | _ :: it :: _ => .ok it.data
  | _ => .panic

/-- The reader after a result header whose read error is only logged. -/
def afterHeader (payload : Bytes) : Bytes := if payload.length < 6 then [] else payload.drop 6

/-- write.go:185-215 and 274-302: the reply of `write_udt` and `write_single`. -/
def writeReply (r : Reply) : Res Unit :=
  if r.status ≠ 0 then .err .fail
  else do
    let d ← item1 (afterHeader r.payload)
    let (h, _) ← readN 6 d
    if h.getD 4 0#8 ≠ 0#8 then .err .fail else .ok ()

/-- pack.go:57-92 `Serialize` of one value: `[]string` has no case of its own and is refused by
`binary.Write`; `nil` matches no case and writes nothing. -/
def WVal.serialize : WVal → Res Bytes
  | .one v => .ok v.encode
  | .many T vs => if T = .str then .err .fail else .ok (vs.map Scal.encode).flatten

/-- One embedded write of udt_write.go:164-195; the element count is always 1. -/
def writeMapEntry (ioi : Ioi) (v : WVal) : Res Bytes := do
  let b ← v.serialize
  .ok ([0x4D#8, BitVec.ofNat 8 (ioi.buffer.length / 2)] ++ ioi.buffer ++ writeFooter v.cipType 1#16 ++ b)

def writeMapEntries : List (Ioi × WVal) → Res (List Bytes)
  | [] => .ok []
  | (ioi, v) :: es => do
    let b ← writeMapEntry ioi v
    let bs ← writeMapEntries es
    .ok (b :: bs)

/-- udt_write.go:127-203 `WriteMap`: the data of item 1, for the entries in the order the map was
iterated. -/
def writeMapBytes (seq : BitVec 16) (es : List (Ioi × WVal)) : Res Bytes := do
  let bs ← writeMapEntries es
  .ok (multiBytes seq bs)

/-- udt_write.go:213-223: the reply is not looked at. -/
def writeMapReply (_ : Reply) : Res Unit := .ok ()

/-- getattr.go:143-162, the reply of `GetAttrSingle`: the unread rest of the item.  The status is read and
not looked at. -/
def getAttrSingleReply (r : Reply) : Res Bytes := do
  let d ← item1 (afterHeader r.payload)
  let (_, d) ← readN 6 d
  .ok d

/-- getattr.go:283-316, the reply of `GetAttrList`.  On a bad status Go returns the item next to the
error. -/
def getAttrListReply (r : Reply) : Res Bytes := do
  let (_, p) ← readN 6 r.payload
  let d ← item1 p
  let (h, d) ← readN 6 d
  if unle ((h.drop 4).take 2) ≠ 0 then .err .fail
  else do
    let (_, d) ← getU 2 d
    .ok d

/-- getattr.go:447-487, the reply of `GenericCIPMessage`.  On a bad status Go returns the item next to
the error. -/
def genericReply (service : Byte) (r : Reply) : Res Bytes := do
  let (_, p) ← readN 6 r.payload
  let d ← item1 p
  let (_, d) ← getU 2 d
  let (s, d) ← getU 2 d
  if BitVec.ofNat 8 s &&& 0x7F#8 ≠ service then .err .fail
  else do
    let (status, d) ← getU 2 d
    if status ≠ 0 then .err (.cipStatus (status % 256)) else .ok d

/-- connect.go:561-599 `parseResponse`: the data following the message router response header
(service, reserved, status, extended status size) and the extended status.  `StatusLen*2` is
computed in a byte. -/
def parseResponse (r : Reply) : Res Bytes :=
  if r.status ≠ 0 then .err .fail
  else do
    let (_, p) ← readN 6 r.payload
    let d ← item1 p
    let (h, d) ← readN 4 d
    let statusLen := h.getD 3 0#8
    let (_, d) ← if statusLen ≠ 0#8 then readN (statusLen * 2#8).toNat d else .ok ([], d)
    if h.getD 2 0#8 ≠ 0#8 then .err .fail else .ok d

end Gologix
