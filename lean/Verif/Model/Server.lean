import Verif.Model.ServerTables
import Verif.Model.Items
import Verif.Model.Frame
import Verif.Model.Segments
import Verif.Model.Multi
/-
The server's request handling: server.go, server_connected.go, server_unconnected.go,
server_listidentity.go.

One TCP connection is served by one goroutine; its handler functions run in the monad `M`, a state
monad over the handler's fields, the state shared by all connections, the bytes not yet read from the
socket and the frames sent.  A returned Go `error` ends the connection, a panic ends the process
(nothing recovers).  The bytes of the socket end where the peer stops sending or closes; socket write
errors are not modelled.  Log output is not modelled.
-/
namespace Gologix.Server

/-- server_router.go:45-65 `CIPEndpoint`: the in-memory tag provider with the keys of its map in order of
insertion, or a provider whose `TagRead` and `TagWrite` fail and which lists no tags (`IOProvider`,
`IOChannelProvider`). -/
inductive Endpoint where
  | tags (s : Store) (keys : List Str)
  | other

/-- server.go:18-25 `Server`, and what else is shared.  `nextRef` numbers the connection objects, `rnd`
are the results of `rand.Uint32` still to come, `io` the cyclic I/O goroutines started, as connection
object and endpoint. -/
structure Srv where
  conns   : ConnTable
  nextRef : Nat
  router  : Router Nat
  eps     : Nat → Endpoint
  attrs   : BitVec 16 → Option Scal
  rnd     : Nat → BitVec 32
  io      : List (Nat × Nat)

/-- server.go:30-40 `serverTCPHandler`; `addr` and `port` are the local address of the socket. -/
structure Handler where
  handle  : BitVec 32
  options : BitVec 32
  context : BitVec 64
  ot      : BitVec 32
  to      : BitVec 32
  seq     : BitVec 16
  addr    : Bytes
  port    : BitVec 16

structure St where
  h    : Handler
  srv  : Srv
  inp  : Bytes
  sent : List Bytes

/-- A handler function. -/
def M (α : Type) : Type := St → Res α × St

namespace M

def bind {α β : Type} (m : M α) (f : α → M β) : M β := fun st =>
  match m st with
  | (.ok a, st') => f a st'
  | (.err e, st') => (.err e, st')
  | (.panic, st') => (.panic, st')

instance : Monad M where
  pure a := fun st => (.ok a, st)
  bind := M.bind

def lift {α : Type} (r : Res α) : M α := fun st => (r, st)

def fail {α : Type} : M α := fun st => (.err .fail, st)

def crash {α : Type} : M α := fun st => (.panic, st)

/-- `if err != nil { err2 := onErr; return err }`. -/
def orElse {α : Type} (r : Res α) (onErr : M Unit) : M α := fun st =>
  match r with
  | .ok a => (.ok a, st)
  | .err e => (.err e, (onErr st).2)
  | .panic => (.panic, st)

/-- The same, for a result that depends on the state. -/
def orElseAt {α : Type} (r : St → Res α) (onErr : M Unit) : M α := fun st => orElse (r st) onErr st

/-- A value looked up in the state. -/
def look {α : Type} (r : St → Res α) : M α := fun st => (r st, st)

/-- A change of the state. -/
def modify (f : St → St) : M Unit := fun st => (.ok (), f st)

/-- Continue depending on the state. -/
def depend {α : Type} (f : St → M α) : M α := fun st => f st st

end M

open M

/-! ### Sending -/

/-- server.go:888-926 `send` with server.go:928-940 `newEIPHeader`. -/
def frameOf (h : Handler) (cmd : BitVec 16) (payload : Bytes) : Bytes :=
  EipHeader.encode {
    command := cmd, length := BitVec.ofNat 16 payload.length, session := h.handle,
    status := 0, context := h.context, options := h.options } ++ payload

def send (cmd : BitVec 16) (payload : Bytes) : M Unit := fun st =>
  (.ok (), { st with sent := st.sent ++ [frameOf st.h cmd payload] })

/-- write.go:317-322 `msgUnconnWriteResultHeader` with the response service code. -/
def resultHdr (s status : Byte) : Bytes := [s ||| 0x80#8, 0#8, status, 0#8]

/-- The two items of a connected reply, and sending them. -/
def sendUnit (conn : BitVec 32) (data : Bytes) : M Unit :=
  send 0x70#16 (serializeItems [(Item.new 0xA1#16).write (putBV conn), (Item.new 0xB1#16).write data])

/-- The two items of an unconnected reply, and sending them. -/
def sendRR (data : Bytes) : M Unit :=
  send 0x6F#16 (serializeItems [Item.new 0x0#16, (Item.new 0xB2#16).write data])

/-- server.go:351-368 `sendUnitDataErrorReply`, 474-493 `sendUnitDataReplyWithPayload`, 495-512
`sendUnitDataReply`. -/
def sendUnitData (s status : Byte) (payload : Bytes) : M Unit := fun st =>
  sendUnit st.h.to (putBV st.h.seq ++ resultHdr s status ++ payload) st

/-- server_connected.go:477-499 `sendConnectedReply`, 501-519 `sendConnectedError` (whose extended status
is 0 in every call). -/
def sendConnected (s : Byte) (seq : BitVec 16) (conn : BitVec 32) (status : Byte) (payload : Bytes) : M Unit :=
  sendUnit conn (putBV seq ++ resultHdr s status ++ payload)

/-- server_unconnected.go:649-665 `sendUnconnectedErrorReply`, 667-689 `sendUnconnectedRRDataReply`. -/
def sendUnconn (s status : Byte) (payload : Bytes) : M Unit := sendRR (resultHdr s status ++ payload)

/-! ### Values in replies -/

/-- types.go:22-69 `GoVarToCIPType`, the type component. -/
def TVal.cipType : TVal → Byte
  | .scal .nil => tUnknown
  | .scal (.bytes _) => tBYTE
  | .scal (.arr86 _) => tStruct
  | .scal v => match v.ty with
    | some T => cipOfGo T
    | none => tUnknown
  | .slice (some T) _ => if T = .bool then tStruct else cipOfGo T
  | .slice none _ => tStruct

def TVal.elemBytes : TVal → Bytes
  | .scal v => v.encodeElem
  | .slice _ _ => []

/-- items.go:214-282 `Serialize` of one value; `binary.Write` refuses `nil` and `[]any`. -/
def TVal.serialize : TVal → Res Bytes
  | .scal .nil => .err .fail
  | .scal v => .ok v.encode
  | .slice (some _) vs => .ok (vs.map TVal.elemBytes).flatten
  | .slice none _ => .err .fail

/-- server_connected.go:375-397 `cipStringPacker.Bytes`. -/
def stringSlotBytes (s : Str) : Bytes :=
  [0xA0#8, 0x02#8, 0xCE#8, 0x0F#8] ++
    putBV (BitVec.ofNat 32 (if s.length > 82 then 82 else s.length)) ++ fitTo 82 s ++ [0#8, 0#8]

def TVal.slotBytes : TVal → Bytes
  | .scal (.str s) => stringSlotBytes s
  | _ => []

/-- Type, zero, value: the generic payload of a read reply. -/
def typedPayload (v : TVal) : Res Bytes := do
  let b ← v.serialize
  .ok ([v.cipType, 0#8] ++ b)

/-- server_connected.go:312-339, server_unconnected.go:617-635: the payload of a read reply.  A value of type
STRING is a `string` or a `[]string`, so the error of lines 334-335 has no counterpart. -/
def readPayload : TVal → Res Bytes
  | .scal (.str s) => .ok (stringSlotBytes s)
  | .slice (some .str) vs => .ok (vs.map TVal.slotBytes).flatten
  | v => typedPayload v

/-! ### Tag access -/

/-- `TagRead(tag, int16(qty))`. -/
def readTag (ep : Nat) (tag : Str) (qty : BitVec 16) : M TVal := fun st =>
  match st.srv.eps ep with
  | .tags s _ => (tagRead s tag qty.toInt, st)
  | .other => (.err .fail, st)

/-- `TagWrite(tag, v)`.  A key that was not in the map is added. -/
def writeTag (C : Conv) (ep : Nat) (tag : Str) (v : TVal) : M Unit := fun st =>
  match st.srv.eps ep with
  | .tags s keys =>
    let (r, s') := tagWrite C s tag v
    let k := toLower tag
    let keys' := if (s k).isNone && (s' k).isSome then keys ++ [k] else keys
    (r, { st with srv := { st.srv with eps := fun e => if e = ep then .tags s' keys' else st.srv.eps e } })
  | .other => (.err .fail, st)

/-- server_connected.go:46-56, 221-231 and server_unconnected.go:366-376: one value is written as it is, more
as a `[]any`; none is an index out of range. -/
def writeValues (C : Conv) (ep : Nat) (tag : Str) : List Scal → M Unit
  | [] => crash
  | [v] => writeTag C ep tag (.scal v)
  | vs => writeTag C ep tag (.slice none (vs.map TVal.scal))

def getByOT (k : BitVec 32) : M Conn := fun st => (st.srv.conns.getByOT k, st)

def resolve (path : Bytes) : M Nat := fun st => (st.srv.router.resolve path, st)

/-! ### Values in write requests -/

/-- `n` values one after the other. -/
def readElems (f : Bytes → Res (Scal × Bytes)) : Nat → Bytes → Res (List Scal × Bytes)
  | 0, r => .ok ([], r)
  | n + 1, r => do
    let (v, r) ← f r
    let (vs, r) ← readElems f n r
    .ok (v :: vs, r)

/-- server_connected.go:452-463: one STRING element: 4 bytes length, 82 bytes. -/
def readStringElem (r : Bytes) : Res (Scal × Bytes) := do
  let (n, r) ← readBV 32 r
  let (d, r) ← readN 82 r
  .ok (.str (d.take (if n.toNat > 82 then 82 else n.toNat)), r)

/-- server_connected.go:418-475 `parseWriteValues`. -/
def parseWriteValues (r : Bytes) : Res (List Scal × Bytes) := do
  let (typ, r) ← readBV 8 r
  let (n, r) ← readBV 8 r
  let (info, r) ← readN n.toNat r
  let (qty, r) ← readBV 16 r
  if typ = tStruct then
    if info.length ≥ 2 ∧ unle (info.take 2) = 0x0FCE then readElems readStringElem qty.toNat r
    else .err .fail
  else readElems (readValue typ) qty.toNat r

/-! ### Connected requests -/

/-- server_connected.go:9-63 `cipConnectedWrite`; `conn` is the address in item 0, `r` the data of item 1 after
the service.  The type of item 0 (line 29) has been checked by the caller, its first four bytes have
been read there (line 34). -/
def cipConnectedWrite (C : Conv) (conn : BitVec 32) (r : Bytes) : M Unit := do
  let (_, r) ← lift (readBV 8 r)
  let (tag, r) ← lift (getTagFromPath r)
  let (vs, _) ← lift (parseWriteValues r)
  let c ← getByOT conn
  let ep ← resolve c.path
  writeValues C ep tag vs
  sendUnitData 0x4D#8 0#8 []

/-- server_connected.go:158-190: the embedded reply to a read.  `Serialize` of pack.go:57-92 writes nothing
for `nil`, which matches none of its cases. -/
def multiReadReply (svc : Byte) (v : TVal) : Res Bytes :=
  if v.cipType = tSTRING then
    match v with
    | .scal (.str s) => .ok ([svc ||| 0x80#8, 0#8, 0#8, 0#8] ++ stringSlotBytes s)
    | _ => .err .fail
  else
    match v with
    | .scal .nil => .ok [svc ||| 0x80#8, 0#8, 0#8, 0#8, tUnknown, 0#8]
    | v => do
      let b ← v.serialize
      .ok ([svc ||| 0x80#8, 0#8, 0#8, 0#8, v.cipType, 0#8] ++ b)

/-- server_connected.go:124-235: one embedded request.  The seek of line 125 to a negative position makes the
next read panic (items.go:76).  Requests other than reads and writes leave an empty reply. -/
def multiOne (C : Conv) (ep : Nat) (data : Bytes) (off : BitVec 16) : M Bytes :=
  if off.toInt + 8 < 0 then crash
  else do
    let (svc, r) ← lift (readBV 8 (data.drop (off.toInt + 8).toNat))
    let (_, r) ← lift (getU 1 r)
    if svc = 0x52#8 ∨ svc = 0x4C#8 then do
      let (tag, r) ← lift (getTagFromPath r)
      let (qty, _) ← lift (getU 2 r)
      let v ← readTag ep tag (BitVec.ofNat 16 qty)
      lift (multiReadReply svc v)
    else if svc = 0x4D#8 ∨ svc = 0x53#8 then do
      let (tag, r) ← lift (getTagFromPath r)
      let (typ, r) ← lift (readBV 8 r)
      let (_, r) ← lift (readBV 8 r)
      let (qty, r) ← lift (readBV 16 r)
      let (vs, _) ← lift (readElems (readValue typ) qty.toNat r)
      writeValues C ep tag vs
      pure [svc ||| 0x80#8, 0#8, 0#8, 0#8]
    else pure []

def multiAll (C : Conv) (ep : Nat) (data : Bytes) : List (BitVec 16) → M (List Bytes)
  | [] => pure []
  | off :: offs => do
    let b ← multiOne C ep data off
    let bs ← multiAll C ep data offs
    pure (b :: bs)

/-- server_connected.go:238-253: count, jump table and replies. -/
def multiPayload (results : List Bytes) : Bytes :=
  putBV (BitVec.ofNat 16 results.length) ++
    ((jumpTable ((results.length + 1) * 2) 0 results).map putBV).flatten ++ results.flatten

/-- server_connected.go:65-254 `connectedMulti`, on the whole data of item 1.  `make([]any, qty+2)` of line
238 is computed in 16 bits; `qty` offsets have been read from an item of at most 65535 bytes, so it
does not wrap. -/
def connectedMulti (C : Conv) (conn : BitVec 32) (data : Bytes) : M Unit := do
  let c ← getByOT conn
  let ep ← resolve c.path
  let (seq, r) ← lift (readBV 16 data)
  let (_, r) ← lift (readBV 8 r)
  let (plen, r) ← lift (readBV 8 r)
  let (_, r) ← lift (readN (plen * 2#8).toNat r)
  let (qty, r) ← lift (getU 2 r)
  let (tab, _) ← lift (if r.length < 2 * qty then .err .fail else .ok (r.take (2 * qty), ()))
  let results ← multiAll C ep data (unU16s tab)
  sendConnected 0x0A#8 seq c.to 0#8 (multiPayload results)

/-- server_connected.go:261-341 `connectedRead`.  `addr` is the data of item 0, `data` that of item 1. -/
def connectedRead (svc : Byte) (addr data : Bytes) : M Unit := do
  let (conn, _) ← orElse (readBV 32 addr) (sendConnected svc 0#16 0#32 0x20#8 [])
  let c ← orElseAt (fun st => st.srv.conns.getByOT conn) (sendConnected svc 0#16 0#32 0x07#8 [])
  let (seq, r) ← orElse (readBV 16 data) (sendConnected svc 0#16 c.to 0x20#8 [])
  let (_, r) ← orElse (readBV 16 r) (sendConnected svc seq c.to 0x20#8 [])
  let (tag, r) ← orElse (getTagFromPath r) (sendConnected svc seq c.to 0x20#8 [])
  let (qty, _) ← orElse (readBV 16 r) (sendConnected svc seq c.to 0x20#8 [])
  let ep ← orElseAt (fun st => st.srv.router.resolve c.path) (sendConnected svc seq c.to 0x05#8 [])
  let v ← orElseAt (fun st => (readTag ep tag qty st).1) (sendConnected svc seq c.to 0x28#8 [])
  let b ← lift (readPayload v)
  sendConnected svc seq c.to 0#8 b

/-- server_connected.go:521-589 `connectedGetAttr` and `getAttrSingle`.  The reply of line 587 has the service
code of a fragmented read. -/
def connectedGetAttr (conn : BitVec 32) (data : Bytes) : M Unit := do
  let c ← getByOT conn
  let (seq, r) ← lift (readBV 16 data)
  let (_, r) ← lift (getU 1 r)
  let (plen, r) ← lift (getU 1 r)
  if plen ≠ 3 then fail
  else do
    let (cls, r) ← lift (classRead r)
    let (inst, r) ← lift (instanceRead r)
    if cls ≠ 1#16 ∨ inst ≠ 1#32 then fail
    else do
      let (attr, _) ← lift (attributeRead r)
      let a ← look fun st =>
        match st.srv.attrs attr with
        | some v => .ok v
        | none => .err .fail
      let b ← lift (TVal.serialize (.scal a))
      sendConnected 0x52#8 seq c.to 0#8 b

/-- server_unconnected.go:250-262 `parseClassInstancePath`. -/
def parseClassInstance (p : Bytes) : Res (BitVec 16 × BitVec 32) := do
  let (cls, p) ← classRead p
  let (inst, _) ← instanceRead p
  .ok (cls, inst)

/-- `name[:255]` when longer. -/
def shortName (s : Str) : Str := s.take 255

/-- server_unconnected.go:279-334 `buildIdentityGetAttributesAllResponse`. -/
def identityAll (attrs : BitVec 16 → Option Scal) : Res Bytes :=
  match attrs 1#16, attrs 2#16, attrs 3#16, attrs 4#16, attrs 5#16, attrs 6#16, attrs 7#16 with
  | some (.i16 vendor), some (.i16 device), some (.i16 product), some (.i16 revision), some (.i16 status),
    some (.u32 serial), some (.str name) =>
    .ok (putBV vendor ++ putBV device ++ putBV product ++ putBV revision ++ putBV status ++ putBV serial ++
      [BitVec.ofNat 8 (shortName name).length] ++ shortName name)
  | _, _, _, _, _, _, _ => .err .fail

/-- server_unconnected.go:234-246 `buildProgramObjectGetAttributesAllResponse`. -/
def programAll (attrs : BitVec 16 → Option Scal) : Res Bytes :=
  match attrs 7#16 with
  | some (.str name) => .ok ([BitVec.ofNat 8 (shortName name).length] ++ shortName name)
  | _ => .err .fail

/-- server.go:396-425 and server_unconnected.go:160-191: the answer to Get_Attributes_All for a class and
instance: a payload, or a status. -/
def attributesAll (attrs : BitVec 16 → Option Scal) (cls : BitVec 16) (inst : BitVec 32) :
    Res (Byte × Bytes) :=
  if cls = 1#16 ∨ cls = 0x64#16 then
    if inst ≠ 1#32 then .ok (0x05#8, [])
    else do
      let b ← if cls = 1#16 then identityAll attrs else programAll attrs
      .ok (0#8, b)
  else .ok (0x05#8, [])

/-- server.go:376-426 `connectedGetAttributeAll`. -/
def connectedGetAttributeAll (data : Bytes) : M Unit := do
  let (_, r) ← lift (getU 2 data)
  let (_, r) ← lift (getU 1 r)
  let (plen, r) ← lift (getU 1 r)
  let (path, _) ← lift (readN (plen * 2) r)
  match parseClassInstance path with
  | .ok (cls, inst) => do
    let (status, b) ← look fun st => attributesAll st.srv.attrs cls inst
    sendUnitData 0x01#8 status b
  | _ => sendUnitData 0x01#8 0x04#8 []

/-- Go's `<` on strings: bytes compared in order. -/
def strLt : Str → Str → Bool
  | [], [] => false
  | [], _ :: _ => true
  | _ :: _, [] => false
  | a :: as, b :: bs => if a.toNat < b.toNat then true else if b.toNat < a.toNat then false else strLt as bs

def insertKey (k : Str) : List Str → List Str
  | [] => [k]
  | x :: xs => if strLt x k then x :: insertKey k xs else k :: x :: xs

/-- `sort.Slice` by name (server_unconnected.go:209, 570); the names are distinct, so the result does not
depend on the algorithm. -/
def sortKeys (ks : List Str) : List Str := ks.foldr insertKey []

/-- server_router.go:251-263 `TagList`, sorted. -/
def sortedTags (s : Store) (keys : List Str) : List (Str × Byte) :=
  (sortKeys keys).map fun k => (k, match s k with | some v => v.cipType | none => tUnknown)

/-- server_unconnected.go:207-227 `buildSymbolObjectInstanceListResponse` with `startInstance` 0. -/
def symbolEntries : Nat → List (Str × Byte) → Bytes
  | _, [] => []
  | i, (name, typ) :: ts =>
    putBV (BitVec.ofNat 32 (i + 1)) ++ putBV (BitVec.ofNat 16 (shortName name).length) ++ shortName name ++
      putBV (BitVec.ofNat 16 typ.toNat) ++ symbolEntries (i + 1) ts

/-- server.go:441-468 `connectedSymbolList`. -/
def connectedSymbolList (conn : BitVec 32) : M Unit := do
  let c ← getByOT conn
  let ep ← resolve c.path
  depend fun st =>
    match st.srv.eps ep with
    | .tags s keys => sendUnitData 0x55#8 0#8 (symbolEntries 0 (sortedTags s keys))
    | .other => sendUnitData 0x55#8 0#8 []

/-- `binary.Read` from the socket. -/
def recv (n : Nat) : M Bytes := fun st =>
  match readN n st.inp with
  | .ok (b, rest) => (.ok b, { st with inp := rest })
  | .err e => (.err e, { st with inp := [] })
  | .panic => (.panic, st)

/-- `readItems(h.conn)`. -/
def recvItems : M (List Item) := fun st =>
  match readItems st.inp with
  | .ok (its, rest) => (.ok its, { st with inp := rest })
  | .err e => (.err e, { st with inp := [] })
  | .panic => (.panic, st)

/-- The dispatch of server.go:286-344; `addr` and `data` are the data of the two items. -/
def unitService (C : Conv) (addr data : Bytes) (conn : BitVec 32) (svc : Byte) (r : Bytes) : M Unit :=
  if svc = 0x4D#8 then cipConnectedWrite C conn r
  else if svc = 0x52#8 then connectedRead 0x52#8 addr data
  else if svc = 0x4C#8 then connectedRead 0x4C#8 addr data
  else if svc = 0x0A#8 then connectedMulti C conn data
  else if svc = 0x0E#8 then connectedGetAttr conn data
  else if svc = 0x01#8 then connectedGetAttributeAll data
  else if svc = 0x55#8 then connectedSymbolList conn
  else sendUnitData svc 0x08#8 []

/-- server.go:251-345 `sendUnitData`, from the items on. -/
def unitItems (C : Conv) : List Item → M Unit
  | [i0, i1] =>
    if i0.id ≠ 0xA1#16 then fail
    else do
      let (conn, _) ← lift (readBV 32 i0.data)
      let (seq, r) ← lift (readBV 16 i1.data)
      modify fun st => { st with h := { st.h with seq := seq } }
      let (svc, r) ← lift (readBV 8 r)
      unitService C i0.data i1.data conn svc r
  | _ => fail

/-- server.go:251-345 `sendUnitData`. -/
def handleUnitData (C : Conv) : M Unit := do
  let _ ← recv 4
  let _ ← recv 2
  let items ← recvItems
  unitItems C items

/-! ### Unconnected requests -/

/-- The fields of server.go:569-590 `msgEIPForwardOpen_Standard` and 592-617 `msgEIPForwardOpen_Large`
that are used. -/
structure FwdOpen where
  service : Byte
  ot      : BitVec 32
  to      : BitVec 32
  serial  : BitVec 16
  vendor  : BitVec 16
  oserial : BitVec 32
  otrpi   : BitVec 32
  torpi   : BitVec 32
  trigger : Byte
  psize   : Byte
deriving DecidableEq, Repr

/-- `DeSerialize(&fwd_open)`: one read of 42 or 46 bytes, then the fields in order. -/
def readFwdOpen (large : Bool) (d : Bytes) : Res (FwdOpen × Bytes) := do
  let (b, rest) ← readN (if large then 46 else 42) d
  let (hd, b) ← readN 8 b
  let (ot, b) ← readBV 32 b
  let (to, b) ← readBV 32 b
  let (serial, b) ← readBV 16 b
  let (vendor, b) ← readBV 16 b
  let (oserial, b) ← readBV 32 b
  let (_, b) ← readBV 32 b
  let (otrpi, b) ← readBV 32 b
  let (_, b) ← readN (if large then 4 else 2) b
  let (torpi, b) ← readBV 32 b
  let (_, b) ← readN (if large then 4 else 2) b
  let (trigger, b) ← readBV 8 b
  let (psize, _) ← readBV 8 b
  .ok ({ service := hd.getD 0 0#8, ot, to, serial, vendor, oserial, otrpi, torpi, trigger, psize }, rest)

/-- connect.go:531-545 `msgEIPForwardOpen_Standard_Reply` as filled by server.go:659-668, 743-752. -/
def fwdOpenReply (f : FwdOpen) (ot to : BitVec 32) : Bytes :=
  [f.service ||| 0x80#8, 0#8, 0#8, 0#8] ++ putBV ot ++ putBV to ++ putBV f.serial ++ putBV f.vendor ++
    putBV f.oserial ++ putBV f.otrpi ++ putBV f.torpi ++ [0#8, 0#8]

/-- `rand.Uint32()` when the request leaves the choice to the server. -/
def chooseId (asked : BitVec 32) : M (BitVec 32) := fun st =>
  if asked = 0#32 then
    (.ok (st.srv.rnd 0), { st with srv := { st.srv with rnd := fun n => st.srv.rnd (n + 1) } })
  else (.ok asked, st)

/-- `ConnMgr.Add` of a new connection object; the result is the object. -/
def addConn (id : BitVec 16) (ot to rpi : BitVec 32) (path : Bytes) : M Nat := fun st =>
  (.ok st.srv.nextRef,
    { st with srv := { st.srv with
        conns := st.srv.conns.add { ref := st.srv.nextRef, id, ot, to, rpi, path }
        nextRef := st.srv.nextRef + 1 } })

/-- server.go:785-793 with the start of server.go:797-800 `ioConnection`: `time.NewTicker` panics on a zero
interval. -/
def startIO (f : FwdOpen) (ref : Nat) (path : Bytes) : M Unit := do
  let ep ← resolve path
  if f.torpi = 0#32 then crash
  else modify fun st => { st with srv := { st.srv with io := st.srv.io ++ [(ref, ep)] } }

/-- server.go:619-702 `largeForwardOpen`, 704-795 `forwardOpen`.  `ConnPathSize*2` is computed in a byte;
`fwd_path[:2]` panics when it is empty. -/
def forwardOpen (large : Bool) (d : Bytes) : M Unit := do
  let (f, r) ← lift (readFwdOpen large d)
  let (fpath, _) ← lift (readN (f.psize * 2#8).toNat r)
  if fpath.length < 2 then crash
  else do
    let to ← chooseId f.to
    let ot ← chooseId f.ot
    modify fun st => { st with h := { st.h with to := to, ot := ot } }
    sendRR (fwdOpenReply f ot to)
    let ref ← addConn f.serial ot to f.torpi (fpath.take 2)
    if f.trigger = 1#8 ∧ large = false then startIO f ref (fpath.take 2) else pure ()

/-- `ConnMgr.CloseByID`. -/
def closeConn (serial : BitVec 16) : M Unit := fun st =>
  ((st.srv.conns.closeByID serial).1,
    { st with srv := { st.srv with conns := (st.srv.conns.closeByID serial).2 } })

/-- server.go:546-565 `forwardClose`.  Nothing is sent. -/
def forwardClose (d : Bytes) : M Unit := do
  let (b, r) ← lift (readN 17 d)
  let (serial, _) ← lift (readBV 16 (b.drop 8))
  closeConn serial
  let _ ← lift (readN (b.getD 1 0#8 * 2#8).toNat r)
  pure ()

/-- server_unconnected.go:141-192 `unconnectedGetAttributeAll`. -/
def unconnectedGetAttributeAll (r : Bytes) : M Unit := do
  let (plen, r) ← lift (readBV 8 r)
  let (path, _) ← lift (readN (plen.toNat * 2) r)
  match parseClassInstance path with
  | .ok (cls, inst) => do
    let (status, b) ← look fun st => attributesAll st.srv.attrs cls inst
    sendUnconn 0x01#8 status b
  | _ => sendUnconn 0x01#8 0x04#8 []

/-- server_unconnected.go:548 `defaultLocalPath`. -/
def defaultLocalPath : Bytes := [1#8, 0#8]

/-- server_unconnected.go:560-575 `resolveSymbolicTagFromCustomClass`, with the endpoint. -/
def customTag (srv : Srv) (instance_ : BitVec 16) : Option (Nat × Str) :=
  match srv.router.resolve defaultLocalPath with
  | .ok ep =>
    match srv.eps ep with
    | .tags s keys =>
      if instance_ = 0#16 ∨ instance_.toNat > (sortedTags s keys).length then none
      else some (ep, ((sortedTags s keys).getD (instance_.toNat - 1) ([], 0#8)).1)
    | .other => none
  | _ => none

/-- The class, instance and attribute of a request with a path of three words
(server_unconnected.go:396-414, 487-505); `none` is a path size other than 3. -/
def attrPath (r : Bytes) : Res (Option (BitVec 16 × BitVec 32 × BitVec 16 × Bytes)) := do
  let (plen, r) ← getU 1 r
  if plen ≠ 3 then .ok none
  else do
    let (cls, r) ← classRead r
    let (inst, r) ← instanceRead r
    let (attr, r) ← attributeRead r
    .ok (some (cls, inst, attr, r))

/-- server_unconnected.go:436-445: payload for a value read through the custom class; only a single string is
sent as a STRING structure. -/
def attrPayload : TVal → Res Bytes
  | .scal (.str s) => .ok (stringSlotBytes s)
  | v => typedPayload v

/-- server_unconnected.go:383-479 `unconnectedServiceGetAttrSingle`. -/
def unconnectedGetAttrSingle (r : Bytes) : M Unit := do
  let p ← lift (attrPath r)
  match p with
  | none => sendUnconn 0x0E#8 0x04#8 []
  | some (cls, inst, attr, _) =>
    depend fun st =>
      if cls = 0xC8#16 then
        match customTag st.srv (BitVec.ofNat 16 inst.toNat) with
        | none => sendUnconn 0x0E#8 0x05#8 []
        | some (ep, tag) =>
          if attr ≠ 1#16 then sendUnconn 0x0E#8 0x14#8 []
          else
            match (readTag ep tag 1#16 st).1 with
            | .ok v => do
              let b ← lift (attrPayload v)
              sendUnconn 0x0E#8 0#8 b
            | .err _ => sendUnconn 0x0E#8 0x16#8 []
            | .panic => crash
      else if cls ≠ 1#16 ∨ inst ≠ 1#32 then sendUnconn 0x0E#8 0x05#8 []
      else
        match st.srv.attrs attr with
        | none => sendUnconn 0x0E#8 0x14#8 []
        | some v => do
          let b ← lift (typedPayload (.scal v))
          sendUnconn 0x0E#8 0#8 b

/-- `TagWrite` whose error the caller looks at. -/
def tryWrite (C : Conv) (ep : Nat) (tag : Str) (v : TVal) : M Bool := fun st =>
  match writeTag C ep tag v st with
  | (.ok (), st) => (.ok true, st)
  | (.err _, st) => (.ok false, st)
  | (.panic, st) => (.panic, st)

/-- server_unconnected.go:486-542 `unconnectedServiceSetAttrSingle`. -/
def unconnectedSetAttrSingle (C : Conv) (r : Bytes) : M Unit := do
  let p ← lift (attrPath r)
  match p with
  | none => sendUnconn 0x10#8 0x04#8 []
  | some (cls, inst, attr, r) =>
    if cls ≠ 0xC8#16 then sendUnconn 0x10#8 0x05#8 []
    else if attr ≠ 1#16 then sendUnconn 0x10#8 0x14#8 []
    else
      depend fun st =>
        match customTag st.srv (BitVec.ofNat 16 inst.toNat) with
        | none => sendUnconn 0x10#8 0x05#8 []
        | some (ep, tag) => do
          let (vs, _) ← lift (parseWriteValues r)
          match vs with
          | [] => sendUnconn 0x10#8 0x13#8 []
          | v :: _ => do
            let ok ← tryWrite C ep tag (.scal v)
            if ok then sendUnconn 0x10#8 0#8 [] else sendUnconn 0x10#8 0x09#8 []

/-- server_unconnected.go:336-381 `unconnectedServiceWrite`; `2*path_size` is computed in 16 bits. -/
def unconnectedWrite (C : Conv) (r : Bytes) : M Unit := do
  let (_, r) ← lift (readBV 8 r)
  let (tag, r) ← lift (getTagFromPath r)
  let (vs, r) ← lift (parseWriteValues r)
  let (psize, r) ← lift (readBV 16 r)
  let (path, _) ← lift (readN (2#16 * psize).toNat r)
  let ep ← resolve path
  writeValues C ep tag vs
  sendUnconn 0x4D#8 0#8 []

/-- server_unconnected.go:577-637 `unconnectedServiceRead`. -/
def unconnectedRead (r : Bytes) : M Unit := do
  let (_, r) ← lift (readBV 8 r)
  let (tag, r) ← lift (getTagFromPath r)
  let (qty, r) ← lift (readBV 16 r)
  let (psize, r) ← lift (readBV 16 r)
  let (path, _) ← lift (readN (2#16 * psize).toNat r)
  let ep ← resolve path
  let v ← readTag ep tag qty
  let b ← lift (readPayload v)
  sendUnconn 0x4C#8 0#8 b

/-- server_unconnected.go:67-121: the request embedded in an Unconnected Send. -/
def unconnectedSend (C : Conv) (r : Bytes) : M Unit := do
  let (plen, r) ← lift (readBV 8 r)
  let (_, r) ← lift (readN (plen * 2#8).toNat r)
  let (_, r) ← lift (readBV 16 r)
  let (_, r) ← lift (readBV 16 r)
  let (svc, r) ← lift (readBV 8 r)
  if svc = 0x4D#8 then unconnectedWrite C r
  else if svc = 0x4C#8 then unconnectedRead r
  else if svc = 0x0E#8 then unconnectedGetAttrSingle r
  else if svc = 0x10#8 then unconnectedSetAttrSingle C r
  else if svc = 0x01#8 then unconnectedGetAttributeAll r
  else sendUnconn svc 0x08#8 []

/-- server_unconnected.go:11-132 `unconnectedData`, on the data of item 1. -/
def unconnectedData (C : Conv) (d : Bytes) : M Unit := do
  let (svc, r) ← lift (readBV 8 d)
  if svc = 0x54#8 then forwardOpen false d
  else if svc = 0x5B#8 then forwardOpen true d
  else if svc = 0x4E#8 then forwardClose d
  else if svc = 0x01#8 then unconnectedGetAttributeAll r
  else if svc = 0x0E#8 then unconnectedGetAttrSingle r
  else if svc = 0x10#8 then unconnectedSetAttrSingle C r
  else if svc = 0x52#8 then unconnectedSend C r
  else sendUnconn svc 0x08#8 []

/-- server.go:514-544 `sendRRData`, from the items on.  For a connected data item the first byte of the
item, which is the low byte of the sequence number, is taken for the service (lines 534-539). -/
def rrItems (C : Conv) : List Item → M Unit
  | [i0, i1] =>
    if i1.id = 0xB1#16 then do
      let (svc, _) ← lift (readBV 8 i1.data)
      connectedRead svc i0.data i1.data
    else if i1.id = 0xB2#16 then unconnectedData C i1.data
    else pure ()
  | _ => fail

/-- server.go:514-544 `sendRRData`. -/
def handleRRData (C : Conv) : M Unit := do
  let _ ← recv 4
  let _ ← recv 2
  let items ← recvItems
  rrItems C items

/-! ### The other commands -/

/-- server.go:862-882 `registerSession`; the four bytes of the request are sent back. -/
def registerSession (hdr : EipHeader) : M Unit := do
  let b ← recv 4
  let handle ← chooseId hdr.session
  modify fun st => { st with h := { st.h with handle := handle, options := hdr.options } }
  send 0x65#16 b

/-- server.go:958-969 `sendListServicesData`. -/
def listServicesReply : Bytes :=
  putBV 1#16 ++ putBV 0x0100#16 ++ putBV 10#16 ++ putBV 1#16 ++ putBV 0x0120#16 ++ str "Communications  "

/-- Big-endian 16 bits. -/
def be16 (v : BitVec 16) : Bytes := (putBV v).reverse

/-- server_listidentity.go:25-97 `buildListIdentityItemBody`, `frameListIdentityResponse`.  The attribute
checks and the layout of the attributes are those of `identityAll`. -/
def listIdentityReply (attrs : BitVec 16 → Option Scal) (addr : Bytes) (port : BitVec 16) : Res Bytes := do
  let a ← identityAll attrs
  let body := putBV 1#16 ++ be16 2#16 ++ be16 port ++ addr ++ List.replicate 8 0#8 ++ a ++ [0xFF#8]
  .ok (putBV 1#16 ++ putBV 0x0C#16 ++ putBV (BitVec.ofNat 16 body.length) ++ body)

/-- server_listidentity.go:103-110 `sendListIdentityReply`. -/
def sendListIdentity : M Unit := do
  let b ← look fun st => listIdentityReply st.srv.attrs st.h.addr st.h.port
  send 0x63#16 b

/-! ### The loop -/

/-- `binary.Read` of the encapsulation header from the socket. -/
def recvHeader : M EipHeader := fun st =>
  match readEIPHeader st.inp with
  | .ok (h, rest) => (.ok h, { st with inp := rest })
  | .err e => (.err e, { st with inp := [] })
  | .panic => (.panic, st)

/-- The dispatch of server.go:217-245.  The payload of any other command is not consumed. -/
def dispatch (C : Conv) (hdr : EipHeader) : M Unit :=
  if hdr.command = 0x65#16 then registerSession hdr
  else if hdr.command = 0x6F#16 then handleRRData C
  else if hdr.command = 0x70#16 then handleUnitData C
  else if hdr.command = 0x04#16 then send 0x6F#16 listServicesReply
  else if hdr.command = 0x63#16 then sendListIdentity
  else pure ()

/-- One iteration of server.go:209-246 `serve`. -/
def serveStep (C : Conv) : M Unit := do
  let hdr ← recvHeader
  modify fun st => { st with h := { st.h with context := hdr.context } }
  dispatch C hdr

/-- server.go:202-249 `serve`: requests until an error.  Every iteration consumes a header, so
`inp.length + 1` iterations are enough (`serve_fuel`). -/
def serve (C : Conv) : Nat → M Unit
  | 0 => pure ()
  | fuel + 1 => do
    serveStep C
    serve C fuel

end Gologix.Server
