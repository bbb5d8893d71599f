import Verif.Model.Segments
import Verif.Model.Frame
import Verif.Model.Items
import Verif.Model.Write
/-
The messages that open and close the client's connection: connect.go and disconnect.go.
-/
namespace Gologix.Connect
open Gologix

/-- The fields of client.go:54-120 `Client` the messages are made from.  `rpi` is
`uint32(client.RPI / time.Microsecond)` (connect.go:382-384, 461-463), `seq` the value of `sequenceNumber`, `session`
and `context` go into the frame header. -/
structure Cfg where
  path    : Bytes
  size    : BitVec 16
  vendor  : BitVec 16
  oserial : BitVec 32
  rpi     : BitVec 32
  seq     : BitVec 32
  serial  : BitVec 16
  ot      : BitVec 32
  session : BitVec 32
  context : BitVec 64
deriving DecidableEq, Repr

/-- `Serialize(client.Controller.Path, CipObject_MessageRouter, CIPInstance(1))`: connect.go:341-345, 421-425,
disconnect.go:76-80. -/
def connPath (path : Bytes) : Bytes := path ++ classBytes 0x02#16 ++ instanceBytes 1#32

/-- connect.go:306-326 `cipForwardOpen` in the order of its fields; `params` are the bytes of the network
connection parameters, which are the same in both directions.  The identifiers are the next two values of the
sequence number (connect.go:376-377, 455-456), drawn after the serial number; that no other goroutine draws one in
between is assumed. -/
def openMsg (service priority ticks : Byte) (mult : BitVec 32) (params : Bytes) (c : Cfg) : Bytes :=
  [service, 0x02#8, 0x20#8, 0x06#8, 0x24#8, 0x01#8, priority, ticks] ++
    putBV (c.seq + 1#32) ++ putBV (c.seq + 2#32) ++ putBV c.serial ++ putBV c.vendor ++ putBV c.oserial ++
    putBV mult ++ putBV c.rpi ++ params ++ putBV c.rpi ++ params ++
    [0xA3#8, BitVec.ofNat 8 ((connPath c.path).length / 2)] ++ connPath c.path

/-- connect.go:328-399 `newForwardOpenLarge`: the data of the item and the client afterwards. -/
def newForwardOpenLarge (c : Cfg) : Bytes × Cfg :=
  let c := if c.size = 0#16 then { c with size := 4000#16 } else c
  let c := { c with seq := c.seq + 1#32, serial := (c.seq + 1#32).setWidth 16 }
  let params : BitVec 32 := 0#32 <<< 31 ||| 2#32 <<< 29 ||| 0#32 <<< 26 ||| 1#32 <<< 25 ||| c.size.setWidth 32
  (openMsg 0x5B#8 0x0A#8 0x0E#8 3#32 (putBV params) c, { c with seq := c.seq + 2#32 })

/-- connect.go:406-477 `newForwardOpenStandard`. -/
def newForwardOpenStandard (c : Cfg) : Bytes × Cfg :=
  let c := if c.size = 0#16 then { c with size := 511#16 } else c
  let c := if 511 < c.size.toNat then { c with size := 511#16 } else c
  let c := { c with seq := c.seq + 1#32, serial := (c.seq + 1#32).setWidth 16 }
  let params : BitVec 16 := 0#16 <<< 15 ||| 2#16 <<< 13 ||| 0#16 <<< 10 ||| 1#16 <<< 9 ||| c.size
  (openMsg 0x54#8 0x07#8 0xE9#8 0#32 (putBV params) c, { c with seq := c.seq + 2#32 })

/-- disconnect.go:86-100 `msgCipUnRegister` and the path behind it. -/
def closeMsg (c : Cfg) : Bytes :=
  [0x4E#8, 0x02#8, 0x20#8, 0x06#8, 0x24#8, 0x01#8, 0x0A#8, 0x0E#8] ++ putBV c.serial ++ putBV c.vendor ++
    putBV c.oserial ++ [BitVec.ofNat 8 ((connPath c.path).length / 2), 0x00#8] ++ connPath c.path

/-- The frame in which such a message is sent: connect.go:480-490, disconnect.go:70-116. -/
def unconnectedFrame (c : Cfg) (msg : Bytes) : Bytes :=
  sendMsgBuild { session := c.session, context := c.context } 0x6F#16
    [serializeItems [Item.new 0x0#16, (Item.new 0xB2#16).write msg]]

/-- connect.go:492-519, `forwardOpen` from the reply on: `msgCipForwardOpenReply` is 26 bytes, of which the first
four are the connection identifier the client will use. -/
def forwardOpenReply (r : Res Reply) : Res (BitVec 32) := do
  let r ← r
  let d ← parseResponse r
  let (b, _) ← readN 26 d
  let (ot, _) ← readBV 32 b
  .ok ot

/-- connect.go:97-99, 142-163: the open requests of `Connect`.  `large` and `standard` are what the exchanges of the two
requests come back with.  The result: the requests sent, the client afterwards, and whether it is connected. -/
def openConnection (c : Cfg) (large standard : Res Reply) : List Bytes × Cfg × Res Unit :=
  let c := if c.size = 0#16 then { c with size := 4000#16 } else c
  let (ms, c, p) : List Bytes × Cfg × Bool :=
    if 511 < c.size.toNat then
      let (m, c) := newForwardOpenLarge c
      match forwardOpenReply large with
      | .ok ot => ([m], { c with ot := ot }, false)
      | .err _ => ([m], { c with size := 511#16 }, false)
      | .panic => ([m], c, true)
    else ([], c, false)
  if p then (ms, c, .panic)
  else if c.size.toNat ≤ 511 then
    let (m, c) := newForwardOpenStandard c
    match forwardOpenReply standard with
    | .ok ot => (ms ++ [m], { c with ot := ot }, .ok ())
    | .err e => (ms ++ [m], c, .err e)
    | .panic => (ms ++ [m], c, .panic)
  else (ms, c, .ok ())

/-- connect.go:178-184: the frame that asks for a session, protocol version 1 and no options. -/
def registerFrame (c : Cfg) : Bytes :=
  sendMsgBuild { session := c.session, context := c.context } 0x65#16 [putBV 1#16 ++ putBV 0#16]

/-- connect.go:137-165 `Connect` from the session on, with 178-193 `registerSession`.  `reg` is the header of the answer
to the request for a session, of which only the session handle is used. -/
def connectWith (c : Cfg) (reg : Res EipHeader) (large standard : Res Reply) : List Bytes × Cfg × Res Unit :=
  match reg with
  | .err e => ([registerFrame c], c, .err e)
  | .panic => ([registerFrame c], c, .panic)
  | .ok h =>
    let d := { c with session := h.session }
    let (ms, d', r) := openConnection d large standard
    (registerFrame c :: ms.map (unconnectedFrame d), d', r)

end Gologix.Connect
