import Verif.Model.Connect
import Verif.Model.Path
/-
The settings of a client, and the part of Connect that fills in those left out: client.go and connect.go.
-/
namespace Gologix.Connect
open Gologix

/-- The fields of client.go:36-120 `Controller` and `Client` that `Connect` uses.  The durations are in nanoseconds,
`path` is `none` for a nil buffer, `logger` says whether there is one, `seq` is the value of `sequenceNumber`. -/
structure Settings where
  ip        : Str
  port      : BitVec 64
  ctlVendor : BitVec 16
  path      : Option Bytes
  oserial   : BitVec 32
  vendor    : BitVec 16
  timeout   : Int
  rpi       : Int
  size      : BitVec 16
  logger    : Bool
  seq       : BitVec 32
  serial    : BitVec 16
  ot        : BitVec 32
  session   : BitVec 32
  context   : BitVec 64
deriving DecidableEq, Repr

/-- client.go:150-179 `NewClient`; `serial` is the random serial number.  Fields that are not mentioned are zero. -/
def newClient (ip : Str) (serial : BitVec 32) : Res Settings := do
  match parsePath (str "1,0") with
  | .ok path =>
    .ok { ip := ip, port := 44818#64, ctlVendor := 0#16, path := some path, oserial := serial, vendor := 0x9999#16,
          timeout := 10000000000, rpi := 2500000000, size := 4000#16, logger := true, seq := 0#32, serial := 0#16,
          ot := 0#32, session := 0#32, context := 0#64 }
  | _ => .panic

/-- path.go:50-56 `CIPPort.Bytes`. -/
def portBytes (portNo ext : Byte) : Bytes := if ext ≠ 0#8 then [portNo, ext] else [portNo]

/-- connect.go:97-123: what is zero gets its default, and the clock `ms` is added to the sequence number.  The
`CIPAddress` of the default path is its byte (cip_definitions.go). -/
def fill (ms : BitVec 32) (s : Settings) : Settings :=
  let s := if s.size = 0#16 then { s with size := 4000#16 } else s
  let s := if s.port = 0#64 then { s with port := 44818#64 } else s
  let s := if s.ctlVendor = 0#16 then { s with ctlVendor := 0x9999#16 } else s
  let s := if s.timeout = 0 then { s with timeout := 10000000000 } else s
  let s := if s.rpi = 0 then { s with rpi := 2500000000 } else s
  let s := { s with seq := s.seq + ms }
  match s.path with
  | none => { s with path := some (portBytes 1#8 0#8 ++ [0#8]) }
  | some _ => s

/-- The fields the messages are made from.  `uint32(client.RPI / time.Microsecond)`: the quotient is rounded towards
zero and cut to 32 bits (connect.go:382-384, 461-463). -/
def Settings.cfg (s : Settings) : Cfg where
  path := s.path.getD []
  size := s.size
  vendor := s.vendor
  oserial := s.oserial
  rpi := BitVec.ofInt 32 (s.rpi.tdiv 1000)
  seq := s.seq
  serial := s.serial
  ot := s.ot
  session := s.session
  context := s.context

/-- connect.go:129, `fmt.Sprintf("%s:%v", …)`. -/
def dialAddress (s : Settings) : Str := s.ip ++ [0x3A#8] ++ dec s.port.toNat

/-- What came of an attempt to connect: the address dialed, the frames sent, the client afterwards, and the result. -/
structure Attempt where
  dialed : Str
  sent   : List Bytes
  after  : Settings
  res    : Res Unit

/-- connect.go:70-170 `Connect` of a client that is not connected.  `dial` says whether the TCP connection is made, `reg`,
`large` and `standard` are what the three exchanges come back with.  Every way through the code reports something to the
logger (connect.go:133, 187, 191), without a nil check, right after dialing failed or the request for a session has been
answered. -/
def connectFrom (s : Settings) (ms : BitVec 32) (dial : Bool) (reg : Res EipHeader) (large standard : Res Reply) : Attempt :=
  let s := fill ms s
  if !dial then ⟨dialAddress s, [], s, if s.logger then .err .fail else .panic⟩
  else if !s.logger then
    let s' := match reg with
      | .ok h => { s with session := h.session }
      | _ => s
    ⟨dialAddress s, [registerFrame s.cfg], s', .panic⟩
  else
    let (fs, c, r) := connectWith s.cfg reg large standard
    ⟨dialAddress s, fs,
      { s with size := c.size, seq := c.seq, serial := c.serial, ot := c.ot, session := c.session }, r⟩

end Gologix.Connect
