import Verif.Base.Bytes
/-
Encapsulation frames: sendreceive.go.
-/
namespace Gologix

/-- sendreceive.go:10-17 `eipHeader`. -/
structure EipHeader where
  command : BitVec 16
  length  : BitVec 16
  session : BitVec 32
  status  : BitVec 32
  context : BitVec 64
  options : BitVec 32
deriving DecidableEq, Repr

/-- The two client fields a header is made from (client.go `SessionHandle`, `Context`). -/
structure FrameCtx where
  session : BitVec 32
  context : BitVec 64
deriving DecidableEq, Repr

/-- sendreceive.go:157-170 `newEIPHeader`.  The `HeaderSequenceCounter` increment of line 159 is
not modelled: nothing reads it.  `uint16(size)` of line 162 truncates. -/
def newEIPHeader (c : FrameCtx) (cmd : BitVec 16) (size : Nat) : EipHeader where
  command := cmd
  length  := BitVec.ofNat 16 size
  session := c.session
  status  := 0
  context := c.context
  options := 0

/-- `binary.Write` of an `eipHeader`, fields in declaration order (sendreceive.go:33). -/
def EipHeader.encode (h : EipHeader) : Bytes :=
  putBV h.command ++ putBV h.length ++ putBV h.session ++ putBV h.status ++ putBV h.context ++
    putBV h.options

/-- sendreceive.go:20-47 `sendMsgBuild`.  Each message part is given by the bytes `binary.Write`
emits for it; `binary.Size` of a part is taken to be the number of those bytes. -/
def sendMsgBuild (c : FrameCtx) (cmd : BitVec 16) (parts : List Bytes) : Bytes :=
  let messageLen := (parts.map List.length).sum
  parts.foldl (· ++ ·) (newEIPHeader c cmd messageLen).encode

/-- `binary.Read` of an `eipHeader` (sendreceive.go:124, server.go:211): one 24 byte read, then the
fields in order. -/
def readEIPHeader (src : Bytes) : Res (EipHeader × Bytes) := do
  let (b, rest) ← readN 24 src
  let (command, b) ← readBV 16 b
  let (length, b) ← readBV 16 b
  let (session, b) ← readBV 32 b
  let (status, b) ← readBV 32 b
  let (context, b) ← readBV 64 b
  let (options, _) ← readBV 32 b
  .ok ({ command, length, session, status, context, options }, rest)

/-- sendreceive.go:109-151 `recvData` reading from a stream whose remaining bytes are `src`; returns
header, payload and the unread remainder.  Deadlines are not modelled: the end of `src` stands for
the connection failing. -/
def recvData (src : Bytes) : Res (EipHeader × Bytes × Bytes) := do
  let (hdr, rest) ← readEIPHeader src
  if hdr.length.toNat > 0 then
    let (data, rest) ← readN hdr.length.toNat rest
    .ok (hdr, data, rest)
  else
    .ok (hdr, [], rest)

/-- sendreceive.go:53-76 `sendData`: the socket accepts some number of bytes per `Write`; `accept`
lists how many bytes each successive `Write` takes.  Returns the bytes that went out and whether the
loop finished.  An error from the socket is the end of `accept`.  -/
def sendLoop : (pending : Bytes) → (accept : List Nat) → Bytes × Bool
  | [], _ => ([], true)
  | _ :: _, [] => ([], false)
  | b :: bs, n :: ns =>
    let chunk := (b :: bs).take n
    let (out, fin) := sendLoop ((b :: bs).drop n) ns
    (chunk ++ out, fin)

end Gologix
