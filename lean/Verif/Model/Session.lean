import Verif.Model.Settings
import Verif.Model.Server
import Verif.Model.Write
/-
A client and a server of this library on the two ends of one TCP connection.
-/
namespace Gologix.Session
open Gologix Gologix.Server Gologix.Connect

/-- The frame of a connected request with the message `msg`: read.go:414-434, write.go:143-183 and 245-272, and the other
calls of `send_recv_data` with `cipCommandSendUnitData`. -/
def connectedFrame (s : Settings) (msg : Bytes) : Bytes :=
  sendMsgBuild { session := s.session, context := s.context } 0x70#16
    [serializeItems [(Item.new 0xA1#16).write (putBV s.ot), (Item.new 0xB1#16).write msg]]

/-- The server and its end of the connection, the bytes on the way to the client, and whether the server still serves
the connection: server.go:204-246 closes it when handling a request fails. -/
structure Sys where
  server : St
  socket : Bytes
  up     : Bool

/-- sendreceive.go:79-107 `send_recv_data` of a client that is connected to the server: the frame arrives, the server
handles one request (server.go:209-246), and the client reads one frame.  A server that is gone or does not answer is an
error at the client, after which it disconnects; what that sends is not modelled here. -/
def exchange (C : Conv) (y : Sys) (f : Bytes) : Res (EipHeader × Bytes) × Sys :=
  if !y.up then (.err .eof, y)
  else
    let (r, st) := serveStep C { y.server with inp := y.server.inp ++ f }
    let up := match r with
      | .ok _ => true
      | _ => false
    match recvData (y.socket ++ (st.sent.drop y.server.sent.length).flatten) with
    | .ok (h, p, rest) => (.ok (h, p), ⟨st, rest, up⟩)
    | .err e => (.err e, ⟨st, [], false⟩)
    | .panic => (.panic, ⟨st, [], false⟩)

/-- What a call returns: nothing, a value, the values a slice is filled with, or what several tags have. -/
inductive Outcome where
  | done
  | value (v : Scal)
  | values (vs : List Scal)
  | several (vs : List RV)
deriving DecidableEq, Repr

/-- A call of a client: `Write` of a value or a slice, `Read` of one value, `Read` into a slice of `n` elements (of booleans:
`bits`; an empty slice, which panics before anything is sent, is `C56_empty_slice_panics`), with the sequence count and the path the client makes for the tag; one request of `ReadList` for several tags; and `WriteMap`, with
the entries in the order the map is iterated. -/
inductive Call where
  | write (seq : BitVec 16) (ioi : Ioi) (v : WVal)
  | read (seq : BitVec 16) (ioi : Ioi) (T : GoTy)
  | fill (seq : BitVec 16) (ioi : Ioi) (T : GoTy) (n : Nat)
  | bits (seq : BitVec 16) (ioi : Ioi) (n : Nat)
  | several (seq : BitVec 16) (tags : List MTag)
  | map (seq : BitVec 16) (entries : List (Ioi × WVal))

/-- write.go:221-302 `write_single`; read.go:597-636 `read[T]` and the slices of read.go:159-297, with 401-550
`Read_single`, whose replies are complete (`readT`, `readSliceT`); read.go:129-158 for booleans (`readBools`); read.go:792-862 and 864-1026, the exchange of
`readList`; udt_write.go:127-223 `WriteMap`. -/
def perform (C : Conv) (s : Settings) (y : Sys) : Call → Res Outcome × Sys
  | .write seq ioi v =>
    let (r, y) := exchange C y (connectedFrame s (writeBytes seq ioi v))
    (r >>= fun a => writeReply ⟨a.1.status, a.2⟩ >>= fun _ => .ok .done, y)
  | .read seq ioi T =>
    let (r, y) := exchange C y (connectedFrame s (ReadReq.bytes seq ⟨ioi.buffer, 1#16, none⟩))
    (r >>= fun a => readT T ioi [⟨a.1.status, a.2⟩] >>= fun v => .ok (.value v), y)
  | .fill seq ioi T n =>
    let (r, y) := exchange C y (connectedFrame s (ReadReq.bytes seq ⟨ioi.buffer, BitVec.ofNat 16 n, none⟩))
    (r >>= fun a => readSliceT T ioi n [⟨a.1.status, a.2⟩] >>= fun vs => .ok (.values vs), y)
  | .bits seq ioi n =>
    if n % 32 ≠ 0 then (.err .fail, y)
    else
      let (r, y) := exchange C y (connectedFrame s (ReadReq.bytes seq ⟨ioi.buffer, BitVec.ofNat 16 (n / 32), none⟩))
      (r >>= fun a => readBools ioi n [⟨a.1.status, a.2⟩] >>= fun bs => .ok (.values (bs.map .bool)), y)
  | .several seq tags =>
    let (r, y) := exchange C y (connectedFrame s (readListBytes seq tags))
    (r >>= fun a => multiReply tags ⟨a.1.status, a.2⟩ >>= fun vs => .ok (.several vs), y)
  | .map seq es =>
    match writeMapBytes seq es with
    | .err e => (.err e, y)
    | .panic => (.panic, y)
    | .ok b =>
      let (r, y) := exchange C y (connectedFrame s b)
      (r >>= fun a => writeMapReply ⟨a.1.status, a.2⟩ >>= fun _ => .ok .done, y)

/-- read.go:777-1028 `readList` of a client that is connected to the server: as `Gologix.readList`, with the replies the server
sends.  `seq i` is the sequence count of the client's `i`-th request. -/
def listOver (C : Conv) (s : Settings) (conn : Nat) (seq : Nat → BitVec 16) :
    Nat → Nat → Sys → List MTag → Option (Res (List RV) × Nat × Sys)
  | 0, _, _, _ => none
  | fuel + 1, i, y, tags =>
    match splitIndex conn 0 0 tags with
    | some k =>
      match listOver C s conn seq fuel i y (tags.take k) with
      | some (.ok v0, i, y) =>
        match listOver C s conn seq fuel i y (tags.drop k) with
        | some (.ok v1, i, y) => some (.ok (v0 ++ v1), i, y)
        | r => r
      | r => r
    | none =>
      let (r, y) := exchange C y (connectedFrame s (readListBytes (seq i) tags))
      some (r >>= fun a => multiReply tags ⟨a.1.status, a.2⟩, i + 1, y)

/-- partialread.go:71-85, the loop of `ReadList`, as `readBatches`. -/
def batchesOver (C : Conv) (s : Settings) (conn : Nat) (seq : Nat → BitVec 16) :
    Nat → Nat → Sys → List MTag → Option (Res (List RV) × Nat × Sys)
  | 0, _, _, _ => none
  | fuel + 1, i, y, tags =>
    if tags = [] then some (.ok [], i, y)
    else
      let n := countFit conn tags
      match listOver C s conn seq fuel i y (tags.take n) with
      | some (.ok v0, i, y) =>
        match batchesOver C s conn seq fuel i y (tags.drop n) with
        | some (.ok v1, i, y) => some (.ok (v0 ++ v1), i, y)
        | r => r
      | r => r

/-- One call after the other. -/
def performAll (C : Conv) (s : Settings) (y : Sys) : List Call → List (Res Outcome) × Sys
  | [] => ([], y)
  | c :: cs =>
    let (r, y) := perform C s y c
    let (rs, y) := performAll C s y cs
    (r :: rs, y)

/-- connect.go:70-170 `Connect` of a client whose TCP connection to the server is made.  What it sends first does not depend
on any reply, what it sends next depends on the replies before: an open request that has not been answered yet counts as
failed.  The client sends a third request if the second, with a large size, was refused. -/
def connect (C : Conv) (s : Settings) (ms : BitVec 32) (y : Sys) : Res Unit × Settings × Sys :=
  let reply (r : Res (EipHeader × Bytes)) : Res Reply := r >>= fun a => .ok ⟨a.1.status, a.2⟩
  let a := connectFrom s ms true (.err .eof) (.err .eof) (.err .eof)
  match a.sent[0]? with
  | none => (a.res, a.after, y)
  | some f1 =>
    let (r1, y) := exchange C y f1
    let reg : Res EipHeader := r1 >>= fun a => .ok a.1
    let a := connectFrom s ms true reg (.err .eof) (.err .eof)
    match a.sent[1]? with
    | none => (a.res, a.after, y)
    | some f2 =>
      let (r2, y) := exchange C y f2
      let a := connectFrom s ms true reg (reply r2) (reply r2)
      match a.sent[2]? with
      | none => (a.res, a.after, y)
      | some f3 =>
        let (r3, y) := exchange C y f3
        let a := connectFrom s ms true reg (reply r2) (reply r3)
        (a.res, a.after, y)

/-- disconnect.go:54-142 `Disconnect` of a connected client: the request is sent, and whatever comes back or does not, the socket
is closed.  The settings stay as they are. -/
def disconnect (C : Conv) (s : Settings) (y : Sys) : Sys :=
  { (exchange C y (unconnectedFrame s.cfg (closeMsg s.cfg))).2 with up := false }

/-- The client's socket breaks: server.go:209-246 reads no further request. -/
def hangUp (C : Conv) (y : Sys) : Sys := ⟨(serveStep C y.server).2, [], false⟩

/-- server.go:115-132 `serveTCP`: a new connection, with a handler of its own.  `addr` and `port` are the server's end. -/
def dialed (srv : Srv) (addr : Bytes) (port : BitVec 16) : Sys :=
  ⟨⟨⟨0#32, 0#32, 0#64, 0#32, 0#32, 0#16, addr, port⟩, srv, [], []⟩, [], true⟩

/-- A server with several clients: what the connections have in common (connection table, tags, router), and for every client
its settings and its connection.  The `srv` of a connection is not used: there is only the common one. -/
structure World where
  srv     : Srv
  clients : Nat → Settings × Sys

/-- A call of client `i`.  Every connection has its own goroutine (server.go:115-132), the requests are handled one at a
time: the tags have a lock (server_router.go:99, 155, 252), and what handling a request does with the other common state is not
interleaved with other requests here. -/
def World.perform (C : Conv) (w : World) (i : Nat) (c : Call) : Res Outcome × World :=
  let s := (w.clients i).1
  let y := (w.clients i).2
  let (r, y) := Session.perform C s { y with server := { y.server with srv := w.srv } } c
  (r, ⟨y.server.srv, fun j => if j = i then (s, y) else w.clients j⟩)

/-- Client `i` connects. -/
def World.connect (C : Conv) (w : World) (i : Nat) (ms : BitVec 32) : Res Unit × World :=
  let y := (w.clients i).2
  let (r, s, y) := Session.connect C (w.clients i).1 ms { y with server := { y.server with srv := w.srv } }
  (r, ⟨y.server.srv, fun j => if j = i then (s, y) else w.clients j⟩)

/-- Client `i` makes a TCP connection, on which it connects. -/
def World.arrive (C : Conv) (w : World) (i : Nat) (ms : BitVec 32) (addr : Bytes) (port : BitVec 16) : Res Unit × World :=
  World.connect C ⟨w.srv, fun j => if j = i then ((w.clients i).1, dialed w.srv addr port) else w.clients j⟩ i ms

/-- Client `i` disconnects. -/
def World.leave (C : Conv) (w : World) (i : Nat) : World :=
  let s := (w.clients i).1
  let y := (w.clients i).2
  let y := disconnect C s { y with server := { y.server with srv := w.srv } }
  ⟨y.server.srv, fun j => if j = i then (s, y) else w.clients j⟩

/-- Client `i` is gone without a word. -/
def World.vanish (C : Conv) (w : World) (i : Nat) : World :=
  let y := (w.clients i).2
  let y := hangUp C { y with server := { y.server with srv := w.srv } }
  ⟨y.server.srv, fun j => if j = i then ((w.clients i).1, y) else w.clients j⟩

/-- What a client does. -/
inductive Deed where
  | call (i : Nat) (c : Call)
  | arrive (i : Nat) (ms : BitVec 32) (addr : Bytes) (port : BitVec 16)
  | leave (i : Nat)
  | vanish (i : Nat)

def World.deed (C : Conv) (w : World) : Deed → Res Outcome × World
  | .call i c => w.perform C i c
  | .arrive i ms addr port =>
    let (r, w) := w.arrive C i ms addr port
    (r >>= fun _ => .ok .done, w)
  | .leave i => (.ok .done, w.leave C i)
  | .vanish i => (.ok .done, w.vanish C i)

/-- One after the other. -/
def World.live (C : Conv) (w : World) : List Deed → List (Res Outcome) × World
  | [] => ([], w)
  | d :: ds =>
    let (r, w) := w.deed C d
    let (rs, w) := w.live C ds
    (r :: rs, w)

/-- Calls of any clients, in the order they are served. -/
def World.performAll (C : Conv) (w : World) : List (Nat × Call) → List (Res Outcome) × World
  | [] => ([], w)
  | (i, c) :: cs =>
    let (r, w) := w.perform C i c
    let (rs, w) := w.performAll C cs
    (r :: rs, w)

end Gologix.Session
