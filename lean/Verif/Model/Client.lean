import Verif.Base.Bytes
/-
Goroutines sharing one client (connect.go, disconnect.go, sendreceive.go).

A goroutine is a program tree: its next action on the shared state and, for every result of it, what
follows.  The functions below are the Go functions written with these actions.  A step of the system runs
one action of one goroutine, or starts a call on an idle goroutine, or lets the network deliver bytes.
Sockets are written and read byte by byte, so that any interleaving the code permits is possible.

Simplifications.
* Steps are sequentially consistent: data races on unprotected fields (keepAliveRunning, conn) are taken
  as atomic reads and writes.
* What is sent (`pick`) and local outcomes such as the result of parsing (`choose`) are arbitrary.
* The network delivers nothing on a connection on which nothing was sent: a device does not speak first.
* A Go panic is a crash of the whole program.  Panics while parsing a reply are in C26, not here.
* `net.Conn.Write` writes everything or fails (io.Writer), so the loop of sendData runs once.
-/
namespace Gologix.Conc

/-- client.go:15-20. -/
inductive Status where
  | disconnected | connecting | connected | disconnecting
deriving DecidableEq, Repr

inductive Act where
  | lock | unlock                       -- client.mutex
  | getStatus | setStatus (s : Status)  -- client.connStatus
  | dial | dialing                      -- net.DialTimeout, called and in progress
  | write (b : Bytes)                   -- conn.Write, called
  | writing (c : Nat) (b : Bytes)       -- and in progress on connection c, b still to send
  | read (n : Nat)                      -- binary.Read of n bytes from client.conn, called
  | reading (c n : Nat) (acc : Bytes)   -- and in progress
  | close                               -- client.conn.Close
  | handed (req h p : Bytes)            -- recvData has returned this reply (a mark in the log)
  | result (connect accepted ok : Bool) -- Connect or Disconnect returns (a mark in the log)
  | choose | pick                       -- anything
  | kaStart | kaEnd | kaClose | kaWait  -- keep-alive: running flag and cancel channel
  | abort                               -- recursion too deep (proved unreachable)
deriving DecidableEq, Repr

@[reducible] def Act.Ret : Act → Type
  | .getStatus => Status
  | .dial | .dialing | .write _ | .writing _ _ | .choose | .kaWait => Bool
  | .read _ | .reading _ _ _ => Option Bytes
  | .pick => Bytes
  | _ => Unit

inductive Prog (α : Type) : Type where
  | pure (a : α)
  | act (a : Act) (k : a.Ret → Prog α)

namespace Prog

def bind {α β : Type} : Prog α → (α → Prog β) → Prog β
  | .pure a, f => f a
  | .act a k, f => .act a fun r => (k r).bind f

instance : Monad Prog where
  pure := .pure
  bind := .bind

/-- One action. -/
def one (a : Act) : Prog a.Ret := .act a .pure

end Prog
open Prog (one)

/-- connect.go:24-40 `startConnect`: true if this caller is to connect. -/
def startConnect : Prog Bool := do
  one .lock
  match ← one .getStatus with
  | .disconnected => do
    one (.setStatus .connecting)
    one .unlock
    return true
  | _ => do
    one .unlock
    return false

/-- disconnect.go:8-27 `startDisconnect`: true if this caller is to disconnect. -/
def startDisconnect : Prog Bool := do
  one .lock
  match ← one .getStatus with
  | .connected => do
    one (.setStatus .disconnecting)
    one .unlock
    return true
  | _ => do
    one .unlock
    return false

/-- `client.mutex.Lock(); client.connStatus = s; client.mutex.Unlock()`. -/
def finish (s : Status) : Prog Unit := do
  one .lock
  one (.setStatus s)
  one .unlock

/-- The length field of an encapsulation header. -/
def hdrLen (h : Bytes) : Nat := unle ((h.drop 2).take 2)

/-- sendreceive.go:109-151 `recvData`. -/
def recvData : Prog (Option (Bytes × Bytes)) := do
  match ← one (.read 24) with
  | none => return none
  | some h =>
    if 0 < hdrLen h then
      match ← one (.read (hdrLen h)) with
      | none => return none
      | some p => return some (h, p)
    else return some (h, [])

/-- sendreceive.go:79-106 `send_recv_data`; `disc` is the call of Disconnect on errors. -/
def sendRecvWith (disc : Prog (Bool × Bool)) (req : Bytes) : Prog (Option (Bytes × Bytes)) := do
  one .lock
  if ← one (.write req) then
    match ← recvData with
    | some (h, p) =>
      one (.handed req h p)
      one .unlock
      return some (h, p)
    | none => do
      one .unlock
      let _ ← disc
      return none
  else do
    one .unlock
    let _ ← disc
    return none

/-- disconnect.go:68-141: the part of Disconnect between startDisconnect and the deferred function.  The errors of
lines 81-109 cannot happen: binary.Write to a buffer fails only for values without a fixed size, and what is
serialized there are the path, constants and a structure of numbers (items.go:214-282). -/
def disconnectBody (exch : Bytes → Prog (Option (Bytes × Bytes))) : Prog Bool := do
  one .kaClose
  if ← one .choose then pure ()           -- serializeItems, lines 112-116
  else do
    let _ ← exch (← one .pick)
    pure ()
  one .close
  return true

/-- disconnect.go:54-142 `Disconnect`: whether it was accepted by startDisconnect, and whether it returns
no error.  The argument bounds the recursion Disconnect - send_recv_data - Disconnect. -/
def disconnectN : Nat → Prog (Bool × Bool)
  | 0 => do one .abort; return (false, false)
  | n + 1 => do
    if ← startDisconnect then
      let ok ← disconnectBody (sendRecvWith (disconnectN n))
      finish .disconnected
      return (true, ok)
    else return (false, false)

def disconnect : Prog (Bool × Bool) := disconnectN 2

def sendRecv (req : Bytes) : Prog (Option (Bytes × Bytes)) := sendRecvWith disconnect req

/-- connect.go:178-193 `registerSession`. -/
def registerSession : Prog Bool := do
  match ← sendRecv (← one .pick) with
  | some _ => return true
  | none => return false

/-- connect.go:479-517 `forwardOpen`, with the building of the message before it. -/
def forwardOpen : Prog Bool := do
  if ← one .choose then return false       -- building failed
  else match ← sendRecv (← one .pick) with
    | some _ => one .choose                -- status and contents of the reply
    | none => return false

/-- connect.go:89-165: the part of Connect between startConnect and the deferred function. -/
def connectBody : Prog Bool := do
  if ← one .choose then return false       -- default path, lines 116-123
  else if ← one .dial then
    if ← registerSession then
      let large ← one .choose
      if large then
        if ← one .choose then return false -- newForwardOpenLarge failed, lines 144-146
        else if ← forwardOpen then return true
        else forwardOpen
      else forwardOpen
    else return false
  else return false

/-- connect.go:70-170 `Connect`: whether it was accepted by startConnect, and whether it succeeds. -/
def connect : Prog (Bool × Bool) := do
  if ← startConnect then
    let ok ← connectBody
    finish (if ok then .connected else .disconnected)
    return (true, ok)
  else return (false, false)

/-- connect.go:172-176 `Connected`. -/
def isConnected : Prog Bool := do
  one .lock
  let s ← one .getStatus
  one .unlock
  return (s = .connected : Bool)

/-- connect.go:547-559 `checkConnection`. -/
def checkConnection : Prog Bool := do
  if ← isConnected then return true
  else if ← one .choose then               -- AutoConnect
    let r ← connect
    return r.2
  else return false

/-- Any read, write or other request of the client: check the connection, exchange, parse. -/
def request : Prog Bool := do
  if ← checkConnection then
    match ← sendRecv (← one .pick) with
    | some _ => one .choose
    | none => return false
  else return false

/-- connect.go:226-271: the keep-alive loop, for at most `n` rounds. -/
def keepAliveLoop : Nat → Prog Unit
  | 0 => return ()
  | n + 1 => do
    if ← one .kaWait then                  -- a tick
      if ← isConnected then
        if ← request then
          if ← one .choose then            -- lines 252-256
            if ← request then keepAliveLoop n else return ()
          else keepAliveLoop n
        else do
          let _ ← disconnect
          return ()
      else return ()
    else return ()                         -- cancelled

/-- connect.go:195-272 `KeepAlive`. -/
def keepAlive (n : Nat) : Prog Unit := do
  one .kaStart
  if ← request then keepAliveLoop n else pure ()
  one .kaEnd

/-- Calls a goroutine can make. -/
inductive Op where
  | connect | disconnect | request | keepAlive (n : Nat)
deriving DecidableEq, Repr

def Op.prog : Op → Prog Unit
  | .connect => do let r ← Conc.connect; one (.result true r.1 r.2)
  | .disconnect => do let r ← Conc.disconnect; one (.result false r.1 r.2)
  | .request => do let _ ← Conc.request
  | .keepAlive n => Conc.keepAlive n

/-- What happens on the sockets, in order: a byte sent, a byte received, a reply handed to its caller. -/
inductive Wire where
  | out (t c : Nat) (x : Byte)
  | inp (t c : Nat) (x : Byte)
  | handed (t : Nat) (req h p : Bytes)
deriving DecidableEq, Repr

/-- What happens to the calls, in order. -/
inductive Note where
  | called (t : Nat) (op : Op)
  | status (t : Nat) (s : Status)
  | dialled (t : Nat)
  | opened (t c : Nat)
  | result (t : Nat) (connect accepted ok : Bool)
deriving DecidableEq, Repr

/-- A TCP connection: bytes sent, bytes delivered and how many of them were read, closed by us. -/
structure Sock where
  sent : Bytes := []
  delivered : Bytes := []
  taken : Nat := 0
  closed : Bool := false
deriving DecidableEq, Repr

structure Client where
  status : Status := .disconnected
  lock : Option Nat := none
  conn : Option Nat := none
  socks : Nat → Sock := fun _ => {}
  nconn : Nat := 0                     -- connections dialled so far
  kaRunning : Bool := false
  kaOpen : Bool := false               -- the cancel channel is open
  crashed : Bool := false
  prog : Nat → Prog Unit := fun _ => .pure ()
  wire : List Wire := []
  notes : List Note := []

def Client.init : Client := {}

/-- Replace the value of a function at one argument. -/
def upd {α : Type} (f : Nat → α) (i : Nat) (x : α) : Nat → α := fun j => if j = i then x else f j

/-- A scheduler's choice. -/
inductive Choice where
  | call (t : Nat) (op : Op)
  | run (t : Nat) (ok : Bool) (b : Bytes)   -- next action of t, which succeeds or not; b is what `pick` returns
  | deliver (c : Nat) (b : Bytes)
deriving DecidableEq, Repr

/-- One action of goroutine `t`; none if it cannot happen now. -/
def exec (s : Client) (t : Nat) (ok : Bool) (b : Bytes) : Prog Unit → Option Client
  | .pure _ => none
  | .act .lock k => if s.lock = none then some { s with lock := some t, prog := upd s.prog t (k ()) } else none
  | .act .unlock k => some { s with lock := none, prog := upd s.prog t (k ()) }
  | .act .getStatus k => some { s with prog := upd s.prog t (k s.status) }
  | .act (.setStatus st) k =>
    some { s with status := st, prog := upd s.prog t (k ()), notes := s.notes ++ [.status t st] }
  | .act .dial k => some { s with prog := upd s.prog t (.act .dialing k), notes := s.notes ++ [.dialled t] }
  | .act .dialing k =>
    if ok then some { s with conn := some s.nconn, nconn := s.nconn + 1, prog := upd s.prog t (k true),
                             notes := s.notes ++ [.opened t s.nconn] }
    else some { s with conn := none, prog := upd s.prog t (k false) }
  | .act (.write d) k =>
    match s.conn with
    | none => some { s with crashed := true }      -- a nil connection
    | some c => some { s with prog := upd s.prog t (.act (.writing c d) k) }
  | .act (.writing _ []) k => some { s with prog := upd s.prog t (k true) }
  | .act (.writing c (x :: d)) k =>
    if ok then
      if (s.socks c).closed then none
      else some { s with socks := upd s.socks c { s.socks c with sent := (s.socks c).sent ++ [x] },
                         wire := s.wire ++ [.out t c x], prog := upd s.prog t (.act (.writing c d) k) }
    else some { s with prog := upd s.prog t (k false) }
  | .act (.read n) k =>
    match s.conn with
    | none => some { s with crashed := true }
    | some c => some { s with prog := upd s.prog t (.act (.reading c n []) k) }
  | .act (.reading c n acc) k =>
    if acc.length = n then some { s with prog := upd s.prog t (k (some acc)) }
    else if ok then
      match (s.socks c).delivered[(s.socks c).taken]? with
      | some x =>
        if (s.socks c).closed then none
        else some { s with socks := upd s.socks c { s.socks c with taken := (s.socks c).taken + 1 },
                           wire := s.wire ++ [.inp t c x],
                           prog := upd s.prog t (.act (.reading c n (acc ++ [x])) k) }
      | none => none
    else some { s with prog := upd s.prog t (k none) }
  | .act .close k =>
    match s.conn with
    | none => some { s with crashed := true }
    | some c => some { s with socks := upd s.socks c { s.socks c with closed := true },
                              prog := upd s.prog t (k ()) }
  | .act (.handed req h p) k => some { s with wire := s.wire ++ [.handed t req h p], prog := upd s.prog t (k ()) }
  | .act (.result cn ac r) k =>
    some { s with notes := s.notes ++ [.result t cn ac r], prog := upd s.prog t (k ()) }
  | .act .choose k => some { s with prog := upd s.prog t (k ok) }
  | .act .pick k => some { s with prog := upd s.prog t (k b) }
  | .act .kaStart k => some { s with kaRunning := true, kaOpen := true, prog := upd s.prog t (k ()) }
  | .act .kaEnd k => some { s with kaRunning := false, prog := upd s.prog t (k ()) }
  | .act .kaClose k =>                              -- disconnect.go:68-70
    if s.kaRunning then
      if s.kaOpen then some { s with kaOpen := false, prog := upd s.prog t (k ()) }
      else some { s with crashed := true }          -- close of closed channel
    else some { s with prog := upd s.prog t (k ()) }
  | .act .kaWait k =>
    if ok then some { s with prog := upd s.prog t (k true) }
    else if s.kaOpen then none else some { s with prog := upd s.prog t (k false) }
  | .act .abort _ => some { s with crashed := true }

def Prog.isPure {α : Type} : Prog α → Bool
  | .pure _ => true
  | _ => false

/-- One step of the system. -/
def step (s : Client) (ch : Choice) : Option Client :=
  if s.crashed then none else
  match ch with
  | .call t op =>
    if (s.prog t).isPure then some { s with prog := upd s.prog t op.prog, notes := s.notes ++ [.called t op] }
    else none
  | .run t ok b => exec s t ok b (s.prog t)
  | .deliver c b =>
    if (s.socks c).sent = [] then none
    else some { s with socks := upd s.socks c { s.socks c with delivered := (s.socks c).delivered ++ b } }

/-- A run of the system. -/
def runs (s : Client) : List Choice → Option Client
  | [] => some s
  | ch :: cs => (step s ch).bind fun s => runs s cs

/-- States some run leads to. -/
def Reach (s : Client) : Prop := ∃ cs, runs .init cs = some s

end Gologix.Conc
