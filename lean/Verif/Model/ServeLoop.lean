import Verif.Model.ServerIo
/-
The loops of the server: server.go:63-132 `Serve` and `serveTCP`, and the loop of 142-200 `serveUDP`.

What the operating system does is a list of events.  The handlers of connections and the endpoints run on their own; what
is kept is which handlers are started, and which endpoints are given which items.  The connection table and the router
are those of the moment of each datagram.  An endpoint that crashes is not modelled here.
-/
namespace Gologix.ServeLoop
open Gologix.ServerIo Gologix.Server

/-- What a call of `Accept` or `ReadFrom` gives. -/
inductive SEv where
  /-- A connection, or an error. -/
  | accept (conn : Option Nat)
  /-- What is received, the error, and the tables at that moment. -/
  | datagram (dg : Bytes) (failed : Bool) (conns : ConnTable) (router : Router Nat)

/-- The state of `Serve`: the listeners, the loops, what it has returned, and what it has started. -/
structure SrvRun where
  tcpOpen   : Bool
  udpOpen   : Bool
  /-- What was sent on the error channel. -/
  failed    : Option Err
  /-- `some` when `Serve` has returned. -/
  returned  : Option Err
  handlers  : List Nat
  delivered : List (Nat × List Item)

/-- server.go:116-132, one round of `serveTCP`: what it returns, if it does, and the handler it starts. -/
def tcpRound : Option Nat → Option Err × List Nat
  | none => (none, [])
  | some c => (none, [c])

/-- server.go:142-200, one round of `serveUDP`. -/
def udpRound (dg : Bytes) (failed : Bool) (conns : ConnTable) (router : Router Nat) :
    Option Err × List (Nat × List Item) :=
  if dg.length = 0 then (none, [])
  else if dg.length = 4096 then (none, [])
  else if failed then (none, [])
  else match udpTarget conns router dg with
    | .ok x => (none, [x])
    | .err _ => (none, [])
    | .panic => (none, [])

/-- server.go:98-112: what comes on the error channel ends `Serve`, which closes both listeners. -/
def SrvRun.fail (s : SrvRun) (e : Err) : SrvRun :=
  { s with failed := some e, returned := some e, tcpOpen := false, udpOpen := false }

def SrvRun.after (s : SrvRun) : Option Err → SrvRun
  | none => s
  | some e => s.fail e

/-- server.go:82-99: one event.  A loop that has returned takes part no more. -/
def serveStep (s : SrvRun) : SEv → SrvRun
  | .accept c =>
    let r := tcpRound c
    { s with handlers := s.handlers ++ r.2 }.after r.1
  | .datagram dg failed conns router =>
    let r := udpRound dg failed conns router
    { s with delivered := s.delivered ++ r.2 }.after r.1

/-- server.go:63-112 `Serve`; `tcp` and `udp` are the outcomes of opening the listeners. -/
def serve (tcp udp : Option Err) (evs : List SEv) : SrvRun :=
  match tcp with
  | some e => ⟨false, false, none, some e, [], []⟩
  | none =>
    match udp with
    | some e => ⟨true, false, none, some e, [], []⟩
    | none => evs.foldl serveStep ⟨true, true, none, none, [], []⟩

end Gologix.ServeLoop
