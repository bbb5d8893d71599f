import Verif.Base.Bytes
/-
Starting and cancelling the keep-alive: connect.go:166-168, 195-272, disconnect.go:146-152.

Goroutines take turns at any point; each of the steps below is taken as one.  What the keep-alive sends is in
`Model/Client`.  `KeepAliveAutoStart` is a field of the client that the caller sets before the first call; later only the
library changes it.
-/
namespace Gologix.KeepAlive

structure St where
  /-- `KeepAliveAutoStart` -/
  auto    : Bool
  /-- `SocketTimeout` is zero. -/
  noTimeout : Bool
  /-- Channels made so far. -/
  chans   : Nat := 0
  /-- `cancel_keepalive`; `none` is nil. -/
  cur     : Option Nat := none
  /-- The closed channels. -/
  closed  : List Nat := []
  /-- The running loops, as the channel each waits for. -/
  loops   : List Nat := []
  crashed : Bool := false
deriving DecidableEq, Repr

/-- What can happen next. -/
inductive Ev where
  /-- `KeepAlive` is called (connect.go:195). -/
  | start
  /-- A connection is made; line 166 starts the keep-alive if `KeepAliveAutoStart` is set. -/
  | connected
  /-- The `i`-th loop handles a tick and goes on (lines 229-263). -/
  | tick (i : Nat)
  /-- The `i`-th loop ends because of an error or because the client is not connected (lines 208, 219, 231, 242, 257). -/
  | ends (i : Nat)
  /-- The `i`-th loop finds its channel closed (lines 265-267). -/
  | stopped (i : Nat)
  /-- `KeepAliveCancel` -/
  | cancel (force : Bool)
deriving DecidableEq, Repr

/-- connect.go:195-226.  A keep-alive already running is only warned about. -/
def start (s : St) : St :=
  if !s.auto || s.noTimeout then s
  else { s with chans := s.chans + 1, cur := some s.chans, loops := s.loops ++ [s.chans] }

/-- disconnect.go:146-152; the result is whether there was no error. -/
def cancel (force : Bool) (s : St) : Bool × St :=
  if s.auto && !force then (false, s)
  else match s.cur with
    | none => (true, { s with crashed := true })
    | some c => if c ∈ s.closed then (true, { s with crashed := true }) else (true, { s with closed := c :: s.closed })

def step (s : St) : Ev → St
  | .start => start s
  | .connected => if s.auto then start s else s
  | .tick i =>
    match s.loops[i]?, s.cur with
    | some _, some c => { s with loops := s.loops.set i c }
    | _, _ => s
  | .ends i => { s with loops := s.loops.eraseIdx i }
  | .stopped i =>
    match s.loops[i]? with
    | some c => if c ∈ s.closed then { s with auto := false, loops := s.loops.eraseIdx i } else s
    | none => s
  | .cancel force => (cancel force s).2

def run (s : St) (es : List Ev) : St := es.foldl step s

end Gologix.KeepAlive
