import Verif.Model.Client
/-
What is claimed of goroutines sharing a client, in terms of the log of a run only.
-/
namespace Gologix.Conc.Spec

/-- One use of the connection by one goroutine: the part of its request that was sent, the bytes received
after it, and the reply handed to the goroutine if the exchange succeeded. -/
structure Exchange where
  t : Nat
  c : Nat
  req : Bytes
  sent : Bytes
  recv : Bytes
  reply : Option (Bytes × Bytes)

/-- The number of bytes a header announces: bytes 2 and 3, little-endian. -/
def announced (h : Bytes) : Nat := (h.getD 2 0#8).toNat + 256 * (h.getD 3 0#8).toNat

/-- Bytes are received only after the whole request was sent, and the reply is exactly what was received: a
24-byte header and as many bytes as it announces. -/
def Exchange.Proper (e : Exchange) : Prop :=
  e.sent <+: e.req ∧ (e.recv ≠ [] → e.sent = e.req) ∧
  ∀ h p, e.reply = some (h, p) → e.sent = e.req ∧ e.recv = h ++ p ∧ h.length = 24 ∧ p.length = announced h

/-- An exchange as events on the wire. -/
def Exchange.events (e : Exchange) : List Wire :=
  e.sent.map (.out e.t e.c) ++ e.recv.map (.inp e.t e.c) ++
    match e.reply with
    | some (h, p) => [.handed e.t e.req h p]
    | none => []

/-- A log that consists of exchanges one after the other. -/
inductive Exchanges : List Wire → Prop
  | nil : Exchanges []
  | snoc (w : List Wire) (e : Exchange) : Exchanges w → e.Proper → Exchanges (w ++ e.events)

/-- Bytes sent on, and received from, a connection according to the log. -/
def sentOn (c : Nat) (w : List Wire) : Bytes :=
  w.filterMap fun | .out _ c' x => if c' = c then some x else none | _ => none

def recvOn (c : Nat) (w : List Wire) : Bytes :=
  w.filterMap fun | .inp _ c' x => if c' = c then some x else none | _ => none

/-- Status last set by goroutine `t` during its present or most recent call. -/
def lastSet (t : Nat) (ns : List Note) : Option Status :=
  ns.foldl (fun acc n => match n with
    | .called t' _ => if t' = t then none else acc
    | .status t' s => if t' = t then some s else acc
    | _ => acc) none

/-- The status according to the log. -/
def statusOf (ns : List Note) : Status :=
  ns.foldl (fun acc n => match n with
    | .status _ s => s
    | _ => acc) .disconnected

/-- The only changes of status there are. -/
inductive Move : Status → Status → Prop
  | start : Move .disconnected .connecting
  | opened : Move .connecting .connected
  | failed : Move .connecting .disconnected
  | leave : Move .connected .disconnecting
  | left : Move .disconnecting .disconnected

/-- What an event may be, given the events before it: a status changes only by a move; only a goroutine that
has itself gone to `connecting` in this call dials; an accepted Connect that succeeds has set the status to
connected last, any other accepted Connect or Disconnect to disconnected, and a refused one has not set it. -/
def NoteOK (pre : List Note) : Note → Prop
  | .called _ _ => True
  | .status _ st => Move (statusOf pre) st
  | .dialled t | .opened t _ => lastSet t pre = some .connecting
  | .result t cn true ok => lastSet t pre = some (if cn && ok then .connected else .disconnected)
  | .result t _ false ok => lastSet t pre = none ∧ ok = false

/-- Connection `c` was opened by a Connect that then failed: the next status its goroutine set was disconnected. -/
def Abandoned (c : Nat) (ns : List Note) : Prop :=
  ∃ t pre mid post, ns = pre ++ .opened t c :: mid ++ .status t .disconnected :: post ∧ ∀ st, .status t st ∉ mid

end Gologix.Conc.Spec
