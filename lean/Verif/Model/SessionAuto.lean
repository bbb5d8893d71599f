import Verif.Model.Session
/-
A client that connects by itself, and a server of this library.
-/
namespace Gologix.Session
open Gologix Gologix.Server Gologix.Connect

/-- A client and the server it talks to: whether the client takes itself for connected (`connStatus`, client.go), and whether
it has ever had a socket (`conn`).  Dialing succeeds here; what a dial that fails leaves behind is `C62_nil_connection_crash`. -/
structure Caller where
  settings  : Settings
  sys       : Sys
  connected : Bool
  opened    : Bool

/-- The frame a call sends, if it sends one: the exchanges of `perform`. -/
def Call.frame (s : Settings) : Call → Option Bytes
  | .write seq ioi v => some (connectedFrame s (writeBytes seq ioi v))
  | .read seq ioi _ => some (connectedFrame s (ReadReq.bytes seq ⟨ioi.buffer, 1#16, none⟩))
  | .fill seq ioi _ n => some (connectedFrame s (ReadReq.bytes seq ⟨ioi.buffer, BitVec.ofNat 16 n, none⟩))
  | .bits seq ioi n =>
    if n % 32 ≠ 0 then none
    else some (connectedFrame s (ReadReq.bytes seq ⟨ioi.buffer, BitVec.ofNat 16 (n / 32), none⟩))
  | .several seq tags => some (connectedFrame s (readListBytes seq tags))
  | .map seq es =>
    match writeMapBytes seq es with
    | .ok b => some (connectedFrame s b)
    | _ => none

/-- sendreceive.go:86-105: a frame that cannot be sent, or that is not answered with a whole frame, disconnects the client. -/
def Call.answered (C : Conv) (s : Settings) (y : Sys) (c : Call) : Bool :=
  match c.frame s with
  | none => true
  | some f =>
    match (exchange C y f).1 with
    | .ok _ => true
    | _ => false

/-- Which calls begin with `checkConnection`: read.go:39, 403, 710 and 1110, partialread.go:50, write.go:50 and 102, but not
udt_write.go:127 `WriteMap`. -/
def Call.checks : Call → Bool
  | .map _ _ => false
  | _ => true

/-- connect.go:547-559 `checkConnection`, with the status `Connect` leaves (connect.go:75-88).  `auto` is `AutoConnect`, `ms` the
time of day. -/
def Caller.check (C : Conv) (auto : Bool) (ms : BitVec 32) (addr : Bytes) (port : BitVec 16) (a : Caller) : Res Unit × Caller :=
  if a.connected then (.ok (), a)
  else if auto then
    match connect C a.settings ms (dialed a.sys.server.srv addr port) with
    | (.ok _, s, y) => (.ok (), ⟨s, y, true, true⟩)
    | (r, s, y) => (r, ⟨s, y, false, true⟩)
  else (.err .fail, a)

/-- A call of a client that may not be connected.  Without a socket, sending a frame crashes (sendreceive.go:52-76). -/
def Caller.call (C : Conv) (auto : Bool) (ms : BitVec 32) (addr : Bytes) (port : BitVec 16) (a : Caller) (c : Call) :
    Res Outcome × Caller :=
  match (if c.checks then a.check C auto ms addr port else (.ok (), a)) with
  | (.err e, a) => (.err e, a)
  | (.panic, a) => (.panic, a)
  | (.ok _, a) =>
    if !a.opened && (c.frame a.settings).isSome then (.panic, a)
    else
      let (r, y) := perform C a.settings a.sys c
      (r, { a with sys := y, connected := a.connected && c.answered C a.settings a.sys })

/-- One call after the other, each with the time it is made at. -/
def Caller.calls (C : Conv) (auto : Bool) (addr : Bytes) (port : BitVec 16) (a : Caller) :
    List (BitVec 32 × Call) → List (Res Outcome) × Caller
  | [] => ([], a)
  | (ms, c) :: cs =>
    let (r, a) := a.call C auto ms addr port c
    let (rs, a) := a.calls C auto addr port cs
    (r :: rs, a)

end Gologix.Session
