import Verif.Model.SessionAsk
import Verif.Model.Controller
/-
The keep-alive and the questions about the controller of a client that is connected to a server of this library.
-/
namespace Gologix.Session
open Gologix Gologix.Server Gologix.Connect

/-- getattr.go:244-316 `GetAttrList`: the bytes of the item that are not read yet. -/
def askAttributes (C : Conv) (s : Settings) (y : Sys) (seq cls : BitVec 16) (inst : BitVec 32) (attrs : List (BitVec 16)) :
    Res Bytes × Sys :=
  let (r, y) := exchange C y (connectedFrame s (attrListRequest seq cls inst attrs))
  (r >>= fun a => getAttrListReply ⟨a.1.status, a.2⟩, y)

/-- getattr.go:211-226 `GetControllerPropList`. -/
def askProps (C : Conv) (s : Settings) (y : Sys) (seq : BitVec 16) : Res PropList × Sys :=
  let (r, y) := askAttributes C s y seq 0xAC#16 1#32 [1, 2, 3, 4, 10]
  (r >>= readPropList, y)

/-- canned/forces.go:18-39 `GetForces`. -/
def askForces (C : Conv) (s : Settings) (y : Sys) (seq : BitVec 16) : Res (BitVec 16) × Sys :=
  let (r, y) := exchange C y (connectedFrame s (forcesRequest seq))
  (r >>= fun a => getForces ⟨a.1.status, a.2⟩, y)

/-- How a keep-alive stands: the attributes last seen, `none` when it has returned; and how many requests for them it has
sent. -/
structure Alive where
  last : Option Bytes
  sent : Nat
deriving DecidableEq, Repr

/-- connect.go:206-224, the beginning; `props` is `KeepAliveProps`, `poll` is `KeepAlivePollTags`, `list` is `ListAllTags`. -/
def aliveStart (C : Conv) (s : Settings) (seq : BitVec 16) (props : List (BitVec 16)) (poll : Bool) (list : Sys → Bool × Sys)
    (y : Sys) : Alive × Sys :=
  match askAttributes C s y seq 0xAC#16 1#32 props with
  | (.ok d, y) =>
    if poll then
      let (listed, y) := list y
      (⟨if listed then some d else none, 1⟩, y)
    else (⟨some d, 1⟩, y)
  | (_, y) => (⟨none, 1⟩, y)

/-- connect.go:229-263, one tick.  A request that fails disconnects the client. -/
def aliveTick (C : Conv) (s : Settings) (seq : BitVec 16) (props : List (BitVec 16)) (poll : Bool) (list : Sys → Bool × Sys)
    (a : Alive) (y : Sys) : Alive × Sys :=
  match a.last with
  | none => (a, y)
  | some old =>
    if !y.up then (⟨none, a.sent⟩, y)
    else
      match askAttributes C s y seq 0xAC#16 1#32 props with
      | (.ok d, y) =>
        if d = old then (⟨some d, a.sent + 1⟩, y)
        else if poll then
          let (listed, y) := list y
          (⟨if listed then some d else none, a.sent + 1⟩, y)
        else (⟨some d, a.sent + 1⟩, y)
      | (_, y) => (⟨none, a.sent + 1⟩, disconnect C s y)

/-- connect.go:195-272 `KeepAlive` of a connected client, for `n` ticks. -/
def aliveOver (C : Conv) (s : Settings) (seq : Nat → BitVec 16) (props : List (BitVec 16)) (poll : Bool)
    (list : Sys → Bool × Sys) (y : Sys) : Nat → Alive × Sys
  | 0 => aliveStart C s (seq 0) props poll list y
  | n + 1 =>
    let (a, y) := aliveOver C s seq props poll list y n
    aliveTick C s (seq (n + 1)) props poll list a y

end Gologix.Session
