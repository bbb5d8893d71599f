import Verif.Model.Session
import Verif.Model.Listing
import Verif.Model.Segments
import Verif.Model.DataTable
/-
What a connected client asks the server about itself.
-/
namespace Gologix.Session
open Gologix Gologix.Server Gologix.Connect

/-- listidentity.go:47-76 `ListIdentity`. -/
def askIdentity (C : Conv) (s : Settings) (y : Sys) : Res IdentityBody × Sys :=
  let (r, y) := exchange C y (sendMsgBuild { session := s.session, context := s.context } 0x63#16 [])
  (r >>= fun a => listIdentity a.2, y)

/-- listservices.go:40-62 `ListServices`. -/
def askServices (C : Conv) (s : Settings) (y : Sys) : Res (List ServiceRec) × Sys :=
  let (r, y) := exchange C y (sendMsgBuild { session := s.session, context := s.context } 0x04#16 [])
  (r >>= fun a => listServices a.2, y)

/-- getattr.go:108-132, the request of `GetAttrSingle`. -/
def attrSingleRequest (seq cls : BitVec 16) (inst : BitVec 32) (attr : BitVec 16) : Bytes :=
  putBV seq ++ 0x0E#8 :: getAttrSinglePathLength cls inst attr :: getAttrSinglePath cls inst attr

/-- getattr.go:101-162 `GetAttrSingle`: the bytes of the item that are not read yet. -/
def askAttribute (C : Conv) (s : Settings) (y : Sys) (seq cls : BitVec 16) (inst : BitVec 32) (attr : BitVec 16) :
    Res Bytes × Sys :=
  let (r, y) := exchange C y (connectedFrame s (attrSingleRequest seq cls inst attr))
  (r >>= fun a => getAttrSingleReply ⟨a.1.status, a.2⟩, y)

/-- getattr.go:421-487 `GenericCIPMessage`. -/
def askGeneric (C : Conv) (s : Settings) (y : Sys) (seq : BitVec 16) (svc : Byte) (path data : Bytes) : Res Bytes × Sys :=
  let (r, y) := exchange C y (connectedFrame s (genericRequest seq svc path data))
  (r >>= fun a => genericReply svc ⟨a.1.status, a.2⟩, y)

/-- A question of a client, and the answer. -/
inductive Query where
  | identity
  | services
  | attribute (seq cls : BitVec 16) (inst : BitVec 32) (attr : BitVec 16)
  | generic (seq : BitVec 16) (svc : Byte) (path data : Bytes)

inductive Answer where
  | identity (b : IdentityBody)
  | services (l : List ServiceRec)
  | bytes (b : Bytes)
deriving DecidableEq

def ask (C : Conv) (s : Settings) (y : Sys) : Query → Res Answer × Sys
  | .identity => let (r, y) := askIdentity C s y; (r >>= fun b => .ok (.identity b), y)
  | .services => let (r, y) := askServices C s y; (r >>= fun l => .ok (.services l), y)
  | .attribute seq cls inst attr => let (r, y) := askAttribute C s y seq cls inst attr; (r >>= fun b => .ok (.bytes b), y)
  | .generic seq svc path data => let (r, y) := askGeneric C s y seq svc path data; (r >>= fun b => .ok (.bytes b), y)

/-- Client `i` of a server asks; see `World.perform`. -/
def World.ask (C : Conv) (w : World) (i : Nat) (q : Query) : Res Answer × World :=
  let s := (w.clients i).1
  let y := (w.clients i).2
  let (r, y) := Session.ask C s { y with server := { y.server with srv := w.srv } } q
  (r, ⟨y.server.srv, fun j => if j = i then (s, y) else w.clients j⟩)

end Gologix.Session
