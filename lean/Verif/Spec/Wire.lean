import Verif.Base.Bytes
/-
Specification of the encapsulation and common packet formats, written as byte layouts
(CIP networks library volume 2: encapsulation header, common packet format).
-/
namespace Gologix.Spec

/-- Layout of one encapsulation frame: command, payload length, session, status 0, context, options 0,
payload. -/
def frame (cmd : BitVec 16) (session : BitVec 32) (context : BitVec 64) (payload : Bytes) : Bytes :=
  le 2 cmd.toNat ++ (le 2 payload.length ++ (le 4 session.toNat ++ (le 4 0 ++ (le 8 context.toNat ++
    (le 4 0 ++ payload)))))

/-- What a reader of frames reports. -/
structure Msg where
  cmd     : BitVec 16
  session : BitVec 32
  context : BitVec 64
  payload : Bytes
deriving DecidableEq, Repr

/-- Layout of a common packet format item. -/
def item (id : BitVec 16) (data : Bytes) : Bytes := le 2 id.toNat ++ (le 2 data.length ++ data)

/-- Layout of the common packet format: item count, then the items. -/
def cpf (items : List (BitVec 16 × Bytes)) : Bytes :=
  le 2 items.length ++ (items.map fun i => item i.1 i.2).flatten

end Gologix.Spec
