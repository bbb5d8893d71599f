import Verif.Spec.Wire
import Verif.Model.ServerIo
/-
Specification of class 1 messages, as byte layouts (CIP networks library volumes 1 and 2: sequenced address
item, connected data item, 32-bit header real time format).
-/
namespace Gologix.Spec

/-- A datagram of a connection: sequenced address item with connection and sequence number, connected data
item. -/
def ioMessage (conn seq : BitVec 32) (data : Bytes) : Bytes :=
  cpf [(0x8002#16, le 4 conn.toNat ++ le 4 seq.toNat), (0xB1#16, data)]

/-- Data from target to originator: 16-bit sequence count, then the input data. -/
def ioInput (conn seq : BitVec 32) (input : Bytes) : Bytes :=
  ioMessage conn seq (le 2 (seq.toNat % 65536) ++ input)

/-- Data from originator to target: 16-bit sequence count, 32-bit run/idle header, then the output data. -/
def ioOutput (conn seq : BitVec 32) (count : BitVec 16) (hdr : BitVec 32) (output : Bytes) : Bytes :=
  ioMessage conn seq (le 2 count.toNat ++ (le 4 hdr.toNat ++ output))

/-- Every field of the shape has at least one byte, so that reading it from nothing fails. -/
def solid : Ty → Bool
  | .cons _ f rest => 0 < f.flat && solid f && solid rest
  | _ => true

/-- The inputs that the messages of a connection have to carry: at every tick of the open connection, the
value set last. -/
def inputsAt {tin tout : Ty} : tin.Val → List (ServerIo.Ev tin tout) → List tin.Val
  | _, [] => []
  | _, .set w :: es => inputsAt w es
  | v, .tick :: es => v :: inputsAt v es
  | v, .recv _ :: es => inputsAt v es
  | _, .close :: _ => []

end Gologix.Spec
