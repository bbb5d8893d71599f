import Verif.Spec.ServerConn
/-
Which requests ask for cyclic data, and which leave the choice of identifiers to the server.
-/
namespace Gologix.Server.Spec
open Gologix

/-- The request opens a connection for cyclic data: transport class 1, triggered by the clock.  The length of
the path is counted in a byte. -/
def OpenReq.cyclic (o : OpenReq) : Prop :=
  o.sized ∧ o.trigger = 1#8 ∧ 2 ≤ o.path.length ∧ o.path.length = 2 * o.words.toNat % 256

instance (o : OpenReq) : Decidable o.cyclic := by unfold OpenReq.cyclic OpenReq.sized; infer_instance

/-- The input starts with a request that opens a connection for cyclic data along `path`, in the standard form
and with an interval. -/
def WantsData (inp path : Bytes) : Prop :=
  ∃ o : OpenReq, o.cyclic ∧ o.large = false ∧ o.torpi ≠ 0#32 ∧ Unconnected inp o.bytes ∧ path = o.path.take 2

/-- The input starts with a request to register a session that leaves the session number to the server. -/
def WantsSession (inp : Bytes) : Prop :=
  ∃ (len : BitVec 16) (status options : BitVec 32) (context : BitVec 64) (four rest : Bytes), four.length = 4 ∧
    inp = [0x65#8, 0#8] ++ le 2 len.toNat ++ [0#8, 0#8, 0#8, 0#8] ++ le 4 status.toNat ++ le 8 context.toNat ++
      le 4 options.toNat ++ (four ++ rest)

end Gologix.Server.Spec
