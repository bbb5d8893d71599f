import Verif.Base.Bytes
/-
Sequence counts (client.go:23-35, client.go:101, getattr.go:256).
-/
namespace Gologix

/-- client.go:33-35 `sequencer`: `atomic.AddUint32(&sequenceValue, 1)` and the new value; also
`client.sequenceNumber.Add(1)` (getattr.go:256).  One atomic step. -/
def sequencer (v : BitVec 32) : BitVec 32 × BitVec 32 := (v + 1, v + 1)

/-- `SequenceCount: uint16(sequencer())` of the request builders, e.g. read.go:418. -/
def seqCount (v : BitVec 32) : BitVec 16 := v.setWidth 16

/-- Requests drawing counts from one generator, in the order a schedule (goroutine numbers) gives: who draws, and
the count drawn. -/
def draws (v : BitVec 32) : List Nat → List (Nat × BitVec 16)
  | [] => []
  | t :: ts => (t, seqCount (sequencer v).2) :: draws (sequencer v).1 ts

/-- A request of the client: all but GetAttrList draw from the process-wide generator, GetAttrList
(getattr.go:256) from the client's own. -/
inductive SeqReq where
  | any | getAttrList
deriving DecidableEq, Repr

/-- Counts of a sequence of requests on one client; `v` is the process-wide value, `w` the client's. -/
def counts (v w : BitVec 32) : List SeqReq → List (BitVec 16)
  | [] => []
  | .any :: rs => seqCount (sequencer v).2 :: counts (sequencer v).1 w rs
  | .getAttrList :: rs => seqCount (sequencer w).2 :: counts v (sequencer w).1 rs

end Gologix
