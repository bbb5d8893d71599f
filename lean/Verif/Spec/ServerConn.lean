import Verif.Spec.Server
import Verif.Spec.ServerTables
/-
Requests to open and to close a connection, and the reply to an open request, as bytes.
-/
namespace Gologix.Server.Spec
open Gologix

/-- A forward open request.  `head` are request path and timing, `mult` the timeout multiplier, `otpar` and
`topar` the network parameters (two bytes each, four in the large form), `words` the length of the
connection path in words, `more` whatever follows it. -/
structure OpenReq where
  large   : Bool
  head    : Bytes
  ot      : BitVec 32
  to      : BitVec 32
  serial  : BitVec 16
  vendor  : BitVec 16
  oserial : BitVec 32
  mult    : Bytes
  otrpi   : BitVec 32
  otpar   : Bytes
  torpi   : BitVec 32
  topar   : Bytes
  trigger : Byte
  words   : Byte
  path    : Bytes
  more    : Bytes

def OpenReq.service (o : OpenReq) : Byte := if o.large then 0x5B#8 else 0x54#8

def OpenReq.bytes (o : OpenReq) : Bytes :=
  o.service :: (o.head ++ (le 4 o.ot.toNat ++ (le 4 o.to.toNat ++ (le 2 o.serial.toNat ++
    (le 2 o.vendor.toNat ++ (le 4 o.oserial.toNat ++ (o.mult ++ (le 4 o.otrpi.toNat ++ (o.otpar ++
      (le 4 o.torpi.toNat ++ (o.topar ++ (o.trigger :: o.words :: (o.path ++ o.more)))))))))))))

/-- The sizes the format gives the fields. -/
def OpenReq.sized (o : OpenReq) : Prop :=
  o.head.length = 7 ∧ o.mult.length = 4 ∧ o.otpar.length = (if o.large then 4 else 2) ∧
    o.topar.length = (if o.large then 4 else 2)

/-- The sizes the format gives the fields, and a connection path of 1 to 127 words. -/
def OpenReq.wf (o : OpenReq) : Prop :=
  o.sized ∧ o.path.length = 2 * o.words.toNat ∧ 0 < o.words.toNat ∧ o.words.toNat < 128

instance (o : OpenReq) : Decidable o.wf := by unfold OpenReq.wf OpenReq.sized; infer_instance

/-- The data of the reply that accepts an open request with connection identifiers `ot` and `to`. -/
def OpenReq.reply (o : OpenReq) (ot to : BitVec 32) : Bytes :=
  [o.service ||| 0x80#8, 0#8, 0#8, 0#8] ++ le 4 ot.toNat ++ le 4 to.toNat ++ le 2 o.serial.toNat ++
    le 2 o.vendor.toNat ++ le 4 o.oserial.toNat ++ le 4 o.otrpi.toNat ++ le 4 o.torpi.toNat ++ [0#8, 0#8]

/-- A forward close request: service, `head` as above, serial number, `ids` (vendor and originator), length
of the connection path and the path. -/
structure CloseReq where
  head   : Bytes
  serial : BitVec 16
  ids    : Bytes
  words  : Byte
  more   : Bytes

def CloseReq.bytes (c : CloseReq) : Bytes :=
  0x4E#8 :: (c.head ++ (le 2 c.serial.toNat ++ (c.ids ++ (c.words :: c.more))))

def CloseReq.wf (c : CloseReq) : Prop := c.head.length = 7 ∧ c.ids.length = 6

instance (c : CloseReq) : Decidable c.wf := by unfold CloseReq.wf; infer_instance

/-- `inp` starts with an unconnected request with data `d`. -/
def Unconnected (inp d : Bytes) : Prop :=
  ∃ r rest, Req.wf r ∧ inp = r.bytes ++ rest ∧ r.cmd = 0x6F#16 ∧ r.id1 = 0xB2#16 ∧ r.data1 = d

/-- The data of the data item of a reply to an unconnected request. -/
def rrData (f : Bytes) : Bytes := f.drop 40

/-- The request asks for the operation: it opens connection `c`, with the identifiers the request asks for
unless it leaves the choice to the server, or closes the one with serial number `k`. -/
def Asks (inp : Bytes) : ConnOp → Prop
  | .add c => ∃ o : OpenReq, o.sized ∧ 2 ≤ o.path.length ∧ Unconnected inp o.bytes ∧ c.id = o.serial ∧
      (o.ot ≠ 0#32 → c.ot = o.ot) ∧ (o.to ≠ 0#32 → c.to = o.to) ∧ c.rpi = o.torpi ∧ c.path = o.path.take 2
  | .closeID k => ∃ q : CloseReq, q.wf ∧ Unconnected inp q.bytes ∧ q.serial = k
  | _ => False

/-- The input starts with a well-formed request to open or to close a connection. -/
def Orders (inp : Bytes) : Prop :=
  (∃ o : OpenReq, o.wf ∧ Unconnected inp o.bytes) ∨ ∃ q : CloseReq, q.wf ∧ Unconnected inp q.bytes

/-- What requests have asked the connection table to do: for each at most one operation, in order; nothing
only for one that is not a well-formed request to open or close.  Each comes with the handler it came to. -/
inductive Asked {H : Type} : List (H × Bytes) → List ConnOp → Prop
  | nil : Asked [] []
  | skip {evs h} (e) : Asked evs h → ¬ Orders e.2 → Asked (evs ++ [e]) h
  | op {evs h} (e) {o} : Asked evs h → Asks e.2 o → Asked (evs ++ [e]) (h ++ [o])

/-- Whenever a connection is opened, no connection open at that time has its serial number. -/
def DistinctSerials (h : List ConnOp) : Prop :=
  ∀ pre c post, h = pre ++ .add c :: post → ∀ c', OpenAfter pre c' → c'.id ≠ c.id

end Gologix.Server.Spec
