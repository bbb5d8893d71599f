import Verif.Spec.Wire
import Verif.Model.Read
/-
What a controller sends back for a read.
-/
namespace Gologix.Spec

/-- The fields of a read reply that carry no information for the client; a controller may fill them
with anything. -/
structure ReplyForm where
  iface    : BitVec 32
  timeout  : BitVec 16
  id0      : BitVec 16
  address  : Bytes
  id1      : BitVec 16
  seq      : BitVec 16
  service  : Byte
  reserved : Byte
  extSize  : Byte
  unknown  : Byte

/-- The data of the second item: sequence, service, reserved, general status, additional status size,
type, reserved, tag data. -/
def ReplyForm.body (f : ReplyForm) (status typ : Byte) (data : Bytes) : Bytes :=
  le 2 f.seq.toNat ++ ([f.service, f.reserved, status, f.extSize, typ, f.unknown] ++ data)

/-- The payload of the encapsulation frame of a read reply. -/
def ReplyForm.payload (f : ReplyForm) (status typ : Byte) (data : Bytes) : Bytes :=
  le 4 f.iface.toNat ++ (le 2 f.timeout.toNat ++ cpf [(f.id0, f.address), (f.id1, f.body status typ data)])

/-- The items fit their 16-bit length fields. -/
def ReplyForm.fits (f : ReplyForm) (data : Bytes) : Prop :=
  f.address.length < 65536 ∧ data.length + 8 < 65536

/-- Offset a request asks for: a plain read asks for the beginning. -/
def offsetOf (r : ReadReq) : Nat :=
  match r.offset with
  | none => 0
  | some o => o.toNat

/-- `r` is a truthful answer to `req` by a controller whose tag has type `typ` and image `content`: some
number `n` of bytes from the requested offset on, status 0 if that reaches the end and 6 (partial
transfer) if not. -/
def Answers (typ : Byte) (content : Bytes) (req : ReadReq) (r : Reply) : Prop :=
  ∃ (f : ReplyForm) (n : Nat),
    let off := offsetOf req
    let chunk := (content.drop off).take n
    f.fits chunk ∧
    r.payload = f.payload (if content.length ≤ off + n then 0#8 else 6#8) typ chunk

/-- Every request of the log was answered truthfully. -/
def AllAnswered (typ : Byte) (content : Bytes) (reqs : List ReadReq) (replies : List Reply) : Prop :=
  ∀ (i : Nat) (req : ReadReq), reqs[i]? = some req → ∃ r, replies[i]? = some r ∧ Answers typ content req r

/-- The data of a read request: without an offset the Read Tag service, with one the Read Tag Fragmented service. -/
def readRequest (seq : Nat) (path : Bytes) (count : Nat) : Option Nat → Bytes
  | none => le 2 seq ++ [0x4C#8, BitVec.ofNat 8 (path.length / 2)] ++ path ++ le 2 count
  | some off => le 2 seq ++ [0x52#8, BitVec.ofNat 8 (path.length / 2)] ++ path ++ le 2 count ++ le 4 off

end Gologix.Spec
