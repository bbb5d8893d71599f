import Verif.Spec.Wire
import Verif.Model.Read
/-
The general status of a CIP reply, as published, and the embedded write service.
-/
namespace Gologix.Spec

/-- The connected reply `r` carries general status `status`: in the second item, after the sequence
count, the reply service and a reserved byte.  Everything else is arbitrary: encapsulation status,
interface handle, timeout, first item, additional status size, what follows, and further items. -/
def CarriesStatus (r : Reply) (status : Byte) : Prop :=
  ∃ (iface : BitVec 32) (timeout seq : BitVec 16) (first : BitVec 16 × Bytes) (id : BitVec 16)
    (service reserved ext : Byte) (tail : Bytes) (more : List (BitVec 16 × Bytes)),
    let items := first :: (id, le 2 seq.toNat ++ ([service, reserved, status, ext] ++ tail)) :: more
    r.payload = le 4 iface.toNat ++ (le 2 timeout.toNat ++ cpf items) ∧
    items.length < 65536 ∧ ∀ x ∈ items, x.2.length < 65536

/-- The same for an unconnected reply, which has no sequence count. -/
def CarriesStatusUnconnected (r : Reply) (status : Byte) : Prop :=
  ∃ (iface : BitVec 32) (timeout : BitVec 16) (first : BitVec 16 × Bytes) (id : BitVec 16)
    (service reserved ext : Byte) (tail : Bytes) (more : List (BitVec 16 × Bytes)),
    let items := first :: (id, [service, reserved, status, ext] ++ tail) :: more
    r.payload = le 4 iface.toNat ++ (le 2 timeout.toNat ++ cpf items) ∧
    items.length < 65536 ∧ ∀ x ∈ items, x.2.length < 65536

/-- The service that writes `elements` elements with image `data` at an encoded path. `typ` is the type
as sent: two bytes for an elementary type, four for a structure. -/
def writeService (path : Bytes) (typ : Bytes) (elements : Nat) (data : Bytes) : Bytes :=
  [0x4D#8, BitVec.ofNat 8 (path.length / 2)] ++ path ++ typ ++ le 2 elements ++ data

/-- How a type is sent: elementary types as code and zero, the STRING type as the structure 0xA0 with
handle 0x0FCE. -/
def typeField : GoTy → Bytes
  | .bool => le 2 0xC1
  | .u8 => le 2 0xD1
  | .i8 => le 2 0xC2
  | .u16 => le 2 0xC7
  | .i16 => le 2 0xC3
  | .u32 => le 2 0xC8
  | .i32 => le 2 0xC4
  | .u64 => le 2 0xD4
  | .i64 => le 2 0xC5
  | .f32 => le 2 0xCA
  | .f64 => le 2 0xCB
  | .str => le 2 0x02A0 ++ le 2 0x0FCE

end Gologix.Spec
