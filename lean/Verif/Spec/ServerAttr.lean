import Verif.Spec.Server
import Verif.Spec.Listing
import Verif.Spec.Segments
/-
Attributes of the identity object as published (CIP volume 1, 5-2.2): six numbers and a name.
-/
namespace Gologix.Server.Spec
open Gologix Gologix.Spec

/-- A SHORT_STRING: one byte length, the characters. -/
def shortString (s : Bytes) : Bytes := BitVec.ofNat 8 s.length :: s

/-- The attributes by number. -/
def attrOf (d : Device) : Nat → Option Bytes
  | 1 => some (le 2 d.vendor.toNat)
  | 2 => some (le 2 d.device.toNat)
  | 3 => some (le 2 d.product.toNat)
  | 4 => some (le 2 d.revision.toNat)
  | 5 => some (le 2 d.status.toNat)
  | 6 => some (le 4 d.serial.toNat)
  | 7 => some (shortString d.name)
  | _ => none

/-- All attributes, in order. -/
def allAttributes (d : Device) : Bytes := ((List.range' 1 7).filterMap (attrOf d)).flatten

/-- `inp` starts with a request on connection `k` with sequence count `seq`; `d` is what follows the count. -/
def Connected (inp : Bytes) (k : BitVec 32) (seq : BitVec 16) (d : Bytes) : Prop :=
  ∃ r rest more, Req.wf r ∧ inp = r.bytes ++ rest ∧ r.cmd = 0x70#16 ∧ r.id0 = 0xA1#16 ∧
    r.data0 = le 4 k.toNat ++ more ∧ r.data1 = le 2 seq.toNat ++ d

/-- Service and path of a request for one attribute of one object; all numbers in one byte. -/
def askOne (cls inst attr : Byte) : Bytes := [0x0E#8, 3#8, 0x20#8, cls, 0x24#8, inst, 0x30#8, attr]

/-- The path names an object: class and instance, in any of the formats the numbers have (a class has no 32-bit
format). -/
def ObjectPath (cls inst : Nat) (path : Bytes) : Prop :=
  ∃ rest rest', path.head? ≠ some 0x22#8 ∧ decodeLogical path = some (.classId, cls, rest) ∧
    decodeLogical rest = some (.instanceId, inst, rest')

/-- `d` asks for all attributes of an object. -/
def AsksAll (cls inst : Nat) (d : Bytes) : Prop :=
  ∃ (n : Byte) (path more : Bytes), d = 0x01#8 :: n :: (path ++ more) ∧ path.length = 2 * n.toNat ∧ ObjectPath cls inst path

/-- Service, status and data of the reply to an unconnected request. -/
def rrServiceOf (f : Bytes) : Option Byte := f[40]?
def rrStatusOf (f : Bytes) : Option Byte := f[42]?
def rrAnswerOf (f : Bytes) : Bytes := f.drop 44

end Gologix.Server.Spec
