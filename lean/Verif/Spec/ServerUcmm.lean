import Verif.Spec.ServerAttr
import Verif.Spec.ServerConn
import Verif.Spec.ServerList
import Verif.Spec.ServerTags
/-
Requests outside a connection (CIP volume 1, 3-5.5): alone, or wrapped in an Unconnected Send with a route.
-/
namespace Gologix.Server.Spec
open Gologix

/-- `d` is an Unconnected Send: the path of the connection manager, two bytes of timing, the length of the message,
the message, padded to an even length, the length of the route in words, a reserved byte and the route. -/
def SendsAlong (msg route d : Bytes) : Prop :=
  ∃ (n : Byte) (path time : Bytes), n.toNat < 128 ∧ path.length = 2 * n.toNat ∧ time.length = 2 ∧
    msg.length < 65536 ∧ route.length % 2 = 0 ∧ route.length < 512 ∧
    d = 0x52#8 :: n :: (path ++ (time ++ (le 2 msg.length ++ (msg ++ (List.replicate (msg.length % 2) 0#8 ++
      (BitVec.ofNat 8 (route.length / 2) :: 0#8 :: route))))))

/-- `inp` starts with a request along `route` with the message `msg`. -/
def Along (inp route msg : Bytes) : Prop := ∃ d, Unconnected inp d ∧ SendsAlong msg route d

/-- `inp` starts with a request with the message `msg`, alone or along some route. -/
def Directly (inp msg : Bytes) : Prop := Unconnected inp msg ∨ ∃ route, Along inp route msg

/-- Read `n` elements of the tag `path` names. -/
def ReadMsg (ps : List Gologix.Spec.Part) (n : Nat) (msg : Bytes) : Prop :=
  ∃ (words : Byte) (path : Bytes), PathOf ps path ∧ path.length = 2 * words.toNat ∧
    msg = 0x4C#8 :: words :: (path ++ le 2 n)

/-- Write `n` values of type `T`, whose bytes are `data`, to the tag `path` names. -/
def WriteMsg (ps : List Gologix.Spec.Part) (T : GoTy) (n : Nat) (data msg : Bytes) : Prop :=
  ∃ (words : Byte) (path : Bytes), PathOf ps path ∧ path.length = 2 * words.toNat ∧
    msg = 0x4D#8 :: words :: (path ++ (Gologix.Spec.typeField T ++ (le 2 n ++ data)))

/-- Set attribute `attr` of one object to what `value` says; all numbers in one byte. -/
def setOne (cls inst attr : Byte) (value : Bytes) : Bytes :=
  [0x10#8, 3#8, 0x20#8, cls, 0x24#8, inst, 0x30#8, attr] ++ value

/-- The bytes of a value: a string is a STRING, 88 bytes. -/
def dataOf : Scal → Bytes
  | .str s => Gologix.Spec.stringSlot s
  | v => v.encode

/-- `name` is the `i`-th of `names` in ascending order, counted from 1. -/
def Numbered (names : List Bytes) (i : Nat) (name : Bytes) : Prop :=
  1 ≤ i ∧ ∃ l, l.Perm names ∧ Ascending l ∧ l[i - 1]? = some name

end Gologix.Server.Spec
