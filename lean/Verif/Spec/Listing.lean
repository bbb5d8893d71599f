import Verif.Spec.Wire
/-
Published layouts of the listings: symbol type word, identity item, services item, program list.
-/
namespace Gologix.Spec

/-- The two low bytes of a symbol type attribute as a number. -/
def symbolWord (low high : Byte) : Nat := low.toNat + 256 * high.toNat

/-- Bit `i` of a number. -/
def bitSet (w i : Nat) : Prop := w / 2 ^ i % 2 = 1

/-- The type word denotes a structure: bit 15 set, bit 12 (system) clear. -/
def IsStructure (w : Nat) : Prop := bitSet w 15 ∧ ¬ bitSet w 12

/-- Big-endian bytes of a number. -/
def be : Nat → Nat → Bytes
  | 0, _ => []
  | k + 1, n => be k (n / 256) ++ [BitVec.ofNat 8 n]

/-- The identity a device publishes. -/
structure Device where
  vendor   : BitVec 16
  device   : BitVec 16
  product  : BitVec 16
  revision : BitVec 16
  status   : BitVec 16
  serial   : BitVec 32
  name     : Bytes
deriving DecidableEq, Repr

/-- The identity item: protocol version, socket address in network order, identity, state. -/
def identityItem (d : Device) (version port : BitVec 16) (addr : BitVec 32) (state : Byte) : Bytes :=
  le 2 version.toNat ++ (be 2 2 ++ (be 2 port.toNat ++ (be 4 addr.toNat ++ (List.replicate 8 0#8 ++
    (le 2 d.vendor.toNat ++ (le 2 d.device.toNat ++ (le 2 d.product.toNat ++ (le 2 d.revision.toNat ++
    (le 2 d.status.toNat ++ (le 4 d.serial.toNat ++ ([BitVec.ofNat 8 d.name.length] ++ (d.name ++ [state]))))))))))))

/-- The payload of a reply on a connection: everything around the data of the second item is arbitrary. -/
structure CForm where
  iface   : BitVec 32
  timeout : BitVec 16
  first   : BitVec 16 × Bytes
  id      : BitVec 16
  seq     : BitVec 16
  more    : List (BitVec 16 × Bytes)
deriving DecidableEq, Repr

/-- The items of the reply; `body` follows the sequence count in the second. -/
def CForm.items (f : CForm) (body : Bytes) : List (BitVec 16 × Bytes) :=
  f.first :: (f.id, le 2 f.seq.toNat ++ body) :: f.more

def CForm.payload (f : CForm) (body : Bytes) : Bytes :=
  le 4 f.iface.toNat ++ (le 2 f.timeout.toNat ++ cpf (f.items body))

/-- The counts and lengths fit their fields. -/
def CForm.fits (f : CForm) (body : Bytes) : Prop :=
  (f.items body).length < 65536 ∧ ∀ x ∈ f.items body, x.2.length < 65536

/-- One entry of the program list: instance, padding, length and characters of the name. -/
structure ProgEntry where
  id   : BitVec 16
  pad  : BitVec 16
  name : Bytes
deriving DecidableEq, Repr

def ProgEntry.bytes (e : ProgEntry) : Bytes :=
  le 2 e.id.toNat ++ (le 2 e.pad.toNat ++ (le 4 e.name.length ++ e.name))

/-- Blank characters. -/
def Blank (b : Byte) : Prop := b ∈ [0x20#8, 0x09#8, 0x0A#8, 0x0B#8, 0x0C#8, 0x0D#8]

/-- The text has no blank at either end. -/
def Trimmed (s : Bytes) : Prop := (∀ b ∈ s.head?, ¬ Blank b) ∧ ∀ b ∈ s.getLast?, ¬ Blank b

/-- `core` is the text without the blanks around it. -/
def CoreOf (s core : Bytes) : Prop :=
  ∃ a b, s = a ++ (core ++ b) ∧ (∀ x ∈ a, Blank x) ∧ (∀ x ∈ b, Blank x) ∧ Trimmed core

end Gologix.Spec
