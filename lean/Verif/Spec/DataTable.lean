import Verif.Spec.Listing
import Verif.Spec.Values
import Verif.Model.DataVars
/-
Data table buffers as a controller keeps them, independent of the client code.  The protocol is not
published; this is the layout documented in datatable.go:184-199 and 485-509.
-/
namespace Gologix.Spec

/-- A slot of a buffer: its size in bytes and the path of the tag it shows. -/
abbrev Slot := Nat × Bytes

/-- What an add request lists. -/
def AddRequest (d : Bytes) (slots : List Slot) : Prop :=
  slots.length < 256 ∧ (∀ s ∈ slots, s.1 < 65536 ∧ s.2.length % 2 = 0 ∧ s.2.length < 512) ∧
  d = [2#8, 0#8, 1#8, 1#8, BitVec.ofNat 8 slots.length] ++
    (slots.map fun s => le 2 s.1 ++ ([BitVec.ofNat 8 (s.2.length / 2)] ++ s.2)).flatten

/-- A request of a service at a buffer. -/
def BufferRequest (req : Bytes) (svc : Byte) (inst : BitVec 16) (data : Bytes) : Prop :=
  ∃ seq : BitVec 16, req = le 2 seq.toNat ++ ([svc, 3#8] ++ ([0x20#8, 0xB2#8, 0x25#8, 0#8] ++
    (le 2 inst.toNat ++ data)))

/-- A successful reply to a service with some data. -/
def BufferReply (svc : Byte) (body : Bytes) (r : Reply) : Prop :=
  ∃ (st : BitVec 32) (f : CForm), f.fits ([svc ||| 0x80#8, 0#8, 0#8, 0#8] ++ body) ∧
    r = ⟨st, f.payload ([svc ||| 0x80#8, 0#8, 0#8, 0#8] ++ body)⟩

/-- The batches from number `k` on: each has its number and then the contents of its slots. -/
def content (v : Slot → Bytes) : Nat → List (List Slot) → Bytes
  | _, [] => []
  | k, b :: bs => le 2 k ++ ((b.map v).flatten ++ content v (k + 1) bs)

/-- The controller with batches `c` takes a further one. -/
def TakesAdd (net : Bytes → Res Reply) (inst : BitVec 16) (c : List (List Slot)) : Prop :=
  ∀ req d slots, BufferRequest req 0x4E#8 inst d → AddRequest d slots →
    ∃ r, net req = .ok r ∧ BufferReply 0x4E#8 (le 2 (c.length + 1)) r

/-- The controller with batches `c` shows the contents `v`. -/
def Shows (net : Bytes → Res Reply) (inst : BitVec 16) (c : List (List Slot)) (v : Slot → Bytes) : Prop :=
  ∀ req, BufferRequest req 0x4C#8 inst [] → ∃ r, net req = .ok r ∧ BufferReply 0x4C#8 (content v 1 c) r

/-- Two's complement. -/
def signed (bits n : Nat) : Int := if n < 2 ^ (bits - 1) then n else (n : Int) - 2 ^ bits

/-- What the bytes of a slot mean for each CIP type. -/
def SlotMeans (t : Byte) (raw : Bytes) (v : Scal) : Prop :=
  match t.toNat with
  | 0xC1 => raw.length = 1 ∧ v = .bool (decide (unle raw ≠ 0))
  | 0xC2 => raw.length = 1 ∧ v.ty = some .i8 ∧ intVal v = some (signed 8 (unle raw))
  | 0xC3 => raw.length = 2 ∧ v.ty = some .i16 ∧ intVal v = some (signed 16 (unle raw))
  | 0xC4 => raw.length = 4 ∧ v.ty = some .i32 ∧ intVal v = some (signed 32 (unle raw))
  | 0xC5 => raw.length = 8 ∧ v.ty = some .i64 ∧ intVal v = some (signed 64 (unle raw))
  | 0xC6 => raw.length = 1 ∧ v.ty = some .u8 ∧ intVal v = some (unle raw : Int)
  | 0xC7 => raw.length = 2 ∧ v.ty = some .u16 ∧ intVal v = some (unle raw : Int)
  | 0xC8 => raw.length = 4 ∧ v.ty = some .u32 ∧ intVal v = some (unle raw : Int)
  | 0xCA => raw.length = 4 ∧ ∃ x, v = .f32 x ∧ x.toNat = unle raw
  | 0xCB => raw.length = 8 ∧ ∃ x, v = .f64 x ∧ x.toNat = unle raw
  | 0xD1 => raw.length = 1 ∧ v.ty = some .u8 ∧ intVal v = some (unle raw : Int)
  | 0xD2 => raw.length = 2 ∧ v.ty = some .u16 ∧ intVal v = some (unle raw : Int)
  | 0xD3 => raw.length = 4 ∧ v.ty = some .u32 ∧ intVal v = some (unle raw : Int)
  | 0xD4 => raw.length = 8 ∧ v.ty = some .u64 ∧ intVal v = some (unle raw : Int)
  | 0xFF => ∃ s pad, v = .str s ∧ s.length < 2 ^ 32 ∧ raw = le 4 s.length ++ (s ++ pad)
  | 0xA0 => ∃ s pad, v = .str s ∧ s.length < 2 ^ 32 ∧ raw = le 4 s.length ++ (s ++ pad)
  | _ => False

/-- The text of a string is at most 82 bytes. -/
def ShortText : Scal → Prop
  | .str s => s.length ≤ 82
  | _ => True

end Gologix.Spec
