import Verif.Model.WriteAny
import Verif.Spec.Reply
import Verif.Spec.ReadStruct
import Verif.Spec.TypeDesc
import Verif.Spec.Crc
/-
What a write request has to say about a Go value.  Only the types of values are taken from the model.
-/
namespace Gologix.Spec.Writing
open Gologix.WriteAny

/-- How a value of a Go type is sent: numbers little endian, a string as its length and 84 characters. -/
inductive Wire : GoTy → Scal → Bytes → Prop
  | no : Wire .bool (.bool false) [0#8]
  | yes : Wire .bool (.bool true) [1#8]
  | u8 (v) : Wire .u8 (.u8 v) (le 1 v.toNat)
  | i8 (v) : Wire .i8 (.i8 v) (le 1 v.toNat)
  | u16 (v) : Wire .u16 (.u16 v) (le 2 v.toNat)
  | i16 (v) : Wire .i16 (.i16 v) (le 2 v.toNat)
  | u32 (v) : Wire .u32 (.u32 v) (le 4 v.toNat)
  | i32 (v) : Wire .i32 (.i32 v) (le 4 v.toNat)
  | u64 (v) : Wire .u64 (.u64 v) (le 8 v.toNat)
  | i64 (v) : Wire .i64 (.i64 v) (le 8 v.toNat)
  | f32 (v) : Wire .f32 (.f32 v) (le 4 v.toNat)
  | f64 (v) : Wire .f64 (.f64 v) (le 8 v.toNat)
  | str (s : Str) (pad : Bytes) : s.length + pad.length = 84 → Wire .str (.str s) (le 4 s.length ++ s ++ pad)

/-- The same for values after each other. -/
inductive Wires (T : GoTy) : List Scal → Bytes → Prop
  | nil : Wires T [] []
  | cons {v : Scal} {vs : List Scal} {b bs : Bytes} : Wire T v b → Wires T vs bs → Wires T (v :: vs) (b ++ bs)

/-- The type of a structure as sent: 0xA0, 0x02 and a handle, which is the checksum of its description. -/
def HandleOf (d : DTy) (typ : Bytes) : Prop :=
  (∃ i s, d = .known s i ∧ typ = [0xA0#8, 0x02#8] ++ le 2 i.toNat) ∨
  ∃ s i, (∀ s i, d ≠ .known s i) ∧ Describes d s ∧ IsCrc s i ∧ typ = [0xA0#8, 0x02#8] ++ le 2 i.toNat

/-- `Means v typ n data`: a request that writes the Go value `v` announces the type `typ` and `n` elements, and carries
`data`. -/
inductive Means : GoAny → Bytes → Nat → Bytes → Prop
  | value {T : GoTy} {v : Scal} {b : Bytes} : Wire T v b → Means (.value T v) (typeField T) 1 b
  | pointer {T : GoTy} {v : Scal} {b : Bytes} : Wire T v b → Means (.pointer T (some v)) (typeField T) 1 b
  | named {T : GoTy} {v : Scal} {b : Bytes} : Wire T v b → Means (.named T v) (typeField T) 1 b
  | slice {T : GoTy} {vs : List Scal} {b : Bytes} : Wires T vs b → Means (.slice T vs) (typeField T) vs.length b
  | array {T : GoTy} {vs : List Scal} {b : Bytes} : Wires T vs b → Means (.array T vs) (typeField T) vs.length b
  | struct {d : DTy} {t : Ty} {v : t.Val} {typ b : Bytes} :
      HandleOf d typ → HoldsValue t b v → Means (.struct d t v) typ 1 b
  | structPtr {d : DTy} {t : Ty} {v : t.Val} {typ b : Bytes} :
      HandleOf d typ → HoldsValue t b v → Means (.structPtr d t v) typ 1 b
  | structs {d : DTy} {t : Ty} {vs : List t.Val} {typ b : Bytes} :
      HandleOf d typ → HoldsArray t b vs → Means (.structs d t vs) typ vs.length b

/-- The request asks for just what the value means. -/
def Carries (seq : BitVec 16) (path : Bytes) (v : GoAny) (msg : Bytes) : Prop :=
  ∃ typ n data, Means v typ n data ∧ n < 65536 ∧ msg = le 2 seq.toNat ++ writeService path typ n data

end Gologix.Spec.Writing
