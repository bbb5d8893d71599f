import Verif.Base.Bytes
/-
Structure packing (pack.go:24-44 Align, 96-237 Pack, 241-387 Unpack).

A Go structure type is a tree; a value of it is a tuple.  Modelled: fixed-size numbers of 1, 2, 4 or 8
bytes (integers and floats are their bit patterns), booleans, arrays, nested structures, the field tag
`pack:"nopack"`.  Not modelled: fields of type int, uint, string, slice or pointer (`binary.Write` refuses
them), unexported fields (reflection panics), blank fields, and fields or values whose type has its own
Pack, Unpack or Bytes method (the built-in types are in Model/Lgx and Model/PackOwn).
Sizes and alignments are those of a 64-bit platform.
-/
namespace Gologix

/-- Types of structure fields.  A structure is `nil` (no more fields) or `cons` (a field, whether it is
tagged nopack, and the fields after it). -/
inductive Ty where
  | num (k : Nat)
  | bool
  | arr (n : Nat) (t : Ty)
  | nil
  | cons (nopack : Bool) (f : Ty) (rest : Ty)
deriving DecidableEq, Repr

/-- `n` values of a type. -/
def Rep : Nat → Type → Type
  | 0, _ => Unit
  | n + 1, α => α × Rep n α

def Rep.toList {α : Type} : (n : Nat) → Rep n α → List α
  | 0, _ => []
  | n + 1, v => v.1 :: Rep.toList n v.2

/-- Values of a type. -/
def Ty.Val : Ty → Type
  | .num k => BitVec (8 * k)
  | .bool => Bool
  | .arr n t => Rep n t.Val
  | .nil => Unit
  | .cons _ f rest => f.Val × rest.Val

/-- `Kind() == reflect.Struct`. -/
def Ty.isStruct : Ty → Bool
  | .nil => true
  | .cons .. => true
  | _ => false

/-- Go's `Type.Align`. -/
def Ty.goAlign : Ty → Nat
  | .num k => k
  | .bool => 1
  | .arr _ t => t.goAlign
  | .nil => 1
  | .cons _ f rest => max f.goAlign rest.goAlign

/-- pack.go:24-44 `Align`.  Lines 31-33 are unreachable: an array is not a structure, so its alignment is
Go's. -/
def Ty.align : Ty → Nat
  | .num k => k
  | .bool => 1
  | .arr _ t => t.goAlign
  | .nil => 1
  | .cons _ f rest => max f.align rest.align

/-- Next multiple of `a`. -/
def roundUp (n a : Nat) : Nat := (n + (a - 1)) / a * a

/-- Go's `Type.Size`; for a structure the second function is the end of its last field, given the offset
where the fields begin.  A last field of size zero adds one byte to a structure that is not empty. -/
def Ty.goSizeEnd : Ty → Nat × (Nat → Nat)
  | .num k => (k, id)
  | .bool => (1, id)
  | .arr n t => (n * t.goSizeEnd.1, id)
  | .nil => (0, id)
  | .cons np f rest =>
    let ending (o : Nat) : Nat :=
      let o1 := roundUp o f.goAlign + f.goSizeEnd.1
      match rest with
      | .nil => if f.goSizeEnd.1 = 0 ∧ 0 < o1 then o1 + 1 else o1
      | _ => rest.goSizeEnd.2 o1
    (roundUp (ending 0) (Ty.cons np f rest).goAlign, ending)

def Ty.goSize (t : Ty) : Nat := t.goSizeEnd.1

/-- A boolean as a byte. -/
def boolByte (b : Bool) : Byte := if b then 1#8 else 0#8

/-- What `binary.Write` emits: all scalars one after the other without padding, a boolean as one byte. -/
def encRep {α : Type} (f : α → Bytes) : (n : Nat) → Rep n α → Bytes
  | 0, _ => []
  | n + 1, v => f v.1 ++ encRep f n v.2

def Ty.enc : (t : Ty) → t.Val → Bytes
  | .num k, v => le k (BitVec.toNat (w := 8 * k) v)
  | .bool, v => [boolByte v]
  | .arr n t, v => encRep t.enc n v
  | .nil, _ => []
  | .cons _ f rest, v => f.enc v.1 ++ rest.enc v.2

/-- Number of bytes `binary.Write` and `binary.Read` use for a type. -/
def Ty.flat : Ty → Nat
  | .num k => k
  | .bool => 1
  | .arr n t => n * t.flat
  | .nil => 0
  | .cons _ f rest => f.flat + rest.flat

/-- What `binary.Read` makes of `flat` bytes: value and bytes left. -/
def decRep {α : Type} (f : Bytes → α × Bytes) : (n : Nat) → Bytes → Rep n α × Bytes
  | 0, b => ((), b)
  | n + 1, b => (((f b).1, (decRep f n (f b).2).1), (decRep f n (f b).2).2)

def Ty.dec : (t : Ty) → Bytes → t.Val × Bytes
  | .num k, b => (BitVec.ofNat (8 * k) (unle (b.take k)), b.drop k)
  | .bool, b => ((b.headD 0#8 != 0#8 : Bool), b.drop 1)
  | .arr n t, b => decRep t.dec n b
  | .nil, b => ((), b)
  | .cons _ f rest, b => (((f.dec b).1, (rest.dec (f.dec b).2).1), (rest.dec (f.dec b).2).2)

/-- The local variables of Pack, and what has been written. -/
structure PackSt where
  out     : Bytes
  pos     : Nat
  bitpos  : Nat
  bitpack : Byte
deriving DecidableEq, Repr

def PackSt.init : PackSt := ⟨[], 0, 0, 0#8⟩

/-- pack.go:139-156 and 163-179: append one bit, write the byte when it is full. -/
def PackSt.bit (st : PackSt) (b : Bool) : PackSt :=
  let bp := st.bitpack ||| (boolByte b <<< st.bitpos)
  if 8 ≤ st.bitpos + 1 then ⟨st.out ++ [bp], st.pos + 1, 0, 0#8⟩
  else ⟨st.out, st.pos, st.bitpos + 1, bp⟩

/-- pack.go:187-196 and 227-234: write pending bits. -/
def PackSt.flush (st : PackSt) : PackSt :=
  if 0 < st.bitpos then ⟨st.out ++ [st.bitpack], st.pos + 1, 0, 0#8⟩ else st

/-- pack.go:199-208: pad to alignment `a`. -/
def PackSt.pad (st : PackSt) (a : Nat) : PackSt :=
  let rem := a - st.pos % a
  if rem < a ∧ 0 < rem then { st with out := st.out ++ List.replicate rem 0#8, pos := st.pos + rem } else st

/-- The booleans to pack bit by bit, if the field is a boolean or an array of booleans (lines 131-182). -/
def Ty.bools : (t : Ty) → t.Val → Option (List Bool)
  | .bool, b => some [b]
  | .arr n .bool, v => some (Rep.toList n v)
  | _, _ => none

/-- pack.go:121-225: the loop over the fields. -/
def packFields : (t : Ty) → t.Val → PackSt → PackSt
  | .cons np f rest, v, st =>
    packFields rest v.2 <|
      match (if np then none else f.bools v.1) with
      | some bs => bs.foldl PackSt.bit st
      | none =>
        let st := st.flush.pad f.align
        if f.isStruct then
          let r := (packFields f v.1 .init).flush   -- the recursive call of line 219
          { st with out := st.out ++ r.out, pos := st.pos + r.pos }
        else { st with out := st.out ++ f.enc v.1, pos := st.pos + f.goSize }
  | _, _, st => st

/-- pack.go:96-237 `Pack`: bytes written and the returned size. -/
def pack (t : Ty) (v : t.Val) : Bytes × Nat :=
  let r := (packFields t v .init).flush
  (r.out, r.pos)

/-- The local variables of Unpack, and what has not been read. -/
structure UnpackSt where
  src     : Bytes
  n       : Nat
  bitpos  : Nat
  bitpack : Byte
deriving DecidableEq, Repr

/-- pack.go:305-321 and 328-344: one bit, reading a byte first if none is open. -/
def UnpackSt.bit (st : UnpackSt) : Res (Bool × UnpackSt) := do
  let st ← if st.bitpos = 0 then
      match st.src with
      | [] => .err .eof
      | b :: src => .ok { st with src := src, bitpack := b, n := st.n + 1 }
    else .ok st
  let val := (st.bitpack &&& (1#8 <<< st.bitpos)) != 0#8
  .ok (val, { st with bitpos := if 8 ≤ st.bitpos + 1 then 0 else st.bitpos + 1 })

/-- pack.go:304-322: an array of booleans. -/
def unpackBits : (n : Nat) → UnpackSt → Res (Rep n Bool × UnpackSt)
  | 0, st => .ok ((), st)
  | n + 1, st => do
    let (b, st) ← st.bit
    let (bs, st) ← unpackBits n st
    .ok ((b, bs), st)

/-- Lines 297-347, for the fields that are unpacked bit by bit. -/
def Ty.unpackBools : (t : Ty) → Option (UnpackSt → Res (t.Val × UnpackSt))
  | .bool => some UnpackSt.bit
  | .arr n .bool => some (unpackBits n)
  | _ => none

/-- pack.go:358-367: skip padding.  `Read` of an in-memory reader returns what there is, and `io.EOF` if
there is nothing. -/
def UnpackSt.pad (st : UnpackSt) (a : Nat) : Res UnpackSt :=
  let rem := a - st.n % a
  if rem < a ∧ 0 < rem then
    if st.src = [] then .err .eof else .ok { st with src := st.src.drop rem, n := st.n + rem }
  else .ok st

/-- pack.go:287-384: the loop over the fields of a structure. -/
def unpackFields : (t : Ty) → UnpackSt → Res (t.Val × UnpackSt)
  | .cons np f rest, st => do
    let (v, st) ← (match (if np then none else f.unpackBools) with
      | some g => g st
      | none => do
        let st ← ({ st with bitpos := 0 } : UnpackSt).pad f.align
        if f.isStruct then
          let (v, r) ← unpackFields f ⟨st.src, 0, 0, 0#8⟩   -- the recursive call of line 378
          .ok (v, { st with src := r.src, n := st.n + r.n })
        else
          let (b, src) ← readN f.flat st.src
          .ok ((f.dec b).1, { st with src := src, n := st.n + f.goSize }))
    let (vs, st) ← unpackFields rest st
    .ok ((v, vs), st)
  | .num _, st => .ok (BitVec.ofNat _ 0, st)
  | .bool, st => .ok (false, st)
  | .arr _ _, st => .ok ((Ty.dec _ []).1, st)
  | .nil, st => .ok ((), st)

/-- pack.go:241-387 `Unpack` into a structure: value, returned size, bytes left. -/
def unpack (t : Ty) (src : Bytes) : Res (t.Val × Nat × Bytes) := do
  let (v, st) ← unpackFields t ⟨src, 0, 0, 0#8⟩
  .ok (v, st.n, st.src)

/-- pack.go:262-281 `Unpack` into a slice of `l` structures: after each element the bytes up to the next
multiple of the alignment are skipped. -/
def unpackSlice (t : Ty) : (l : Nat) → Bytes → Res (List t.Val × Nat × Bytes)
  | 0, src => .ok ([], 0, src)
  | l + 1, src => do
    let (v, s, src) ← unpack t src
    let (m, src) ← (if s % t.align ≠ 0 then
        (let k := t.align - s % t.align
         if src = [] then .err .eof else .ok (min k src.length, src.drop k))
      else .ok (0, src) : Res (Nat × Bytes))
    let (vs, n, src) ← unpackSlice t l src
    .ok (v :: vs, s + m + n, src)

/-- Shapes the packer supports: numbers of 1, 2, 4 or 8 bytes, and structures that are structures. -/
def Ty.wf : Ty → Bool
  | .num k => k = 1 ∨ k = 2 ∨ k = 4 ∨ k = 8
  | .bool => true
  | .arr _ t => t.wf
  | .nil => true
  | .cons _ f rest => f.wf && rest.wf && rest.isStruct

end Gologix
