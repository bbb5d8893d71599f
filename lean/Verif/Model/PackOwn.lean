import Verif.Model.Pack
import Verif.Model.Lgx
/-
Packing of structures whose members are of the built-in types TIMER, COUNTER and CONTROL (pack.go:96-387, lgxtypes).

A built-in type has Pack and Unpack methods.  A member of such a type is of kind Struct, so it is given to `Pack` and
`Unpack` (pack.go:219, 378), which call the methods (pack.go:99-101, 244-247).  An array of them is not of kind Struct and
is given to `binary.Write` and `binary.Read` (pack.go:212, 371), which do not know the methods.  Not modelled: members
whose type has a Bytes method, and other types with Pack or Unpack methods.
-/
namespace Gologix

/-- The built-in types (lgxtypes/timer.go:8-24, counter.go:8-16, control.go:8-19). -/
inductive Own where
  | timer
  | counter
  | control
deriving DecidableEq, Repr

def Own.Val : Own → Type
  | .timer => Timer
  | .counter => Counter
  | .control => Control

/-- The Pack method. -/
def Own.pack : (k : Own) → k.Val → Bytes × Nat
  | .timer, v => Timer.pack v
  | .counter, v => Counter.pack v
  | .control, v => Control.pack v

/-- The Unpack method of a value that holds `old`. -/
def Own.unpack : (k : Own) → k.Val → Bytes → Res (k.Val × Nat × Bytes)
  | .timer, old, src => Timer.unpack old src
  | .counter, old, src => Counter.unpack old src
  | .control, old, src => Control.unpack old src

/-- What `binary.Write` emits: the fields in the order of the declaration, a boolean as one byte. -/
def Own.enc : (k : Own) → k.Val → Bytes
  | .timer, (t : Timer) => putBV t.pre ++ putBV t.acc ++ [t.en, t.tt, t.dn, t.fs, t.ls, t.ov, t.er].map boolByte
  | .counter, (t : Counter) => putBV t.pre ++ putBV t.acc ++ [t.cu, t.cd, t.dn, t.ov, t.un].map boolByte
  | .control, (t : Control) =>
    putBV t.len ++ putBV t.pos ++ [t.en, t.eu, t.dn, t.em, t.er, t.ul, t.in_, t.fd].map boolByte

/-- Number of bytes `binary.Read` takes. -/
def Own.flat : Own → Nat
  | .timer => 15
  | .counter => 13
  | .control => 16

/-- What `binary.Read` makes of the bytes. -/
def Own.dec : (k : Own) → Bytes → k.Val × Bytes
  | k, b =>
    let word (i : Nat) : BitVec 32 := BitVec.ofNat 32 (unle ((b.drop i).take 4))
    let flag (i : Nat) : Bool := b.getD i 0#8 != 0#8
    (match k with
      | .timer => (⟨word 0, word 4, flag 8, flag 9, flag 10, flag 11, flag 12, flag 13, flag 14⟩ : Timer)
      | .counter => (⟨word 0, word 4, flag 8, flag 9, flag 10, flag 11, flag 12⟩ : Counter)
      | .control => (⟨word 0, word 4, flag 8, flag 9, flag 10, flag 11, flag 12, flag 13, flag 14, flag 15⟩ : Control),
     b.drop k.flat)

/-- Types of structure fields, with the built-in types and arrays of them.  `ty` is a type without built-in types in it. -/
inductive OTy where
  | ty (t : Ty)
  | own (k : Own)
  | owns (n : Nat) (k : Own)
  | nil
  | cons (nopack : Bool) (f : OTy) (rest : OTy)
deriving DecidableEq, Repr

def OTy.Val : OTy → Type
  | .ty t => t.Val
  | .own k => k.Val
  | .owns n k => Rep n k.Val
  | .nil => Unit
  | .cons _ f rest => f.Val × rest.Val

/-- A structure whose fields are listed. -/
def OTy.isStruct : OTy → Bool
  | .nil => true
  | .cons .. => true
  | _ => false

/-- pack.go:24-44 `Align`: the widest fields of the built-in types are of 4 bytes. -/
def OTy.align : OTy → Nat
  | .ty t => t.align
  | .own _ => 4
  | .owns _ _ => 4
  | .nil => 1
  | .cons _ f rest => max f.align rest.align

/-- pack.go:121-225, one turn of the loop for a field that is no structure with built-in types in it.  The built-in types
are 16 bytes long in Go. -/
def OTy.packField : (f : OTy) → Bool → f.Val → PackSt → PackSt
  | .ty t, np, v, st => packFields (.cons np t .nil) (v, ()) st
  | .own k, _, v, st =>
    let st := st.flush.pad 4
    { st with out := st.out ++ (k.pack v).1, pos := st.pos + (k.pack v).2 }
  | .owns n k, _, v, st =>
    let st := st.flush.pad 4
    { st with out := st.out ++ encRep k.enc n v, pos := st.pos + n * 16 }
  | _, _, _, st => st

/-- pack.go:121-225: the loop over the fields. -/
def packOwnFields : (t : OTy) → t.Val → PackSt → PackSt
  | .cons np f rest, v, st =>
    packOwnFields rest v.2 <|
      if f.isStruct then
        let st := st.flush.pad f.align
        let r := (packOwnFields f v.1 .init).flush   -- the recursive call of line 219
        { st with out := st.out ++ r.out, pos := st.pos + r.pos }
      else f.packField np v.1 st
  | _, _, st => st

/-- pack.go:96-237 `Pack`: bytes written and the returned size. -/
def packOwn (t : OTy) (v : t.Val) : Bytes × Nat :=
  let r := (packOwnFields t v .init).flush
  (r.out, r.pos)

/-- pack.go:287-384, one turn of the loop for a field that is no structure with built-in types in it. -/
def OTy.unpackField : (f : OTy) → Bool → f.Val → UnpackSt → Res (f.Val × UnpackSt)
  | .ty t, np, _, st => do
    let (v, st) ← unpackFields (.cons np t .nil) st
    .ok (v.1, st)
  | .own k, _, old, st => do
    let st ← ({ st with bitpos := 0 } : UnpackSt).pad 4
    let (v, n, src) ← k.unpack old st.src
    .ok (v, { st with src := src, n := st.n + n })
  | .owns n k, _, _, st => do
    let st ← ({ st with bitpos := 0 } : UnpackSt).pad 4
    let (b, src) ← readN (n * k.flat) st.src
    .ok ((decRep k.dec n b).1, { st with src := src, n := st.n + n * 16 })
  | .nil, _, _, st => .ok ((), st)
  | .cons .., _, old, st => .ok (old, st)

/-- pack.go:287-384: the loop over the fields of a structure that holds `old`. -/
def unpackOwnFields : (t : OTy) → t.Val → UnpackSt → Res (t.Val × UnpackSt)
  | .cons np f rest, old, st => do
    let (v, st) ← (if f.isStruct then do
        let st ← ({ st with bitpos := 0 } : UnpackSt).pad f.align
        let (v, r) ← unpackOwnFields f old.1 ⟨st.src, 0, 0, 0#8⟩   -- the recursive call of line 378
        .ok (v, { st with src := r.src, n := st.n + r.n })
      else f.unpackField np old.1 st)
    let (vs, st) ← unpackOwnFields rest old.2 st
    .ok ((v, vs), st)
  | .ty _, old, st => .ok (old, st)
  | .own _, old, st => .ok (old, st)
  | .owns _ _, old, st => .ok (old, st)
  | .nil, _, st => .ok ((), st)

/-- pack.go:241-387 `Unpack` into a structure that holds `old`: value, returned size, bytes left. -/
def unpackOwn (t : OTy) (old : t.Val) (src : Bytes) : Res (t.Val × Nat × Bytes) := do
  let (v, st) ← unpackOwnFields t old ⟨src, 0, 0, 0#8⟩
  .ok (v, st.n, st.src)

/-- Shapes the packer supports. -/
def OTy.wf : OTy → Bool
  | .ty t => t.wf
  | .own _ => true
  | .owns _ _ => true
  | .nil => true
  | .cons _ f rest => f.wf && rest.wf && rest.isStruct

end Gologix
