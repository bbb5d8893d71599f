import Verif.Model.Write
import Verif.Model.Pack
import Verif.Model.TypeEncode
/-
`Write` for whatever Go value it is given: write.go:101-111, 116-302.

The path has been built by `newIOI`; a path that cannot be built is an error before anything else happens
(write.go:120-122, 225-227).  Not modelled: values whose type has a Bytes and a Len method (`Serialize` writes those
bytes), structures whose type has a Pack method (Model/Lgx), and fields `Pack` refuses (see Model/Pack).
-/
namespace Gologix.WriteAny

/-- A Go value given as `any`.

`value`, `pointer`, `slice` and `array` are those of the types of `GoLogixTypes`, the type of the values being `T`; a
pointer may be nil.  `named` is a value of a type like `type Speed float32`, whose underlying type is `T`.  `struct` is a
structure with the type `d` as `TypeEncode` and `t` as `Pack` sees it, `structPtr` a pointer to one, `structs` a slice
of them.  `fixed` is any other value of fixed size, such as a pointer to an array; `t` is what `binary.Write` finds in it (of a
slice of `n` things: an array of `n`) and `slice` the length if it is a slice.  `unsized` is everything else, of which
`binary.Write` knows no size: int, uint, maps, functions, slices of those, pointers to those, nil pointers to what is not
in `GoLogixTypes`, and structures with such fields behind a pointer. -/
inductive GoAny where
  | nil
  | value (T : GoTy) (v : Scal)
  | pointer (T : GoTy) (v : Option Scal)
  | slice (T : GoTy) (vs : List Scal)
  | array (T : GoTy) (vs : List Scal)
  | named (T : GoTy) (v : Scal)
  | struct (d : DTy) (t : Ty) (v : t.Val)
  | structPtr (d : DTy) (t : Ty) (v : t.Val)
  | structs (d : DTy) (t : Ty) (vs : List t.Val)
  | fixed (slice : Option Nat) (t : Ty) (v : t.Val)
  | unsized (slice : Option Nat)

/-- types.go:22-69 `GoVarToCIPType`, the type: nil matches no case, everything not listed matches `interface{}`; []bool is
not listed. -/
def GoAny.cipType : GoAny → Byte
  | .nil => tUnknown
  | .value T _ => cipOfGo T
  | .pointer T _ => cipOfGo T
  | .slice T _ => if T = .bool then tStruct else cipOfGo T
  | _ => tStruct

/-- write.go:228-233 -/
def GoAny.elements : GoAny → BitVec 16
  | .slice _ vs => BitVec.ofNat 16 vs.length
  | .structs _ _ vs => BitVec.ofNat 16 vs.length
  | .fixed (some n) _ _ => BitVec.ofNat 16 n
  | .unsized (some n) => BitVec.ofNat 16 n
  | _ => 1#16

/-- items.go:214-282 `Serialize`.  `binary.Write` gets what is not a `string` or `[]string`: it dereferences pointers, refuses what
has no fixed size (a pointer to a string, a string of a named type, an array of strings), writes the fields of a structure
one after the other, and panics for nil when it puts the name of the type in the error. -/
def GoAny.serialize : GoAny → Res Bytes
  | .nil => .panic
  | .value _ v => .ok v.encode
  | .pointer T v => if T = .str then .err .fail else
    match v with
    | some v => .ok v.encode
    | none => .panic
  | .slice _ vs => .ok (encodeSlice vs)
  | .array T vs => if T = .str then .err .fail else .ok (vs.map Scal.encode).flatten
  | .named T v => if T = .str then .err .fail else .ok v.encode
  | .struct _ t v => .ok (t.enc v)
  | .structPtr _ t v => .ok (t.enc v)
  | .structs _ t vs => .ok (vs.map t.enc).flatten
  | .fixed _ t v => .ok (t.enc v)
  | .unsized _ => .err .fail

/-- write.go:221-268 `write_single`: the data of item 1. -/
def writeSingle (seq : BitVec 16) (ioi : Ioi) (v : GoAny) : Res Bytes := do
  let b ← v.serialize
  .ok (putBV seq ++ [0x4D#8, BitVec.ofNat 8 (ioi.buffer.length / 2)] ++ ioi.buffer ++
    writeFooter v.cipType v.elements ++ b)

/-- write.go:116-180 `write_udt`: the data of item 1. -/
def writeUdt (seq : BitVec 16) (ioi : Ioi) (d : DTy) (t : Ty) (v : t.Val) : Res Bytes := do
  let (_, crc) ← typeEncode d
  .ok (writeUdtBytes seq ioi crc (pack t v).1)

/-- write.go:101-111 `Write`: the data of item 1, if anything is sent. -/
def write (seq : BitVec 16) (ioi : Ioi) : GoAny → Res Bytes
  | .struct d t v => writeUdt seq ioi d t v
  | v => writeSingle seq ioi v

end Gologix.WriteAny
