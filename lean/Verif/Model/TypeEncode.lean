import Verif.Base.Str
/-
Structure descriptions and their checksum: pack.go:411-522 and the parts of github.com/npat-efault/crc16
it uses.
-/
namespace Gologix

/-- Types as `TypeEncode` sees them.  `basic n` is a type that is not a boolean, array or structure, with
Go name `n`; `known d i` is one whose method `TypeAbbr` returns `d` and `i`.  Fields that are structures or arrays of
them are exported; `Interface` would panic for others (lines 449, 474). -/
inductive DTy where
  | basic (name : Str)
  | bool
  | arr (n : Nat) (elem : DTy)
  | struct (name : Str) (fields : List DTy)
  | known (desc : Str) (ident : BitVec 16)
deriving Repr

/-- pack.go:490-514 `goTypeToLogixTypeName`. -/
def logixTypeName (t : Str) : Str :=
  if t = str "int8" then str "SINT"
  else if t = str "int16" then str "INT"
  else if t = str "int32" then str "DINT"
  else if t = str "int64" then str "LINT"
  else if t = str "uint8" then str "SINT"
  else if t = str "uint16" then str "UINT"
  else if t = str "uint32" then str "UDINT"
  else if t = str "uint64" then str "ULINT"
  else if t = str "float32" then str "REAL"
  else if t = str "float64" then str "LREAL"
  else []

/-- crc16.Conf.makeTable for a bit-reversed polynomial: one division step on the register.  0xA001 is 0x8005
with the bits reversed. -/
def crcShift (r : BitVec 16) : BitVec 16 := (r >>> 1) ^^^ (if r.getLsbD 0 then 0xA001#16 else 0#16)

/-- The table entry of `i`. -/
def crcTable (i : Byte) : BitVec 16 :=
  crcShift (crcShift (crcShift (crcShift (crcShift (crcShift (crcShift (crcShift (i.setWidth 16))))))))

/-- crc16.Conf.Update for a bit-reversed polynomial, one byte. -/
def crcByte (r : BitVec 16) (b : Byte) : BitVec 16 := crcTable (r.setWidth 8 ^^^ b) ^^^ (r >>> 8)

/-- crc16.Checksum with the configuration of pack.go:518-522: initial and final value zero.  The library is
not part of the repository; the definitions here follow its documentation. -/
def checksum (s : Bytes) : BitVec 16 := s.foldl crcByte 0#16

mutual
/-- pack.go:416-488 `TypeEncode` of a value of type `t`: description and identifier.  A type that is no
structure panics at line 437, an empty array of structures at line 449. -/
def typeEncode : DTy → Res (Str × BitVec 16)
  | .known d i => .ok (d, i)
  | .struct name fields => do
    let s ← encodeFields fields name 0
    .ok (s, checksum s)
  | _ => .panic

/-- pack.go:437-483: the loop over the fields; `enc` is `encoded`, `bitpos` the position in a byte of packed
booleans.  Errors of array elements are dropped at line 449 (there are none), an array leaves `bitpos` as it
is (line 452). -/
def encodeFields : List DTy → Str → Nat → Res Str
  | [], enc, _ => .ok enc
  | .arr n elem :: fs, enc, bitpos => do
    let at' ← arrayElemName n elem
    encodeFields fs (enc ++ [0x2C#8] ++ at' ++ [0x5B#8] ++ dec n ++ [0x5D#8]) bitpos
  | .bool :: fs, enc, bitpos =>
    encodeFields fs (if bitpos = 0 then enc ++ str ",SINT" else enc) (if bitpos + 1 ≥ 8 then 0 else bitpos + 1)
  | .basic name :: fs, enc, _ => encodeFields fs (enc ++ [0x2C#8] ++ logixTypeName name) 0
  | .struct name sub :: fs, enc, _ => do
    let s ← encodeFields sub name 0
    encodeFields fs (enc ++ [0x2C#8] ++ s) 0
  | .known d _ :: fs, enc, _ => encodeFields fs (enc ++ [0x2C#8] ++ d) 0

/-- pack.go:443-450: the element type of an array field.  The Go name of an array type is empty. -/
def arrayElemName (n : Nat) : DTy → Res Str
  | .basic name => .ok (logixTypeName name)
  | .bool => .ok (logixTypeName (str "bool"))
  | .arr _ _ => .ok (logixTypeName [])
  | .known d _ => if n = 0 then .panic else .ok d
  | .struct name sub => if n = 0 then .panic else encodeFields sub name 0
end

end Gologix
