import Verif.Model.Ioi
/-
Values and their wire format: types.go, and the value cases of items.go.
-/
namespace Gologix

/-- types.go:16-18 `GoLogixTypes`. -/
inductive GoTy where
  | bool | u8 | i8 | u16 | i16 | u32 | i32 | u64 | i64 | f32 | f64 | str
deriving DecidableEq, Repr

/-- A dynamically typed Go value (`any`) as far as the library produces or accepts them.  Signed
integers are their two's complement bits, floats their IEEE bits. -/
inductive Scal where
  | nil
  | bool (b : Bool)
  | u8 (v : BitVec 8)
  | i8 (v : BitVec 8)
  | u16 (v : BitVec 16)
  | i16 (v : BitVec 16)
  | u32 (v : BitVec 32)
  | i32 (v : BitVec 32)
  | u64 (v : BitVec 64)
  | i64 (v : BitVec 64)
  | f32 (v : BitVec 32)
  | f64 (v : BitVec 64)
  | str (s : Str)
  | bytes (b : Bytes)
  | arr86 (b : Bytes)
deriving DecidableEq, Repr

/-- Dynamic type of a value, if it is one of `GoLogixTypes`. -/
def Scal.ty : Scal → Option GoTy
  | .bool _ => some .bool
  | .u8 _ => some .u8
  | .i8 _ => some .i8
  | .u16 _ => some .u16
  | .i16 _ => some .i16
  | .u32 _ => some .u32
  | .i32 _ => some .i32
  | .u64 _ => some .u64
  | .i64 _ => some .i64
  | .f32 _ => some .f32
  | .f64 _ => some .f64
  | .str _ => some .str
  | _ => none

/-- types.go:22-69 `GoVarToCIPType`, the type component for scalars and for slices of them. -/
def cipOfGo : GoTy → Byte
  | .bool => tBOOL
  | .u8 => tBYTE
  | .i8 => tSINT
  | .u16 => tUINT
  | .i16 => tINT
  | .u32 => tUDINT
  | .i32 => tDINT
  | .u64 => tLWORD
  | .i64 => tLINT
  | .f32 => tREAL
  | .f64 => tLREAL
  | .str => tSTRING

/-- types.go:117-166 `CIPType.Size`. -/
def cipSize (t : Byte) : Nat :=
  if t = tUnknown then 0
  else if t = tStruct then 88
  else if t = 0xC0#8 then 8       -- UTIME
  else if t = tBOOL then 1
  else if t = tBYTE then 1
  else if t = tSINT then 1
  else if t = tINT then 2
  else if t = tDINT then 4
  else if t = tLINT then 8
  else if t = tUSINT then 1
  else if t = tUINT then 2
  else if t = tUDINT then 4
  else if t = tULINT then 8
  else if t = tLWORD then 8
  else if t = tREAL then 4
  else if t = tLREAL then 8
  else if t = tWORD then 2
  else if t = tDWORD then 4
  else if t = 0xCD#8 then 2       -- DATE
  else if t = 0xCE#8 then 6       -- TIMEOFDAY
  else if t = 0xCF#8 then 0       -- DATETIME
  else if t = tSTRING then 1
  else 0

/-- `binary.Read` of a Go `bool`: any non-zero byte is true. -/
def readBool (r : Bytes) : Res (Bool × Bytes) := do
  let (b, r) ← readBV 8 r
  .ok (b != 0#8, r)

/-- types.go:227-305 `readValue`. -/
def readValue (t : Byte) (r : Bytes) : Res (Scal × Bytes) :=
  if t = tUnknown then .err .fail
  else if t = tStruct then .err .fail
  else if t = tBOOL then do let (v, r) ← readBool r; .ok (.bool v, r)
  else if t = tBYTE then do let (v, r) ← readBV 8 r; .ok (.u8 v, r)
  else if t = tSINT then do let (v, r) ← readBV 8 r; .ok (.i8 v, r)
  else if t = tINT then do let (v, r) ← readBV 16 r; .ok (.i16 v, r)
  else if t = tDINT then do let (v, r) ← readBV 32 r; .ok (.i32 v, r)
  else if t = tLINT then do let (v, r) ← readBV 64 r; .ok (.i64 v, r)
  else if t = tUSINT then do let (v, r) ← readBV 8 r; .ok (.u8 v, r)
  else if t = tUINT then do let (v, r) ← readBV 16 r; .ok (.u16 v, r)
  else if t = tUDINT then do let (v, r) ← readBV 32 r; .ok (.u32 v, r)
  else if t = tLWORD then do let (v, r) ← readBV 64 r; .ok (.u64 v, r)
  else if t = tREAL then do let (v, r) ← readBV 32 r; .ok (.f32 v, r)
  else if t = tLREAL then do let (v, r) ← readBV 64 r; .ok (.f64 v, r)
  else if t = tWORD then do let (v, r) ← readBV 16 r; .ok (.u16 v, r)
  else if t = tDWORD then do let (v, r) ← readBV 32 r; .ok (.u32 v, r)
  else if t = tSTRING then do let (v, r) ← readN 86 r; .ok (.arr86 v, r)
  else .err .fail

/-- The mask test `x & (1 << bitpos) != 0` of types.go:331-333 and the other cases. -/
def maskTest {w : Nat} (x : BitVec w) (bitpos : Nat) : Bool :=
  (x &&& (1#w <<< bitpos)) != 0#w

/-- One case of the switch in `getBit`: inside the range the value must have the asserted Go type, else
error; outside the range nothing happens and line 451 returns `false, nil`. -/
def getBitCase (width : Nat) (x : Option Bool) (bitpos : Int) : Res Bool :=
  if 0 ≤ bitpos ∧ bitpos < width then
    match x with
    | some b => .ok b
    | none => .err .fail
  else .ok false

/-- types.go:309-452 `getBit`.  In the SINT case (line 339) the value is asserted to be a `byte`. -/
def getBit (t : Byte) (v : Scal) (bitpos : Int) : Res Bool :=
  let n := bitpos.toNat
  let asU8 : Option Bool := match v with | .u8 x => some (maskTest x n) | _ => none
  let asU16 : Option Bool := match v with | .u16 x => some (maskTest x n) | _ => none
  let asU32 : Option Bool := match v with | .u32 x => some (maskTest x n) | _ => none
  let asU64 : Option Bool := match v with | .u64 x => some (maskTest x n) | _ => none
  let asI16 : Option Bool := match v with | .i16 x => some (maskTest x n) | _ => none
  let asI32 : Option Bool := match v with | .i32 x => some (maskTest x n) | _ => none
  let asI64 : Option Bool := match v with | .i64 x => some (maskTest x n) | _ => none
  if t = tUnknown then .err .fail
  else if t = tStruct then .err .fail
  else if t = tBOOL then
    getBitCase 1 (match v with | .bool x => some x | _ => none) bitpos
  else if t = tBYTE then getBitCase 8 asU8 bitpos
  else if t = tSINT then getBitCase 8 asU8 bitpos
  else if t = tINT then getBitCase 16 asI16 bitpos
  else if t = tDINT then getBitCase 32 asI32 bitpos
  else if t = tLINT then getBitCase 64 asI64 bitpos
  else if t = tUSINT then getBitCase 8 asU8 bitpos
  else if t = tUINT then getBitCase 16 asU16 bitpos
  else if t = tUDINT then getBitCase 32 asU32 bitpos
  else if t = tLWORD then getBitCase 64 asU64 bitpos
  else if t = tREAL then .err .fail
  else if t = tLREAL then .err .fail
  else if t = tWORD then getBitCase 16 asU16 bitpos
  else if t = tDWORD then getBitCase 32 asU32 bitpos
  else if t = tSTRING then .err .fail
  else .err .fail

/-- `copy(b, s)` into a fresh buffer of `n` bytes. -/
def fitTo (n : Nat) (s : Bytes) : Bytes := s.take n ++ List.replicate (n - s.length) 0#8

/-- items.go:217-232 `Serialize` of a `string`: the length as is, then 84 bytes. -/
def stringBytes (s : Str) : Bytes := putBV (BitVec.ofNat 32 s.length) ++ fitTo 84 s

/-- items.go:247-266 `Serialize` of one element of a `[]string`: the length clamped to 84, then 84
bytes. -/
def stringElemBytes (s : Str) : Bytes :=
  putBV (BitVec.ofNat 32 (if s.length > 84 then 84 else s.length)) ++ fitTo 84 s

/-- items.go:214-282 `Serialize` of a scalar value.  `nil` is not serialisable by `binary.Write`. -/
def Scal.encode : Scal → Bytes
  | .nil => []
  | .bool b => [if b then 1#8 else 0#8]
  | .u8 v => putBV v
  | .i8 v => putBV v
  | .u16 v => putBV v
  | .i16 v => putBV v
  | .u32 v => putBV v
  | .i32 v => putBV v
  | .u64 v => putBV v
  | .i64 v => putBV v
  | .f32 v => putBV v
  | .f64 v => putBV v
  | .str s => stringBytes s
  | .bytes b => b
  | .arr86 b => b

/-- `Serialize` of a slice of one of the supported element types: element after element; a `[]string`
uses the clamped form. -/
def Scal.encodeElem : Scal → Bytes
  | .str s => stringElemBytes s
  | v => v.encode

def encodeSlice (vs : List Scal) : Bytes := (vs.map Scal.encodeElem).flatten

end Gologix
