import Verif.Base.Bytes
/-
The built-in structured types (lgxtypes/timer.go, counter.go, control.go).
`binary.Write` to a buffer does not fail; `binary.Read` fails on short input.  Integers are bit patterns.
-/
namespace Gologix

/-- lgxtypes/timer.go:8-24. -/
structure Timer where
  pre : BitVec 32
  acc : BitVec 32
  en : Bool
  tt : Bool
  dn : Bool
  fs : Bool
  ls : Bool
  ov : Bool
  er : Bool
deriving DecidableEq, Repr

/-- lgxtypes/counter.go:8-16. -/
structure Counter where
  pre : BitVec 32
  acc : BitVec 32
  cu : Bool
  cd : Bool
  dn : Bool
  ov : Bool
  un : Bool
deriving DecidableEq, Repr

/-- lgxtypes/control.go:8-19. -/
structure Control where
  len : BitVec 32
  pos : BitVec 32
  en : Bool
  eu : Bool
  dn : Bool
  em : Bool
  er : Bool
  ul : Bool
  in_ : Bool
  fd : Bool
deriving DecidableEq, Repr

/-- `if b { CtrlWord |= 1 << k }`. -/
def setBit (w : BitVec 32) (b : Bool) (k : Nat) : BitVec 32 := if b then w ||| (1#32 <<< k) else w

/-- `CtrlWord&(1<<k) != 0`. -/
def hasBit (w : BitVec 32) (k : Nat) : Bool := (w &&& (1#32 <<< k)) != 0#32

/-- The three words of each image: bytes and returned size. -/
def packWords (c a b : BitVec 32) : Bytes × Nat := (putBV c ++ putBV a ++ putBV b, 12)

/-- lgxtypes/timer.go:26-54 `TIMER.Pack`. -/
def Timer.pack (t : Timer) : Bytes × Nat :=
  packWords (setBit (setBit (setBit 0#32 t.en 31) t.tt 30) t.dn 29) t.pre t.acc

/-- lgxtypes/timer.go:56-78 `TIMER.Unpack` into `t`: the new value, the returned size, the bytes left. -/
def Timer.unpack (t : Timer) (src : Bytes) : Res (Timer × Nat × Bytes) := do
  let (c, src) ← readBV 32 src
  let t := { t with en := hasBit c 31, tt := hasBit c 30, dn := hasBit c 29 }
  let (pre, src) ← readBV 32 src
  let (acc, src) ← readBV 32 src
  .ok ({ t with pre := pre, acc := acc }, 12, src)

/-- lgxtypes/counter.go:18-52 `COUNTER.Pack`. -/
def Counter.pack (t : Counter) : Bytes × Nat :=
  packWords (setBit (setBit (setBit (setBit (setBit 0#32 t.cu 31) t.cd 30) t.dn 29) t.ov 28) t.un 27) t.pre t.acc

/-- lgxtypes/counter.go:54-78 `COUNTER.Unpack`. -/
def Counter.unpack (t : Counter) (src : Bytes) : Res (Counter × Nat × Bytes) := do
  let (c, src) ← readBV 32 src
  let t := { t with cu := hasBit c 31, cd := hasBit c 30, dn := hasBit c 29, ov := hasBit c 28, un := hasBit c 27 }
  let (pre, src) ← readBV 32 src
  let (acc, src) ← readBV 32 src
  .ok ({ t with pre := pre, acc := acc }, 12, src)

/-- lgxtypes/control.go:21-64 `CONTROL.Pack`. -/
def Control.pack (t : Control) : Bytes × Nat :=
  packWords (setBit (setBit (setBit (setBit (setBit (setBit (setBit (setBit 0#32 t.en 31) t.eu 30) t.dn 29)
    t.em 28) t.er 27) t.ul 26) t.in_ 25) t.fd 24) t.len t.pos

/-- lgxtypes/control.go:66-93 `CONTROL.Unpack`. -/
def Control.unpack (t : Control) (src : Bytes) : Res (Control × Nat × Bytes) := do
  let (c, src) ← readBV 32 src
  let t := { t with en := hasBit c 31, eu := hasBit c 30, dn := hasBit c 29, em := hasBit c 28,
                    er := hasBit c 27, ul := hasBit c 26, in_ := hasBit c 25, fd := hasBit c 24 }
  let (len, src) ← readBV 32 src
  let (pos, src) ← readBV 32 src
  .ok ({ t with len := len, pos := pos }, 12, src)

end Gologix
