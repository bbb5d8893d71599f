import Verif.Model.PackOwn
import Verif.Model.WriteAny
/-
Writing the built-in types TIMER, COUNTER and CONTROL, structures with members of them, and pointers to and slices of
both (write.go:101-302, pack.go:96-237, 416-488, lgxtypes).

As in Model/WriteAny the path has been built.  The built-in types have no Bytes method, so that `Serialize` gives them to
`binary.Write` (items.go:268-276).
-/
namespace Gologix.WriteOwn

/-- lgxtypes/timer.go:80-82, counter.go:80-82, control.go:95-97 `TypeAbbr`. -/
def abbr : Own → DTy
  | .timer => .known (str "TIMER,DINT,DINT,DINT") 0x0F83#16
  | .counter => .known (str "COUNTER,DINT,DINT,DINT") 0x0F82#16
  | .control => .known (str "CONTROL,DINT,DINT,DINT") 0x0F81#16

/-- pack.go:96-101 `Pack` of something that has a Pack method or is a structure. -/
def packAny : (t : OTy) → t.Val → Bytes × Nat
  | .own k, v => k.pack v
  | t, v => packOwn t v

/-- What `binary.Write` emits: the fields one after the other. -/
def enc : (t : OTy) → t.Val → Bytes
  | .ty t, v => t.enc v
  | .own k, v => k.enc v
  | .owns n k, v => encRep k.enc n v
  | .nil, _ => []
  | .cons _ f rest, v => enc f v.1 ++ enc rest v.2

/-- write.go:109, 116-180: the data of item 1 for a value; `d` is the type as `TypeEncode` sees it. -/
def writeOwn (seq : BitVec 16) (ioi : Ioi) (d : DTy) (t : OTy) (v : t.Val) : Res Bytes := do
  let (_, crc) ← typeEncode d
  .ok (writeUdtBytes seq ioi crc (packAny t v).1)

/-- write.go:111, 221-268: the data of item 1 for a pointer. -/
def writeOwnPtr (seq : BitVec 16) (ioi : Ioi) (t : OTy) (v : t.Val) : Bytes :=
  putBV seq ++ [0x4D#8, BitVec.ofNat 8 (ioi.buffer.length / 2)] ++ ioi.buffer ++ writeFooter tStruct 1#16 ++ enc t v

/-- write.go:111, 221-268: the data of item 1 for a slice. -/
def writeOwns (seq : BitVec 16) (ioi : Ioi) (t : OTy) (vs : List t.Val) : Bytes :=
  putBV seq ++ [0x4D#8, BitVec.ofNat 8 (ioi.buffer.length / 2)] ++ ioi.buffer ++
    writeFooter tStruct (BitVec.ofNat 16 vs.length) ++ (vs.map (enc t)).flatten

end Gologix.WriteOwn
