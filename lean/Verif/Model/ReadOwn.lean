import Verif.Model.PackOwn
import Verif.Model.ReadStruct
/-
Reading into the built-in types TIMER, COUNTER and CONTROL, structures with members of them, and slices of both
(read.go:332-369, pack.go:241-387).

As in Model/ReadStruct the path has been built.  Not modelled: what is in the destination after an error.
-/
namespace Gologix.ReadOwn
open Gologix.ReadStruct

/-- pack.go:241-287 `Unpack` into something that holds `old` and has an Unpack method or is a structure. -/
def unpackAny : (t : OTy) → t.Val → Bytes → Res (t.Val × Nat × Bytes)
  | .own k, old, src => k.unpack old src
  | t, old, src => unpackOwn t old src

/-- read.go:332-348: `Read` into a pointer to something that holds `old`: its new value and the requests. -/
def readOwn (t : OTy) (old : t.Val) (ioi : Ioi) (replies : List Reply) : Res t.Val × List ReadReq :=
  let r := readSingle ioi tStruct 1#16 replies
  (do
    let b ← r.1 >>= asBytes
    let (v, _, _) ← unpackAny t old b
    .ok v, r.2.1)

/-- pack.go:262-281 `Unpack` into a slice: after each element the bytes up to the next multiple of the alignment are
skipped. -/
def unpackOwnSlice (t : OTy) : List t.Val → Bytes → Res (List t.Val × Bytes)
  | [], src => .ok ([], src)
  | old :: olds, src => do
    let (v, s, src) ← unpackAny t old src
    let src ← (if s % t.align ≠ 0 then
        (if src = [] then .err .eof else .ok (src.drop (t.align - s % t.align)))
      else .ok src : Res Bytes)
    let (vs, src) ← unpackOwnSlice t olds src
    .ok (v :: vs, src)

/-- read.go:350-369: `Read` into a slice that holds `olds`: its new elements and the requests. -/
def readOwns (t : OTy) (olds : List t.Val) (ioi : Ioi) (replies : List Reply) : Res (List t.Val) × List ReadReq :=
  let r := readSingle ioi tStruct (BitVec.ofNat 16 olds.length) replies
  (do
    let b ← r.1 >>= asBytes
    let (vs, _) ← unpackOwnSlice t olds b
    .ok vs, r.2.1)

end Gologix.ReadOwn
