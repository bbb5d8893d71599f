import Verif.Model.Read
import Verif.Model.ServerIo
/-
Reading into structures: the cases of `Read` (read.go:38-373) that are not in Model/Read, and `ReadPacked`
(pack.go:389-409).

As in Model/Read the path has been built.  Not modelled: structures whose type has an Unpack method (Model/Lgx, Model/ReadOwn), and
the parts of a slice that are written before an error.  `parseArrayStruct` (read.go:1030-1042) is not reachable: no type
`readArray` is used with is a structure.
-/
namespace Gologix.ReadStruct
open Gologix.ServerIo

/-- read.go:337-340, 355-358: only bytes are accepted. -/
def asBytes : RV → Res Bytes
  | .one (.bytes b) => .ok b
  | _ => .err .fail

/-- read.go:332-348: `Read` into a pointer to a structure that holds `old`: what it holds afterwards, the result and the
requests. -/
def readStruct (t : Ty) (old : t.Val) (ioi : Ioi) (replies : List Reply) : t.Val × Res Unit × List ReadReq :=
  let r := readSingle ioi tStruct 1#16 replies
  match r.1 >>= asBytes with
  | .ok b =>
    let u := unpackInto t old ⟨b, 0, 0, 0#8⟩
    (u.1, u.2 >>= fun _ => .ok (), r.2.1)
  | .err e => (old, .err e, r.2.1)
  | .panic => (old, .panic, r.2.1)

/-- read.go:350-369: `Read` into a slice of `n` structures. -/
def readStructs (t : Ty) (n : Nat) (ioi : Ioi) (replies : List Reply) : Res (List t.Val) × List ReadReq :=
  let r := readSingle ioi tStruct (BitVec.ofNat 16 n) replies
  (do
    let b ← r.1 >>= asBytes
    let (vs, _, _) ← unpackSlice t n b
    .ok vs, r.2.1)

/-- pack.go:262-287 `Unpack` into a slice of `n` things that are no structures: `NumField` panics for the first. -/
def unpackOthers (n : Nat) : Res Unit := if n = 0 then .ok () else .panic

/-- read.go:332-348: `Read` into a pointer to a slice of `n` things that are no structures. -/
def readSlicePtr (n : Nat) (ioi : Ioi) (replies : List Reply) : Res Unit × List ReadReq :=
  let r := readSingle ioi tStruct 1#16 replies
  (r.1 >>= asBytes >>= fun _ => unpackOthers n, r.2.1)

/-- read.go:332-348: `Read` into a pointer to something else: an array, or a type like `type Speed float32`. -/
def readOtherPtr (ioi : Ioi) (replies : List Reply) : Res Unit × List ReadReq :=
  let r := readSingle ioi tStruct 1#16 replies
  (r.1 >>= asBytes >>= fun _ => .panic, r.2.1)

/-- read.go:299-308: `Read` into a pointer to `any`. -/
def readAny (ioi : Ioi) (replies : List Reply) : Res RV × List ReadReq :=
  let r := readSingle ioi tStruct 1#16 replies
  (r.1, r.2.1)

/-- read.go:310-369: `Read` into a slice of `n` `any`: the first case does not return, so the slice is read again. -/
def readAnys (n : Nat) (ioi : Ioi) (replies : List Reply) : Res Unit × List ReadReq :=
  let r := readSingle ioi tStruct 1#16 replies
  match r.1 >>= asBytes >>= fun _ => unpackOthers n with
  | .ok _ =>
    let r2 := readSingle ioi tStruct (BitVec.ofNat 16 n) r.2.2
    (r2.1 >>= asBytes >>= fun _ => unpackOthers n, r.2.1 ++ r2.2.1)
  | .err e => (.err e, r.2.1)
  | .panic => (.panic, r.2.1)

/-- read.go:330-372: `Read` into what is neither a pointer nor a slice. -/
def readByValue (_ioi : Ioi) (_replies : List Reply) : Res Unit × List ReadReq := (.ok (), [])

/-- The zero value of a type. -/
def zero (t : Ty) : t.Val := (t.dec []).1

/-- pack.go:389-409 `ReadPacked` -/
def readPacked (t : Ty) (ioi : Ioi) (replies : List Reply) : Res t.Val × List ReadReq :=
  let size := (pack t (zero t)).2
  let r := readSlicePtr size ioi replies
  (do
    let _ ← r.1
    let (v, _, _) ← unpack t (List.replicate size 0#8)
    .ok v, r.2)

end Gologix.ReadStruct
