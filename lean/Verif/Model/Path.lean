import Verif.Model.Ioi
/-
Route strings and the path builder: path.go.
-/
namespace Gologix

/-- path.go:74-98: the loop over the parts; `acc` is `byte_path`.  A part with a dot needs a byte before it
(line 81 indexes `byte_path[-1]` otherwise). -/
def pathParts : Bytes → List Str → Res Bytes
  | acc, [] => .ok acc
  | acc, part :: ps =>
    if 0x2E#8 ∈ part then
      if acc = [] then .panic
      else pathParts (acc.dropLast ++ [acc.getLastD 0#8 ||| 0x10#8] ++ [BitVec.ofNat 8 part.length] ++ part) ps
    else
      match atoi part with
      | .ok v => if v < 0 ∨ 255 < v then .err .fail else pathParts (acc ++ [BitVec.ofInt 8 v]) ps
      | _ => .err .fail

/-- path.go:61-101 `ParsePath`; the buffer is its bytes. -/
def parsePath (path : Str) : Res Bytes :=
  if path = [] then .ok []
  else pathParts [] (splitOn 0x2C#8 (removeAll [0x5D#8] (removeAll [0x5B#8] (removeAll [0x20#8] path))))

/-- The methods of path.go:131-282. -/
inductive PathOp where
  | custom (data : Bytes)
  | cls (v : BitVec 16)
  | inst (v : BitVec 32)
  | attr (v : BitVec 16)
  | symbolic (s : Str)
  | elem (v : BitVec 32)
  | port (v : Byte)
  | address (v : Byte)
  | slot (v : Byte)
  | parse (s : Str)
deriving DecidableEq, Repr

/-- path.go:114-119 `PathBuilder`.  The stored error is represented by the call that caused it. -/
structure PathBuilder where
  b   : Bytes := []
  err : Option PathOp := none
deriving DecidableEq, Repr

/-- One call.  Writing to a `bytes.Buffer` does not fail, so the only errors are those of `marshalIOIPart`
(path.go:203-206; the nil slice it returns is still written, line 207) and `ParsePath` (272-276). -/
def PathBuilder.call (pb : PathBuilder) (op : PathOp) : Res PathBuilder :=
  if pb.err.isSome then .ok pb
  else match op with
    | .custom data => .ok { pb with b := pb.b ++ data }
    | .cls v => .ok { pb with b := pb.b ++ classBytes v }
    | .inst v => .ok { pb with b := pb.b ++ instanceBytes v }
    | .attr v => .ok { pb with b := pb.b ++ attributeBytes v }
    | .symbolic s =>
      match marshalIOIPart s with
      | .ok x => .ok { pb with b := pb.b ++ x }
      | .err _ => .ok { pb with err := some op }
      | .panic => .panic
    | .elem v => .ok { pb with b := pb.b ++ elementBytes v }
    | .port v => .ok { pb with b := pb.b ++ [v] }
    | .address v => .ok { pb with b := pb.b ++ [v] }
    | .slot v => .ok { pb with b := pb.b ++ [v] }
    | .parse s =>
      match parsePath s with
      | .ok x => .ok { pb with b := pb.b ++ x }
      | .err _ => .ok { pb with err := some op }
      | .panic => .panic

/-- A chain of calls. -/
def PathBuilder.calls : PathBuilder → List PathOp → Res PathBuilder
  | pb, [] => .ok pb
  | pb, op :: ops => do (← pb.call op).calls ops

end Gologix
