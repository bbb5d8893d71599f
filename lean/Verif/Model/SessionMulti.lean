import Verif.Model.Session
import Verif.Model.ReadMulti
/-
`ReadMulti` and `ReadMap` of a client that is connected to a server of this library.
-/
namespace Gologix.Session
open Gologix Gologix.Server Gologix.Connect

/-- read.go:703-769 `ReadMulti` for a pointer to a structure, as `Gologix.readMulti`, with the replies the server sends. -/
def multiOver (C : Conv) (s : Settings) (conn : Nat) (seq : Nat → BitVec 16) (fuel i : Nat) (y : Sys)
    (ioi : Str → Byte → Res Ioi) (tags : List (Option Str)) (direct : List MVal) (args : List Str) :
    Option (Res (List MVal) × Nat × Sys) :=
  match multiFields direct args 0 tags with
  | .panic => some (.panic, i, y)
  | .err e => some (.err e, i, y)
  | .ok fields =>
    match multiDescs ioi (fields.map fun f => (f.1, f.2.2)) with
    | .panic => some (.panic, i, y)
    | .err e => some (.err e, i, y)
    | .ok descs =>
      match listOver C s conn seq fuel i y descs with
      | none => none
      | some (.ok vs, i, y) => some (storeFields fields fields vs direct, i, y)
      | some (.err e, i, y) => some (.err e, i, y)
      | some (.panic, i, y) => some (.panic, i, y)

/-- read.go:1107-1154 `ReadMap`, as `Gologix.readMap`, with the replies the server sends. -/
def mapOver (C : Conv) (s : Settings) (conn : Nat) (seq : Nat → BitVec 16) (fuel i : Nat) (y : Sys)
    (ioi : Str → Byte → Res Ioi) (m : List (Str × MVal)) : Option (Res (List (Str × MVal)) × Nat × Sys) :=
  match multiDescs ioi m with
  | .panic => some (.panic, i, y)
  | .err e => some (.err e, i, y)
  | .ok descs =>
    match batchesOver C s conn seq fuel i y descs with
    | none => none
    | some (.ok vs, i, y) => some (.ok (storeEntries m vs), i, y)
    | some (.err e, i, y) => some (.err e, i, y)
    | some (.panic, i, y) => some (.panic, i, y)

end Gologix.Session
