import Verif.Model.Session
import Verif.Model.UdtDict
/-
`WriteMap` and `WriteMulti` of a client that is connected to a server of this library.
-/
namespace Gologix.Session
open Gologix Gologix.Server Gologix.Connect

/-- udt_write.go:129-147: the paths, all built before anything is sent. -/
def putPaths (ioi : Str → Byte → Res Ioi) : List (Str × WVal) → Res (List (Ioi × WVal))
  | [] => .ok []
  | (p, v) :: rest =>
    match ioi p v.cipType with
    | .err e => .err e
    | .panic => .panic
    | .ok io => match putPaths ioi rest with
      | .ok l => .ok ((io, v) :: l)
      | .err e => .err e
      | .panic => .panic

/-- udt_write.go:127-223 `WriteMap`; `d` is the map in the order in which it is visited. -/
def putOver (C : Conv) (s : Settings) (y : Sys) (seq : BitVec 16) (ioi : Str → Byte → Res Ioi) (d : List (Str × WVal)) :
    Res Outcome × Sys :=
  match putPaths ioi d with
  | .err e => (.err e, y)
  | .panic => (.panic, y)
  | .ok es => perform C s y (.map seq es)

/-- write.go:49-63 `WriteMulti`; `ord` is the order in which the map is visited. -/
def putMultiOver (C : Conv) (s : Settings) (y : Sys) (seq : BitVec 16) (ioi : Str → Byte → Res Ioi)
    (ord : List (Str × WVal) → List (Str × WVal)) (v : WTree) : Res Outcome × Sys :=
  match writeMultiMap v with
  | .err e => (.err e, y)
  | .panic => (.panic, y)
  | .ok d => putOver C s y seq ioi (ord d)

end Gologix.Session
