import Verif.Model.SessionMulti
import Verif.Model.TagGroupRead
/-
Tag groups read by a client that is connected to a server of this library.
-/
namespace Gologix.Session
open Gologix Gologix.Server Gologix.Connect

/-- taggroup_readmap.go:20-39 `ReadTagGroup`; `ord` is the order in which the map is visited. -/
def groupOver (C : Conv) (s : Settings) (conn : Nat) (seq : Nat → BitVec 16) (fuel i : Nat) (y : Sys)
    (ioi : Str → Byte → Res Ioi) (ord : List (Str × MVal) → List (Str × MVal)) (defs : List TagDef) (args : List Str) :
    Option (Res GroupResult × Nat × Sys) :=
  mapOver C s conn seq fuel i y ioi (ord (groupMap args defs))

end Gologix.Session
