import Verif.Spec.ServerIoRun
import Verif.Model.ServeLoop
/-
What comes to the listeners, and what has to become of it.
-/
namespace Gologix.Spec
open Gologix.ServeLoop Gologix.Server

/-- The connections that came, in order. -/
def came : List SEv → List Nat
  | [] => []
  | .accept (some c) :: r => c :: came r
  | .accept none :: r => came r
  | .datagram .. :: r => came r

/-- Each datagram that arrived whole, with the tables at that moment. -/
def arrived : List SEv → List (Bytes × ConnTable × Router Nat)
  | [] => []
  | .accept _ :: r => arrived r
  | .datagram dg failed conns router :: r =>
    if failed then arrived r else (dg, conns, router) :: arrived r

/-- The endpoints given a message, with the second item: for each datagram the one it is addressed to. -/
inductive Delivered : List (Bytes × ConnTable × Router Nat) → List (Nat × BitVec 16 × Bytes) → Prop
  | nil : Delivered [] []
  | hit {dg conns router e id data xs ys} : Addressed conns router dg e id data → Delivered xs ys →
      Delivered ((dg, conns, router) :: xs) ((e, id, data) :: ys)
  | miss {dg conns router xs ys} : (∀ e id data, ¬ Addressed conns router dg e id data) → Delivered xs ys →
      Delivered ((dg, conns, router) :: xs) ys

end Gologix.Spec
