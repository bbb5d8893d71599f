import Verif.Spec.ServerIo
import Verif.Model.ServerIoRun
/-
Output messages over time: which message counts, and who gets it.
-/
namespace Gologix.Spec
open Gologix.Server

/-- The datagram is an output message with data `output`, number `seq` and header `hdr`, of an open connection to
endpoint `e`. -/
def OutputFor (router : Router Nat) (conns : ConnTable) (dg : Bytes) (e : Nat) (seq hdr : BitVec 32) (output : Bytes) : Prop :=
  ∃ conn count c, dg = ioOutput conn seq count hdr output ∧ output.length + 24 < 4096 ∧ conns.getByOT conn = .ok c ∧
    router.resolve c.path = .ok e

/-- The datagram is addressed to endpoint `e`: filled up with zeros to 4096 bytes it begins with two items, the first of
which is a sequenced address with the number of an open connection, whose path leads to `e`; `id` and `data` are the second
item. -/
def Addressed (conns : ConnTable) (router : Router Nat) (dg : Bytes) (e : Nat) (id : BitVec 16) (data : Bytes) : Prop :=
  0 < dg.length ∧ dg.length < 4096 ∧ data.length < 65536 ∧ ∃ (conn : BitVec 32) (more tail : Bytes) (c : Conn),
    4 ≤ more.length ∧ more.length + 4 < 65536 ∧
    dg ++ List.replicate (4096 - dg.length) 0#8 = cpf [(0x8002#16, le 4 conn.toNat ++ more), (id, data)] ++ tail ∧
    conns.getByOT conn = .ok c ∧ router.resolve c.path = .ok e

/-- The datagram is for nobody or for another endpoint than `e`. -/
def NotFor (router : Router Nat) (conns : ConnTable) (dg : Bytes) (e : Nat) : Prop :=
  ∀ id data, ¬ Addressed conns router dg e id data

/-- `items` are a message with the image of `v`. -/
def Carries (t : Ty) (items : List Item) (v : t.Val) : Prop :=
  ∃ i0 hdr rest, hdr.length = 6 ∧ ((pack t v).1 ++ rest).length + 6 < 65536 ∧
    items = [i0, ⟨0xB1#16, BitVec.ofNat 16 (hdr ++ ((pack t v).1 ++ rest)).length, hdr ++ ((pack t v).1 ++ rest), 0⟩]

/-- The values of the messages that come while channel `i` is there and for which somebody waits at it and at every
channel opened before it; `n` channels are there at the beginning. -/
inductive Gets {tin : Ty} (tout : Ty) (i : Nat) : Nat → List (ServerIo.ChanEv tin) → List tout.Val → Prop
  | nil {n} : Gets tout i n [] []
  | set {n v evs vs} : Gets tout i n evs vs → Gets tout i n (.set v :: evs) vs
  | chan {n evs vs} : Gets tout i (n + 1) evs vs → Gets tout i n (.chan :: evs) vs
  | got {n ready items v evs vs} : Carries tout items v → i < n → (∀ j ≤ i, ready j = true) →
      Gets tout i n evs vs → Gets tout i n (.recv ready items :: evs) (v :: vs)
  | missed {n ready items v evs vs} : Carries tout items v → ¬ (i < n ∧ ∀ j ≤ i, ready j = true) →
      Gets tout i n evs vs → Gets tout i n (.recv ready items :: evs) vs

end Gologix.Spec
