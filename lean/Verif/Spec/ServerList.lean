import Verif.Base.Bytes
/-
Lists of symbols as the server sends them: instance (4 bytes), length of the name (2), name, type (2).
-/
namespace Gologix.Server.Spec
open Gologix

/-- Reads a list: instance, name and type of each symbol. -/
def readListing : Nat → Bytes → Option (List (Nat × Bytes × Nat))
  | _, [] => some []
  | 0, _ :: _ => none
  | n + 1, d =>
    let len := unle ((d.drop 4).take 2)
    if d.length < 8 + len then none
    else (readListing n (d.drop (8 + len))).map
      ((unle (d.take 4), (d.drop 6).take len, unle ((d.drop (6 + len)).take 2)) :: ·)

/-- Names in ascending order of their bytes. -/
def Ascending (names : List Bytes) : Prop :=
  names.Pairwise fun a b => a.map BitVec.toNat < b.map BitVec.toNat

end Gologix.Server.Spec
