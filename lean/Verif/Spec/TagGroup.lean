import Verif.Spec.TagPath
/-
Tag groups, independent of the client code.
-/
namespace Gologix.Spec

/-- The tags a member of a group stands for: the tag itself, or `c` consecutive elements of an array from the
one named on, the last index running. -/
inductive Expands (base : Str) (count : Int) : List Str → Prop where
  | single : count ≤ 1 → Expands base count [base]
  | array (n : Str) (is : List Nat) (k c : Nat) : 2 ≤ c → count = c → base = n ++ renderIdx (is ++ [k]) →
      (∀ i ∈ is, i < 2 ^ 63) → k + c ≤ 2 ^ 63 →
      Expands base count ((List.range c).map fun j => n ++ renderIdx (is ++ [k + j]))

/-- A name with places for arguments: text without braces opening, and places. -/
inductive Piece where
  | text (s : Str)
  | place (i : Nat)

/-- The text of a name with its places written `{i}`. -/
def Piece.show : Piece → Str
  | .text s => s
  | .place i => [0x7B#8] ++ dec i ++ [0x7D#8]

/-- A piece with the arguments put in. -/
def Piece.fill (args : List Str) : Piece → Str
  | .text s => s
  | .place i => (args[i]?).getD (Piece.show (.place i))

def Piece.plain : Piece → Prop
  | .text s => 0x7B#8 ∉ s
  | .place _ => True

end Gologix.Spec
