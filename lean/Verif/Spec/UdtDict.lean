import Verif.Model.UdtDict
/-
The tags a tagged structure stands for.
-/
namespace Gologix.Spec
open Gologix

/-- The values inside a value that is kept under the tag `t`, each with the tag it belongs to: members after a dot,
elements in brackets.  The first argument is the index of the next element, when elements are meant. -/
def under : Option Nat → Str → WTree → List (Str × WVal)
  | _, t, .val w => [(t, w)]
  | _, t, .arr es => under (some 0) t es
  | _, _, .nil => []
  | none, t, .cons name _ _ f rest => under none (t ++ [0x2E#8] ++ name) f ++ under none t rest
  | some i, t, .cons _ _ _ f rest =>
    under none (t ++ [0x5B#8] ++ str (toString i) ++ [0x5D#8]) f ++ under (some (i + 1)) t rest

/-- The values of the tagged fields of a structure, each with its tag. -/
def tagged : WTree → List (Str × WVal)
  | .cons _ tag _ f rest => under none tag f ++ tagged rest
  | _ => []

/-- A list of fields. -/
def isStruct : WTree → Prop
  | .nil => True
  | .cons _ _ _ _ _ => True
  | _ => False

/-- A value or structure without arrays, all of whose fields are exported. -/
def plainTree : WTree → Prop
  | .val _ => True
  | .arr _ => False
  | .nil => True
  | .cons _ _ e f r => e = true ∧ plainTree f ∧ plainTree r ∧ isStruct r

/-- A Go value: what stands for the remaining fields is a list of fields. -/
def shaped : WTree → Prop
  | .val _ => True
  | .arr es => shaped es ∧ isStruct es
  | .nil => True
  | .cons _ _ _ f r => shaped f ∧ shaped r ∧ isStruct r

/-- The value without its arrays. -/
def outsideArrays : WTree → WTree
  | .cons name tag e f r =>
    match f with
    | .arr _ => outsideArrays r
    | f => .cons name tag e (outsideArrays f) (outsideArrays r)
  | v => v

/-- Some field outside arrays is not exported. -/
def hidden : WTree → Bool
  | .cons _ _ e f r =>
    (match f with
      | .arr _ => false
      | f => !e || hidden f) || hidden r
  | _ => false

/-- What the last of the pairs with the key `k` has. -/
def lastOf (k : Str) (l : List (Str × WVal)) : Option WVal := ((l.filter (fun e => e.1 = k)).getLast?).map Prod.snd

end Gologix.Spec
