import Verif.Base.Str
/-
Tag paths as text and as request paths, independent of the code.

Text: `name[i,j].member[k]` …  Request path (1756-PM020, "Logix5000 Data Access"): per name an ANSI
extended symbolic segment `91 len chars [pad]`, per index a member segment `28 v`, `29 00 v v` or
`2A 00 v v v v`.
-/
namespace Gologix.Spec

/-- One level of a tag path. -/
structure Part where
  name : Str
  idx  : List Nat
deriving DecidableEq, Repr

def renderIdx (is : List Nat) : Str :=
  if is = [] then [] else [0x5B#8] ++ joinWith 0x2C#8 (is.map dec) ++ [0x5D#8]

def renderPart (p : Part) : Str := p.name ++ renderIdx p.idx

/-- The text of a tag path. -/
def render (ps : List Part) : Str := joinWith 0x2E#8 (ps.map renderPart)

/-- The text is a decimal numeral with an optional sign. -/
def isNumeral (s : Str) : Bool :=
  let t := match s with
    | b :: t => if b = 0x2B#8 ∨ b = 0x2D#8 then t else s
    | [] => []
  t != [] && t.all isDigit

/-- Well-formed member name: 1 to 255 bytes, no dot or bracket, not a number. -/
def WfName (s : Str) : Prop :=
  s ≠ [] ∧ s.length ≤ 255 ∧ 0x2E#8 ∉ s ∧ 0x5B#8 ∉ s ∧ 0x5D#8 ∉ s ∧ isNumeral s = false

instance (s : Str) : Decidable (WfName s) := by unfold WfName; infer_instance

/-- Well-formed tag path with indices below `bound`. -/
def WfPath (bound : Nat) (ps : List Part) : Prop :=
  ps ≠ [] ∧ ∀ p ∈ ps, WfName p.name ∧ ∀ i ∈ p.idx, i < bound

instance (b : Nat) (ps : List Part) : Decidable (WfPath b ps) := by unfold WfPath; infer_instance

/-- A segment of a symbolic request path. -/
inductive PSeg where
  | name (s : Str)
  | element (n : Nat)
deriving DecidableEq, Repr

/-- Decode one segment of a symbolic request path. -/
def decodePSeg : Bytes → Option (PSeg × Bytes)
  | [] => none
  | t :: r =>
    if t = 0x91#8 then
      match r with
      | [] => none
      | len :: r =>
        let padded := len.toNat + len.toNat % 2
        if r.length < padded then none
        else some (.name (r.take len.toNat), r.drop padded)
    else if t = 0x28#8 then
      match r with
      | v :: r => some (.element v.toNat, r)
      | _ => none
    else if t = 0x29#8 then
      match r with
      | _ :: v0 :: v1 :: r => some (.element (v0.toNat + 256 * v1.toNat), r)
      | _ => none
    else if t = 0x2A#8 then
      match r with
      | _ :: v0 :: v1 :: v2 :: v3 :: r =>
        some (.element (v0.toNat + 256 * v1.toNat + 65536 * v2.toNat + 16777216 * v3.toNat), r)
      | _ => none
    else none

def decodePSegsAux : Nat → Bytes → Option (List PSeg)
  | _, [] => some []
  | 0, _ :: _ => none
  | fuel + 1, b :: bs =>
    match decodePSeg (b :: bs) with
    | none => none
    | some (s, rest) => (decodePSegsAux fuel rest).map (s :: ·)

/-- Decode a whole symbolic request path; every segment takes at least one byte. -/
def decodePSegs (b : Bytes) : Option (List PSeg) := decodePSegsAux b.length b

/-- The segments a tag path denotes. -/
def segsOf (ps : List Part) : List PSeg :=
  (ps.map fun p => PSeg.name p.name :: p.idx.map PSeg.element).flatten

end Gologix.Spec
