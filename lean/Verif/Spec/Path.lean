import Verif.Spec.TagPath
import Verif.Spec.Segments
import Verif.Model.Path
/-
Route strings, independent of the code.
-/
namespace Gologix.Spec

/-- Spaces and square brackets. -/
def decoration (b : Byte) : Prop := b = 0x20#8 ∨ b = 0x5B#8 ∨ b = 0x5D#8

instance (b : Byte) : Decidable (decoration b) := by unfold decoration; infer_instance

/-- `s` is `t` with spaces and brackets put in anywhere. -/
inductive Decorated : Str → Str → Prop
  | nil : Decorated [] []
  | keep (b : Byte) {t s : Str} : Decorated t s → Decorated (b :: t) (b :: s)
  | put {b : Byte} {t s : Str} : decoration b → Decorated t s → Decorated t (b :: s)

/-- Value of a string of digits. -/
def digitsVal (s : Str) : Nat := s.foldl (fun a b => 10 * a + (b.toNat - 48)) 0

/-- The text is a decimal numeral, possibly signed, for the byte value `n`. -/
def byteNumeral (p : Str) (n : Nat) : Prop :=
  n < 256 ∧ ∃ ds : Str, ds ≠ [] ∧ ds.all isDigit = true ∧ digitsVal ds = n ∧
    (p = ds ∨ p = 0x2B#8 :: ds ∨ p = 0x2D#8 :: ds ∧ n = 0)

/-- One item of a route: a number, or a number followed by a network address in dotted notation. -/
inductive Hop where
  | num (n : Nat)
  | net (n : Nat) (addr : Str)
deriving DecidableEq, Repr

/-- Well-formed: byte values; an address has a dot, no comma and at most 255 characters. -/
def Hop.wf : Hop → Prop
  | .num n => n < 256
  | .net n a => n < 256 ∧ 0x2E#8 ∈ a ∧ 0x2C#8 ∉ a ∧ (∀ b ∈ a, ¬ decoration b) ∧ a.length < 256

def Hop.texts : Hop → List Str
  | .num n => [dec n]
  | .net n a => [dec n, a]

/-- The route bytes: the number; for an address bit 4 of the number is set and length and text follow. -/
def Hop.bytes : Hop → Bytes
  | .num n => [BitVec.ofNat 8 n]
  | .net n a => [BitVec.ofNat 8 n ||| 0x10#8, BitVec.ofNat 8 a.length] ++ a

/-- The text of a route. -/
def routeText (hops : List Hop) : Str := joinWith 0x2C#8 (hops.map Hop.texts).flatten

def routeBytes (hops : List Hop) : Bytes := (hops.map Hop.bytes).flatten

/-- The bytes are the segment a builder call names. -/
def Adds (op : PathOp) (x : Bytes) : Prop :=
  match op with
  | .custom d => x = d
  | .cls v => ∀ rest, decodeLogical (x ++ rest) = some (.classId, v.toNat, rest)
  | .inst v => ∀ rest, decodeLogical (x ++ rest) = some (.instanceId, v.toNat, rest)
  | .attr v => ∀ rest, decodeLogical (x ++ rest) = some (.attributeId, v.toNat, rest)
  | .elem v => ∀ rest, decodeLogical (x ++ rest) = some (.memberId, v.toNat, rest)
  | .symbolic s => ∀ rest, decodePSeg (x ++ rest) = some (.name s, rest)
  | .port v | .address v | .slot v => x = [v]
  | .parse s => ∀ hops, hops ≠ [] → (∀ h ∈ hops, Hop.wf h) → Decorated (routeText hops) s → x = routeBytes hops

/-- Arguments a builder call has a meaning for; an element number below 65536. -/
def Sane : PathOp → Prop
  | .elem v => v.toNat < 65536
  | .symbolic s => WfName s
  | .parse s => ∃ hops, hops ≠ [] ∧ (∀ h ∈ hops, Hop.wf h) ∧ Decorated (routeText hops) s
  | _ => True

end Gologix.Spec
