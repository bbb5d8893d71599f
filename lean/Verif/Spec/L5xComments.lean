import Verif.Model.L5xComments
import Verif.Spec.Listing
/-
What a project export says about its tags and rungs, as a relation between names and texts.
-/
namespace Gologix.Spec

/-- The XML inside a description: a text in a CDATA section, perhaps with blanks around it. -/
def Cdata (raw text : Bytes) : Prop :=
  ∃ a b, raw = a ++ (str "<![CDATA[" ++ text ++ str "]]>" ++ b) ∧ (∀ x ∈ a, Blank x) ∧ ∀ x ∈ b, Blank x

/-- Two texts with a blank between them, if the first is there. -/
def Joined (a b t : Bytes) : Prop := (a = [] ∧ t = b) ∨ (a ≠ [] ∧ t = a ++ 0x20#8 :: b)

/-- `text` is what an element with this inside says; nothing if the element is missing. -/
def TextOf (read : Bytes → Bytes) (o : Option Bytes) (text : Bytes) : Prop :=
  (o = none ∧ text = []) ∨ ∃ raw, o = some raw ∧ text = read raw

/-- What is said of a member: the description of the type followed by its own, or just that of the type. -/
def MemberText (read : Bytes → Bytes) (typ : Bytes) (o : Option Bytes) (text : Bytes) : Prop :=
  (o = none ∧ text = typ) ∨ ∃ raw, o = some raw ∧ Joined typ (read raw) text

/-- `t` is the type a name stands for: the last one so called. -/
def TypeIs (types : List L5xType) (n : Bytes) (t : L5xType) : Prop :=
  ∃ pre post, types = pre ++ t :: post ∧ t.name = n ∧ ∀ u ∈ post, u.name ≠ n

/-- What is said about the parts of a type: about itself (under the name of the type), about a member under its key, and
about the parts of a member.  `read` reads the inside of a description and `key` gives the name of a member. -/
inductive TypeSays (read : Bytes → Bytes) (key : L5xTypeMember → Option Bytes) (types : List L5xType) :
    Bytes → Bytes → Bytes → Prop
  | self {n t ms d} : TypeIs types n t → t.members = some ms → TextOf read t.desc d → TypeSays read key types n n d
  | member {n t ms d x k e} : TypeIs types n t → t.members = some ms → TextOf read t.desc d → x ∈ ms →
      key x = some k → MemberText read d x.desc e → TypeSays read key types n k e
  | part {n t ms d x k e k' e' u} : TypeIs types n t → t.members = some ms → TextOf read t.desc d → x ∈ ms →
      key x = some k → MemberText read d x.desc e → TypeSays read key types x.typ k' e' → Joined e e' u →
      TypeSays read key types n (x.name ++ 0x2E#8 :: k') u

/-- A letter or an underscore. -/
def NameChar (c : Byte) : Prop :=
  (0x61 ≤ c.toNat ∧ c.toNat ≤ 0x7A) ∨ (0x41 ≤ c.toNat ∧ c.toNat ≤ 0x5A) ∨ c.toNat = 0x5F

instance (c : Byte) : Decidable (NameChar c) := by unfold NameChar; infer_instance

/-- The name of the hidden member number `n` (from 0) of a type, which holds bits: it ends in its number. -/
def HiddenMember (target : Bytes) (n : Nat) : Prop := ∃ stem c, target = stem ++ c :: dec n ∧ NameChar c

/-- The key of a bit: its name and its position among the bits. -/
def bitKey (name : Bytes) (pos : Nat) : Bytes := name ++ str "<" ++ dec pos ++ str ">"

/-- What is said about the points of the modules and about the tags of the controller. -/
inductive ProjectSays (read : Bytes → Bytes) (key : L5xTypeMember → Option Bytes) (p : L5xProject) : Bytes → Bytes → Prop
  | input {m c x} : m ∈ p.modules → c ∈ m.conns → x ∈ c.1 → read x.inner ≠ [] →
      ProjectSays read key p (m.name ++ str ":I" ++ x.operand) (read x.inner)
  | output {m c x} : m ∈ p.modules → c ∈ m.conns → x ∈ c.2 → read x.inner ≠ [] →
      ProjectSays read key p (m.name ++ str ":O" ++ x.operand) (read x.inner)
  | tag {t raw more} : t ∈ p.tags → t.hasData = true → t.descs = raw :: more → ProjectSays read key p t.name (read raw)
  | part {t d k e u} : t ∈ p.tags → TextOf read (if t.hasData then t.descs.head? else none) d →
      TypeSays read key p.types t.typ k e → e ≠ [] → Joined d e u → ProjectSays read key p (t.name ++ 0x2E#8 :: k) u

/-- The task a program belongs to; the empty name if it is in none. -/
def TaskOf (tasks : List (Bytes × List Bytes)) (program task : Bytes) : Prop :=
  (∃ t ∈ tasks, program ∈ t.2 ∧ task = t.1) ∨ ((∀ t ∈ tasks, program ∉ t.2) ∧ task = [])

/-- What is said about the rungs. -/
inductive RungSays (read : Bytes → Bytes) (p : L5xProject) : Bytes → Bytes → Prop
  | rung {g r x c task} : g ∈ p.programs → r ∈ g.routines → x ∈ r.rungs → c ∈ x.comments → read c ≠ [] →
      TaskOf p.tasks g.name task →
      RungSays read p (task ++ str "/" ++ g.name ++ str "/" ++ r.name ++ str "[" ++ x.number ++ str "]") (read c)

/-- A map holds what is said: every text in it is said under its name, and every name something is said about is in it. -/
def Holds (m : List (Bytes × Bytes)) (S : Bytes → Bytes → Prop) : Prop :=
  (∀ k v, m.lookup k = some v → S k v) ∧ ∀ k v, S k v → ∃ v', m.lookup k = some v'

end Gologix.Spec
