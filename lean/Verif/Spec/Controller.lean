import Verif.Spec.Listing
/-
Published layouts: the reply to a request for several attributes, the controller's change attributes, the force status and
the fault log; and what it means that an error contains another.
-/
namespace Gologix.Spec

/-- An attribute in a reply: number, status, and the value (its width and number) unless the status refuses it. -/
structure AttrAnswer where
  id     : BitVec 16
  status : BitVec 16
  width  : Nat
  value  : Nat
deriving DecidableEq, Repr

def AttrAnswer.bytes (a : AttrAnswer) : Bytes :=
  le 2 a.id.toNat ++ le 2 a.status.toNat ++ (if a.status = 0 then le a.width a.value else [])

/-- What follows the sequence count: the service, a status of zero, the number of attributes and the attributes. -/
def attrListBody (svc reserved : Byte) (as : List AttrAnswer) : Bytes :=
  [svc, reserved, 0#8, 0#8] ++ le 2 as.length ++ (as.map AttrAnswer.bytes).flatten

/-- The attributes 1, 2, 3, 4 and 10 of the controller with the widths 2, 2, 4, 4, 4. -/
structure ChangeMarks where
  a : BitVec 16
  b : BitVec 16
  c : BitVec 32
  d : BitVec 32
  e : BitVec 32
deriving DecidableEq, Repr

/-- The answers for the attributes, given the five statuses. -/
def ChangeMarks.answers (m : ChangeMarks) (s1 s2 s3 s4 s5 : BitVec 16) : List AttrAnswer :=
  [⟨1, s1, 2, m.a.toNat⟩, ⟨2, s2, 2, m.b.toNat⟩, ⟨3, s3, 4, m.c.toNat⟩, ⟨4, s4, 4, m.d.toNat⟩, ⟨10, s5, 4, m.e.toNat⟩]

/-- How often a value differs from the one before. -/
def changes {α : Type} [DecidableEq α] : α → List α → Nat
  | _, [] => 0
  | a, b :: r => (if b = a then 0 else 1) + changes b r

/-- The last value. -/
def latest {α : Type} : α → List α → α
  | a, [] => a
  | _, b :: r => latest b r

/-- One event of the fault log: time, class, code, 30 bytes of details. -/
def faultEventBytes (t : BitVec 64) (c k : BitVec 16) (detail : Bytes) : Bytes :=
  le 8 t.toNat ++ (le 2 c.toNat ++ (le 2 k.toNat ++ detail))

/-- Errors: a plain one, one wrapping another (`%w`), several put together.  The number is the identity of the value. -/
inductive AnError where
  | leaf (n : Nat)
  | wrap (n : Nat) (e : AnError)
  | multi (es : List AnError)

/-- `t` is the error, or wrapped in it, or contained in one of those put together. -/
inductive Inside (t : Nat) : AnError → Prop
  | leaf : Inside t (.leaf t)
  | here (e : AnError) : Inside t (.wrap t e)
  | wrap (n : Nat) {e : AnError} : Inside t e → Inside t (.wrap n e)
  | multi {es : List AnError} {e : AnError} : e ∈ es → Inside t e → Inside t (.multi es)

/-- Nothing was put together from no errors at all. -/
inductive Sound : AnError → Prop
  | leaf (n : Nat) : Sound (.leaf n)
  | wrap (n : Nat) {e : AnError} : Sound e → Sound (.wrap n e)
  | multi {es : List AnError} : es ≠ [] → (∀ e ∈ es, Sound e) → Sound (.multi es)

end Gologix.Spec
