import Verif.Model.ServerTables
/-
What the server's tables should do, stated over histories of operations and without reference to how
the tables are represented.
-/
namespace Gologix.Server.Spec

/-- One operation on the connection table. -/
inductive ConnOp where
  | add (c : Conn)
  | closeID (k : BitVec 16)
  | closeOT (k : BitVec 32)
  | closeTO (k : BitVec 32)
deriving DecidableEq, Repr

/-- The operation is a close that names connection `c`. -/
def ConnOp.closes (c : Conn) : ConnOp → Prop
  | .add _ => False
  | .closeID k => c.id = k
  | .closeOT k => c.ot = k
  | .closeTO k => c.to = k

/-- `c` was added and has not been closed since. -/
def OpenAfter (h : List ConnOp) (c : Conn) : Prop :=
  ∃ pre post, h = pre ++ .add c :: post ∧ ∀ op ∈ post, ¬ op.closes c

/-- Identifiers are distinct: whenever a connection is added, no connection open at that time has its
serial number or one of its connection identifiers, and its object is a fresh one. -/
def Distinct (h : List ConnOp) : Prop :=
  ∀ pre c post, h = pre ++ .add c :: post →
    (∀ c', OpenAfter pre c' → c'.id ≠ c.id ∧ c'.ot ≠ c.ot ∧ c'.to ≠ c.to) ∧
    (∀ c', ConnOp.add c' ∈ pre → c'.ref ≠ c.ref)

/-- The endpoint registered last for exactly `path`. -/
def lastRegistered {α : Type} (path : Bytes) : List (Bytes × α) → Option α
  | [] => none
  | (p, a) :: rest =>
    match lastRegistered path rest with
    | some b => some b
    | none => if p = path then some a else none

/-- A tag name that denotes a whole tag: not of the form `…]`. -/
def wholeName (t : Str) : Prop := t.getLast? ≠ some 0x5D#8

/-- The name of an element of array `base`, with the index as text. -/
def elemText (base text : Str) : Str := base ++ [0x5B#8] ++ text ++ [0x5D#8]

/-- The name of element `k` of array `base`. -/
def elemName (base : Str) (k : Nat) : Str := elemText base (dec k)

/-- Names that differ at most in letter case. -/
def sameName (a b : Str) : Prop := toLower a = toLower b

/-- `w` names neither tag `t` nor something of the form `t[text]`. -/
def otherTag (w t : Str) : Prop :=
  ¬ sameName w t ∧ ∀ text, 0x5B#8 ∉ text → ¬ sameName w (elemText t text)

/-- Every element has Go type `t`. -/
def allOfType (t : GoTy) (vs : List TVal) : Prop := ∀ v ∈ vs, ∃ s, v = .scal s ∧ s.ty = some t

/-- The whole number a value of an integer type stands for. -/
inductive Denotes : Scal → Int → Prop
  | u8 (v : BitVec 8) : Denotes (.u8 v) v.toNat
  | i8 (v : BitVec 8) : Denotes (.i8 v) v.toInt
  | u16 (v : BitVec 16) : Denotes (.u16 v) v.toNat
  | i16 (v : BitVec 16) : Denotes (.i16 v) v.toInt
  | u32 (v : BitVec 32) : Denotes (.u32 v) v.toNat
  | i32 (v : BitVec 32) : Denotes (.i32 v) v.toInt
  | u64 (v : BitVec 64) : Denotes (.u64 v) v.toNat
  | i64 (v : BitVec 64) : Denotes (.i64 v) v.toInt

/-- The integer types, and all types of numbers. -/
def integers : List GoTy := [.u8, .i8, .u16, .i16, .u32, .i32, .u64, .i64]
def numbers : List GoTy := integers ++ [.f32, .f64]

/-- An array of `T` takes values of type `a`: the same type, a number for a number, or an integer (a code
point) for a text. -/
inductive Takes : GoTy → GoTy → Prop
  | same (T : GoTy) : Takes T T
  | number {T a : GoTy} : T ∈ numbers → a ∈ numbers → Takes T a
  | text {a : GoTy} : a ∈ integers → Takes .str a

/-- `w` is what an array of `T` holds after `v` was written: a value of type `T`, `v` itself if it is one, and
the same number if `v` is a whole number that `T` has. -/
def HeldAs (T : GoTy) (v w : Scal) : Prop :=
  w.ty = some T ∧ (v.ty = some T → w = v) ∧
  ∀ n u, Denotes v n → Denotes u n → u.ty = some T → w = u

/-- The values `ws` are what an array of `T` holds after `vs` were written, one by one. -/
inductive AllHeld (T : GoTy) : List Scal → List Scal → Prop
  | nil : AllHeld T [] []
  | cons {v w : Scal} {vs ws : List Scal} : HeldAs T v w → AllHeld T vs ws → AllHeld T (v :: vs) (w :: ws)

/-- Every array with an element type holds elements of this type only. -/
def WellTyped (s : Store) : Prop := ∀ name T vs, s name = some (.slice (some T) vs) → allOfType T vs

end Gologix.Server.Spec
