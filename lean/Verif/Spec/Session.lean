import Verif.Spec.TagPath
import Verif.Spec.ServerTables
import Verif.Model.Session
/-
What reading and writing by name means: a memory of named values.
-/
namespace Gologix.Session.Spec
open Gologix Gologix.Spec Gologix.Server.Spec Gologix.Session

/-- A tag and how many values of which type are asked of it. -/
structure Ask where
  tag : List Part
  T   : GoTy
  n   : Nat

/-- Something to do with the tag a path of names leads to: write or read one value, write an array, or read `n` elements, or
the bits of `n` words; or to read from several tags at once, or to write a value to each of several tags. -/
inductive Op where
  | write (tag : List Part) (v : Scal)
  | read (tag : List Part) (T : GoTy)
  | writeAll (tag : List Part) (T : GoTy) (vs : List Scal)
  | readMany (tag : List Part) (T : GoTy) (n : Nat)
  | readBits (tag : List Part) (n : Nat)
  | readSeveral (asks : List Ask)
  | writeSeveral (ws : List (List Part × Scal))

/-- What there can be under a name: a value, or an array of values of a type. -/
inductive Cell where
  | one (v : Scal)
  | many (T : GoTy) (vs : List Scal)

/-- The contents under names.  Upper and lower case make no difference. -/
abbrev Memory := Str → Option Cell

/-- `m'` is `m` after `c` has been put under `name`. -/
def Memory.After (m : Memory) (name : Str) (c : Cell) (m' : Memory) : Prop :=
  (∀ n, sameName n name → m' n = some c) ∧ ∀ n, ¬ sameName n name → m' n = m n

/-- What a tag path names: all that is under a name, or element `i` of the array there. -/
inductive Place : List Part → Str → Option Nat → Prop
  | whole {tag : List Part} (h : wholeName (render tag)) : Place tag (render tag) none
  | element {tag : List Part} {base : Str} {i : Nat} (h : render tag = elemName base i) (hi : i < 2 ^ 63) :
      Place tag base (some i)

/-- What is in a memory where `a` asks: the value under the name or that of an element, or the first `n` values of the array,
or `n` values from an element on.  They have the type asked for. -/
inductive Sees : Memory → Ask → RV → Prop
  | one {m : Memory} {tag : List Part} {name : Str} {v : Scal} {T : GoTy} (hp : Place tag name none)
      (hm : m name = some (.one v)) (hT : v.ty = some T) : Sees m ⟨tag, T, 1⟩ (.one v)
  | element {m : Memory} {tag : List Part} {name : Str} {i : Nat} {T : GoTy} {vs : List Scal} {v : Scal}
      (hp : Place tag name (some i)) (hm : m name = some (.many T vs)) (hi : vs[i]? = some v) : Sees m ⟨tag, T, 1⟩ (.one v)
  | many {m : Memory} {tag : List Part} {name : Str} {T : GoTy} {n : Nat} {vs : List Scal} (hp : Place tag name none)
      (hm : m name = some (.many T vs)) (h2 : 2 ≤ n) (hn : n ≤ vs.length) : Sees m ⟨tag, T, n⟩ (.many (vs.take n))
  | from {m : Memory} {tag : List Part} {name : Str} {i : Nat} {T : GoTy} {n : Nat} {vs : List Scal}
      (hp : Place tag name (some i)) (hm : m name = some (.many T vs)) (h2 : 2 ≤ n) (hn : i + n ≤ vs.length) :
      Sees m ⟨tag, T, n⟩ (.many ((vs.drop i).take n))

/-- Words of 32 bits that are in a memory where `tag` leads. -/
inductive Words : Memory → List Part → List (BitVec 32) → Prop
  | one {m : Memory} {tag : List Part} {w : BitVec 32} (h : Sees m ⟨tag, .u32, 1⟩ (.one (.u32 w))) : Words m tag [w]
  | many {m : Memory} {tag : List Part} {ws : List (BitVec 32)} (h : Sees m ⟨tag, .u32, ws.length⟩ (.many (ws.map .u32))) :
      Words m tag ws

/-- `bs` are the bits of the words, the lowest first. -/
def BitsOf (ws : List (BitVec 32)) (bs : List Bool) : Prop :=
  bs.length = 32 * ws.length ∧ ∀ i : Nat, bs[i]? = (ws[i / 32]?).map fun w => w.getLsbD (i % 32)

/-- `m'` is `m` after `v` has been written where `tag` leads: under a name, or to an element, which has the type of `v`. -/
inductive Stores : Memory → List Part → Scal → Memory → Prop
  | whole {m m' : Memory} {tag : List Part} {name : Str} {v : Scal} (hp : Place tag name none)
      (h : m.After name (.one v) m') : Stores m tag v m'
  | element {m m' : Memory} {tag : List Part} {name : Str} {i : Nat} {T : GoTy} {vs : List Scal} {v : Scal}
      (hp : Place tag name (some i)) (hm : m name = some (.many T vs)) (hi : i < vs.length) (hT : v.ty = some T)
      (h : m.After name (.many T (vs.set i v)) m') : Stores m tag v m'

/-- One after the other. -/
inductive StoresAll : Memory → List (List Part × Scal) → Memory → Prop
  | nil (m : Memory) : StoresAll m [] m
  | cons {m m' m'' : Memory} {tag : List Part} {v : Scal} {ws : List (List Part × Scal)} (h : Stores m tag v m')
      (hs : StoresAll m' ws m'') : StoresAll m ((tag, v) :: ws) m''

/-- What `op` does to a memory, and what it returns: a write stores its values, a read returns what is there. -/
inductive Does : Memory → Op → Outcome → Memory → Prop
  | write {m m' : Memory} {tag : List Part} {v : Scal} (h : Stores m tag v m') : Does m (.write tag v) .done m'
  | writeAll {m m' : Memory} {tag : List Part} {name : Str} {T : GoTy} {old vs : List Scal} (hp : Place tag name none)
      (hm : m name = some (.many T old)) (h : m.After name (.many T vs) m') : Does m (.writeAll tag T vs) .done m'
  | read {m : Memory} {tag : List Part} {v : Scal} {T : GoTy} (h : Sees m ⟨tag, T, 1⟩ (.one v)) :
      Does m (.read tag T) (.value v) m
  | readMany {m : Memory} {tag : List Part} {T : GoTy} {n : Nat} {vs : List Scal} (h : Sees m ⟨tag, T, n⟩ (.many vs)) :
      Does m (.readMany tag T n) (.values vs) m
  | readBits {m : Memory} {tag : List Part} {n : Nat} {ws : List (BitVec 32)} {bs : List Bool} (h : Words m tag ws)
      (hn : ws.length = n) (hb : BitsOf ws bs) : Does m (.readBits tag n) (.values (bs.map .bool)) m
  | readSeveral {m : Memory} {asks : List Ask} {vs : List RV} (hl : vs.length = asks.length)
      (h : ∀ (i : Nat) a v, asks[i]? = some a → vs[i]? = some v → Sees m a v) :
      Does m (.readSeveral asks) (.several vs) m
  | writeSeveral {m m' : Memory} {ws : List (List Part × Scal)} (h : StoresAll m ws m') : Does m (.writeSeveral ws) .done m'

/-- The same for a list of operations. -/
inductive DoesAll : Memory → List Op → List Outcome → Memory → Prop
  | nil (m : Memory) : DoesAll m [] [] m
  | cons {m m1 m2 : Memory} {op : Op} {ops : List Op} {o : Outcome} {os : List Outcome} (h : Does m op o m1)
      (hs : DoesAll m1 ops os m2) : DoesAll m (op :: ops) (o :: os) m2

end Gologix.Session.Spec
