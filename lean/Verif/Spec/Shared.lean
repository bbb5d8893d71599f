/-
Goroutines that share locks and variables.

A use of a map or a variable takes time: it begins with one step and ends with the next step of the same goroutine.  Go's
runtime ends the program when it sees a map written while another goroutine uses it, and calls everything of the kind a data
race.
-/
namespace Gologix.Spec.Shared

/-- What a goroutine does next; `L` are the locks, `V` the variables. -/
inductive Op (L V : Type) where
  | lock (l : L)
  | unlock (l : L)
  | use (v : V) (write : Bool)
deriving DecidableEq, Repr

/-- What a goroutine has left to do, and the use it is in. -/
structure Routine (L V : Type) where
  ops : List (Op L V)
  now : Option (V × Bool)

/-- Who holds each lock, and the goroutines. -/
structure State (L V : Type) where
  held : L → Option Nat
  gos  : Nat → Routine L V

variable {L V : Type} [DecidableEq L]

def State.put (s : State L V) (i : Nat) (r : Routine L V) : State L V := ⟨s.held, fun j => if j = i then r else s.gos j⟩

/-- Goroutine `i` goes on, if it can: a use ends, or the next operation is done; a lock that is held has to be waited for. -/
def State.step (s : State L V) (i : Nat) : State L V :=
  match (s.gos i).now with
  | some _ => s.put i ⟨(s.gos i).ops, none⟩
  | none => match (s.gos i).ops with
    | [] => s
    | .use v w :: r => s.put i ⟨r, some (v, w)⟩
    | .unlock l :: r => ⟨fun k => if k = l then none else s.held k, (s.put i ⟨r, none⟩).gos⟩
    | .lock l :: r =>
      if s.held l = none then ⟨fun k => if k = l then some i else s.held k, (s.put i ⟨r, none⟩).gos⟩ else s

/-- The goroutines go on in the order of the schedule. -/
def State.run (s : State L V) : List Nat → State L V
  | [] => s
  | i :: is => (s.step i).run is

/-- Goroutines that begin. -/
def State.start (L : Type) (progs : Nat → List (Op L V)) : State L V := ⟨fun _ => none, fun i => ⟨progs i, none⟩⟩

/-- Two goroutines use one variable, one of them writing. -/
def Clash (s : State L V) (v : V) : Prop :=
  ∃ i j w, i ≠ j ∧ (s.gos i).now = some (v, true) ∧ (s.gos j).now = some (v, w)

/-- A goroutine has something left to do. -/
def Busy (s : State L V) (i : Nat) : Prop := (s.gos i).ops ≠ [] ∨ (s.gos i).now ≠ none

/-- A goroutine can go on: it is not waiting for a lock. -/
def Moves (s : State L V) (i : Nat) : Prop := (s.step i).gos i ≠ s.gos i

end Gologix.Spec.Shared
