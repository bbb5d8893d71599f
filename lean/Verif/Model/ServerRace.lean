import Verif.Model.StoreAlias
/-
The tag store used by several connections at the same time.  Every connection has a goroutine (server.go:115-132).
`TagRead` and `TagWrite` hold the lock of the provider (server_router.go:99-100, 155-156), but the reply to a read is made
afterwards, without it (server_connected.go:310-341, 149-185, server_unconnected.go:609-640): of an array it has a slice
header, and encoding it reads one element after the other.
-/
namespace Gologix.Server

/-- What the goroutine of a connection is doing: nothing, encoding the array it has found, of which it has read `got`
already, or it is through with the request. -/
inductive Job where
  | idle
  | copying (elem : Option GoTy) (addr off len : Nat) (got : List TVal)
  | done (v : TVal)
  | failed
deriving Repr

/-- The shared store and the goroutines of the connections. -/
structure Race where
  store : AStore
  jobs  : Nat → Job

/-- What happens next: the handler of some connection writes a tag (the lock makes it one step), connection `i` finds the
tag it was asked for (again with the lock), or connection `i` reads the next element of the array it has found.  Reading one
element is one step (simplification; true for the elements of one machine word). -/
inductive Ev where
  | write (tag : Str) (v : TVal)
  | look (i : Nat) (tag : Str) (qty : Int)
  | copy (i : Nat)
deriving Repr

def Race.put (w : Race) (i : Nat) (j : Job) : Race := { w with jobs := fun x => if x = i then j else w.jobs x }

/-- The goroutine after a part of the array has been read. -/
def Job.next (e : Option GoTy) (a off len : Nat) (got : List TVal) : Job :=
  if got.length < len then .copying e a off len got else .done (.slice e got)

/-- server_connected.go:310-316: the lookup.  A connection looks only when it is not busy with a request. -/
def Race.look (w : Race) (i : Nat) (tag : Str) (qty : Int) : Race :=
  match w.jobs i with
  | .copying .. => w
  | _ =>
    match w.store.tagRead tag qty with
    | .ok (.inl v) => w.put i (.done v)
    | .ok (.inr (.scal v)) => w.put i (.done (.scal v))
    | .ok (.inr (.ref e a off len)) => w.put i (Job.next e a off len [])
    | _ => w.put i .failed

/-- server_connected.go:327-341: the next element goes into the reply. -/
def Race.copy (w : Race) (i : Nat) : Race :=
  match w.jobs i with
  | .copying e a off len got => w.put i (Job.next e a off len (got ++ [(w.store.heap a).getD (off + got.length) (.scal .nil)]))
  | _ => w

def Race.step (C : Conv) (w : Race) : Ev → Race
  | .write tag v => { w with store := (w.store.wireWrite C tag v).2 }
  | .look i tag qty => w.look i tag qty
  | .copy i => w.copy i

/-- Any schedule. -/
def Race.run (C : Conv) (w : Race) (evs : List Ev) : Race := evs.foldl (Race.step C) w

end Gologix.Server
