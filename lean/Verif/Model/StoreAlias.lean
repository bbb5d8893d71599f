import Verif.Model.ServerTables
/-
The tag store with Go's slice semantics: the map holds slice headers that point into shared backing
arrays.  server_router.go:97-209 again, this time with a heap.
-/
namespace Gologix.Server

/-- A Go value as the map holds it: a scalar, or a slice header (element type, backing array, offset and
length).  Slices nested inside an `[]any` are kept as values (simplification). -/
inductive RVal where
  | scal (v : Scal)
  | ref (elem : Option GoTy) (addr off len : Nat)
deriving DecidableEq, Repr

/-- The map and the backing arrays; addresses from `next` on are unused. -/
structure AStore where
  data : Str → Option RVal
  heap : Nat → List TVal
  next : Nat

/-- The contents a value denotes at this moment. -/
def AStore.deref (s : AStore) : RVal → TVal
  | .scal v => .scal v
  | .ref e a off len => .slice e (((s.heap a).drop off).take len)

/-- A fresh backing array (`make`, `reflect.MakeSlice`). -/
def AStore.alloc (s : AStore) (e : Option GoTy) (vs : List TVal) : RVal × AStore :=
  (.ref e s.next 0 vs.length,
   { s with heap := fun a => if a = s.next then vs else s.heap a, next := s.next + 1 })

def AStore.put (s : AStore) (k : Str) (v : RVal) : AStore :=
  { s with data := fun x => if x = k then some v else s.data x }

/-- `ev.Index(i).Set(w)` of server_router.go:181: assignment into the backing array. -/
def AStore.poke (s : AStore) (a i : Nat) (w : TVal) : AStore :=
  { s with heap := fun x => if x = a then (s.heap a).set i w else s.heap x }

/-- server_router.go:97-143 `TagRead`: lines 130 and 136 return a slice header into the stored array. -/
def AStore.tagRead (s : AStore) (tag : Str) (qty : Int) : Res (TVal ⊕ RVal) :=
  match parseElementTag (toLower tag) with
  | some (base, idx) =>
    match s.data base with
    | none => .err .fail
    | some (.scal _) => .err .fail
    | some (.ref e a off len) =>
      if idx < 0 ∨ idx ≥ len then .err .fail
      else if idx + qty > len then .err .fail
      else if qty = 1 then .ok (.inl ((s.heap a).getD (off + idx.toNat) (.scal .nil)))
      else if qty < 0 then .panic
      else .ok (.inr (.ref e a (off + idx.toNat) qty.toNat))
  | none =>
    match s.data (toLower tag) with
    | none => .err .fail
    | some (.scal v) => .ok (.inr (.scal v))
    | some (.ref e a off len) =>
      if qty ≤ len then
        if qty < 0 then .panic else .ok (.inr (.ref e a off qty.toNat))
      else .err .fail

/-- server_router.go:152-209 `TagWrite` of a value that already exists in memory. -/
def AStore.tagWrite (C : Conv) (s : AStore) (tag : Str) (value : RVal) : Res Unit × AStore :=
  match parseElementTag (toLower tag) with
  | some (base, idx) =>
    match s.data base with
    | none => (.err .fail, s)
    | some (.scal _) => (.err .fail, s)
    | some (.ref e a off len) =>
      if idx < 0 ∨ idx ≥ len then (.err .fail, s)
      else
        match convertToElement C (s.deref value) e with
        | .ok w => (.ok (), s.poke a (off + idx.toNat) w)
        | .err x => (.err x, s)
        | .panic => (.panic, s)
  | none =>
    match s.data (toLower tag), value with
    | some (.ref e _ _ _), .ref none a off len =>
      match convertAll C e (((s.heap a).drop off).take len) with
      | .ok ws => (.ok (), (s.alloc e ws).2.put (toLower tag) (s.alloc e ws).1)
      | .err x => (.err x, s)
      | .panic => (.panic, s)
    | _, _ => (.ok (), s.put (toLower tag) value)

/-- A write as the server's request handlers make it: the values were just decoded into a fresh `[]any`
(server_connected.go:418-475, 145-160) or are a scalar. -/
def AStore.wireWrite (C : Conv) (s : AStore) (tag : Str) (value : TVal) : Res Unit × AStore :=
  match value with
  | .scal v => s.tagWrite C tag (.scal v)
  | .slice e vs => (s.alloc e vs).2.tagWrite C tag (s.alloc e vs).1

end Gologix.Server
