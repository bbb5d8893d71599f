import Verif.Model.Values
/-
The server's tables: server_connections.go (open connections), server_router.go (routing table and
in-memory tag store).
-/
namespace Gologix.Server

/-! ### Connection table -/

/-- server_connections.go:10-17 `serverConnection`.  The `Open` flag is kept apart, in
`ConnTable.isOpen`, because the table and the cyclic I/O goroutines share the object by pointer;
`ref` is that pointer.  `RPI` is in microseconds (server.go:690, 778). -/
structure Conn where
  ref  : Nat
  id   : BitVec 16
  ot   : BitVec 32
  to   : BitVec 32
  rpi  : BitVec 32
  path : Bytes
deriving DecidableEq, Repr

/-- server_connections.go:19-23 `serverConnectionManager` together with the `Open` flags of all
connection objects ever handed to it.  The lock makes every method one step. -/
structure ConnTable where
  conns  : List Conn
  isOpen : Nat → Bool

/-- server_connections.go:25-28 `Init`; no object exists yet. -/
def ConnTable.init : ConnTable := { conns := [], isOpen := fun _ => false }

/-- server_connections.go:29-34 `Add`, for a fresh object created with `Open: true` (server.go:692,
780), as both callers do. -/
def ConnTable.add (t : ConnTable) (c : Conn) : ConnTable where
  conns  := t.conns ++ [c]
  isOpen := fun r => if r = c.ref then true else t.isOpen r

/-- server_connections.go:35-64 `GetByID`, `GetByOT`, `GetByTO`: the first match in table order.  `p` is
the comparison. -/
def ConnTable.getBy (t : ConnTable) (p : Conn → Bool) : Res Conn :=
  match t.conns.find? p with
  | some c => .ok c
  | none => .err .fail

def ConnTable.getByID (t : ConnTable) (k : BitVec 16) : Res Conn := t.getBy (·.id == k)
def ConnTable.getByOT (t : ConnTable) (k : BitVec 32) : Res Conn := t.getBy (·.ot == k)
def ConnTable.getByTO (t : ConnTable) (k : BitVec 32) : Res Conn := t.getBy (·.to == k)

/-- server_connections.go:65-115 `CloseByID`, `CloseByOT`, `CloseByTO`: at the first match clear `Open`
and remove the entry, by emptying a table of one entry or by moving the last entry into its place. -/
def ConnTable.closeBy (t : ConnTable) (p : Conn → Bool) : Res Unit × ConnTable :=
  match t.conns.findIdx? p, t.conns.find? p with
  | some i, some c =>
    let isOpen := fun r => if r = c.ref then false else t.isOpen r
    if t.conns.length = 1 then (.ok (), { conns := [], isOpen })
    else
      match t.conns.getLast? with
      | some l => (.ok (), { conns := (t.conns.set i l).dropLast, isOpen })
      | none => (.panic, t)       -- unreachable: the table is not empty
  | _, _ => (.err .fail, t)

def ConnTable.closeByID (t : ConnTable) (k : BitVec 16) := t.closeBy (·.id == k)
def ConnTable.closeByOT (t : ConnTable) (k : BitVec 32) := t.closeBy (·.ot == k)
def ConnTable.closeByTO (t : ConnTable) (k : BitVec 32) := t.closeBy (·.to == k)

/-! ### Routing table -/

/-- server_router.go:16-18 `PathRouter`: a Go map from path bytes to endpoint, here an association list
with at most one entry per key. -/
structure Router (α : Type) where
  entries : List (Bytes × α)

/-- server_router.go:20-24 `NewRouter`. -/
def Router.new {α : Type} : Router α := ⟨[]⟩

/-- server_router.go:26-31 `Handle`: a map assignment. -/
def Router.handle {α : Type} (r : Router α) (path : Bytes) (p : α) : Router α :=
  ⟨(path, p) :: r.entries.filter (fun e => e.1 ≠ path)⟩

/-- server_router.go:34-40 `Resolve`: a map lookup. -/
def Router.resolve {α : Type} (r : Router α) (path : Bytes) : Res α :=
  match r.entries.lookup path with
  | some p => .ok p
  | none => .err .fail

/-! ### Tag store -/

/-- A value in the tag store: a scalar, or a slice with element type `some T` (`[]T`, whose elements
are scalars of that type) or `none` (`[]any`, whose elements are anything).  Slices are values here;
that they are shared references in Go is the subject of `Verif.Model.StoreAlias`. -/
inductive TVal where
  | scal (v : Scal)
  | slice (elem : Option GoTy) (vs : List TVal)
deriving Repr

/-- server_router.go:79-82 `MapTagProvider.Data`. -/
abbrev Store := Str → Option TVal

def Store.set (s : Store) (k : Str) (v : TVal) : Store := fun x => if x = k then some v else s x

/-- `strings.LastIndex(s, c)` for a one-byte `c`. -/
def lastIndexOf (c : Byte) (s : Str) : Option Nat :=
  (s.reverse.findIdx? (· = c)).map (fun k => s.length - 1 - k)

/-- server_router.go:215-228 `parseElementTag`: `some (base, n)` stands for `hasElem`, `none` for a tag
taken as a whole. -/
def parseElementTag (tag : Str) : Option (Str × Int) :=
  if tag.getLast? = some 0x5D#8 then
    match lastIndexOf 0x5B#8 tag with
    | none => none
    | some o =>
      match atoi ((tag.take (tag.length - 1)).drop (o + 1)) with
      | .ok n => some (tag.take o, n)
      | _ => none
  else none

/-- The numeric value of an integer scalar. -/
def intVal : Scal → Option Int
  | .u8 v => some v.toNat
  | .i8 v => some v.toInt
  | .u16 v => some v.toNat
  | .i16 v => some v.toInt
  | .u32 v => some v.toNat
  | .i32 v => some v.toInt
  | .u64 v => some v.toNat
  | .i64 v => some v.toInt
  | _ => none

/-- An integer converted to an integer type (Go conversion: wraps). -/
def ofInt : GoTy → Int → Option Scal
  | .u8, n => some (.u8 (BitVec.ofInt 8 n))
  | .i8, n => some (.i8 (BitVec.ofInt 8 n))
  | .u16, n => some (.u16 (BitVec.ofInt 16 n))
  | .i16, n => some (.i16 (BitVec.ofInt 16 n))
  | .u32, n => some (.u32 (BitVec.ofInt 32 n))
  | .i32, n => some (.i32 (BitVec.ofInt 32 n))
  | .u64, n => some (.u64 (BitVec.ofInt 64 n))
  | .i64, n => some (.i64 (BitVec.ofInt 64 n))
  | _, _ => none

/-- The Go conversions this model leaves open: between integer and floating point, between the two
floating point types, and from integer, `[]byte` and `[]rune` to string.  Only the result type is
known. -/
structure Conv where
  fn : TVal → GoTy → Scal
  ty : ∀ v t, (fn v t).ty = some t

def isIntTy : GoTy → Bool
  | .u8 | .i8 | .u16 | .i16 | .u32 | .i32 | .u64 | .i64 => true
  | _ => false

def isFloatTy : GoTy → Bool
  | .f32 | .f64 => true
  | _ => false

/-- `reflect.Type.ConvertibleTo` between the scalar types. -/
def convertible (a b : GoTy) : Bool :=
  if a = b then true
  else if (isIntTy a || isFloatTy a) && (isIntTy b || isFloatTy b) then true
  else isIntTy a && b == .str

/-- server_router.go:234-243 `convertToElement`.  A `nil` value panics at line 236
(`reflect.ValueOf(nil).Type()`); everything converts to `any`; `[86]byte` converts to no scalar type; a
slice converts to no scalar type, except `[]byte` and `[]int32` to `string`.  Simplification: `Scal.bytes`
is not used in the store, a `[]byte` is a slice of `u8`. -/
def convertToElement (C : Conv) (v : TVal) (elem : Option GoTy) : Res TVal :=
  match v, elem with
  | .scal .nil, _ => .panic
  | v, none => .ok v
  | .slice (some .u8) vs, some .str => .ok (.scal (C.fn (.slice (some .u8) vs) .str))
  | .slice (some .i32) vs, some .str => .ok (.scal (C.fn (.slice (some .i32) vs) .str))
  | .slice _ _, some _ => .err .fail
  | .scal v, some t =>
    match v.ty with
    | none => .err .fail
    | some a =>
      if a = t then .ok (.scal v)
      else if convertible a t then
        match (intVal v).bind (ofInt t) with
        | some w => .ok (.scal w)
        | none => .ok (.scal (C.fn (.scal v) t))
      else .err .fail

/-- The loop of server_router.go:195-201. -/
def convertAll (C : Conv) (elem : Option GoTy) : List TVal → Res (List TVal)
  | [] => .ok []
  | v :: vs => do
    let w ← convertToElement C v elem
    let ws ← convertAll C elem vs
    .ok (w :: ws)

/-- server_router.go:97-143 `MapTagProvider.TagRead` with `qty` an `int16`.  Slicing with an upper bound
below the lower one, or a negative one, panics (lines 130, 136). -/
def tagRead (s : Store) (tag : Str) (qty : Int) : Res TVal :=
  match parseElementTag (toLower tag) with
  | some (base, idx) =>
    match s base with
    | none => .err .fail
    | some (.scal _) => .err .fail
    | some (.slice e vs) =>
      if idx < 0 ∨ idx ≥ vs.length then .err .fail
      else if idx + qty > vs.length then .err .fail
      else if qty = 1 then .ok (vs.getD idx.toNat (.scal .nil))
      else if qty < 0 then .panic
      else .ok (.slice e ((vs.drop idx.toNat).take qty.toNat))
  | none =>
    match s (toLower tag) with
    | none => .err .fail
    | some (.scal v) => .ok (.scal v)
    | some (.slice e vs) =>
      if qty ≤ vs.length then
        if qty < 0 then .panic else .ok (.slice e (vs.take qty.toNat))
      else .err .fail

/-- server_router.go:152-209 `MapTagProvider.TagWrite`: outcome and the store afterwards. -/
def tagWrite (C : Conv) (s : Store) (tag : Str) (value : TVal) : Res Unit × Store :=
  match parseElementTag (toLower tag) with
  | some (base, idx) =>
    match s base with
    | none => (.err .fail, s)
    | some (.scal _) => (.err .fail, s)
    | some (.slice e vs) =>
      if idx < 0 ∨ idx ≥ vs.length then (.err .fail, s)
      else
        match convertToElement C value e with
        | .ok w => (.ok (), s.set base (.slice e (vs.set idx.toNat w)))
        | .err x => (.err x, s)
        | .panic => (.panic, s)
  | none =>
    match s (toLower tag), value with
    | some (.slice e _), .slice none vs =>
      match convertAll C e vs with
      | .ok ws => (.ok (), s.set (toLower tag) (.slice e ws))
      | .err x => (.err x, s)
      | .panic => (.panic, s)
    | _, _ => (.ok (), s.set (toLower tag) value)

end Gologix.Server
