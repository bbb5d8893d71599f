import Verif.Base.Bytes
/-
CIP items: items.go.
-/
namespace Gologix

/-- items.go:62-66 `CIPItem` with items.go:312-315 `cipItemHeader`. -/
structure Item where
  id     : BitVec 16
  length : BitVec 16
  data   : Bytes
  pos    : Nat
deriving DecidableEq, Repr

/-- items.go:92-103 `newItem` without data. -/
def Item.new (id : BitVec 16) : Item := { id, length := 0, data := [], pos := 0 }

/-- items.go:84-89 `Write`: append, and set the header length to `uint16(len(Data))`. -/
def Item.write (it : Item) (p : Bytes) : Item :=
  { it with data := it.data ++ p, length := BitVec.ofNat 16 (it.data ++ p).length }

/-- items.go:72-79 `Read` as used by `binary.Read` (`io.ReadFull`) for `n` bytes.  On a short read the
position is left at the end of the data. -/
def Item.read (it : Item) (n : Nat) : Res Bytes × Item :=
  match readN n (it.data.drop it.pos) with
  | .ok (b, _) => (.ok b, { it with pos := it.pos + n })
  | .err e => (.err e, { it with pos := max it.pos it.data.length })
  | .panic => (.panic, it)

/-- items.go:106-108 `Rest`; slicing past the end panics. -/
def Item.rest (it : Item) : Res Bytes :=
  if it.pos ≤ it.data.length then .ok (it.data.drop it.pos) else .panic

/-- items.go:292-303 `Bytes`. -/
def Item.bytes (it : Item) : Bytes := putBV it.id ++ putBV it.length ++ it.data

/-- items.go:350-375 `serializeItems` (header fields of items.go:318-322). -/
def serializeItems (items : List Item) : Bytes :=
  items.foldl (fun b it => b ++ it.bytes)
    (putBV (0 : BitVec 32) ++ putBV (0 : BitVec 16) ++ putBV (BitVec.ofNat 16 items.length))

/-- One iteration of the loop of items.go:37-48. -/
def readItem (src : Bytes) : Res (Item × Bytes) := do
  let (hdr, rest) ← readN 4 src
  let (id, hdr) ← readBV 16 hdr
  let (length, _) ← readBV 16 hdr
  let (data, rest) ← readN length.toNat rest
  .ok ({ id, length, data, pos := 0 }, rest)

/-- The loop of items.go:37-48. -/
def readItemsN : Nat → Bytes → Res (List Item × Bytes)
  | 0, src => .ok ([], src)
  | n + 1, src => do
    let (it, src) ← readItem src
    let (its, src) ← readItemsN n src
    .ok (it :: its, src)

/-- items.go:26-50 `readItems`; returns the items and what is left of the reader. -/
def readItems (src : Bytes) : Res (List Item × Bytes) := do
  let (count, src) ← readBV 16 src
  readItemsN count.toNat src

/-- The typed getters `Byte`, `Uint16`, `Int16`, `Uint32`, `Int32`, `Uint64`, `Int64`, `Float32`,
`Float64` of items.go:111-206, for a width of `k` bytes: a bounds check
`len(Data) <= Pos+k-1`, then a little-endian load and `Pos += k`.  On failure `Pos` is unchanged. -/
def Item.getUint (it : Item) (k : Nat) : Res Nat × Item :=
  if it.data.length ≤ it.pos + (k - 1) then (.err .fail, it)
  else (.ok (unle ((it.data.drop it.pos).take k)), { it with pos := it.pos + k })

end Gologix
