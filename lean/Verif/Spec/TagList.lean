import Verif.Spec.Listing
import Verif.Spec.Segments
import Verif.Model.TagList
/-
The symbol tables of a controller and what it answers to requests for them
(Logix data access manual 1756-PM020: symbol class 0x6B, attributes 1, 2 and 8; program class 0x68).
-/
namespace Gologix.Spec

/-- A symbol as the controller lists it. -/
structure Symbol where
  inst : BitVec 32
  name : Bytes
  type : BitVec 16
  d1   : BitVec 32
  d2   : BitVec 32
  d3   : BitVec 32
deriving DecidableEq, Repr

/-- Instance, name with its length, type, three dimensions. -/
def Symbol.bytes (s : Symbol) : Bytes :=
  le 4 s.inst.toNat ++ (le 2 s.name.length ++ (s.name ++ (le 2 s.type.toNat ++
    (le 4 s.d1.toNat ++ (le 4 s.d2.toNat ++ le 4 s.d3.toNat)))))

/-- A tag of the user's: has a name, not reserved for the system (two underscores), not a module or
program entry (colon). -/
def Symbol.user (s : Symbol) : Prop := s.name ≠ [] ∧ ¬ str "__" <+: s.name ∧ 0x3A#8 ∉ s.name

/-- An entry that is not the user's: no name, reserved, or of a module.  Module names are not to start
with `Program`. -/
def Symbol.system (s : Symbol) : Prop :=
  s.name = [] ∨ str "__" <+: s.name ∨ (0x3A#8 ∈ s.name ∧ ¬ str "Program" <+: s.name)

/-- The entry that stands for a program. -/
def Symbol.program (s : Symbol) : Prop := ∃ p, p ≠ [] ∧ s.name = str "Program:" ++ p

/-- A symbol table: instances from 1 in increasing order, no two user tags with the same name up to case,
names that fit their length field. -/
def TableOk (t : List Symbol) : Prop :=
  t.Pairwise (fun a b => a.inst.toNat < b.inst.toNat) ∧
  (∀ s ∈ t, 1 ≤ s.inst.toNat ∧ s.name.length < 65536) ∧
  ∀ a ∈ t, ∀ b ∈ t, a.user → b.user → toLower a.name = toLower b.name → a = b

/-- The part of a table from an instance on. -/
def from_ (t : List Symbol) (start : Nat) : List Symbol := t.filter fun s => decide (start ≤ s.inst.toNat)

/-- A reply to a request for the symbols from `start` on: any number of them; status 6 says that there are
more.  `moved` says that an incomplete reply gets the client on. -/
def Page (t : List Symbol) (start : Nat) (moved : List Symbol → Prop) (r : Reply) : Prop :=
  ∃ (f : CForm) (page rest : List Symbol),
    from_ t start = page ++ rest ∧ (rest ≠ [] → moved page) ∧
    let body := [0xD5#8, 0#8, if rest = [] then 0#8 else 6#8, 0#8] ++ (page.map Symbol.bytes).flatten
    f.fits body ∧ r.payload = f.payload body

/-- A request for Get_Instance_Attribute_List of some attributes at a path. -/
def AsksFor (req : Bytes) (path : List (LogicalType × Nat)) (attrs : List Nat) : Prop :=
  ∃ (seq : BitVec 16) (p : Bytes), p.length % 2 = 0 ∧ p.length < 512 ∧ decodePath p.length p = some path ∧
    req = le 2 seq.toNat ++ ([0x55#8, BitVec.ofNat 8 (p.length / 2)] ++ (p ++
      (le 2 attrs.length ++ (attrs.map (le 2)).flatten)))

structure Program where
  entry : ProgEntry
  table : List Symbol
deriving DecidableEq, Repr

structure Plc where
  table    : List Symbol
  programs : List Program
deriving DecidableEq, Repr

/-- The tables are as described, and the program names are names: no dots or blanks at the ends, no two
alike up to case. -/
def Plc.ok (c : Plc) : Prop :=
  TableOk c.table ∧ (∀ s ∈ c.table, s.user ∨ s.system ∨ s.program) ∧
  (∀ p ∈ c.programs, TableOk p.table ∧ (∀ s ∈ p.table, s.user ∨ s.system) ∧ p.entry.id ≠ 0 ∧
    0x2E#8 ∉ p.entry.name ∧ Trimmed p.entry.name ∧ p.entry.name.length < 2 ^ 32) ∧
  c.programs.Pairwise fun a b => toLower a.entry.name ≠ toLower b.entry.name

/-- The network answers requests from the tables of `c`. -/
structure Serves (net : Nat → Bytes → Res Reply) (c : Plc) : Prop where
  programs : ∀ n req, AsksFor req [(.classId, 0x68), (.instanceId, 0)] [28] →
    ∃ (st : BitVec 32) (f : CForm),
      let body := [0xD5#8, 0#8, 0#8, 0#8] ++ ((c.programs.map (·.entry)).map ProgEntry.bytes).flatten
      f.fits body ∧ net n req = .ok ⟨st, f.payload body⟩
  symbols : ∀ n req start, AsksFor req [(.classId, 0x6B), (.instanceId, start)] [1, 2, 8] →
    ∃ r, net n req = .ok r ∧ Page c.table start (fun page => ∃ s ∈ page, start < s.inst.toNat) r
  tags : ∀ p ∈ c.programs, ∀ n req start,
    AsksFor req [(.classId, 0x68), (.instanceId, p.entry.id.toNat), (.classId, 0x6B), (.instanceId, start)]
      [1, 2, 8] →
    ∃ r, net n req = .ok r ∧ Page p.table start (fun page => ∃ s ∈ page, s.user ∧ start < s.inst.toNat) r

/-- The dimensions without the trailing zeros. -/
def Dims (s : Symbol) (order : List Nat) : Prop :=
  (∃ k, order ++ List.replicate k 0 = [s.d1.toNat, s.d2.toNat, s.d3.toNat]) ∧ order.getLast? ≠ some 0

/-- `t` is the record of symbol `s` under the name `full`. -/
def Records (t : ListedTag) (full : Bytes) (s : Symbol) : Prop :=
  t.name = full ∧ t.inst = s.inst ∧ symbolWord t.info.type t.info.typeInfo = s.type.toNat ∧
  t.info.dim1 = s.d1 ∧ t.info.dim2 = s.d2 ∧ t.info.dim3 = s.d3 ∧ Dims s t.order

/-- The full name of a tag of a program. -/
def fullName (p : Program) (s : Symbol) : Bytes := str "program:" ++ (p.entry.name ++ (str "." ++ s.name))

end Gologix.Spec
