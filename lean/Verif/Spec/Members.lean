import Verif.Spec.Listing
import Verif.Spec.Segments
import Verif.Model.Members
/-
Structure templates of a controller and what it answers to requests for them (Logix data access manual
1756-PM020: template class 0x6C, attributes 4, 5, 2 and 1, service 0x4C).
-/
namespace Gologix.Spec

structure Field where
  name   : Bytes
  info   : BitVec 16
  type   : BitVec 16
  offset : BitVec 32
deriving DecidableEq, Repr

/-- A structure.  `tail` is what follows its name: nothing, or a semicolon and more. -/
structure Template where
  name   : Bytes
  tail   : Bytes
  fields : List Field
  pad    : Bytes
  words  : BitVec 32
  bytes  : BitVec 32
  handle : BitVec 16
deriving DecidableEq, Repr

/-- Info, type and offset of a member. -/
def Field.bytes (f : Field) : Bytes := le 2 f.info.toNat ++ (le 2 f.type.toNat ++ le 4 f.offset.toNat)

/-- The definition: members, the name of the structure, the names of the members, padding. -/
def Template.data (t : Template) : Bytes :=
  (t.fields.map Field.bytes).flatten ++ (t.name ++ (t.tail ++ (0#8 :: ((t.fields.map fun f => f.name ++ [0#8]).flatten
    ++ t.pad))))

/-- Names without NUL, the number of members fits, and the announced size is that of the definition (and
of 23 bytes that are not read) and can be asked for. -/
def Template.ok (t : Template) : Prop :=
  0#8 ∉ t.name ∧ 0x3B#8 ∉ t.name ∧ 0#8 ∉ t.tail ∧ (∀ f ∈ t.fields, 0#8 ∉ f.name) ∧ t.fields.length < 65536 ∧
  t.data.length + 23 ≤ 4 * t.words.toNat ∧ 4 * t.words.toNat < 65536 + 23

/-- The member is itself a structure, with template number `j`. -/
def Field.sub (f : Field) (j : Nat) : Prop := IsStructure f.type.toNat ∧ f.type.toNat % 4096 = j ∧ j ≠ 0

/-- A request for a service of template `i`. -/
def AsksTemplate (req : Bytes) (svc : Byte) (i : Nat) (args : Bytes) : Prop :=
  ∃ (seq : BitVec 16) (p : Bytes), p.length % 2 = 0 ∧ p.length < 512 ∧
    decodePath p.length p = some [(.classId, 0x6C), (.instanceId, i)] ∧
    req = le 2 seq.toNat ++ ([svc, BitVec.ofNat 8 (p.length / 2)] ++ (p ++ args))

/-- The attributes a request for 4, 5, 2 and 1 is answered with: number, status and value of each. -/
def Template.attrs (t : Template) : Bytes :=
  le 2 4 ++ ((le 2 4 ++ (le 2 0 ++ le 4 t.words.toNat)) ++ ((le 2 5 ++ (le 2 0 ++ le 4 t.bytes.toNat)) ++
    ((le 2 2 ++ (le 2 0 ++ le 2 t.fields.length)) ++ (le 2 1 ++ (le 2 0 ++ le 2 t.handle.toNat)))))

/-- The network answers the two kinds of requests from the templates `T`. -/
structure HasTemplates (net : Nat → Bytes → Res Reply) (T : Nat → Option Template) : Prop where
  attrs : ∀ n req i t, T i = some t →
    AsksTemplate req 0x03#8 i (le 2 4 ++ (le 2 4 ++ (le 2 5 ++ (le 2 2 ++ le 2 1)))) →
    ∃ (st : BitVec 32) (f : CForm), f.fits ([0x83#8, 0#8, 0#8, 0#8] ++ t.attrs) ∧
      net n req = .ok ⟨st, f.payload ([0x83#8, 0#8, 0#8, 0#8] ++ t.attrs)⟩
  data : ∀ n req i t (len : Nat), T i = some t → len < 65536 → AsksTemplate req 0x4C#8 i (le 4 0 ++ le 2 len) →
    ∃ (st : BitVec 32) (f : CForm), f.fits ([0xCC#8, 0#8, 0#8, 0#8] ++ t.data.take len) ∧
      net n req = .ok ⟨st, f.payload ([0xCC#8, 0#8, 0#8, 0#8] ++ t.data.take len)⟩

/-- Every structure that occurs as a member is there. -/
def Closed (T : Nat → Option Template) : Prop :=
  ∀ i t, T i = some t → ∀ f ∈ t.fields, ∀ j, f.sub j → (T j).isSome

/-- No structure contains itself. -/
def Layered (T : Nat → Option Template) (rank : Nat → Nat) : Prop :=
  ∀ i t, T i = some t → ∀ f ∈ t.fields, ∀ j, f.sub j → rank j < rank i

/-- `u` describes template `i` of `T`: its number, its name as given by `nm`, its sizes, and its members in
order with name, type and offset, and with a description of their structure exactly if they have one. -/
inductive Described (T : Nat → Option Template) (nm : Template → Bytes) : Nat → Udt → Prop
  | mk (i : Nat) (t : Template) (hT : T i = some t) (ms : List (Str × MemberInfo × Option Udt))
      (hm : ms.map (fun m => (m.1, m.2.1)) = t.fields.map fun f => (f.name, ⟨f.info, f.type, f.offset⟩))
      (hs : ∀ (k : Nat) (f : Field) (m : Str × MemberInfo × Option Udt), t.fields[k]? = some f → ms[k]? = some m →
        (m.2.2.isSome ↔ ∃ j, f.sub j))
      (hd : ∀ (k : Nat) (f : Field) (m : Str × MemberInfo × Option Udt) (u : Udt) (j : Nat), t.fields[k]? = some f →
        ms[k]? = some m → m.2.2 = some u → f.sub j → Described T nm j u) :
      Described T nm i (.mk (BitVec.ofNat 32 i) (nm t)
        ⟨t.words, t.bytes, BitVec.ofNat 16 t.fields.length, t.handle⟩ ms)

end Gologix.Spec
