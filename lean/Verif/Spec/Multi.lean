import Verif.Spec.Wire
import Verif.Spec.Values
import Verif.Model.Multi
/-
Multi-service packets as published, and what a controller answers.
-/
namespace Gologix.Spec

/-- The embedded request to read `elements` elements at an encoded path: service 0x4C, path length in
words, path, element count. -/
def readService (path : Bytes) (elements : Nat) : Bytes :=
  [0x4C#8, BitVec.ofNat 8 (path.length / 2)] ++ path ++ le 2 elements

/-- `body`, a multi-service packet from its count field on, carries exactly the services `svcs`: the
count, one 16-bit offset per service, and service `k` occupying the bytes from its offset up to the
next offset, or the end. -/
structure Packet (body : Bytes) (svcs : List Bytes) : Prop where
  count : body.take 2 = le 2 svcs.length
  service : ∀ (k : Nat) (s : Bytes), svcs[k]? = some s →
    let offset := fun (j : Nat) => unle ((body.drop (2 + 2 * j)).take 2)
    let stop := if k + 1 < svcs.length then offset (k + 1) else body.length
    offset k ≤ stop ∧ stop ≤ body.length ∧ (body.take stop).drop (offset k) = s

/-- The fields of a multi-service reply that carry no information for the client. -/
structure MultiForm where
  iface    : BitVec 32
  timeout  : BitVec 16
  id0      : BitVec 16
  address  : Bytes
  id1      : BitVec 16
  seq      : BitVec 16
  service  : Byte
  reserved : Byte

/-- The payload of a successful multi-service reply; `body` begins with the count of replies. -/
def MultiForm.payload (f : MultiForm) (body : Bytes) : Bytes :=
  le 4 f.iface.toNat ++ (le 2 f.timeout.toNat ++ cpf [(f.id0, f.address),
    (f.id1, le 2 f.seq.toNat ++ ([f.service, f.reserved, 0#8, 0#8] ++ body))])

/-- A controller whose tag for a request `t` has the type and image `world t` answers the embedded
requests `req`, in order.  The embedded replies are where the offsets say; nothing is said about their
order or about the bytes in between. -/
def MultiAnswers (world : MTag → Byte × Bytes) (req : List MTag) (r : Reply) : Prop :=
  ∃ (f : MultiForm) (offsets : List Nat) (tail : Bytes),
    let body := le 2 req.length ++ ((offsets.map (le 2)).flatten ++ tail)
    r.status = 0 ∧ r.payload = f.payload body ∧
    f.address.length < 65536 ∧ body.length + 6 < 65536 ∧ offsets.length = req.length ∧
    ∀ (k : Nat) (t : MTag), req[k]? = some t → ∃ (o : Nat) (service reserved unknown : Byte) (more : Bytes),
      offsets[k]? = some o ∧ 128 ≤ service.toNat ∧
      body.drop o = [service, reserved, 0#8, 0#8, (world t).1, unknown] ++ ((world t).2 ++ more)

/-- Every request of the log was answered. -/
def AllMulti (world : MTag → Byte × Bytes) (log : List (List MTag)) (replies : List Reply) : Prop :=
  ∀ (i : Nat) (req : List MTag), log[i]? = some req → ∃ r, replies[i]? = some r ∧ MultiAnswers world req r

/-- One element of an array of STRING in a controller: length, 82 characters, 2 bytes of padding. -/
def stringSlot (s : Bytes) : Bytes := le 4 s.length ++ s ++ List.replicate (84 - s.length) 0#8

/-- `v` is the value of a tag requested by `t` that has type `typ` and image `image`. -/
inductive Means : MTag → Byte → Bytes → RV → Prop where
  /-- a single value -/
  | scalar (t : MTag) (T : GoTy) (v : Scal) (h1 : t.elements = 1) (ht : t.typ ≠ tSTRING) (hv : v.ty = some T)
      (hs : T ≠ .str) (hb : t.ioi.bitAccess = false ∨ t.typ ≠ tBOOL) : Means t (cipOfGo T) v.encode (.one v)
  /-- an array, requested with its number of elements -/
  | array (t : MTag) (T : GoTy) (vs : List Scal) (h1 : t.elements = vs.length) (hn : vs.length ≠ 1)
      (ht : t.typ ≠ tSTRING) (hv : ∀ v ∈ vs, v.ty = some T) (hs : T ≠ .str) :
      Means t (cipOfGo T) (vs.map Scal.encode).flatten (.many vs)
  /-- a bit of an integer -/
  | bit (t : MTag) (typ : Byte) (w : Nat) (image : Bytes) (k : Nat) (h1 : t.elements = 1) (ht : t.typ = tBOOL)
      (hb : t.ioi.bitAccess = true) (hk : t.ioi.bitPosition = (k : Int)) (hw : intWidth typ = some w)
      (hsint : typ ≠ tSINT) (hkw : k < w) (hi : image.length = w / 8) :
      Means t typ image (.one (.bool (bitOf (unle image : Int) k)))
  /-- a string: structure handle, length, characters -/
  | string (t : MTag) (s : Bytes) (handle : BitVec 16) (h1 : t.elements = 1) (ht : t.typ = tSTRING)
      (hs : s.length ≤ 82) : Means t tStruct (le 2 handle.toNat ++ stringSlot s) (.one (.str s))
  /-- an array of strings -/
  | strings (t : MTag) (ss : List Bytes) (handle : BitVec 16) (h1 : t.elements = ss.length)
      (hn : ss.length ≠ 1) (ht : t.typ = tSTRING) (hs : ∀ s ∈ ss, s.length ≤ 82) :
      Means t tStruct (le 2 handle.toNat ++ (ss.map stringSlot).flatten) (.many (ss.map Scal.str))
  /-- a structure read into a variable of the same size -/
  | struct (t : MTag) (image : Bytes) (handle : BitVec 16) (h1 : t.elements = 1) (ht : t.typ = tStruct)
      (hd : t.dest = .sized image.length) : Means t tStruct (le 2 handle.toNat ++ image) (.one (.bytes image))

end Gologix.Spec
