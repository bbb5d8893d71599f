import Verif.Spec.TagPath
import Verif.Spec.Multi
import Verif.Spec.Reply
import Verif.Spec.Server
import Verif.Model.ServerTables
/-
Tag requests to the server: request paths, embedded requests, the images of values, and what a list of
requests does to a tag store.
-/
namespace Gologix.Server.Spec
open Gologix

/-- The segment `s` of a request path on the wire: the pad byte of a name of odd length and of a 16-bit
index may be anything, and an index below 256 may be sent in either size. -/
inductive SegBytes : Gologix.Spec.PSeg → Bytes → Prop
  | name (n pad : Bytes) (h1 : n.length ≤ 255) (hp : pad.length = n.length % 2) :
      SegBytes (.name n) (0x91#8 :: BitVec.ofNat 8 n.length :: (n ++ pad))
  | index8 (i : Byte) : SegBytes (.element i.toNat) [0x28#8, i]
  | index16 (pad lo hi : Byte) : SegBytes (.element (lo.toNat + 256 * hi.toNat)) [0x29#8, pad, lo, hi]

inductive PathBytes : List Gologix.Spec.PSeg → Bytes → Prop
  | nil : PathBytes [] []
  | cons {s : Gologix.Spec.PSeg} {ss : List Gologix.Spec.PSeg} {a b : Bytes} (h : SegBytes s a)
      (hs : PathBytes ss b) : PathBytes (s :: ss) (a ++ b)

/-- `p` is a request path for the tag path `ps`, without 32-bit indices. -/
def PathOf (ps : List Gologix.Spec.Part) (p : Bytes) : Prop :=
  Gologix.Spec.WfPath 65536 ps ∧ PathBytes (Gologix.Spec.segsOf ps) p

/-- The low byte of an element count is not the code of a path segment. -/
def safeCount (n : Nat) : Prop := n % 256 ≠ 0x28 ∧ n % 256 ≠ 0x29 ∧ n % 256 ≠ 0x91

instance (n : Nat) : Decidable (safeCount n) := by unfold safeCount; infer_instance

/-- An embedded request.  The path length byte is arbitrary. -/
inductive EReq where
  /-- read tag (`frag = false`) or read tag fragmented from offset 0 -/
  | read (frag : Bool) (words : Byte) (ps : List Gologix.Spec.Part) (path : Bytes) (count : Nat)
  /-- write tag -/
  | write (words : Byte) (ps : List Gologix.Spec.Part) (path : Bytes) (T : GoTy) (vs : List Scal)

def EReq.bytes : EReq → Bytes
  | .read false words _ path count => [0x4C#8, words] ++ path ++ le 2 count
  | .read true words _ path count => [0x52#8, words] ++ path ++ le 2 count ++ le 4 0
  | .write words _ path T vs =>
    [0x4D#8, words] ++ path ++ Gologix.Spec.typeField T ++ le 2 vs.length ++ (vs.map Scal.encode).flatten

/-- The request is well formed: the path denotes the tag, the count fits and does not look like a path
segment, a written value has the announced type, which is not STRING. -/
def EReq.wf : EReq → Prop
  | .read _ _ ps path count => PathOf ps path ∧ count < 32768 ∧ safeCount count
  | .write _ ps path T vs => PathOf ps path ∧ T ≠ .str ∧ vs ≠ [] ∧ vs.length < 65536 ∧ ∀ v ∈ vs, v.ty = some T

/-- The type and image of a value, as a reply to a read carries them. -/
inductive Shown : TVal → Bytes → Prop
  | scalar (v : Scal) (T : GoTy) (hv : v.ty = some T) (hT : T ≠ .str) :
      Shown (.scal v) (Gologix.Spec.typeField T ++ v.encode)
  | string (s : Bytes) (hs : s.length ≤ 82) :
      Shown (.scal (.str s)) (Gologix.Spec.typeField .str ++ Gologix.Spec.stringSlot s)
  | array (T : GoTy) (vs : List Scal) (hv : ∀ v ∈ vs, v.ty = some T) (hT : T ≠ .str) (hb : T ≠ .bool) :
      Shown (.slice (some T) (vs.map TVal.scal)) (Gologix.Spec.typeField T ++ (vs.map Scal.encode).flatten)

/-- What is written for some values: one value as it is, several as a list. -/
def written : List Scal → TVal
  | [v] => .scal v
  | vs => .slice none (vs.map TVal.scal)

/-- `Served C s es rs s'`: on the store `s` the requests `es` succeed one after the other, with replies
`rs`, and leave the store `s'`. -/
inductive Served (C : Conv) : Store → List EReq → List Bytes → Store → Prop
  | nil (s : Store) : Served C s [] [] s
  | read {s s' : Store} {es : List EReq} {rs : List Bytes} (frag : Bool) (words : Byte)
      (ps : List Gologix.Spec.Part) (path : Bytes) (count : Nat) (v : TVal) (image : Bytes)
      (hr : tagRead s (Gologix.Spec.render ps) count = .ok v) (hv : Shown v image)
      (hs : Served C s es rs s') :
      Served C s (.read frag words ps path count :: es)
        (([if frag then 0xD2#8 else 0xCC#8, 0#8, 0#8, 0#8] ++ image) :: rs) s'
  | write {s s1 s' : Store} {es : List EReq} {rs : List Bytes} (words : Byte)
      (ps : List Gologix.Spec.Part) (path : Bytes) (T : GoTy) (vs : List Scal)
      (hw : tagWrite C s (Gologix.Spec.render ps) (written vs) = (.ok (), s1))
      (hs : Served C s1 es rs s') :
      Served C s (.write words ps path T vs :: es) ([0xCD#8, 0#8, 0#8, 0#8] :: rs) s'

end Gologix.Server.Spec
