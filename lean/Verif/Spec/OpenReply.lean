import Verif.Spec.Crash
import Verif.Model.Read
/-
What the answer to a request for a connection means.
-/
namespace Gologix.Connect.Spec
open Gologix Gologix.Spec

/-- The answer grants a connection: the status of the frame and that of the message are zero, and behind the additional
status stand the identifier `ot` and at least 22 more bytes.  The additional status has two bytes for each word its
length byte counts, of which only the low eight bits are kept (connect.go:583). -/
def Granted (r : Reply) (ot : BitVec 32) : Prop :=
  r.status = 0 ∧
  ∃ (hdr : Bytes) (first : BitVec 16 × Bytes) (id : BitVec 16) (service reserved words : Byte) (extra tail : Bytes)
    (more : List (BitVec 16 × Bytes)) (rest : Bytes),
    let items := first :: (id, [service, reserved, 0#8, words] ++ (extra ++ (le 4 ot.toNat ++ tail))) :: more
    hdr.length = 6 ∧ extra.length = 2 * words.toNat % 256 ∧ 22 ≤ tail.length ∧
    items.length < 65536 ∧ (∀ x ∈ items, x.2.length < 65536) ∧ r.payload = hdr ++ (cpf items ++ rest)

/-- The same for an exchange that may have failed. -/
def Grants (x : Res Reply) (ot : BitVec 32) : Prop := ∃ r, x = .ok r ∧ Granted r ot

/-- The answer has status zero but fewer than two items; the code indexes the second without looking. -/
def Crashes (x : Res Reply) : Prop := x = .panic ∨ ∃ r, x = .ok r ∧ r.status = 0 ∧ FewItems r.payload

/-- Any other answer, and none. -/
def Refuses (x : Res Reply) : Prop := (∀ ot, ¬ Grants x ot) ∧ ¬ Crashes x

end Gologix.Connect.Spec
