import Verif.Spec.Wire
/-
Replies with too few items.
-/
namespace Gologix.Spec

/-- The payload is well formed and complete, with any interface handle and timeout, but holds fewer than two items. -/
def FewItems (payload : Bytes) : Prop :=
  ∃ (hdr : Bytes) (items : List (BitVec 16 × Bytes)) (rest : Bytes),
    hdr.length = 6 ∧ items.length ≤ 1 ∧ (∀ x ∈ items, x.2.length < 65536) ∧ payload = hdr ++ (cpf items ++ rest)

/-- A reply to the request for a template of `k` members whose text, after the descriptions of the members, begins with
a semicolon and contains a zero byte: the name of the structure is empty. -/
def NamelessTemplate (payload : Bytes) : Prop :=
  ∃ (hdr : Bytes) (first : BitVec 16 × Bytes) (id : BitVec 16) (head members text : Bytes)
    (more : List (BitVec 16 × Bytes)) (rest : Bytes),
    payload = hdr ++ (cpf (first :: (id, head ++ (members ++ 0x3B#8 :: text)) :: more) ++ rest) ∧
      hdr.length = 6 ∧ head.length = 6 ∧ members.length % 8 = 0 ∧ 0#8 ∈ text

end Gologix.Spec
