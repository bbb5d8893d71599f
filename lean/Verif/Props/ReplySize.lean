import Verif.Props.Multi
/-
C23: how large the replies to ReadList and ReadMap are.
-/
set_option linter.unusedSimpArgs false

namespace Gologix

/-- C23, replies to ReadList and ReadMap: of numbers, the reply to a request of more than one tag is over the connection size by less
than 8 bytes and 8 for each tag.  Missing: the property wants it within the size; strings (`C23_string_replies`). -/
theorem C23_reply_bound_partial (fuel conn : Nat) (tags : List MTag) (replies : List Reply) (run : ListRun)
    (hrun : readBatches fuel conn tags replies = some run) (req : List MTag) (hreq : req ∈ run.log) :
    req.length ≤ 1 ∨ Spec.replySize req < conn + 8 + 8 * req.length := by
  rcases C23_reply_data_partial fuel conn tags replies run hrun req hreq with h | h
  · exact .inl h
  · right
    have : ∀ l : List MTag, Spec.replySize l = 8 + 8 * l.length + (l.map fun t => cipSize t.typ * t.elements).sum := by
      intro l
      unfold Spec.replySize
      induction l with
      | nil => rfl
      | cons t ts ih => simp only [List.map_cons, List.sum_cons, List.length_cons] at ih ⊢; omega
    rw [this]
    omega

/-- Size of a reply that carries `n` strings: sequence, service, status, count, then for each its offset, service, status, type, handle
and the 88 bytes of length, characters and padding. -/
def Spec.stringReplySize (n : Nat) : Nat := 8 + n * (2 + 4 + 4 + 88)

theorem countFit_strings {conn p : Nat} {t : MTag} (hp : t.ioi.buffer.length = p) (ht : cipSize t.typ * t.elements = 1) :
    ∀ (k i m blen resp : Nat), m ≤ i + 1 → blen = i * (4 + p) → resp = i → (k = 0 → m = i) →
      10 + 2 * (i + k) + (i + k) * (4 + p) < conn → countFitLoop conn i m blen resp (List.replicate k t) = i + k
  | 0, i, m, blen, resp, _, _, _, h0, _ => by simp [countFitLoop, h0]
  | k + 1, i, m, blen, resp, hm, hb, hr, _, hc => by
    have e1 : (i + (k + 1)) * (4 + p) = i * (4 + p) + (4 + p) + k * (4 + p) := by
      rw [Nat.add_mul, Nat.add_mul]; omega
    have e2 : (i + 1 + k) * (4 + p) = (i + (k + 1)) * (4 + p) := by rw [show i + 1 + k = i + (k + 1) from by omega]
    have e3 : i ≤ i * (4 + p) := Nat.le_mul_of_pos_right _ (by omega)
    rw [List.replicate_succ, countFitLoop]
    simp only [hp, ht]
    rw [if_neg (by omega), countFit_strings hp ht k (i + 1) (i + 1) _ _ (by omega) (by rw [hb, Nat.add_mul]; omega) (by omega)
      (fun _ => rfl) (by rw [e2]; omega)]
    omega

/-- C23 is false for strings: each is counted as one byte of the reply.  As many as fit in the request are asked for at once, by
ReadList and ReadMap, and the reply has 98 bytes for each. -/
theorem C23_string_replies (conn n p : Nat) (t : MTag) (hp : t.ioi.buffer.length = p) (ht : t.typ = tSTRING) (he : t.elements = 1)
    (hn : 0 < n) (hc : 10 + 2 * n + n * (4 + p) < conn) (fuel : Nat) (replies : List Reply) :
    (readBatches (fuel + 2) conn (List.replicate n t) replies).map (·.log) = some [List.replicate n t] ∧
      (conn < 98 * n → conn < Spec.stringReplySize n) := by
  have h1 : cipSize t.typ * t.elements = 1 := by rw [ht, he]; decide
  have hf : countFit conn (List.replicate n t) = n := by
    unfold countFit
    rw [countFit_strings hp h1 n 0 1 0 0 (by omega) (by simp) rfl (by omega) (by simpa using hc)]
    omega
  have hl : ∀ k, (((List.replicate k t).map MTag.entry).flatten).length = k * (4 + p) := by
    intro k
    have : t.entry.length = 4 + p := by simp [MTag.entry, hp]; omega
    simp [this]
  refine ⟨?_, fun h => by unfold Spec.stringReplySize; omega⟩
  have hne : List.replicate n t ≠ [] := by simp; omega
  rw [readBatches, if_neg hne]
  simp only [hf]
  rw [List.take_of_length_le (by simp), List.drop_of_length_le (by simp), readList, splitIndex_none (by rw [hl]; omega)]
  simp only
  cases replies with
  | nil => rfl
  | cons r rs =>
    simp only [exchangeList]
    cases multiReply (List.replicate n t) r with
    | ok v => simp [readBatches]
    | err e => rfl
    | panic => rfl

/-- 49 strings with names of two bytes on a connection of 504 bytes: the reply has 4810. -/
example : 10 + 2 * 49 + 49 * (4 + 4) < 504 ∧ Spec.stringReplySize 49 = 4810 ∧
    countFit 504 (List.replicate 49 ⟨exIoi, tSTRING, 1, .untyped⟩) = 49 := by
  decide +kernel

end Gologix
