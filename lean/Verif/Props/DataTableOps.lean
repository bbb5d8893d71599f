import Verif.Props.DataVars
/-
C91 Removing a tag of a data table removes this tag
-/
set_option linter.unusedSimpArgs false
namespace Gologix

theorem find_some {b : DBuf} {name : Str} {i : Nat} (h : b.find name = some i) :
    ∃ pre t post, b.tags = pre ++ t :: post ∧ pre.length = i ∧ t.name = name ∧ ∀ x ∈ pre, x.name ≠ name := by
  unfold DBuf.find at h
  rw [List.findIdx?_eq_some_iff_getElem] at h
  obtain ⟨hi, ht, hpre⟩ := h
  refine ⟨b.tags.take i, b.tags[i], b.tags.drop (i + 1), ?_, by simp; omega, by simpa using ht, ?_⟩
  · rw [List.getElem_cons_drop]
    exact (List.take_append_drop i b.tags).symm
  · intro x hx
    obtain ⟨j, hj, rfl⟩ := List.mem_take_iff_getElem.mp hx
    have := hpre j (by omega)
    simpa using this

theorem find_none {b : DBuf} {name : Str} (h : ∀ t ∈ b.tags, t.name ≠ name) : b.find name = none := by
  unfold DBuf.find
  rw [List.findIdx?_eq_none_iff]
  intro t ht
  simpa using h t ht

theorem find_first {b : DBuf} {pre post : List DTag} {t : DTag} {name : Str} (hb : b.tags = pre ++ t :: post)
    (ht : t.name = name) (hpre : ∀ x ∈ pre, x.name ≠ name) : b.find name = some pre.length := by
  unfold DBuf.find
  rw [hb, List.findIdx?_append, List.findIdx?_eq_none_iff.mpr (by intro x hx; simpa using hpre x hx)]
  simp [List.findIdx?_cons, ht]

/-- C91: the first tag of the name is asked for by its position, and when the controller agrees, this tag is gone and all
others are as they were. -/
theorem C91_removed (net : Bytes → Res Reply) (seq : BitVec 16) (b : DBuf) (pre post : List DTag) (t : DTag) (name : Str)
    (hc : b.created = true) (hb : b.tags = pre ++ t :: post) (ht : t.name = name) (hpre : ∀ x ∈ pre, x.name ≠ name) :
    ∃ req, Spec.BufferRequest req 0x4F#8 b.inst (le 2 t.index.toNat) ∧
      (∀ r rest, net req = .ok r → Spec.BufferReply 0x4F#8 rest r →
        removeTag net seq b name = (.ok (), { b with tags := pre ++ post })) ∧
      (∀ e, net req = .err e → removeTag net seq b name = (.err .fail, b)) := by
  have hget : ((b.tags[pre.length]?).map (·.index)).getD 0 = t.index := by
    rw [hb]
    simp
  have herase : b.tags.eraseIdx pre.length = pre ++ post := by
    rw [hb, List.eraseIdx_append_of_length_le (Nat.le_refl _)]
    simp
  have hform := request_form seq 0x4F#8 b.inst (putBV t.index)
  rw [show putBV t.index = le 2 t.index.toNat from rfl] at hform
  refine ⟨_, hform, ?_, ?_⟩
  · intro r rest hr hrep
    unfold removeTag
    rw [find_first hb ht hpre]
    simp only [hc, Bool.not_true, Bool.false_eq_true, if_false, hget, show putBV t.index = le 2 t.index.toNat from rfl, hr,
      Res.bind, reply_data (by decide) hrep, herase]
  · intro e he
    unfold removeTag
    rw [find_first hb ht hpre]
    simp only [hc, Bool.not_true, Bool.false_eq_true, if_false, hget, show putBV t.index = le 2 t.index.toNat from rfl, he,
      Res.bind]

/-- C91: whatever the controller answers, either nothing is removed or the first tag of the name. -/
theorem C91_only (net : Bytes → Res Reply) (seq : BitVec 16) (b : DBuf) (name : Str) :
    ((removeTag net seq b name).2 = b ∧ (removeTag net seq b name).1 ≠ .ok ()) ∨
    ∃ pre t post, b.tags = pre ++ t :: post ∧ t.name = name ∧ (∀ x ∈ pre, x.name ≠ name) ∧
      removeTag net seq b name = (.ok (), { b with tags := pre ++ post }) := by
  unfold removeTag
  split
  · exact .inl ⟨rfl, by simp⟩
  · cases hf : b.find name with
    | none => exact .inl ⟨rfl, by simp⟩
    | some i =>
      obtain ⟨pre, t, post, hb, hi, ht, hpre⟩ := find_some hf
      simp only
      split
      · refine .inr ⟨pre, t, post, hb, ht, hpre, ?_⟩
        rw [hb, ← hi, List.eraseIdx_append_of_length_le (Nat.le_refl _)]
        simp
      · exact .inl ⟨rfl, by simp⟩
      · exact .inl ⟨rfl, by simp⟩

/-- C91: a name that is not there is an error, whatever the network does, for nothing is sent. -/
theorem C91_unknown (net : Bytes → Res Reply) (seq : BitVec 16) (b : DBuf) (name : Str)
    (h : ∀ t ∈ b.tags, t.name ≠ name) : removeTag net seq b name = (.err .fail, b) := by
  unfold removeTag
  rw [find_none h]
  split <;> rfl

/-- C91 is false for a tag that the controller has not been told of yet: it is asked to remove the tag, at the position the
tag would get; when it refuses, the tag cannot be removed and is added by the next read. -/
theorem C91_pending_cannot_go (net : Bytes → Res Reply) (seq : BitVec 16) (b : DBuf) (t : DTag) (e : Err)
    (hc : b.created = true) (hb : t ∈ b.tags) (hs : t.synched = false)
    (hnet : ∀ req data, Spec.BufferRequest req 0x4F#8 b.inst data → net req = .err e) :
    (removeTag net seq b t.name).1 = .err .fail ∧ t ∈ (removeTag net seq b t.name).2.pending := by
  have hx : ∃ i, b.find t.name = some i := by
    cases hf : b.find t.name with
    | some i => exact ⟨i, rfl⟩
    | none =>
      unfold DBuf.find at hf
      rw [List.findIdx?_eq_none_iff] at hf
      have := hf t hb
      simp at this
  obtain ⟨i, hi⟩ := hx
  obtain ⟨pre, t', post, hb', -, ht', hpre⟩ := find_some hi
  obtain ⟨req, hreq, -, herr⟩ := C91_removed net seq b pre post t' t.name hc hb' ht' hpre
  rw [herr e (hnet req _ hreq)]
  exact ⟨rfl, List.mem_filter.mpr ⟨hb, by simp [hs]⟩⟩

/-- C75: reading a buffer without tags is an error, and nothing is sent. -/
theorem C75_read_empty (W : DWorld) (b : DBuf) (h : b.tags = []) : readAll W b = (.err .fail, b) := by
  unfold readAll
  split
  · rfl
  · simp [h]

/-- Two tags, the second removed. -/
example : (removeTag (okNet 0x4F#8 []) 1
      (addTag demoEnv (addTag demoEnv (DBuf.new 7) (str "A") tDINT).2 (str "B") tREAL).2 (str "B")).2.tags.map
      (fun t => t.name) = [str "A"] := by decide +kernel

end Gologix
