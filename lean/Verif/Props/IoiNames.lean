import Verif.Props.Path
set_option linter.unusedSimpArgs false
/-
C55: exactly which names crash the caller, and that none is refused.
-/
namespace Gologix

/-- A name of which a part, between dots, ends in `]` and has no `[`. -/
def Unbalanced (s : Str) : Prop := ∃ p ∈ splitOn 0x2E#8 s, p.getLast? = some 0x5D#8 ∧ 0x5B#8 ∉ p

theorem arrayAccess_last {s : Str} (h : s.getLast? ≠ some 0x5D#8) : arrayAccessText s = none := by
  unfold arrayAccessText
  split
  · rename_i r heq
    refine absurd ?_ h
    rw [List.getLast?_eq_head?_reverse, heq]
    rfl
  · rfl

theorem arrayAccess_open {s : Str} (h : 0x5B#8 ∉ s) : arrayAccessText s = none := by
  unfold arrayAccessText
  split
  · rename_i r heq
    split
    · rename_i r' heq'
      refine absurd ?_ h
      have h1 : 0x5B#8 ∈ r := (List.dropWhile_sublist _).subset (heq' ▸ List.mem_cons_self)
      exact List.mem_reverse.1 (heq ▸ List.mem_cons_of_mem _ h1)
    · rfl
  · rfl

theorem marshal_ok {s : Str} (hd : 0x2E#8 ∉ s) (ha : arrayAccessText s = none) : ∃ b, marshalIOIPart s = .ok b := by
  unfold marshalIOIPart parseTagName
  simp [bitAccessText_none_of_no_dot hd, ha]

theorem part_ok (i : Ioi) {p : Str} (hd : 0x2E#8 ∉ p) (h : ¬ (p.getLast? = some 0x5D#8 ∧ 0x5B#8 ∉ p)) :
    ∃ j, ioiPart i p = .ok j := by
  unfold ioiPart
  by_cases hl : p.getLast? = some 0x5D#8
  · have ho : 0x5B#8 ∈ p := Classical.byContradiction fun hc => h ⟨hl, hc⟩
    rw [if_pos hl]
    cases hk : indexOf 0x5B#8 p with
    | none =>
      unfold indexOf at hk
      rw [List.findIdx?_eq_none_iff] at hk
      simpa using hk _ ho
    | some k =>
      unfold indexOf at hk
      rw [List.findIdx?_eq_some_iff_getElem] at hk
      obtain ⟨hlt, hk1, hk2⟩ := hk
      have hno : 0x5B#8 ∉ p.take k := by
        intro hm
        obtain ⟨m, hm1, hm2⟩ := List.mem_iff_getElem.1 hm
        have hmk : m < k := by simp only [List.length_take] at hm1; omega
        have := hk2 m hmk
        simp only [List.getElem_take] at hm2
        simp [hm2] at this
      obtain ⟨b, hb⟩ := marshal_ok (s := p.take k) (fun hm => hd (List.mem_of_mem_take hm)) (arrayAccess_open hno)
      simp only [hb]
      exact ⟨_, rfl⟩
  · rw [if_neg hl]
    obtain ⟨b, hb⟩ := marshal_ok hd (arrayAccess_last hl)
    dsimp only
    split
    · exact ⟨_, rfl⟩
    · rw [hb]
      exact ⟨_, rfl⟩

theorem part_panics (i : Ioi) {p : Str} (h : p.getLast? = some 0x5D#8 ∧ 0x5B#8 ∉ p) : ioiPart i p = .panic := by
  unfold ioiPart
  rw [if_pos h.1]
  have : indexOf 0x5B#8 p = none := by
    unfold indexOf
    rw [List.findIdx?_eq_none_iff]
    intro x hx
    simp only [decide_eq_false_iff_not]
    rintro rfl
    exact h.2 hx
  simp [this]

theorem parts_outcome : ∀ (ps : List Str) (i : Ioi), (∀ p ∈ ps, 0x2E#8 ∉ p) →
    ((∃ p ∈ ps, p.getLast? = some 0x5D#8 ∧ 0x5B#8 ∉ p) → ioiParts i ps = .panic) ∧
    ((¬ ∃ p ∈ ps, p.getLast? = some 0x5D#8 ∧ 0x5B#8 ∉ p) → ∃ j, ioiParts i ps = .ok j)
  | [], i, _ => ⟨by simp, fun _ => ⟨i, rfl⟩⟩
  | p :: ps, i, hd => by
    have hps : ∀ q ∈ ps, 0x2E#8 ∉ q := fun q hq => hd q (List.mem_cons_of_mem _ hq)
    by_cases hp : p.getLast? = some 0x5D#8 ∧ 0x5B#8 ∉ p
    · refine ⟨fun _ => ?_, fun h => absurd ⟨p, List.mem_cons_self, hp⟩ h⟩
      simp only [ioiParts, part_panics i hp]
      rfl
    · obtain ⟨j, hj⟩ := part_ok i (hd p List.mem_cons_self) hp
      have e : ioiParts i (p :: ps) = ioiParts j ps := by
        simp only [ioiParts, hj]
        rfl
      rw [e]
      refine ⟨?_, ?_⟩
      · rintro ⟨q, hq, h⟩
        rcases List.mem_cons.1 hq with rfl | hq
        · exact absurd h hp
        · exact (parts_outcome ps j hps).1 ⟨q, hq, h⟩
      · intro h
        exact (parts_outcome ps j hps).2 fun ⟨q, hq, h'⟩ => h ⟨q, List.mem_cons_of_mem _ hq, h'⟩

/-- **C55, exactly.**  Of the path of a name the caller crashes exactly when a part of the name ends in `]` and has no `[`. -/
theorem C55_crash_exact (s : Str) (dt : Byte) : symbolicIOI s dt = .panic ↔ Unbalanced s := by
  obtain ⟨h1, h2⟩ := parts_outcome (splitOn 0x2E#8 s)
    { path := s, typ := dt, bitAccess := false, bitPosition := 0, buffer := [] } (splitOn_no_sep _ _)
  refine ⟨fun h => ?_, h1⟩
  refine Classical.byContradiction fun hc => ?_
  obtain ⟨j, hj⟩ := h2 hc
  unfold symbolicIOI at h
  rw [hj] at h
  cases h

/-- **C55, no name is refused.**  Whatever was asked for before, whatever the tables say and however malformed the name, `newIOI` gives a
path or crashes: it never returns an error. -/
theorem C55_never_refused (hist : List Lookup) (db : TagDb) (s : Str) (dt : Byte) :
    (∃ ioi, (newIOI db (history hist) s dt).1 = .ok ioi) ∨
      ((newIOI db (history hist) s dt).1 = .panic ∧ Unbalanced (toLower s)) := by
  unfold newIOI
  cases hd : directBytes db (toLower s) dt with
  | some b => exact .inl ⟨_, rfl⟩
  | none =>
    cases hl : (history hist).lookup (toLower s) with
    | some v => exact .inl ⟨_, rfl⟩
    | none =>
      obtain ⟨h1, h2⟩ := parts_outcome (splitOn 0x2E#8 (toLower s))
        { path := toLower s, typ := dt, bitAccess := false, bitPosition := 0, buffer := [] } (splitOn_no_sep _ _)
      by_cases hu : Unbalanced (toLower s)
      · right
        have e : symbolicIOI (toLower s) dt = .panic := h1 hu
        simp [e, hu]
      · left
        obtain ⟨j, hj⟩ := h2 hu
        have e : symbolicIOI (toLower s) dt = .ok j := hj
        exact ⟨j, by simp [e]⟩

/-- **C55, what fails.**  A name that is not in the table of tags crashes the caller each time, whatever was asked for before. -/
theorem C55_crash_always (hist : List Lookup) (db : TagDb) (s : Str) (dt : Byte) (hn : NotDirect db s dt)
    (hu : Unbalanced (toLower s)) : (newIOI db (history hist) s dt).1 = .panic := by
  have h := C10_case_and_history hist db s s dt rfl
  rw [newIOI_symbolic hn, (C55_crash_exact _ _).2 hu] at h
  cases hx : (newIOI db (history hist) s dt).1 with
  | panic => rfl
  | ok v => rw [hx] at h; cases h
  | err e => rw [hx] at h; cases h

/-- Names that are malformed and have a path all the same, and one that crashes. -/
example : ¬ Unbalanced (str "a[1,x].[.b[[2]") ∧ Unbalanced (str "a[1].b2].c") := by
  unfold Unbalanced
  decide

example : NotDirect ⟨20, fun _ => none⟩ (str "B2]") tDINT ∧ Unbalanced (toLower (str "B2]")) := by
  unfold Unbalanced
  exact ⟨.inl (by decide), by decide⟩

end Gologix
