import Verif.Props.Read
/-
C12: the upper half of the bits of a LINT or LWORD.
-/
set_option linter.unusedSimpArgs false

namespace Gologix

open Spec in
theorem symbolicIOI_high {ps : List Part} {bound : Nat} (hb : bound ≤ 2 ^ 63) (hw : WfPath bound ps) (dt : Byte)
    (n : Nat) (h1 : 32 ≤ n) (h2 : n < 64) :
    symbolicIOI (render ps ++ [0x2E#8] ++ dec n) dt =
      .ok ⟨render ps ++ [0x2E#8] ++ dec n, dt, false, 0, (ps.map partBytes).flatten ++ ([0x91#8, 2#8] ++ dec n)⟩ := by
  have hd : (0x2E#8 : Byte) ∉ dec n := fun h => absurd (dec_digits n _ h) (by decide)
  have hj : render ps ++ [0x2E#8] ++ dec n = joinWith 0x2E#8 (ps.map renderPart ++ [dec n]) := by
    have : ∀ (qs : List Str) (x : Str), qs ≠ [] →
        joinWith 0x2E#8 (qs ++ [x]) = joinWith 0x2E#8 qs ++ [0x2E#8] ++ x := by
      intro qs x hq
      induction qs with
      | nil => exact absurd rfl hq
      | cons q qs ih =>
        cases qs with
        | nil => simp [joinWith]
        | cons q' qs =>
          have := ih (by simp)
          simp only [List.cons_append] at this ⊢
          simp only [joinWith, List.append_assoc] at this ⊢
          rw [this]
          simp
    rw [this _ _ (by simpa using hw.1)]
    rfl
  have hs : splitOn 0x2E#8 (render ps ++ [0x2E#8] ++ dec n) = ps.map renderPart ++ [dec n] := by
    rw [hj]
    apply splitOn_joinWith (by simp)
    intro s hs
    rcases List.mem_append.mp hs with hs | hs
    · obtain ⟨p, hp, rfl⟩ := List.mem_map.mp hs
      exact dot_not_renderPart (hw.2 p hp).1
    · rw [List.mem_singleton.mp hs]; exact hd
  have happ : ∀ (qs : List Str) (x : Str) (i j : Ioi), ioiParts i qs = .ok j →
      ioiParts i (qs ++ [x]) = ioiPart j x := by
    intro qs x
    induction qs with
    | nil =>
      intro i j h
      simp only [ioiParts, Res.ok.injEq] at h
      subst h
      simp only [List.nil_append, ioiParts]
      cases ioiPart i x <;> rfl
    | cons q qs ih =>
      intro i j h
      simp only [ioiParts, List.cons_append] at h ⊢
      cases hq : ioiPart i q with
      | ok k => rw [hq, Res.bind_ok] at h; rw [Res.bind_ok]; exact ih k j h
      | err e => rw [hq] at h; cases h
      | panic => rw [hq] at h; cases h
  unfold symbolicIOI
  rw [hs, happ _ _ _ _ (ioiParts_render hb hw.2)]
  unfold ioiPart
  have hl : (dec n).getLast? ≠ some 0x5D#8 := by
    intro h
    exact absurd (dec_digits n _ (List.mem_of_getLast? h)) (by decide)
  have hm : ∀ m : Fin 64, 32 ≤ m.val → marshalIOIPart (dec m.val) = .ok ([0x91#8, 2#8] ++ dec m.val) := by decide +kernel
  rw [if_neg hl, atoi_dec (Nat.lt_trans h2 (by decide)), hm ⟨n, h2⟩ h1]
  have : ¬ ((n : Int) ≤ 31) := by omega
  simp [Num.isOk, Num.val, this]
open Spec in
/-- C12 is false for bits 32 to 63 of a tag of 64 bits: `tag.n` is requested as a member of `tag` whose name is the number, and
no bit is taken of what is read, for every well-formed tag. -/
theorem C12_high_bit_member (ps : List Part) (hw : WfPath (2 ^ 32) ps) (n : Nat) (h1 : 32 ≤ n) (h2 : n < 64) (db : TagDb) (dt : Byte)
    (hdb : NotDirect db (render ps) dt) (hdb' : NotDirect db (render ps ++ [0x2E#8] ++ dec n) dt) :
    ∃ i j, (newIOI db [] (render ps) dt).1 = .ok i ∧
      (newIOI db [] (render ps ++ [0x2E#8] ++ dec n) dt).1 = .ok j ∧
      j.buffer = i.buffer ++ ([0x91#8, 2#8] ++ dec n) ∧ j.bitAccess = false := by
  have hl := wfPath_lower hw
  have hlow : toLower (render ps ++ [0x2E#8] ++ dec n) = render (lowerPath ps) ++ [0x2E#8] ++ dec n := by
    have hd : toLower (dec n) = dec n := by
      unfold toLower
      conv => rhs; rw [← List.map_id (dec n)]
      apply List.map_congr_left
      intro b hb
      have := dec_digits n b hb
      unfold isDigit at this
      unfold lowerByte
      simp only [decide_eq_true_eq, Bool.and_eq_true] at this
      rw [if_neg]
      · rfl
      · intro h
        omega
    rw [← toLower_render]
    conv => rhs; rw [← hd]
    simp [toLower, lowerByte]
  rw [newIOI_symbolic hdb, newIOI_symbolic hdb', toLower_render, hlow, symbolicIOI_render (by decide) hl,
    symbolicIOI_high (by decide) hl _ n h1 h2]
  exact ⟨_, _, rfl, rfl, rfl, rfl⟩

/-- Bit 63 of an element. -/
example : symbolicIOI (str "word[3].63") tBOOL =
    .ok ⟨str "word[3].63", tBOOL, false, 0, [0x91#8, 4#8] ++ str "word" ++ [0x28#8, 3#8, 0x91#8, 2#8] ++ str "63"⟩ := by
  decide +kernel

end Gologix
