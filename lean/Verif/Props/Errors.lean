import Verif.Model.Errors
/-
C84 No error is lost when several are put together
-/
set_option linter.unusedSimpArgs false
namespace Gologix

open Spec (AnError Inside Sound)

theorem inside_leaf {t n : Nat} : Inside t (.leaf n) ↔ n = t :=
  ⟨fun h => by cases h; rfl, fun h => h ▸ .leaf⟩

theorem inside_wrap {t n : Nat} {e : AnError} : Inside t (.wrap n e) ↔ n = t ∨ Inside t e := by
  constructor
  · intro h
    cases h with
    | here => exact .inl rfl
    | wrap _ h => exact .inr h
  · rintro (rfl | h)
    · exact .here e
    · exact .wrap n h

theorem inside_multi {t : Nat} {es : List AnError} : Inside t (.multi es) ↔ ∃ e ∈ es, Inside t e := by
  constructor
  · intro h
    cases h with
    | multi hm h => exact ⟨_, hm, h⟩
  · rintro ⟨e, hm, h⟩
    exact .multi hm h

theorem sound_cons {a : AnError} {es : List AnError} (h : ∀ e ∈ a :: es, Sound e) : Sound a ∧ ∀ e ∈ es, Sound e :=
  ⟨h a (List.mem_cons_self ..), fun e he => h e (List.mem_cons_of_mem _ he)⟩

mutual
/-- C84: of errors put together `errors.Is` finds exactly the ones that are inside, and does not crash, provided nothing
was put together from no errors. -/
theorem C84_is_inside (t : Nat) : (e : AnError) → Sound e → ∃ b, errIs t e = .ok b ∧ (b = true ↔ Inside t e)
  | .leaf n, _ => ⟨_, by rw [errIs], by rw [inside_leaf, decide_eq_true_iff]⟩
  | .wrap n e, h => by
    have he : Sound e := by cases h; assumption
    obtain ⟨b, h1, h2⟩ := C84_is_inside t e he
    by_cases hn : n = t
    · exact ⟨true, by rw [errIs, if_pos hn], by simp [inside_wrap, hn]⟩
    · exact ⟨b, by rw [errIs, if_neg hn, h1], by simp [inside_wrap, hn, h2]⟩
  | .multi es, h => by
    obtain ⟨hn, hs⟩ : es ≠ [] ∧ ∀ e ∈ es, Sound e := by cases h; constructor <;> assumption
    obtain ⟨b, h1, h2⟩ := is_inside_multi t es hn hs
    exact ⟨b, by rw [errIs, h1], by rw [h2, inside_multi]⟩
theorem is_inside_multi (t : Nat) : (es : List AnError) → es ≠ [] → (∀ e ∈ es, Sound e) →
    ∃ b, errIsMulti t es = .ok b ∧ (b = true ↔ ∃ e ∈ es, Inside t e)
  | [], h, _ => absurd rfl h
  | [a], _, hs => by
    obtain ⟨b, h1, h2⟩ := C84_is_inside t a (sound_cons hs).1
    refine ⟨b, ?_, by simp [h2]⟩
    rw [errIsMulti, h1, Res.bind_ok]
    cases b <;> rfl
  | [a, c], _, hs => by
    obtain ⟨b, h1, h2⟩ := C84_is_inside t a (sound_cons hs).1
    obtain ⟨d, h3, h4⟩ := C84_is_inside t c (sound_cons (sound_cons hs).2).1
    refine ⟨b || d, ?_, by simp [← h2, ← h4]⟩
    rw [errIsMulti, h1, Res.bind_ok, h3]
    cases b <;> rfl
  | a :: c :: x :: r, _, hs => by
    obtain ⟨b, h1, h2⟩ := C84_is_inside t a (sound_cons hs).1
    obtain ⟨d, h3, h4⟩ := is_inside_multi t (c :: x :: r) (by simp) (sound_cons hs).2
    refine ⟨b || d, ?_, by simp only [List.mem_cons] at h4 ⊢; simp [← h2, h4]⟩
    rw [errIsMulti, h1, Res.bind_ok, h3]
    cases b <;> rfl
end

/-- Errors put together from none crash whoever looks for one. -/
theorem C84_none_panics (t : Nat) : errIs t (.multi []) = .panic := by rw [errIs, errIsMulti]

/-- C84 for `Serve`: the error it returns contains the error of the loop that failed and those on closing the
listeners, nothing else, and all of them can be found. -/
theorem C84_serve (t n : Nat) (first : AnError) (tcp udp : Option (Nat × AnError)) (hf : Sound first)
    (ht : ∀ x ∈ tcp, Sound x.2) (hu : ∀ x ∈ udp, Sound x.2) :
    ∃ b, errIs t (serveError n first tcp udp) = .ok b ∧ (b = true ↔ t = n ∨ Inside t first ∨
      (∃ x ∈ tcp, t = x.1 ∨ Inside t x.2) ∨ ∃ x ∈ udp, t = x.1 ∨ Inside t x.2) := by
  have hs : Sound (serveError n first tcp udp) := by
    unfold serveError
    cases tcp <;> cases udp <;> refine .multi (by simp [newMulti]) ?_ <;> intro e he <;>
      simp [newMulti] at he ht hu
    · subst he; exact .wrap _ hf
    · rcases he with rfl | rfl
      · exact .wrap _ hf
      · exact .wrap _ hu
    · rcases he with rfl | rfl
      · exact .wrap _ hf
      · exact .wrap _ ht
    · rcases he with rfl | rfl | rfl
      · exact .wrap _ hf
      · exact .wrap _ ht
      · exact .wrap _ hu
  obtain ⟨b, h1, h2⟩ := C84_is_inside t _ hs
  refine ⟨b, h1, ?_⟩
  rw [h2]
  unfold serveError
  cases tcp <;> cases udp <;> simp [newMulti, inside_multi, inside_wrap, eq_comm, or_assoc]

/-- Three errors put together, the last one wrapped twice. -/
example : errIs 7 (serveError 100 (.leaf 1) (some (101, .leaf 2)) (some (102, .wrap 103 (.leaf 7)))) = .ok true ∧
    errIs 8 (serveError 100 (.leaf 1) (some (101, .leaf 2)) (some (102, .wrap 103 (.leaf 7)))) = .ok false ∧
    Sound (serveError 100 (.leaf 1) (some (101, .leaf 2)) (some (102, .wrap 103 (.leaf 7)))) := by
  refine ⟨by decide +kernel, by decide +kernel, ?_⟩
  refine .multi (by simp [newMulti]) ?_
  intro e he
  simp [newMulti] at he
  rcases he with rfl | rfl | rfl <;> exact .wrap _ (by first | exact .leaf _ | exact .wrap _ (.leaf _))

end Gologix
