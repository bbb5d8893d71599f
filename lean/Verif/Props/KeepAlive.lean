import Verif.Model.KeepAlive
/-
C85 A keep-alive can be cancelled, and started again

A keep-alive starts while `KeepAliveAutoStart` is on.  Cancelling works when one is running.  It crashes the program when there is none or it was cancelled before, and
with `KeepAliveAutoStart` off, the case the function is documented for, there never is one; after a cancellation neither
a new connection nor a call of `KeepAlive` starts it again.
-/
set_option linter.unusedSimpArgs false
namespace Gologix.KeepAlive

theorem run_append (s : St) (es fs : List Ev) : run s (es ++ fs) = run (run s es) fs := List.foldl_append

theorem run_cons (s : St) (e : Ev) (es : List Ev) : run s (e :: es) = run (step s e) es := rfl

/-- Every closed channel was made, and so was the current one. -/
theorem run_closed (auto noTimeout : Bool) (es : List Ev) :
    let s := run { auto := auto, noTimeout := noTimeout } es
    (∀ c ∈ s.closed, c < s.chans) ∧ (∀ c, s.cur = some c → c < s.chans) ∧ s.noTimeout = noTimeout := by
  have key : ∀ (es : List Ev) (s : St), (∀ c ∈ s.closed, c < s.chans) → (∀ c, s.cur = some c → c < s.chans) →
      (∀ c ∈ (run s es).closed, c < (run s es).chans) ∧ (∀ c, (run s es).cur = some c → c < (run s es).chans) ∧
        (run s es).noTimeout = s.noTimeout := by
    intro es
    induction es with
    | nil => intro s h1 h2; exact ⟨h1, h2, rfl⟩
    | cons e es ih =>
      intro s h1 h2
      rw [run_cons]
      have hstart : (∀ c ∈ (start s).closed, c < (start s).chans) ∧ (∀ c, (start s).cur = some c → c < (start s).chans) ∧
          (start s).noTimeout = s.noTimeout := by
        unfold start
        by_cases hg : (!s.auto || s.noTimeout) = true
        · rw [if_pos hg]; exact ⟨h1, h2, rfl⟩
        · rw [if_neg hg]
          exact ⟨fun c hc => Nat.lt_succ_of_lt (h1 c hc), fun c hc => by simp at hc; simp [← hc], rfl⟩
      have hk : (∀ c ∈ (step s e).closed, c < (step s e).chans) ∧ (∀ c, (step s e).cur = some c → c < (step s e).chans) ∧
          (step s e).noTimeout = s.noTimeout := by
        cases e with
        | start => exact hstart
        | connected =>
          simp only [step]
          by_cases ha : s.auto = true
          · rw [if_pos ha]; exact hstart
          · rw [if_neg ha]; exact ⟨h1, h2, rfl⟩
        | tick i =>
          simp only [step]
          split
          · exact ⟨h1, h2, rfl⟩
          · exact ⟨h1, h2, rfl⟩
        | ends i => exact ⟨h1, h2, rfl⟩
        | stopped i =>
          simp only [step]
          split
          · split
            · exact ⟨h1, h2, rfl⟩
            · exact ⟨h1, h2, rfl⟩
          · exact ⟨h1, h2, rfl⟩
        | cancel f =>
          simp only [step, cancel]
          split
          · exact ⟨h1, h2, rfl⟩
          · cases hc : s.cur with
            | none => exact ⟨h1, fun c h => by simp [hc] at h, rfl⟩
            | some d =>
              by_cases hm : d ∈ s.closed
              · simp only [if_pos hm]
                exact ⟨h1, fun c h => h2 c (hc ▸ h), trivial⟩
              · simp only [if_neg hm]
                refine ⟨fun c h => ?_, fun c h => h2 c (hc ▸ h), trivial⟩
                rcases List.mem_cons.mp h with rfl | h
                · exact h2 _ hc
                · exact h1 _ h
      obtain ⟨a, b, c⟩ := ih _ hk.1 hk.2.1
      exact ⟨a, b, c.trans hk.2.2⟩
  exact key es _ (fun c h => by simp at h) (fun c h => by simp at h)

/-- C85, starting: while `KeepAliveAutoStart` is on and the timeout is not zero, both a call of `KeepAlive` and a new
connection start one more loop.  It waits for a channel of its own, which was not closed and is the one a cancellation
closes: a cancellation with force right after works and ends the loop. -/
theorem C85_started (auto : Bool) (es : List Ev) (e : Ev) (he : e = .start ∨ e = .connected) :
    let s := run { auto := auto, noTimeout := false } es
    s.auto = true →
      ∃ c, (step s e).loops = s.loops ++ [c] ∧ c ∉ s.closed ∧ (step s e).closed = s.closed ∧ (step s e).auto = true ∧
        (step s e).crashed = s.crashed ∧
        (step (step (step s e) (.cancel true)) (.stopped s.loops.length)).loops = s.loops ∧
        (step (step s e) (.cancel true)).crashed = s.crashed := by
  intro s ha
  obtain ⟨h1, -, h3⟩ := run_closed auto false es
  have hs : step s e = start s := by rcases he with rfl | rfl <;> simp [step, ha]
  have hst : start s = { s with chans := s.chans + 1, cur := some s.chans, loops := s.loops ++ [s.chans] } := by
    have : s.noTimeout = false := h3
    simp [start, ha, this]
  have hn : s.chans ∉ s.closed := fun h => Nat.lt_irrefl _ (h1 _ h)
  refine ⟨s.chans, ?_, hn, ?_, ?_, ?_, ?_, ?_⟩ <;> rw [hs, hst]
  · exact ha
  · simp [step, cancel, hn, List.eraseIdx_append_of_length_le]
  · simp [step, cancel, hn]

/-- With a timeout of zero nothing starts. -/
theorem C85_no_timeout (s : St) (h : s.noTimeout = true) : step s .start = s ∧ step s .connected = s := by
  simp [step, start, h]

/-- C85, refusal: with `KeepAliveAutoStart` on and without force the cancellation is refused, nothing changes. -/
theorem C85_refused (s : St) (h : s.auto = true) : cancel false s = (false, s) := by
  simp [cancel, h]

/-- C85, cancellation: cancelling a keep-alive in progress closes its channel and the loop can end, even if it handles a
tick first; then no loop that waits for the channel is left to start anew. -/
theorem C85_cancelled (s : St) (c i : Nat) (hc : s.cur = some c) (hn : c ∉ s.closed) (hi : s.loops[i]? = some c) :
    (cancel true s).1 = true ∧ (cancel true s).2.crashed = s.crashed ∧
    (step (cancel true s).2 (.stopped i)).loops = s.loops.eraseIdx i ∧
    (step (step (cancel true s).2 (.tick i)) (.stopped i)).loops = s.loops.eraseIdx i ∧
    (step (cancel true s).2 (.stopped i)).auto = false := by
  have hlt : i < s.loops.length := by
    rw [List.getElem?_eq_some_iff] at hi
    exact hi.1
  have hset : s.loops.set i c = s.loops := by
    rw [List.getElem?_eq_some_iff] at hi
    obtain ⟨h1, h2⟩ := hi
    rw [← h2]
    exact List.set_getElem_self h1
  simp [cancel, hc, hn, step, hi, hset]

/-- A tick moves any loop to the current channel: after a cancellation a second loop ends too. -/
theorem C85_second_loop (s : St) (c d i : Nat) (hc : s.cur = some c) (hn : c ∉ s.closed) (hi : s.loops[i]? = some d) :
    (step (step (cancel true s).2 (.tick i)) (.stopped i)).loops = s.loops.eraseIdx i := by
  have hlt : i < s.loops.length := by
    rw [List.getElem?_eq_some_iff] at hi
    exact hi.1
  have he : (s.loops.set i c).eraseIdx i = s.loops.eraseIdx i := by
    rw [List.eraseIdx_eq_take_drop_succ, List.eraseIdx_eq_take_drop_succ, List.take_set_of_le (Nat.le_refl i),
      List.drop_set_of_lt (Nat.lt_succ_self i)]
  simp [cancel, hc, hn, step, hi, hlt, he]

/-- C85 is false for restarts: once `KeepAliveAutoStart` was cleared, which every cancelled loop does, no loop starts
whatever happens, neither by connecting nor by calling `KeepAlive`. -/
theorem C85_never_again (s : St) (h : s.auto = false) (es : List Ev) :
    (run s es).auto = false ∧ (run s es).loops.length ≤ s.loops.length ∧ (run s es).chans = s.chans := by
  induction es generalizing s with
  | nil => exact ⟨h, Nat.le_refl _, rfl⟩
  | cons e es ih =>
    rw [run_cons]
    have key : (step s e).auto = false ∧ (step s e).loops.length ≤ s.loops.length ∧ (step s e).chans = s.chans := by
      cases e with
      | start => simp [step, start, h]
      | connected => simp [step, h]
      | tick i =>
        simp only [step]
        split
        · simp [h]
        · simp [h]
      | ends i => exact ⟨h, by simp only [step]; rw [List.length_eraseIdx]; split <;> omega, rfl⟩
      | stopped i =>
        simp only [step]
        split
        · split
          · refine ⟨rfl, ?_, rfl⟩
            rw [List.length_eraseIdx]
            split <;> omega
          · simp [h]
        · simp [h]
      | cancel f =>
        simp only [step, cancel]
        split
        · simp [h]
        · split
          · simp [h]
          · split <;> simp [h]
    obtain ⟨a, b, c⟩ := ih _ key.1
    exact ⟨a, Nat.le_trans b key.2.1, c.trans key.2.2⟩

/-- When a cancellation crashes the program. -/
theorem C85_crash_iff (s : St) (force : Bool) (h : s.crashed = false) :
    (cancel force s).2.crashed = true ↔
      (s.auto = false ∨ force = true) ∧ (s.cur = none ∨ ∃ c, s.cur = some c ∧ c ∈ s.closed) := by
  unfold cancel
  cases ha : s.auto <;> cases force <;> cases hc : s.cur <;> simp [h]
  all_goals (split <;> simp [*])

/-- C85 is false for the documented use: with `KeepAliveAutoStart` off there never is a keep-alive, and a call of
`KeepAliveCancel` crashes the program, whatever happened before. -/
theorem C85_documented_use_crashes (noTimeout force : Bool) (es : List Ev) (hes : ∀ f, .cancel f ∉ es) :
    let s := run { auto := false, noTimeout := noTimeout } es
    s.loops = [] ∧ s.crashed = false ∧ (cancel force s).2.crashed = true := by
  have key : ∀ (es : List Ev) (s : St), (∀ f, Ev.cancel f ∉ es) → s.auto = false → s.cur = none → s.loops = [] →
      s.crashed = false → (run s es).auto = false ∧ (run s es).cur = none ∧ (run s es).loops = [] ∧
        (run s es).crashed = false := by
    intro es
    induction es with
    | nil => intro s _ h1 h2 h3 h4; exact ⟨h1, h2, h3, h4⟩
    | cons e es ih =>
      intro s hf h1 h2 h3 h4
      rw [run_cons]
      refine ih _ (fun f hm => hf f (List.mem_cons_of_mem _ hm)) ?_ ?_ ?_ ?_ <;>
        (cases e with
          | cancel f => exact absurd List.mem_cons_self (hf f)
          | _ => simp [step, start, h1, h2, h3, h4])
  obtain ⟨h1, h2, h3, h4⟩ := key es { auto := false, noTimeout := noTimeout } hes rfl rfl rfl rfl
  exact ⟨h3, h4, (C85_crash_iff _ _ h4).mpr ⟨.inl h1, .inl h2⟩⟩

/-- Cancelling twice crashes. -/
theorem C85_twice_crashes (s : St) (f : Bool) (hf : f = true ∨ s.auto = false) :
    (cancel true (cancel f s).2).2.crashed = true := by
  have hg : (s.auto && !f) = false := by rcases hf with rfl | hf <;> simp [*]
  cases hc : s.cur with
  | none => simp [cancel, hg, hc]
  | some c =>
    by_cases hm : c ∈ s.closed <;> simp [cancel, hg, hc, hm]

/-- Two keep-alives on one client: the first cancellation ends both, a second one crashes. -/
example :
    let s := run { auto := true, noTimeout := false } [.connected, .start, .cancel true, .stopped 1, .tick 0, .stopped 0]
    s.loops = [] ∧ s.crashed = false ∧ s.auto = false ∧ (run s [.connected, .start]).loops = [] ∧
      (run s [.cancel true]).crashed = true := by
  decide +kernel

end Gologix.KeepAlive
