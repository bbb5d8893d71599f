import Verif.Model.ClientTables
set_option linter.unusedSimpArgs false
/-
C113: goroutines that share a client.
-/
namespace Gologix.ClientTables

open Spec.Shared

/-! ### Goroutines that keep to the locks -/

/-- What a goroutine that holds these locks does next keeps to the order of the locks: the cache before the connection, each
once; and, when `strict`, it uses the cache and the version of the firmware under the lock of the cache only, and writes
nothing else. -/
def Keeps (strict : Bool) : Bool → Bool → Ops → Prop
  | c, n, [] => c = false ∧ n = false
  | c, n, .lock .cache :: r => c = false ∧ n = false ∧ Keeps strict true n r
  | c, n, .lock .conn :: r => n = false ∧ Keeps strict c true r
  | c, n, .unlock .cache :: r => c = true ∧ Keeps strict false n r
  | c, n, .unlock .conn :: r => n = true ∧ Keeps strict c false r
  | c, n, .use v w :: r =>
    (strict = true → ((v = .ioiCache ∨ v = .firmware) → c = true) ∧ (w = true → v = .ioiCache ∨ v = .firmware)) ∧
      Keeps strict c n r

theorem keeps_append (strict : Bool) (b : Ops) (hb : Keeps strict false false b) :
    ∀ (a : Ops) (c n : Bool), Keeps strict c n a → Keeps strict c n (a ++ b)
  | [], c, n, h => by obtain ⟨rfl, rfl⟩ := h; exact hb
  | .lock .cache :: r, c, n, h => ⟨h.1, h.2.1, keeps_append strict b hb r _ _ h.2.2⟩
  | .lock .conn :: r, c, n, h => ⟨h.1, keeps_append strict b hb r _ _ h.2⟩
  | .unlock .cache :: r, c, n, h => ⟨h.1, keeps_append strict b hb r _ _ h.2⟩
  | .unlock .conn :: r, c, n, h => ⟨h.1, keeps_append strict b hb r _ _ h.2⟩
  | .use v w :: r, c, n, h => ⟨h.1, keeps_append strict b hb r _ _ h.2⟩

theorem keeps_flatMap {α : Type} (strict : Bool) (f : α → Ops) : ∀ l : List α, (∀ a ∈ l, Keeps strict false false (f a)) →
    Keeps strict false false (l.flatMap f)
  | [], _ => ⟨rfl, rfl⟩
  | a :: l, h => by
    simp only [List.flatMap_cons]
    exact keeps_append strict _ (keeps_flatMap strict f l (fun x hx => h x (List.mem_cons_of_mem _ hx))) _ _ _
      (h a List.mem_cons_self)

theorem keeps_exchange (strict : Bool) : Keeps strict false false exchange := by simp [exchange, Keeps]

theorem keeps_failed (strict : Bool) (n : Nat) : Keeps strict false false (exchangeFailed n) :=
  keeps_append _ _ (keeps_flatMap _ _ _ fun _ _ => keeps_exchange _) _ _ _ (keeps_exchange _)

/-- Uses of the connection by a goroutine that holds the lock of the cache. -/
theorem keeps_inside (strict : Bool) (b : Ops) (hb : Keeps strict true false b) : ∀ l : List Nat,
    Keeps strict true false (l.flatMap (fun _ => exchange) ++ b)
  | [] => hb
  | _ :: l => by
    have := keeps_inside strict b hb l
    simpa [exchange, Keeps] using this

theorem keeps_path (strict : Bool) (f : Firmware) (new : Bool) (r : Found) : Keeps strict false false (pathOps f new r) := by
  cases f with
  | known => cases new <;> cases r <;> simp [pathOps, Firmware.ops, exchange, Keeps]
  | asked => cases new <;> cases r <;> simp [pathOps, Firmware.ops, exchange, Keeps]
  | failed n =>
    have h := keeps_inside strict ((if new then [.use .knownTags false] else []) ++
      ((match r with
        | .listed => []
        | .cached => [.use .ioiCache false]
        | .made => [.use .ioiCache false, .use .ioiCache true]
        | .refused => [.use .ioiCache false]) ++ [.unlock .cache]))
      (by cases new <;> cases r <;> simp [Keeps]) (List.range n)
    cases r <;> simpa [pathOps, Firmware.ops, exchangeFailed, exchange, Keeps] using h

theorem keeps_writes (n : Nat) (t : Table) (w : Bool) : Keeps false false false (List.replicate n (.use t w)) := by
  induction n with
  | zero => exact ⟨rfl, rfl⟩
  | succ n ih => exact ⟨(by simp), ih⟩

mutual
theorem keeps_template : ∀ t : Template, Keeps false false false t.ops
  | .known => by simp [Template.ops, Keeps]
  | .failed n => by
    simp only [Template.ops]
    exact ⟨(by simp), keeps_failed _ n⟩
  | .told inner => by
    simp only [Template.ops]
    refine ⟨(by simp), ?_⟩
    refine keeps_append _ _ ?_ _ _ _ (keeps_append _ _ (keeps_templates inner) _ _ _ ?_)
    · simp [Keeps]
    · exact keeps_append _ _ (keeps_exchange _) _ _ _ (keeps_exchange _)
theorem keeps_templates : ∀ ts : List Template, Keeps false false false (templates ts)
  | [] => ⟨rfl, rfl⟩
  | t :: ts => keeps_append _ _ (keeps_templates ts) _ _ _ (keeps_template t)
end

theorem keeps_subTags (pages : List Nat) : Keeps false false false (subTagsOps pages) :=
  keeps_flatMap _ _ _ fun n _ => keeps_append _ _ (keeps_writes n _ _) _ _ _ (keeps_exchange _)

theorem keeps_tag (t : Option (Template × Bool)) : Keeps false false false (tagOps t) := by
  match t with
  | none => simp [tagOps, Keeps]
  | some (t, ok) =>
    simp only [tagOps]
    refine keeps_append _ _ (by simp [Keeps]) _ _ _ (keeps_append _ _ ?_ _ _ _ (keeps_template t))
    cases ok <;> simp [Keeps]

theorem keeps_entry (e : Entry) : Keeps false false false e.ops := by
  cases e with
  | passed => exact ⟨rfl, rfl⟩
  | program pages t => exact ⟨(by simp), keeps_append _ _ (keeps_tag t) _ _ _ (keeps_subTags pages)⟩
  | tag t => exact keeps_tag t

theorem keeps_listing (programs : List (List Nat)) (pages : List (List Entry)) :
    Keeps false false false (listingOps programs pages) := by
  refine keeps_append _ _ ?_ _ _ _ (keeps_append _ _ ?_ _ _ _ ?_)
  · exact keeps_flatMap _ _ _ fun es _ =>
      keeps_append _ _ (keeps_flatMap _ _ _ fun e _ => keeps_entry e) _ _ _ (keeps_exchange _)
  · exact keeps_flatMap _ _ _ fun p _ => keeps_subTags p
  · simp [exchange, Keeps]

theorem keeps_act (a : Act) : Keeps false false false a.ops := by
  cases a with
  | path f new r => exact keeps_path _ f new r
  | request n => exact keeps_failed _ n
  | size => simp [Act.ops, Keeps]
  | listing programs pages => exact keeps_listing programs pages
  | members t => exact keeps_template t

/-- A goroutine that reads and writes tags, and does not list. -/
def Act.plain : Act → Bool
  | .path _ _ _ | .request _ | .size => true
  | _ => false

theorem keeps_plain (a : Act) (h : a.plain = true) : Keeps true false false a.ops := by
  cases a with
  | path f new r => exact keeps_path _ f new r
  | request n => exact keeps_failed _ n
  | size => simp [Act.ops, Keeps]
  | listing programs pages => simp [Act.plain] at h
  | members t => simp [Act.plain] at h

/-! ### Every state that is reached -/

/-- Each goroutine keeps to the locks it holds, and is in a use that keeps to them. -/
def Inv (strict : Bool) (s : State Lock Table) : Prop :=
  ∀ i, Keeps strict (s.held .cache == some i) (s.held .conn == some i) (s.gos i).ops ∧
    (strict = true → ∀ v w, (s.gos i).now = some (v, w) →
      ((v = .ioiCache ∨ v = .firmware) → s.held .cache = some i) ∧ (w = true → v = .ioiCache ∨ v = .firmware))

theorem inv_step (strict : Bool) (s : State Lock Table) (h : Inv strict s) (i : Nat) : Inv strict (s.step i) := by
  have hi := h i
  unfold State.step
  cases hn : (s.gos i).now with
  | some x =>
    intro j
    by_cases hj : j = i
    · subst hj; simpa [State.put] using hi.1
    · simpa [State.put, hj] using h j
  | none =>
    cases ho : (s.gos i).ops with
    | nil => exact h
    | cons o r =>
      rw [ho] at hi
      match o with
      | .use v w =>
        intro j
        by_cases hj : j = i
        · subst hj
          refine ⟨by simpa [State.put] using hi.1.2, fun hs v' w' hv => ?_⟩
          simp [State.put] at hv
          obtain ⟨rfl, rfl⟩ := hv
          simpa [State.put] using hi.1.1 hs
        · simpa [State.put, hj] using h j
      | .unlock .cache =>
        have hc : s.held .cache = some i := by simpa using hi.1.1
        intro j
        by_cases hj : j = i
        · subst hj
          exact ⟨by simpa [State.put] using hi.1.2, fun hs v w hv => by simp [State.put] at hv⟩
        · have := h j
          simp only [hc, beq_iff_eq] at this
          have hij : i ≠ j := fun e => hj e.symm
          refine ⟨?_, fun hs v w hv => ?_⟩
          · have h1 := this.1
            rw [show (some i == some j) = false by simp [hij]] at h1
            simpa [State.put, hj] using h1
          · have h2 := this.2 hs v w (by simpa [State.put, hj] using hv)
            exact ⟨fun hv' => absurd (Option.some.inj (h2.1 hv')) hij, h2.2⟩
      | .unlock .conn =>
        have hc : s.held .conn = some i := by simpa using hi.1.1
        intro j
        by_cases hj : j = i
        · subst hj
          exact ⟨by simpa [State.put] using hi.1.2, fun hs v w hv => by simp [State.put] at hv⟩
        · have := h j
          have hij : i ≠ j := fun e => hj e.symm
          refine ⟨?_, fun hs v w hv => ?_⟩
          · have h1 := this.1
            rw [hc, show (some i == some j) = false by simp [hij]] at h1
            simpa [State.put, hj] using h1
          · simpa using this.2 hs v w (by simpa [State.put, hj] using hv)
      | .lock .cache =>
        show Inv strict (if s.held .cache = none then _ else s)
        by_cases hl : s.held .cache = none
        · rw [if_pos hl]
          intro j
          by_cases hj : j = i
          · subst hj
            exact ⟨by simpa [State.put] using hi.1.2.2, fun hs v w hv => by simp [State.put] at hv⟩
          · have := h j
            have hij : i ≠ j := fun e => hj e.symm
            refine ⟨?_, fun hs v w hv => ?_⟩
            · have h1 := this.1
              rw [hl] at h1
              simpa [State.put, hj, show (i == j) = false by simp [hij]] using h1
            · have h2 := this.2 hs v w (by simpa [State.put, hj] using hv)
              exact ⟨fun hv' => absurd (h2.1 hv') (by simp [hl]), h2.2⟩
        · rw [if_neg hl]; exact h
      | .lock .conn =>
        show Inv strict (if s.held .conn = none then _ else s)
        by_cases hl : s.held .conn = none
        · rw [if_pos hl]
          intro j
          by_cases hj : j = i
          · subst hj
            exact ⟨by simpa [State.put] using hi.1.2, fun hs v w hv => by simp [State.put] at hv⟩
          · have := h j
            have hij : i ≠ j := fun e => hj e.symm
            refine ⟨?_, fun hs v w hv => ?_⟩
            · have h1 := this.1
              rw [hl] at h1
              simpa [State.put, hj, show (i == j) = false by simp [hij]] using h1
            · simpa using this.2 hs v w (by simpa [State.put, hj] using hv)
        · rw [if_neg hl]; exact h

theorem inv_run (strict : Bool) : ∀ (sched : List Nat) (s : State Lock Table), Inv strict s → Inv strict (s.run sched)
  | [], _, h => h
  | i :: is, s, h => inv_run strict is _ (inv_step strict s h i)

theorem inv_start (strict : Bool) (progs : Nat → Ops) (h : ∀ i, Keeps strict false false (progs i)) :
    Inv strict (State.start Lock progs) := fun i => ⟨h i, fun _ v w hv => by simp [State.start] at hv⟩

/-- **C113.**  However many goroutines read and write through one client, whatever paths they look up, and however they are
scheduled, no table of the client is written while another goroutine uses it. -/
theorem C113_plain_safe (gos : Nat → List Act) (hp : ∀ i, ∀ a ∈ gos i, a.plain = true) (sched : List Nat) (v : Table) :
    ¬Clash ((State.start Lock fun i => program (gos i)).run sched) v := by
  have hinv := inv_run true sched _ (inv_start true (fun i => program (gos i))
    (fun i => keeps_flatMap _ _ _ fun a ha => keeps_plain a (hp i a ha)))
  rintro ⟨i, j, w, hij, h1, h2⟩
  have a := (hinv i).2 rfl v true h1
  have b := (hinv j).2 rfl v w h2
  have hv := a.2 rfl
  exact hij (Option.some.inj ((a.1 hv).symm.trans (b.1 hv)))

/-- A goroutine at its next operation moves, unless it waits for a lock. -/
theorem moves_of (s : State Lock Table) (i : Nat)
    (h : (s.gos i).now ≠ none ∨ ∃ o r, (s.gos i).ops = o :: r ∧ ∀ l, o = .lock l → s.held l = none) : Moves s i := by
  unfold Moves State.step
  cases hn : (s.gos i).now with
  | some x =>
    simp only [State.put, if_pos]
    intro e
    have := congrArg Routine.now e
    rw [hn] at this
    cases this
  | none =>
    rcases h with h | ⟨o, r, ho, hl⟩
    · exact absurd hn h
    · have key : ∀ q : Routine Lock Table, q.ops = r → q ≠ s.gos i := fun q hq e => by
        have : r = o :: r := by rw [← ho, ← e, hq]
        have := congrArg List.length this
        simp at this
      rw [ho]
      match o, hl with
      | .use v w, _ => exact key _ (by simp [State.put])
      | .unlock l, _ => exact key _ (by simp [State.put])
      | .lock l, hl => simp only [hl l rfl, if_pos]; exact key _ (by simp [State.put])

/-- **C113.**  Whatever the goroutines do with the client, listings too, they never wait for each other for ever: as long as
one has something left to do, one of them can go on. -/
theorem C113_no_deadlock (gos : Nat → List Act) (sched : List Nat) (i : Nat)
    (hb : Busy ((State.start Lock fun i => program (gos i)).run sched) i) :
    ∃ j, Moves ((State.start Lock fun i => program (gos i)).run sched) j := by
  have hinv := inv_run false sched _ (inv_start false (fun i => program (gos i))
    (fun i => keeps_flatMap _ _ _ fun a _ => keeps_act a))
  generalize (State.start Lock fun i => program (gos i)).run sched = s at hb hinv
  -- a goroutine that holds a lock has something left to do
  have next : ∀ j, (s.held .cache = some j ∨ s.held .conn = some j) → ∃ o r, (s.gos j).ops = o :: r := fun j hj => by
    have := (hinv j).1
    cases ho : (s.gos j).ops with
    | nil => rw [ho] at this; rcases hj with hj | hj <;> simp [Keeps, hj] at this
    | cons o r => exact ⟨o, r, rfl⟩
  cases hn : s.held .conn with
  | some j =>
    obtain ⟨o, r, ho⟩ := next j (.inr hn)
    refine ⟨j, moves_of s j (.inr ⟨o, r, ho, ?_⟩)⟩
    rintro l rfl
    have := (hinv j).1
    rw [ho] at this
    cases l <;> simp [Keeps, hn] at this
  | none =>
    cases hc : s.held .cache with
    | some j =>
      obtain ⟨o, r, ho⟩ := next j (.inl hc)
      refine ⟨j, moves_of s j (.inr ⟨o, r, ho, ?_⟩)⟩
      rintro l rfl
      have := (hinv j).1
      rw [ho] at this
      cases l
      · simp [Keeps, hc] at this
      · exact hn
    | none =>
      refine ⟨i, moves_of s i ?_⟩
      rcases hb with hb | hb
      · cases ho : (s.gos i).ops with
        | nil => exact absurd ho hb
        | cons o r => exact .inr ⟨o, r, rfl, fun l _ => by cases l <;> assumption⟩
      · exact .inl hb

/-! ### Listings -/

/-- The locks held after some operations. -/
def after : Bool → Bool → Ops → Bool × Bool
  | c, n, [] => (c, n)
  | _, n, .lock .cache :: r => after true n r
  | c, _, .lock .conn :: r => after c true r
  | _, n, .unlock .cache :: r => after false n r
  | c, _, .unlock .conn :: r => after c false r
  | c, n, .use _ _ :: r => after c n r

theorem after_keeps : ∀ (pre : Ops) (c n : Bool), Keeps false c n pre → after c n pre = (false, false)
  | [], c, n, h => by obtain ⟨rfl, rfl⟩ := h; rfl
  | .lock .cache :: r, c, n, h => after_keeps r _ _ h.2.2
  | .lock .conn :: r, c, n, h => after_keeps r _ _ h.2
  | .unlock .cache :: r, c, n, h => after_keeps r _ _ h.2
  | .unlock .conn :: r, c, n, h => after_keeps r _ _ h.2
  | .use v w :: r, c, n, h => after_keeps r _ _ h.2

/-- A goroutine that goes on alone, with every lock free or its own, gets through what keeps to the locks. -/
theorem alone (i : Nat) (post : Ops) : ∀ (pre : Ops) (c n : Bool) (s : State Lock Table), Keeps false c n (pre ++ post) →
    s.held .cache = (if c then some i else none) → s.held .conn = (if n then some i else none) →
    s.gos i = ⟨pre ++ post, none⟩ →
    ∃ k, ((s.run (List.replicate k i)).held .cache = (if (after c n pre).1 then some i else none) ∧
        (s.run (List.replicate k i)).held .conn = (if (after c n pre).2 then some i else none)) ∧
      (s.run (List.replicate k i)).gos i = ⟨post, none⟩ ∧
      ∀ j, j ≠ i → (s.run (List.replicate k i)).gos j = s.gos j := by
  intro pre
  induction pre with
  | nil =>
    intro c n s hk hc hn hg
    exact ⟨0, ⟨hc, hn⟩, hg, fun _ _ => rfl⟩
  | cons o pre ih =>
    intro c n s hk hc hn hg
    match o, hk with
    | .use v w, hk =>
      have e1 : s.step i = s.put i ⟨pre ++ post, some (v, w)⟩ := by simp [State.step, hg]
      obtain ⟨k, h1, h2, h3⟩ := ih c n ((s.put i ⟨pre ++ post, some (v, w)⟩).step i) hk.2
        (by simpa [State.step, State.put] using hc) (by simpa [State.step, State.put] using hn) (by simp [State.step, State.put])
      refine ⟨k + 2, ?_⟩
      simp only [List.replicate_succ, State.run, e1]
      exact ⟨h1, h2, fun j hj => by rw [h3 j hj]; simp [State.step, State.put, hj]⟩
    | .lock .cache, hk =>
      obtain ⟨rfl, rfl, hk2⟩ := hk
      simp at hc hn
      obtain ⟨k, h1, h2, h3⟩ := ih true false (s.step i) hk2 (by simp [State.step, hg, hc]) (by simpa [State.step, hg, hc] using hn)
        (by simp [State.step, hg, hc, State.put])
      refine ⟨k + 1, ?_⟩
      simp only [List.replicate_succ, State.run]
      exact ⟨h1, h2, fun j hj => by rw [h3 j hj]; simp [State.step, State.put, hj, hg, hc]⟩
    | .lock .conn, hk =>
      obtain ⟨rfl, hk2⟩ := hk
      simp at hn
      obtain ⟨k, h1, h2, h3⟩ := ih c true (s.step i) hk2 (by simpa [State.step, hg, hn] using hc) (by simp [State.step, hg, hn])
        (by simp [State.step, hg, hn, State.put])
      refine ⟨k + 1, ?_⟩
      simp only [List.replicate_succ, State.run]
      exact ⟨h1, h2, fun j hj => by rw [h3 j hj]; simp [State.step, State.put, hj, hg, hn]⟩
    | .unlock .cache, hk =>
      obtain ⟨rfl, hk2⟩ := hk
      obtain ⟨k, h1, h2, h3⟩ := ih false n (s.step i) hk2 (by simp [State.step, hg]) (by simpa [State.step, hg] using hn)
        (by simp [State.step, hg, State.put])
      refine ⟨k + 1, ?_⟩
      simp only [List.replicate_succ, State.run]
      exact ⟨h1, h2, fun j hj => by rw [h3 j hj]; simp [State.step, State.put, hj, hg]⟩
    | .unlock .conn, hk =>
      obtain ⟨rfl, hk2⟩ := hk
      obtain ⟨k, h1, h2, h3⟩ := ih c false (s.step i) hk2 (by simpa [State.step, hg] using hc) (by simp [State.step, hg])
        (by simp [State.step, hg, State.put])
      refine ⟨k + 1, ?_⟩
      simp only [List.replicate_succ, State.run]
      exact ⟨h1, h2, fun j hj => by rw [h3 j hj]; simp [State.step, State.put, hj, hg]⟩

theorem run_append (a b : List Nat) : ∀ s : State Lock Table, s.run (a ++ b) = (s.run a).run b := by
  induction a with
  | nil => intro s; rfl
  | cons i a ih => intro s; exact ih _

/-- Two goroutines that come to use a table, the one that writes without a lock, clash under some schedule. -/
theorem clash_of (progs : Nat → Ops) (i j : Nat) (hij : i ≠ j) (v : Table) (w : Bool) (pre pre' rest rest' : Ops)
    (hi : progs i = pre ++ .use v true :: rest) (hpre : Keeps false false false pre) (hki : Keeps false false false (progs i))
    (hj : progs j = pre' ++ .use v w :: rest') (hkj : Keeps false false false (progs j)) :
    ∃ sched, Clash ((State.start Lock progs).run sched) v := by
  have hji : j ≠ i := fun e => hij e.symm
  obtain ⟨k, ⟨h1, h2⟩, h3, h4⟩ := alone i (.use v true :: rest) pre false false (State.start Lock progs) (hi ▸ hki) rfl rfl
    (by simp [State.start, hi])
  rw [after_keeps _ _ _ hpre] at h1 h2
  generalize hs1 : (State.start Lock progs).run (List.replicate k i) = s1 at *
  have e1 : s1.step i = s1.put i ⟨rest, some (v, true)⟩ := by simp [State.step, h3]
  obtain ⟨k', _, h5, h6⟩ := alone j (.use v w :: rest') pre' false false (s1.step i) (hj ▸ hkj)
    (by simpa [e1, State.put] using h1) (by simpa [e1, State.put] using h2)
    (by simp [e1, State.put, hji, h4 j hji, State.start, hj])
  refine ⟨List.replicate k i ++ (i :: (List.replicate k' j ++ [j])), i, j, w, hij, ?_⟩
  rw [run_append, hs1]
  simp only [State.run, run_append]
  generalize hs2 : (s1.step i).run (List.replicate k' j) = s2 at *
  have e2 : s2.step j = s2.put j ⟨rest', some (v, w)⟩ := by simp [State.step, h5]
  simp only [State.run, e2]
  refine ⟨?_, by simp [State.put]⟩
  simp [State.put, hij, h6 i hij, e1]

/-- A table that is written somewhere while no lock is held. -/
def WritesFree (v : Table) (ops : Ops) : Prop :=
  ∃ pre rest, ops = pre ++ .use v true :: rest ∧ Keeps false false false pre

theorem writesFree_append_left {v : Table} {a : Ops} (b : Ops) (h : WritesFree v a) : WritesFree v (a ++ b) := by
  obtain ⟨p, r, rfl, hp⟩ := h
  exact ⟨p, r ++ b, by simp, hp⟩

theorem writesFree_append_right {v : Table} (a : Ops) {b : Ops} (ha : Keeps false false false a) (h : WritesFree v b) :
    WritesFree v (a ++ b) := by
  obtain ⟨p, r, rfl, hp⟩ := h
  exact ⟨a ++ p, r, by simp, keeps_append _ _ hp _ _ _ ha⟩

theorem writesFree_flatMap {α : Type} {v : Table} (f : α → Ops) (hf : ∀ a, Keeps false false false (f a)) (x : α)
    (hx : WritesFree v (f x)) : ∀ l : List α, x ∈ l → WritesFree v (l.flatMap f)
  | [], h => by simp at h
  | a :: l, h => by
    simp only [List.flatMap_cons]
    rcases List.mem_cons.1 h with rfl | h
    · exact writesFree_append_left _ hx
    · exact writesFree_append_right _ (hf a) (writesFree_flatMap f hf x hx l h)

theorem tag_writes (t : Option (Template × Bool)) : WritesFree .knownTags (tagOps t) := by
  match t with
  | none => exact ⟨[], [], rfl, rfl, rfl⟩
  | some (t, ok) =>
    refine writesFree_append_right _ (keeps_append _ _ ?_ _ _ _ (keeps_template t)) ⟨[], [], rfl, rfl, rfl⟩
    cases ok <;> simp [Keeps]

/-- A listing that is told of a tag: one in a program, or one in the list of tags. -/
def tells (programs : List (List Nat)) (pages : List (List Entry)) : Prop :=
  (∃ p ∈ programs, ∃ n ∈ p, n ≠ 0) ∨ ∃ es ∈ pages, ∃ e ∈ es, ∃ t, e = .tag t

theorem listing_writes (programs : List (List Nat)) (pages : List (List Entry)) (h : tells programs pages) :
    WritesFree .knownTags (listingOps programs pages) := by
  rcases h with ⟨p, hp, n, hn, hn0⟩ | ⟨es, hes, e, he, t, rfl⟩
  · refine writesFree_append_left _ (writesFree_append_right _ (by simp [exchange, Keeps]) ?_)
    refine writesFree_flatMap _ keeps_subTags p ?_ _ hp
    refine writesFree_flatMap _ (fun n => keeps_append _ _ (keeps_writes n _ _) _ _ _ (keeps_exchange _)) n ?_ _ hn
    obtain ⟨m, rfl⟩ := Nat.exists_eq_succ_of_ne_zero hn0
    exact writesFree_append_right _ (keeps_exchange _) ⟨[], _, rfl, rfl, rfl⟩
  · refine writesFree_append_right _ (keeps_append _ _ (keeps_flatMap _ _ _ fun p _ => keeps_subTags p) _ _ _
      (by simp [exchange, Keeps])) ?_
    refine writesFree_flatMap _ (fun es => keeps_append _ _ (keeps_flatMap _ _ _ fun e _ => keeps_entry e) _ _ _
      (keeps_exchange _)) es ?_ _ hes
    exact writesFree_append_right _ (keeps_exchange _) (writesFree_flatMap _ keeps_entry _ (tag_writes t) _ he)

/-- What a goroutine does that looks into the list of tags. -/
def Act.looks : Act → Bool
  | .path _ new _ => new
  | .size => true
  | _ => false

theorem looks_use (a : Act) (h : a.looks = true) : ∃ pre rest, a.ops = pre ++ .use .knownTags false :: rest := by
  cases a with
  | path f new r =>
    simp only [Act.looks] at h
    subst h
    simp only [Act.ops, pathOps, if_pos]
    rw [List.append_assoc, List.append_assoc]
    exact ⟨[.lock .cache, .use .ioiCache false] ++ f.ops, _, rfl⟩
  | size => exact ⟨[], [], rfl⟩
  | request n => simp [Act.looks] at h
  | listing programs pages => simp [Act.looks] at h
  | members t => simp [Act.looks] at h

theorem program_split (acts : List Act) (a : Act) (h : a ∈ acts) (o : Op Lock Table)
    (ho : ∃ pre rest, a.ops = pre ++ o :: rest) : ∃ pre rest, program acts = pre ++ o :: rest := by
  obtain ⟨l, r, rfl⟩ := List.append_of_mem h
  obtain ⟨p, q, e⟩ := ho
  exact ⟨program l ++ p, q ++ program r, by simp [program, e]⟩

theorem program_writes (acts : List Act) (a : Act) (h : a ∈ acts) (v : Table) (hv : WritesFree v a.ops) :
    WritesFree v (program acts) := writesFree_flatMap _ keeps_act a hv _ h

theorem program_keeps (acts : List Act) : Keeps false false false (program acts) := keeps_flatMap _ _ _ fun a _ => keeps_act a

/-- **C113, what fails.**  A goroutine that lists the tags clashes with any other that reads or writes a tag of a controller with
firmware above 20, or that sizes a structure: whatever else they do, and whatever the others do, under some schedule the list of tags is
written while it is looked into. -/
theorem C113_listing_clashes (gos : Nat → List Act) (i j : Nat) (hij : i ≠ j) (programs : List (List Nat))
    (pages : List (List Entry)) (ht : tells programs pages) (hi : .listing programs pages ∈ gos i)
    (a : Act) (hl : a.looks = true) (hj : a ∈ gos j) :
    ∃ sched, Clash ((State.start Lock fun i => program (gos i)).run sched) .knownTags := by
  obtain ⟨pre, rest, e, hp⟩ := program_writes _ _ hi _ (listing_writes programs pages ht)
  obtain ⟨pre', rest', e'⟩ := program_split _ _ hj _ (looks_use a hl)
  exact clash_of _ i j hij _ false pre pre' rest rest' e hp (program_keeps _) e' (program_keeps _)

/-- **C113, what fails.**  Two goroutines that list the tags clash: on the list of programs, whatever they are told. -/
theorem C113_listings_clash (gos : Nat → List Act) (i j : Nat) (hij : i ≠ j) (programs programs' : List (List Nat))
    (pages pages' : List (List Entry)) (hi : .listing programs pages ∈ gos i) (hj : .listing programs' pages' ∈ gos j) :
    ∃ sched, Clash ((State.start Lock fun i => program (gos i)).run sched) .knownPrograms := by
  have w : ∀ p q, WritesFree .knownPrograms (Act.listing p q).ops := fun p q =>
    writesFree_append_left _ (writesFree_append_left _ ⟨exchange, _, rfl, keeps_exchange _⟩)
  obtain ⟨pre, rest, e, hp⟩ := program_writes _ _ hi _ (w _ _)
  obtain ⟨pre', rest', e', _⟩ := program_writes _ _ hj _ (w _ _)
  exact clash_of _ i j hij _ true pre pre' rest rest' e hp (program_keeps _) e' (program_keeps _)

/-- **C113, what fails.**  A goroutine that is told a structure clashes with any other that asks for one. -/
theorem C113_members_clash (gos : Nat → List Act) (i j : Nat) (hij : i ≠ j) (inner : List Template) (t : Template)
    (hi : .members (.told inner) ∈ gos i) (hj : .members t ∈ gos j) :
    ∃ sched, Clash ((State.start Lock fun i => program (gos i)).run sched) .knownTypesByID := by
  have w : WritesFree .knownTypesByID (Act.members (.told inner)).ops := by
    simp only [Act.ops, Template.ops]
    refine writesFree_append_right (.use .knownTypesByID false :: (exchange ++ exchange ++ templates inner)) ?_
      ⟨[], [], rfl, rfl, rfl⟩
    exact ⟨(by simp), keeps_append _ _ (keeps_templates inner) _ _ _
      (keeps_append _ _ (keeps_exchange _) _ _ _ (keeps_exchange _))⟩
  obtain ⟨pre, rest, e, hp⟩ := program_writes _ _ hi _ w
  obtain ⟨pre', rest', e'⟩ := program_split _ _ hj (.use .knownTypesByID false)
    (by cases t <;> simp only [Act.ops, Template.ops] <;> exact ⟨[], _, rfl⟩)
  exact clash_of _ i j hij _ false pre pre' rest rest' e hp (program_keeps _) e' (program_keeps _)

/-- A listing writes what one of the tags in it writes. -/
theorem listing_of_tag {v : Table} (programs : List (List Nat)) (pages : List (List Entry)) (es : List Entry) (hes : es ∈ pages)
    (t : Option (Template × Bool)) (ht : .tag t ∈ es) (h : WritesFree v (tagOps t)) :
    WritesFree v (listingOps programs pages) := by
  refine writesFree_append_right _ (keeps_append _ _ (keeps_flatMap _ _ _ fun p _ => keeps_subTags p) _ _ _
    (by simp [exchange, Keeps])) ?_
  refine writesFree_flatMap _ (fun es => keeps_append _ _ (keeps_flatMap _ _ _ fun e _ => keeps_entry e) _ _ _
    (keeps_exchange _)) es ?_ _ hes
  exact writesFree_append_right _ (keeps_exchange _) (writesFree_flatMap _ keeps_entry (.tag t) h _ ht)

/-- A structure that the controller tells is kept without a lock. -/
theorem told_writes (inner : List Template) : WritesFree .knownTypesByID (Template.told inner).ops := by
  simp only [Template.ops]
  refine writesFree_append_right (.use .knownTypesByID false :: (exchange ++ exchange ++ templates inner)) ?_
    ⟨[], [], rfl, rfl, rfl⟩
  exact ⟨(by simp), keeps_append _ _ (keeps_templates inner) _ _ _
    (keeps_append _ _ (keeps_exchange _) _ _ _ (keeps_exchange _))⟩

/-- **C113, what fails.**  Two goroutines that list the tags clash on the table of types, as soon as each is told a tag of a structure
that can be read. -/
theorem C113_types_clash (gos : Nat → List Act) (i j : Nat) (hij : i ≠ j) (programs programs' : List (List Nat))
    (pages pages' : List (List Entry)) (hi : .listing programs pages ∈ gos i) (hj : .listing programs' pages' ∈ gos j)
    (es es' : List Entry) (hes : es ∈ pages) (hes' : es' ∈ pages') (t t' : Template)
    (ht : .tag (some (t, true)) ∈ es) (ht' : .tag (some (t', true)) ∈ es') :
    ∃ sched, Clash ((State.start Lock fun i => program (gos i)).run sched) .knownTypes := by
  have w : ∀ t, WritesFree .knownTypes (tagOps (some (t, true))) := fun t =>
    writesFree_append_left _ (writesFree_append_right _ (keeps_template t) ⟨[], [], rfl, rfl, rfl⟩)
  obtain ⟨pre, rest, e, hp⟩ := program_writes _ _ hi _ (listing_of_tag programs pages es hes _ ht (w t))
  obtain ⟨pre', rest', e', _⟩ := program_writes _ _ hj _ (listing_of_tag programs' pages' es' hes' _ ht' (w t'))
  exact clash_of _ i j hij _ true pre pre' rest rest' e hp (program_keeps _) e' (program_keeps _)

/-- **C113, what fails.**  A goroutine that lists the tags, and is told a structure, clashes with any other that asks for one. -/
theorem C113_listing_members_clash (gos : Nat → List Act) (i j : Nat) (hij : i ≠ j) (programs : List (List Nat))
    (pages : List (List Entry)) (hi : .listing programs pages ∈ gos i) (es : List Entry) (hes : es ∈ pages)
    (inner : List Template) (ok : Bool) (ht : .tag (some (.told inner, ok)) ∈ es) (t : Template) (hj : .members t ∈ gos j) :
    ∃ sched, Clash ((State.start Lock fun i => program (gos i)).run sched) .knownTypesByID := by
  have w : WritesFree .knownTypesByID (tagOps (some (.told inner, ok))) :=
    writesFree_append_left _ (writesFree_append_left _ (told_writes inner))
  obtain ⟨pre, rest, e, hp⟩ := program_writes _ _ hi _ (listing_of_tag programs pages es hes _ ht w)
  obtain ⟨pre', rest', e'⟩ := program_split _ _ hj (.use .knownTypesByID false)
    (by cases t <;> simp only [Act.ops, Template.ops] <;> exact ⟨[], _, rfl⟩)
  exact clash_of _ i j hij _ false pre pre' rest rest' e hp (program_keeps _) e' (program_keeps _)

/-! ### Examples -/

/-- Two goroutines that make a path at once: the second waits, and writes the cache afterwards. -/
example :
    let gos : Nat → List Act := fun i => if i < 2 then [.path .asked true .made, .request 0] else []
    let s := (State.start Lock fun i => program (gos i)).run [0, 1, 0, 1, 0, 0, 0, 0, 0, 0, 0, 0, 0, 0, 0, 0]
    (s.gos 0).now = some (.ioiCache, true) ∧ s.held .cache = some 0 ∧ (s.gos 1).ops = program (gos 1) := by
  decide

/-- A listing with one tag, and a goroutine that looks up a path meanwhile. -/
example :
    let gos : Nat → List Act := fun i => if i = 0 then [.listing [] [[.tag none]]] else [.path .known true .listed]
    let s := (State.start Lock fun i => program (gos i)).run ([0, 0, 0, 0, 0, 0, 0, 0, 0] ++ [1, 1, 1, 1, 1, 1])
    (s.gos 0).now = some (.knownTags, true) ∧ (s.gos 1).now = some (.knownTags, false) := by
  decide

/-- Two listings with one tag of a structure each, stopped where they keep its type. -/
example :
    let gos : Nat → List Act := fun i => if i < 2 then [.listing [] [[.tag (some (.told [], true))]]] else []
    let s := (State.start Lock fun i => program (gos i)).run (List.replicate 17 0 ++ List.replicate 17 1)
    (s.gos 0).now = some (.knownTypes, true) ∧ (s.gos 1).now = some (.knownTypes, true) := by
  decide

/-- A goroutine whose request for the firmware fails, so that it disconnects while it holds the lock of the cache, and one that waits
for the cache meanwhile: both go on. -/
example :
    let gos : Nat → List Act := fun i => if i = 0 then [.path (.failed 3) false .made] else [.path .known false .cached]
    let s := (State.start Lock fun i => program (gos i)).run ([0, 1] ++ List.replicate 19 0 ++ List.replicate 9 1)
    (s.gos 0).ops = [] ∧ (s.gos 1).ops = [] ∧ s.held .cache = none := by
  decide

end Gologix.ClientTables
