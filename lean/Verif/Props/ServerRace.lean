import Verif.Props.StoreAlias
import Verif.Spec.ServerRace
/-
C107: what a server sends for an array while others write to it.
-/
set_option linter.unusedSimpArgs false
namespace Gologix.Server
open Gologix.Server.Spec

theorem held_eq (s : AStore) : held s = s.contents := rfl

/-- What a write from the wire does to the backing arrays: it changes one element of one array in place, and then it was a
write to an element of the tag that holds it; or it leaves all arrays alone, and the tags get new ones at most. -/
theorem wireWrite_effect (C : Conv) (s : AStore) (t : Str) (v : TVal) :
    s.next ≤ (s.wireWrite C t v).2.next ∧
    ((∃ b n e a off len i x, parseElementTag (toLower t) = some (b, n) ∧ s.data b = some (.ref e a off len) ∧
        (s.wireWrite C t v).2.data = s.data ∧
        (s.wireWrite C t v).2.heap a = (if a < s.next then (s.heap a).set i x else (s.wireWrite C t v).2.heap a) ∧
        ∀ y, y < s.next → y ≠ a → (s.wireWrite C t v).2.heap y = s.heap y) ∨
      ((∀ y, y < s.next → (s.wireWrite C t v).2.heap y = s.heap y) ∧
        ∀ k e a off len, (s.wireWrite C t v).2.data k = some (.ref e a off len) →
          s.data k = some (.ref e a off len) ∨ s.next ≤ a)) := by
  have main : ∀ (s' : AStore) (r : RVal), s'.data = s.data → s.next ≤ s'.next →
      (∀ y, y < s.next → s'.heap y = s.heap y) → (∀ e a off len, r = .ref e a off len → s.next ≤ a) →
      s.next ≤ (s'.tagWrite C t r).2.next ∧
      ((∃ b n e a off len i x, parseElementTag (toLower t) = some (b, n) ∧ s.data b = some (.ref e a off len) ∧
          (s'.tagWrite C t r).2.data = s.data ∧
          (s'.tagWrite C t r).2.heap a = (if a < s.next then (s.heap a).set i x else (s'.tagWrite C t r).2.heap a) ∧
          ∀ y, y < s.next → y ≠ a → (s'.tagWrite C t r).2.heap y = s.heap y) ∨
        ((∀ y, y < s.next → (s'.tagWrite C t r).2.heap y = s.heap y) ∧
          ∀ k e a off len, (s'.tagWrite C t r).2.data k = some (.ref e a off len) →
            s.data k = some (.ref e a off len) ∨ s.next ≤ a)) := by
    intro s' r hd hn hh hr
    have stay : s.next ≤ s'.next ∧
        ((∃ b n e a off len i x, parseElementTag (toLower t) = some (b, n) ∧ s.data b = some (.ref e a off len) ∧
            s'.data = s.data ∧ s'.heap a = (if a < s.next then (s.heap a).set i x else s'.heap a) ∧
            ∀ y, y < s.next → y ≠ a → s'.heap y = s.heap y) ∨
          ((∀ y, y < s.next → s'.heap y = s.heap y) ∧
            ∀ k e a off len, s'.data k = some (.ref e a off len) → s.data k = some (.ref e a off len) ∨ s.next ≤ a)) :=
      ⟨hn, .inr ⟨hh, fun k e a off len h => .inl (by rw [← hd]; exact h)⟩⟩
    unfold AStore.tagWrite
    cases hp : parseElementTag (toLower t) with
    | some q =>
      obtain ⟨b, n⟩ := q
      simp only
      cases hb : s'.data b with
      | none => rw [hp] at stay; exact stay
      | some c =>
        cases c with
        | scal _ => rw [hp] at stay; exact stay
        | ref e a off len =>
          simp only
          by_cases h1 : n < 0 ∨ n ≥ len
          · rw [if_pos h1, ← hp]; exact stay
          · rw [if_neg h1]
            cases convertToElement C (s'.deref r) e with
            | err _ => rw [← hp]; exact stay
            | panic => rw [← hp]; exact stay
            | ok x =>
              refine ⟨hn, .inl ⟨b, n, e, a, off, len, off + n.toNat, x, rfl, by rw [← hd]; exact hb, hd, ?_, ?_⟩⟩
              · by_cases ha : a < s.next
                · rw [if_pos ha]
                  simp [AStore.poke, hh a ha]
                · rw [if_neg ha]
              · intro y hy hya
                simp [AStore.poke, hya, hh y hy]
    | none =>
      simp only
      have putr : s.next ≤ (s'.put (toLower t) r).next ∧
          ((∀ y, y < s.next → (s'.put (toLower t) r).heap y = s.heap y) ∧
            ∀ k e a off len, (s'.put (toLower t) r).data k = some (.ref e a off len) →
              s.data k = some (.ref e a off len) ∨ s.next ≤ a) := by
        refine ⟨hn, hh, ?_⟩
        intro k e a off len h
        simp only [AStore.put] at h
        by_cases hk : k = toLower t
        · rw [if_pos hk] at h
          exact .inr (hr e a off len (Option.some.inj h))
        · rw [if_neg hk, hd] at h
          exact .inl h
      have fresh : ∀ e vs, s.next ≤ ((s'.alloc e vs).2.put (toLower t) (s'.alloc e vs).1).next ∧
          ((∀ y, y < s.next → ((s'.alloc e vs).2.put (toLower t) (s'.alloc e vs).1).heap y = s.heap y) ∧
            ∀ k e' a off len, ((s'.alloc e vs).2.put (toLower t) (s'.alloc e vs).1).data k = some (.ref e' a off len) →
              s.data k = some (.ref e' a off len) ∨ s.next ≤ a) := by
        intro e vs
        refine ⟨?_, ?_, ?_⟩
        · simp only [AStore.put, AStore.alloc]; omega
        · intro y hy
          simp only [AStore.put, AStore.alloc]
          rw [if_neg (by omega), hh y hy]
        · intro k e' a off len h
          simp only [AStore.put, AStore.alloc] at h
          by_cases hk : k = toLower t
          · rw [if_pos hk] at h
            cases h
            exact .inr hn
          · rw [if_neg hk, hd] at h
            exact .inl h
      rw [hp] at stay
      split
      · rename_i e _ _ _ a off len _
        cases convertAll C e (((s'.heap a).drop off).take len) with
        | ok ws => exact ⟨(fresh e ws).1, .inr (fresh e ws).2⟩
        | err _ => exact stay
        | panic => exact stay
      · exact ⟨putr.1, .inr putr.2⟩
  unfold AStore.wireWrite
  cases v with
  | scal x => exact main s (.scal x) rfl (Nat.le_refl _) (fun _ _ => rfl) (fun _ _ _ _ h => by cases h)
  | slice e vs =>
    refine main (s.alloc e vs).2 (s.alloc e vs).1 rfl (by simp [AStore.alloc]) ?_ ?_
    · intro y hy
      simp only [AStore.alloc]
      rw [if_neg (by omega)]
    · intro e' a off len h
      cases h
      exact Nat.le_refl _

/-! ### A read of an array -/

/-- Where a lookup has found an array: the tag that holds it, and what other contents of this tag would have given. -/
theorem look_array {s : AStore} {tag : Str} {qty : Int} {e : Option GoTy} {a off len : Nat}
    (h : s.tagRead tag qty = .ok (.inr (.ref e a off len))) :
    ∃ b o l idx, s.data b = some (.ref e a o l) ∧ off = o + idx ∧ idx + len ≤ l ∧
      (∀ (c : Store) us, c b = some (.slice e us) → us.length = l → tagRead c tag qty = .ok (.slice e ((us.drop idx).take len))) ∧
      (∀ base, ofArray tag base → b = toLower base) := by
  unfold AStore.tagRead at h
  cases hp : parseElementTag (toLower tag) with
  | some q =>
    obtain ⟨b, n⟩ := q
    rw [hp] at h
    simp only at h
    cases hb : s.data b with
    | none => simp [hb] at h
    | some c =>
      cases c with
      | scal _ => simp [hb] at h
      | ref e' a' o l =>
        simp only [hb] at h
        split at h
        · simp at h
        · rename_i h1
          split at h
          · simp at h
          · rename_i h2
            split at h
            · simp at h
            · rename_i h3
              split at h
              · simp at h
              · rename_i h4
                injection h with h; injection h with h; injection h with q1 q2 q3 q4
                subst q1 q2 q3 q4
                refine ⟨b, o, l, n.toNat, hb, rfl, by omega, ?_, ?_⟩
                · intro c us hc hl
                  unfold tagRead
                  rw [hp]
                  simp only [hc, hl]
                  rw [if_neg h1, if_neg h2, if_neg h3, if_neg h4]
                · rintro base (⟨hw, hs⟩ | ⟨text, m, hs, hm⟩)
                  · rw [parse_whole hw] at hp
                    cases hp
                  · rw [show toLower tag = toLower (elemText base text) from hs, parse_elem hm] at hp
                    cases hp
                    rfl
  | none =>
    rw [hp] at h
    simp only at h
    cases hb : s.data (toLower tag) with
    | none => simp [hb] at h
    | some c =>
      cases c with
      | scal _ => simp [hb] at h
      | ref e' a' o l =>
        simp only [hb] at h
        split at h
        · rename_i h1
          split at h
          · simp at h
          · rename_i h2
            injection h with h; injection h with h; injection h with q1 q2 q3 q4
            subst q1 q2 q3 q4
            refine ⟨toLower tag, o, l, 0, hb, rfl, by omega, ?_, ?_⟩
            · intro c us hc hl
              unfold tagRead
              rw [hp]
              simp only [hc, hl]
              rw [if_pos h1, if_neg h2, List.drop_zero]
            · rintro base (⟨hw, hs⟩ | ⟨text, m, hs, hm⟩)
              · exact hs
              · rw [show toLower tag = toLower (elemText base text) from hs, parse_elem hm] at hp
                cases hp
        · simp at h

/-- While the reply is made: the array is still that of the tag, or no tag has it any more and it is as the tag had it at
one of the times `H`. -/
structure Watched (b : Str) (e : Option GoTy) (a o l : Nat) (H : Store → Prop) (s : AStore) : Prop where
  unshared : s.Unshared
  used     : a < s.next
  long     : o + l ≤ (s.heap a).length
  seen     : ∃ c, H c ∧ c b = some (.slice e (((s.heap a).drop o).take l))
  owner    : s.data b = some (.ref e a o l) ∨ ∀ k e' o' l', s.data k ≠ some (.ref e' a o' l')

theorem watched_write {b : Str} {e : Option GoTy} {a o l : Nat} {H H' : Store → Prop} {s : AStore} (C : Conv) (t : Str)
    (v : TVal) (h : Watched b e a o l H s) (hH : ∀ c, H c → H' c) (hnow : H' (held (s.wireWrite C t v).2)) :
    Watched b e a o l H' (s.wireWrite C t v).2 := by
  obtain ⟨hu, hlt, hlong, ⟨c, hc, hcb⟩, hown⟩ := h
  obtain ⟨hu', -, -⟩ := wireWrite_contents C s hu t v
  obtain ⟨hnext, heff⟩ := wireWrite_effect C s t v
  have hlt' : a < (s.wireWrite C t v).2.next := Nat.lt_of_lt_of_le hlt hnext
  have now : ∀ {s' : AStore}, s'.data b = some (.ref e a o l) → held s' b = some (.slice e (((s'.heap a).drop o).take l)) := by
    intro s' h'
    simp [held, h', AStore.deref]
  rcases heff with ⟨b', n, e', a', off, len, i, x, -, g1, g2, g3, g4⟩ | ⟨g1, g2⟩
  · by_cases haa : a = a'
    · subst haa
      have hbb : s.data b = some (.ref e a o l) := hown.resolve_right (fun hno => hno _ _ _ _ g1)
      refine ⟨hu', hlt', ?_, ⟨_, hnow, now (by rw [g2]; exact hbb)⟩, .inl (by rw [g2]; exact hbb)⟩
      rw [g3, if_pos hlt, List.length_set]
      exact hlong
    · have hh := g4 a hlt haa
      refine ⟨hu', hlt', by rw [hh]; exact hlong, ⟨c, hH c hc, by rw [hh]; exact hcb⟩, by rw [g2]; exact hown⟩
  · have hh := g1 a hlt
    refine ⟨hu', hlt', by rw [hh]; exact hlong, ⟨c, hH c hc, by rw [hh]; exact hcb⟩, ?_⟩
    by_cases hb : (s.wireWrite C t v).2.data b = some (.ref e a o l)
    · exact .inl hb
    · right
      intro k e' o' l' hk
      rcases g2 k e' a o' l' hk with h1 | h1
      · rcases hown with h2 | h2
        · have := hu.apart _ _ _ _ _ _ _ _ _ h1 h2
          subst this
          rw [h2] at h1
          cases h1
          exact hb hk
        · exact h2 _ _ _ _ h1
      · omega

/-- What has been read of the array so far. -/
def Sofar (b : Str) (e : Option GoTy) (l idx : Nat) (H : Store → Prop) (got : List TVal) : Prop :=
  ∀ (j : Nat) x, got[j]? = some x → ∃ c us, H c ∧ c b = some (.slice e us) ∧ us.length = l ∧ us[idx + j]? = some x

theorem during_cons {C : Conv} {w : Race} {ev : Ev} {evs : List Ev} {c : Store} :
    During C w (ev :: evs) c ↔ c = held w.store ∨ During C (w.step C ev) evs c := by
  constructor
  · rintro ⟨k, hk, h⟩
    cases k with
    | zero => exact .inl h
    | succ k => exact .inr ⟨k, by simpa using hk, h⟩
  · rintro (h | ⟨k, hk, h⟩)
    · exact ⟨0, by simp, h⟩
    · exact ⟨k + 1, by simpa using hk, h⟩

theorem during_now {C : Conv} {w : Race} {evs : List Ev} : During C w evs (held w.store) := ⟨0, by simp, rfl⟩

theorem look_other {w : Race} {i j : Nat} (tag : Str) (qty : Int) (h : i ≠ j) :
    (w.look j tag qty).jobs i = w.jobs i ∧ (w.look j tag qty).store = w.store := by
  unfold Race.look
  repeat' split
  all_goals simp [Race.put, h]

theorem copy_other {w : Race} {i j : Nat} (h : i ≠ j) : (w.copy j).jobs i = w.jobs i ∧ (w.copy j).store = w.store := by
  unfold Race.copy
  split <;> simp [Race.put, h]

theorem copy_store (w : Race) (i : Nat) : (w.copy i).store = w.store := by
  unfold Race.copy
  split <;> rfl

/-- A request that is answered stays so. -/
theorem done_stays (C : Conv) (i : Nat) (j : Job) (hj : ∀ e a off len got, j ≠ .copying e a off len got) :
    ∀ (evs : List Ev) (w : Race), w.jobs i = j → (∀ t q, Ev.look i t q ∉ evs) → (w.run C evs).jobs i = j
  | [], _, h, _ => h
  | ev :: evs, w, h, hno => by
    refine done_stays C i j hj evs (w.step C ev) ?_ (fun t q hm => hno t q (by simp [hm]))
    cases ev with
    | write t v => exact h
    | look i' t q =>
      have : i ≠ i' := by rintro rfl; exact hno t q (by simp)
      rw [← h]; exact (look_other t q this).1
    | copy i' =>
      by_cases hii : i = i'
      · subst hii
        simp only [Race.step, Race.copy, h]
      · rw [← h]; exact (copy_other hii).1

theorem copies (C : Conv) (i : Nat) {b : Str} {e : Option GoTy} {a o l idx len : Nat} (hidx : idx + len ≤ l) :
    ∀ (evs : List Ev) (w : Race) (got : List TVal) (H : Store → Prop) (v : TVal),
      w.jobs i = Job.next e a (o + idx) len got → got.length ≤ len → Watched b e a o l H w.store →
      Sofar b e l idx H got → H (held w.store) → (∀ t q, Ev.look i t q ∉ evs) → (w.run C evs).jobs i = .done v →
      ∃ vs, v = .slice e vs ∧ vs.length = len ∧ Sofar b e l idx (fun c => H c ∨ During C w evs c) vs := by
  intro evs
  induction evs with
  | nil =>
    intro w got H v hj hgl hw hs hn hno hv
    unfold Job.next at hj
    split at hj
    · rename_i hlt
      rw [show w.run C [] = w from rfl, hj] at hv
      cases hv
    · rw [show w.run C [] = w from rfl, hj] at hv
      cases hv
      refine ⟨got, rfl, by omega, ?_⟩
      intro j x hx
      obtain ⟨c, us, h1, h2⟩ := hs j x hx
      exact ⟨c, us, .inl h1, h2⟩
  | cons ev evs ih =>
    intro w got H v hj hgl hw hs hn hno hv
    have hno' : ∀ t q, Ev.look i t q ∉ evs := fun t q hm => hno t q (by simp [hm])
    have fin : ∀ H' : Store → Prop, (∀ c, H' c → H c ∨ c = held (w.step C ev).store) →
        (∃ vs, v = .slice e vs ∧ vs.length = len ∧ Sofar b e l idx (fun c => H' c ∨ During C (w.step C ev) evs c) vs) →
        ∃ vs, v = .slice e vs ∧ vs.length = len ∧ Sofar b e l idx (fun c => H c ∨ During C w (ev :: evs) c) vs := by
      rintro H' hH' ⟨vs, h1, h2, h3⟩
      refine ⟨vs, h1, h2, ?_⟩
      intro j x hx
      obtain ⟨c, us, g1, g2⟩ := h3 j x hx
      refine ⟨c, us, ?_, g2⟩
      rcases g1 with g1 | g1
      · rcases hH' c g1 with g1 | rfl
        · exact .inl g1
        · exact .inr (during_cons.2 (.inr during_now))
      · exact .inr (during_cons.2 (.inr g1))
    cases ev with
    | write t y =>
      refine fin (fun c => H c ∨ c = held (w.step C (.write t y)).store) (fun c h => h) ?_
      exact ih _ got _ v hj hgl (watched_write C t y hw (fun c h => .inl h) (.inr rfl))
        (fun j x hx => by
          obtain ⟨c, us, h1, h2⟩ := hs j x hx
          exact ⟨c, us, .inl h1, h2⟩) (.inr rfl) hno' hv
    | look i' t q =>
      have hii : i ≠ i' := by rintro rfl; exact hno t q (by simp)
      obtain ⟨q1, q2⟩ := look_other (w := w) t q hii
      refine fin H (fun c h => .inl h) ?_
      exact ih (w.look i' t q) got H v (by rw [q1]; exact hj) hgl (by rw [q2]; exact hw) hs (by rw [q2]; exact hn) hno' hv
    | copy i' =>
      refine fin H (fun c h => .inl h) ?_
      by_cases hii : i = i'
      · subst hii
        unfold Job.next at hj
        split at hj
        · rename_i hlt
          have hstep : (w.step C (.copy i)).jobs i = Job.next e a (o + idx) len
              (got ++ [(w.store.heap a).getD (o + idx + got.length) (.scal .nil)]) := by
            simp [Race.step, Race.copy, hj, Race.put]
          refine ih _ _ H v hstep (by simp; omega) (by rw [Race.step, copy_store]; exact hw) ?_
            (by rw [Race.step, copy_store]; exact hn) hno' hv
          intro j x hx
          rcases Nat.lt_or_ge j got.length with hjl | hjl
          · rw [List.getElem?_append_left hjl] at hx
            exact hs j x hx
          · rw [List.getElem?_append_right hjl] at hx
            have hj0 : j = got.length := by
              rcases Nat.eq_zero_or_pos (j - got.length) with h | h
              · omega
              · rw [List.getElem?_eq_none (by simp; omega)] at hx
                cases hx
            subst hj0
            simp at hx
            obtain ⟨c, hc, hcb⟩ := hw.seen
            have hlong := hw.long
            refine ⟨c, _, hc, hcb, by simp; omega, ?_⟩
            rw [List.getElem?_take_of_lt (by omega), List.getElem?_drop]
            have : o + (idx + got.length) < (w.store.heap a).length := by omega
            rw [← hx, show o + (idx + got.length) = o + idx + got.length by omega,
              List.getElem?_eq_getElem (by omega)]
            simp
        · refine ih _ got H v ?_ hgl (by rw [Race.step, copy_store]; exact hw) hs (by rw [Race.step, copy_store]; exact hn) hno' hv
          rename_i hge
          simp [Race.step, Race.copy, hj, Job.next, hge]
      · obtain ⟨q1, q2⟩ := copy_other (w := w) hii
        exact ih (w.copy i') got H v (by rw [q1]; exact hj) hgl (by rw [q2]; exact hw) hs (by rw [q2]; exact hn) hno' hv

/-- The two ways a request is answered: at once, with what the tags hold, or after reading an array. -/
theorem look_cases {C : Conv} {w : Race} {i : Nat} {tag : Str} {qty : Int} {mid : List Ev} {v : TVal} (hu : w.store.Unshared)
    (h : Answers C w i tag qty mid v) :
    tagRead (held w.store) tag qty = .ok v ∨
    ∃ e a off len, w.store.tagRead tag qty = .ok (.inr (.ref e a off len)) ∧
      (w.look i tag qty).jobs i = Job.next e a off len [] ∧ (w.look i tag qty).store = w.store ∧
      ((w.look i tag qty).run C mid).jobs i = .done v := by
  obtain ⟨hj, hno, hv⟩ := h
  rw [show w.run C (.look i tag qty :: mid) = (w.look i tag qty).run C mid from rfl] at hv
  have hlook : w.look i tag qty = match w.store.tagRead tag qty with
      | .ok (.inl v) => w.put i (.done v)
      | .ok (.inr (.scal v)) => w.put i (.done (.scal v))
      | .ok (.inr (.ref e a off len)) => w.put i (Job.next e a off len [])
      | _ => w.put i .failed := by
    unfold Race.look
    split
    · rename_i e a off len got hjj
      exact absurd hjj (hj _ _ _ _ _)
    · rfl
  have hc := aread_contents w.store hu tag qty
  rw [held_eq]
  rw [hlook] at hv ⊢
  cases hr : w.store.tagRead tag qty with
  | ok r =>
    rw [hr] at hc hv
    cases r with
    | inl u =>
      simp only at hv
      rw [done_stays C i (.done u) (by simp) mid (w.put i (.done u)) (by simp [Race.put]) hno] at hv
      cases hv
      exact .inl hc.symm
    | inr r =>
      cases r with
      | scal u =>
        simp only at hv
        rw [done_stays C i (.done (.scal u)) (by simp) mid (w.put i (.done (.scal u))) (by simp [Race.put]) hno] at hv
        cases hv
        exact .inl hc.symm
      | ref e a off len => exact .inr ⟨e, a, off, len, rfl, by simp [Race.put], rfl, hv⟩
  | err x =>
    rw [hr] at hv
    simp only at hv
    rw [done_stays C i .failed (by simp) mid (w.put i .failed) (by simp [Race.put]) hno] at hv
    cases hv
  | panic =>
    rw [hr] at hv
    simp only at hv
    rw [done_stays C i .failed (by simp) mid (w.put i .failed) (by simp [Race.put]) hno] at hv
    cases hv

theorem watched_start {s : AStore} (hu : s.Unshared) {b : Str} {e : Option GoTy} {a o l : Nat}
    (hb : s.data b = some (.ref e a o l)) : Watched b e a o l (fun c => c = held s) s := by
  obtain ⟨h1, h2⟩ := hu.bound _ _ _ _ _ hb
  exact ⟨hu, h1, h2, ⟨_, rfl, by simp [held, hb, AStore.deref]⟩, .inl hb⟩

/-- C107: every element of an array that is sent is one the tag had at this place at some time while the request was
handled; the type and the number of elements are those of that time.  Missing: that all elements are of the same time
(`C107_torn`). -/
theorem C107_elements_partial (C : Conv) (w : Race) (i : Nat) (tag : Str) (qty : Int) (mid : List Ev) (e : Option GoTy)
    (vs : List TVal) (hu : w.store.Unshared) (h : Answers C w i tag qty mid (.slice e vs)) (j : Nat) (x : TVal)
    (hx : vs[j]? = some x) :
    ∃ c us, During C w (.look i tag qty :: mid) c ∧ tagRead c tag qty = .ok (.slice e us) ∧ us.length = vs.length ∧
      us[j]? = some x := by
  rcases look_cases hu h with h1 | ⟨e', a, off, len, h1, h2, h3, h4⟩
  · exact ⟨_, vs, during_now, h1, rfl, hx⟩
  · obtain ⟨b, o, l, idx, g1, rfl, g3, g4, -⟩ := look_array h1
    obtain ⟨vs', k1, k2, k3⟩ := copies C i g3 mid (w.look i tag qty) [] (fun c => c = held w.store) _ h2 (by simp)
      (by rw [h3]; exact watched_start hu g1) (fun j x hx => by simp at hx) (by rw [h3]) h.2.1 h4
    injection k1 with k0 k1
    subst k0 k1
    obtain ⟨c, us, m1, m2, m3, m4⟩ := k3 j x hx
    have hj : j < vs.length := (List.getElem?_eq_some_iff.1 hx).1
    refine ⟨c, _, ?_, g4 c us m2 m3, by simp; omega, ?_⟩
    · rcases m1 with rfl | m1
      · exact during_now
      · exact during_cons.2 (.inr m1)
    · rw [List.getElem?_take_of_lt (by omega), List.getElem?_drop]
      exact m4

/-- The array stays as it is while no element of it is written, whatever the tag is given. -/
theorem frozen (C : Conv) {b base : Str} (hb : b = toLower base) {e : Option GoTy} {a o l : Nat} {s : AStore} {t : Str}
    {v : TVal} {H : Store → Prop} (h : Watched b e a o l H s) (hu : ∀ text, 0x5B#8 ∉ text → ¬ sameName t (elemText base text)) :
    (s.wireWrite C t v).2.heap a = s.heap a := by
  obtain ⟨-, heff⟩ := wireWrite_effect C s t v
  rcases heff with ⟨b', n, e', a', off, len, i, x, g0, g1, g2, g3, g4⟩ | ⟨g1, g2⟩
  · by_cases haa : a = a'
    · subst haa
      have hbb : s.data b = some (.ref e a o l) := h.owner.resolve_right (fun hno => hno _ _ _ _ g1)
      have := h.unshared.apart _ _ _ _ _ _ _ _ _ g1 hbb
      subst this
      obtain ⟨text, q1, q2, q3⟩ := parse_some g0
      exfalso
      refine hu text q1 ?_
      unfold sameName
      rw [q2, hb, toLower_elemText, (atoi_text q3).1]
    · exact g4 a h.used haa
  · exact g1 a h.used

theorem copies_frozen (C : Conv) (i : Nat) {b base : Str} (hb : b = toLower base) {e : Option GoTy} {a o l idx len : Nat}
    (hidx : idx + len ≤ l) (hp : List TVal) :
    ∀ (evs : List Ev) (w : Race) (k : Nat) (v : TVal), w.store.heap a = hp →
      w.jobs i = Job.next e a (o + idx) len (((hp.drop (o + idx)).take len).take k) → k ≤ len →
      Watched b e a o l (fun _ => True) w.store → untouched base evs → (∀ t q, Ev.look i t q ∉ evs) →
      (w.run C evs).jobs i = .done v → v = .slice e ((hp.drop (o + idx)).take len) := by
  intro evs
  induction evs with
  | nil =>
    intro w k v hh hj hk hw hut hno hv
    have hlong := hw.long
    rw [hh] at hlong
    unfold Job.next at hj
    split at hj
    · rw [show w.run C [] = w from rfl, hj] at hv
      cases hv
    · rename_i hge
      rw [show w.run C [] = w from rfl, hj] at hv
      cases hv
      simp at hge
      rw [List.take_of_length_le (by simp; omega)]
  | cons ev evs ih =>
    intro w k v hh hj hk hw hut hno hv
    have hlong := hw.long
    rw [hh] at hlong
    have hno' : ∀ t q, Ev.look i t q ∉ evs := fun t q hm => hno t q (by simp [hm])
    have hut' : untouched base evs := fun t v text hm => hut t v text (by simp [hm])
    cases ev with
    | write t y =>
      refine ih (w.step C (.write t y)) k v ?_ hj hk (watched_write C t y hw (fun _ _ => trivial) trivial) hut' hno' hv
      rw [← hh]
      exact frozen C hb hw (fun text ht => hut t y text (by simp) ht)
    | look i' t q =>
      have hii : i ≠ i' := by rintro rfl; exact hno t q (by simp)
      obtain ⟨q1, q2⟩ := look_other (w := w) t q hii
      exact ih (w.look i' t q) k v (by rw [q2]; exact hh) (by rw [q1]; exact hj) hk (by rw [q2]; exact hw) hut' hno' hv
    | copy i' =>
      by_cases hii : i = i'
      · subst hii
        have hs := copy_store w i
        unfold Job.next at hj
        split at hj
        · rename_i hlt
          have hkl : (((hp.drop (o + idx)).take len).take k).length = k := by simp; omega
          rw [hkl] at hlt
          refine ih _ (k + 1) v (by rw [Race.step, hs]; exact hh) ?_ (by omega) (by rw [Race.step, hs]; exact hw) hut' hno' hv
          have : ((hp.drop (o + idx)).take len).take (k + 1) =
              ((hp.drop (o + idx)).take len).take k ++ [hp.getD (o + idx + k) (.scal .nil)] := by
            rw [List.take_succ_eq_append_getElem (by simp; omega)]
            congr 2
            rw [List.getElem_take, List.getElem_drop, List.getD_eq_getElem?_getD, List.getElem?_eq_getElem (by omega)]
            rfl
          rw [this]
          simp only [Race.step, Race.copy, hj, Race.put, if_true, hkl, hh]
        · rename_i hge
          refine ih _ k v (by rw [Race.step, hs]; exact hh) ?_ hk (by rw [Race.step, hs]; exact hw) hut' hno' hv
          simp only [Race.step, Race.copy, hj, Job.next]
          rw [if_neg hge]
      · obtain ⟨q1, q2⟩ := copy_other (w := w) hii
        exact ih (w.copy i') k v (by rw [q2]; exact hh) (by rw [q1]; exact hj) hk (by rw [q2]; exact hw) hut' hno' hv

/-- C107: if no element of the array is written by itself while the request is handled, the answer is what the tag held when
the request was looked up: other tags may be written, and the array may be replaced as a whole. -/
theorem C107_whole_partial (C : Conv) (w : Race) (i : Nat) (tag base : Str) (qty : Int) (mid : List Ev) (v : TVal)
    (hu : w.store.Unshared) (h : Answers C w i tag qty mid v) (ht : ofArray tag base) (hw : untouched base mid) :
    tagRead (held w.store) tag qty = .ok v := by
  rcases look_cases hu h with h1 | ⟨e', a, off, len, h1, h2, h3, h4⟩
  · exact h1
  · obtain ⟨b, o, l, idx, g1, rfl, g3, g4, g5⟩ := look_array h1
    have hst := watched_start hu g1
    have := copies_frozen C i (g5 base ht) (e := e') (o := o) g3 (w.store.heap a) mid (w.look i tag qty) 0 v (by rw [h3])
      (by rw [h2]; simp) (by omega)
      (by rw [h3]; exact ⟨hst.unshared, hst.used, hst.long, ⟨_, trivial, hst.seen.choose_spec.2⟩, hst.owner⟩) hw h.2.1 h4
    have hlong := hst.long
    rw [this, g4 _ (((w.store.heap a).drop o).take l) (by simp [held, g1, AStore.deref]) (by simp; omega), List.drop_take,
      List.drop_drop, List.take_take, Nat.min_eq_left (by omega)]

/-- C107: a single value, also one element of an array, is what the tag held when the request was looked up. -/
theorem C107_single (C : Conv) (w : Race) (i : Nat) (tag : Str) (qty : Int) (mid : List Ev) (v : Scal)
    (hu : w.store.Unshared) (h : Answers C w i tag qty mid (.scal v)) : tagRead (held w.store) tag qty = .ok (.scal v) := by
  rcases look_cases hu h with h1 | ⟨e', a, off, len, h1, h2, h3, h4⟩
  · exact h1
  · obtain ⟨b, o, l, idx, g1, rfl, g3, -, -⟩ := look_array h1
    obtain ⟨vs', k1, -⟩ := copies C i g3 mid (w.look i tag qty) [] (fun c => c = held w.store) _ h2 (by simp)
      (by rw [h3]; exact watched_start hu g1) (fun j x hx => by simp at hx) (by rw [h3]) h.2.1 h4
    cases k1

/-- How often connection `i` goes on. -/
def turns (i : Nat) : List Ev → Nat
  | [] => 0
  | .copy j :: evs => (if j = i then 1 else 0) + turns i evs
  | _ :: evs => turns i evs

theorem finishes (C : Conv) (i : Nat) (e : Option GoTy) (a off len : Nat) :
    ∀ (evs : List Ev) (w : Race) (got : List TVal), w.jobs i = Job.next e a off len got →
      (∀ t q, Ev.look i t q ∉ evs) → len ≤ got.length + turns i evs → ∃ v, (w.run C evs).jobs i = .done v := by
  intro evs
  induction evs with
  | nil =>
    intro w got hj _ hl
    refine ⟨.slice e got, ?_⟩
    rw [show w.run C [] = w from rfl, hj, Job.next, if_neg (by simp [turns] at hl; omega)]
  | cons ev evs ih =>
    intro w got hj hno hl
    have hno' : ∀ t q, Ev.look i t q ∉ evs := fun t q hm => hno t q (by simp [hm])
    cases ev with
    | write t y => exact ih (w.step C (.write t y)) got hj hno' hl
    | look i' t q =>
      have hii : i ≠ i' := by rintro rfl; exact hno t q (by simp)
      exact ih (w.look i' t q) got (by rw [(look_other t q hii).1]; exact hj) hno' hl
    | copy i' =>
      by_cases hii : i' = i
      · subst hii
        unfold Job.next at hj
        simp only [turns, if_true] at hl
        split at hj
        · refine ih (w.copy i') (got ++ [(w.store.heap a).getD (off + got.length) (.scal .nil)]) ?_ hno' (by simp; omega)
          simp [Race.copy, hj, Race.put]
        · rename_i hge
          refine ih (w.copy i') got ?_ hno' (by omega)
          simp only [Race.copy, hj, Job.next]
          rw [if_neg hge]
      · simp only [turns, if_neg hii] at hl
        exact ih (w.copy i') got (by rw [(copy_other (Ne.symm hii)).1]; exact hj) hno' (by omega)

/-- C107: a request for a tag that can be read is answered as soon as its connection has had as many turns as the elements
asked for, whatever the others do. -/
theorem C107_answered (C : Conv) (w : Race) (i : Nat) (tag : Str) (qty : Int) (mid : List Ev) (u : TVal)
    (hu : w.store.Unshared) (hi : ∀ e a off len got, w.jobs i ≠ .copying e a off len got) (hno : ∀ t q, Ev.look i t q ∉ mid)
    (hr : tagRead (held w.store) tag qty = .ok u) (ht : qty ≤ turns i mid) : ∃ v, Answers C w i tag qty mid v := by
  have key : ∀ (j : Job), w.look i tag qty = w.put i j → (∃ v, j = .done v) → ∃ v, Answers C w i tag qty mid v := by
    rintro j hj ⟨v, rfl⟩
    refine ⟨v, hi, hno, ?_⟩
    show ((w.look i tag qty).run C mid).jobs i = _
    rw [hj]
    exact done_stays C i (.done v) (by simp) mid _ (by simp [Race.put]) hno
  have hlook : w.look i tag qty = match w.store.tagRead tag qty with
      | .ok (.inl v) => w.put i (.done v)
      | .ok (.inr (.scal v)) => w.put i (.done (.scal v))
      | .ok (.inr (.ref e a off len)) => w.put i (Job.next e a off len [])
      | _ => w.put i .failed := by
    unfold Race.look
    split
    · rename_i e a off len got hjj
      exact absurd hjj (hi _ _ _ _ _)
    · rfl
  have hc := aread_contents w.store hu tag qty
  rw [held_eq] at hr
  rw [hr] at hc
  cases hs : w.store.tagRead tag qty with
  | err x => rw [hs] at hc; cases hc
  | panic => rw [hs] at hc; cases hc
  | ok r =>
    rw [hs] at hlook
    cases r with
    | inl v => exact key _ hlook ⟨v, rfl⟩
    | inr r =>
      cases r with
      | scal v => exact key _ hlook ⟨_, rfl⟩
      | ref e a off len =>
        have hlen : len ≤ turns i mid := by
          unfold AStore.tagRead at hs
          repeat' split at hs
          all_goals first
            | (simp at hs; done)
            | (injection hs with hs; injection hs with hs; injection hs with q1 q2 q3 q4; omega)
        obtain ⟨v, hv⟩ := finishes C i e a off len mid (w.look i tag qty) [] (by rw [hlook]; simp [Race.put]) hno (by simpa using hlen)
        exact ⟨v, hi, hno, hv⟩

/-- A store with one array of two elements. -/
def twoZeros : AStore where
  data := fun k => if k = str "a" then some (.ref (some .i32) 0 0 2) else none
  heap := fun _ => [.scal (.i32 0#32), .scal (.i32 0#32)]
  next := 1

theorem twoZeros_unshared : twoZeros.Unshared := by
  constructor
  · intro k e a off len h
    simp only [twoZeros] at h
    split at h
    · cases h; exact ⟨by decide, by decide⟩
    · cases h
  · intro k k' e e' a off off' len len' h h'
    simp only [twoZeros] at h h'
    split at h
    · split at h'
      · rename_i h1 h2; rw [h1, h2]
      · cases h'
    · cases h

/-- While the array is read, the elements are written one after the other. -/
def between : List Ev :=
  [.copy 0, .write (str "a[0]") (.scal (.i32 1#32)), .write (str "a[1]") (.scal (.i32 1#32)), .copy 0]

/-- Disagreement: what is sent for an array may be what the array never was.  Of two zeros first the first becomes a one, then
the second; a client is sent a zero and a one. -/
theorem C107_torn (C : Conv) : ∃ (w : Race) (i : Nat) (tag : Str) (qty : Int) (mid : List Ev) (v : TVal), w.store.Unshared ∧
    Answers C w i tag qty mid v ∧ ∀ c, During C w (.look i tag qty :: mid) c → tagRead c tag qty ≠ .ok v := by
  refine ⟨⟨twoZeros, fun _ => .idle⟩, 0, str "a", 2, between, .slice (some .i32) [.scal (.i32 0#32), .scal (.i32 1#32)],
    twoZeros_unshared, ⟨by simp, by simp [between], rfl⟩, ?_⟩
  rintro c ⟨k, hk, rfl⟩ h
  have fin : ∀ (r : Res TVal) (x y : BitVec 32), r = .ok (.slice (some .i32) [.scal (.i32 0#32), .scal (.i32 1#32)]) →
      r = .ok (.slice (some .i32) [.scal (.i32 x), .scal (.i32 y)]) → x = 0#32 ∧ y = 1#32 := by
    intro r x y h1 h2
    rw [h1] at h2
    simp at h2
    exact ⟨h2.1.symm, h2.2.symm⟩
  have hk' : k = 0 ∨ k = 1 ∨ k = 2 ∨ k = 3 ∨ k = 4 ∨ k = 5 := by
    simp [between] at hk
    omega
  rcases hk' with rfl | rfl | rfl | rfl | rfl | rfl
  · exact absurd (fin _ 0#32 0#32 h rfl).2 (by decide)
  · exact absurd (fin _ 0#32 0#32 h rfl).2 (by decide)
  · exact absurd (fin _ 0#32 0#32 h rfl).2 (by decide)
  · exact absurd (fin _ 1#32 0#32 h rfl).1 (by decide)
  · exact absurd (fin _ 1#32 1#32 h rfl).1 (by decide)
  · exact absurd (fin _ 1#32 1#32 h rfl).1 (by decide)

/-- The array may be replaced while it is read: the reply has the old one. -/
example (C : Conv) : Answers C ⟨twoZeros, fun _ => .idle⟩ 0 (str "A") 2
      [.copy 0, .write (str "a") (.slice none [.scal (.i32 1#32), .scal (.i32 1#32)]), .copy 0]
      (.slice (some .i32) [.scal (.i32 0#32), .scal (.i32 0#32)]) ∧
    ofArray (str "A") (str "a") ∧
    untouched (str "a") [.copy 0, .write (str "a") (.slice none [.scal (.i32 1#32), .scal (.i32 1#32)]), .copy 0] := by
  refine ⟨⟨by simp, by simp, rfl⟩, .inl ⟨by unfold wholeName; decide, by unfold sameName; decide⟩, ?_⟩
  intro t v text hm _ hs
  simp at hm
  obtain ⟨rfl, -⟩ := hm
  have := congrArg List.length hs
  simp [elemText, toLower, str] at this

end Gologix.Server
