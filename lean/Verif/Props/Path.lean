import Verif.Spec.Path
import Verif.Props.Segments
import Verif.Props.Ioi
/-
C40: route strings.  C41: the path builder.
-/
set_option linter.unusedSimpArgs false

namespace Gologix
open Spec

/-! ### Numerals -/

theorem digitsFold_mono (s : Str) (a : Nat) : a ≤ s.foldl (fun a b => 10 * a + (b.toNat - 48)) a := by
  induction s generalizing a with
  | nil => simp
  | cons b bs ih => simp only [List.foldl_cons]; exact Nat.le_trans (by omega) (ih _)

theorem parseUintLoop_val (s : Str) (h : s.all isDigit = true) (a : Nat) :
    parseUintLoop a s = if s.foldl (fun a b => 10 * a + (b.toNat - 48)) a < 2 ^ 64 ∨ s = []
      then some (some (s.foldl (fun a b => 10 * a + (b.toNat - 48)) a)) else some none := by
  induction s generalizing a with
  | nil => simp [parseUintLoop]
  | cons b bs ih =>
    simp only [List.all_cons, Bool.and_eq_true] at h
    simp only [parseUintLoop, h.1, if_true, List.foldl_cons, reduceCtorEq, or_false]
    by_cases hv : 10 * a + (b.toNat - 48) < 2 ^ 64
    · rw [if_pos hv, ih h.2]
      by_cases hb : bs = []
      · subst hb; simp [hv]
      · simp only [hb, or_false]
    · rw [if_neg hv, if_neg]
      have := digitsFold_mono bs (10 * a + (b.toNat - 48))
      omega

theorem parseUint_val (s : Str) (hs : s ≠ []) (h : s.all isDigit = true) :
    parseUint s = if digitsVal s < 2 ^ 64 then some (some (digitsVal s)) else some none := by
  unfold parseUint
  rw [if_neg hs, parseUintLoop_val s h 0]
  simp only [hs, or_false]
  rfl

/-- A text is accepted with a value from 0 to 255 exactly if it is a numeral for it. -/
theorem atoi_byte (p : Str) (n : Nat) (hn : n < 256) : atoi p = .ok n ↔ byteNumeral p n := by
  constructor
  · intro h
    have hd := parseSigned_isOk (bits := 64) (neg := (signSplit p).1) (t := (signSplit p).2) (by decide)
      (by unfold atoi parseInt at h; rw [h]; rfl)
    simp only [Bool.and_eq_true, bne_iff_ne, ne_eq] at hd
    unfold atoi parseInt parseSigned at h
    rw [parseUint_val _ hd.1 hd.2] at h
    have hv : digitsVal (signSplit p).2 = n ∧ ((signSplit p).1 = true → n = 0) := by
      by_cases hb : digitsVal (signSplit p).2 < 2 ^ 64
      · rw [if_pos hb] at h
        simp only [Option.getD_some] at h
        cases hs : (signSplit p).1
        · rw [hs] at h
          simp only [Bool.not_false, true_and, Bool.false_eq_true, false_and, if_false] at h
          split at h
          · simp at h
          · simp only [Num.ok.injEq] at h
            exact ⟨by simp only [if_false, Bool.false_eq_true, Int.ofNat_eq_natCast] at h; omega, by simp⟩
        · rw [hs] at h
          simp only [Bool.not_true, Bool.false_eq_true, false_and, if_false, true_and, if_true] at h
          split at h
          · simp at h
          · simp only [Num.ok.injEq, Int.ofNat_eq_natCast] at h
            exact ⟨by omega, fun _ => by omega⟩
      · rw [if_neg hb] at h
        simp only [Option.getD_none] at h
        cases hs : (signSplit p).1 <;> simp [hs] at h
    refine ⟨hn, (signSplit p).2, hd.1, hd.2, hv.1, ?_⟩
    cases p with
    | nil => left; rfl
    | cons b t =>
      have hs := hv.2
      simp only [signSplit] at hs ⊢
      split
      · rename_i hb; subst hb; right; right; exact ⟨rfl, hs (by simp)⟩
      · rename_i hb
        split
        · rename_i hb2; subst hb2; right; left; rfl
        · left; rfl
  · rintro ⟨-, ds, h1, h2, h3, h4⟩
    have key : ∀ neg : Bool, (neg = true → n = 0) → parseSigned 64 neg ds = .ok n := by
      intro neg hneg
      unfold parseSigned
      rw [parseUint_val ds h1 h2, h3, if_pos (by omega)]
      simp only [Option.getD_some]
      cases neg
      · simp only [Bool.not_false, true_and, Bool.false_eq_true, false_and, if_false]
        rw [if_neg (by omega)]; rfl
      · have := hneg rfl; subst this; rfl
    unfold atoi parseInt
    rcases h4 with h4 | rfl | ⟨rfl, h5⟩
    · subst h4
      cases p with
      | nil => simp at h1
      | cons b t =>
        simp only [List.all_cons, Bool.and_eq_true] at h2
        have := not_sign_of_digit h2.1
        simp only [signSplit, this.1, this.2, if_false]
        exact key false (by simp)
    · simp only [signSplit]
      rw [if_neg (by decide)]
      exact key false (by simp)
    · simp only [signSplit, if_true]
      exact key true (fun _ => h5)

/-! ### Decorations -/

theorem removeAllAux_one (c : Byte) (s : Str) (f : Nat) (h : s.length < f) :
    removeAllAux [c] f s = s.filter (· ≠ c) := by
  induction f generalizing s with
  | zero => omega
  | succ f ih =>
    cases s with
    | nil => rfl
    | cons b bs =>
      simp only [List.length_cons] at h
      simp only [removeAllAux, List.isPrefixOf]
      by_cases hb : c = b
      · subst hb
        simp [ih bs (by omega)]
      · have : (c == b) = false := by simpa using hb
        simp [this, ih bs (by omega), Ne.symm hb]

theorem removeAll_one (c : Byte) (s : Str) : removeAll [c] s = s.filter (· ≠ c) := by
  unfold removeAll
  rw [if_neg (by simp), removeAllAux_one c s _ (by omega)]

/-- The string without spaces and brackets. -/
def bare (s : Str) : Str := s.filter fun b => ¬ decoration b

theorem removeThree (s : Str) :
    removeAll [0x5D#8] (removeAll [0x5B#8] (removeAll [0x20#8] s)) = bare s := by
  simp only [removeAll_one, List.filter_filter, bare, decoration]
  congr 1
  funext b
  by_cases h1 : b = 0x20#8 <;> by_cases h2 : b = 0x5B#8 <;> by_cases h3 : b = 0x5D#8 <;> simp [h1, h2, h3]

theorem decorated_bare {t s : Str} (h : Decorated t s) : bare s = bare t := by
  induction h with
  | nil => rfl
  | keep b _ ih => simp only [bare, List.filter_cons] at ih ⊢; rw [ih]
  | put hb _ ih => simp only [bare, List.filter_cons] at ih ⊢; rw [if_neg (by simp [hb]), ih]

theorem bare_decorated (s : Str) : Decorated (bare s) s := by
  induction s with
  | nil => exact .nil
  | cons b t ih =>
    simp only [bare, List.filter_cons]
    by_cases hb : decoration b
    · simp only [hb, not_true, decide_false, Bool.false_eq_true, if_false]; exact .put hb ih
    · simp only [hb, not_false_eq_true, decide_true, if_true]; exact .keep b ih

theorem bare_eq {t : Str} (h : ∀ b ∈ t, ¬ decoration b) : bare t = t := by
  unfold bare
  rw [List.filter_eq_self]
  intro b hb; simpa using h b hb

theorem decorated_nil {t : Str} (h : Decorated t []) : t = [] := by cases h; rfl

theorem parsePath_bare {s : Str} (h : s ≠ []) : parsePath s = pathParts [] (splitOn 0x2C#8 (bare s)) := by
  unfold parsePath
  rw [if_neg h, removeThree]

theorem splitOn_no_sep (sep : Byte) (s : Str) : ∀ p ∈ splitOn sep s, sep ∉ p := by
  induction s with
  | nil => simp [splitOn]
  | cons b bs ih =>
    simp only [splitOn]
    split
    · intro p hp
      rcases List.mem_cons.mp hp with rfl | hp
      · simp
      · exact ih p hp
    · rename_i hb
      cases hs : splitOn sep bs with
      | nil => exact absurd hs (splitOn_ne_nil _ _)
      | cons q qs =>
        rw [hs] at ih
        intro p hp
        rcases List.mem_cons.mp hp with rfl | hp
        · intro h
          rcases List.mem_cons.mp h with rfl | h
          · exact hb rfl
          · exact ih q (by simp) h
        · exact ih p (by simp [hp])

theorem mem_joinWith_of {sep b : Byte} {p : Str} {ps : List Str} (hp : p ∈ ps) (hb : b ∈ p) :
    b ∈ joinWith sep ps := by
  induction ps with
  | nil => simp at hp
  | cons q qs ih =>
    cases qs with
    | nil =>
      simp only [List.mem_singleton] at hp
      subst hp; exact hb
    | cons r rs =>
      simp only [joinWith, List.mem_append, List.mem_cons]
      rcases List.mem_cons.mp hp with rfl | hp
      · exact .inl hb
      · exact .inr (.inr (ih hp))

/-- The text of a number has no decorations, commas and dots. -/
theorem dec_plain (n : Nat) : ∀ b ∈ dec n, ¬ decoration b ∧ b ≠ 0x2C#8 ∧ b ≠ 0x2E#8 := by
  intro b hb
  have h := dec_digits n b hb
  simp only [isDigit, Bool.and_eq_true, decide_eq_true_eq] at h
  refine ⟨?_, ?_, ?_⟩
  · rintro (rfl | rfl | rfl) <;> simp at h
  · rintro rfl; simp at h
  · rintro rfl; simp at h

theorem pathParts_hops (hops : List Hop) (h : ∀ x ∈ hops, x.wf) (acc : Bytes) :
    pathParts acc (hops.map Hop.texts).flatten = .ok (acc ++ routeBytes hops) := by
  induction hops generalizing acc with
  | nil => simp [pathParts, routeBytes]
  | cons x xs ih =>
    have hx := h x (by simp)
    have ih' := ih (fun y hy => h y (by simp [hy]))
    have hnum : ∀ n : Nat, n < 256 → ∀ ps, pathParts acc (dec n :: ps) = pathParts (acc ++ [BitVec.ofNat 8 n]) ps := by
      intro n hn ps
      have hd : 0x2E#8 ∉ dec n := fun hb => (dec_plain n _ hb).2.2 rfl
      have hat : atoi (dec n) = .ok n := atoi_dec (by omega)
      simp only [pathParts, if_neg hd, hat]
      rw [if_neg (by omega)]
      rfl
    cases x with
    | num n =>
      simp only [List.map_cons, List.flatten_cons, Hop.texts, List.singleton_append]
      rw [hnum n hx, ih']
      simp [routeBytes, Hop.bytes]
    | net n a =>
      obtain ⟨h1, h2, h3, h4, h5⟩ := hx
      simp only [List.map_cons, List.flatten_cons, Hop.texts, List.cons_append, List.nil_append]
      rw [hnum n h1, pathParts, if_pos h2, if_neg (by simp), ih']
      simp [routeBytes, Hop.bytes]

theorem hop_texts_plain (hops : List Hop) (h : ∀ x ∈ hops, x.wf) :
    ∀ p ∈ (hops.map Hop.texts).flatten, (∀ b ∈ p, ¬ decoration b) ∧ 0x2C#8 ∉ p := by
  intro p hp
  simp only [List.mem_flatten, List.mem_map] at hp
  obtain ⟨_, ⟨x, hx, rfl⟩, hp⟩ := hp
  have hw := h x hx
  cases x with
  | num n =>
    simp only [Hop.texts, List.mem_singleton] at hp
    subst hp
    exact ⟨fun b hb => (dec_plain n b hb).1, fun hb => (dec_plain n _ hb).2.1 rfl⟩
  | net n a =>
    simp only [Hop.texts, List.mem_cons, List.not_mem_nil, or_false] at hp
    rcases hp with rfl | rfl
    · exact ⟨fun b hb => (dec_plain n b hb).1, fun hb => (dec_plain n _ hb).2.1 rfl⟩
    · exact ⟨hw.2.2.2.1, hw.2.2.1⟩

/-- C40, routes with addresses: a route of numbers and addresses, an address always after a number, becomes
the bytes it denotes wherever spaces and brackets are put. -/
theorem C40_route (hops : List Hop) (hne : hops ≠ []) (h : ∀ x ∈ hops, x.wf) (s : Str)
    (hs : Decorated (routeText hops) s) : parsePath s = .ok (routeBytes hops) := by
  have hpl := hop_texts_plain hops h
  have hne' : (hops.map Hop.texts).flatten ≠ [] := by
    cases hops with
    | nil => simp at hne
    | cons x xs => cases x <;> simp [Hop.texts]
  have hb : bare s = routeText hops := by
    rw [decorated_bare hs]
    apply bare_eq
    intro b hb
    rcases mem_joinWith hb with rfl | ⟨p, hp, hbp⟩
    · decide
    · exact (hpl p hp).1 b hbp
  have hs0 : s ≠ [] := by
    rintro rfl
    have := decorated_nil hs
    cases hops with
    | nil => simp at hne
    | cons x xs =>
      have hd := dec_ne_nil
      cases x with
      | num n =>
        cases hr : (xs.map Hop.texts).flatten <;>
          simp [routeText, Hop.texts, hr, joinWith, hd] at this
      | net n a => simp [routeText, Hop.texts, joinWith] at this
  rw [parsePath_bare hs0, hb, routeText, splitOn_joinWith hne' (fun p hp => (hpl p hp).2),
    pathParts_hops hops h []]
  simp

/-- C40, first half: numbers from 0 to 255 separated by commas become exactly those bytes, wherever spaces and
brackets are put. -/
theorem C40_numbers (ns : List Nat) (hne : ns ≠ []) (hn : ∀ n ∈ ns, n < 256) (s : Str)
    (hs : Decorated (joinWith 0x2C#8 (ns.map dec)) s) : parsePath s = .ok (ns.map (BitVec.ofNat 8)) := by
  have h1 : routeText (ns.map Hop.num) = joinWith 0x2C#8 (ns.map dec) := by
    unfold routeText
    congr 1
    clear hne hn hs
    induction ns with
    | nil => rfl
    | cons n ns ih => simpa [Hop.texts] using ih
  have h2 : routeBytes (ns.map Hop.num) = ns.map (BitVec.ofNat 8) := by
    unfold routeBytes
    clear hne hn hs h1
    induction ns with
    | nil => rfl
    | cons n ns ih => simpa [Hop.bytes] using ih
  rw [← h2]
  apply C40_route
  · simpa using hne
  · simpa [Hop.wf] using hn
  · rw [h1]; exact hs

/-- The parse of parts without dots. -/
theorem pathParts_plain (ps : List Str) (hd : ∀ p ∈ ps, 0x2E#8 ∉ p) (acc : Bytes) (bs : Bytes) :
    pathParts acc ps = .ok bs ↔
      ∃ ns : List Nat, ns.length = ps.length ∧ (∀ x ∈ ps.zip ns, byteNumeral x.1 x.2) ∧
        bs = acc ++ ns.map (BitVec.ofNat 8) := by
  induction ps generalizing acc with
  | nil =>
    simp only [pathParts, Res.ok.injEq]
    constructor
    · rintro rfl; exact ⟨[], rfl, by simp, by simp⟩
    · rintro ⟨ns, h1, -, rfl⟩
      have : ns = [] := List.eq_nil_of_length_eq_zero h1
      simp [this]
  | cons p ps ih =>
    have hp : 0x2E#8 ∉ p := hd p (by simp)
    simp only [pathParts, if_neg hp]
    constructor
    · intro h
      cases ha : atoi p with
      | syntaxErr => simp [ha] at h
      | rangeErr v => simp [ha] at h
      | ok v =>
        simp only [ha] at h
        split at h
        · simp at h
        · rename_i hv
          obtain ⟨n, rfl⟩ : ∃ n : Nat, v = n := ⟨v.toNat, by omega⟩
          have hn := (atoi_byte p n (by omega)).mp ha
          obtain ⟨ns, h1, h2, h3⟩ := (ih (fun q hq => hd q (by simp [hq])) _).mp h
          refine ⟨n :: ns, by simp [h1], ?_, by rw [h3]; simp⟩
          simp only [List.zip_cons_cons, List.mem_cons, forall_eq_or_imp]
          exact ⟨hn, h2⟩
    · rintro ⟨ns, h1, h2, h3⟩
      cases ns with
      | nil => simp at h1
      | cons n ns =>
        simp only [List.zip_cons_cons, List.mem_cons, forall_eq_or_imp] at h2
        have ha := (atoi_byte p n h2.1.1).mpr h2.1
        have := h2.1.1
        simp only [ha]
        rw [if_neg (by omega)]
        refine (ih (fun q hq => hd q (by simp [hq])) _).mpr ⟨ns, by simpa using h1, h2.2, ?_⟩
        rw [h3]
        simp

theorem pathParts_plain_safe (ps : List Str) (hd : ∀ p ∈ ps, 0x2E#8 ∉ p) (acc : Bytes) :
    pathParts acc ps ≠ .panic := by
  induction ps generalizing acc with
  | nil => simp [pathParts]
  | cons p ps ih =>
    simp only [pathParts, if_neg (hd p (by simp))]
    have := fun acc => ih (fun q hq => hd q (by simp [hq])) acc
    cases atoi p with
    | ok v => simp only; split <;> simp [this]
    | syntaxErr => simp
    | rangeErr v => simp

/-- C40 without dots, exactly: a string with no dots that is not empty is accepted if and only if each
comma-separated part, ignoring spaces and brackets, is a numeral for 0 to 255, and the route is the values; in
all other cases the result is an error and no route. -/
theorem C40_exactly (s : Str) (hs : s ≠ []) (hd : 0x2E#8 ∉ s) :
    (∀ bs, parsePath s = .ok bs ↔ ∃ (ps : List Str) (ns : List Nat), Decorated (joinWith 0x2C#8 ps) s ∧
      (∀ p ∈ ps, 0x2C#8 ∉ p) ∧ ns.length = ps.length ∧ ps ≠ [] ∧ (∀ x ∈ ps.zip ns, byteNumeral x.1 x.2) ∧
      bs = ns.map (BitVec.ofNat 8)) ∧
    ((¬ ∃ bs, parsePath s = .ok bs) → ∃ e, parsePath s = .err e) := by
  have hj : joinWith 0x2C#8 (splitOn 0x2C#8 (bare s)) = bare s := joinWith_splitOn _ _
  have hdot : ∀ p ∈ splitOn 0x2C#8 (bare s), 0x2E#8 ∉ p := by
    intro p hp hb
    have : 0x2E#8 ∈ bare s := by rw [← hj]; exact mem_joinWith_of hp hb
    exact hd (List.mem_filter.mp this).1
  rw [parsePath_bare hs]
  refine ⟨fun bs => ?_, fun h => ?_⟩
  · rw [pathParts_plain _ hdot]
    constructor
    · rintro ⟨ns, h1, h2, h3⟩
      refine ⟨splitOn 0x2C#8 (bare s), ns, by rw [hj]; exact bare_decorated s, splitOn_no_sep _ _, h1,
        splitOn_ne_nil _ _, h2, by simpa using h3⟩
    · rintro ⟨ps, ns, h1, h2, h3, h4, h5, h6⟩
      have hb : bare s = joinWith 0x2C#8 ps := by
        rw [decorated_bare h1]
        apply bare_eq
        intro b hb
        rcases mem_joinWith hb with rfl | ⟨p, hp, hbp⟩
        · decide
        · obtain ⟨i, hi, rfl⟩ := List.getElem_of_mem hp
          have hn := h5 (ps[i], ns[i]'(by omega)) (by
            rw [List.mem_iff_getElem]
            exact ⟨i, by simp; omega, by simp⟩)
          obtain ⟨-, ds, -, hds, -, ho⟩ := hn
          simp only at ho
          have hdig : ∀ b ∈ ds, ¬ decoration b := by
            intro b hb
            have := List.all_eq_true.mp hds b hb
            simp only [isDigit, Bool.and_eq_true, decide_eq_true_eq] at this
            rintro (rfl | rfl | rfl) <;> simp at this
          rcases ho with ho | ho | ⟨ho, -⟩ <;> rw [ho] at hbp
          · exact hdig b hbp
          · rcases List.mem_cons.mp hbp with rfl | h
            · decide
            · exact hdig b h
          · rcases List.mem_cons.mp hbp with rfl | h
            · decide
            · exact hdig b h
      have hsp : splitOn 0x2C#8 (bare s) = ps := by rw [hb, splitOn_joinWith h4 h2]
      rw [hsp]
      exact ⟨ns, h3, h5, by simpa using h6⟩
  · cases hp : pathParts [] (splitOn 0x2C#8 (bare s)) with
    | ok bs => exact absurd ⟨bs, hp⟩ h
    | err e => exact ⟨e, rfl⟩
    | panic => exact absurd hp (pathParts_plain_safe _ hdot [])

/-- `" [1, 0]"` and `"1,016,192.168.0.2,+3"`. -/
example : parsePath (str " [1, 0]") = .ok [1#8, 0#8] :=
  C40_numbers [1, 0] (by simp) (by simp) _ (by
    have : joinWith 0x2C#8 ([1, 0].map dec) = bare (str " [1, 0]") := by decide
    rw [this]; exact bare_decorated _)

example : parsePath (str "1,16,192.168.0.2, 3") =
    .ok ([1#8, 0x10#8, 11#8] ++ str "192.168.0.2" ++ [3#8]) :=
  C40_route [.num 1, .net 16 (str "192.168.0.2"), .num 3] (by simp)
    (by simp only [List.mem_cons, List.not_mem_nil, or_false]; rintro x (rfl | rfl | rfl) <;> simp [Hop.wf] <;> decide) _ (by
      have : routeText [.num 1, .net 16 (str "192.168.0.2"), .num 3] = bare (str "1,16,192.168.0.2, 3") := by decide
      rw [this]; exact bare_decorated _)

example : ∃ e, parsePath (str "1,256") = .err e :=
  (C40_exactly (str "1,256") (by decide) (by decide)).2 (by
    rintro ⟨bs, h⟩
    have : parsePath (str "1,256") = .err .fail := by decide
    rw [this] at h
    cases h)

/-- C40 is false for parts with a dot: at the start of a route the function panics instead of reporting an
error, and after a number any text with a dot is taken for an address. -/
theorem C40_dot_first_panics (p rest : Str) (h : 0x2E#8 ∈ p) (hp : ∀ b ∈ p, ¬ decoration b ∧ b ≠ 0x2C#8) :
    parsePath p = .panic ∧ parsePath (p ++ 0x2C#8 :: rest) = .panic := by
  have hne : p ≠ [] := by rintro rfl; simp at h
  have hc : 0x2C#8 ∉ p := fun hb => (hp _ hb).2 rfl
  have hb : bare p = p := bare_eq fun b hb => (hp b hb).1
  constructor
  · rw [parsePath_bare hne, hb, splitOn_none hc]
    simp [pathParts, h]
  · rw [parsePath_bare (by simp)]
    have : bare (p ++ 0x2C#8 :: rest) = p ++ 0x2C#8 :: bare rest := by
      unfold bare at hb ⊢
      rw [List.filter_append, hb, List.filter_cons, if_pos (by decide)]
    rw [this, splitOn_append hc]
    simp [pathParts, h]

example : parsePath (str "192.168.0.2,1") = .panic :=
  (C40_dot_first_panics (str "192.168.0.2") (str "1") (by decide) (by decide)).2

theorem C40_dot_accepted : parsePath (str "1,2.5") = .ok ([0x11#8, 3#8] ++ str "2.5") := by decide

/-! ### C41 -/

/-- C41: once a step has failed, every later step leaves path and error unchanged. -/
theorem C41_sticky (pb : PathBuilder) (h : pb.err.isSome) (ops : List PathOp) : pb.calls ops = .ok pb := by
  induction ops with
  | nil => rfl
  | cons op ops ih =>
    have : pb.call op = .ok pb := by unfold PathBuilder.call; rw [if_pos h]
    simp only [PathBuilder.calls, this]
    exact ih

/-- What one call does to a builder without error. -/
theorem call_cases (pb : PathBuilder) (h : pb.err = none) (op : PathOp) :
    (∃ x, PathBuilder.call {} op = .ok ⟨x, none⟩ ∧ pb.call op = .ok ⟨pb.b ++ x, none⟩) ∨
    (PathBuilder.call {} op = .ok ⟨[], some op⟩ ∧ pb.call op = .ok ⟨pb.b, some op⟩) ∨
    (PathBuilder.call {} op = .panic ∧ pb.call op = .panic) := by
  obtain ⟨b, e⟩ := pb
  simp only at h
  subst h
  cases op with
  | symbolic s =>
    simp only [PathBuilder.call]
    cases marshalIOIPart s with
    | ok x => exact .inl ⟨x, by simp, by simp⟩
    | err e => exact .inr (.inl (by simp))
    | panic => exact .inr (.inr (by simp))
  | parse s =>
    simp only [PathBuilder.call]
    cases parsePath s with
    | ok x => exact .inl ⟨x, by simp, by simp⟩
    | err e => exact .inr (.inl (by simp))
    | panic => exact .inr (.inr (by simp))
  | _ => exact .inl ⟨_, rfl, by simp [PathBuilder.call]⟩

theorem calls_concat (ops : List PathOp) (pb pb' : PathBuilder) (h : pb.err = none)
    (hr : pb.calls ops = .ok pb') :
    ∃ xs : List Bytes, pb'.b = pb.b ++ xs.flatten ∧
      (∀ (i : Nat) x, xs[i]? = some x → ∃ op, ops[i]? = some op ∧ PathBuilder.call {} op = .ok ⟨x, none⟩) ∧
      ((pb'.err = none ∧ xs.length = ops.length) ∨
       ∃ op, ops[xs.length]? = some op ∧ pb'.err = some op ∧ PathBuilder.call {} op = .ok ⟨[], some op⟩) := by
  induction ops generalizing pb with
  | nil =>
    simp only [PathBuilder.calls, Res.ok.injEq] at hr
    subst hr
    exact ⟨[], by simp, by simp, .inl ⟨h, rfl⟩⟩
  | cons op ops ih =>
    simp only [PathBuilder.calls] at hr
    rcases call_cases pb h op with ⟨x, h1, h2⟩ | ⟨h1, h2⟩ | ⟨h1, h2⟩ <;> rw [h2] at hr
    · obtain ⟨xs, h3, h4, h5⟩ := ih _ rfl hr
      refine ⟨x :: xs, by rw [h3]; simp, ?_, ?_⟩
      · intro i y hy
        cases i with
        | zero => simp only [List.getElem?_cons_zero, Option.some.injEq] at hy; subst hy; exact ⟨op, rfl, h1⟩
        | succ i => exact h4 i y hy
      · rcases h5 with ⟨h5, h6⟩ | h5
        · exact .inl ⟨h5, by simp [h6]⟩
        · exact .inr h5
    · have := C41_sticky ⟨pb.b, some op⟩ rfl ops
      have hr' : PathBuilder.calls ⟨pb.b, some op⟩ ops = .ok pb' := hr
      rw [this, Res.ok.injEq] at hr'
      subst hr'
      exact ⟨[], by simp, by simp, .inr ⟨op, rfl, rfl, h1⟩⟩
    · exact absurd hr (by simp [Bind.bind, Res.bind])

/-- C41: the path after any chain of calls is the concatenation of what the calls up to the first failing one
would give on their own, and the error is that of the first failing call. -/
theorem C41_concat (ops : List PathOp) (pb : PathBuilder) (hr : PathBuilder.calls {} ops = .ok pb) :
    ∃ xs : List Bytes, pb.b = xs.flatten ∧
      (∀ (i : Nat) x, xs[i]? = some x → ∃ op, ops[i]? = some op ∧ PathBuilder.call {} op = .ok ⟨x, none⟩) ∧
      ((pb.err = none ∧ xs.length = ops.length) ∨
       ∃ op, ops[xs.length]? = some op ∧ pb.err = some op ∧ PathBuilder.call {} op = .ok ⟨[], some op⟩) := by
  simpa using calls_concat ops {} pb rfl hr

/-- C41: what a call gives on its own is the segment it names. -/
theorem C41_segment_partial (op : PathOp) (h : Sane op) :
    ∃ x, PathBuilder.call {} op = .ok ⟨x, none⟩ ∧ Adds op x := by
  cases op with
  | custom d => exact ⟨d, rfl, rfl⟩
  | cls v => exact ⟨classBytes v, rfl, fun rest => (C05_class v rest).2⟩
  | inst v => exact ⟨instanceBytes v, rfl, fun rest => (C05_instance v rest).2⟩
  | attr v => exact ⟨attributeBytes v, rfl, fun rest => (C05_attribute v rest).2⟩
  | elem v => exact ⟨elementBytes v, rfl, fun rest => C07_element_partial v rest h⟩
  | port v => exact ⟨[v], rfl, rfl⟩
  | address v => exact ⟨[v], rfl, rfl⟩
  | slot v => exact ⟨[v], rfl, rfl⟩
  | symbolic s =>
    obtain ⟨-, h2, h3, -, h5, -⟩ := h
    refine ⟨_, by simp only [PathBuilder.call, marshal_name h3 h5]; rfl, fun rest => ?_⟩
    have hlen : (BitVec.ofNat 8 s.length).toNat = s.length := by simp; omega
    simp only [List.cons_append, List.nil_append, decodePSeg, if_true, hlen]
    by_cases ho : s.length % 2 = 1
    · rw [if_pos ho, if_neg (by simp; omega), ho]
      simp [List.take_append_of_le_length, List.drop_append]
    · rw [if_neg ho, if_neg (by simp; omega), show s.length % 2 = 0 by omega]
      simp
  | parse s =>
    obtain ⟨hops, hne, hw, hs⟩ := h
    refine ⟨routeBytes hops, by simp [PathBuilder.call, C40_route hops hne hw s hs], ?_⟩
    intro hops' hne' hw' hs'
    have := C40_route hops' hne' hw' s hs'
    rw [C40_route hops hne hw s hs, Res.ok.injEq] at this
    exact this

/-- C41 is false for a network address as a step of its own: the builder panics although a port precedes it. -/
theorem C41_address_panics : PathBuilder.calls {} [.port 1#8, .parse (str "192.168.0.2")] = .panic := by decide

/-- C41 is false for a name with an index: the digits of the index are taken out of the name everywhere and the
rest is sent as a name. -/
theorem C41_index_dropped : PathBuilder.calls {} [.symbolic (str "a3[3]")] =
    .ok ⟨[0x91#8, 3#8] ++ str "a[]" ++ [0#8], none⟩ := by decide

/-- A chain with a failing step. -/
example : PathBuilder.calls {} [.cls 4#16, .parse (str "1,300"), .inst 9#32] =
    .ok ⟨[0x20#8, 4#8], some (.parse (str "1,300"))⟩ := by decide

example : ∃ x, PathBuilder.call {} (.symbolic (str "Pump")) = .ok ⟨x, none⟩ ∧ Adds (.symbolic (str "Pump")) x :=
  C41_segment_partial _ (by decide : WfName (str "Pump"))

end Gologix
