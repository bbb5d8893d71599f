import Verif.Base.Str
import Verif.Spec.TagPath
/-
Facts about the string functions.
-/
namespace Gologix

theorem isDigit_ofNat {d : Nat} (h : d < 10) : isDigit (BitVec.ofNat 8 (48 + d)) = true := by
  simp [isDigit]; omega

theorem digit_toNat {d : Nat} (h : d < 10) : (BitVec.ofNat 8 (48 + d)).toNat - 48 = d := by
  simp; omega

theorem decAux_digits (f n : Nat) : ∀ b ∈ decAux f n, isDigit b = true := by
  induction f generalizing n with
  | zero => simp [decAux]
  | succ f ih =>
    intro b hb
    unfold decAux at hb
    split at hb
    · simp at hb; subst hb; exact isDigit_ofNat (by assumption)
    · simp at hb
      rcases hb with hb | rfl
      · exact ih _ b hb
      · exact isDigit_ofNat (Nat.mod_lt _ (by decide))

theorem dec_digits (n : Nat) : ∀ b ∈ dec n, isDigit b = true := decAux_digits _ n

theorem dec_ne_nil (n : Nat) : dec n ≠ [] := by
  unfold dec decAux; split <;> simp

theorem parseUintLoop_append (acc v : Nat) (xs ys : Bytes)
    (h : parseUintLoop acc xs = some (some v)) :
    parseUintLoop acc (xs ++ ys) = parseUintLoop v ys := by
  induction xs generalizing acc with
  | nil => simp [parseUintLoop] at h; subst h; rfl
  | cons b bs ih =>
    simp only [parseUintLoop, List.cons_append] at h ⊢
    split at h
    · split at h
      · rename_i h1 h2
        simp only [h1, h2, if_true]
        exact ih _ h
      · simp at h
    · simp at h

theorem parseUintLoop_decAux {f n : Nat} (hf : n < f) (hn : n < 2 ^ 64) :
    parseUintLoop 0 (decAux f n) = some (some n) := by
  induction f generalizing n with
  | zero => omega
  | succ f ih =>
    unfold decAux
    split
    · rename_i h
      simp only [parseUintLoop, isDigit_ofNat h, digit_toNat h, if_true]
      rw [if_pos (by omega)]; simp
    · rename_i h
      have h10 : n / 10 < n := by omega
      rw [parseUintLoop_append _ _ _ _ (ih (n := n / 10) (by omega) (by omega))]
      have hm : n % 10 < 10 := Nat.mod_lt _ (by decide)
      have hs : 10 * (n / 10) + n % 10 = n := by omega
      simp only [parseUintLoop, isDigit_ofNat hm, digit_toNat hm, if_true, hs, if_pos hn]

theorem not_sign_of_digit {b : Byte} (h : isDigit b = true) : b ≠ 0x2D#8 ∧ b ≠ 0x2B#8 := by
  constructor <;> (rintro rfl; revert h; decide)

theorem signSplit_digit {b : Byte} {t : Str} (h : isDigit b = true) :
    signSplit (b :: t) = (false, b :: t) := by
  obtain ⟨h1, h2⟩ := not_sign_of_digit h
  simp [signSplit, h1, h2]

theorem parseInt_dec {bits n : Nat} (h : n < 2 ^ (bits - 1)) (h64 : n < 2 ^ 64) :
    parseInt bits (dec n) = .ok n := by
  have hne := dec_ne_nil n
  have hd := dec_digits n
  have hp : parseUint (dec n) = some (some n) := by
    unfold parseUint; rw [if_neg hne]
    exact parseUintLoop_decAux (by omega) h64
  have hs : signSplit (dec n) = (false, dec n) := by
    cases hc : dec n with
    | nil => rfl
    | cons b t => exact signSplit_digit (hd b (by simp [hc]))
  simp only [parseInt, hs, parseSigned, hp, Option.getD_some]
  rw [if_neg, if_neg]
  · simp
  · simp
  · simp; omega

theorem atoi_dec {n : Nat} (h : n < 2 ^ 63) : atoi (dec n) = .ok n :=
  parseInt_dec h (by omega)

theorem parseUintLoop_digits {acc : Nat} {s : Bytes} {v : Nat}
    (h : parseUintLoop acc s = some (some v)) : s.all isDigit = true := by
  induction s generalizing acc with
  | nil => rfl
  | cons b bs ih =>
    simp only [parseUintLoop] at h
    split at h
    · split at h
      · simp only [List.all_cons, Bool.and_eq_true]; exact ⟨by assumption, ih h⟩
      · simp at h
    · simp at h

theorem parseUint_ok {s : Bytes} {v : Nat} (h : parseUint s = some (some v)) :
    (s != [] && s.all isDigit) = true := by
  unfold parseUint at h
  split at h
  · simp at h
  · simp only [Bool.and_eq_true]; exact ⟨by simpa using ‹_›, parseUintLoop_digits h⟩

theorem parseSigned_isOk {bits : Nat} {neg : Bool} {t : Str} (hb : bits ≤ 64)
    (h : (parseSigned bits neg t).isOk = true) : (t != [] && t.all isDigit) = true := by
  unfold parseSigned at h
  cases hp : parseUint t with
  | none => simp [hp, Num.isOk] at h
  | some u =>
    cases u with
    | some v => exact parseUint_ok hp
    | none =>
      have : 2 ^ (bits - 1) ≤ 2 ^ 63 := Nat.pow_le_pow_right (by decide) (by omega)
      simp only [hp, Option.getD_none] at h
      split at h
      · simp [Num.isOk] at h
      · split at h
        · simp [Num.isOk] at h
        · cases neg <;> simp at * <;> omega

theorem atoi_isOk_numeral {s : Str} (h : (atoi s).isOk = true) : Spec.isNumeral s = true := by
  have := parseSigned_isOk (by decide) h
  unfold Spec.isNumeral
  cases s with
  | nil => exact this
  | cons b t =>
    simp only [signSplit] at this
    dsimp only
    split
    · rename_i hb
      rcases hb with rfl | rfl <;> simpa using this
    · rename_i hb
      simp only [not_or] at hb
      simpa [hb.1, hb.2] using this

/-! ### split and join -/

theorem splitOn_ne_nil (sep : Byte) (s : Str) : splitOn sep s ≠ [] := by
  cases s with
  | nil => simp [splitOn]
  | cons b bs =>
    unfold splitOn
    split
    · simp
    · split <;> simp

theorem splitOn_none {sep : Byte} {s : Str} (h : sep ∉ s) : splitOn sep s = [s] := by
  induction s with
  | nil => rfl
  | cons b bs ih =>
    simp only [List.mem_cons, not_or] at h
    unfold splitOn
    rw [if_neg (fun e => h.1 e.symm), ih h.2]

theorem splitOn_append {sep : Byte} {s t : Str} (h : sep ∉ s) :
    splitOn sep (s ++ sep :: t) = s :: splitOn sep t := by
  induction s with
  | nil => simp [splitOn]
  | cons b bs ih =>
    simp only [List.mem_cons, not_or] at h
    rw [List.cons_append, splitOn, if_neg (fun e => h.1 e.symm), ih h.2]

theorem splitOn_joinWith {sep : Byte} {ps : List Str} (hne : ps ≠ []) (h : ∀ p ∈ ps, sep ∉ p) :
    splitOn sep (joinWith sep ps) = ps := by
  induction ps with
  | nil => exact absurd rfl hne
  | cons p ps ih =>
    cases ps with
    | nil => exact splitOn_none (h p (by simp))
    | cons q qs =>
      rw [joinWith, splitOn_append (h p (by simp)), ih (by simp) (fun r hr => h r (by simp [hr]))]

theorem joinWith_splitOn (sep : Byte) (s : Str) : joinWith sep (splitOn sep s) = s := by
  induction s with
  | nil => rfl
  | cons b bs ih =>
    unfold splitOn
    split
    · rename_i h
      subst h
      cases hs : splitOn b bs with
      | nil => exact absurd hs (splitOn_ne_nil _ _)
      | cons p ps => rw [hs] at ih; simp [joinWith, ih]
    · cases hs : splitOn sep bs with
      | nil => exact absurd hs (splitOn_ne_nil _ _)
      | cons p ps =>
        rw [hs] at ih
        cases ps with
        | nil => simp [joinWith] at ih ⊢; exact ih
        | cons q qs => simp [joinWith] at ih ⊢; exact ih

theorem joinWith_snoc {sep : Byte} {xs : List Str} (y : Str) (h : xs ≠ []) :
    joinWith sep (xs ++ [y]) = joinWith sep xs ++ sep :: y := by
  induction xs with
  | nil => exact absurd rfl h
  | cons x xs ih =>
    cases xs with
    | nil => simp [joinWith]
    | cons z zs =>
      have := ih (by simp)
      simp only [List.cons_append, joinWith] at this ⊢
      rw [this]; simp

theorem mem_joinWith {sep : Byte} {ps : List Str} {b : Byte} (h : b ∈ joinWith sep ps) :
    b = sep ∨ ∃ p ∈ ps, b ∈ p := by
  induction ps with
  | nil => simp [joinWith] at h
  | cons p ps ih =>
    cases ps with
    | nil => simp [joinWith] at h; exact .inr ⟨p, by simp, h⟩
    | cons q qs =>
      simp only [joinWith, List.mem_append, List.mem_cons] at h
      rcases h with h | h | h
      · exact .inr ⟨p, by simp, h⟩
      · exact .inl h
      · rcases ih h with h | ⟨r, hr, hb⟩
        · exact .inl h
        · exact .inr ⟨r, by simp [hr], hb⟩

/-! ### lower case -/

theorem lowerByte_idem (b : Byte) : lowerByte (lowerByte b) = lowerByte b := by
  revert b; decide

theorem toLower_idem (s : Str) : toLower (toLower s) = toLower s := by
  simp [toLower, lowerByte_idem]

theorem lowerByte_digit (b : Byte) : isDigit (lowerByte b) = isDigit b := by
  revert b; decide

theorem lowerByte_of_digit (b : Byte) (h : isDigit b = true) : lowerByte b = b := by
  revert b; decide

theorem lowerByte_eq_iff {c : Byte} (hc : ¬ (65 ≤ c.toNat ∧ c.toNat ≤ 90))
    (hc' : ¬ (97 ≤ c.toNat ∧ c.toNat ≤ 122)) (b : Byte) : lowerByte b = c ↔ b = c := by
  unfold lowerByte
  split
  · rename_i h
    have hb := b.isLt
    constructor
    · intro e
      have := congrArg BitVec.toNat e
      simp at this; omega
    · rintro rfl; exact absurd h hc
  · rfl

theorem toLower_append (a b : Str) : toLower (a ++ b) = toLower a ++ toLower b := by
  simp [toLower]

theorem toLower_digits {s : Str} (h : ∀ b ∈ s, isDigit b = true) : toLower s = s := by
  induction s with
  | nil => rfl
  | cons b bs ih =>
    simp only [toLower, List.map_cons]
    have hb := h b (by simp)
    have : lowerByte b = b := lowerByte_of_digit b hb
    rw [this]
    congr 1
    exact ih fun c hc => h c (by simp [hc])

theorem toLower_joinWith {sep : Byte} (h : lowerByte sep = sep) (ps : List Str) :
    toLower (joinWith sep ps) = joinWith sep (ps.map toLower) := by
  induction ps with
  | nil => rfl
  | cons p ps ih =>
    cases ps with
    | nil => rfl
    | cons q qs =>
      rw [joinWith, toLower_append]
      simp only [List.map_cons, joinWith] at ih ⊢
      rw [← ih]
      simp [toLower, h]

theorem mem_toLower_iff {c : Byte} (hc : ¬ (65 ≤ c.toNat ∧ c.toNat ≤ 90))
    (hc' : ¬ (97 ≤ c.toNat ∧ c.toNat ≤ 122)) (s : Str) : c ∈ toLower s ↔ c ∈ s := by
  simp only [toLower, List.mem_map]
  constructor
  · rintro ⟨b, hb, h⟩
    rw [(lowerByte_eq_iff hc hc' b).mp h] at hb; exact hb
  · intro h
    exact ⟨c, h, (lowerByte_eq_iff hc hc' c).mpr rfl⟩

/-! ### removing text -/

theorem removeAllAux_length (old : Str) (f : Nat) (s : Str) :
    (removeAllAux old f s).length ≤ s.length := by
  induction f generalizing s with
  | zero => simp [removeAllAux]
  | succ f ih =>
    cases s with
    | nil => simp [removeAllAux]
    | cons b bs =>
      unfold removeAllAux
      split
      · have := ih ((b :: bs).drop old.length)
        simp only [List.length_drop] at this
        omega
      · simpa using ih bs

theorem removeAll_length (old s : Str) : (removeAll old s).length ≤ s.length := by
  unfold removeAll
  split
  · omega
  · exact removeAllAux_length _ _ _

end Gologix
