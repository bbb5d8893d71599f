import Verif.Model.Lgx
import Verif.Spec.Pack
set_option linter.unusedSimpArgs false
/-! C19: TIMER, COUNTER and CONTROL. -/
namespace Gologix
open Spec

theorem setBit_bit (w : BitVec 32) (b : Bool) (k : Nat) (hk : k < 32) (i : Nat) :
    (setBit w b k).getLsbD i = (w.getLsbD i || (b && decide (i = k))) := by
  unfold setBit
  cases b with
  | false => simp
  | true =>
    simp only [if_true, BitVec.getLsbD_or, BitVec.getLsbD_shiftLeft, Bool.true_and]
    congr 1
    by_cases h : i = k
    · subst h; simp [hk]
    · by_cases h2 : i < k
      · simp [h, h2]
      · have : 1#32 = BitVec.twoPow 32 0 := rfl
        simp [h, h2, this, BitVec.getLsbD_twoPow]
        omega

theorem setBit_get (w : BitVec 32) (b : Bool) (k i : Nat) (hk : k < 32) (hi : i < 32) :
    (setBit w b k)[i] = (w[i] || (b && decide (i = k))) := by
  have := setBit_bit w b k hk i
  rwa [BitVec.getLsbD_eq_getElem hi, BitVec.getLsbD_eq_getElem hi] at this

theorem hasBit_eq (w : BitVec 32) (k : Nat) (hk : k < 32) : hasBit w k = w.getLsbD k := by
  unfold hasBit
  rw [Bool.eq_iff_iff, bne_iff_ne]
  constructor
  · intro h
    refine Classical.byContradiction fun hn => h ?_
    apply BitVec.eq_of_getLsbD_eq
    intro i hi
    have : 1#32 = BitVec.twoPow 32 0 := rfl
    simp only [BitVec.getLsbD_and, BitVec.getLsbD_shiftLeft, this, BitVec.getLsbD_twoPow, BitVec.getLsbD_zero]
    by_cases h1 : i = k
    · subst h1; simp at hn; simp [hn]
    · by_cases h2 : i < k
      · simp [h2]
      · simp; intros; omega
  · intro h h0
    have := congrArg (·.getLsbD k) h0
    rw [BitVec.getLsbD_eq_getElem hk] at h
    simp [BitVec.getLsbD_and, BitVec.getLsbD_shiftLeft, h, hk] at this

/-- Bit `i` of the packed control word. -/
theorem packWords_bit (c a b : BitVec 32) (i : Nat) (hi : i < 32) :
    bitAt (packWords c a b).1 i = c.getLsbD i := by
  have h : ∀ (x : BitVec 32) (r : Bytes), putBV x ++ r =
      [x.extractLsb' 0 8, x.extractLsb' 8 8, x.extractLsb' 16 8, x.extractLsb' 24 8] ++ r := by
    intro x r
    congr 1
    have hx := x.isLt
    simp only [putBV, le, List.cons.injEq, and_true]
    refine ⟨?_, ?_, ?_, ?_⟩ <;> apply BitVec.eq_of_toNat_eq <;>
      simp [BitVec.extractLsb'_toNat, Nat.shiftRight_eq_div_pow] <;> omega
  simp only [packWords, List.append_assoc, h, bitAt]
  have : i / 8 = 0 ∨ i / 8 = 1 ∨ i / 8 = 2 ∨ i / 8 = 3 := by omega
  rcases this with e | e | e | e <;> rw [e] <;>
    simp only [List.cons_append, List.getD_cons_zero, List.getD_cons_succ, BitVec.getLsbD_extractLsb'] <;>
    rw [show i % 8 = i - 8 * (i / 8) by omega, e] <;>
    try simp only [Nat.mul_zero, Nat.sub_zero, Nat.zero_add]
  all_goals
    rw [decide_eq_true (by omega), Bool.true_and]
    try (congr 1; omega)

theorem packWords_length (c a b : BitVec 32) : (packWords c a b).1.length = 12 ∧ (packWords c a b).2 = 12 := by
  simp [packWords]

/-- C19: a COUNTER survives packing and unpacking, whatever the target held before. -/
theorem C19_counter_roundtrip (t t0 : Counter) (rest : Bytes) :
    t0.unpack (t.pack.1 ++ rest) = .ok (t, 12, rest) ∧ t.pack.1.length = 12 ∧ t.pack.2 = 12 := by
  refine ⟨?_, packWords_length _ _ _⟩
  simp only [Counter.unpack, Counter.pack, packWords, List.append_assoc, readU32, Res.bind_ok]
  cases t
  simp [hasBit_eq, setBit_get]

/-- C19: a CONTROL survives packing and unpacking, whatever the target held before. -/
theorem C19_control_roundtrip (t t0 : Control) (rest : Bytes) :
    t0.unpack (t.pack.1 ++ rest) = .ok (t, 12, rest) ∧ t.pack.1.length = 12 ∧ t.pack.2 = 12 := by
  refine ⟨?_, packWords_length _ _ _⟩
  simp only [Control.unpack, Control.pack, packWords, List.append_assoc, readU32, Res.bind_ok]
  cases t
  simp [hasBit_eq, setBit_get]

/-- C19 for TIMER: all but FS, LS, OV and ER come back; those keep what the target held before. -/
theorem C19_timer_roundtrip_partial (t t0 : Timer) (rest : Bytes) :
    t0.unpack (t.pack.1 ++ rest) =
      .ok ({ t with fs := t0.fs, ls := t0.ls, ov := t0.ov, er := t0.er }, 12, rest) ∧
    t.pack.1.length = 12 ∧ t.pack.2 = 12 := by
  refine ⟨?_, packWords_length _ _ _⟩
  simp only [Timer.unpack, Timer.pack, packWords, List.append_assoc, readU32, Res.bind_ok]
  cases t
  simp [hasBit_eq, setBit_get]

/-- C19 fails for TIMER: whenever one of FS, LS, OV, ER is set, packing it and unpacking into a fresh TIMER
gives a different value. -/
theorem C19_timer_drops_bits (t : Timer) (h : t.fs = true ∨ t.ls = true ∨ t.ov = true ∨ t.er = true) (rest : Bytes) :
    ∀ t' n r, Timer.unpack ⟨0#32, 0#32, false, false, false, false, false, false, false⟩ (t.pack.1 ++ rest) =
      .ok (t', n, r) → t' ≠ t := by
  intro t' n r hu
  rw [(C19_timer_roundtrip_partial t _ rest).1] at hu
  injection hu with hu
  have e := congrArg (·.1) hu
  simp only at e
  intro h'
  rw [h'] at e
  rw [← e] at h
  simp at h

/-- The controller's bit positions in the control word. -/
theorem C19_bit_positions (t : Timer) (c : Counter) (k : Control) :
    (bitAt t.pack.1 31 = t.en ∧ bitAt t.pack.1 30 = t.tt ∧ bitAt t.pack.1 29 = t.dn) ∧
    (bitAt c.pack.1 31 = c.cu ∧ bitAt c.pack.1 30 = c.cd ∧ bitAt c.pack.1 29 = c.dn ∧
      bitAt c.pack.1 28 = c.ov ∧ bitAt c.pack.1 27 = c.un) ∧
    (bitAt k.pack.1 31 = k.en ∧ bitAt k.pack.1 30 = k.eu ∧ bitAt k.pack.1 29 = k.dn ∧ bitAt k.pack.1 28 = k.em ∧
      bitAt k.pack.1 27 = k.er ∧ bitAt k.pack.1 26 = k.ul ∧ bitAt k.pack.1 25 = k.in_ ∧ bitAt k.pack.1 24 = k.fd) := by
  simp [Timer.pack, Counter.pack, Control.pack, packWords_bit, setBit_get]

/-- C19: the other bits of the control word are zero. -/
theorem C19_other_bits (t : Timer) (c : Counter) (k : Control) (i : Nat) :
    (i < 29 → bitAt t.pack.1 i = false) ∧ (i < 27 → bitAt c.pack.1 i = false) ∧ (i < 24 → bitAt k.pack.1 i = false) := by
  refine ⟨fun h => ?_, fun h => ?_, fun h => ?_⟩
  all_goals
    simp only [Timer.pack, Counter.pack, Control.pack]
    rw [packWords_bit _ _ _ _ (by omega)]
    repeat rw [setBit_bit _ _ _ (by omega)]
    simp
    try omega

/-- C19: the words after the control word are those of the controller, in its order. -/
theorem C19_words (t : Timer) (c : Counter) (k : Control) :
    t.pack.1.drop 4 = le 4 t.pre.toNat ++ le 4 t.acc.toNat ∧ c.pack.1.drop 4 = le 4 c.pre.toNat ++ le 4 c.acc.toNat ∧
    k.pack.1.drop 4 = le 4 k.len.toNat ++ le 4 k.pos.toNat := by
  have h : ∀ x y z : BitVec 32, (packWords x y z).1.drop 4 = le 4 y.toNat ++ le 4 z.toNat := by
    intro x y z
    unfold packWords
    rw [List.append_assoc]
    exact List.drop_left' (by simp)
  exact ⟨h _ _ _, h _ _ _, h _ _ _⟩

/-- Twelve bytes are enough for all three, fewer are an error. -/
theorem C19_short_input (t : Timer) (c : Counter) (k : Control) (src : Bytes) :
    ((t.unpack src).isOk = decide (12 ≤ src.length)) ∧ ((c.unpack src).isOk = decide (12 ≤ src.length)) ∧
    ((k.unpack src).isOk = decide (12 ≤ src.length)) := by
  have rd : ∀ s : Bytes, (∃ v, readBV 32 s = .ok (v, s.drop 4) ∧ 4 ≤ s.length) ∨
      (∃ e, readBV 32 s = .err e ∧ s.length < 4) := by
    intro s
    unfold readBV readLE readN
    by_cases h : s.length < 4
    · right
      by_cases h0 : s = [] <;> simp [h, h0]
    · left
      have h0 : s ≠ [] := by intro h0; simp [h0] at h
      simp only [show ¬ s.length < 32 / 8 by omega, h0, show ¬ 32 / 8 = 0 by decide, if_false, Res.bind_ok]
      exact ⟨_, rfl, by omega⟩
  rcases rd src with ⟨v1, h1, l1⟩ | ⟨e, h1, l1⟩
  · rcases rd (src.drop 4) with ⟨v2, h2, l2⟩ | ⟨e, h2, l2⟩
    · rcases rd ((src.drop 4).drop 4) with ⟨v3, h3, l3⟩ | ⟨e, h3, l3⟩
      · simp only [List.length_drop] at l2 l3
        simp only [Timer.unpack, Counter.unpack, Control.unpack, h1, h2, h3, Res.bind_ok, Res.isOk]
        simp; omega
      · simp only [List.length_drop] at l2 l3
        simp only [Timer.unpack, Counter.unpack, Control.unpack, h1, h2, h3, Res.bind_ok, Res.bind_err, Res.isOk]
        simp; omega
    · simp only [List.length_drop] at l2
      simp only [Timer.unpack, Counter.unpack, Control.unpack, h1, h2, Res.bind_ok, Res.bind_err, Res.isOk]
      simp; omega
  · simp only [Timer.unpack, Counter.unpack, Control.unpack, h1, Res.bind_err, Res.isOk]
    simp; omega

example : (Counter.pack ⟨10#32, 0xFFFFFFFF#32, true, false, true, false, true⟩).1 =
    [0#8, 0#8, 0#8, 0xA8#8, 10#8, 0#8, 0#8, 0#8, 0xFF#8, 0xFF#8, 0xFF#8, 0xFF#8] := by decide
example : Timer.unpack ⟨0#32, 0#32, false, false, false, false, false, false, false⟩
    (Timer.pack ⟨5#32, 3#32, true, false, true, true, false, false, true⟩).1 =
    .ok (⟨5#32, 3#32, true, false, true, false, false, false, false⟩, 12, []) := by decide
example : (Control.pack ⟨1#32, 2#32, false, false, false, false, false, false, false, true⟩).1 =
    [0#8, 0#8, 0#8, 1#8, 1#8, 0#8, 0#8, 0#8, 2#8, 0#8, 0#8, 0#8] := by decide

end Gologix
