import Verif.Spec.Crc
import Verif.Model.TypeEncode
import Mathlib.Tactic.Ring
import Mathlib.Tactic.ComputeDegree
import Mathlib.Algebra.Field.ZMod
import Mathlib.Tactic.LinearCombination
import Mathlib.RingTheory.Coprime.Lemmas
/-
C42: the identifier of a structure is the CRC of its description.
-/
set_option linter.unusedSimpArgs false

namespace Gologix
open Polynomial Spec

/-! ### The table -/

/-- The register after one more bit of the message. -/
def crcBit (r : BitVec 16) (b : Bool) : BitVec 16 := crcShift (r ^^^ (if b then 1#16 else 0#16))

theorem crcShift_xor (a b : BitVec 16) : crcShift (a ^^^ b) = crcShift a ^^^ crcShift b := by
  unfold crcShift
  rw [BitVec.ushiftRight_xor_distrib, BitVec.getLsbD_xor]
  apply BitVec.eq_of_getLsbD_eq
  intro i hi
  cases a.getLsbD 0 <;> cases b.getLsbD 0 <;> simp [Bool.xor_assoc, Bool.xor_comm, Bool.xor_left_comm]

theorem crcShift_even (h : BitVec 16) (hh : h.getLsbD 0 = false) : crcShift h = h >>> 1 := by
  unfold crcShift; rw [hh]; simp

/-- Eight steps on a register whose low byte is zero shift it. -/
theorem crcShift_high (h : BitVec 16) (hh : h.setWidth 8 = 0#8) :
    crcShift (crcShift (crcShift (crcShift (crcShift (crcShift (crcShift (crcShift h))))))) = h >>> 8 := by
  have hb : ∀ k, k < 8 → h.getLsbD k = false := by
    intro k hk
    have := congrArg (·.getLsbD k) hh
    simpa [hk] using this
  have e : ∀ k, k < 8 → crcShift (h >>> k) = h >>> (k + 1) := by
    intro k hk
    rw [crcShift_even _ (by simp [hb k hk]), BitVec.shiftRight_add]
  have e0 : crcShift h = h >>> 1 := crcShift_even h (hb 0 (by omega))
  rw [e0, e 1 (by omega), e 2 (by omega), e 3 (by omega), e 4 (by omega), e 5 (by omega), e 6 (by omega),
    e 7 (by omega)]

/-- The table does eight steps of the register at once. -/
theorem crcByte_eq (r : BitVec 16) (b : Byte) :
    crcByte r b = crcShift (crcShift (crcShift (crcShift (crcShift (crcShift (crcShift (crcShift
      (r ^^^ b.setWidth 16)))))))) := by
  have hsplit : r ^^^ b.setWidth 16 = (r.setWidth 8 ^^^ b).setWidth 16 ^^^ ((r >>> 8) <<< 8) := by
    apply BitVec.eq_of_getLsbD_eq
    intro i hi
    by_cases h8 : i < 8
    · simp [h8, hi]
    · simp [h8, hi, show 8 + (i - 8) = i by omega, Bool.xor_comm]
  have hhi : ((r >>> 8) <<< 8).setWidth 8 = 0#8 := by
    apply BitVec.eq_of_getLsbD_eq
    intro i hi
    simp [hi]
  rw [hsplit]
  simp only [crcShift_xor]
  rw [crcShift_high _ hhi]
  unfold crcByte crcTable
  congr 1
  apply BitVec.eq_of_getLsbD_eq
  intro i hi
  by_cases h : 8 + i < 16
  · simp [h]
  · simp [h, BitVec.getLsbD_of_ge r (8 + i) (by omega)]

/-- The bits of a byte one after the other. -/
theorem crcBits_foldl (r : BitVec 16) (b : Byte) :
    ((List.range 8).map b.getLsbD).foldl crcBit r = crcByte r b := by
  rw [crcByte_eq]
  have hsplit : b.setWidth 16 = (if b.getLsbD 0 then 1#16 else 0#16) ^^^ (if b.getLsbD 1 then 2#16 else 0#16) ^^^
      (if b.getLsbD 2 then 4#16 else 0#16) ^^^ (if b.getLsbD 3 then 8#16 else 0#16) ^^^
      (if b.getLsbD 4 then 16#16 else 0#16) ^^^ (if b.getLsbD 5 then 32#16 else 0#16) ^^^
      (if b.getLsbD 6 then 64#16 else 0#16) ^^^ (if b.getLsbD 7 then 128#16 else 0#16) := by
    revert b; decide
  have pull : ∀ (c : Bool) (k : BitVec 16), crcShift (if c then k else 0#16) = if c then crcShift k else 0#16 := by
    intro c k; cases c <;> simp [crcShift]
  have hr : (List.range 8).map b.getLsbD = [b.getLsbD 0, b.getLsbD 1, b.getLsbD 2, b.getLsbD 3, b.getLsbD 4,
      b.getLsbD 5, b.getLsbD 6, b.getLsbD 7] := rfl
  rw [hr, hsplit]
  simp only [List.foldl_cons, List.foldl_nil, crcBit, crcShift_xor, pull]
  have s2 : crcShift 2#16 = 1#16 := by decide
  have s4 : crcShift 4#16 = 2#16 := by decide
  have s8 : crcShift 8#16 = 4#16 := by decide
  have s16 : crcShift 16#16 = 8#16 := by decide
  have s32 : crcShift 32#16 = 16#16 := by decide
  have s64 : crcShift 64#16 = 32#16 := by decide
  have s128 : crcShift 128#16 = 64#16 := by decide
  simp only [s2, s4, s8, s16, s32, s64, s128]
  ac_rfl

/-- The table-driven checksum is the bitwise one. -/
theorem checksum_bits (s : Bytes) : checksum s = (msgBits s).foldl crcBit 0#16 := by
  unfold checksum msgBits
  generalize (0#16) = r
  induction s generalizing r with
  | nil => rfl
  | cons b bs ih =>
    rw [List.foldl_cons, List.flatMap_cons, List.foldl_append, crcBits_foldl, ih]

/-! ### Polynomials -/

theorem bitsPoly_foldl (bits : List Bool) (p : (ZMod 2)[X]) :
    bits.foldl (fun p b => X * p + C (bit2 b)) p = p * X ^ bits.length + bitsPoly bits := by
  induction bits generalizing p with
  | nil => simp [bitsPoly]
  | cons b bs ih =>
    unfold bitsPoly
    simp only [List.foldl_cons, List.length_cons]
    rw [ih, ih]
    ring

theorem bitsPoly_append (a b : List Bool) : bitsPoly (a ++ b) = bitsPoly a * X ^ b.length + bitsPoly b := by
  conv => lhs; unfold bitsPoly
  rw [List.foldl_append]
  exact bitsPoly_foldl b _

theorem bitsPoly_cons (b : Bool) (bs : List Bool) : bitsPoly (b :: bs) = C (bit2 b) * X ^ bs.length + bitsPoly bs := by
  have := bitsPoly_append [b] bs
  simpa [bitsPoly] using this

theorem bitsPoly_snoc (bs : List Bool) (b : Bool) : bitsPoly (bs ++ [b]) = X * bitsPoly bs + C (bit2 b) := by
  rw [bitsPoly_append]
  simp [bitsPoly]
  ring

theorem bitsPoly_degree (bits : List Bool) : (bitsPoly bits).degree < bits.length := by
  induction bits with
  | nil => simp [bitsPoly]
  | cons b bs ih =>
    rw [bitsPoly_cons]
    refine lt_of_le_of_lt (degree_add_le _ _) (max_lt ?_ ?_)
    · refine lt_of_le_of_lt (degree_C_mul_X_pow_le _ _) ?_
      exact_mod_cast Nat.lt_succ_self _
    · refine lt_trans ih ?_
      exact_mod_cast Nat.lt_succ_self _

theorem bit2_inj {a b : Bool} (h : bit2 a = bit2 b) : a = b := by
  revert h; cases a <;> cases b <;> decide

theorem bitsPoly_inj {a b : List Bool} (hl : a.length = b.length) (h : bitsPoly a = bitsPoly b) : a = b := by
  induction a generalizing b with
  | nil => exact (List.eq_nil_of_length_eq_zero hl.symm).symm
  | cons x xs ih =>
    cases b with
    | nil => simp at hl
    | cons y ys =>
      have hl' : xs.length = ys.length := by simpa using hl
      rw [bitsPoly_cons, bitsPoly_cons] at h
      have hx : (bitsPoly xs).coeff xs.length = 0 := coeff_eq_zero_of_degree_lt (bitsPoly_degree xs)
      have hy : (bitsPoly ys).coeff xs.length = 0 := by
        rw [hl']; exact coeff_eq_zero_of_degree_lt (bitsPoly_degree ys)
      rw [hl'] at hx hy
      have hc := congrArg (·.coeff ys.length) h
      simp only [coeff_add, coeff_C_mul, coeff_X_pow, hx, hy, hl', add_zero, if_true, mul_one] at hc
      have hxy : x = y := bit2_inj (by simpa [hl'] using hc)
      subst hxy
      rw [hl'] at h
      rw [ih hl' (add_left_cancel h)]

theorem two_zero : (2 : (ZMod 2)[X]) = 0 := by
  have : (2 : ZMod 2) = 0 := by decide
  have h : (C 2 : (ZMod 2)[X]) = 2 := map_ofNat C 2
  rw [← h, this, C_0]

theorem bit2_xor (a b : Bool) : bit2 (a ^^ b) = bit2 a + bit2 b := by
  cases a <;> cases b <;> decide

/-- One step of the register is one step of the division. -/
theorem crcBit_poly (r : BitVec 16) (b : Bool) :
    bitsPoly (crcBits (crcBit r b)) =
      X * bitsPoly (crcBits r) + C (bit2 b) * X ^ 16 + C (bit2 (r.getLsbD 0 ^^ b)) * generator := by
  have hr : ∀ v : BitVec 16, crcBits v = [v.getLsbD 0, v.getLsbD 1, v.getLsbD 2, v.getLsbD 3, v.getLsbD 4,
      v.getLsbD 5, v.getLsbD 6, v.getLsbD 7, v.getLsbD 8, v.getLsbD 9, v.getLsbD 10, v.getLsbD 11, v.getLsbD 12,
      v.getLsbD 13, v.getLsbD 14, v.getLsbD 15] := fun _ => rfl
  have hb : ∀ k, k < 16 → (crcBit r b).getLsbD k =
      (r.getLsbD (k + 1) ^^ ((r.getLsbD 0 ^^ b) && (k == 0 || k == 13 || k == 15))) := by
    intro k hk
    have h1 : ∀ j, 0 < j → (r ^^^ (if b then 1#16 else 0#16)).getLsbD j = r.getLsbD j := by
      intro j hj
      cases b
      · simp
      · have h1 : (1#16).getLsbD j = false := by rw [BitVec.getLsbD_one]; simp; omega
        rw [if_pos rfl, BitVec.getLsbD_xor, h1, Bool.xor_false]
    have h0 : (r ^^^ (if b then 1#16 else 0#16)).getLsbD 0 = (r.getLsbD 0 ^^ b) := by cases b <;> simp
    unfold crcBit crcShift
    rw [BitVec.getLsbD_xor, BitVec.getLsbD_ushiftRight, Nat.add_comm 1 k, h1 (k + 1) (by omega), h0]
    congr 1
    cases (r.getLsbD 0 ^^ b)
    · simp
    · simp only [if_true, Bool.true_and]
      revert k; decide
  have h16 : r.getLsbD 16 = false := BitVec.getLsbD_of_ge _ _ (by omega)
  rw [hr, hr, hb 0, hb 1, hb 2, hb 3, hb 4, hb 5, hb 6, hb 7, hb 8, hb 9, hb 10, hb 11, hb 12, hb 13, hb 14, hb 15]
  any_goals omega
  simp only [Nat.reduceAdd, h16, Nat.reduceBEq, Bool.or_false, Bool.or_true, Bool.and_true, Bool.and_false,
    Bool.xor_false, Bool.false_or, Bool.false_xor, beq_self_eq_true, Bool.true_or]
  simp only [bitsPoly, List.foldl_cons, List.foldl_nil, generator, bit2_xor, C_add]
  linear_combination (-(C (bit2 (r.getLsbD 0)) + C (bit2 b)) * X ^ 16) * two_zero

theorem generator_degree : generator.degree = 16 := by
  unfold generator
  compute_degree!

theorem generator_monic : generator.Monic := by
  unfold generator
  monicity!

theorem crc_foldl (bits : List Bool) :
    ∃ q, bitsPoly bits * X ^ 16 = bitsPoly (crcBits (bits.foldl crcBit 0#16)) + generator * q := by
  induction bits using List.reverseRecOn with
  | nil => exact ⟨0, by simp [bitsPoly, crcBits, bit2, List.range, List.range.loop]⟩
  | append_singleton bs b ih =>
    obtain ⟨q, hq⟩ := ih
    rw [List.foldl_append, List.foldl_cons, List.foldl_nil, crcBit_poly, bitsPoly_snoc]
    refine ⟨X * q - C (bit2 ((bs.foldl crcBit 0#16).getLsbD 0 ^^ b)), ?_⟩
    linear_combination X * hq

/-- C42: the checksum of any string is its CRC. -/
theorem C42_crc (s : Bytes) : IsCrc s (checksum s) := by
  obtain ⟨q, hq⟩ := crc_foldl (msgBits s)
  rw [← checksum_bits] at hq
  have hd : (bitsPoly (crcBits (checksum s))).degree < generator.degree := by
    rw [generator_degree]
    have := bitsPoly_degree (crcBits (checksum s))
    simpa [crcBits] using this
  exact ((div_modByMonic_unique q _ generator_monic ⟨hq.symm, hd⟩).2).symm

/-- The CRC is determined by the string. -/
theorem C42_crc_unique (s : Bytes) (v : BitVec 16) (h : IsCrc s v) : v = checksum s := by
  have h' := C42_crc s
  unfold IsCrc at h h'
  rw [← h'] at h
  have hb := bitsPoly_inj (by simp [crcBits]) h
  apply BitVec.eq_of_getLsbD_eq
  intro i hi
  have := congrArg (·[i]?) hb
  simpa [crcBits, hi] using this

/-- C42: a change of the string in a burst of up to 16 bits changes the checksum. -/
theorem C42_burst (s t : Bytes) (h : BurstChange s t) : checksum s ≠ checksum t := by
  obtain ⟨pre, x, y, post, hs, ht, hl, h16, hne⟩ := h
  intro he
  obtain ⟨q, hq⟩ := crc_foldl (msgBits s)
  obtain ⟨q', hq'⟩ := crc_foldl (msgBits t)
  rw [← checksum_bits] at hq hq'
  rw [he, hs] at hq
  rw [ht] at hq'
  have hdvd : generator ∣ (bitsPoly x - bitsPoly y) * X ^ (post.length + 16) := by
    refine ⟨q - q', ?_⟩
    simp only [bitsPoly_append, hl] at hq hq'
    linear_combination hq - hq'
  have hcop : IsCoprime generator (X ^ (post.length + 16)) := by
    apply IsCoprime.pow_right
    exact ⟨1, -(X ^ 15 + X ^ 14 + X), by unfold generator; ring⟩
  have hd := hcop.dvd_of_dvd_mul_right hdvd
  have hdeg : (bitsPoly x - bitsPoly y).degree < generator.degree := by
    rw [generator_degree]
    refine lt_of_le_of_lt (degree_sub_le _ _) (max_lt ?_ ?_)
    · exact lt_of_lt_of_le (bitsPoly_degree x) (by exact_mod_cast h16)
    · exact lt_of_lt_of_le (bitsPoly_degree y) (by rw [← hl]; exact_mod_cast h16)
  have h0 := eq_zero_of_dvd_of_degree_lt hd hdeg
  exact hne (bitsPoly_inj hl (sub_eq_zero.mp h0))

/-- C42: the identifier of a structure without a fixed description is the CRC of its description. -/
theorem C42_identifier (name : Str) (fields : List DTy) (s : Str) (i : BitVec 16)
    (h : typeEncode (.struct name fields) = .ok (s, i)) : IsCrc s i := by
  simp only [typeEncode] at h
  cases he : encodeFields fields name 0 with
  | err e => rw [he] at h; cases h
  | panic => rw [he] at h; cases h
  | ok d =>
    rw [he] at h
    have h' : (d, checksum d) = (s, i) := by simpa using h
    injection h' with h1 h2
    rw [← h1, ← h2]
    exact C42_crc d

/-- The description of `struct MyT { a int32; b, c bool; d [3]int16 }`. -/
example : typeEncode (.struct (str "MyT") [.basic (str "int32"), .bool, .bool, .arr 3 (.basic (str "int16"))]) =
    .ok (str "MyT,DINT,SINT,INT[3]", 0xF11B#16) := by decide +kernel

/-- The names of one-letter changes differ in a burst of 8 bits. -/
example : checksum (str "MyT,DINT") ≠ checksum (str "MyU,DINT") :=
  C42_burst _ _ ⟨(msgBits (str "MyT,DINT")).take 16, ((msgBits (str "MyT,DINT")).drop 16).take 8,
    ((msgBits (str "MyU,DINT")).drop 16).take 8, (msgBits (str "MyT,DINT")).drop 24, by decide, by decide, by decide,
    by decide, by decide⟩

/-- The built-in structures have fixed identifiers, which are not the CRC of their descriptions
(lgxtypes/string.go:8-10, timer.go:80-82, counter.go:80-82, control.go:95-97). -/
theorem C42_builtin_fixed : ∀ p ∈ [(str "STRING,DINT,SINT[82]", 0x0FCE#16), (str "TIMER,DINT,DINT,DINT", 0x0F83#16),
    (str "COUNTER,DINT,DINT,DINT", 0x0F82#16), (str "CONTROL,DINT,DINT,DINT", 0x0F81#16)], ¬ IsCrc p.1 p.2 := by
  intro p hp h
  have := C42_crc_unique _ _ h
  revert this
  simp only [List.mem_cons, List.not_mem_nil, or_false] at hp
  rcases hp with rfl | rfl | rfl | rfl <;> decide +kernel

/-- Two structures with the same description have the same identifier although their fields differ: unsigned and
signed bytes have the same name. -/
example : typeEncode (.struct (str "T") [.basic (str "uint8")]) = typeEncode (.struct (str "T") [.basic (str "int8")]) := by
  decide +kernel

end Gologix
