import Verif.Spec.Pack
import Verif.Props.Pack
set_option linter.unusedSimpArgs false
namespace Gologix
open Spec

/-! ### C17 -/

theorem bitAt_append (a b : Bytes) (i : Nat) :
    bitAt (a ++ b) i = if i < 8 * a.length then bitAt a i else bitAt b (i - 8 * a.length) := by
  unfold bitAt
  split
  · rename_i h
    rw [List.getD_eq_getElem?_getD, List.getD_eq_getElem?_getD, List.getElem?_append_left (by omega)]
  · rename_i h
    rw [List.getD_eq_getElem?_getD, List.getD_eq_getElem?_getD, List.getElem?_append_right (by omega)]
    rw [show (i - 8 * a.length) / 8 = i / 8 - a.length by omega, show (i - 8 * a.length) % 8 = i % 8 by omega]

theorem bitAt_high (a : Bytes) (i : Nat) (h : 8 * a.length ≤ i) : bitAt a i = false := by
  unfold bitAt
  rw [List.getD_eq_getElem?_getD, List.getElem?_eq_none (by omega)]
  simp

theorem bitAt_single (b : Byte) (i : Nat) : bitAt [b] i = b.getLsbD i := by
  unfold bitAt
  by_cases h : i < 8
  · rw [Nat.div_eq_of_lt h, Nat.mod_eq_of_lt h]; rfl
  · rw [List.getD_eq_getElem?_getD, List.getElem?_eq_none (by simp; omega), BitVec.getLsbD_of_ge b i (by omega)]
    simp

theorem bitAt_le (k v i : Nat) : bitAt (le k v) i = (decide (i < 8 * k) && v.testBit i) := by
  induction k generalizing v i with
  | zero => simp [le, bitAt]
  | succ k ih =>
    rw [le, show BitVec.ofNat 8 v :: le k (v / 256) = [BitVec.ofNat 8 v] ++ le k (v / 256) from rfl,
      bitAt_append]
    simp only [List.length_singleton]
    split
    · rename_i h
      rw [bitAt_single, BitVec.getLsbD_ofNat]
      simp [show i < 8 by omega, show i < 8 * (k + 1) by omega]
    · rename_i h
      rw [ih, Nat.testBit_div_two_pow (n := 8) v |> fun e => show (v / 256).testBit (i - 8 * 1) = v.testBit (8 + (i - 8 * 1)) from by
        simpa [Nat.add_comm] using e (i := i - 8 * 1)]
      rw [show 8 + (i - 8 * 1) = i by omega]
      congr 1
      simp; omega

theorem covered_append (a b : List Leaf) (i : Nat) : covered (a ++ b) i = (covered a i || covered b i) := by
  simp [covered]

theorem covered_shift (s : Nat) (ls : List Leaf) (i : Nat) :
    covered (ls.map (Leaf.shift s)) i = (decide (s ≤ i) && covered ls (i - s)) := by
  induction ls with
  | nil => simp [covered]
  | cons l ls ih =>
    have e : ∀ l' ls', covered (l' :: ls') i = (covered [l'] i || covered ls' i) := by
      intro l' ls'; simp [covered]
    have e' : covered (l :: ls) (i - s) = (covered [l] (i - s) || covered ls (i - s)) := by simp [covered]
    rw [List.map_cons, e, ih, e', Bool.and_or_distrib_left]
    congr 1
    simp only [covered, Leaf.shift, List.any_cons, List.any_nil, Bool.or_false]
    by_cases h : s ≤ i
    · rw [show i - (l.off + s) = i - s - l.off by omega]
      simp only [h, decide_true, Bool.true_and]
      congr 1
      congr 1
      · simp; omega
      · simp; omega
    · simp [h]; omega

theorem scalars_enc (t : Ty) (v : t.Val) : t.enc v = (scalars t v).flatMap fun x => le x.1 x.2 := by
  induction t with
  | num k => simp [Ty.enc, scalars]
  | bool => cases (show Bool from v) <;> rfl
  | arr n t ih =>
    show encRep t.enc n v = _
    simp only [scalars]
    induction n with
    | zero => rfl
    | succ n ihn =>
      simp only [encRep, Rep.toList, List.flatMap_cons, List.flatMap_append]
      rw [ih, ihn v.2]
  | nil => rfl
  | cons np f rest ihf ihr => simp [Ty.enc, scalars, ihf, ihr]

theorem covered_run (c : Nat) (xs : List (Nat × Nat)) (i : Nat) :
    covered (run c (xs.map fun x => (8 * x.1, x.2))) i =
      (decide (c ≤ i) && bitAt (xs.flatMap fun x => le x.1 x.2) (i - c)) := by
  induction xs generalizing c with
  | nil => simp [run, covered, bitAt]
  | cons x xs ih =>
    have e : ∀ l' ls', covered (l' :: ls') i = (covered [l'] i || covered ls' i) := by
      intro l' ls'; simp [covered]
    simp only [List.map_cons, run, List.flatMap_cons]
    rw [e, ih, bitAt_append, le_length, bitAt_le]
    simp only [covered, List.any_cons, List.any_nil, Bool.or_false]
    by_cases h1 : c ≤ i
    · by_cases h2 : i - c < 8 * x.1
      · simp [h1, h2, show i < c + 8 * x.1 by omega, show ¬ c + 8 * x.1 ≤ i by omega]
      · simp [h1, h2, show ¬ i < c + 8 * x.1 by omega, show c + 8 * x.1 ≤ i by omega,
          show i - (c + 8 * x.1) = i - c - 8 * x.1 by omega]
    · simp [h1]; omega

theorem run_map_val (c : Nat) (xs : List (Nat × Nat)) : (run c xs).map (·.val) = xs.map (·.2) := by
  induction xs generalizing c with
  | nil => rfl
  | cons x xs ih => simp [run, ih]

theorem align_eq (t : Ty) : t.align = natAlign t ∧ t.goAlign = natAlign t := by
  induction t with
  | num k => exact ⟨rfl, rfl⟩
  | bool => exact ⟨rfl, rfl⟩
  | arr n t ih => exact ⟨ih.2, ih.2⟩
  | nil => exact ⟨rfl, rfl⟩
  | cons np f rest ihf ihr => simp [Ty.align, Ty.goAlign, natAlign, ihf, ihr]

theorem natAlign_pos (t : Ty) (hw : t.wf = true) : 0 < natAlign t := by
  induction t with
  | num k => simp [Ty.wf] at hw; simp [natAlign]; omega
  | bool => simp [natAlign]
  | arr n t ih => exact ih hw
  | nil => simp [natAlign]
  | cons np f rest ihf ihr =>
    simp only [Ty.wf, Bool.and_eq_true] at hw
    have := ihf hw.1.1
    simp only [natAlign]; omega

theorem goSize_numbers {t : Ty} (h : numbers t = true) : t.goSize = t.flat := by
  induction t with
  | num k => rfl
  | arr n t ih =>
    have := ih h
    simp only [Ty.goSize, Ty.goSizeEnd, Ty.flat] at this ⊢
    rw [this]
  | _ => simp [numbers] at h

theorem bytes_flat (t : Ty) : bytes t = t.flat := by
  induction t with
  | num k => rfl
  | bool => rfl
  | arr n t ih => simp only [bytes, Ty.flat, ih]
  | nil => rfl
  | cons np f rest ihf ihr => simp only [bytes, Ty.flat, ihf, ihr]

theorem roundUp_of_mod {n a : Nat} (ha : 0 < a) (h : n % a = 0) : roundUp n a = n := by
  obtain ⟨q, rfl⟩ := Nat.dvd_of_mod_eq_zero h
  unfold roundUp
  rw [show (a * q + (a - 1)) / a = q by
    rw [Nat.div_eq_iff ha, Nat.mul_comm]; omega, Nat.mul_comm]

theorem natAlign_cases (t : Ty) (hw : t.wf = true) :
    natAlign t = 1 ∨ natAlign t = 2 ∨ natAlign t = 4 ∨ natAlign t = 8 := by
  induction t with
  | num k => simpa [Ty.wf, natAlign] using hw
  | bool => simp [natAlign]
  | arr n t ih => exact ih hw
  | nil => simp [natAlign]
  | cons np f rest ihf ihr =>
    simp only [Ty.wf, Bool.and_eq_true] at hw
    have h1 := ihf hw.1.1
    have h2 := ihr hw.1.2
    simp only [natAlign]
    omega

theorem natAlign_dvd (np : Bool) (f rest : Ty) (hf : f.wf = true) (hr : rest.wf = true) :
    natAlign f ∣ natAlign (.cons np f rest) ∧ natAlign rest ∣ natAlign (.cons np f rest) := by
  have h1 := natAlign_cases f hf
  have h2 := natAlign_cases rest hr
  simp only [natAlign]
  rcases h1 with h1 | h1 | h1 | h1 <;> rcases h2 with h2 | h2 | h2 | h2 <;> rw [h1, h2] <;> decide

/-- Moving a structure by a multiple of its alignment changes nothing. -/
theorem dense_shift (t : Ty) (hw : t.wf = true) (o d : Nat) (h : natAlign t ∣ d) : dense t (o + d) = dense t o := by
  have md : ∀ {a}, a ∣ d → ∀ x, (x + d) % a = x % a := by
    rintro a ⟨q, rfl⟩ x
    exact Nat.add_mul_mod_self_left ..
  induction t generalizing o with
  | num k => simp only [dense, md (a := k) h]
  | bool => rfl
  | arr n t ih => simp only [dense, ih hw o h]
  | nil => rfl
  | cons np f rest ihf ihr =>
    simp only [Ty.wf, Bool.and_eq_true] at hw
    obtain ⟨d1, d2⟩ := natAlign_dvd np f rest hw.1.1 hw.1.2
    have e := ihr hw.1.2 (o + bytes f) (Nat.dvd_trans d2 h)
    rw [show o + bytes f + d = o + d + bytes f by omega] at e
    simp only [dense, md (Nat.dvd_trans d1 h), ihf hw.1.1 o (Nat.dvd_trans d1 h), e]

theorem dense_zero {t : Ty} (hw : t.wf = true) {o : Nat} (h : o % natAlign t = 0) (hd : dense t o = true) :
    dense t 0 = true := by
  have := dense_shift t hw 0 o (Nat.dvd_of_mod_eq_zero h)
  rw [Nat.zero_add] at this
  rw [← this]; exact hd

/-- Go adds no padding to a type that needs none. -/
theorem goSize_dense (t : Ty) (hw : t.wf = true) (hd : dense t 0 = true) (h8 : bytes t % natAlign t = 0) :
    t.goSize = t.flat := by
  suffices h : (dense t 0 = true → bytes t % natAlign t = 0 → t.goSize = t.flat) ∧
      ∀ o, dense t o = true → t.isStruct = true → t.goSizeEnd.2 o = o + t.flat from h.1 hd h8
  clear hd h8
  induction t with
  | num k => exact ⟨fun _ _ => rfl, by simp [Ty.isStruct]⟩
  | bool => exact ⟨fun _ _ => rfl, by simp [Ty.isStruct]⟩
  | arr n t ih =>
    refine ⟨fun hd _ => ?_, by simp [Ty.isStruct]⟩
    simp only [dense, Bool.and_eq_true, beq_iff_eq] at hd
    have := (ih hw).1 hd.2 hd.1.2
    simp only [Ty.goSize, Ty.goSizeEnd, Ty.flat] at this ⊢
    rw [this]
  | nil => exact ⟨fun _ _ => rfl, fun _ _ _ => rfl⟩
  | cons np f rest ihf ihr =>
    have hw' := hw
    simp only [Ty.wf, Bool.and_eq_true] at hw
    have ending : ∀ o, dense (.cons np f rest) o = true →
        (Ty.cons np f rest).goSizeEnd.2 o = o + (Ty.cons np f rest).flat := by
      intro o hd
      simp only [dense, Bool.and_eq_true, beq_iff_eq, decide_eq_true_eq] at hd
      obtain ⟨⟨⟨⟨d1, d2⟩, d3⟩, d4⟩, d5⟩ := hd
      have e1 := (ihf hw.1.1).1 (dense_zero hw.1.1 d1 d4) d3
      rw [bytes_flat] at d2 d5
      have e2 := (ihr hw.1.2).2 _ d5 hw.2
      simp only [Ty.goSize] at e1
      have e3 : roundUp o f.goAlign = o := by
        rw [(align_eq f).2]
        exact roundUp_of_mod (natAlign_pos f hw.1.1) d1
      cases rest with
      | nil =>
        simp only [Ty.goSizeEnd, Ty.flat, e1, e3]
        rw [if_neg (by omega), Nat.add_zero]
      | cons np' g rest' =>
        have : (Ty.cons np f (.cons np' g rest')).goSizeEnd.2 o =
          (Ty.cons np' g rest').goSizeEnd.2 (roundUp o f.goAlign + f.goSizeEnd.1) := rfl
        rw [this, e3, e1, e2]
        simp only [Ty.flat]; omega
      | num k => simp [Ty.isStruct] at hw
      | bool => simp [Ty.isStruct] at hw
      | arr n t => simp [Ty.isStruct] at hw
    refine ⟨fun hd h8 => ?_, fun o hd _ => ending o hd⟩
    have e : (Ty.cons np f rest).goSize =
        roundUp ((Ty.cons np f rest).goSizeEnd.2 0) (Ty.cons np f rest).goAlign := rfl
    rw [e, ending 0 hd, (align_eq _).2, Nat.zero_add, ← bytes_flat]
    exact roundUp_of_mod (natAlign_pos _ hw') h8

theorem goSize_plain {t : Ty} (hw : t.wf = true) (h : plain t = true) (hs : t.isStruct = false) : t.goSize = t.flat := by
  cases t with
  | num k => rfl
  | bool => rfl
  | arr n t =>
    simp only [plain, Bool.or_eq_true, beq_iff_eq] at h
    rcases h with (rfl | h) | h
    · rfl
    · exact goSize_numbers (t := .arr n t) h
    · refine goSize_dense (.arr n t) hw h ?_
      simp only [dense, Bool.and_eq_true, beq_iff_eq] at h
      exact Nat.mod_eq_zero_of_dvd (Nat.dvd_mul_left_of_dvd (Nat.dvd_of_mod_eq_zero h.1.2) n)
  | nil => simp [Ty.isStruct] at hs
  | cons np f rest => simp [Ty.isStruct] at hs

/-- The packer has written the scalars `ls` up to bit `c`. -/
structure Written (st : PackSt) (ls : List Leaf) (c : Nat) : Prop where
  pos  : st.pos = st.out.length
  bit  : st.bitpos < 8
  cur  : c = 8 * st.out.length + st.bitpos
  bits : ∀ i, bitAt (st.out ++ [st.bitpack]) i = covered ls i
  high : ∀ i, c ≤ i → covered ls i = false

theorem Written.packHigh {st : PackSt} {ls : List Leaf} {c : Nat} (h : Written st ls c) (j : Nat)
    (hj : st.bitpos ≤ j) : st.bitpack.getLsbD j = false := by
  have := h.bits (8 * st.out.length + j)
  rw [h.high _ (by rw [h.cur]; omega), bitAt_append, if_neg (by omega), bitAt_single] at this
  rwa [show 8 * st.out.length + j - 8 * st.out.length = j by omega] at this

theorem written_bit {st : PackSt} {ls : List Leaf} {c : Nat} (h : Written st ls c) (b : Bool) :
    Written (st.bit b) (ls ++ [⟨0, c, 1, b.toNat⟩]) (c + 1) := by
  have hb := h.bit
  have hcov : ∀ i, covered [⟨0, c, 1, b.toNat⟩] i = (b && decide (i = c)) := by
    intro i
    simp only [covered, List.any_cons, List.any_nil, Bool.or_false]
    by_cases hi : i = c
    · subst hi; cases b <;> simp
    · by_cases h1 : c ≤ i
      · simp [hi, show ¬ i < c + 1 by omega]
      · simp [hi, h1]
  have hbits : ∀ i, bitAt (st.out ++ [st.bitpack ||| (boolByte b <<< st.bitpos)]) i =
      covered (ls ++ [⟨0, c, 1, b.toNat⟩]) i := by
    intro i
    rw [covered_append, hcov, ← h.bits, bitAt_append, bitAt_append]
    split
    · rw [show decide (i = c) = false by simp; rw [h.cur]; omega]; simp
    · rw [bitAt_single, bitAt_single, or_bit _ _ _ _ hb]
      congr 2
      rw [h.cur]
      simp; omega
  have hhigh : ∀ i, c + 1 ≤ i → covered (ls ++ [⟨0, c, 1, b.toNat⟩]) i = false := by
    intro i hi
    rw [covered_append, hcov, h.high i (by omega)]
    simp; omega
  by_cases h7 : 8 ≤ st.bitpos + 1
  · have e : st.bit b = ⟨st.out ++ [st.bitpack ||| (boolByte b <<< st.bitpos)], st.pos + 1, 0, 0#8⟩ := by
      simp only [PackSt.bit]; rw [if_pos h7]
    rw [e]
    refine ⟨by simp [h.pos], by simp, by simp [h.cur]; omega, fun i => ?_, hhigh⟩
    rw [bitAt_append]
    split
    · exact hbits i
    · rename_i hi
      rw [bitAt_single, hhigh i (by rw [h.cur]; simp at hi; omega)]
      simp
  · have e : st.bit b = ⟨st.out, st.pos, st.bitpos + 1, st.bitpack ||| (boolByte b <<< st.bitpos)⟩ := by
      simp only [PackSt.bit]; rw [if_neg h7]
    rw [e]
    exact ⟨h.pos, by simp only; omega, by simp only [h.cur]; omega, hbits, hhigh⟩

theorem written_bits {st : PackSt} {ls : List Leaf} {c : Nat} (h : Written st ls c) (bs : List Bool) :
    Written (bs.foldl PackSt.bit st) (ls ++ run c (bs.map fun b => (1, b.toNat))) (c + bs.length) := by
  induction bs generalizing st ls c with
  | nil => simpa [run] using h
  | cons b bs ih =>
    have := ih (written_bit h b)
    simp only [List.foldl_cons, List.map_cons, run, List.length_cons]
    rw [List.append_assoc] at this
    rw [show c + (bs.length + 1) = c + 1 + bs.length by omega]
    exact this

theorem written_flush {st : PackSt} {ls : List Leaf} {c : Nat} (h : Written st ls c) :
    Written st.flush ls (roundUp c 8) ∧ st.flush.bitpos = 0 ∧ st.flush.bitpack = 0#8 := by
  have hb := h.bit
  unfold PackSt.flush
  split
  · rename_i h0
    have hc : roundUp c 8 = 8 * (st.out.length + 1) := by unfold roundUp; rw [h.cur]; omega
    rw [hc]
    refine ⟨⟨by simp [h.pos], by simp, by simp, fun i => ?_, fun i hi => h.high i (by rw [h.cur]; omega)⟩, rfl, rfl⟩
    rw [bitAt_append]
    split
    · exact h.bits i
    · rename_i hi
      rw [bitAt_single, h.high i (by rw [h.cur]; simp at hi; omega)]
      simp
  · rename_i h0
    have hc : roundUp c 8 = c := by unfold roundUp; rw [h.cur]; omega
    rw [hc]
    refine ⟨h, by omega, ?_⟩
    apply BitVec.eq_of_getLsbD_eq
    intro i hi
    rw [h.packHigh i (by omega)]; simp

/-- Appending whole bytes to a flushed state. -/
theorem written_bytes {st : PackSt} {ls : List Leaf} {c : Nat} (h : Written st ls c) (h0 : st.bitpos = 0)
    (hp : st.bitpack = 0#8) (X : Bytes) (ls' : List Leaf)
    (hX : ∀ i, covered ls' i = (decide (c ≤ i) && bitAt X (i - c))) :
    Written { st with out := st.out ++ X, pos := st.pos + X.length } (ls ++ ls') (c + 8 * X.length) := by
  have hc : c = 8 * st.out.length := by rw [h.cur, h0]; omega
  refine ⟨by simp [h.pos], h.bit, by simp [hc, h0]; omega, fun i => ?_, fun i hi => ?_⟩
  · have hi := h.bits i
    simp only [hp, bitAt_append, bitAt_single] at hi ⊢
    rw [covered_append, ← hi, hX]
    by_cases h1 : i < 8 * st.out.length
    · have h3 : i < 8 * (st.out ++ X).length := by simp; omega
      rw [if_pos h3, if_pos h1, if_pos h1, show decide (c ≤ i) = false by simp; omega]
      simp
    · rw [if_neg h1, if_neg h1, show decide (c ≤ i) = true by simp; omega]
      by_cases h3 : i < 8 * (st.out ++ X).length
      · rw [if_pos h3, hc]; simp
      · rw [if_neg h3, bitAt_high X _ (by simp at h3; omega)]; simp
  · rw [covered_append, h.high i (by omega), hX, bitAt_high X _ (by omega)]
    simp

theorem written_pad {st : PackSt} {ls : List Leaf} {c : Nat} (h : Written st ls c) (h0 : st.bitpos = 0)
    (hp : st.bitpack = 0#8) (a : Nat) (ha : 0 < a) :
    Written (st.pad a) ls (roundUp c (8 * a)) ∧ (st.pad a).bitpos = 0 ∧ (st.pad a).bitpack = 0#8 := by
  have hc : c = 8 * st.out.length := by rw [h.cur, h0]; omega
  have hmod := Nat.mod_lt st.pos ha
  have hdm := Nat.div_add_mod st.pos a
  unfold PackSt.pad
  simp only
  split
  · rename_i hr
    have hm : 0 < st.pos % a := by omega
    have e : roundUp c (8 * a) = c + 8 * (List.replicate (a - st.pos % a) 0#8).length := by
      have : (c + (8 * a - 1)) / (8 * a) = st.pos / a + 1 := by
        rw [Nat.div_eq_iff (by omega)]
        rw [hc, ← h.pos]
        have e1 : (st.pos / a + 1) * (8 * a) = 8 * (a * (st.pos / a)) + 8 * a := by
          simp [Nat.add_mul, Nat.mul_add, Nat.mul_comm, Nat.mul_left_comm, Nat.mul_assoc]
        omega
      unfold roundUp
      rw [this, List.length_replicate]
      have e1 : (st.pos / a + 1) * (8 * a) = 8 * (a * (st.pos / a)) + 8 * a := by
        simp [Nat.add_mul, Nat.mul_add, Nat.mul_comm, Nat.mul_left_comm, Nat.mul_assoc]
      rw [e1, hc, ← h.pos]
      omega
    rw [e]
    have := written_bytes h h0 hp (List.replicate (a - st.pos % a) 0#8) [] (by
      intro i
      have : bitAt (List.replicate (a - st.pos % a) 0#8) (i - c) = false := by
        unfold bitAt
        rw [show (List.replicate (a - st.pos % a) 0#8).getD ((i - c) / 8) 0#8 = 0#8 by
          simp only [List.getD_eq_getElem?_getD, List.getElem?_replicate]; split <;> rfl]
        simp
      rw [this]; simp [covered])
    simp only [List.append_nil, List.length_replicate] at this ⊢
    exact ⟨this, h0, hp⟩
  · rename_i hr
    have hm : st.pos % a = 0 := by omega
    have e : roundUp c (8 * a) = c := by
      have : (c + (8 * a - 1)) / (8 * a) = st.pos / a := by
        rw [Nat.div_eq_iff (by omega)]
        rw [hc, ← h.pos]
        have e1 : (st.pos / a) * (8 * a) = 8 * (a * (st.pos / a)) := by
          simp [Nat.mul_comm, Nat.mul_left_comm, Nat.mul_assoc]
        omega
      unfold roundUp
      have e1 : (st.pos / a) * (8 * a) = 8 * (a * (st.pos / a)) := by
        simp [Nat.mul_comm, Nat.mul_left_comm, Nat.mul_assoc]
      rw [this, e1, hc, ← h.pos]
      omega
    rw [e]
    exact ⟨h, h0, hp⟩

theorem roundUp_8 (c a : Nat) (ha : 0 < a) : roundUp (roundUp c 8) (8 * a) = roundUp c (8 * a) := by
  unfold roundUp
  congr 1
  -- both are the least `q` with `c ≤ 8 * a * q`
  have key : (c + (8 - 1)) / 8 * 8 + (8 * a - 1) = 8 * ((c + 7) / 8 + (a - 1)) + 7 := by omega
  rw [key, ← Nat.div_div_eq_div_mul, ← Nat.div_div_eq_div_mul]
  congr 1
  omega

theorem packedBools_eq (np : Bool) (f : Ty) (v : f.Val) :
    packedBools np f v = if np then none else f.bools v := by
  cases np
  · cases f with
    | arr n t => cases t <;> rfl
    | _ => rfl
  · cases f with
    | arr n t => cases t <;> rfl
    | _ => rfl

theorem sum_flat (t : Ty) (v : t.Val) : ((scalars t v).map (·.1)).sum = t.flat := by
  rw [← enc_length t v, scalars_enc]
  generalize scalars t v = xs
  induction xs with
  | nil => rfl
  | cons x xs ih =>
    simp only [List.map_cons, List.sum_cons, List.flatMap_cons, List.length_append, le_length, ih]

theorem written_init : Written .init [] 0 :=
  ⟨rfl, by decide, rfl, fun i => by
    simp only [PackSt.init, List.nil_append, bitAt_single]; simp [covered], fun i _ => rfl⟩

theorem written_fields (t : Ty) (hw : t.wf = true) (hpl : plain t = true) (v : t.Val) {st : PackSt}
    {ls : List Leaf} {c : Nat} (h : Written st ls c) :
    Written (packFields t v st) (ls ++ (place t v c).1) (place t v c).2 := by
  induction t generalizing st ls c with
  | num k => simpa [packFields, place] using h
  | bool => simpa [packFields, place] using h
  | arr n t ih => simpa [packFields, place] using h
  | nil => simpa [packFields, place] using h
  | cons np f rest ihf ihr =>
    simp only [Ty.wf, Bool.and_eq_true] at hw
    simp only [plain, Bool.and_eq_true] at hpl
    obtain ⟨⟨hwf, hwr⟩, hsr⟩ := hw
    simp only [packFields, place, packedBools_eq]
    cases hb : (if np then none else f.bools v.1) with
    | some bs =>
      simp only
      have := ihr hwr hpl.2 v.2 (written_bits h bs)
      rw [List.append_assoc] at this
      exact this
    | none =>
      simp only
      obtain ⟨h1, h1b, h1p⟩ := written_flush h
      obtain ⟨h2, h2b, h2p⟩ := written_pad h1 h1b h1p f.align (by
        rw [(align_eq f).1]; exact natAlign_pos f hwf)
      rw [(align_eq f).1, roundUp_8 _ _ (natAlign_pos f hwf)] at h2
      rw [(align_eq f).1] at h2b h2p
      cases hst : f.isStruct with
      | true =>
        simp only [if_true]
        obtain ⟨h3, h3b, h3p⟩ := written_flush (ihf hwf hpl.1 v.1 written_init)
        simp only [List.nil_append] at h3
        have h4 := written_bytes h2 h2b h2p ((packFields f v.1 .init).flush).out
          ((place f v.1 0).1.map (Leaf.shift (roundUp c (8 * natAlign f)))) (by
            intro i
            rw [covered_shift, ← h3.bits]
            congr 1
            rw [bitAt_append, h3p]
            split
            · rfl
            · rename_i hi
              rw [bitAt_single, bitAt_high _ _ (by omega)]; simp)
        have hlen : 8 * ((packFields f v.1 .init).flush).out.length = roundUp (place f v.1 0).2 8 := by
          have := h3.cur; rw [h3b] at this; omega
        rw [hlen, ← h3.pos] at h4
        have := ihr hwr hpl.2 v.2 h4
        rw [List.append_assoc] at this
        rw [(align_eq f).1]
        exact this
      | false =>
        simp only [Bool.false_eq_true, if_false]
        have h4 := written_bytes h2 h2b h2p (f.enc v.1)
          (run (roundUp c (8 * natAlign f)) ((scalars f v.1).map fun x => (8 * x.1, x.2))) (by
            intro i
            rw [covered_run, scalars_enc])
        rw [enc_length] at h4
        have := ihr hwr hpl.2 v.2 h4
        rw [List.append_assoc] at this
        rw [sum_flat, goSize_plain hwf hpl.1 hst, (align_eq f).1]
        exact this

/-- C17, for shapes without arrays of structures that need padding or have booleans: the packed image is the image of the controller layout,
and the returned size is its length. -/
theorem C17_layout_partial (t : Ty) (hw : t.wf = true) (hpl : plain t = true) (v : t.Val) :
    IsImage (pack t v).1 (place t v 0).1 (place t v 0).2 ∧ (pack t v).2 = (pack t v).1.length := by
  have h := written_fields t hw hpl v written_init
  obtain ⟨h1, h2, h3⟩ := written_flush h
  simp only [List.nil_append] at h1
  refine ⟨⟨?_, fun i => ?_⟩, h1.pos⟩
  · have := h1.cur
    rw [h2] at this
    unfold roundUp at this
    simp only [pack]
    omega
  · rw [← h1.bits, bitAt_append, h3]
    simp only [pack]
    split
    · rfl
    · rename_i hi
      rw [bitAt_single, bitAt_high _ _ (by omega)]; simp

/-! Facts about the layout itself. -/

theorem le_roundUp (c : Nat) {a : Nat} (ha : 0 < a) : c ≤ roundUp c a := by
  unfold roundUp
  have h1 := Nat.div_add_mod (c + (a - 1)) a
  have h2 := Nat.mod_lt (c + (a - 1)) ha
  rw [Nat.mul_comm] at h1
  omega

theorem dvd_roundUp (c a : Nat) : a ∣ roundUp c a := Nat.dvd_mul_left a _

/-- What is claimed of the places of a structure's scalars between bits `c` and `e`. -/
structure Sound (ls : List Leaf) (c e a : Nat) : Prop where
  mono  : c ≤ e
  range : ∀ l ∈ ls, c ≤ l.off ∧ l.off + l.width ≤ e
  apart : ls.Pairwise fun x y => x.off + x.width ≤ y.off
  align : ∀ l ∈ ls, l.width = 1 ∨
    (8 ∣ l.width ∧ l.width ∣ 8 * a ∧ l.width ∣ l.off ∧ l.base ≤ l.off ∧ l.width ∣ l.off - l.base)

theorem sound_append {l1 l2 : List Leaf} {c m e a : Nat} (h1 : Sound l1 c m a) (h2 : Sound l2 m e a) :
    Sound (l1 ++ l2) c e a := by
  refine ⟨Nat.le_trans h1.mono h2.mono, ?_, ?_, ?_⟩
  · intro l hl
    rcases List.mem_append.mp hl with hl | hl
    · have := h1.range l hl; have := h2.mono; omega
    · have := h2.range l hl; have := h1.mono; omega
  · rw [List.pairwise_append]
    refine ⟨h1.apart, h2.apart, fun x hx y hy => ?_⟩
    have := h1.range x hx; have := h2.range y hy; omega
  · intro l hl
    rcases List.mem_append.mp hl with hl | hl
    · exact h1.align l hl
    · exact h2.align l hl

theorem sound_run (c w a : Nat) (xs : List (Nat × Nat)) (hx : ∀ x ∈ xs, x.1 = w)
    (hw : w = 1 ∨ (8 ∣ w ∧ w ∣ 8 * a ∧ w ∣ c)) : Sound (run c xs) c (c + (xs.map (·.1)).sum) a := by
  induction xs generalizing c with
  | nil => exact ⟨by simp, by simp [run], by simp [run], by simp [run]⟩
  | cons x xs ih =>
    have hxw := hx x (by simp)
    have h := ih (c + w) (fun y hy => hx y (by simp [hy])) (by
      rcases hw with hw | ⟨h1, h2, h3⟩
      · exact Or.inl hw
      · exact Or.inr ⟨h1, h2, Nat.dvd_add h3 (Nat.dvd_refl _)⟩)
    have e : c + ((x :: xs).map (·.1)).sum = c + w + (xs.map (·.1)).sum := by simp [hxw]; omega
    rw [e]
    have h1 : Sound [⟨0, c, w, x.2⟩] c (c + w) a := by
      refine ⟨by omega, by simp, by simp, ?_⟩
      intro l hl
      rw [List.mem_singleton] at hl
      subst hl
      rcases hw with hw | ⟨h1, h2, h3⟩
      · exact Or.inl hw
      · exact Or.inr ⟨h1, h2, h3, by simp, by simpa using h3⟩
    have := sound_append h1 h
    simp only [run, hxw]
    exact this

theorem scalars_numbers {t : Ty} (h : numbers t = true) (v : t.Val) :
    ∀ x ∈ scalars t v, x.1 = natAlign t := by
  induction t with
  | num k => intro x hx; simp [scalars] at hx; simp [hx, natAlign]
  | arr n t ih =>
    intro x hx
    simp only [scalars, List.mem_flatMap] at hx
    obtain ⟨y, -, hx⟩ := hx
    exact ih h y x hx
  | _ => simp [numbers] at h

theorem run_append (c : Nat) (xs ys : List (Nat × Nat)) :
    run c (xs ++ ys) = run c xs ++ run (c + (xs.map (·.1)).sum) ys := by
  induction xs generalizing c with
  | nil => simp [run]
  | cons x xs ih => simp [run, ih, Nat.add_assoc]

theorem toList_length {α : Type} (n : Nat) (v : Rep n α) : (Rep.toList n v).length = n := by
  induction n with
  | zero => rfl
  | succ n ih => simp only [Rep.toList, List.length_cons, ih]

theorem sum_bits (xs : List (Nat × Nat)) :
    ((xs.map fun x => (8 * x.1, x.2)).map (·.1)).sum = 8 * (xs.map (·.1)).sum := by
  induction xs with
  | nil => rfl
  | cons x xs ih => simp only [List.map_cons, List.sum_cons, ih]; omega

theorem sound_dense (t : Ty) (hw : t.wf = true) (v : t.Val) (o A : Nat) (hA : natAlign t ∣ A) (hd : dense t o = true) :
    Sound (run (8 * o) ((scalars t v).map fun x => (8 * x.1, x.2))) (8 * o) (8 * o + 8 * t.flat) A := by
  induction t generalizing o with
  | num k =>
    simp only [dense, beq_iff_eq] at hd
    have := sound_run (8 * o) (8 * k) A [(8 * k, BitVec.toNat (w := 8 * k) v)] (by simp)
      (Or.inr ⟨Nat.dvd_mul_right 8 _, Nat.mul_dvd_mul_left 8 hA, Nat.mul_dvd_mul_left 8 (Nat.dvd_of_mod_eq_zero hd)⟩)
    simpa [scalars, Ty.flat] using this
  | bool => simp [dense] at hd
  | arr n t ih =>
    simp only [dense, Bool.and_eq_true, beq_iff_eq] at hd
    obtain ⟨⟨-, h8⟩, hd⟩ := hd
    simp only [scalars, Ty.flat]
    have key : ∀ (xs : List t.Val) o, dense t o = true →
        Sound (run (8 * o) ((xs.flatMap (scalars t)).map fun x => (8 * x.1, x.2))) (8 * o)
          (8 * o + 8 * (xs.length * t.flat)) A := by
      intro xs
      induction xs with
      | nil => intro o _; exact ⟨by simp, by simp [run], by simp [run], by simp [run]⟩
      | cons x xs ihx =>
        intro o ho
        have h2 := ihx (o + bytes t) (by rw [dense_shift t hw o _ (Nat.dvd_of_mod_eq_zero h8)]; exact ho)
        have h1 := ih hw x o hA ho
        simp only [List.flatMap_cons, List.map_append]
        rw [run_append, sum_bits, sum_flat]
        refine sound_append h1 ?_
        rw [bytes_flat, show 8 * (o + t.flat) = 8 * o + 8 * t.flat by omega] at h2
        rw [List.length_cons, Nat.add_mul, Nat.one_mul,
          show 8 * o + 8 * (xs.length * t.flat + t.flat) = 8 * o + 8 * t.flat + 8 * (xs.length * t.flat) by omega]
        exact h2
    have := key (Rep.toList n v) o hd
    have hl : (Rep.toList n v).length = n := toList_length n (show Rep n t.Val from v)
    rw [hl] at this
    exact this
  | nil => exact ⟨by simp, by simp [run, scalars], by simp [run, scalars], by simp [run, scalars]⟩
  | cons np f rest ihf ihr =>
    simp only [Ty.wf, Bool.and_eq_true] at hw
    obtain ⟨d1, d2⟩ := natAlign_dvd np f rest hw.1.1 hw.1.2
    simp only [dense, Bool.and_eq_true, beq_iff_eq, decide_eq_true_eq] at hd
    have h1 := ihf hw.1.1 v.1 o (Nat.dvd_trans d1 hA) hd.1.2
    have h2 := ihr hw.1.2 v.2 (o + bytes f) (Nat.dvd_trans d2 hA) hd.2
    simp only [scalars, List.map_append]
    rw [run_append, sum_bits, sum_flat]
    rw [bytes_flat, show 8 * (o + f.flat) = 8 * o + 8 * f.flat by omega] at h2
    rw [show 8 * o + 8 * (Ty.cons np f rest).flat = 8 * o + 8 * f.flat + 8 * rest.flat by simp only [Ty.flat]; omega]
    exact sound_append h1 h2

theorem scalars_plain {t : Ty} (h : plain t = true) (hs : t.isStruct = false) (v : t.Val) :
    (∀ x ∈ scalars t v, x.1 = natAlign t) ∨ dense t 0 = true := by
  cases t with
  | num k => exact .inl (scalars_numbers (t := .num k) rfl v)
  | bool => left; intro x hx; simp [scalars] at hx; simp [hx, natAlign]
  | arr n t =>
    simp only [plain, Bool.or_eq_true, beq_iff_eq] at h
    rcases h with (rfl | h) | h
    · left
      intro x hx
      simp only [scalars, List.mem_flatMap, List.mem_singleton] at hx
      obtain ⟨y, -, hx⟩ := hx
      simp [hx, natAlign]
    · exact .inl (scalars_numbers (t := .arr n t) h v)
    · exact .inr h
  | nil => simp [Ty.isStruct] at hs
  | cons np f rest => simp [Ty.isStruct] at hs

theorem sound_place (t : Ty) (hw : t.wf = true) (hpl : plain t = true) (v : t.Val) (c : Nat) :
    Sound (place t v c).1 c (place t v c).2 (natAlign t) := by
  have triv : ∀ a, Sound [] c c a := fun a => ⟨by simp, by simp, by simp, by simp⟩
  induction t generalizing c with
  | num k => exact triv _
  | bool => exact triv _
  | arr n t ih => exact triv _
  | nil => exact triv _
  | cons np f rest ihf ihr =>
    simp only [Ty.wf, Bool.and_eq_true] at hw
    simp only [plain, Bool.and_eq_true] at hpl
    obtain ⟨⟨hwf, hwr⟩, hsr⟩ := hw
    obtain ⟨d1, d2⟩ := natAlign_dvd np f rest hwf hwr
    have widen : ∀ {ls x y b}, b ∣ natAlign (.cons np f rest) → Sound ls x y b →
        Sound ls x y (natAlign (.cons np f rest)) := by
      intro ls x y b hb h
      refine ⟨h.mono, h.range, h.apart, fun l hl => ?_⟩
      rcases h.align l hl with h | ⟨h1, h2, h3⟩
      · exact Or.inl h
      · exact Or.inr ⟨h1, Nat.dvd_trans h2 (Nat.mul_dvd_mul_left 8 hb), h3⟩
    have hpos := natAlign_pos f hwf
    simp only [place]
    cases hb : packedBools np f v.1 with
    | some bs =>
      simp only
      refine sound_append (m := c + bs.length) ?_ (widen d2 (ihr hwr hpl.2 v.2 _ (fun a => ⟨by simp, by simp, by simp, by simp⟩)))
      have := sound_run c 1 (natAlign (.cons np f rest)) (bs.map fun b => (1, b.toNat)) (by
        intro x hx
        obtain ⟨b, -, rfl⟩ := List.mem_map.mp hx
        rfl) (Or.inl rfl)
      have e : ((bs.map fun b => (1, b.toNat)).map (·.1)).sum = bs.length := by
        clear hb this
        induction bs with
        | nil => rfl
        | cons b bs ih => simp only [List.map_cons, List.sum_cons, ih, List.length_cons]; omega
      rw [e] at this
      exact this
    | none =>
      simp only
      have hc0 := le_roundUp c (a := 8 * natAlign f) (by omega)
      have hdv := dvd_roundUp c (8 * natAlign f)
      cases hst : f.isStruct with
      | true =>
        simp only [if_true]
        refine sound_append (m := roundUp c (8 * natAlign f) + roundUp (place f v.1 0).2 8) ?_
          (widen d2 (ihr hwr hpl.2 v.2 _ (fun a => ⟨by simp, by simp, by simp, by simp⟩)))
        have h := ihf hwf hpl.1 v.1 0 (fun a => ⟨by simp, by simp, by simp, by simp⟩)
        have hr8 := le_roundUp (place f v.1 0).2 (a := 8) (by omega)
        refine ⟨by omega, ?_, ?_, ?_⟩
        · intro l hl
          obtain ⟨l', hl', rfl⟩ := List.mem_map.mp hl
          have := h.range l' hl'
          simp only [Leaf.shift]
          omega
        · rw [List.pairwise_map]
          exact h.apart.imp (fun {x y} hxy => by simp only [Leaf.shift]; omega)
        · intro l hl
          obtain ⟨l', hl', rfl⟩ := List.mem_map.mp hl
          rcases h.align l' hl' with h' | ⟨h1, h2, h3, h4, h5⟩
          · exact Or.inl h'
          · refine Or.inr ⟨h1, Nat.dvd_trans h2 (Nat.mul_dvd_mul_left 8 d1), ?_, ?_, ?_⟩
            · exact Nat.dvd_add h3 (Nat.dvd_trans h2 hdv)
            · simp only [Leaf.shift]; omega
            · simp only [Leaf.shift]
              rw [show l'.off + roundUp c (8 * natAlign f) - (l'.base + roundUp c (8 * natAlign f)) = l'.off - l'.base by omega]
              exact h5
      | false =>
        simp only [Bool.false_eq_true, if_false]
        refine sound_append (m := roundUp c (8 * natAlign f) + 8 * ((scalars f v.1).map (·.1)).sum) ?_
          (widen d2 (ihr hwr hpl.2 v.2 _ (fun a => ⟨by simp, by simp, by simp, by simp⟩)))
        rcases scalars_plain hpl.1 hst v.1 with hx | hx
        · have := sound_run (roundUp c (8 * natAlign f)) (8 * natAlign f) (natAlign (.cons np f rest))
            ((scalars f v.1).map fun x => (8 * x.1, x.2)) (by
              intro x hx'
              obtain ⟨y, hy, rfl⟩ := List.mem_map.mp hx'
              simp [hx y hy])
            (Or.inr ⟨Nat.dvd_mul_right 8 _, Nat.mul_dvd_mul_left 8 d1, hdv⟩)
          rw [sum_bits] at this
          exact ⟨by omega, fun l hl => by have := this.range l hl; omega, this.apart, this.align⟩
        · obtain ⟨q, hq⟩ := hdv
          have e : roundUp c (8 * natAlign f) = 8 * (natAlign f * q) := by rw [hq, Nat.mul_assoc]
          have hx' : dense f (natAlign f * q) = true := by
            have := dense_shift f hwf 0 (natAlign f * q) (Nat.dvd_mul_right ..)
            rw [Nat.zero_add] at this
            rw [this]; exact hx
          have := sound_dense f hwf v.1 _ _ d1 hx'
          rw [← e, ← sum_flat f v.1] at this
          exact ⟨by omega, fun l hl => by have := this.range l hl; omega, this.apart, this.align⟩

theorem scalars_values (t : Ty) (v : t.Val) : (scalars t v).map (·.2) = values t v := by
  induction t with
  | num k => rfl
  | bool => rfl
  | arr n t ih =>
    simp only [scalars, values, List.map_flatMap]
    congr 1
    funext x
    exact ih x
  | nil => rfl
  | cons np f rest ihf ihr => simp [scalars, values, ihf, ihr]

theorem place_values (t : Ty) (hs : t.isStruct = true) (hw : t.wf = true) (v : t.Val) (c : Nat) :
    (place t v c).1.map (·.val) = values t v := by
  induction t generalizing c with
  | num k => simp [Ty.isStruct] at hs
  | bool => simp [Ty.isStruct] at hs
  | arr n t ih => simp [Ty.isStruct] at hs
  | nil => rfl
  | cons np f rest ihf ihr =>
    simp only [Ty.wf, Bool.and_eq_true] at hw
    simp only [place, values]
    cases hb : packedBools np f v.1 with
    | some bs =>
      simp only [List.map_append, ihr hw.2 hw.1.2, run_map_val]
      congr 1
      cases np with
      | true => cases f <;> simp [packedBools] at hb
      | false =>
        cases f with
        | bool =>
          simp only [packedBools, Option.some.injEq] at hb
          subst hb
          rfl
        | arr n t =>
          cases t with
          | bool =>
            simp only [packedBools, Option.some.injEq] at hb
            subst hb
            simp only [values, List.map_map]
            have : ∀ xs : List Bool, xs.map ((fun x => x.2) ∘ fun b => ((1 : Nat), b.toNat)) = xs.flatMap (values .bool) := by
              intro xs
              induction xs with
              | nil => rfl
              | cons x xs ih => exact congrArg (x.toNat :: ·) ih
            exact this _
          | _ => simp [packedBools] at hb
        | _ => simp [packedBools] at hb
    | none =>
      cases hst : f.isStruct with
      | true =>
        simp only [if_true, List.map_append, ihr hw.2 hw.1.2, List.map_map]
        rw [← ihf hst hw.1.1 v.1 0]
        rfl
      | false =>
        simp only [Bool.false_eq_true, if_false, List.map_append, ihr hw.2 hw.1.2, run_map_val, List.map_map]
        rw [← scalars_values f]
        rfl

/-- C17: in the layout every scalar of the structure has exactly one place, in order; the places do not
overlap; every scalar but a bit-packed boolean starts at a multiple of its width, both from the start of its own
structure and from the start of the image. Together with `C17_layout_partial` this is the claim for the
packed bytes: the scalars' bits are at their places and all other bits are zero. -/
theorem C17_aligned_partial (t : Ty) (hs : t.isStruct = true) (hw : t.wf = true) (hpl : plain t = true) (v : t.Val) :
    let ls := (place t v 0).1
    ls.map (·.val) = values t v ∧
    ls.Pairwise (fun x y => x.off + x.width ≤ y.off) ∧
    (∀ l ∈ ls, l.off + l.width ≤ 8 * (pack t v).1.length) ∧
    ∀ l ∈ ls, l.width = 1 ∨ (8 ∣ l.width ∧ l.width ∣ l.off ∧ l.base ≤ l.off ∧ l.width ∣ l.off - l.base) := by
  have h := sound_place t hw hpl v 0
  obtain ⟨⟨hlen, -⟩, -⟩ := C17_layout_partial t hw hpl v
  refine ⟨place_values t hs hw v 0, h.apart, fun l hl => ?_, fun l hl => ?_⟩
  · have := (h.range l hl).2
    omega
  · rcases h.align l hl with h | ⟨h1, -, h2⟩
    · exact Or.inl h
    · exact Or.inr ⟨h1, h2⟩

/-- Reading a scalar's bits back from the image gives the scalar. -/
theorem C17_scalar_bits_partial (t : Ty) (hw : t.wf = true) (hpl : plain t = true) (v : t.Val)
    (l : Leaf) (hl : l ∈ (place t v 0).1) (i : Nat) (hi : i < l.width) :
    bitAt (pack t v).1 (l.off + i) = l.val.testBit i := by
  obtain ⟨⟨-, hbits⟩, -⟩ := C17_layout_partial t hw hpl v
  have h := sound_place t hw hpl v 0
  rw [hbits]
  have hap := h.apart
  generalize (place t v 0).1 = ls at hl hap
  -- no other scalar covers this bit
  have other : ∀ l' ∈ ls, l' = l ∨ l'.off + l'.width ≤ l.off ∨ l.off + l.width ≤ l'.off := by
    intro l' hl'
    induction ls with
    | nil => simp at hl
    | cons x xs ih =>
      rw [List.pairwise_cons] at hap
      rcases List.mem_cons.mp hl with rfl | hl
      · rcases List.mem_cons.mp hl' with rfl | hl'
        · exact Or.inl rfl
        · exact Or.inr (Or.inr (hap.1 _ hl'))
      · rcases List.mem_cons.mp hl' with e | hl'
        · subst e; exact Or.inr (Or.inl (hap.1 _ (by assumption)))
        · exact ih (by assumption) hap.2 hl'
  rw [Bool.eq_iff_iff]
  unfold covered
  rw [List.any_eq_true]
  constructor
  · rintro ⟨l', hl', h'⟩
    simp only [Bool.and_eq_true, decide_eq_true_eq] at h'
    rcases other l' hl' with rfl | h1 | h1
    · rw [show l'.off + i - l'.off = i by omega] at h'; exact h'.2
    · omega
    · omega
  · intro hb
    refine ⟨l, hl, ?_⟩
    simp only [Bool.and_eq_true, decide_eq_true_eq]
    rw [show l.off + i - l.off = i by omega]
    exact ⟨⟨by omega, by omega⟩, hb⟩

/-- C17 fails for arrays of structures, for all values: in `struct { A [2]struct{X int8; Y int32}; Z int32 }` the
elements are written without padding, so the first Y is at byte 1, and Z at byte 10. -/
theorem C17_array_of_structs_unaligned (x0 x1 : BitVec 8) (y0 y1 z : BitVec 32) :
    let inner : Ty := .cons false (.num 1) (.cons false (.num 4) .nil)
    pack (.cons false (.arr 2 inner) (.cons false (.num 4) .nil))
      (((x0, y0, ()), (x1, y1, ()), ()), z, ()) =
    (le 1 x0.toNat ++ le 4 y0.toNat ++ le 1 x1.toNat ++ le 4 y1.toNat ++ le 4 z.toNat, 20) := by
  simp [pack, packFields, Ty.bools, Ty.isStruct, Ty.enc, encRep, Ty.align, Ty.goAlign, Ty.goSize, Ty.goSizeEnd,
    PackSt.flush, PackSt.pad, PackSt.init, roundUp]

/-! ### C18 -/

/-- A structure of `n` consecutive booleans. -/
def boolRun : Nat → Ty
  | 0 => .nil
  | n + 1 => .cons false .bool (boolRun n)

/-- Its value with field `i` set to `f i`. -/
def boolRunVal : (n : Nat) → (f : Nat → Bool) → (boolRun n).Val
  | 0, _ => ()
  | n + 1, f => (f 0, boolRunVal n fun i => f (i + 1))

theorem place_boolRun (n : Nat) (f : Nat → Bool) (c : Nat) :
    (place (boolRun n) (boolRunVal n f) c).2 = c + n ∧
    ∀ i, covered (place (boolRun n) (boolRunVal n f) c).1 i =
      (decide (c ≤ i) && decide (i < c + n) && f (i - c)) := by
  induction n generalizing f c with
  | zero =>
    refine ⟨rfl, fun i => ?_⟩
    simp only [boolRun, place, covered, List.any_nil, Nat.add_zero]
    by_cases h : c ≤ i
    · simp [show ¬ i < c by omega]
    · simp [h]
  | succ n ih =>
    obtain ⟨h1, h2⟩ := ih (fun i => f (i + 1)) (c + 1)
    simp only [boolRun, boolRunVal, place, packedBools, List.map_cons, List.map_nil, run, List.length_cons,
      List.length_nil, List.cons_append, List.nil_append, Nat.zero_add]
    refine ⟨by rw [h1]; omega, fun i => ?_⟩
    have e : ∀ l' ls', covered (l' :: ls') i = (covered [l'] i || covered ls' i) := by
      intro l' ls'; simp [covered]
    rw [e, h2]
    simp only [covered, List.any_cons, List.any_nil, Bool.or_false]
    by_cases hc : i = c
    · subst hc
      simp only [Nat.sub_self, show ¬ i + 1 ≤ i by omega]
      cases f 0 <;> simp <;> omega
    · by_cases h2 : c ≤ i
      · simp only [show i - (c + 1) + 1 = i - c by omega]
        simp [h2, show ¬ i < c + 1 by omega, show c + 1 ≤ i by omega, show c + 1 + n = c + (n + 1) by omega]
      · simp [h2, show ¬ c + 1 ≤ i by omega]

/-- C18: a run of `n` booleans is packed eight to a byte, least significant bit first, unused bits zero. -/
theorem C18_pack_run (n : Nat) (f : Nat → Bool) :
    (pack (boolRun n) (boolRunVal n f)).1.length = (n + 7) / 8 ∧
    ∀ i, bitAt (pack (boolRun n) (boolRunVal n f)).1 i = (decide (i < n) && f i) := by
  have hw : (boolRun n).wf = true ∧ plain (boolRun n) = true ∧ (boolRun n).isStruct = true := by
    induction n with
    | zero => exact ⟨rfl, rfl, rfl⟩
    | succ n ih => exact ⟨by simp [boolRun, Ty.wf, ih], by simp [boolRun, plain, ih], rfl⟩
  obtain ⟨⟨h1, h2⟩, -⟩ := C17_layout_partial _ hw.1 hw.2.1 (boolRunVal n f)
  obtain ⟨h3, h4⟩ := place_boolRun n f 0
  refine ⟨by rw [h1, h3]; simp, fun i => ?_⟩
  rw [h2, h4]
  simp

/-- C18: an array of booleans is packed exactly as the same booleans in separate fields, wherever it stands. -/
theorem C18_bool_array_is_run (n : Nat) (v : Rep n Bool) (rest : Ty) (vs : rest.Val) (st : PackSt) :
    packFields (.cons false (.arr n .bool) rest) (v, vs) st =
      packFields rest vs (packFields (boolRun n) (boolRunVal n fun i => (Rep.toList n v).getD i false) st) := by
  have : ∀ (n : Nat) (v : Rep n Bool) (st : PackSt),
      packFields (boolRun n) (boolRunVal n fun i => (Rep.toList n v).getD i false) st =
        (Rep.toList n v).foldl PackSt.bit st := by
    intro n
    induction n with
    | zero => intro v st; rfl
    | succ n ih =>
      intro v st
      simp only [boolRun, boolRunVal, packFields, Rep.toList, List.foldl_cons, List.getD_cons_succ]
      rw [ih v.2]
      rfl
  rw [this]
  rfl

/-- C18: a boolean marked nopack and any field that is neither a boolean nor an array of booleans starts a fresh
byte: bits pending from earlier booleans are written out as a byte of their own first. -/
theorem C18_fresh_byte (np : Bool) (f rest : Ty) (v : (Ty.cons np f rest).Val) (st : PackSt)
    (h : np = true ∨ (f ≠ .bool ∧ ∀ n, f ≠ .arr n .bool)) :
    packFields (.cons np f rest) v st = packFields (.cons np f rest) v st.flush := by
  have hn : (if np then none else f.bools v.1) = none := by
    cases np with
    | true => rfl
    | false =>
      obtain ⟨h1, h2⟩ : f ≠ .bool ∧ ∀ n, f ≠ .arr n .bool := by simpa using h
      cases f with
      | bool => exact absurd rfl h1
      | arr n t =>
        cases t with
        | bool => exact absurd rfl (h2 n)
        | _ => rfl
      | _ => rfl
  have hf : st.flush.flush = st.flush := by
    unfold PackSt.flush
    split <;> simp_all
  simp only [packFields, hn, hf]

/-- The state of Unpack after `i` bits of `src`. -/
def bitState (src : Bytes) (i : Nat) (b : Byte) : UnpackSt := ⟨src.drop ((i + 7) / 8), (i + 7) / 8, i % 8, b⟩

theorem bitState_bit (src : Bytes) (i : Nat) (b : Byte) (hb : i % 8 ≠ 0 → b = src.getD (i / 8) 0#8)
    (hi : i < 8 * src.length) :
    ∃ b', (bitState src i b).bit = .ok (bitAt src i, bitState src (i + 1) b') ∧
      ((i + 1) % 8 ≠ 0 → b' = src.getD ((i + 1) / 8) 0#8) := by
  by_cases h0 : i % 8 = 0
  · have hlt : (i + 7) / 8 < src.length := by omega
    have hd : src.drop ((i + 7) / 8) = src[(i + 7) / 8] :: src.drop ((i + 7) / 8 + 1) :=
      List.drop_eq_getElem_cons hlt
    refine ⟨src[(i + 7) / 8], ?_, ?_⟩
    · unfold bitState
      rw [hd, h0, unbit_fresh]
      have e1 : (i + 7) / 8 = i / 8 := by omega
      have e2 : (i + 1 + 7) / 8 = i / 8 + 1 := by omega
      have e3 : (i + 1) % 8 = 1 := by omega
      simp only [e1, e2, e3, bitAt, h0, List.getD_eq_getElem?_getD]
      rw [List.getElem?_eq_getElem (by omega)]
      rfl
    · intro _
      rw [List.getD_eq_getElem?_getD, show (i + 1) / 8 = (i + 7) / 8 by omega, List.getElem?_eq_getElem hlt]
      rfl
  · refine ⟨b, ?_, ?_⟩
    · unfold bitState
      rw [unbit_open _ _ _ _ (by omega) (by omega)]
      have e1 : (i + 1 + 7) / 8 = (i + 7) / 8 := by omega
      have e3 : (if 8 ≤ i % 8 + 1 then 0 else i % 8 + 1) = (i + 1) % 8 := by split <;> omega
      rw [e1, bitAt, ← hb h0]
      simp only [e3]
    · intro h
      rw [hb h0, show (i + 1) / 8 = i / 8 by omega]

theorem unpackFields_boolRun (n : Nat) (src : Bytes) (i : Nat) (b : Byte)
    (hb : i % 8 ≠ 0 → b = src.getD (i / 8) 0#8) (hi : i + n ≤ 8 * src.length) :
    ∃ b', unpackFields (boolRun n) (bitState src i b) =
      .ok (boolRunVal n fun j => bitAt src (i + j), bitState src (i + n) b') := by
  induction n generalizing i b with
  | zero => exact ⟨b, rfl⟩
  | succ n ih =>
    obtain ⟨b1, h1, hb1⟩ := bitState_bit src i b hb (by omega)
    obtain ⟨b2, h2⟩ := ih (i + 1) b1 hb1 (by omega)
    refine ⟨b2, ?_⟩
    have e : (fun j => bitAt src (i + (j + 1))) = fun j => bitAt src (i + 1 + j) := by
      funext j; congr 1; omega
    rw [show i + (n + 1) = i + 1 + n by omega]
    show ((bitState src i b).bit.bind fun x => (unpackFields (boolRun n) x.2).bind fun y => .ok ((x.1, y.1), y.2)) = _
    rw [h1]
    show ((unpackFields (boolRun n) (bitState src (i + 1) b1)).bind fun y => .ok ((bitAt src i, y.1), y.2)) = _
    rw [h2]
    simp only [boolRunVal, e, Nat.add_zero]
    rfl

/-- C18: unpacking a run of `n` booleans from any bytes reads the first `n` bits, least significant bit of the
first byte first, and consumes exactly the bytes they are in. -/
theorem C18_unpack_run (n : Nat) (src : Bytes) (h : n ≤ 8 * src.length) :
    unpack (boolRun n) src = .ok (boolRunVal n (bitAt src), (n + 7) / 8, src.drop ((n + 7) / 8)) := by
  obtain ⟨b, h⟩ := unpackFields_boolRun n src 0 0#8 (by simp) (by omega)
  unfold unpack
  have e : (⟨src, 0, 0, 0#8⟩ : UnpackSt) = bitState src 0 0#8 := rfl
  rw [e, h]
  simp only [Nat.zero_add]
  rfl

/-- C18: with too few bytes unpacking is an error. -/
theorem C18_unpack_short (n : Nat) (src : Bytes) (h : 8 * src.length < n) :
    unpack (boolRun n) src = .err .eof := by
  have key : ∀ (m i : Nat) (b : Byte), (i % 8 ≠ 0 → b = src.getD (i / 8) 0#8) → i ≤ 8 * src.length →
      8 * src.length < i + m → unpackFields (boolRun m) (bitState src i b) = .err .eof := by
    intro m
    induction m with
    | zero => intro i b _ h1 h2; omega
    | succ m ih =>
      intro i b hb h1 h2
      by_cases hi : i < 8 * src.length
      · obtain ⟨b1, h1, hb1⟩ := bitState_bit src i b hb hi
        show ((bitState src i b).bit.bind fun x => (unpackFields (boolRun m) x.2).bind fun y => .ok ((x.1, y.1), y.2)) = _
        rw [h1]
        show ((unpackFields (boolRun m) (bitState src (i + 1) b1)).bind fun y => .ok ((bitAt src i, y.1), y.2)) = _
        rw [ih (i + 1) b1 hb1 (by omega) (by omega)]
        rfl
      · have e : bitState src i b = ⟨[], (i + 7) / 8, 0, b⟩ := by
          unfold bitState
          rw [List.drop_eq_nil_of_le (by omega), show i % 8 = 0 by omega]
        simp only [boolRun, unpackFields, Ty.unpackBools, e, Bool.false_eq_true, if_false]
        rfl
  have := key n 0 0#8 (by simp) (by omega) (by omega)
  unfold unpack
  have e : (⟨src, 0, 0, 0#8⟩ : UnpackSt) = bitState src 0 0#8 := rfl
  rw [e, this]
  rfl

/-- C18 fails for arrays of arrays of booleans, for all values: `[1][2]bool` takes one byte per boolean. -/
theorem C18_nested_array_not_packed (a b : Bool) :
    pack (.cons false (.arr 1 (.arr 2 .bool)) .nil) (((a, b, ()), ()), ()) = ([boolByte a, boolByte b], 2) := by
  simp [pack, packFields, Ty.bools, Ty.isStruct, Ty.enc, encRep, Ty.align, Ty.goAlign, Ty.goSize, Ty.goSizeEnd,
    PackSt.flush, PackSt.pad, PackSt.init]

/-! ### C16 for slices -/

/-- C16: elements of a slice, each padded with any bytes to a multiple of the alignment, are unpacked one
after the other (pack.go:262-281). -/
theorem C16_slice (t : Ty) (hs : t.isStruct = true) (hw : t.wf = true) (vs : List t.Val) (fill : Byte) (rest : Bytes) :
    let elem v := (pack t v).1 ++ List.replicate (roundUp (pack t v).2 t.align - (pack t v).2) fill
    unpackSlice t vs.length (vs.flatMap elem ++ rest) =
      .ok (vs, (vs.map fun v => roundUp (pack t v).2 t.align).sum, rest) := by
  intro elem
  have ha : 0 < t.align := by rw [(align_eq t).1]; exact natAlign_pos t hw
  induction vs with
  | nil => rfl
  | cons v vs ih =>
    simp only [List.length_cons, unpackSlice, List.flatMap_cons, List.map_cons, List.sum_cons]
    have e0 : elem v ++ vs.flatMap elem ++ rest =
        (pack t v).1 ++ (List.replicate (roundUp (pack t v).2 t.align - (pack t v).2) fill ++ (vs.flatMap elem ++ rest)) := by
      simp only [elem, List.append_assoc]
    rw [e0, C16_roundtrip t hs hw v, Res.bind_ok]
    generalize (pack t v).2 = s at *
    simp only
    by_cases hm : s % t.align = 0
    · have : roundUp s t.align = s := by
        unfold roundUp
        obtain ⟨k, hk⟩ := Nat.dvd_of_mod_eq_zero hm
        rw [hk, Nat.mul_add_div ha, Nat.div_eq_of_lt (by omega), Nat.add_zero, Nat.mul_comm]
      rw [this]
      simp only [Nat.sub_self, List.replicate_zero, List.nil_append, hm, ne_eq, not_true, if_false, Res.bind_ok]
      rw [ih]
      rfl
    · have hr : roundUp s t.align = s + (t.align - s % t.align) := by
        unfold roundUp
        have h1 := Nat.div_add_mod s t.align
        have h2 := Nat.mod_lt s ha
        have h3 : s + (t.align - 1) = t.align * (s / t.align + 1) + (s % t.align - 1) := by
          rw [Nat.mul_add]; omega
        have h4 : (s % t.align - 1) / t.align = 0 := Nat.div_eq_of_lt (by omega)
        rw [h3, Nat.mul_add_div ha, h4, Nat.add_zero, Nat.mul_comm, Nat.mul_add]
        omega
      have h2 := Nat.mod_lt s ha
      rw [hr]
      simp only [Nat.add_sub_cancel_left, ne_eq, hm, not_false_eq_true, if_true]
      rw [if_neg (by
        intro h
        have := congrArg List.length h
        simp at this
        omega)]
      rw [Res.bind_ok]
      simp only
      rw [List.drop_append_of_le_length (by simp), List.drop_replicate, Nat.sub_self, List.replicate_zero,
        List.nil_append, ih, Res.bind_ok]
      have : min (t.align - s % t.align)
          (List.replicate (t.align - s % t.align) fill ++ (vs.flatMap elem ++ rest)).length = t.align - s % t.align := by
        simp
      rw [this]

/-! ### Examples -/

/-- struct { A bool; B bool `nopack`; C [3]bool; D int16; E struct { X int8; Y int32 }; F [2]int16 } -/
def exTy : Ty :=
  .cons false .bool <| .cons true .bool <| .cons false (.arr 3 .bool) <| .cons false (.num 2) <|
    .cons false (.cons false (.num 1) (.cons false (.num 4) .nil)) <| .cons false (.arr 2 (.num 2)) .nil

def exVal : exTy.Val :=
  (true, true, (true, false, true, ()), 0x1234#16, (0x7F#8, 0xAABBCCDD#32, ()), (0x0102#16, 0x0304#16, ()), ())

example : pack exTy exVal = ([1#8, 1#8, 5#8, 0#8, 0x34#8, 0x12#8, 0#8, 0#8, 0x7F#8, 0#8, 0#8, 0#8,
    0xDD#8, 0xCC#8, 0xBB#8, 0xAA#8, 2#8, 1#8, 4#8, 3#8], 20) := by rfl
example : unpack exTy ((pack exTy exVal).1 ++ [9#8]) = .ok (exVal, 20, [9#8]) := by rfl
example : exTy.wf = true ∧ exTy.isStruct = true ∧ plain exTy = true := by decide
example : ((place exTy exVal 0).1.map fun l => (l.off, l.width)) =
    [(0, 1), (8, 8), (16, 1), (17, 1), (18, 1), (32, 16), (64, 8), (96, 32), (128, 16), (144, 16)] := by decide +kernel
example : (pack (boolRun 10) (boolRunVal 10 fun i => i % 3 == 0)).1 = [0x49#8, 0x02#8] := by decide +kernel
example : unpackSlice (.cons false (.num 4) (.cons false (.num 1) .nil)) 2
    [1#8, 0#8, 0#8, 0#8, 2#8, 9#8, 9#8, 9#8, 3#8, 0#8, 0#8, 0#8, 4#8, 9#8, 9#8, 9#8, 7#8] =
    .ok ([(1#32, 2#8, ()), (3#32, 4#8, ())], 16, [7#8]) := by rfl

end Gologix
