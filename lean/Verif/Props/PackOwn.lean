import Verif.Spec.PackOwn
import Verif.Props.Lgx
import Verif.Props.UnpackLayout
set_option linter.unusedSimpArgs false
/-! C111: structures with TIMER, COUNTER and CONTROL members. -/
namespace Gologix
open Spec

theorem packWords_get (w a b : BitVec 32) (j : Nat) :
    bitAt (packWords w a b).1 j =
      if j < 32 then w.getLsbD j else if j < 64 then a.getLsbD (j - 32) else b.getLsbD (j - 64) := by
  have t : ∀ (x : BitVec 32) j, bitAt (putBV x) j = x.getLsbD j := by
    intro x j
    unfold putBV
    rw [bitAt_le]
    by_cases h : j < 32
    · simp [h, BitVec.testBit_toNat]
    · rw [BitVec.getLsbD_of_ge x j (by omega)]
      simp [h]
  unfold packWords
  simp only [bitAt_append, List.length_append, putBV_length, t, show 8 * (32 / 8) = 32 from rfl,
    show 8 * (32 / 8 + 32 / 8) = 64 from rfl]
  by_cases h1 : j < 32
  · simp [h1, show j < 64 by omega]
  · simp [h1]

theorem flags_covered (fl : List (Nat × Bool)) (c i : Nat) :
    covered (fl.map fun x => ⟨0, c + x.1, 1, x.2.toNat⟩) i = (decide (c ≤ i) && fl.any fun x => x.2 && decide (i - c = x.1)) := by
  induction fl with
  | nil => simp [covered]
  | cons x fl ih =>
    have e : ∀ (l : Leaf) ls, covered (l :: ls) i = (covered [l] i || covered ls i) := by
      intro l ls; simp [covered]
    rw [List.map_cons, e, ih, List.any_cons, Bool.and_or_distrib_left]
    congr 1
    simp only [covered, List.any_cons, List.any_nil, Bool.or_false]
    obtain ⟨k, b⟩ := x
    simp only
    by_cases h : i = c + k
    · subst h
      rw [Nat.sub_self, show c + k - c = k by omega]
      cases b <;> simp
    · have e1 : (decide (c + k ≤ i) && decide (i < c + k + 1)) = false := by simp; omega
      have e2 : (decide (c ≤ i) && (b && decide (i - c = k))) = false := by simp; omega
      rw [e1, e2, Bool.false_and]

theorem own_word (k : Own) (v : k.Val) : ∃ w, (k.pack v) = packWords w (ownNumbers k v).1 (ownNumbers k v).2 ∧
    ∀ j, w.getLsbD j = (ownFlags k v).any fun x => x.2 && decide (j = x.1) := by
  cases k with
  | timer =>
    refine ⟨_, rfl, fun j => ?_⟩
    repeat rw [setBit_bit _ _ _ (by omega)]
    simp [ownFlags, Bool.or_assoc, Bool.or_comm, Bool.or_left_comm]
  | counter =>
    refine ⟨_, rfl, fun j => ?_⟩
    repeat rw [setBit_bit _ _ _ (by omega)]
    simp [ownFlags, Bool.or_assoc, Bool.or_comm, Bool.or_left_comm]
  | control =>
    refine ⟨_, rfl, fun j => ?_⟩
    repeat rw [setBit_bit _ _ _ (by omega)]
    simp [ownFlags, Bool.or_assoc, Bool.or_comm, Bool.or_left_comm]

theorem ownFlags_lt (k : Own) (v : k.Val) : ∀ x ∈ ownFlags k v, x.1 < 32 := by
  cases k <;> simp [ownFlags]

theorem own_image (k : Own) (v : k.Val) (c i : Nat) :
    covered (ownLeaves k v c) i = (decide (c ≤ i) && bitAt (k.pack v).1 (i - c)) := by
  obtain ⟨w, h1, h2⟩ := own_word k v
  have h3 : ∀ j, 32 ≤ j → ((ownFlags k v).any fun x => x.2 && decide (j = x.1)) = false := by
    intro j hj
    rw [← h2]
    exact BitVec.getLsbD_of_ge w j hj
  unfold ownLeaves
  rw [covered_append, flags_covered, h1, packWords_get, h2]
  simp only [covered, List.any_cons, List.any_nil, Bool.or_false]
  by_cases hc : c ≤ i
  · rw [decide_eq_true hc]
    simp only [Bool.true_and]
    by_cases ha : i - c < 32
    · rw [if_pos ha, show decide (c + 32 ≤ i) = false by simp; omega, show decide (c + 64 ≤ i) = false by simp; omega]
      simp
    · rw [if_neg ha, h3 _ (by omega), show decide (c + 32 ≤ i) = true by simp; omega]
      by_cases hb : i - c < 64
      · rw [if_pos hb, show decide (c + 64 ≤ i) = false by simp; omega, show decide (i < c + 32 + 32) = true by simp; omega]
        rw [show i - (c + 32) = i - c - 32 by omega]
        simp [BitVec.testBit_toNat]
      · rw [if_neg hb, show decide (c + 64 ≤ i) = true by simp; omega, show decide (i < c + 32 + 32) = false by simp; omega,
          show i - (c + 64) = i - c - 64 by omega]
        by_cases hd : i < c + 64 + 32
        · simp [BitVec.testBit_toNat, hd]
        · rw [BitVec.getLsbD_of_ge _ _ (by omega)]
          simp [hd]
  · rw [show decide (c ≤ i) = false by simp; omega, show decide (c + 32 ≤ i) = false by simp; omega,
      show decide (c + 64 ≤ i) = false by simp; omega]
    simp

theorem own_length (k : Own) (v : k.Val) : (k.pack v).1.length = 12 ∧ (k.pack v).2 = 12 := by
  cases k <;> exact packWords_length _ _ _

/-! ### Packing -/

theorem ownAlign_eq (t : OTy) : t.align = ownAlign t := by
  induction t with
  | ty t => exact (align_eq t).1
  | own k => rfl
  | owns n k => rfl
  | nil => rfl
  | cons np f rest ihf ihr => simp only [OTy.align, ownAlign, ihf, ihr]

theorem ownAlign_cases (t : OTy) (hw : t.wf = true) :
    ownAlign t = 1 ∨ ownAlign t = 2 ∨ ownAlign t = 4 ∨ ownAlign t = 8 := by
  induction t with
  | ty t => exact natAlign_cases t hw
  | own k => simp [ownAlign]
  | owns n k => simp [ownAlign]
  | nil => simp [ownAlign]
  | cons np f rest ihf ihr =>
    simp only [OTy.wf, Bool.and_eq_true] at hw
    have h1 := ihf hw.1.1
    have h2 := ihr hw.1.2
    simp only [ownAlign]
    omega

theorem ownAlign_dvd (np : Bool) (f rest : OTy) (hf : f.wf = true) (hr : rest.wf = true) :
    ownAlign f ∣ ownAlign (.cons np f rest) ∧ ownAlign rest ∣ ownAlign (.cons np f rest) := by
  have h1 := ownAlign_cases f hf
  have h2 := ownAlign_cases rest hr
  simp only [ownAlign]
  rcases h1 with h1 | h1 | h1 | h1 <;> rcases h2 with h2 | h2 | h2 | h2 <;> rw [h1, h2] <;> decide

theorem written_field (f : OTy) (np : Bool) (hw : f.wf = true) (hpl : plainOwn f = true) (hs : f.isStruct = false) (v : f.Val)
    {st : PackSt} {ls : List Leaf} {c : Nat} (h : Written st ls c) :
    Written (f.packField np v st) (ls ++ (placeField f np v c).1) (placeField f np v c).2 := by
  cases f with
  | ty t =>
    have hw : t.wf = true := hw
    have hpl : plain t = true := hpl
    exact written_fields (.cons np t .nil) (by simp [Ty.wf, hw, Ty.isStruct]) (by simp [plain, hpl]) (v, ()) h
  | own k =>
    obtain ⟨h1, h1b, h1p⟩ := written_flush h
    obtain ⟨h2, h2b, h2p⟩ := written_pad h1 h1b h1p 4 (by omega)
    rw [roundUp_8 _ _ (by omega)] at h2
    have h4 := written_bytes h2 h2b h2p (k.pack v).1 (ownLeaves k v (roundUp c (8 * 4))) (own_image k v _)
    obtain ⟨l1, l2⟩ := own_length k v
    rw [l1] at h4
    show Written { st.flush.pad 4 with out := _ ++ (k.pack v).1, pos := _ + (k.pack v).2 } _ _
    rw [l2]
    exact h4
  | owns n k => simp [plainOwn] at hpl
  | nil => simp [OTy.isStruct] at hs
  | cons np f rest => simp [OTy.isStruct] at hs

theorem written_own (t : OTy) (hw : t.wf = true) (hpl : plainOwn t = true) (v : t.Val) {st : PackSt}
    {ls : List Leaf} {c : Nat} (h : Written st ls c) :
    Written (packOwnFields t v st) (ls ++ (placeOwn t v c).1) (placeOwn t v c).2 := by
  induction t generalizing st ls c with
  | ty t => simpa [packOwnFields, placeOwn] using h
  | own k => simpa [packOwnFields, placeOwn] using h
  | owns n k => simpa [packOwnFields, placeOwn] using h
  | nil => simpa [packOwnFields, placeOwn] using h
  | cons np f rest ihf ihr =>
    simp only [OTy.wf, Bool.and_eq_true] at hw
    simp only [plainOwn, Bool.and_eq_true] at hpl
    obtain ⟨⟨hwf, hwr⟩, hsr⟩ := hw
    simp only [packOwnFields, placeOwn]
    have hpos : 0 < ownAlign f := by rcases ownAlign_cases f hwf with h | h | h | h <;> omega
    cases hst : f.isStruct with
    | true =>
      simp only [if_true]
      obtain ⟨h1, h1b, h1p⟩ := written_flush h
      obtain ⟨h2, h2b, h2p⟩ := written_pad h1 h1b h1p (ownAlign f) hpos
      rw [roundUp_8 _ _ hpos] at h2
      obtain ⟨h3, h3b, h3p⟩ := written_flush (ihf hwf hpl.1 v.1 written_init)
      simp only [List.nil_append] at h3
      have h4 := written_bytes h2 h2b h2p ((packOwnFields f v.1 .init).flush).out
        ((placeOwn f v.1 0).1.map (Leaf.shift (roundUp c (8 * ownAlign f)))) (by
          intro i
          rw [covered_shift, ← h3.bits]
          congr 1
          rw [bitAt_append, h3p]
          split
          · rfl
          · rename_i hi
            rw [bitAt_single, bitAt_high _ _ (by omega)]; simp)
      have hlen : 8 * ((packOwnFields f v.1 .init).flush).out.length = roundUp (placeOwn f v.1 0).2 8 := by
        have := h3.cur; rw [h3b] at this; omega
      rw [hlen, ← h3.pos] at h4
      have := ihr hwr hpl.2 v.2 h4
      rw [List.append_assoc] at this
      rw [ownAlign_eq f]
      exact this
    | false =>
      simp only [Bool.false_eq_true, if_false]
      have := ihr hwr hpl.2 v.2 (written_field f np hwf hpl.1 hst v.1 h)
      rw [List.append_assoc] at this
      exact this

/-- C111, without arrays of built-in types: what is packed is the image of the controller layout, and the returned size
is its length. -/
theorem C111_layout_partial (t : OTy) (hw : t.wf = true) (hpl : plainOwn t = true) (v : t.Val) :
    IsImage (packOwn t v).1 (placeOwn t v 0).1 (placeOwn t v 0).2 ∧ (packOwn t v).2 = (packOwn t v).1.length := by
  have h := written_own t hw hpl v written_init
  obtain ⟨h1, h2, h3⟩ := written_flush h
  simp only [List.nil_append] at h1
  refine ⟨⟨?_, fun i => ?_⟩, h1.pos⟩
  · have := h1.cur
    rw [h2] at this
    unfold roundUp at this
    simp only [packOwn]
    omega
  · rw [← h1.bits, bitAt_append, h3]
    simp only [packOwn]
    split
    · rfl
    · rename_i hi
      rw [bitAt_single, bitAt_high _ _ (by omega)]; simp

/-! ### Where the scalars are -/

theorem sound_widen {ls : List Leaf} {c e a b : Nat} (h : a ∣ b) (hs : Sound ls c e a) : Sound ls c e b := by
  refine ⟨hs.mono, hs.range, hs.apart, fun l hl => ?_⟩
  rcases hs.align l hl with h' | ⟨h1, h2, h3⟩
  · exact Or.inl h'
  · exact Or.inr ⟨h1, Nat.dvd_trans h2 (Nat.mul_dvd_mul_left 8 h), h3⟩

theorem sound_own (k : Own) (v : k.Val) (c : Nat) (hc : 32 ∣ c) : Sound (ownLeaves k v c) c (c + 96) 4 := by
  obtain ⟨q, rfl⟩ := hc
  refine ⟨by omega, ?_, ?_, ?_⟩
  · intro l hl
    unfold ownLeaves at hl
    rcases List.mem_append.mp hl with hl | hl
    · obtain ⟨x, hx, rfl⟩ := List.mem_map.mp hl
      have := ownFlags_lt k v x hx
      simp only; omega
    · simp only [List.mem_cons, List.not_mem_nil, or_false] at hl
      rcases hl with rfl | rfl <;> simp only <;> omega
  · unfold ownLeaves
    cases k <;> simp [ownFlags] <;> omega
  · intro l hl
    unfold ownLeaves at hl
    rcases List.mem_append.mp hl with hl | hl
    · obtain ⟨x, hx, rfl⟩ := List.mem_map.mp hl
      exact Or.inl rfl
    · simp only [List.mem_cons, List.not_mem_nil, or_false] at hl
      rcases hl with rfl | rfl
      · exact Or.inr ⟨⟨4, rfl⟩, ⟨1, rfl⟩, ⟨q + 1, by simp only; omega⟩, by simp only; omega, ⟨q + 1, by simp only; omega⟩⟩
      · exact Or.inr ⟨⟨4, rfl⟩, ⟨1, rfl⟩, ⟨q + 2, by simp only; omega⟩, by simp only; omega, ⟨q + 2, by simp only; omega⟩⟩

theorem sound_field (f : OTy) (np : Bool) (hw : f.wf = true) (hpl : plainOwn f = true) (hs : f.isStruct = false) (v : f.Val)
    (c : Nat) : Sound (placeField f np v c).1 c (placeField f np v c).2 (ownAlign f) := by
  cases f with
  | ty t =>
    have hw : t.wf = true := hw
    have hpl : plain t = true := hpl
    have := sound_place (.cons np t .nil) (by simp [Ty.wf, hw, Ty.isStruct]) (by simp [plain, hpl]) (v, ()) c
    refine sound_widen ?_ this
    have h := natAlign_pos t hw
    simp only [natAlign, ownAlign]
    rw [Nat.max_eq_left (by omega)]
    exact Nat.dvd_refl _
  | own k =>
    have h := sound_own k v (roundUp c 32) (dvd_roundUp c 32)
    have hc := le_roundUp c (a := 32) (by omega)
    exact ⟨Nat.le_trans hc h.mono, fun l hl => by have := h.range l hl; simp only [placeField] at *; omega, h.apart, h.align⟩
  | owns n k => simp [plainOwn] at hpl
  | nil => simp [OTy.isStruct] at hs
  | cons np f rest => simp [OTy.isStruct] at hs

theorem sound_placeOwn (t : OTy) (hw : t.wf = true) (hpl : plainOwn t = true) (v : t.Val) (c : Nat) :
    Sound (placeOwn t v c).1 c (placeOwn t v c).2 (ownAlign t) := by
  induction t generalizing c with
  | ty t => exact ⟨Nat.le_refl _, by simp [placeOwn], by simp [placeOwn], by simp [placeOwn]⟩
  | own k => exact ⟨Nat.le_refl _, by simp [placeOwn], by simp [placeOwn], by simp [placeOwn]⟩
  | owns n k => exact ⟨Nat.le_refl _, by simp [placeOwn], by simp [placeOwn], by simp [placeOwn]⟩
  | nil => exact ⟨Nat.le_refl _, by simp [placeOwn], by simp [placeOwn], by simp [placeOwn]⟩
  | cons np f rest ihf ihr =>
    simp only [OTy.wf, Bool.and_eq_true] at hw
    simp only [plainOwn, Bool.and_eq_true] at hpl
    obtain ⟨⟨hwf, hwr⟩, hsr⟩ := hw
    obtain ⟨d1, d2⟩ := ownAlign_dvd np f rest hwf hwr
    have hpos : 0 < ownAlign f := by rcases ownAlign_cases f hwf with h | h | h | h <;> omega
    simp only [placeOwn]
    cases hst : f.isStruct with
    | true =>
      simp only [if_true]
      refine sound_append (m := roundUp c (8 * ownAlign f) + roundUp (placeOwn f v.1 0).2 8) ?_
        (sound_widen d2 (ihr hwr hpl.2 v.2 _))
      have h := ihf hwf hpl.1 v.1 0
      have hr8 := le_roundUp (placeOwn f v.1 0).2 (a := 8) (by omega)
      have hc0 := le_roundUp c (a := 8 * ownAlign f) (by omega)
      have hdv := dvd_roundUp c (8 * ownAlign f)
      refine ⟨by omega, ?_, ?_, ?_⟩
      · intro l hl
        obtain ⟨l', hl', rfl⟩ := List.mem_map.mp hl
        have := h.range l' hl'
        simp only [Leaf.shift]
        omega
      · rw [List.pairwise_map]
        exact h.apart.imp (fun {x y} hxy => by simp only [Leaf.shift]; omega)
      · intro l hl
        obtain ⟨l', hl', rfl⟩ := List.mem_map.mp hl
        rcases h.align l' hl' with h' | ⟨h1, h2, h3, h4, h5⟩
        · exact Or.inl h'
        · refine Or.inr ⟨h1, Nat.dvd_trans h2 (Nat.mul_dvd_mul_left 8 d1), ?_, ?_, ?_⟩
          · exact Nat.dvd_add h3 (Nat.dvd_trans h2 hdv)
          · simp only [Leaf.shift]; omega
          · simp only [Leaf.shift]
            rw [show l'.off + roundUp c (8 * ownAlign f) - (l'.base + roundUp c (8 * ownAlign f)) = l'.off - l'.base by omega]
            exact h5
    | false =>
      simp only [Bool.false_eq_true, if_false]
      exact sound_append (sound_widen d1 (sound_field f np hwf hpl.1 hst v.1 c)) (sound_widen d2 (ihr hwr hpl.2 v.2 _))

/-- The scalars of an image are found in it, if their places do not overlap. -/
theorem found_image {img : Bytes} {ls : List Leaf} {e a : Nat} (ha : 0 < a) (hi : IsImage img ls e) (hs : Sound ls 0 e a)
    (more : Bytes) : Found (img ++ more) ls := by
  intro l hl
  have hr := hs.range l hl
  have hlen := hi.1
  refine ⟨?_, by rw [List.length_append]; omega, fun j hj => ?_⟩
  · rcases hs.align l hl with h | ⟨-, h, -⟩
    · omega
    · exact Nat.pos_of_dvd_of_pos h (by omega)
  rw [bitAt_append, if_pos (by omega), hi.2]
  have hap := hs.apart
  have other : ∀ l' ∈ ls, l' = l ∨ l'.off + l'.width ≤ l.off ∨ l.off + l.width ≤ l'.off := by
    clear hi hs hr
    intro l' hl'
    induction ls with
    | nil => simp at hl
    | cons x xs ih =>
      rw [List.pairwise_cons] at hap
      rcases List.mem_cons.mp hl with rfl | hl
      · rcases List.mem_cons.mp hl' with rfl | hl'
        · exact Or.inl rfl
        · exact Or.inr (Or.inr (hap.1 _ hl'))
      · rcases List.mem_cons.mp hl' with e | hl'
        · subst e; exact Or.inr (Or.inl (hap.1 _ (by assumption)))
        · exact ih (by assumption) hap.2 hl'
  rw [Bool.eq_iff_iff]
  unfold covered
  rw [List.any_eq_true]
  constructor
  · rintro ⟨l', hl', h'⟩
    simp only [Bool.and_eq_true, decide_eq_true_eq] at h'
    rcases other l' hl' with rfl | h1 | h1
    · rw [show l'.off + j - l'.off = j by omega] at h'; exact h'.2
    · omega
    · omega
  · intro hb
    refine ⟨l, hl, ?_⟩
    simp only [Bool.and_eq_true, decide_eq_true_eq]
    rw [show l.off + j - l.off = j by omega]
    exact ⟨⟨by omega, by omega⟩, hb⟩

/-- C111: in the layout the places of the scalars do not overlap, are inside the packed bytes, and every scalar but a
boolean starts at a multiple of its width. -/
theorem C111_aligned_partial (t : OTy) (hw : t.wf = true) (hpl : plainOwn t = true) (v : t.Val) :
    let ls := (placeOwn t v 0).1
    ls.Pairwise (fun x y => x.off + x.width ≤ y.off) ∧
    (∀ l ∈ ls, l.off + l.width ≤ 8 * (packOwn t v).1.length) ∧
    ∀ l ∈ ls, l.width = 1 ∨ (8 ∣ l.width ∧ l.width ∣ l.off) := by
  have h := sound_placeOwn t hw hpl v 0
  obtain ⟨⟨hlen, -⟩, -⟩ := C111_layout_partial t hw hpl v
  refine ⟨h.apart, fun l hl => ?_, fun l hl => ?_⟩
  · have := (h.range l hl).2
    omega
  · rcases h.align l hl with h | ⟨h1, -, h2, -⟩
    · exact Or.inl h
    · exact Or.inr ⟨h1, h2⟩

/-! ### Unpacking -/

theorem own_found (k : Own) (old v : k.Val) {src : Bytes} (h : Found src (ownLeaves k v 0)) :
    k.unpack old src = .ok (ownKept (.own k) old v, 12, src.drop 12) := by
  have hl : 12 ≤ src.length := by
    have := (h ⟨0, 64, 32, (ownNumbers k v).2.toNat⟩ (by simp [ownLeaves])).2.1
    simp only at this; omega
  have word : ∀ s : Bytes, 4 ≤ s.length → ∃ w : BitVec 32, s = putBV w ++ s.drop 4 := by
    intro s hs
    refine ⟨BitVec.ofNat 32 (unle (s.take 4)), ?_⟩
    have h1 := le_unle (s.take 4)
    have h2 := unle_lt (s.take 4)
    rw [show (s.take 4).length = 4 by simp; omega] at h1 h2
    rw [putBV, BitVec.toNat_ofNat, Nat.mod_eq_of_lt (by omega), h1, List.take_append_drop]
  obtain ⟨w0, e0⟩ := word src (by omega)
  obtain ⟨w1, e1⟩ := word (src.drop 4) (by simp; omega)
  obtain ⟨w2, e2⟩ := word ((src.drop 4).drop 4) (by simp; omega)
  have e : src = (packWords w0 w1 w2).1 ++ src.drop 12 := by
    have : ((src.drop 4).drop 4).drop 4 = src.drop 12 := by simp [List.drop_drop]
    rw [← this]
    simp only [packWords, List.append_assoc]
    rw [← e2, ← e1, ← e0]
  have bits : ∀ j, j < 96 → bitAt src j =
      if j < 32 then w0.getLsbD j else if j < 64 then w1.getLsbD (j - 32) else w2.getLsbD (j - 64) := by
    intro j hj
    rw [e, bitAt_append, (packWords_length w0 w1 w2).1, if_pos (by omega), packWords_get]
  have flag : ∀ x ∈ ownFlags k v, w0.getLsbD x.1 = x.2 := by
    intro x hx
    have hx' := ownFlags_lt k v x hx
    have := (h ⟨0, 0 + x.1, 1, x.2.toNat⟩ (by
      unfold ownLeaves; exact List.mem_append_left _ (List.mem_map.mpr ⟨x, hx, rfl⟩))).2.2 0 (by simp)
    simp only [Nat.zero_add, Nat.add_zero] at this
    rw [bits _ (by omega), if_pos hx', toNat_testBit] at this
    exact this
  have n1 : w1 = (ownNumbers k v).1 := by
    apply BitVec.eq_of_getLsbD_eq
    intro j hj
    have := (h ⟨0, 0 + 32, 32, (ownNumbers k v).1.toNat⟩ (by simp [ownLeaves])).2.2 j hj
    simp only at this
    rw [bits _ (by omega), if_neg (by omega), if_pos (by omega), show 0 + 32 + j - 32 = j by omega, BitVec.testBit_toNat] at this
    exact this
  have n2 : w2 = (ownNumbers k v).2 := by
    apply BitVec.eq_of_getLsbD_eq
    intro j hj
    have := (h ⟨0, 0 + 64, 32, (ownNumbers k v).2.toNat⟩ (by simp [ownLeaves])).2.2 j hj
    simp only at this
    rw [bits _ (by omega), if_neg (by omega), if_neg (by omega), show 0 + 64 + j - 64 = j by omega, BitVec.testBit_toNat] at this
    exact this
  generalize src.drop 12 = r at e
  subst e n1 n2
  clear h hl bits e0 e1 e2 word
  cases k with
  | timer =>
    simp only [ownFlags, List.forall_mem_cons, List.not_mem_nil, false_implies, implies_true, and_true] at flag
    simp only [Own.unpack, Timer.unpack, packWords, List.append_assoc, readU32, Res.bind_ok, hasBit_eq _ _ (by decide : 29 < 32),
      hasBit_eq _ _ (by decide : 30 < 32), hasBit_eq _ _ (by decide : 31 < 32), flag]
    rfl
  | counter =>
    simp only [ownFlags, List.forall_mem_cons, List.not_mem_nil, false_implies, implies_true, and_true] at flag
    simp only [Own.unpack, Counter.unpack, packWords, List.append_assoc, readU32, Res.bind_ok, hasBit_eq _ _ (by decide : 29 < 32),
      hasBit_eq _ _ (by decide : 30 < 32), hasBit_eq _ _ (by decide : 31 < 32), hasBit_eq _ _ (by decide : 28 < 32),
      hasBit_eq _ _ (by decide : 27 < 32), flag]
    rfl
  | control =>
    simp only [ownFlags, List.forall_mem_cons, List.not_mem_nil, false_implies, implies_true, and_true] at flag
    simp only [Own.unpack, Control.unpack, packWords, List.append_assoc, readU32, Res.bind_ok, hasBit_eq _ _ (by decide : 29 < 32),
      hasBit_eq _ _ (by decide : 30 < 32), hasBit_eq _ _ (by decide : 31 < 32), hasBit_eq _ _ (by decide : 28 < 32),
      hasBit_eq _ _ (by decide : 27 < 32), hasBit_eq _ _ (by decide : 26 < 32), hasBit_eq _ _ (by decide : 25 < 32),
      hasBit_eq _ _ (by decide : 24 < 32), flag]
    rfl

theorem found_spot {src : Bytes} {ls ms : List Leaf} (e : ls.map Leaf.spot = ms.map Leaf.spot) (h : Found src ls) :
    Found src ms := by
  intro l hl
  have : l.spot ∈ ls.map Leaf.spot := by rw [e]; exact List.mem_map_of_mem hl
  obtain ⟨m, hm, hs⟩ := List.mem_map.mp this
  have := h m hm
  simp only [Leaf.spot, Prod.mk.injEq] at hs
  rw [hs.1, hs.2.1, hs.2.2] at this
  exact this

theorem own_spots (k : Own) (v : k.Val) (c : Nat) :
    (ownLeaves k v c).map Leaf.spot = ((ownLeaves k v 0).map (Leaf.shift c)).map Leaf.spot := by
  simp only [ownLeaves, List.map_append, List.map_map, List.map_cons, List.map_nil]
  congr 1
  · apply List.map_congr_left
    intro x _
    simp only [Function.comp_apply, Leaf.shift, Leaf.spot]
    rw [show 0 + x.1 + c = c + x.1 by omega]
  · simp only [Leaf.shift, Leaf.spot]
    rw [show 0 + 32 + c = c + 32 by omega, show 0 + 64 + c = c + 64 by omega]

theorem field_found (f : OTy) (np : Bool) (hw : f.wf = true) (hpl : plainOwn f = true) (hs : f.isStruct = false)
    (old v : f.Val) {full : Bytes} {st : UnpackSt} {c : Nat} (h : ReadAt full st c)
    (he : (placeField f np v c).2 ≤ 8 * full.length) (hf : Found full (placeField f np v c).1) :
    ∃ st', f.unpackField np old st = .ok (ownKept f old v, st') ∧ ReadAt full st' (placeField f np v c).2 := by
  cases f with
  | ty t =>
    have hw : t.wf = true := hw
    have hpl : plain t = true := hpl
    obtain ⟨st', a1, a2⟩ := unpackFields_found (.cons np t .nil) (by simp [Ty.wf, hw, Ty.isStruct]) (by simp [plain, hpl])
      (v, ()) h rfl he hf
    refine ⟨st', ?_, a2⟩
    simp only [OTy.unpackField, a1, Res.bind_ok]
    rfl
  | own k =>
    have he : roundUp c (8 * 4) + 96 ≤ 8 * full.length := he
    have hf : Found full (ownLeaves k v (roundUp c (8 * 4))) := hf
    obtain ⟨s0, hp⟩ := pad_found (readAt_flush h) rfl 4 (by omega) (by rw [roundUp_8 _ _ (by omega)]; omega)
    obtain ⟨a1, a0⟩ := readAt_pad (readAt_flush h) rfl 4 (by omega) hp
    rw [roundUp_8 _ _ (by omega)] at a1
    have hc := a1.cur
    rw [if_pos a0, Nat.add_zero] at hc
    rw [hc] at hf
    have f1 := found_unshift s0.n (found_spot (own_spots k v _) hf)
    rw [← a1.src] at f1
    refine ⟨{ s0 with src := s0.src.drop 12, n := s0.n + 12 }, ?_, ?_⟩
    · simp only [OTy.unpackField, hp, Res.bind_ok, own_found k old v f1]
    · show ReadAt full _ (roundUp c (8 * 4) + 96)
      refine ⟨by simp only [a1.src, List.drop_drop], a1.bit, by simp only [a0, if_true]; omega, by simp [a0]⟩
  | owns n k => simp [plainOwn] at hpl
  | nil => simp [OTy.isStruct] at hs
  | cons np f rest => simp [OTy.isStruct] at hs

theorem own_fields_found (t : OTy) (hw : t.wf = true) (hpl : plainOwn t = true) {full : Bytes} {st : UnpackSt} {c : Nat}
    (old v : t.Val) (h : ReadAt full st c) (hs : t.isStruct = true) (he : (placeOwn t v c).2 ≤ 8 * full.length)
    (hf : Found full (placeOwn t v c).1) :
    ∃ st', unpackOwnFields t old st = .ok (ownKept t old v, st') ∧ ReadAt full st' (placeOwn t v c).2 := by
  induction t generalizing full st c with
  | ty t => simp [OTy.isStruct] at hs
  | own k => simp [OTy.isStruct] at hs
  | owns n k => simp [OTy.isStruct] at hs
  | nil => exact ⟨st, rfl, h⟩
  | cons np f rest ihf ihr =>
    simp only [OTy.wf, Bool.and_eq_true] at hw
    simp only [plainOwn, Bool.and_eq_true] at hpl
    obtain ⟨⟨hwf, hwr⟩, hsr⟩ := hw
    simp only [placeOwn] at he hf ⊢
    have hpos : 0 < ownAlign f := by rcases ownAlign_cases f hwf with h | h | h | h <;> omega
    have mono : ∀ e, e ≤ (placeOwn rest v.2 e).2 := fun e => (sound_placeOwn rest hwr hpl.2 v.2 e).mono
    cases hst : f.isStruct with
    | true =>
      simp only [hst, if_true] at he hf ⊢
      obtain ⟨f1, f2⟩ := found_append.mp hf
      have hc0 : roundUp c (8 * ownAlign f) ≤ 8 * full.length :=
        Nat.le_trans (Nat.le_trans (Nat.le_add_right ..) (mono _)) he
      obtain ⟨s0, hp⟩ := pad_found (readAt_flush h) rfl (ownAlign f) hpos (by rw [roundUp_8 _ _ hpos]; exact hc0)
      obtain ⟨a1, a0⟩ := readAt_pad (readAt_flush h) rfl (ownAlign f) hpos hp
      rw [roundUp_8 _ _ hpos] at a1
      have hc := a1.cur
      rw [if_pos a0, Nat.add_zero] at hc
      rw [hc] at f1
      have f1 := found_unshift s0.n f1
      rw [← a1.src] at f1
      have b0 : ReadAt s0.src ⟨s0.src, 0, 0, 0#8⟩ 0 := ⟨rfl, by simp, by simp, by simp⟩
      have hle : (placeOwn f v.1 0).2 ≤ 8 * s0.src.length := by
        have := Nat.le_trans (mono _) he
        have h8 : (placeOwn f v.1 0).2 ≤ roundUp (placeOwn f v.1 0).2 8 := le_roundUp _ (by decide)
        rw [a1.src, List.length_drop]
        omega
      obtain ⟨r, b1, b2⟩ := ihf hwf hpl.1 old.1 v.1 b0 hst hle f1
      have b4 : ReadAt full { s0 with src := r.src, n := s0.n + r.n }
          (roundUp c (8 * ownAlign f) + roundUp (placeOwn f v.1 0).2 8) := by
        have e1 := (readAt_flush b2).cur
        simp only [if_true, Nat.add_zero] at e1
        refine ⟨by simp only [b2.src, a1.src, List.drop_drop], a1.bit, ?_, by simp [a0]⟩
        simp only [a0, if_true]
        omega
      obtain ⟨s2, a3, a4⟩ := ihr hwr hpl.2 old.2 v.2 b4 hsr he f2
      refine ⟨s2, ?_, a4⟩
      simp only [unpackOwnFields, ownAlign_eq f, hp, hst, if_true, b1, Res.bind_ok, a3]
      rfl
    | false =>
      simp only [hst, Bool.false_eq_true, if_false] at he hf ⊢
      obtain ⟨f1, f2⟩ := found_append.mp hf
      obtain ⟨s1, a1, a2⟩ := field_found f np hwf hpl.1 hst old.1 v.1 h (Nat.le_trans (mono _) he) f1
      obtain ⟨s2, a3, a4⟩ := ihr hwr hpl.2 old.2 v.2 a2 hsr he f2
      refine ⟨s2, ?_, a4⟩
      simp only [unpackOwnFields, hst, Bool.false_eq_true, if_false, a1, Res.bind_ok, a3]
      rfl

/-- C111, without arrays of built-in types: from bytes that have every scalar at its place, whatever the other bits are,
`Unpack` takes the value; FS, LS, OV and ER of its TIMERs stay as they were. -/
theorem C111_read_partial (t : OTy) (hs : t.isStruct = true) (hw : t.wf = true) (hpl : plainOwn t = true) (old v : t.Val)
    (b : Bytes) (he : (placeOwn t v 0).2 ≤ 8 * b.length) (hf : Found b (placeOwn t v 0).1) :
    unpackOwn t old b = .ok (ownKept t old v, ((placeOwn t v 0).2 + 7) / 8, b.drop (((placeOwn t v 0).2 + 7) / 8)) := by
  obtain ⟨st, h1, h2⟩ := own_fields_found t hw hpl (full := b) (st := ⟨b, 0, 0, 0#8⟩) old v ⟨rfl, by simp, by simp, by simp⟩ hs he hf
  have e : st.n = ((placeOwn t v 0).2 + 7) / 8 := by
    have h3 := h2.cur
    have h4 := h2.bit
    split at h3 <;> omega
  simp only [unpackOwn, h1, Res.bind_ok, h2.src, e]

/-- C111, without arrays of built-in types: what is packed is unpacked again, whatever comes after it, but for FS, LS, OV
and ER of TIMERs. -/
theorem C111_roundtrip_partial (t : OTy) (hs : t.isStruct = true) (hw : t.wf = true) (hpl : plainOwn t = true)
    (old v : t.Val) (rest : Bytes) :
    unpackOwn t old ((packOwn t v).1 ++ rest) = .ok (ownKept t old v, (packOwn t v).2, rest) := by
  obtain ⟨hi, hn⟩ := C111_layout_partial t hw hpl v
  have hpos : 0 < ownAlign t := by rcases ownAlign_cases t hw with h | h | h | h <;> omega
  have hf := found_image hpos hi (sound_placeOwn t hw hpl v 0) rest
  have hl := hi.1
  rw [C111_read_partial t hs hw hpl old v _ (by rw [List.length_append]; omega) hf, ← hl, hn, List.drop_left' rfl]

/-- C111 fails for arrays of built-in types, for all values: in an array they are written as their numbers and a byte for each
flag, without a control word, and each is counted as 16 bytes. -/
theorem C111_array_wrong (k : Own) (n : Nat) (v : Rep n k.Val) :
    packOwn (.cons false (.owns n k) .nil) (v, ()) = ((Rep.toList n v).flatMap (ownFields k), 16 * n) := by
  have e1 : ∀ x : k.Val, k.enc x = ownFields k x := by
    intro x
    have hb : boolByte = fun b => if b = true then 1#8 else 0#8 := by funext b; cases b <;> rfl
    cases k with
    | timer => simp only [Own.enc, ownFields, ownNumbers, ownDeclared, hb]
    | counter => simp only [Own.enc, ownFields, ownNumbers, ownDeclared, hb]
    | control => simp only [Own.enc, ownFields, ownNumbers, ownDeclared, hb]
  have e : ∀ (n : Nat) (v : Rep n k.Val), encRep k.enc n v = (Rep.toList n v).flatMap (ownFields k) := by
    intro n
    induction n with
    | zero => intro v; rfl
    | succ n ih => intro v; simp only [encRep, Rep.toList, List.flatMap_cons, ih, e1]
  simp only [packOwn, packOwnFields, OTy.isStruct, Bool.false_eq_true, if_false, OTy.packField]
  simp only [PackSt.flush, PackSt.pad, PackSt.init]
  simp [e, Nat.mul_comm]

theorem ownFields_length (k : Own) (v : k.Val) : (ownFields k v).length = 8 + (ownDeclared k v).length := by
  simp only [ownFields, List.length_append, putBV_length, List.length_map]

theorem declared_count (k : Own) (v : k.Val) : (ownDeclared k v).length = k.flat - 8 ∧ 13 ≤ k.flat ∧ (k ≠ .control → k.flat ≠ 16) := by
  cases k with
  | timer => exact ⟨rfl, by decide, by decide⟩
  | counter => exact ⟨rfl, by decide, by decide⟩
  | control => exact ⟨rfl, by decide, by decide⟩

theorem owns_length (k : Own) (n : Nat) (v : Rep n k.Val) :
    (packOwn (.cons false (.owns n k) .nil) (v, ())).1.length = k.flat * n := by
  rw [C111_array_wrong]
  have : ∀ l : List k.Val, (l.flatMap (ownFields k)).length = k.flat * l.length := by
    intro l
    induction l with
    | nil => rfl
    | cons t l ih =>
      have h := declared_count k t
      rw [List.flatMap_cons, List.length_append, ih, List.length_cons, ownFields_length, Nat.mul_add]
      omega
  simp only [this, toList_length]

/-- So what is written for such an array is never the controller's image of it, and for TIMER and COUNTER the returned size
is not the number of bytes either. -/
theorem C111_array_no_image (k : Own) (n : Nat) (hn : 0 < n) (v : Rep n k.Val) :
    let t : OTy := .cons false (.owns n k) .nil
    let x : t.Val := (v, ())
    ¬ IsImage (packOwn t x).1 (placeOwn t x 0).1 (placeOwn t x 0).2 ∧
      (k ≠ .control → (packOwn t x).2 ≠ (packOwn t x).1.length) := by
  intro t x
  have h : (packOwn t x).1.length = k.flat * n := owns_length k n v
  have hf : 13 ≤ k.flat ∧ (k ≠ .control → k.flat ≠ 16) := by cases k <;> decide
  constructor
  · intro hi
    have hb : (placeOwn t x 0).2 = 0 + 96 * n := rfl
    have := hi.1
    rw [hb, h] at this
    have := Nat.mul_le_mul_right n hf.1
    omega
  · intro hk
    rw [h]
    have : (packOwn t x).2 = 16 * n := by
      show (packOwn (.cons false (.owns n k) .nil) (v, ())).2 = _
      rw [C111_array_wrong]
    rw [this]
    intro e
    exact hf.2 hk (Nat.eq_of_mul_eq_mul_right hn e).symm

/-- C111 fails for arrays of built-in types, when they are read: the controller's image of such an array, which is of
12 bytes for each, is too short for `Unpack`. -/
theorem C111_array_short (k : Own) (n : Nat) (hn : 0 < n) (old : (OTy.cons false (.owns n k) .nil).Val) (b : Bytes)
    (hb : b.length = 12 * n) : unpackOwn (.cons false (.owns n k) .nil) old b = .err .unexpectedEof := by
  have hp : (⟨b, 0, 0, 0#8⟩ : UnpackSt).pad 4 = .ok ⟨b, 0, 0, 0#8⟩ := by simp [UnpackSt.pad]
  have hk : 13 ≤ k.flat := by cases k <;> decide
  have hm := Nat.mul_le_mul_left n hk
  have hr : readN (n * k.flat) b = .err .unexpectedEof := by
    unfold readN
    rw [if_neg (by omega), if_neg (by intro h; simp [h] at hb; omega), if_pos (by omega)]
  simp only [unpackOwn, unpackOwnFields, OTy.isStruct, Bool.false_eq_true, if_false, OTy.unpackField, hp, Res.bind_ok, hr]
  rfl

theorem flat_dec (k : Own) (v : k.Val) (rest : Bytes) : k.dec (ownFields k v ++ rest) = (v, rest) := by
  have four : ∀ p : BitVec 32, ∃ a b c d : Byte, putBV p = [a, b, c, d] ∧ BitVec.ofNat 32 (unle [a, b, c, d]) = p := by
    intro p
    have hl : (putBV p).length = 4 := putBV_length p
    have hu : BitVec.ofNat 32 (unle (putBV p)) = p := by
      apply BitVec.eq_of_toNat_eq
      have := p.isLt
      simp [putBV, unle_le]
      omega
    match hp : putBV p, hl, hu with
    | [a, b, c, d], _, hu => exact ⟨a, b, c, d, rfl, hu⟩
  have flag : ∀ b : Bool, ((if b = true then 1#8 else 0#8) != 0#8) = b := by decide
  cases k with
  | timer =>
    have key : ∀ t : Timer, (Own.timer).dec (ownFields .timer t ++ rest) = ((t : Timer), rest) := by
      rintro ⟨p, q, f0, f1, f2, f3, f4, f5, f6⟩
      obtain ⟨a, b, c, d, h1, h2⟩ := four p
      obtain ⟨a', b', c', d', h1', h2'⟩ := four q
      simp [ownFields, ownNumbers, ownDeclared, h1, h1', Own.dec, Own.flat, h2, h2', flag]
      rfl
    exact key v
  | counter =>
    have key : ∀ t : Counter, (Own.counter).dec (ownFields .counter t ++ rest) = ((t : Counter), rest) := by
      rintro ⟨p, q, f0, f1, f2, f3, f4⟩
      obtain ⟨a, b, c, d, h1, h2⟩ := four p
      obtain ⟨a', b', c', d', h1', h2'⟩ := four q
      simp [ownFields, ownNumbers, ownDeclared, h1, h1', Own.dec, Own.flat, h2, h2', flag]
      rfl
    exact key v
  | control =>
    have key : ∀ t : Control, (Own.control).dec (ownFields .control t ++ rest) = ((t : Control), rest) := by
      rintro ⟨p, q, f0, f1, f2, f3, f4, f5, f6, f7⟩
      obtain ⟨a, b, c, d, h1, h2⟩ := four p
      obtain ⟨a', b', c', d', h1', h2'⟩ := four q
      simp [ownFields, ownNumbers, ownDeclared, h1, h1', Own.dec, Own.flat, h2, h2', flag]
      rfl
    exact key v

/-- What `Pack` writes for such an array, `Unpack` reads back. -/
theorem C111_array_own (k : Own) (n : Nat) (v : Rep n k.Val) (old : (OTy.cons false (.owns n k) .nil).Val) (rest : Bytes) :
    unpackOwn (.cons false (.owns n k) .nil) old ((packOwn (.cons false (.owns n k) .nil) (v, ())).1 ++ rest) =
      .ok ((v, ()), 16 * n, rest) := by
  have hl := owns_length k n v
  have hw := C111_array_wrong k n v
  generalize packOwn (.cons false (.owns n k) .nil) (v, ()) = w at hl hw ⊢
  subst hw
  simp only at hl ⊢
  have hp : ∀ b : Bytes, (⟨b, 0, 0, 0#8⟩ : UnpackSt).pad 4 = .ok ⟨b, 0, 0, 0#8⟩ := by intro b; simp [UnpackSt.pad]
  have hd : ∀ (n : Nat) (v : Rep n k.Val), decRep k.dec n ((Rep.toList n v).flatMap (ownFields k)) = (v, []) := by
    intro n
    induction n with
    | zero => intro v; rfl
    | succ n ih => intro v; simp only [decRep, Rep.toList, List.flatMap_cons, flat_dec, ih]; rfl
  simp only [unpackOwn, unpackOwnFields, OTy.isStruct, Bool.false_eq_true, if_false, OTy.unpackField, hp, Res.bind_ok,
    readN_append' (rest := rest) (hl.trans (Nat.mul_comm k.flat n)), hd]
  simp [Nat.mul_comm]

/-! ### Examples -/

/-- `struct { A, B bool; T TIMER; N struct { X uint16; C COUNTER }; Z uint8 }`. -/
def ownTy : OTy :=
  .cons false (.ty .bool) (.cons false (.ty .bool) (.cons false (.own .timer)
    (.cons false (.cons false (.ty (.num 2)) (.cons false (.own .counter) .nil)) (.cons false (.ty (.num 1)) .nil))))

def ownTimer : Timer := ⟨1000#32, 7#32, true, false, true, true, false, false, false⟩
def ownCounter : Counter := ⟨3#32, 2#32, false, true, false, false, true⟩

def ownVal : ownTy.Val := (true, true, ownTimer, (0x0102#16, ownCounter, ()), 9#8, ())

example : ownTy.wf = true ∧ ownTy.isStruct = true ∧ plainOwn ownTy = true := by decide

example : packOwn ownTy ownVal =
    ([3#8, 0#8, 0#8, 0#8,
      0#8, 0#8, 0#8, 0xA0#8, 0xE8#8, 3#8, 0#8, 0#8, 7#8, 0#8, 0#8, 0#8,
      2#8, 1#8, 0#8, 0#8, 0#8, 0#8, 0#8, 0x48#8, 3#8, 0#8, 0#8, 0#8, 2#8, 0#8, 0#8, 0#8, 9#8], 33) := by decide

-- FS of the timer is not in the image
example : (ownKept ownTy (false, false, ⟨0, 0, false, false, false, false, true, false, false⟩, (0#16, ownCounter, ()), 0#8, ()) ownVal).2.2.1 =
    (⟨1000#32, 7#32, true, false, true, false, true, false, false⟩ : Timer) := rfl

end Gologix
