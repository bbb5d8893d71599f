import Verif.Model.Segments
import Verif.Spec.Segments
import Verif.Lemmas.Wire
/-
C05 Logical segments decode to what was encoded
C06 Request paths are whole words and the announced word count is right
C07 Element segments identify the element
-/
namespace Gologix

theorem putBV16_eq (p : BitVec 16) :
    putBV p = [BitVec.ofNat 8 p.toNat, BitVec.ofNat 8 (p.toNat / 256)] := by
  simp [putBV, le]

theorem putBV32_eq (p : BitVec 32) :
    putBV p = [BitVec.ofNat 8 p.toNat, BitVec.ofNat 8 (p.toNat / 256),
      BitVec.ofNat 8 (p.toNat / 65536), BitVec.ofNat 8 (p.toNat / 16777216)] := by
  simp [putBV, le, Nat.div_div_eq_div_mul]

theorem readBV8_cons (b : Byte) (r : Bytes) : readBV 8 (b :: r) = .ok (b, r) := by
  have := readU8 b r
  rwa [putBV_eight] at this

theorem readN_one_cons (b : Byte) (r : Bytes) : readN 1 (b :: r) = .ok ([b], r) := by
  simp [readN]

/-! ### C05 -/

/-- C05, class numbers: the library's own decoder, and the published segment format. -/
theorem C05_class (v : BitVec 16) (rest : Bytes) :
    classRead (classBytes v ++ rest) = .ok (v, rest) ∧
    Spec.decodeLogical (classBytes v ++ rest) = some (.classId, v.toNat, rest) := by
  have hv := v.isLt
  unfold classBytes
  split
  · constructor
    · simp [classRead, readBV8_cons]
      apply BitVec.eq_of_toNat_eq; simp; omega
    · simp [Spec.decodeLogical, Spec.logicalType]; omega
  · constructor
    · simp [classRead, readBV8_cons, readN_one_cons]
    · simp [Spec.decodeLogical, Spec.logicalType, putBV16_eq]; omega

/-- C05, instance numbers. -/
theorem C05_instance (v : BitVec 32) (rest : Bytes) :
    instanceRead (instanceBytes v ++ rest) = .ok (v, rest) ∧
    Spec.decodeLogical (instanceBytes v ++ rest) = some (.instanceId, v.toNat, rest) := by
  have hv := v.isLt
  unfold instanceBytes
  split
  · constructor
    · simp [instanceRead, readBV8_cons]
      apply BitVec.eq_of_toNat_eq; simp; omega
    · simp [Spec.decodeLogical, Spec.logicalType]; omega
  · split
    · constructor
      · simp [instanceRead, readBV8_cons, readN_one_cons]
        apply BitVec.eq_of_toNat_eq; simp; omega
      · simp [Spec.decodeLogical, Spec.logicalType, putBV16_eq]; omega
    · constructor
      · simp [instanceRead, readBV8_cons, readN_one_cons]
      · simp [Spec.decodeLogical, Spec.logicalType, putBV32_eq]; omega

/-- C05, attribute numbers. -/
theorem C05_attribute (v : BitVec 16) (rest : Bytes) :
    attributeRead (attributeBytes v ++ rest) = .ok (v, rest) ∧
    Spec.decodeLogical (attributeBytes v ++ rest) = some (.attributeId, v.toNat, rest) := by
  have hv := v.isLt
  unfold attributeBytes
  split
  · constructor
    · simp [attributeRead, readBV8_cons]
      apply BitVec.eq_of_toNat_eq; simp; omega
    · simp [Spec.decodeLogical, Spec.logicalType]; omega
  · constructor
    · simp [attributeRead, readBV8_cons, readN_one_cons]
    · simp [Spec.decodeLogical, Spec.logicalType, putBV16_eq]; omega

example : instanceRead (instanceBytes 0x12345 ++ [9]) = .ok (0x12345, [9]) ∧
    instanceBytes 0x12345 = [0x26, 0, 0x45, 0x23, 0x01, 0] := by decide

/-- C05, on arbitrary bytes the decoders agree with the published format: they succeed only on a
complete segment of their kind and then return its value and remainder. -/
theorem C05_decoders_sound (r rest : Bytes) :
    (∀ v, classRead r = .ok (v, rest) → Spec.decodeLogical r = some (.classId, v.toNat, rest)) ∧
    (∀ v, instanceRead r = .ok (v, rest) →
      Spec.decodeLogical r = some (.instanceId, v.toNat, rest)) ∧
    (∀ v, attributeRead r = .ok (v, rest) →
      Spec.decodeLogical r = some (.attributeId, v.toNat, rest)) := by
  refine ⟨?_, ?_, ?_⟩
  · intro v h
    unfold classRead at h
    simp only [Res.bind_eq_ok] at h
    obtain ⟨⟨sz, r1⟩, h1, h2⟩ := h
    have := readBV_ok (by decide) h1; subst this
    rw [putBV_eight]
    dsimp only at h2
    split at h2
    · subst_vars
      simp only [Res.bind_eq_ok] at h2
      obtain ⟨⟨b, r2⟩, h3, h4⟩ := h2
      have := readBV_ok (by decide) h3; subst this
      simp at h4; obtain ⟨rfl, rfl⟩ := h4
      have := b.isLt
      simp [Spec.decodeLogical, Spec.logicalType, putBV_eight]; omega
    · split at h2
      · subst_vars
        simp only [Res.bind_eq_ok] at h2
        obtain ⟨⟨b, r2⟩, h3, h4⟩ := h2
        obtain ⟨hl, rfl⟩ := readN_ok h3
        have := readBV_ok (by decide) h4; subst this
        obtain ⟨x, rfl⟩ := List.length_eq_one_iff.mp hl
        have := v.isLt
        simp [Spec.decodeLogical, Spec.logicalType, putBV16_eq]; omega
      · simp at h2
  · intro v h
    unfold instanceRead at h
    simp only [Res.bind_eq_ok] at h
    obtain ⟨⟨sz, r1⟩, h1, h2⟩ := h
    have := readBV_ok (by decide) h1; subst this
    rw [putBV_eight]
    dsimp only at h2
    split at h2
    · subst_vars
      simp only [Res.bind_eq_ok] at h2
      obtain ⟨⟨b, r2⟩, h3, h4⟩ := h2
      have := readBV_ok (by decide) h3; subst this
      simp at h4; obtain ⟨rfl, rfl⟩ := h4
      have := b.isLt
      simp [Spec.decodeLogical, Spec.logicalType, putBV_eight]; omega
    · split at h2
      · subst_vars
        simp only [Res.bind_eq_ok] at h2
        obtain ⟨⟨b, r2⟩, h3, ⟨w, r3⟩, h4, h5⟩ := h2
        obtain ⟨hl, rfl⟩ := readN_ok h3
        have := readBV_ok (by decide) h4; subst this
        obtain ⟨x, rfl⟩ := List.length_eq_one_iff.mp hl
        simp at h5; obtain ⟨rfl, rfl⟩ := h5
        have := w.isLt
        simp [Spec.decodeLogical, Spec.logicalType, putBV16_eq]; omega
      · split at h2
        · subst_vars
          simp only [Res.bind_eq_ok] at h2
          obtain ⟨⟨b, r2⟩, h3, h4⟩ := h2
          obtain ⟨hl, rfl⟩ := readN_ok h3
          have := readBV_ok (by decide) h4; subst this
          obtain ⟨x, rfl⟩ := List.length_eq_one_iff.mp hl
          have := v.isLt
          simp [Spec.decodeLogical, Spec.logicalType, putBV32_eq]; omega
        · simp at h2
  · intro v h
    unfold attributeRead at h
    simp only [Res.bind_eq_ok] at h
    obtain ⟨⟨sz, r1⟩, h1, h2⟩ := h
    have := readBV_ok (by decide) h1; subst this
    rw [putBV_eight]
    dsimp only at h2
    split at h2
    · subst_vars
      simp only [Res.bind_eq_ok] at h2
      obtain ⟨⟨b, r2⟩, h3, h4⟩ := h2
      have := readBV_ok (by decide) h3; subst this
      simp at h4; obtain ⟨rfl, rfl⟩ := h4
      have := b.isLt
      simp [Spec.decodeLogical, Spec.logicalType, putBV_eight]; omega
    · split at h2
      · subst_vars
        simp only [Res.bind_eq_ok] at h2
        obtain ⟨⟨b, r2⟩, h3, h4⟩ := h2
        obtain ⟨hl, rfl⟩ := readN_ok h3
        have := readBV_ok (by decide) h4; subst this
        obtain ⟨x, rfl⟩ := List.length_eq_one_iff.mp hl
        have := v.isLt
        simp [Spec.decodeLogical, Spec.logicalType, putBV16_eq]; omega
      · simp at h2

/-! ### C06 -/

theorem seg_even (s : Seg) : s.bytes.length % 2 = 0 := by
  cases s <;> simp only [Seg.bytes, classBytes, instanceBytes, elementBytes, attributeBytes] <;>
    repeat' split
  all_goals simp

theorem serializeSegs_eq (segs : List Seg) : serializeSegs segs = (segs.map Seg.bytes).flatten := by
  simp [serializeSegs]

/-- C05 for a whole path: what `GetAttrSingle` sends names the class, then the instance, then the attribute. -/
theorem C05_getAttrSingle_path (c : BitVec 16) (i : BitVec 32) (a : BitVec 16) (rest : Bytes) :
    ∃ r1 r2, Spec.decodeLogical (getAttrSinglePath c i a ++ rest) = some (.classId, c.toNat, r1) ∧
      Spec.decodeLogical r1 = some (.instanceId, i.toNat, r2) ∧
      Spec.decodeLogical r2 = some (.attributeId, a.toNat, rest) := by
  refine ⟨instanceBytes i ++ (attributeBytes a ++ rest), attributeBytes a ++ rest, ?_, (C05_instance i _).2,
    (C05_attribute a _).2⟩
  have := (C05_class c (instanceBytes i ++ (attributeBytes a ++ rest))).2
  simpa [getAttrSinglePath] using this

/-- C06: every path of logical segments is an even number of bytes. -/
theorem C06_path_even (segs : List Seg) : (serializeSegs segs).length % 2 = 0 := by
  rw [serializeSegs_eq]
  induction segs with
  | nil => rfl
  | cons s ss ih =>
    have := seg_even s
    simp only [List.map_cons, List.flatten_cons, List.length_append]
    omega

/-- C06: the word count computed from the bytes is exact when the path fits in 255 words: twice the
announced count is the number of path bytes. -/
theorem C06_word_count (segs : List Seg) (h : (serializeSegs segs).length < 512) :
    2 * (pathLengthOf (serializeSegs segs)).toNat = (serializeSegs segs).length := by
  have := C06_path_even segs
  unfold pathLengthOf
  simp only [BitVec.toNat_ofNat]
  omega

example : (serializeSegs [.cls 0x6B, .inst 70000, .attr 300, .elem 256]).length < 512 := by decide

/-- C06: the path of `GetAttrSingle`, whose word count is computed from the declared segment
lengths, is announced exactly, for all class, instance and attribute numbers. -/
theorem C06_getAttrSingle (c : BitVec 16) (i : BitVec 32) (a : BitVec 16) :
    2 * (getAttrSinglePathLength c i a).toNat = (getAttrSinglePath c i a).length := by
  unfold getAttrSinglePathLength getAttrSinglePath classLen instanceLen attributeLen classBytes
    instanceBytes attributeBytes
  repeat' split
  all_goals simp

/-- C06: declared lengths equal actual lengths for class, instance and attribute segments. -/
theorem C06_declared_length (s : Seg) (h : ∀ v, s ≠ .elem v) : s.len = s.bytes.length := by
  cases s with
  | elem v => exact absurd rfl (h v)
  | cls v => simp only [Seg.len, Seg.bytes, classLen, classBytes]; split <;> simp
  | inst v =>
    simp only [Seg.len, Seg.bytes, instanceLen, instanceBytes]
    repeat' split
    all_goals simp
  | attr v => simp only [Seg.len, Seg.bytes, attributeLen, attributeBytes]; split <;> simp

/-- C06 for all four kinds.  Missing from the full claim: the declared length of element segment
65535, which is wrong (`C06_element_length_wrong`). -/
theorem C06_declared_length_partial (s : Seg) (h : s ≠ .elem 65535) : s.len = s.bytes.length := by
  cases s with
  | elem v =>
    have hv : v.toNat ≠ 65535 := by
      intro hv
      apply h
      rw [show v = 65535#32 from BitVec.eq_of_toNat_eq (by simpa using hv)]; rfl
    simp only [Seg.len, Seg.bytes, elementLen, elementBytes]
    repeat' split
    all_goals first | (simp; done) | omega
  | cls v => exact C06_declared_length _ (by simp)
  | inst v => exact C06_declared_length _ (by simp)
  | attr v => exact C06_declared_length _ (by simp)

/-- C06 is false as stated for element 65535: four bytes are sent and six are declared. -/
theorem C06_element_length_wrong :
    (Seg.elem 65535).len = 6 ∧ (Seg.elem 65535).bytes.length = 4 := by decide

/-! ### C07 -/

/-- C07 for element numbers below 65536.  Missing: the 32-bit range, where it is false
(`C07_element_32bit_wrong`). -/
theorem C07_element_partial (v : BitVec 32) (rest : Bytes) (h : v.toNat < 65536) :
    Spec.decodeLogical (elementBytes v ++ rest) = some (.memberId, v.toNat, rest) := by
  unfold elementBytes
  split
  · simp [Spec.decodeLogical, Spec.logicalType]; omega
  · simp [Spec.decodeLogical, Spec.logicalType, putBV16_eq]; omega

example : Spec.decodeLogical (elementBytes 65535 ++ [1]) = some (.memberId, 65535, [1]) := by decide

/-- C07 is false for every element number from 65536 on: a decoder reads the low 16 bits as the
element number and takes the two high bytes for the next segment. -/
theorem C07_element_32bit_wrong (v : BitVec 32) (rest : Bytes) (h : 65536 ≤ v.toNat) :
    Spec.decodeLogical (elementBytes v ++ rest) =
      some (.memberId, v.toNat % 65536,
        BitVec.ofNat 8 (v.toNat / 65536) :: BitVec.ofNat 8 (v.toNat / 16777216) :: rest) ∧
    v.toNat % 65536 ≠ v.toNat := by
  unfold elementBytes
  constructor
  · rw [if_neg (by omega), if_neg (by omega)]
    simp [Spec.decodeLogical, Spec.logicalType, putBV32_eq]; omega
  · omega

/-- C07, the part that does hold for all 32-bit numbers: different numbers have different bytes. -/
theorem C07_element_injective (v w : BitVec 32) (h : elementBytes v = elementBytes w) : v = w := by
  have hv := v.isLt
  have hw := w.isLt
  apply BitVec.eq_of_toNat_eq
  unfold elementBytes at h
  repeat' split at h
  all_goals simp [putBV16_eq, putBV32_eq] at h
  · have := congrArg BitVec.toNat h; simp at this; omega
  · obtain ⟨h1, h2⟩ := h
    have := congrArg BitVec.toNat h1; have := congrArg BitVec.toNat h2; simp at *; omega
  · obtain ⟨h1, h2, h3, h4⟩ := h
    have := congrArg BitVec.toNat h1; have := congrArg BitVec.toNat h2
    have := congrArg BitVec.toNat h3; have := congrArg BitVec.toNat h4
    simp at *; omega

end Gologix
