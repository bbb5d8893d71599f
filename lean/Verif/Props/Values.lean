import Verif.Spec.Values
import Verif.Props.Ioi
/-
C12 Bit addressing returns the addressed bit
C13 Atomic values survive encode/decode
C14 Boolean arrays unpack bit by bit
C15 Fixed-capacity string writes never grow or corrupt the frame
-/
set_option linter.unusedSimpArgs false

namespace Gologix

/-! ### C12 -/

theorem maskTest_eq {w : Nat} (x : BitVec w) {n : Nat} (h : n < w) : maskTest x n = x.getLsbD n := by
  unfold maskTest
  have key : (x &&& (1#w <<< n)) = 0#w ↔ x.getLsbD n = false := by
    constructor
    · intro e
      have := congrArg (fun y => BitVec.getLsbD y n) e
      simpa [h, BitVec.getLsbD_one, show 0 < w by omega] using this
    · intro e
      apply BitVec.eq_of_getLsbD_eq
      intro i hi
      by_cases hin : i = n
      · subst hin; simp [e]
      · simp only [BitVec.getLsbD_and, BitVec.getLsbD_shiftLeft, BitVec.getLsbD_one,
          BitVec.getLsbD_zero]
        by_cases hlt : i < n
        · simp [hlt]
        · have : ¬ i - n = 0 := by omega
          simp [this]
  cases hb : x.getLsbD n with
  | false => simp [bne, key.mpr hb]
  | true =>
    have : ¬ (x &&& (1#w <<< n)) = 0#w := fun e => by rw [key.mp e] at hb; simp at hb
    simp [bne, this]

theorem bitOf_toNat {w : Nat} (x : BitVec w) (n : Nat) : Spec.bitOf x.toNat n = x.getLsbD n := by
  unfold Spec.bitOf BitVec.getLsbD
  rw [Nat.testBit_eq_decide_div_mod_eq]
  have e : ((x.toNat : Int) / 2 ^ n) % 2 = (((x.toNat / 2 ^ n) % 2 : Nat) : Int) := by
    push_cast; rfl
  rw [e]
  congr 1
  simp only [eq_iff_iff]
  omega

theorem bitOf_toInt {w : Nat} (x : BitVec w) {n : Nat} (h : n < w) :
    Spec.bitOf x.toInt n = x.getLsbD n := by
  rw [← bitOf_toNat]
  rw [BitVec.toInt_eq_toNat_cond]
  split
  · rfl
  · unfold Spec.bitOf
    congr 1
    have e : (2 : Int) ^ w = 2 * 2 ^ (w - n - 1) * 2 ^ n := by
      rw [Int.mul_assoc, ← Int.pow_add]
      rw [show (2 : Int) * 2 ^ (w - n - 1 + n) = 2 ^ (w - n - 1 + n) * 2 by omega, ← Int.pow_succ]
      congr 1; omega
    have e2 : ((2 ^ w : Nat) : Int) = 2 * 2 ^ (w - n - 1) * 2 ^ n := by rw [← e]; push_cast; rfl
    rw [e2]
    have hp : (2 : Int) ^ n ≠ 0 := by
      have : (0 : Int) < 2 ^ n := Int.pow_pos (by decide)
      omega
    have e3 : ((x.toNat : Int) - 2 * 2 ^ (w - n - 1) * 2 ^ n) / 2 ^ n =
        (x.toNat : Int) / 2 ^ n - 2 * 2 ^ (w - n - 1) := by
      rw [Int.sub_ediv_of_dvd _ ⟨2 * 2 ^ (w - n - 1), by rw [Int.mul_comm]⟩, Int.mul_ediv_cancel _ hp]
    rw [e3]
    simp only [eq_iff_iff]
    generalize (2 : Int) ^ (w - n - 1) = k
    omega

theorem intWidth_cases {t : Byte} {w : Nat} (h : Spec.intWidth t = some w) :
    (t = tSINT ∧ w = 8) ∨ (t = tINT ∧ w = 16) ∨ (t = tDINT ∧ w = 32) ∨ (t = tLINT ∧ w = 64) ∨
    (t = tUSINT ∧ w = 8) ∨ (t = tUINT ∧ w = 16) ∨ (t = tUDINT ∧ w = 32) ∨ (t = tBYTE ∧ w = 8) ∨
    (t = tWORD ∧ w = 16) ∨ (t = tDWORD ∧ w = 32) ∨ (t = tLWORD ∧ w = 64) := by
  have e : ∀ c : Byte, t.toNat = c.toNat → t = c := fun c hc => BitVec.eq_of_toNat_eq hc
  unfold Spec.intWidth at h
  split at h <;> simp only [Option.some.injEq, reduceCtorEq] at h <;> subst h
  · exact .inl ⟨e tSINT ‹_›, rfl⟩
  · exact .inr (.inl ⟨e tINT ‹_›, rfl⟩)
  · exact .inr (.inr (.inl ⟨e tDINT ‹_›, rfl⟩))
  · exact .inr (.inr (.inr (.inl ⟨e tLINT ‹_›, rfl⟩)))
  · exact .inr (.inr (.inr (.inr (.inl ⟨e tUSINT ‹_›, rfl⟩))))
  · exact .inr (.inr (.inr (.inr (.inr (.inl ⟨e tUINT ‹_›, rfl⟩)))))
  · exact .inr (.inr (.inr (.inr (.inr (.inr (.inl ⟨e tUDINT ‹_›, rfl⟩))))))
  · exact .inr (.inr (.inr (.inr (.inr (.inr (.inr (.inl ⟨e tBYTE ‹_›, rfl⟩)))))))
  · exact .inr (.inr (.inr (.inr (.inr (.inr (.inr (.inr (.inl ⟨e tWORD ‹_›, rfl⟩))))))))
  · exact .inr (.inr (.inr (.inr (.inr (.inr (.inr (.inr (.inr (.inl ⟨e tDWORD ‹_›, rfl⟩)))))))))
  · exact .inr (.inr (.inr (.inr (.inr (.inr (.inr (.inr (.inr (.inr ⟨e tLWORD ‹_›, rfl⟩)))))))))

/-- C12 for every integer type but SINT: whatever bytes arrive, if they decode to a value then bit `n`
inside the width is the bit of the two's complement number. -/
theorem C12_bit_of_value_partial {t : Byte} {w : Nat} (hw : Spec.intWidth t = some w) (hs : t ≠ tSINT)
    {r rest : Bytes} {v : Scal} (hr : readValue t r = .ok (v, rest)) {n : Nat} (hn : n < w) :
    ∃ z, Spec.intVal v = some z ∧ getBit t v n = .ok (Spec.bitOf z n) := by
  rcases intWidth_cases hw with ⟨rfl, rfl⟩ | ⟨rfl, rfl⟩ | ⟨rfl, rfl⟩ | ⟨rfl, rfl⟩ | ⟨rfl, rfl⟩ |
    ⟨rfl, rfl⟩ | ⟨rfl, rfl⟩ | ⟨rfl, rfl⟩ | ⟨rfl, rfl⟩ | ⟨rfl, rfl⟩ | ⟨rfl, rfl⟩
  case inl => exact absurd rfl hs
  all_goals
    simp [readValue, tSINT, tINT, tDINT, tLINT, tUSINT, tUINT, tUDINT, tBYTE, tWORD, tDWORD, tLWORD,
      tUnknown, tStruct, tBOOL, tREAL, tLREAL, tSTRING, Res.bind_eq_ok] at hr
    obtain ⟨x, r', h1, rfl, rfl⟩ := hr
    refine ⟨_, rfl, ?_⟩
    first
      | rw [bitOf_toNat]
      | rw [bitOf_toInt x hn]
    simp [getBit, getBitCase, tSINT, tINT, tDINT, tLINT, tUSINT, tUINT, tUDINT, tBYTE, tWORD, tDWORD,
      tLWORD, tUnknown, tStruct, tBOOL, tREAL, tLREAL, tSTRING, maskTest_eq x hn]
    omega

/-- C12 fails for SINT: every bit of every SINT is refused (types.go:339 asserts the wrong type). -/
theorem C12_sint_refused (r rest : Bytes) (v : Scal) (hr : readValue tSINT r = .ok (v, rest)) (n : Nat)
    (hn : n < 8) : getBit tSINT v n = .err .fail := by
  simp [readValue, tSINT, tUnknown, tStruct, tBOOL, tBYTE, Res.bind_eq_ok] at hr
  obtain ⟨x, r', h1, rfl, rfl⟩ := hr
  simp [getBit, getBitCase, tSINT, tUnknown, tStruct, tBOOL, tBYTE]
  omega

/-- C12 fails outside the width: the bit reads as `false` and no error is reported. -/
theorem C12_out_of_range_silent {t : Byte} {w : Nat} (hw : Spec.intWidth t = some w) (v : Scal)
    {n : Nat} (hn : w ≤ n) : getBit t v n = .ok false := by
  have hn' : ¬ ((n : Int) < (w : Int)) := by omega
  rcases intWidth_cases hw with ⟨rfl, rfl⟩ | ⟨rfl, rfl⟩ | ⟨rfl, rfl⟩ | ⟨rfl, rfl⟩ | ⟨rfl, rfl⟩ |
    ⟨rfl, rfl⟩ | ⟨rfl, rfl⟩ | ⟨rfl, rfl⟩ | ⟨rfl, rfl⟩ | ⟨rfl, rfl⟩ | ⟨rfl, rfl⟩ <;>
  · simp only [getBit, getBitCase, if_neg, hn', and_false]
    rfl

example : readValue tINT [0x00#8, 0x80#8] = .ok (.i16 0x8000#16, []) ∧
    getBit tINT (.i16 0x8000#16) 15 = .ok true ∧ Spec.bitOf (-32768) 15 = true := by decide
example : readValue tSINT [0xFF#8] = .ok (.i8 0xFF#8, []) ∧ getBit tSINT (.i8 0xFF#8) 0 = .err .fail := by
  decide
example : getBit tINT (.i16 0xFFFF#16) 17 = .ok false := by decide

/-! ### C13 -/

/-- Values of the eleven atomic Go types. -/
def Scal.atomic (v : Scal) : Bool :=
  match v.ty with
  | some .str => false
  | some _ => true
  | none => false

/-- C13: encode, then decode with the CIP type the library assigns, with anything following; the
encoding is `Size()` bytes. -/
theorem C13_value_roundtrip (v : Scal) (T : GoTy) (hT : v.ty = some T) (ha : T ≠ .str) (rest : Bytes) :
    readValue (cipOfGo T) (v.encode ++ rest) = .ok (v, rest) ∧
    v.encode.length = cipSize (cipOfGo T) ∧ v.encode.length = Spec.goSize T := by
  cases v <;> simp [Scal.ty] at hT <;> subst hT
  case bool b =>
    cases b <;>
      simp [cipOfGo, readValue, readBool, Scal.encode, readBV8_cons, cipSize, Spec.goSize,
        tSINT, tINT, tDINT, tLINT, tUSINT, tUINT, tUDINT, tBYTE, tWORD, tDWORD, tLWORD,
        tUnknown, tStruct, tBOOL, tREAL, tLREAL, tSTRING]
  case str => exact absurd rfl ha
  all_goals
    simp [cipOfGo, readValue, Scal.encode, cipSize, Spec.goSize, tSINT, tINT, tDINT, tLINT, tUSINT,
      tUINT, tUDINT, tULINT, tBYTE, tWORD, tDWORD, tLWORD, tUnknown, tStruct, tBOOL, tREAL, tLREAL,
      tSTRING]

/-- C13, the bytes are the little-endian two's complement / IEEE image. -/
theorem C13_layout :
    (∀ b, (Scal.bool b).encode = [BitVec.ofNat 8 b.toNat]) ∧
    (∀ v : BitVec 8, (Scal.u8 v).encode = le 1 v.toNat ∧ (Scal.i8 v).encode = le 1 v.toNat) ∧
    (∀ v : BitVec 16, (Scal.u16 v).encode = le 2 v.toNat ∧ (Scal.i16 v).encode = le 2 v.toNat) ∧
    (∀ v : BitVec 32, (Scal.u32 v).encode = le 4 v.toNat ∧ (Scal.i32 v).encode = le 4 v.toNat ∧
      (Scal.f32 v).encode = le 4 v.toNat) ∧
    (∀ v : BitVec 64, (Scal.u64 v).encode = le 8 v.toNat ∧ (Scal.i64 v).encode = le 8 v.toNat ∧
      (Scal.f64 v).encode = le 8 v.toNat) := by
  refine ⟨by decide, fun v => ⟨rfl, rfl⟩, fun v => ⟨rfl, rfl⟩, fun v => ⟨rfl, rfl, rfl⟩,
    fun v => ⟨rfl, rfl, rfl⟩⟩

/-- C13, the type codes the library assigns. -/
theorem C13_type_codes :
    ([GoTy.bool, .u8, .i8, .u16, .i16, .u32, .i32, .u64, .i64, .f32, .f64, .str].map fun T =>
      (cipOfGo T).toNat) = [0xC1, 0xD1, 0xC2, 0xC7, 0xC3, 0xC8, 0xC4, 0xD4, 0xC5, 0xCA, 0xCB, 0xFF] := by
  decide

theorem readValue_types {t : Byte} {r rest : Bytes} {v : Scal} (h : readValue t r = .ok (v, rest)) :
    t ∈ [tBOOL, tBYTE, tSINT, tINT, tDINT, tLINT, tUSINT, tUINT, tUDINT, tLWORD, tREAL, tLREAL, tWORD,
      tDWORD, tSTRING] := by
  apply Decidable.byContradiction
  intro hc
  simp only [List.mem_cons, List.not_mem_nil, or_false, not_or] at hc
  obtain ⟨h1, h2, h3, h4, h5, h6, h7, h8, h9, h10, h11, h12, h13, h14, h15⟩ := hc
  unfold readValue at h
  simp only [h1, h2, h3, h4, h5, h6, h7, h8, h9, h10, h11, h12, h13, h14, h15, if_false] at h
  by_cases ha : t = tUnknown
  · simp [ha] at h
  · by_cases hb : t = tStruct <;> simp [ha, hb] at h

/-- C13, every decodable type takes exactly `Size()` bytes, except the library's STRING marker. -/
theorem C13_consumes (t : Byte) (r rest : Bytes) (v : Scal) (h : readValue t r = .ok (v, rest)) :
    r.length = (if t = tSTRING then 86 else cipSize t) + rest.length := by
  have hb : ∀ {w : Nat} {x : BitVec w} {r'}, w % 8 = 0 → readBV w r = .ok (x, r') →
      r.length = w / 8 + r'.length := by
    intro w x r' hw hx
    rw [readBV_ok hw hx]; simp
  have hc := readValue_types h
  simp only [List.mem_cons, List.not_mem_nil, or_false] at hc
  rcases hc with rfl | hc
  · simp [readValue, tBOOL, tUnknown, tStruct, Res.bind_eq_ok, readBool] at h
    rcases h with ⟨h1, -⟩ | ⟨⟨x, h1, -⟩, -⟩
    all_goals (rw [hb (by decide) h1]; rfl)
  rcases hc with rfl | rfl | rfl | rfl | rfl | rfl | rfl | rfl | rfl | rfl | rfl | rfl | rfl | hc
  case inr.inr.inr.inr.inr.inr.inr.inr.inr.inr.inr.inr.inr.inr =>
    subst hc
    simp [readValue, tSINT, tINT, tDINT, tLINT, tUSINT, tUINT, tUDINT, tBYTE, tWORD, tDWORD, tLWORD,
      tUnknown, tStruct, tBOOL, tREAL, tLREAL, tSTRING, Res.bind_eq_ok] at h
    obtain ⟨x, r1, -, rfl⟩ := h
    obtain ⟨hl, rfl⟩ := readN_ok r1
    simp [hl]
  all_goals
    simp [readValue, tSINT, tINT, tDINT, tLINT, tUSINT, tUINT, tUDINT, tBYTE, tWORD, tDWORD, tLWORD,
      tUnknown, tStruct, tBOOL, tREAL, tLREAL, tSTRING, Res.bind_eq_ok] at h
    obtain ⟨x, h1, -⟩ := h
    rw [hb (by decide) h1]; rfl

/-- C13, negative part: the type code of a 64-bit unsigned controller type (ULINT) has a size but no
decoder. -/
theorem C13_ulint_unreadable (r : Bytes) : cipSize tULINT = 8 ∧ readValue tULINT r = .err .fail :=
  ⟨rfl, rfl⟩

example : readValue (cipOfGo .i32) ((Scal.i32 0xFFFFFFFE#32).encode ++ [7#8]) =
    .ok (.i32 0xFFFFFFFE#32, [7#8]) := by decide

/-! ### C15 -/

theorem fitTo_length (n : Nat) (s : Bytes) : (fitTo n s).length = n := by
  simp only [fitTo, List.length_append, List.length_take, List.length_replicate]
  omega

/-- C15, footprint of both string forms. -/
theorem C15_footprint (s : Str) : (stringBytes s).length = 88 ∧ (stringElemBytes s).length = 88 := by
  simp [stringBytes, stringElemBytes, fitTo_length]

/-- What a controller recovers from a STRING image: `LEN` then `DATA`. -/
def Spec.stringOf (b : Bytes) : Option Bytes :=
  if unle (b.take 4) ≤ (b.drop 4).length then some ((b.drop 4).take (unle (b.take 4))) else none

theorem take_fitTo {n : Nat} {s : Bytes} (h : s.length ≤ n) : (fitTo n s).take s.length = s := by
  unfold fitTo
  rw [List.take_of_length_le h, List.take_append_of_le_length (Nat.le_refl _), List.take_length]

theorem stringOf_le (n : Nat) (hn : n ≤ 84) (d : Bytes) (hd : d.length = 84) :
    Spec.stringOf (le 4 n ++ d) = some (d.take n) := by
  have h4 : (le 4 n).length = 4 := le_length 4 n
  unfold Spec.stringOf
  rw [List.take_append_of_le_length (by omega), List.take_of_length_le (by omega),
    List.drop_append_of_le_length (by omega), List.drop_of_length_le (by omega : (le 4 n).length ≤ 4),
    List.nil_append, unle_le_of_lt (by omega), if_pos (by omega)]

/-- C15 for elements of a string array: the length field is within the data and a fitting string comes
back; a longer one is cut. -/
theorem C15_string_array_element (s : Str) :
    Spec.stringOf (stringElemBytes s) = some (s.take 84) := by
  unfold stringElemBytes
  rw [putBV_ofNat32, stringOf_le _ (by split <;> omega) _ (fitTo_length _ _)]
  congr 1
  split
  · unfold fitTo
    rw [List.take_append_of_le_length (by simp; omega), List.take_take]; rfl
  · rw [take_fitTo (by omega), List.take_of_length_le (by omega)]

/-- C15 for a single string that fits. -/
theorem C15_string_partial (s : Str) (h : s.length ≤ 84) : Spec.stringOf (stringBytes s) = some s := by
  unfold stringBytes
  rw [putBV_ofNat32, stringOf_le _ h _ (fitTo_length _ _), take_fitTo h]

/-- C15 fails for every single string longer than the buffer (and shorter than 4 GiB): the length field
claims more than the data that follow. -/
theorem C15_long_string_overclaims (s : Str) (h : 84 < s.length) (h32 : s.length < 2 ^ 32) :
    Spec.stringOf (stringBytes s) = none ∧ unle ((stringBytes s).take 4) = s.length := by
  have h4 : (le 4 s.length).length = 4 := le_length 4 _
  have e1 : (stringBytes s).take 4 = le 4 s.length := by
    unfold stringBytes
    rw [putBV_ofNat32, List.take_append_of_le_length (by omega), List.take_of_length_le (by omega)]
  have e2 : unle ((stringBytes s).take 4) = s.length := by
    rw [e1, unle_le_of_lt (Nat.lt_of_lt_of_le h32 (by decide))]
  refine ⟨?_, e2⟩
  unfold Spec.stringOf
  rw [e2, if_neg]
  rw [List.length_drop, (C15_footprint s).1]
  omega

/-- C15 as values are written: a string value is the single form, and a list of strings is one footprint per string,
each with a length field within its data. -/
theorem C15_written (s : Str) (ss : List Str) :
    Scal.encode (.str s) = stringBytes s ∧ (encodeSlice (ss.map .str)).length = 88 * ss.length ∧
      ∀ i t, ss[i]? = some t →
        Spec.stringOf (((encodeSlice (ss.map .str)).drop (88 * i)).take 88) = some (t.take 84) := by
  refine ⟨rfl, ?_⟩
  have hc : ∀ (x : Str) xs, encodeSlice ((x :: xs).map .str) = stringElemBytes x ++ encodeSlice (xs.map .str) := by
    intro x xs; simp [encodeSlice, Scal.encodeElem]
  induction ss with
  | nil => exact ⟨rfl, by simp⟩
  | cons x xs ih =>
    rw [hc]
    have hx := (C15_footprint x).2
    refine ⟨by rw [List.length_append, hx, ih.1]; simp; omega, ?_⟩
    intro i t hi
    cases i with
    | zero =>
      simp only [List.getElem?_cons_zero, Option.some.injEq] at hi
      subst hi
      rw [Nat.mul_zero, List.drop_zero, ← hx, List.take_left]
      exact C15_string_array_element x
    | succ i =>
      rw [show 88 * (i + 1) = (stringElemBytes x).length + 88 * i by rw [hx]; omega, ← List.drop_drop, List.drop_left]
      exact ih.2 i t (by simpa using hi)

example : Spec.stringOf (stringBytes (str "hi")) = some (str "hi") := by decide
example : Spec.stringOf (stringBytes (List.replicate 85 65#8)) = none := by decide +kernel

end Gologix
