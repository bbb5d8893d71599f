import Verif.Spec.ServerTables
import Verif.Lemmas.Str
/-
C32 and C33: the in-memory tag store of the server.
-/
set_option linter.unusedSimpArgs false
namespace Gologix.Server
open Gologix.Server.Spec

/-! ### Tag names -/

theorem getLast_toLower_bracket (t : Str) :
    (toLower t).getLast? = some 0x5D#8 ↔ t.getLast? = some 0x5D#8 := by
  simp only [toLower, List.getLast?_map]
  cases t.getLast? with
  | none => simp
  | some b => simp [lowerByte_eq_iff (c := 0x5D#8) (by decide) (by decide)]

theorem parse_whole {t : Str} (h : wholeName t) : parseElementTag (toLower t) = none := by
  unfold parseElementTag
  rw [if_neg]
  rw [getLast_toLower_bracket]; exact h

theorem lastIndexOf_append {c : Byte} {base text : Str} (h : c ∉ text) :
    lastIndexOf c (base ++ [c] ++ text) = some base.length := by
  unfold lastIndexOf
  have h1 : text.reverse.findIdx? (fun x => decide (x = c)) = none := by
    rw [List.findIdx?_eq_none_iff]
    intro x hx
    simp at hx
    simp
    rintro rfl; exact h hx
  simp only [List.reverse_append, List.findIdx?_append, h1]
  simp

theorem parse_elemText {base text : Str} (h : 0x5B#8 ∉ text) :
    parseElementTag (elemText base text) =
      match atoi text with
      | .ok n => some (base, n)
      | _ => none := by
  unfold parseElementTag elemText
  rw [if_pos List.getLast?_concat]
  have h1 : lastIndexOf 0x5B#8 (base ++ [0x5B#8] ++ text ++ [0x5D#8]) = some base.length := by
    rw [List.append_assoc]
    exact lastIndexOf_append (by simp [h])
  rw [h1]
  simp only
  have h2 : ((base ++ [0x5B#8] ++ text ++ [0x5D#8]).take
      ((base ++ [0x5B#8] ++ text ++ [0x5D#8]).length - 1)).drop (base.length + 1) = text := by
    rw [← List.dropLast_eq_take, List.dropLast_concat]
    have : base.length + 1 = (base ++ [0x5B#8]).length := by simp
    rw [this, List.drop_left]
  rw [h2]
  have h3 : (base ++ [0x5B#8] ++ text ++ [0x5D#8]).take base.length = base := by
    simp [List.append_assoc]
  rw [h3]
  rfl

/-- A name that `parseElementTag` takes apart has the form `base[text]`. -/
theorem parse_some {t base : Str} {n : Int} (h : parseElementTag t = some (base, n)) :
    ∃ text, 0x5B#8 ∉ text ∧ t = elemText base text ∧ atoi text = .ok n := by
  unfold parseElementTag at h
  split at h
  · rename_i hl
    obtain ⟨u, rfl⟩ := List.getLast?_eq_some_iff.mp hl
    split at h
    · simp at h
    · rename_i o ho
      unfold lastIndexOf at ho
      simp only [List.reverse_append, List.reverse_cons, List.reverse_nil, List.nil_append,
        List.singleton_append, List.findIdx?_cons, Option.map_eq_some_iff] at ho
      obtain ⟨k, hk, hk2⟩ := ho
      rw [if_neg (by decide)] at hk
      simp only [Option.map_eq_some_iff] at hk
      obtain ⟨j, hj, rfl⟩ := hk
      rw [List.findIdx?_eq_some_iff_getElem] at hj
      obtain ⟨hj1, hj2, hj3⟩ := hj
      simp at hj1
      have hc : u.reverse[j]'(by simpa using hj1) = 0x5B#8 := by simpa using hj2
      -- split u at that position
      have hsplit : u.reverse = u.reverse.take j ++ 0x5B#8 :: u.reverse.drop (j + 1) := by
        conv => lhs; rw [← List.take_append_drop j u.reverse]
        congr 1
        rw [List.drop_eq_getElem_cons (by simpa using hj1), hc]
      have hu : u = (u.reverse.drop (j + 1)).reverse ++ [0x5B#8] ++ (u.reverse.take j).reverse := by
        have := congrArg List.reverse hsplit
        simpa using this
      have hno : 0x5B#8 ∉ (u.reverse.take j).reverse := by
        simp only [List.mem_reverse]
        intro hm
        obtain ⟨i, hi, hie⟩ := List.getElem_of_mem hm
        simp at hi
        have := hj3 i (by omega)
        rw [List.getElem_take] at hie
        simp [hie] at this
      generalize hA : (u.reverse.drop (j + 1)).reverse = A at hu
      generalize hT : (u.reverse.take j).reverse = T at hu hno
      have hpe := parse_elemText (base := A) (text := T) hno
      have hfull : u ++ [0x5D#8] = elemText A T := by rw [hu]; rfl
      have h' : parseElementTag (elemText A T) = some (base, n) := by
        rw [← hfull]
        unfold parseElementTag
        rw [if_pos (by simp)]
        unfold lastIndexOf
        have h4 : (u ++ [0x5D#8]).reverse.findIdx? (fun x => decide (x = 0x5B#8)) = some (j + 1) := by
          rw [List.findIdx?_eq_some_iff_getElem]
          refine ⟨by simp; omega, ?_, ?_⟩
          · simpa using hj2
          · intro i hi
            cases i with
            | zero => simp
            | succ i => simpa using hj3 i (by omega)
        rw [h4]
        simp only [Option.map_some]
        rw [hk2]
        exact h
      rw [hpe] at h'
      refine ⟨T, hno, ?_⟩
      cases ha : atoi T with
      | ok m =>
        rw [ha] at h'
        simp at h'
        obtain ⟨rfl, rfl⟩ := h'
        exact ⟨hfull, rfl⟩
      | syntaxErr => rw [ha] at h'; simp at h'
      | rangeErr v => rw [ha] at h'; simp at h'
  · simp at h

theorem numeral_chars {s : Str} (h : Gologix.Spec.isNumeral s = true) :
    ∀ b ∈ s, isDigit b = true ∨ b = 0x2B#8 ∨ b = 0x2D#8 := by
  unfold Gologix.Spec.isNumeral at h
  intro b hb
  cases s with
  | nil => simp at hb
  | cons c t =>
    simp only at h
    split at h
    · rename_i hc
      simp at h hb
      rcases hb with rfl | hb
      · exact .inr hc
      · exact .inl (h.2 b hb)
    · simp only [Bool.and_eq_true, List.all_eq_true] at h
      exact .inl (h.2 b hb)

theorem atoi_text {text : Str} {n : Int} (h : atoi text = .ok n) :
    toLower text = text ∧ 0x5B#8 ∉ text := by
  have hn := numeral_chars (atoi_isOk_numeral (s := text) (by rw [h]; rfl))
  refine ⟨?_, ?_⟩
  · unfold toLower
    conv => rhs; rw [← List.map_id text]
    apply List.map_congr_left
    intro b hb
    rcases hn b hb with hd | rfl | rfl
    · exact lowerByte_of_digit b hd
    · rfl
    · rfl
  · intro hm
    rcases hn _ hm with hd | hd | hd
    · exact absurd hd (by decide)
    · exact absurd hd (by decide)
    · exact absurd hd (by decide)

theorem toLower_elemText (base text : Str) :
    toLower (elemText base text) = elemText (toLower base) (toLower text) := by
  simp only [elemText, toLower_append]
  rfl

theorem parse_elem {base text : Str} {n : Int} (h : atoi text = .ok n) :
    parseElementTag (toLower (elemText base text)) = some (toLower base, n) := by
  obtain ⟨h1, h2⟩ := atoi_text h
  rw [toLower_elemText, h1, parse_elemText h2, h]

/-! ### Writes and what they touch -/

theorem set_self (s : Store) (k : Str) (v : TVal) : s.set k v k = some v := by simp [Store.set]

theorem set_other (s : Store) {k x : Str} (v : TVal) (h : x ≠ k) : s.set k v x = s x := by
  simp [Store.set, h]

/-- C33: a write that does not succeed leaves the store as it was. -/
theorem C33_failed_write_unchanged (C : Conv) (s : Store) (tag : Str) (v : TVal)
    (h : (tagWrite C s tag v).1 ≠ .ok ()) : (tagWrite C s tag v).2 = s := by
  unfold tagWrite at h ⊢
  repeat' split
  all_goals first
    | rfl
    | (simp_all; done)

/-- A write to another tag does not change what is stored under `t`. -/
theorem write_frame (C : Conv) (s : Store) {w t : Str} (v : TVal) (h : otherTag w t) :
    (tagWrite C s w v).2 (toLower t) = s (toLower t) := by
  have hne : toLower t ≠ toLower w := fun e => h.1 e.symm
  have hbase : ∀ base n, parseElementTag (toLower w) = some (base, n) → toLower t ≠ base := by
    rintro base n hp rfl
    obtain ⟨text, h1, h2, h3⟩ := parse_some hp
    refine h.2 text h1 ?_
    unfold sameName
    rw [h2, toLower_elemText, (atoi_text h3).1]
  unfold tagWrite
  split
  · rename_i base idx hp
    repeat' split
    all_goals first
      | rfl
      | exact set_other _ _ (hbase _ _ hp)
  · repeat' split
    all_goals first
      | rfl
      | exact set_other _ _ hne

/-- The store after a history of writes; failing writes are part of the history. -/
def storeRun (C : Conv) (s : Store) (h : List (Str × TVal)) : Store :=
  h.foldl (fun s w => (tagWrite C s w.1 w.2).2) s

theorem storeRun_append (C : Conv) (s : Store) (a b : List (Str × TVal)) :
    storeRun C s (a ++ b) = storeRun C (storeRun C s a) b := by simp [storeRun]

theorem run_frame (C : Conv) (s : Store) (h : List (Str × TVal)) (t : Str)
    (ho : ∀ w ∈ h, otherTag w.1 t) : storeRun C s h (toLower t) = s (toLower t) := by
  induction h generalizing s with
  | nil => rfl
  | cons w h ih =>
    show storeRun C (tagWrite C s w.1 w.2).2 h (toLower t) = _
    rw [ih _ (fun w' hw => ho w' (by simp [hw])), write_frame C s w.2 (ho w (by simp))]

/-! ### C32 -/

/-- C32: a scalar written to a whole tag is what any later read of that tag returns, whatever the letter
case of the two names, whatever was in the store before, and whatever writes to other tags (including
failing ones) happen in between. -/
theorem C32_scalar (C : Conv) (s : Store) (before after : List (Str × TVal)) (t t' : Str) (v : Scal)
    (qty : Int) (hw : wholeName t) (hs : sameName t' t) (ho : ∀ w ∈ after, otherTag w.1 t) :
    (tagWrite C (storeRun C s before) t (.scal v)).1 = .ok () ∧
    tagRead (storeRun C s (before ++ [(t, .scal v)] ++ after)) t' qty = .ok (.scal v) := by
  have hp := parse_whole hw
  have hwr : tagWrite C (storeRun C s before) t (.scal v) =
      (.ok (), (storeRun C s before).set (toLower t) (.scal v)) := by
    unfold tagWrite
    rw [hp]
    simp only
    split <;> simp_all
  refine ⟨by rw [hwr], ?_⟩
  have hst : storeRun C s (before ++ [(t, .scal v)] ++ after) (toLower t) = some (.scal v) := by
    rw [storeRun_append, run_frame C _ _ t ho, storeRun_append]
    show (tagWrite C (storeRun C s before) t (.scal v)).2 (toLower t) = _
    rw [hwr]; exact set_self _ _ _
  have hs' : toLower t' = toLower t := hs
  unfold tagRead
  rw [hs', hp]
  simp only [hst]

/-- What a read of `qty` elements of a whole array tag returns. -/
theorem read_slice {s : Store} {t t' : Str} {e : Option GoTy} {vs : List TVal} {qty : Int}
    (hw : wholeName t) (hs : sameName t' t) (hst : s (toLower t) = some (.slice e vs)) (hq : 0 ≤ qty) :
    tagRead s t' qty =
      if qty ≤ vs.length then .ok (.slice e (vs.take qty.toNat)) else .err .fail := by
  have hs' : toLower t' = toLower t := hs
  unfold tagRead
  rw [hs', parse_whole hw]
  simp only [hst]
  split
  · rw [if_neg (by omega)]
  · rfl

/-- C32: an array written with its element type is what later reads return: the first `qty` elements, or
an error when there are fewer. -/
theorem C32_array (C : Conv) (s : Store) (before after : List (Str × TVal)) (t t' : Str) (T : GoTy)
    (vs : List TVal) (qty : Int) (hw : wholeName t) (hs : sameName t' t)
    (ho : ∀ w ∈ after, otherTag w.1 t) (hq : 0 ≤ qty) :
    tagRead (storeRun C s (before ++ [(t, .slice (some T) vs)] ++ after)) t' qty =
      if qty ≤ vs.length then .ok (.slice (some T) (vs.take qty.toNat)) else .err .fail := by
  apply read_slice hw hs _ hq
  have hp := parse_whole hw
  have hwr : tagWrite C (storeRun C s before) t (.slice (some T) vs) =
      (.ok (), (storeRun C s before).set (toLower t) (.slice (some T) vs)) := by
    unfold tagWrite
    rw [hp]
    simp only
    split <;> simp_all
  rw [storeRun_append, run_frame C _ _ t ho, storeRun_append]
  show (tagWrite C (storeRun C s before) t (.slice (some T) vs)).2 (toLower t) = _
  rw [hwr]; exact set_self _ _ _

theorem convert_same (C : Conv) {v : TVal} {T : GoTy} (h : ∃ s, v = .scal s ∧ s.ty = some T) :
    convertToElement C v (some T) = .ok v := by
  obtain ⟨s, rfl, hs⟩ := h
  cases s <;> simp [Scal.ty] at hs <;> subst hs <;> simp [convertToElement, Scal.ty]

theorem convertAll_same (C : Conv) {T : GoTy} {vs : List TVal} (h : allOfType T vs) :
    convertAll C (some T) vs = .ok vs := by
  induction vs with
  | nil => rfl
  | cons v vs ih =>
    simp only [convertAll]
    rw [convert_same C (h v (by simp)), ih fun w hw => h w (by simp [hw])]
    rfl

/-- C32: an array that arrives from the wire (`[]any`, all elements of type `T`) is what later reads
return, with the elements unchanged, if the tag was missing, held a scalar, or held an array of `T`. -/
theorem C32_wire_array (C : Conv) (s : Store) (before after : List (Str × TVal)) (t t' : Str) (T : GoTy)
    (vs : List TVal) (qty : Int) (hw : wholeName t) (hs : sameName t' t)
    (ho : ∀ w ∈ after, otherTag w.1 t) (hq : 0 ≤ qty) (hT : allOfType T vs)
    (hold : ∀ e ws, storeRun C s before (toLower t) = some (.slice e ws) → e = some T) :
    ∃ e, tagRead (storeRun C s (before ++ [(t, .slice none vs)] ++ after)) t' qty =
      if qty ≤ vs.length then .ok (.slice e (vs.take qty.toNat)) else .err .fail := by
  have hp := parse_whole hw
  have hwr : ∃ e, tagWrite C (storeRun C s before) t (.slice none vs) =
      (.ok (), (storeRun C s before).set (toLower t) (.slice e vs)) := by
    unfold tagWrite
    rw [hp]
    simp only
    cases hx : storeRun C s before (toLower t) with
    | none => exact ⟨none, rfl⟩
    | some w =>
      cases w with
      | scal w => exact ⟨none, rfl⟩
      | slice e ws =>
        have := hold e ws hx
        subst this
        refine ⟨some T, ?_⟩
        simp only [convertAll_same C hT]
  obtain ⟨e, hwr⟩ := hwr
  refine ⟨e, read_slice hw hs ?_ hq⟩
  rw [storeRun_append, run_frame C _ _ t ho, storeRun_append]
  show (tagWrite C (storeRun C s before) t (.slice none vs)).2 (toLower t) = _
  rw [hwr]; exact set_self _ _ _

/-- C32: a tag never written is missing: from an empty store, after any writes to other tags, reading it
or any of its elements is an error. -/
theorem C32_missing (C : Conv) (h : List (Str × TVal)) (t : Str) (qty : Int)
    (ho : ∀ w ∈ h, otherTag w.1 t) :
    (wholeName t → tagRead (storeRun C (fun _ => none) h) t qty = .err .fail) ∧
    (∀ text n, atoi text = .ok n →
      tagRead (storeRun C (fun _ => none) h) (elemText t text) qty = .err .fail) := by
  have hst := run_frame C (fun _ => none) h t ho
  constructor
  · intro hw
    unfold tagRead
    rw [parse_whole hw]
    simp only [hst]
  · intro text n ha
    unfold tagRead
    rw [parse_elem ha]
    simp only [hst]

/-- C32, disagreement: an array written from the wire over an existing array keeps the element type of
the existing one, so the values read back can differ from the ones written: 300 written as a 32-bit
integer over an 8-bit array is read back as 44. -/
theorem C32_narrowed (C : Conv) :
    let s0 : Store := fun k => if k = str "a" then some (.slice (some .i8) [.scal (.i8 1#8)]) else none
    let r := tagWrite C s0 (str "a") (.slice none [.scal (.i32 300#32)])
    r.1 = .ok () ∧ tagRead r.2 (str "a") 1 = .ok (.slice (some .i8) [.scal (.i8 44#8)]) := by
  constructor <;> rfl

/-! ### C33 -/

/-- C33: writing element `n` of an array stores the (converted) value at `n`, keeps the length and every
other element, and changes no other tag. -/
theorem C33_write (C : Conv) (s : Store) (base text : Str) (n : Int) (e : Option GoTy) (vs : List TVal)
    (v w : TVal) (ha : atoi text = .ok n) (hst : s (toLower base) = some (.slice e vs))
    (h0 : 0 ≤ n) (hn : n < vs.length) (hc : convertToElement C v e = .ok w) :
    (tagWrite C s (elemText base text) v).1 = .ok () ∧
    ∃ vs', (tagWrite C s (elemText base text) v).2 (toLower base) = some (.slice e vs') ∧
      vs'.length = vs.length ∧ vs'[n.toNat]? = some w ∧
      (∀ i, i ≠ n.toNat → vs'[i]? = vs[i]?) ∧
      (∀ k, k ≠ toLower base → (tagWrite C s (elemText base text) v).2 k = s k) := by
  have hwr : tagWrite C s (elemText base text) v =
      (.ok (), s.set (toLower base) (.slice e (vs.set n.toNat w))) := by
    unfold tagWrite
    rw [parse_elem ha]
    simp only [hst]
    rw [if_neg (by omega), hc]
  rw [hwr]
  refine ⟨rfl, vs.set n.toNat w, set_self _ _ _, by simp, ?_, ?_, ?_⟩
  · rw [List.getElem?_set_self (by omega)]
  · intro i hi
    rw [List.getElem?_set_ne (Ne.symm hi)]
  · intro k hk
    exact set_other _ _ hk

/-- C33: a value of the element type is stored as it is. -/
theorem C33_write_same_type (C : Conv) (v : TVal) (T : GoTy) (h : ∃ s, v = .scal s ∧ s.ty = some T) :
    convertToElement C v (some T) = .ok v := convert_same C h

theorem intVal_ty {v : Scal} {n : Int} (h : intVal v = some n) : ∃ a, v.ty = some a ∧ isIntTy a = true := by
  cases v <;> simp [intVal] at h <;> exact ⟨_, rfl, rfl⟩

theorem denotes_intVal {v : Scal} {n : Int} : Denotes v n ↔ intVal v = some n := by
  constructor
  · rintro (_ | _ | _ | _ | _ | _ | _ | _) <;> rfl
  · intro h
    cases v <;> simp [intVal] at h <;> subst h <;> constructor

/-- C33: an integer of another integer type is stored with the same numeric value if the element type
can hold it. -/
theorem C33_write_converts (C : Conv) (v w : Scal) (n : Int) (T : GoTy) (hv : Denotes v n)
    (hw : Denotes w n) (hT : w.ty = some T) :
    convertToElement C (.scal v) (some T) = .ok (.scal w) := by
  rw [denotes_intVal] at hv hw
  obtain ⟨a, ha, hai⟩ := intVal_ty hv
  obtain ⟨b, hb, hbi⟩ := intVal_ty hw
  rw [hT] at hb
  cases hb
  have hof : ofInt T n = some w := by
    cases w <;> simp [intVal, Scal.ty] at hw hT <;> subst hT <;> subst hw <;>
      simp only [ofInt, Option.some.injEq, Scal.u8.injEq, Scal.i8.injEq, Scal.u16.injEq,
        Scal.i16.injEq, Scal.u32.injEq, Scal.i32.injEq, Scal.u64.injEq, Scal.i64.injEq,
        BitVec.ofInt_toInt, BitVec.ofInt_natCast, BitVec.ofNat_toNat, BitVec.setWidth_eq]
  have hnil : v ≠ .nil := by rintro rfl; simp [intVal] at hv
  have hbr : convertToElement C (.scal v) (some T) =
      (if a = T then .ok (.scal v)
      else if convertible a T then
        match (intVal v).bind (ofInt T) with
        | some w => .ok (.scal w)
        | none => .ok (.scal (C.fn (.scal v) T))
      else .err .fail) := by
    unfold convertToElement
    cases v <;> first | exact absurd rfl hnil | (simp only [ha]; rfl)
  rw [hbr]
  by_cases haT : a = T
  · subst haT
    rw [if_pos rfl]
    have : ofInt a n = some v := by
      cases v <;> simp [intVal, Scal.ty] at hv ha <;> subst ha <;> subst hv <;>
      simp only [ofInt, Option.some.injEq, Scal.u8.injEq, Scal.i8.injEq, Scal.u16.injEq,
        Scal.i16.injEq, Scal.u32.injEq, Scal.i32.injEq, Scal.u64.injEq, Scal.i64.injEq,
        BitVec.ofInt_toInt, BitVec.ofInt_natCast, BitVec.ofNat_toNat, BitVec.setWidth_eq]
    rw [hof] at this
    cases this; rfl
  · rw [if_neg haT, if_pos (by unfold convertible; rw [if_neg haT, if_pos (by simp [hai, hbi])])]
    simp only [hv, Option.bind_some, hof]

/-- C33: an index outside the array is an error that leaves the store unchanged, for writes and for
reads of any count. -/
theorem C33_out_of_range (C : Conv) (s : Store) (base text : Str) (n : Int) (e : Option GoTy)
    (vs : List TVal) (v : TVal) (qty : Int) (ha : atoi text = .ok n)
    (hst : s (toLower base) = some (.slice e vs)) (hn : n < 0 ∨ vs.length ≤ n) :
    tagWrite C s (elemText base text) v = (.err .fail, s) ∧
    tagRead s (elemText base text) qty = .err .fail := by
  constructor
  · unfold tagWrite
    rw [parse_elem ha]
    simp only [hst]
    rw [if_pos (by omega)]
  · unfold tagRead
    rw [parse_elem ha]
    simp only [hst]
    rw [if_pos (by omega)]

/-- C33: reading `qty ≥ 0` elements from `n` gives exactly elements `n … n+qty-1` (a bare value when
`qty` is one) or, if they are not all there, an error.  Missing: negative counts, see below. -/
theorem C33_read_partial (s : Store) (base text : Str) (n : Int) (e : Option GoTy) (vs : List TVal)
    (qty : Int) (ha : atoi text = .ok n) (hst : s (toLower base) = some (.slice e vs))
    (h0 : 0 ≤ n) (hn : n < vs.length) (hq : 0 ≤ qty) :
    (n + qty ≤ vs.length → qty = 1 →
      ∃ v, tagRead s (elemText base text) qty = .ok v ∧ vs[n.toNat]? = some v) ∧
    (n + qty ≤ vs.length → qty ≠ 1 →
      ∃ ws, tagRead s (elemText base text) qty = .ok (.slice e ws) ∧ ws.length = qty.toNat ∧
        ∀ i, i < qty.toNat → ws[i]? = vs[n.toNat + i]?) ∧
    (vs.length < n + qty → tagRead s (elemText base text) qty = .err .fail) := by
  have hrd : tagRead s (elemText base text) qty =
      if n + qty > vs.length then .err .fail
      else if qty = 1 then .ok (vs.getD n.toNat (.scal .nil))
      else if qty < 0 then .panic
      else .ok (.slice e ((vs.drop n.toNat).take qty.toNat)) := by
    unfold tagRead
    rw [parse_elem ha]
    simp only [hst]
    rw [if_neg (by omega)]
  rw [hrd]
  refine ⟨?_, ?_, ?_⟩
  · intro h1 h2
    rw [if_neg (by omega), if_pos h2]
    refine ⟨_, rfl, ?_⟩
    rw [List.getD_eq_getElem?_getD, List.getElem?_eq_getElem (by omega)]
    rfl
  · intro h1 h2
    rw [if_neg (by omega), if_neg h2, if_neg (by omega)]
    refine ⟨_, rfl, by simp; omega, ?_⟩
    intro i hi
    rw [List.getElem?_take_of_lt hi, List.getElem?_drop]
  · intro h1
    rw [if_pos (by omega)]

/-- C33, disagreement: a negative count — a request for 32768 or more elements arrives as one — is not
an error but a run-time panic. -/
theorem C33_negative_count_panics (s : Store) (base text : Str) (n : Int) (e : Option GoTy)
    (vs : List TVal) (qty : Int) (ha : atoi text = .ok n)
    (hst : s (toLower base) = some (.slice e vs)) (h0 : 0 ≤ n) (hn : n < vs.length) (hq : qty < 0) :
    tagRead s (elemText base text) qty = .panic := by
  unfold tagRead
  rw [parse_elem ha]
  simp only [hst]
  rw [if_neg (by omega), if_neg (by omega), if_neg (by omega), if_pos hq]

/-- The same for the whole tag. -/
theorem C33_negative_count_panics_whole (s : Store) (t : Str) (e : Option GoTy) (vs : List TVal)
    (qty : Int) (hw : wholeName t) (hst : s (toLower t) = some (.slice e vs)) (hq : qty < 0) :
    tagRead s t qty = .panic := by
  unfold tagRead
  rw [parse_whole hw]
  simp only [hst]
  rw [if_pos (by omega), if_pos hq]

/-- Element writes and reads on a three-element array, with a name in mixed case. -/
example (C : Conv) :
    let s0 : Store := fun k =>
      if k = str "arr" then some (.slice (some .i16) [.scal (.i16 1#16), .scal (.i16 2#16), .scal (.i16 3#16)])
      else none
    let s1 := (tagWrite C s0 (str "Arr[1]") (.scal (.i32 7#32))).2
    tagRead s1 (str "ARR[1]") 2 = .ok (.slice (some .i16) [.scal (.i16 7#16), .scal (.i16 3#16)]) ∧
    tagRead s1 (str "arr[2]") 2 = .err .fail ∧
    tagRead s1 (str "arr[2]") (-1) = .panic ∧
    (tagWrite C s0 (str "arr[3]") (.scal (.i16 7#16))).1 = .err .fail := by
  refine ⟨rfl, rfl, rfl, rfl⟩

end Gologix.Server
