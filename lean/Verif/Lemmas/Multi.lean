import Verif.Spec.Multi
import Verif.Props.Read
set_option linter.unusedSimpArgs false
namespace Gologix

theorem readBit_key {t : Byte} {w n : Nat} (hw : Spec.intWidth t = some w) (hs : t ≠ tSINT) (hn : n < w)
    (x : BitVec w) (rest : Bytes) :
    ∃ v, readValue t (putBV x ++ rest) = .ok (v, rest) ∧ getBit t v n = .ok (x.getLsbD n) := by
  rcases intWidth_cases hw with ⟨rfl, rfl⟩ | ⟨rfl, rfl⟩ | ⟨rfl, rfl⟩ | ⟨rfl, rfl⟩ | ⟨rfl, rfl⟩ |
    ⟨rfl, rfl⟩ | ⟨rfl, rfl⟩ | ⟨rfl, rfl⟩ | ⟨rfl, rfl⟩ | ⟨rfl, rfl⟩ | ⟨rfl, rfl⟩
  case inl => exact absurd rfl hs
  all_goals
    first
      | (refine ⟨.u8 x, ?_, ?_⟩ <;>
          simp [readValue, getBit, getBitCase, tSINT, tINT, tDINT, tLINT, tUSINT, tUINT, tUDINT, tBYTE,
            tWORD, tDWORD, tLWORD, tUnknown, tStruct, tBOOL, tREAL, tLREAL, tSTRING,
            maskTest_eq x hn] <;> (intro _; omega))
      | (refine ⟨.i16 x, ?_, ?_⟩ <;>
          simp [readValue, getBit, getBitCase, tSINT, tINT, tDINT, tLINT, tUSINT, tUINT, tUDINT, tBYTE,
            tWORD, tDWORD, tLWORD, tUnknown, tStruct, tBOOL, tREAL, tLREAL, tSTRING,
            maskTest_eq x hn] <;> (intro _; omega))
      | (refine ⟨.i32 x, ?_, ?_⟩ <;>
          simp [readValue, getBit, getBitCase, tSINT, tINT, tDINT, tLINT, tUSINT, tUINT, tUDINT, tBYTE,
            tWORD, tDWORD, tLWORD, tUnknown, tStruct, tBOOL, tREAL, tLREAL, tSTRING,
            maskTest_eq x hn] <;> (intro _; omega))
      | (refine ⟨.i64 x, ?_, ?_⟩ <;>
          simp [readValue, getBit, getBitCase, tSINT, tINT, tDINT, tLINT, tUSINT, tUINT, tUDINT, tBYTE,
            tWORD, tDWORD, tLWORD, tUnknown, tStruct, tBOOL, tREAL, tLREAL, tSTRING,
            maskTest_eq x hn] <;> (intro _; omega))
      | (refine ⟨.u16 x, ?_, ?_⟩ <;>
          simp [readValue, getBit, getBitCase, tSINT, tINT, tDINT, tLINT, tUSINT, tUINT, tUDINT, tBYTE,
            tWORD, tDWORD, tLWORD, tUnknown, tStruct, tBOOL, tREAL, tLREAL, tSTRING,
            maskTest_eq x hn] <;> (intro _; omega))
      | (refine ⟨.u32 x, ?_, ?_⟩ <;>
          simp [readValue, getBit, getBitCase, tSINT, tINT, tDINT, tLINT, tUSINT, tUINT, tUDINT, tBYTE,
            tWORD, tDWORD, tLWORD, tUnknown, tStruct, tBOOL, tREAL, tLREAL, tSTRING,
            maskTest_eq x hn] <;> (intro _; omega))
      | (refine ⟨.u64 x, ?_, ?_⟩ <;>
          simp [readValue, getBit, getBitCase, tSINT, tINT, tDINT, tLINT, tUSINT, tUINT, tUDINT, tBYTE,
            tWORD, tDWORD, tLWORD, tUnknown, tStruct, tBOOL, tREAL, tLREAL, tSTRING,
            maskTest_eq x hn] <;> (intro _; omega))

theorem slot_length {s : Bytes} (h : s.length ≤ 82) : (Spec.stringSlot s).length = 88 := by
  simp [Spec.stringSlot]; omega

/-- One step of the string array loop: six bytes, of which the last four are the length, then 82. -/
theorem readString82_slot (a b : Byte) {s : Bytes} (h : s.length ≤ 82) (rest : Bytes) :
    readString82 ([a, b] ++ (Spec.stringSlot s ++ rest)) = .ok (.bytes s, [0#8, 0#8] ++ rest) := by
  have e : [a, b] ++ (Spec.stringSlot s ++ rest) =
      ([a, b] ++ le 4 s.length) ++ ((s ++ List.replicate (82 - s.length) 0#8) ++ ([0#8, 0#8] ++ rest)) := by
    have : List.replicate (84 - s.length) 0#8 = List.replicate (82 - s.length) 0#8 ++ [0#8, 0#8] := by
      rw [show 84 - s.length = (82 - s.length) + 2 by omega, ← List.replicate_append_replicate]
      rfl
    simp [Spec.stringSlot, this]
  rw [e]
  unfold readString82
  rw [readN_append' (by simp), Res.bind_ok]
  simp only []
  rw [readN_append' (by simp; omega), Res.bind_ok]
  simp only []
  have hl : unle (List.drop 2 ([a, b] ++ le 4 s.length)) = s.length := by
    rw [List.drop_left' (by rfl)]
    exact unle_le_of_lt (Nat.lt_of_le_of_lt h (by decide))
  rw [hl, if_pos h]
  simp

theorem readTimes_slots (f : Bytes → Res (Scal × Bytes))
    (hf : ∀ d s d', readString82 d = .ok (.bytes s, d') → f d = .ok (.str s, d'))
    (ss : List Bytes) (hs : ∀ s ∈ ss, s.length ≤ 82) (a b : Byte) (rest : Bytes) :
    readTimes f ss.length ([a, b] ++ ((ss.map Spec.stringSlot).flatten ++ rest)) = .ok (ss.map Scal.str) := by
  induction ss generalizing a b with
  | nil => rfl
  | cons s ss ih =>
    simp only [List.map_cons, List.flatten_cons, List.append_assoc, List.length_cons, readTimes]
    rw [hf _ _ _ (readString82_slot a b (hs s (by simp)) _), Res.bind_ok]
    simp only []
    rw [ih (fun x hx => hs x (by simp [hx])), Res.bind_ok]

theorem readN_two (handle : BitVec 16) (d : Bytes) : readN 2 (le 2 handle.toNat ++ d) = .ok (le 2 handle.toNat, d) :=
  readN_append' (by simp)

theorem le_two_cons (n : Nat) : ∃ a b, le 2 n = [a, b] := ⟨_, _, rfl⟩

/-- A value is decoded from its image whatever follows. -/
theorem multiValue_means {t : MTag} {typ : Byte} {image : Bytes} {v : RV} (h : Spec.Means t typ image v)
    (more : Bytes) : multiValue t typ (image ++ more) = .ok v := by
  cases h with
  | scalar T v h1 ht hv hs hb =>
    unfold multiValue
    have hst : cipOfGo T ≠ tStruct := by cases T <;> decide
    rw [if_pos h1]
    by_cases hc : t.typ = tBOOL ∧ cipOfGo T ≠ tBOOL ∧ t.ioi.bitAccess = true
    · rcases hb with hb | hb
      · simp [hb] at hc
      · exact absurd hc.1 hb
    · rw [if_neg hc, if_neg ht, if_neg hst, (C13_value_roundtrip v T hv hs more).1, Res.bind_ok]
  | array T vs h1 hn ht hv hs =>
    unfold multiValue
    rw [if_neg (by omega), if_neg ht, h1, readTimes_values _ vs more
      (fun w hw r => (C13_value_roundtrip w T (hv w hw) hs r).1), Res.bind_ok]
  | bit typ w image k h1 ht hb hk hw hsint hkw hi =>
    have hbo : typ ≠ tBOOL := by rintro rfl; simp [Spec.intWidth, tBOOL] at hw
    have h8 : 8 * (w / 8) = w := by
      rcases intWidth_cases hw with h | h | h | h | h | h | h | h | h | h | h <;> omega
    have hlt : unle image < 2 ^ w := by
      have := unle_lt image
      rwa [hi, pow256, h8] at this
    have hx : (BitVec.ofNat w (unle image)).toNat = unle image := by
      rw [BitVec.toNat_ofNat, Nat.mod_eq_of_lt hlt]
    have himg : putBV (BitVec.ofNat w (unle image)) = image := by
      rw [putBV, hx, ← hi, le_unle]
    obtain ⟨v, h2, h3⟩ := readBit_key hw hsint hkw (BitVec.ofNat w (unle image)) more
    rw [himg] at h2
    unfold multiValue
    rw [if_pos h1, if_pos ⟨ht, hbo, hb⟩, h2, Res.bind_ok, hk]
    simp only [h3]
    rw [← bitOf_toNat, hx]
  | string s handle h1 ht hs =>
    unfold multiValue
    rw [if_pos h1, if_neg (by rw [ht]; rintro ⟨h, -⟩; revert h; decide), if_pos ht]
    have e : le 2 handle.toNat ++ Spec.stringSlot s ++ more =
        (le 2 handle.toNat ++ le 4 s.length) ++ (s ++ (List.replicate (84 - s.length) 0#8 ++ more)) := by
      simp [Spec.stringSlot]
    rw [e, readN_append' (by simp), Res.bind_ok]
    simp only []
    rw [List.drop_left' (by simp), unle_le_of_lt (Nat.lt_of_le_of_lt hs (by decide)), readN_append, Res.bind_ok]
  | strings ss handle h1 hn ht hs =>
    obtain ⟨a, b, hab⟩ := le_two_cons handle.toNat
    unfold multiValue
    rw [if_neg (by omega), if_pos ht, hab, List.append_assoc, h1]
    rw [readTimes_slots _ ?_ ss hs a b more, Res.bind_ok]
    intro d s d' h
    rw [h, Res.bind_ok]
  | struct image handle h1 ht hd =>
    unfold multiValue
    rw [if_pos h1, if_neg (by rw [ht]; rintro ⟨h, -⟩; revert h; decide),
      if_neg (by rw [ht]; decide), if_pos rfl, List.append_assoc, readN_two, Res.bind_ok]
    simp only [hd]
    rw [readN_append, Res.bind_ok]

theorem secondItem_cpf (i0 i1 : BitVec 16) (d0 d1 : Bytes) (h0 : d0.length < 65536)
    (h1 : d1.length < 65536) : secondItem (Spec.cpf [(i0, d0), (i1, d1)]) =
      .ok { id := i1, length := BitVec.ofNat 16 d1.length, data := d1, pos := 0 } := by
  have := readItems_cpf [(i0, d0), (i1, d1)] [] (by simp) (by simp [h0, h1])
  rw [List.append_nil] at this
  unfold secondItem
  rw [this]
  rfl

theorem getU_le {k : Nat} (n : Nat) (rest : Bytes) : getU k (le k n ++ rest) = .ok (n % 256 ^ k, rest) := by
  unfold getU
  rw [if_neg (by simp), List.take_left' (le_length k n), List.drop_left' (le_length k n), unle_le]

theorem getU_one (b : Byte) (rest : Bytes) : getU 1 (b :: rest) = .ok (b.toNat, rest) := by
  simp [getU, unle]

theorem unU16s_le (os : List Nat) (ho : ∀ o ∈ os, o < 65536) :
    (unU16s (os.map (le 2)).flatten).map BitVec.toNat = os := by
  induction os with
  | nil => rfl
  | cons o os ih =>
    have h := ho o (by simp)
    have ih := ih (fun x hx => ho x (by simp [hx]))
    rw [List.map_cons, List.flatten_cons, show le 2 o = [BitVec.ofNat 8 o, BitVec.ofNat 8 (o / 256)] from rfl]
    simp only [List.cons_append, List.nil_append, unU16s, List.map_cons, ih, List.cons.injEq, and_true]
    rw [BitVec.toNat_append]
    simp only [BitVec.toNat_ofNat]
    rw [← Nat.shiftLeft_add_eq_or_of_lt (by omega), Nat.shiftLeft_eq]
    omega

theorem flatten_le2_length (os : List Nat) : ((os.map (le 2)).flatten).length = 2 * os.length := by
  induction os with
  | nil => rfl
  | cons o os ih => simp [ih]; omega

theorem entries_ok (id len : BitVec 16) (six body : Bytes) (h6 : six.length = 6)
    (hb : body.length + 6 < 65536) (xs : List (MTag × Byte × Bytes × RV)) (offs : List (BitVec 16))
    (hl : offs.length = xs.length)
    (hv : ∀ x ∈ xs, Spec.Means x.1 x.2.1 x.2.2.1 x.2.2.2)
    (h : ∀ (k : Nat) (x : MTag × Byte × Bytes × RV), xs[k]? = some x → ∃ (o : BitVec 16) (service reserved unknown : Byte)
      (more : Bytes), offs[k]? = some o ∧ 128 ≤ service.toNat ∧
      body.drop o.toNat = [service, reserved, 0#8, 0#8, x.2.1, unknown] ++ (x.2.2.1 ++ more)) :
    multiEntries (putBV id ++ putBV len ++ (six ++ body)) (xs.map (·.1)) offs = .ok (xs.map (·.2.2.2)) := by
  induction xs generalizing offs with
  | nil =>
    have : offs = [] := List.length_eq_zero_iff.mp (by simpa using hl)
    subst this; rfl
  | cons t ts ih =>
    cases offs with
    | nil => simp at hl
    | cons o offs =>
      obtain ⟨o', service, reserved, unknown, more, ho, hs, hd⟩ := h 0 t rfl
      simp only [List.getElem?_cons_zero, Option.some.injEq] at ho
      subst ho
      have hol : o.toNat + 6 ≤ body.length := by
        have := congrArg List.length hd
        simp only [List.length_drop, List.length_append, List.length_cons, List.length_nil] at this
        omega
      have hoff : (o + 10#16).toNat = o.toNat + 10 := by
        rw [BitVec.toNat_add]
        simp only [BitVec.toNat_ofNat]
        omega
      have hentry : multiEntry (some t.1) (putBV id ++ putBV len ++ (six ++ body)) o = .ok t.2.2.2 := by
        unfold multiEntry
        simp only [hoff]
        rw [if_neg (by simp [h6]; omega)]
        have e : List.drop (o.toNat + 10) (putBV id ++ putBV len ++ (six ++ body)) = body.drop o.toNat := by
          rw [← List.append_assoc, List.drop_append]
          have : (putBV id ++ putBV len ++ six).length = 10 := by simp [h6]
          rw [List.drop_eq_nil_of_le (by rw [this]; omega), this, List.nil_append]
          congr 1
        rw [e, hd, readN_append' (by rfl), Res.bind_ok]
        simp only []
        rw [if_neg]
        · rw [if_neg (by simp [unle])]
          exact multiValue_means (hv t (by simp)) more
        · intro hz
          have := congrArg BitVec.toNat hz
          simp only [List.getD_cons_zero, BitVec.toNat_and] at this
          have hbit : service.getLsbD 7 = false := by
            have := congrArg (fun b => BitVec.getLsbD b 7) hz
            simpa using this
          have := bitOf_toNat service 7
          rw [hbit] at this
          have hlt := service.isLt
          simp [Spec.bitOf] at this
          omega
      simp only [multiEntries, List.head?_cons, List.tail_cons, List.map_cons, hentry, Res.bind_ok]
      rw [ih offs (by simpa using hl) (fun x hx => hv x (by simp [hx]))
        (fun k t hk => by simpa using h (k + 1) t (by simpa using hk)), Res.bind_ok]

/-- A reply whose offsets lead to the images of some values. -/
theorem multiReply_images {xs : List (MTag × Byte × Bytes × RV)} {r : Reply} (f : Spec.MultiForm) (offsets : List Nat)
    (tail body : Bytes) (hbody : le 2 xs.length ++ ((offsets.map (le 2)).flatten ++ tail) = body) (hst : r.status = 0)
    (hp : r.payload = f.payload body) (ha : f.address.length < 65536) (hb : body.length + 6 < 65536)
    (hol : offsets.length = xs.length)
    (hk : ∀ (k : Nat) (x : MTag × Byte × Bytes × RV), xs[k]? = some x → ∃ (o : Nat) (service reserved unknown : Byte) (more : Bytes),
      offsets[k]? = some o ∧ 128 ≤ service.toNat ∧
      body.drop o = [service, reserved, 0#8, 0#8, x.2.1, unknown] ++ (x.2.2.1 ++ more))
    (hv : ∀ x ∈ xs, Spec.Means x.1 x.2.1 x.2.2.1 x.2.2.2) :
    multiReply (xs.map (·.1)) r = .ok (xs.map (·.2.2.2)) := by
  have h16 : ∀ o ∈ offsets, o < 65536 := by
    intro o ho
    obtain ⟨k, hk1, hk2⟩ := List.mem_iff_getElem.mp ho
    have hkr : k < xs.length := by omega
    obtain ⟨o', s, rs, u, m, ho', -, hd⟩ := hk k xs[k] (by simp [hkr])
    have : o' = o := by
      rw [List.getElem?_eq_getElem hk1, Option.some.injEq] at ho'
      omega
    subst this
    have := congrArg List.length hd
    simp only [List.length_drop, List.length_append, List.length_cons, List.length_nil] at this
    omega
  have hcount : xs.length < 65536 := by
    have := congrArg List.length hbody
    simp only [List.length_append, flatten_le2_length, le_length] at this
    omega
  have hdl : (le 2 f.seq.toNat ++ ([f.service, f.reserved, 0#8, 0#8] ++ body)).length < 65536 := by
    simp; omega
  unfold multiReply
  rw [if_neg (by simp [hst])]
  have e6 : (if r.payload.length < 6 then [] else r.payload.drop 6) = Spec.cpf [(f.id0, f.address),
      (f.id1, le 2 f.seq.toNat ++ ([f.service, f.reserved, 0#8, 0#8] ++ body))] := by
    rw [hp, Spec.MultiForm.payload, ← List.append_assoc, if_neg (by simp; omega), List.drop_left' (by simp)]
  rw [e6, secondItem_cpf _ _ _ _ ha hdl, Res.bind_ok]
  simp only []
  rw [getU_le, Res.bind_ok]
  simp only [List.cons_append, List.nil_append]
  rw [getU_one, Res.bind_ok]
  simp only []
  rw [getU_one, Res.bind_ok]
  simp only []
  rw [show (0#8 :: 0#8 :: body) = le 2 0 ++ body from rfl, getU_le, Res.bind_ok]
  simp only []
  rw [if_neg (by simp)]
  rw [← hbody, getU_le, Res.bind_ok]
  simp only []
  rw [Nat.mod_eq_of_lt (by simpa using hcount), readN_append' (by rw [flatten_le2_length, hol]), Res.bind_ok]
  simp only [Item.bytes]
  rw [hbody]
  rw [show le 2 f.seq.toNat ++ f.service :: f.reserved :: (le 2 0 ++ body) =
    (le 2 f.seq.toNat ++ [f.service, f.reserved, 0#8, 0#8]) ++ body by simp [le]]
  have hu := unU16s_le offsets h16
  apply entries_ok _ _ _ _ (by simp) hb xs (unU16s (offsets.map (le 2)).flatten)
    (by rw [← List.length_map (f := BitVec.toNat), hu, hol]) hv
  intro k t hkt
  obtain ⟨o, s, rs, u, m, ho, h1, h2⟩ := hk k t hkt
  rw [← hu, List.getElem?_map] at ho
  cases hb : (unU16s (offsets.map (le 2)).flatten)[k]? with
  | none => simp [hb] at ho
  | some b =>
    simp only [hb, Option.map_some, Option.some.injEq] at ho
    exact ⟨b, s, rs, u, m, rfl, h1, by rw [ho]; exact h2⟩

theorem multiReply_answers {world : MTag → Byte × Bytes} {val : MTag → RV} {req : List MTag} {r : Reply}
    (h : Spec.MultiAnswers world req r) (hv : ∀ t ∈ req, Spec.Means t (world t).1 (world t).2 (val t)) :
    multiReply req r = .ok (req.map val) := by
  obtain ⟨f, offsets, tail, hst, hp, ha, hb, hol, hk⟩ := h
  have key := multiReply_images (xs := req.map fun t => (t, (world t).1, (world t).2, val t)) f offsets tail _
    (by rw [List.length_map]) hst hp ha hb (by rw [List.length_map]; exact hol) (by
      intro k x hx
      rw [List.getElem?_map] at hx
      cases ht : req[k]? with
      | none => simp [ht] at hx
      | some t =>
        simp only [ht, Option.map_some, Option.some.injEq] at hx
        subst hx
        exact hk k t ht) (by
      intro x hx
      simp only [List.mem_map] at hx
      obtain ⟨t, ht, rfl⟩ := hx
      exact hv t ht)
  simpa [List.map_map, Function.comp_def] using key

end Gologix
