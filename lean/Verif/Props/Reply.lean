import Verif.Spec.Reply
import Verif.Model.Write
import Verif.Props.Multi
/-
C25 A controller error is never reported as success
C26 A malformed reply yields an error, not a crash
C54 Map writes send every entry and report failures
C57 A multi-tag read returns one value per tag
C58 A write carries the tag, type, element count and value
C59 A write to a bit addresses that bit
-/
set_option linter.unusedSimpArgs false

namespace Gologix

/-! ### C25 -/

/-- What the readers see of a reply that carries a status. -/
theorem carries_items {r : Reply} {s : Byte} (h : Spec.CarriesStatus r s) :
    ∃ (p : Bytes) (hd : Bytes) (i0 i1 : Item) (more : List Item) (seq : BitVec 16) (service reserved ext : Byte)
      (tail rest : Bytes), readN 6 r.payload = .ok (hd, p) ∧ afterHeader r.payload = p ∧
      readItems p = .ok (i0 :: i1 :: more, rest) ∧
      i1.data = le 2 seq.toNat ++ ([service, reserved, s, ext] ++ tail) := by
  obtain ⟨iface, timeout, seq, first, id, service, reserved, ext, tail, more, hp, hn, hd⟩ := h
  have hr := readItems_cpf _ [] hn hd
  rw [List.append_nil] at hr
  have h6 : readN 6 r.payload = .ok (le 4 iface.toNat ++ le 2 timeout.toNat, Spec.cpf (first ::
      (id, le 2 seq.toNat ++ ([service, reserved, s, ext] ++ tail)) :: more)) := by
    rw [hp, ← List.append_assoc]
    exact readN_append' (by simp)
  obtain ⟨hl, hs⟩ := readN_ok h6
  refine ⟨_, _, _, _, _, seq, service, reserved, ext, tail, [], h6, ?_, hr, rfl⟩
  unfold afterHeader
  rw [if_neg (by rw [hs, List.length_append, hl]; omega), hs, List.drop_left' hl]

theorem carries_item1 {r : Reply} {s : Byte} (h : Spec.CarriesStatus r s) :
    ∃ (p hd : Bytes) (seq : BitVec 16) (service reserved ext : Byte) (tail : Bytes),
      readN 6 r.payload = .ok (hd, p) ∧ afterHeader r.payload = p ∧
      item1 p = .ok (le 2 seq.toNat ++ ([service, reserved, s, ext] ++ tail)) := by
  obtain ⟨p, hd, i0, i1, more, seq, service, reserved, ext, tail, rest, h1, h2, h3, h4⟩ := carries_items h
  refine ⟨p, hd, seq, service, reserved, ext, tail, h1, h2, ?_⟩
  unfold item1
  rw [h3, Res.bind_ok]
  simp only [h4]

theorem secondOfTwo_items {p rest : Bytes} {i0 i1 : Item} {more : List Item}
    (h : readItems p = .ok (i0 :: i1 :: more, rest)) :
    secondOfTwo p = .ok i1.data ∨ secondOfTwo p = .err .fail := by
  unfold secondOfTwo
  rw [h, Res.bind_ok]
  cases more with
  | nil => exact Or.inl rfl
  | cons m ms => exact Or.inr rfl

theorem secondItem_items {p rest : Bytes} {i0 i1 : Item} {more : List Item}
    (h : readItems p = .ok (i0 :: i1 :: more, rest)) :
    secondItem p = .ok i1 ∨ secondItem p = .err .fail := by
  unfold secondItem
  rw [h, Res.bind_ok]
  cases more with
  | nil => exact Or.inl rfl
  | cons m ms => exact Or.inr rfl

theorem readHdr_status (seq : BitVec 16) (service reserved s ext : Byte) (tail : Bytes) :
    (∃ e, readHdr (le 2 seq.toNat ++ ([service, reserved, s, ext] ++ tail)) = .err e) ∨
    (∃ h d, readHdr (le 2 seq.toNat ++ ([service, reserved, s, ext] ++ tail)) = .ok (h, d) ∧ h.status = s) := by
  match tail with
  | [] => exact Or.inl ⟨.unexpectedEof, rfl⟩
  | [a] => exact Or.inl ⟨.unexpectedEof, rfl⟩
  | a :: b :: tail =>
    right
    refine ⟨⟨service, s, a⟩, tail, ?_, rfl⟩
    unfold readHdr
    rw [show le 2 seq.toNat ++ ([service, reserved, s, ext] ++ a :: b :: tail) =
      (le 2 seq.toNat ++ [service, reserved, s, ext, a, b]) ++ tail by simp]
    rw [readN_append' (by simp), Res.bind_ok]
    simp [le]

/-- C25 for single reads: a first reply with any status but 0 and 6 (partial transfer, which is followed
up or refused) makes the read fail. -/
theorem C25_read (ioi : Ioi) (dt : Byte) (elements : BitVec 16) (r : Reply) (rs : List Reply) (s : Byte)
    (h : Spec.CarriesStatus r s) (h0 : s ≠ 0#8) (h6 : s ≠ 6#8) :
    ((readSingle ioi dt elements (r :: rs)).1).isErr = true := by
  obtain ⟨p, hd, i0, i1, more, seq, service, reserved, ext, tail, rest, h1, h2, h3, h4⟩ := carries_items h
  have hri : replyItem r.payload = secondOfTwo p := by
    rw [← h2]; rfl
  simp only [readSingle, hri]
  rcases secondOfTwo_items h3 with e | e
  · rw [e, Res.bind_ok, h4]
    rcases readHdr_status seq service reserved s ext tail with ⟨e, he⟩ | ⟨hh, d, he, hs⟩
    · rw [he]; rfl
    · rw [he]
      simp only [hs]
      rw [if_neg h6, if_pos h0]; rfl
  · rw [e]; rfl

/-- C25 for the typed reads on top of it. -/
theorem C25_readT (T : GoTy) (ioi : Ioi) (r : Reply) (rs : List Reply) (s : Byte)
    (h : Spec.CarriesStatus r s) (h0 : s ≠ 0#8) (h6 : s ≠ 6#8) : (readT T ioi (r :: rs)).isErr = true := by
  have := C25_read ioi (cipOfGo T) 1#16 r rs s h h0 h6
  unfold readT
  cases hx : (readSingle ioi (cipOfGo T) 1#16 (r :: rs)).1 with
  | ok a => rw [hx] at this; simp [Res.isErr] at this
  | err e => rfl
  | panic => rw [hx] at this; simp [Res.isErr] at this

/-- C25 for the follow-ups of a partial transfer: the k-th further reply, reached because the ones before
it were partial transfers, makes the read fail if its status is neither 0 nor 6. -/
theorem C25_fragment (path : Bytes) (elements : BitVec 16) (acc : Bytes) (r : Reply) (rs : List Reply) (s : Byte)
    (h : Spec.CarriesStatus r s) (h0 : s ≠ 0#8) (h6 : s ≠ 6#8) :
    ((readFragmented path elements (r :: rs) acc).1).isErr = true := by
  obtain ⟨p, hd, i0, i1, more, seq, service, reserved, ext, tail, rest, h1, h2, h3, h4⟩ := carries_items h
  have hfr : fragReply r.payload = (do let d ← secondOfTwo p; let (h, d) ← readHdr d; .ok (d, h.status)) := by
    unfold fragReply
    rw [h1, Res.bind_ok]
  simp only [readFragmented, hfr]
  rcases secondOfTwo_items h3 with e | e
  · rw [e, Res.bind_ok, h4]
    rcases readHdr_status seq service reserved s ext tail with ⟨e, he⟩ | ⟨hh, d, he, hs⟩
    · rw [he]; rfl
    · rw [he, Res.bind_ok]
      simp only [hs]
      rw [if_neg h0, if_pos h6]; rfl
  · rw [e]; rfl

theorem status_word {s : Byte} (ext : Byte) (h0 : s ≠ 0#8) : unle [s, ext] ≠ 0 := by
  intro h
  simp [unle] at h
  exact h0 (BitVec.eq_of_toNat_eq (by simpa using h.1))

/-- C25 for multi-tag reads, status of the whole packet: any non-zero status makes the read fail. -/
theorem C25_multi (tags : List MTag) (r : Reply) (s : Byte) (h : Spec.CarriesStatus r s) (h0 : s ≠ 0#8) :
    (multiReply tags r).isErr = true := by
  obtain ⟨p, hd, i0, i1, more, seq, service, reserved, ext, tail, rest, h1, h2, h3, h4⟩ := carries_items h
  unfold multiReply
  by_cases hst : r.status ≠ 0
  · rw [if_pos hst]; rfl
  · rw [if_neg hst, show (if r.payload.length < 6 then [] else r.payload.drop 6) = p from h2]
    rcases secondItem_items h3 with e | e
    · rw [e, Res.bind_ok, h4, getU_le, Res.bind_ok]
      simp only [List.cons_append, List.nil_append]
      rw [getU_one, Res.bind_ok]
      simp only
      rw [getU_one, Res.bind_ok]
      simp only
      rw [show getU 2 (s :: ext :: tail) = .ok (unle [s, ext], tail) by simp [getU], Res.bind_ok]
      simp only
      rw [if_pos (status_word ext h0)]; rfl
    · rw [e]; rfl

/-- C25 for multi-tag reads, status of one embedded reply: a non-zero status makes the read fail. -/
theorem C25_multi_embedded (t : MTag) (rb : Bytes) (off : BitVec 16) (service reserved s ext : Byte) (tail : Bytes)
    (hoff : off.toNat + 10 < 65536) (h : rb.drop (off.toNat + 10) = [service, reserved, s, ext] ++ tail)
    (h0 : s ≠ 0#8) : (multiEntry (some t) rb off).isErr = true := by
  have ho : (off + 10#16).toNat = off.toNat + 10 := by
    rw [BitVec.toNat_add]
    simp only [BitVec.toNat_ofNat]
    omega
  have hl : ¬ rb.length < off.toNat + 10 := by
    have := congrArg List.length h
    simp at this
    omega
  unfold multiEntry
  simp only [ho]
  rw [if_neg hl, h]
  match tail with
  | [] => rfl
  | [a] => rfl
  | a :: b :: tail =>
    rw [show [service, reserved, s, ext] ++ a :: b :: tail = [service, reserved, s, ext, a, b] ++ tail from rfl,
      readN_append' (by rfl), Res.bind_ok]
    simp only
    split
    · rfl
    · rw [if_pos (show unle (List.take 2 (List.drop 2 [service, reserved, s, ext, a, b])) ≠ 0 from
        status_word ext h0)]; rfl

/-- A failing embedded reply fails the whole call. -/
theorem multiEntries_err (rb : Bytes) (tags : List MTag) (offs : List (BitVec 16)) (k : Nat) (off : BitVec 16)
    (hk : offs[k]? = some off) (h : (multiEntry tags[k]? rb off).isOk = false) :
    (multiEntries rb tags offs).isOk = false := by
  induction offs generalizing tags k with
  | nil => simp at hk
  | cons o offs ih =>
    cases k with
    | zero =>
      simp only [List.getElem?_cons_zero, Option.some.injEq] at hk
      subst hk
      rw [multiEntries]
      rw [show tags.head? = tags[0]? by cases tags <;> rfl]
      cases hm : multiEntry tags[0]? rb o with
      | ok a => rw [hm] at h; simp [Res.isOk] at h
      | err e => rfl
      | panic => rfl
    | succ k =>
      have := ih tags.tail k (by simpa using hk) (by
        rw [show tags.tail[k]? = tags[k + 1]? by cases tags <;> simp]; exact h)
      rw [multiEntries]
      cases hm : multiEntry tags.head? rb o with
      | ok a =>
        rw [Res.bind_ok]
        cases hms : multiEntries rb tags.tail offs with
        | ok a => rw [hms] at this; simp [Res.isOk] at this
        | err e => rfl
        | panic => rfl
      | err e => rfl
      | panic => rfl

/-- C25 for writes (Write of values and of structures). -/
theorem C25_write (r : Reply) (s : Byte) (h : Spec.CarriesStatus r s) (h0 : s ≠ 0#8) :
    (writeReply r).isErr = true := by
  obtain ⟨p, hd, seq, service, reserved, ext, tail, h1, h2, h3⟩ := carries_item1 h
  unfold writeReply
  by_cases hst : r.status ≠ 0
  · rw [if_pos hst]; rfl
  · rw [if_neg hst, h2, h3, Res.bind_ok,
      show le 2 seq.toNat ++ ([service, reserved, s, ext] ++ tail) =
        (le 2 seq.toNat ++ [service, reserved, s, ext]) ++ tail by simp, readN_append' (by simp), Res.bind_ok]
    simp only [show (le 2 seq.toNat ++ [service, reserved, s, ext]).getD 4 0#8 = s from rfl]
    rw [if_pos h0]; rfl

/-- C25 for GetAttrList. -/
theorem C25_getAttrList (r : Reply) (s : Byte) (h : Spec.CarriesStatus r s) (h0 : s ≠ 0#8) :
    (getAttrListReply r).isErr = true := by
  obtain ⟨p, hd, seq, service, reserved, ext, tail, h1, h2, h3⟩ := carries_item1 h
  unfold getAttrListReply
  rw [h1, Res.bind_ok]
  simp only
  rw [h3, Res.bind_ok, show le 2 seq.toNat ++ ([service, reserved, s, ext] ++ tail) =
        (le 2 seq.toNat ++ [service, reserved, s, ext]) ++ tail by simp, readN_append' (by simp), Res.bind_ok]
  simp only [show ((le 2 seq.toNat ++ [service, reserved, s, ext]).drop 4).take 2 = [s, ext] from rfl]
  rw [if_pos (status_word ext h0)]; rfl

/-- C25 for GenericCIPMessage. -/
theorem C25_generic (svc : Byte) (r : Reply) (s : Byte) (h : Spec.CarriesStatus r s) (h0 : s ≠ 0#8) :
    (genericReply svc r).isErr = true := by
  obtain ⟨p, hd, seq, service, reserved, ext, tail, h1, h2, h3⟩ := carries_item1 h
  unfold genericReply
  rw [h1, Res.bind_ok]
  simp only
  rw [h3, Res.bind_ok, getU_le, Res.bind_ok]
  simp only
  rw [show getU 2 ([service, reserved, s, ext] ++ tail) = .ok (unle [service, reserved], [s, ext] ++ tail) by
    simp [getU], Res.bind_ok]
  simp only
  split
  · rfl
  · rw [show getU 2 ([s, ext] ++ tail) = .ok (unle [s, ext], tail) by simp [getU], Res.bind_ok]
    simp only
    rw [if_pos (status_word ext h0)]; rfl

/-- C25 for the forward open (connecting). -/
theorem C25_forward_open (r : Reply) (s : Byte) (h : Spec.CarriesStatusUnconnected r s) (h0 : s ≠ 0#8) :
    (parseResponse r).isErr = true := by
  obtain ⟨iface, timeout, first, id, service, reserved, ext, tail, more, hp, hn, hd⟩ := h
  have hr := readItems_cpf _ [] hn hd
  rw [List.append_nil] at hr
  unfold parseResponse
  by_cases hst : r.status ≠ 0
  · rw [if_pos hst]; rfl
  · rw [if_neg hst, hp, ← List.append_assoc, readN_append' (by simp), Res.bind_ok]
    simp only
    have hi : item1 (Spec.cpf (first :: (id, [service, reserved, s, ext] ++ tail) :: more)) =
        .ok ([service, reserved, s, ext] ++ tail) := by
      unfold item1
      rw [hr]
      rfl
    rw [hi, Res.bind_ok, readN_append' (by rfl), Res.bind_ok]
    simp only [List.getD_cons_succ, List.getD_cons_zero]
    have hs : ∀ (x : Res (Bytes × Bytes)), x.safe →
        (x >>= fun a => if s ≠ 0#8 then .err .fail else (.ok a.2 : Res Bytes)).isErr = true := by
      intro x hx
      cases x with
      | ok a => rw [Res.bind_ok, if_pos h0]; rfl
      | err e => rfl
      | panic => exact absurd hx (by simp)
    by_cases he : ext ≠ 0#8
    · rw [if_pos he]
      exact hs _ (readN_safe _ _)
    · rw [if_neg he]
      exact hs _ (by simp)

/-- C25 fails for GetAttrSingle: whatever the status, what follows it is returned as the attribute. -/
theorem C25_getAttrSingle_ignores (r : Reply) (s : Byte) (h : Spec.CarriesStatus r s) :
    (getAttrSingleReply r).isOk = true := by
  obtain ⟨p, hd, seq, service, reserved, ext, tail, h1, h2, h3⟩ := carries_item1 h
  unfold getAttrSingleReply
  rw [h2, h3, Res.bind_ok, show le 2 seq.toNat ++ ([service, reserved, s, ext] ++ tail) =
        (le 2 seq.toNat ++ [service, reserved, s, ext]) ++ tail by simp, readN_append' (by simp), Res.bind_ok]
  rfl

/-- A reply that carries status `s`, for the examples. -/
def exStatus (s : Byte) : Reply :=
  ⟨0, le 4 0 ++ (le 2 0 ++ Spec.cpf [(0xA1, [1#8]), (0xB1, le 2 7 ++ ([0xCD#8, 0#8, s, 0#8] ++ []))])⟩

example : Spec.CarriesStatus (exStatus 5#8) 5#8 :=
  ⟨0, 0, 7, (0xA1, [1#8]), 0xB1, 0xCD#8, 0#8, 0#8, [], [], rfl, by decide, by decide⟩

example : writeReply (exStatus 5#8) = .err .fail ∧ writeReply (exStatus 0#8) = .ok () := by decide

/-! ### C26 -/

theorem safe_ite {α} {c : Prop} [Decidable c] {a b : Res α} (ha : a.safe) (hb : b.safe) :
    (if c then a else b).safe := by
  split
  · exact ha
  · exact hb

theorem secondOfTwo_safe (src : Bytes) : (secondOfTwo src).safe := by
  unfold secondOfTwo
  refine Res.safe_bind (readItems_safe _) fun a _ => ?_
  obtain ⟨its, rest⟩ := a
  simp only
  split <;> trivial

theorem secondItem_safe (src : Bytes) : (secondItem src).safe := by
  unfold secondItem
  refine Res.safe_bind (readItems_safe _) fun a _ => ?_
  obtain ⟨its, rest⟩ := a
  simp only
  split <;> trivial

theorem readHdr_safe (d : Bytes) : (readHdr d).safe := by
  unfold readHdr
  exact Res.safe_bind (readN_safe _ _) fun a _ => trivial

theorem getU_safe (k : Nat) (d : Bytes) : (getU k d).safe := by
  unfold getU; split <;> trivial

theorem readBool_safe (d : Bytes) : (readBool d).safe := by
  unfold readBool
  exact Res.safe_bind (readBV_safe _ _) fun a _ => trivial

theorem readValue_safe (t : Byte) (d : Bytes) : (readValue t d).safe := by
  unfold readValue
  repeat' first
    | apply safe_ite
    | exact trivial
    | exact Res.safe_bind (readBV_safe _ _) fun a _ => trivial
    | exact Res.safe_bind (readBool_safe _) fun a _ => trivial
    | exact Res.safe_bind (readN_safe _ _) fun a _ => Res.safe_bind (readN_safe _ _) fun a _ => trivial
    | exact Res.safe_bind (readN_safe _ _) fun a _ => trivial

theorem getBitCase_safe (w : Nat) (x : Option Bool) (n : Int) : (getBitCase w x n).safe := by
  unfold getBitCase
  split
  · split <;> trivial
  · trivial

theorem getBit_safe (t : Byte) (v : Scal) (n : Int) : (getBit t v n).safe := by
  unfold getBit
  simp only
  repeat' first
    | exact getBitCase_safe _ _ _
    | exact trivial
    | apply safe_ite

theorem readTimes_safe (f : Bytes → Res (Scal × Bytes)) (hf : ∀ d, (f d).safe) (n : Nat) (d : Bytes) :
    (readTimes f n d).safe := by
  induction n generalizing d with
  | zero => trivial
  | succ n ih =>
    rw [readTimes]
    refine Res.safe_bind (hf _) fun a _ => ?_
    exact Res.safe_bind (ih _) fun b _ => trivial

theorem decodeRead_safe (dt : Byte) (elements : Nat) (ba : Bool) (bp : Int) (typ : Byte) (d : Bytes)
    (h : dt ≠ tSTRING ∨ elements = 1) : (decodeRead dt elements ba bp typ d).safe := by
  unfold decodeRead
  split
  · split
    · rename_i hs
      rw [if_pos (h.resolve_left (fun h => h hs))]
      refine Res.safe_bind ?_ fun a _ => trivial
      unfold readString1
      refine Res.safe_bind (readN_safe _ _) fun a _ => ?_
      exact Res.safe_bind (readN_safe _ _) fun a _ => trivial
    · exact Res.safe_bind (readN_safe _ _) fun a _ => trivial
  · split
    · split
      · refine Res.safe_bind (readValue_safe _ _) fun a _ => ?_
        exact Res.safe_bind (getBit_safe _ _ _) fun a _ => trivial
      · exact Res.safe_bind (readValue_safe _ _) fun a _ => trivial
    · exact Res.safe_bind (readTimes_safe _ (readValue_safe _) _ _) fun a _ => trivial

theorem readFragmented_safe (path : Bytes) (elements : BitVec 16) (replies : List Reply) (acc : Bytes) :
    (readFragmented path elements replies acc).1.safe := by
  induction replies generalizing acc with
  | nil => trivial
  | cons r rs ih =>
    have hs : (fragReply r.payload).safe := by
      unfold fragReply
      refine Res.safe_bind (readN_safe _ _) fun a _ => ?_
      refine Res.safe_bind (secondOfTwo_safe _) fun b _ => ?_
      exact Res.safe_bind (readHdr_safe _) fun c _ => trivial
    rw [readFragmented]
    cases hf : fragReply r.payload with
    | err e => trivial
    | panic => rw [hf] at hs; exact absurd hs (by simp)
    | ok a =>
      obtain ⟨d, status⟩ := a
      simp only
      split
      · trivial
      · split
        · trivial
        · exact ih _

/-- C26 for single reads, of anything but an array of strings: arbitrary replies never crash. -/
theorem C26_read_partial (ioi : Ioi) (dt : Byte) (elements : BitVec 16) (replies : List Reply)
    (h : dt ≠ tSTRING ∨ elements = 1#16) : (readSingle ioi dt elements replies).1.safe := by
  have hd : ∀ typ d, (decodeRead dt elements.toNat ioi.bitAccess ioi.bitPosition typ d).safe := by
    intro typ d
    refine decodeRead_safe _ _ _ _ _ _ ?_
    rcases h with h | h
    · exact Or.inl h
    · right; rw [h]; rfl
  cases replies with
  | nil => trivial
  | cons r rs =>
    have hs : (do let d ← replyItem r.payload; readHdr d).safe := by
      refine Res.safe_bind (secondOfTwo_safe _) fun a _ => ?_
      exact readHdr_safe _
    simp only [readSingle]
    cases hh : (do let d ← replyItem r.payload; readHdr d) with
    | err e => trivial
    | panic => rw [hh] at hs; exact absurd hs (by simp)
    | ok a =>
      obtain ⟨hd', d⟩ := a
      simp only
      split
      · split
        · trivial
        · have hf := readFragmented_safe ioi.buffer elements rs d
          split
          · exact hd _ _
          · trivial
          · rename_i reqs rest heq
            rw [heq] at hf
            exact absurd hf (by simp)
      · split
        · trivial
        · exact hd _ _

theorem castOne_safe (T : GoTy) (v : RV) : (castOne T v).safe := by
  unfold castOne
  split
  · split <;> trivial
  · split <;> trivial
  · trivial

/-- C26 for the typed reads of one value (any type). -/
theorem C26_readT (T : GoTy) (ioi : Ioi) (replies : List Reply) : (readT T ioi replies).safe := by
  unfold readT
  exact Res.safe_bind (C26_read_partial ioi _ _ replies (Or.inr rfl)) fun a _ => castOne_safe T a

/-- C26 fails for arrays of strings: a length field above 82 crashes. -/
theorem C26_string_array_crash (f : Spec.ReplyForm) (hf : f.address.length < 65536) (ioi : Ioi) (st : BitVec 32)
    (more : List Reply) : (readSingle ioi tSTRING 2#16
      (⟨st, f.payload 0#8 tStruct (le 2 0x0FCE ++ le 4 83 ++ List.replicate 82 0x41#8)⟩ :: more)).1 = .panic := by
  have hfit : f.fits (le 2 0x0FCE ++ le 4 83 ++ List.replicate 82 0x41#8) := ⟨hf, by simp⟩
  have hh := readSingle_hdr f 0#8 tStruct _ hfit
  simp only [readSingle, hh]
  rw [if_neg (by decide), if_neg (by decide)]
  have hd : ∀ ba bp, decodeRead tSTRING (2#16).toNat ba bp tStruct
      (le 2 0x0FCE ++ le 4 83 ++ List.replicate 82 0x41#8) = .panic := by
    intro ba bp
    have h82 : readString82 (le 2 0x0FCE ++ le 4 83 ++ List.replicate 82 0x41#8) = .panic := by decide +kernel
    unfold decodeRead
    rw [if_pos rfl, if_pos rfl, if_neg (by decide)]
    show (readTimes readString82 (1 + 1) _ >>= _) = _
    rw [readTimes, h82]
    rfl
  exact hd ioi.bitAccess ioi.bitPosition

/-- C26, writes: a reply crashes the write only if it holds fewer than two items. -/
theorem C26_write_partial (r : Reply)
    (h : ∀ its rest, readItems (afterHeader r.payload) = .ok (its, rest) → 2 ≤ its.length) :
    (writeReply r).safe := by
  have hi : (item1 (afterHeader r.payload)).safe := by
    unfold item1
    refine Res.safe_bind (readItems_safe _) fun a ha => ?_
    obtain ⟨its, rest⟩ := a
    have := h its rest ha
    match its with
    | [] => simp at this
    | [_] => simp at this
    | _ :: _ :: _ => trivial
  unfold writeReply
  split
  · trivial
  · refine Res.safe_bind hi fun d _ => ?_
    refine Res.safe_bind (readN_safe _ _) fun b _ => ?_
    exact safe_ite trivial trivial

/-- The same for GetAttrSingle. -/
theorem C26_getAttrSingle_partial (r : Reply)
    (h : ∀ its rest, readItems (afterHeader r.payload) = .ok (its, rest) → 2 ≤ its.length) :
    (getAttrSingleReply r).safe := by
  unfold getAttrSingleReply
  refine Res.safe_bind ?_ fun d _ => ?_
  · unfold item1
    refine Res.safe_bind (readItems_safe _) fun a ha => ?_
    obtain ⟨its, rest⟩ := a
    have := h its rest ha
    match its with
    | [] => simp at this
    | [_] => simp at this
    | _ :: _ :: _ => trivial
  · exact Res.safe_bind (readN_safe _ _) fun b _ => trivial

theorem item1_safe (p : Bytes) (h : ∀ its rest, readItems p = .ok (its, rest) → 2 ≤ its.length) :
    (item1 p).safe := by
  unfold item1
  refine Res.safe_bind (readItems_safe _) fun a ha => ?_
  obtain ⟨its, rest⟩ := a
  have := h its rest ha
  match its with
  | [] => simp at this
  | [_] => simp at this
  | _ :: _ :: _ => trivial

/-- The same for GetAttrList, GenericCIPMessage and the forward open. -/
theorem C26_others_partial (svc : Byte) (r : Reply)
    (h : ∀ hd p its rest, readN 6 r.payload = .ok (hd, p) → readItems p = .ok (its, rest) → 2 ≤ its.length) :
    (getAttrListReply r).safe ∧ (genericReply svc r).safe ∧ (parseResponse r).safe := by
  refine ⟨?_, ?_, ?_⟩
  · unfold getAttrListReply
    refine Res.safe_bind (readN_safe _ _) fun a ha => ?_
    refine Res.safe_bind (item1_safe _ (fun its rest => h a.1 a.2 its rest ha)) fun d _ => ?_
    refine Res.safe_bind (readN_safe _ _) fun b _ => ?_
    exact safe_ite trivial (Res.safe_bind (getU_safe _ _) fun c _ => trivial)
  · unfold genericReply
    refine Res.safe_bind (readN_safe _ _) fun a ha => ?_
    refine Res.safe_bind (item1_safe _ (fun its rest => h a.1 a.2 its rest ha)) fun d _ => ?_
    refine Res.safe_bind (getU_safe _ _) fun b _ => ?_
    refine Res.safe_bind (getU_safe _ _) fun c _ => ?_
    exact safe_ite trivial (Res.safe_bind (getU_safe _ _) fun e _ => safe_ite trivial trivial)
  · unfold parseResponse
    split
    · trivial
    · refine Res.safe_bind (readN_safe _ _) fun a ha => ?_
      refine Res.safe_bind (item1_safe _ (fun its rest => h a.1 a.2 its rest ha)) fun d _ => ?_
      refine Res.safe_bind (readN_safe _ _) fun b _ => ?_
      obtain ⟨hb, d'⟩ := b
      simp only
      have : ∀ (x : Res (Bytes × Bytes)), x.safe →
          (x >>= fun c => if hb.getD 2 0#8 ≠ 0#8 then .err .fail else (.ok c.2 : Res Bytes)).safe := by
        intro x hx
        refine Res.safe_bind hx fun c _ => ?_
        split <;> trivial
      exact safe_ite (this _ (readN_safe _ _)) (this _ trivial)

/-- C26 fails for writes, attribute requests and connecting: a reply without items crashes. -/
theorem C26_no_items_crash (hdr : Bytes) (h6 : hdr.length = 6) (svc : Byte) :
    let r : Reply := ⟨0, hdr ++ [0#8, 0#8]⟩
    writeReply r = .panic ∧ getAttrSingleReply r = .panic ∧ getAttrListReply r = .panic ∧
      genericReply svc r = .panic ∧ parseResponse r = .panic := by
  have hn : readN 6 (hdr ++ [0#8, 0#8]) = .ok (hdr, [0#8, 0#8]) := readN_append' h6
  have ha : afterHeader (hdr ++ [0#8, 0#8]) = [0#8, 0#8] := by
    unfold afterHeader
    rw [if_neg (by simp [h6]), List.drop_left' h6]
  have hi : item1 [0#8, 0#8] = .panic := by decide
  simp only [writeReply, getAttrSingleReply, getAttrListReply, genericReply, parseResponse, hn, ha, hi,
    Res.bind_ok, Res.bind_panic]
  simp

/-- C26 for WriteMap: the reply is not read, so it cannot crash. -/
theorem C26_writeMap (r : Reply) : (writeMapReply r).safe := trivial

theorem multiValue_safe (t : MTag) (typ : Byte) (d : Bytes) (h : t.typ ≠ tSTRING ∨ t.elements = 1) :
    (multiValue t typ d).safe := by
  unfold multiValue
  split
  · split
    · refine Res.safe_bind (readValue_safe _ _) fun a _ => ?_
      obtain ⟨v, rest⟩ := a
      have := getBit_safe typ v t.ioi.bitPosition
      simp only
      split
      · trivial
      · trivial
      · rename_i hb; rw [hb] at this; exact absurd this (by simp)
    · split
      · refine Res.safe_bind (readN_safe _ _) fun a _ => ?_
        exact Res.safe_bind (readN_safe _ _) fun b _ => trivial
      · split
        · refine Res.safe_bind (readN_safe _ _) fun a _ => ?_
          obtain ⟨v, rest⟩ := a
          simp only
          split
          · trivial
          · exact Res.safe_bind (readN_safe _ _) fun b _ => trivial
          · trivial
        · exact Res.safe_bind (readValue_safe _ _) fun a _ => trivial
  · rename_i hne
    rw [if_neg (h.resolve_right hne)]
    exact Res.safe_bind (readTimes_safe _ (readValue_safe _) _ _) fun a _ => trivial

/-- C26, one embedded reply of a multi-tag read: no crash if its offset is inside the item and there is a
tag for it. -/
theorem C26_multi_entry_partial (t : MTag) (h : t.typ ≠ tSTRING ∨ t.elements = 1) (rb : Bytes) (off : BitVec 16)
    (ho : (off + 10#16).toNat ≤ rb.length) : (multiEntry (some t) rb off).safe := by
  unfold multiEntry
  simp only
  rw [if_neg (by omega)]
  refine Res.safe_bind (readN_safe _ _) fun a _ => ?_
  split
  · trivial
  · split
    · trivial
    · exact multiValue_safe _ _ _ h

/-- C26 fails for multi-tag reads: an offset beyond the item crashes. -/
theorem C26_multi_offset_crash (f : Spec.MultiForm) (hf : f.address.length < 65536) (tags : List MTag)
    (off : BitVec 16) (ho : 4 < off.toNat) (ho2 : off.toNat < 65526) :
    multiReply tags ⟨0, f.payload ([1#8, 0#8] ++ le 2 off.toNat)⟩ = .panic := by
  have hp : ∀ body : Bytes, (if (f.payload body).length < 6 then [] else (f.payload body).drop 6) =
      Spec.cpf [(f.id0, f.address), (f.id1, le 2 f.seq.toNat ++ ([f.service, f.reserved, 0#8, 0#8] ++ body))] := by
    intro body
    rw [Spec.MultiForm.payload, ← List.append_assoc, if_neg (by simp; omega), List.drop_left' (by simp)]
  unfold multiReply
  simp only
  rw [if_neg (by simp), hp, secondItem_cpf _ _ _ _ hf (by simp), Res.bind_ok]
  simp only
  rw [getU_le, Res.bind_ok]
  simp only [List.cons_append, List.nil_append]
  rw [getU_one, Res.bind_ok]
  simp only
  rw [getU_one, Res.bind_ok]
  simp only
  rw [show (0#8 :: 0#8 :: 1#8 :: 0#8 :: le 2 off.toNat) = le 2 0 ++ (le 2 1 ++ le 2 off.toNat) from rfl,
    getU_le, Res.bind_ok]
  simp only
  rw [if_neg (by simp), getU_le, Res.bind_ok]
  simp only
  rw [← List.append_nil (le 2 off.toNat), readN_append' (by simp), Res.bind_ok]
  simp only
  have hu' : unU16s (le 2 off.toNat) = [off] := by
    have := unU16s_le [off.toNat] (by simp [off.isLt])
    obtain ⟨a, h1, h2⟩ : ∃ a, unU16s (le 2 off.toNat) = [a] ∧ a.toNat = off.toNat := by simpa using this
    rw [h1, BitVec.eq_of_toNat_eq h2]
  have hoff : (off + 10#16).toNat = off.toNat + 10 := by
    rw [BitVec.toNat_add]
    simp only [BitVec.toNat_ofNat]
    omega
  rw [hu', multiEntries]
  unfold multiEntry
  simp only [hoff]
  rw [if_pos (by simp [Item.bytes]; omega)]
  rfl

/-! ### C57 -/

theorem multiEntries_length {rb : Bytes} {tags : List MTag} {offs : List (BitVec 16)} {vs : List RV}
    (h : multiEntries rb tags offs = .ok vs) : vs.length = offs.length := by
  induction offs generalizing tags vs with
  | nil => simp [multiEntries] at h; simp [← h]
  | cons o offs ih =>
    rw [multiEntries, Res.bind_eq_ok] at h
    obtain ⟨v, h1, h2⟩ := h
    rw [Res.bind_eq_ok] at h2
    obtain ⟨vs', h3, h4⟩ := h2
    simp at h4
    subst h4
    simp [ih h3]

theorem multiEntries_tags {rb : Bytes} {tags : List MTag} {offs : List (BitVec 16)} {vs : List RV}
    (h : multiEntries rb tags offs = .ok vs) : offs.length ≤ tags.length := by
  induction offs generalizing tags vs with
  | nil => simp
  | cons o offs ih =>
    rw [multiEntries, Res.bind_eq_ok] at h
    obtain ⟨v, h1, h2⟩ := h
    rw [Res.bind_eq_ok] at h2
    obtain ⟨vs', h3, -⟩ := h2
    cases tags with
    | nil =>
      unfold multiEntry at h1
      simp only [List.head?_nil] at h1
      split at h1
      · simp at h1
      · rw [Res.bind_eq_ok] at h1
        obtain ⟨a, -, h⟩ := h1
        split at h <;> simp at h
    | cons t ts =>
      have := ih h3
      simpa using this

/-- C57, what holds: a multi-tag read never returns more values than tags. -/
theorem C57_no_extra_values_partial (tags : List MTag) (r : Reply) (vs : List RV) (h : multiReply tags r = .ok vs) :
    vs.length ≤ tags.length := by
  unfold multiReply at h
  split at h
  · simp at h
  · rw [Res.bind_eq_ok] at h
    obtain ⟨it, -, h⟩ := h
    rw [Res.bind_eq_ok] at h
    obtain ⟨⟨a1, a2⟩, -, h⟩ := h
    rw [Res.bind_eq_ok] at h
    obtain ⟨⟨b1, b2⟩, -, h⟩ := h
    rw [Res.bind_eq_ok] at h
    obtain ⟨⟨c1, c2⟩, -, h⟩ := h
    rw [Res.bind_eq_ok] at h
    obtain ⟨⟨d1, d2⟩, -, h⟩ := h
    by_cases hd : d1 ≠ 0
    · simp [hd] at h
    · simp only [hd, if_false] at h
      rw [Res.bind_eq_ok] at h
      obtain ⟨⟨e1, e2⟩, -, h⟩ := h
      rw [Res.bind_eq_ok] at h
      obtain ⟨⟨g1, g2⟩, -, h⟩ := h
      rw [multiEntries_length h]
      exact multiEntries_tags h

/-- C57 fails: a reply that answers none of the requests is a success without values. -/
theorem C57_missing_values_accepted (f : Spec.MultiForm) (hf : f.address.length < 65536) (tags : List MTag) :
    multiReply tags ⟨0, f.payload [0#8, 0#8]⟩ = .ok [] := by
  have hp : (if (f.payload [0#8, 0#8]).length < 6 then [] else (f.payload [0#8, 0#8]).drop 6) =
      Spec.cpf [(f.id0, f.address), (f.id1, le 2 f.seq.toNat ++ ([f.service, f.reserved, 0#8, 0#8] ++ [0#8, 0#8]))] := by
    rw [Spec.MultiForm.payload, ← List.append_assoc, if_neg (by simp; omega), List.drop_left' (by simp)]
  unfold multiReply
  simp only
  rw [if_neg (by simp), hp, secondItem_cpf _ _ _ _ hf (by simp), Res.bind_ok]
  simp only
  rw [getU_le, Res.bind_ok]
  simp only [List.cons_append, List.nil_append]
  rw [getU_one, Res.bind_ok]
  simp only
  rw [getU_one, Res.bind_ok]
  rfl

/-- C57 fails, consequence: in a ReadList of two batches the first tag is given the value of the
second. -/
theorem C57_values_shift (conn : Nat) (t1 t2 : MTag) (h1 : countFit conn [t1, t2] = 1)
    (hf1 : t1.entry.length + 6 ≤ conn) (hf2 : t2.entry.length + 6 ≤ conn) (r1 r2 : Reply) (v : RV)
    (hr1 : multiReply [t1] r1 = .ok []) (hr2 : multiReply [t2] r2 = .ok [v]) :
    readBatches 4 conn [t1, t2] [r1, r2] = some ⟨.ok [v], [[t1], [t2]], []⟩ := by
  have hs : ∀ t : MTag, t.entry.length + 6 ≤ conn → splitIndex conn 0 0 [t] = none := by
    intro t ht
    exact splitIndex_none (by simpa using ht)
  have hc : countFit conn [t2] = 1 := by
    have := countFit_bounds conn [t2] (by simp)
    simp at this
    omega
  rw [readBatches, if_neg (by simp)]
  simp only [h1, List.take_succ_cons, List.take_zero]
  rw [readList, hs t1 hf1]
  simp only [exchangeList, hr1, List.drop_succ_cons, List.drop_zero]
  rw [readBatches, if_neg (by simp)]
  simp only [hc, List.take_succ_cons, List.take_zero]
  rw [readList, hs t2 hf2]
  simp only [exchangeList, hr2, List.drop_succ_cons, List.drop_zero]
  simp [readBatches]

/-! ### C58 -/

theorem footer_eq (T : GoTy) (n : BitVec 16) : writeFooter (cipOfGo T) n = Spec.typeField T ++ le 2 n.toNat := by
  cases T <;> rfl

theorem writeFooter_two (typ : Byte) (h : typ ≠ tSTRING) (n : BitVec 16) :
    writeFooter typ n = [typ, 0#8] ++ le 2 n.toNat := by
  unfold writeFooter; rw [if_neg h]; rfl

/-- C58, a single value of any supported type. -/
theorem C58_write_value (seq : BitVec 16) (ioi : Ioi) (v : Scal) (T : GoTy) (hv : v.ty = some T) :
    writeBytes seq ioi (.one v) =
      le 2 seq.toNat ++ Spec.writeService ioi.buffer (Spec.typeField T) 1 v.encode := by
  simp only [writeBytes, WVal.cipType, hv, footer_eq, Spec.writeService]
  simp [putBV]

/-- C58, a slice of any supported type but bool, of up to 65535 elements. -/
theorem C58_write_slice_partial (seq : BitVec 16) (ioi : Ioi) (T : GoTy) (hT : T ≠ .bool) (vs : List Scal)
    (hn : vs.length < 65536) :
    writeBytes seq ioi (.many T vs) =
      le 2 seq.toNat ++ Spec.writeService ioi.buffer (Spec.typeField T) vs.length (encodeSlice vs) := by
  have : (BitVec.ofNat 16 vs.length).toNat = vs.length := by simp; omega
  simp only [writeBytes, WVal.cipType, hT, if_false, footer_eq, Spec.writeService, this]
  simp [putBV]

/-- C58 fails for `[]bool`: it is sent as a structure without a handle. -/
theorem C58_bool_slice_type (seq : BitVec 16) (ioi : Ioi) (vs : List Scal) :
    ∃ head, writeBytes seq ioi (.many .bool vs) =
      head ++ ([0xA0#8, 0x00#8] ++ putBV (BitVec.ofNat 16 vs.length)) ++ encodeSlice vs := by
  refine ⟨putBV seq ++ [0x4D#8, BitVec.ofNat 8 (ioi.buffer.length / 2)] ++ ioi.buffer, ?_⟩
  simp [writeBytes, WVal.cipType, writeFooter, tStruct, tSTRING]

/-- C58 fails beyond 65535 elements: all values are sent, the count is taken modulo 65536. -/
theorem C58_count_wraps (seq : BitVec 16) (ioi : Ioi) (vs : List Scal) (hn : vs.length = 65536) :
    writeBytes seq ioi (.many .u8 vs) =
      le 2 seq.toNat ++ Spec.writeService ioi.buffer (Spec.typeField .u8) 0 (encodeSlice vs) := by
  simp only [writeBytes, WVal.cipType, hn, Spec.writeService]
  simp [putBV, writeFooter, cipOfGo, tBYTE, tSTRING, Spec.typeField, le]

/-- C58, structures: type 0xA0 with the checksum as handle, one element, the packed image. -/
theorem C58_write_struct (seq : BitVec 16) (ioi : Ioi) (crc : BitVec 16) (packed : Bytes) :
    writeUdtBytes seq ioi crc packed =
      le 2 seq.toNat ++ Spec.writeService ioi.buffer (le 2 0x02A0 ++ le 2 crc.toNat) 1 packed := by
  simp [writeUdtBytes, Spec.writeService, putBV, tStruct, le]

example : writeBytes 1#16 exIoi (.many .i16 [.i16 1, .i16 2]) =
    [1#8, 0#8, 0x4D#8, 2#8, 0x91#8, 1#8, 0x61#8, 0#8, 0xC3#8, 0#8, 2#8, 0#8, 1#8, 0#8, 2#8, 0#8] := by decide

/-! ### C59 -/

open Spec in
/-- C59 fails: the write of `tag.n` is, byte for byte, the write of the same value to `tag`, for every tag,
bit and value.  What the controller then does is overwrite the tag or refuse a type that does not match. -/
theorem C59_bit_write_ignores_bit (ps : List Part) (hw : WfPath (2 ^ 32) ps) (n : Nat) (hn : n ≤ 31) (db : TagDb)
    (b : Bool) (seq : BitVec 16) (hdb : NotDirect db (render ps) tBOOL)
    (hdb' : NotDirect db (render ps ++ [0x2E#8] ++ dec n) tBOOL) :
    ∃ i j, (newIOI db [] (render ps) tBOOL).1 = .ok i ∧
      (newIOI db [] (render ps ++ [0x2E#8] ++ dec n) tBOOL).1 = .ok j ∧
      writeBytes seq j (.one (.bool b)) = writeBytes seq i (.one (.bool b)) := by
  obtain ⟨i, j, h1, h2, h3, -, -⟩ := C12_bit_path_partial ps hw n hn db tBOOL hdb hdb'
  refine ⟨i, j, h1, h2, ?_⟩
  simp only [writeBytes, h3]

/-! ### C54 -/

theorem writeMapEntries_ok (es : List (Ioi × Scal)) (h : ∀ e ∈ es, ∃ T, e.2.ty = some T) :
    writeMapEntries (es.map fun e => (e.1, WVal.one e.2)) = .ok (es.map fun e =>
      [0x4D#8, BitVec.ofNat 8 (e.1.buffer.length / 2)] ++ e.1.buffer ++
        writeFooter (WVal.one e.2).cipType 1#16 ++ e.2.encode) := by
  induction es with
  | nil => rfl
  | cons e es ih =>
    simp only [List.map_cons, writeMapEntries, writeMapEntry, WVal.serialize, Res.bind_ok]
    rw [ih (fun x hx => h x (by simp [hx])), Res.bind_ok]

/-- The type of a value of a supported type. -/
def Spec.typeOfScal (v : Scal) : Bytes :=
  match v.ty with
  | some T => Spec.typeField T
  | none => []

/-- C54, requests: a map of single values is sent as one packet with exactly one write per entry, of its
type, with one element and its value. -/
theorem C54_writes_partial (seq : BitVec 16) (es : List (Ioi × Scal)) (h : ∀ e ∈ es, ∃ T, e.2.ty = some T)
    (msg : Bytes) (hm : writeMapBytes seq (es.map fun e => (e.1, WVal.one e.2)) = .ok msg)
    (h16 : msg.length < 65536) :
    msg.take 8 = le 2 seq.toNat ++ [0x0A#8, 0x02#8, 0x20#8, 0x02#8, 0x24#8, 0x01#8] ∧
    Spec.Packet (msg.drop 8)
      (es.map fun e => Spec.writeService e.1.buffer (Spec.typeOfScal e.2) 1 e.2.encode) := by
  unfold writeMapBytes at hm
  rw [writeMapEntries_ok es h, Res.bind_ok] at hm
  simp only [Res.ok.injEq] at hm
  subst hm
  have hp := C24_packet seq _ h16
  refine ⟨hp.1, ?_⟩
  have e : (es.map fun e => Spec.writeService e.1.buffer (Spec.typeOfScal e.2) 1 e.2.encode) =
      es.map fun e => [0x4D#8, BitVec.ofNat 8 (e.1.buffer.length / 2)] ++ e.1.buffer ++
        writeFooter (WVal.one e.2).cipType 1#16 ++ e.2.encode := by
    apply List.map_congr_left
    intro x hx
    obtain ⟨T, hT⟩ := h x hx
    simp only [Spec.typeOfScal, WVal.cipType, hT, footer_eq, Spec.writeService]
    simp
  rw [e]
  exact hp.2

/-- C54, every map of single values can be sent. -/
theorem C54_total (seq : BitVec 16) (es : List (Ioi × Scal)) (h : ∀ e ∈ es, ∃ T, e.2.ty = some T) :
    (writeMapBytes seq (es.map fun e => (e.1, WVal.one e.2))).isOk = true := by
  unfold writeMapBytes
  rw [writeMapEntries_ok es h]
  rfl

/-- C54 fails for slices: all elements are sent, announced as one. -/
theorem C54_slice_announced_as_one (ioi : Ioi) (T : GoTy) (hT : T ≠ .bool) (hs : T ≠ .str) (vs : List Scal) :
    writeMapEntry ioi (.many T vs) =
      .ok (Spec.writeService ioi.buffer (Spec.typeField T) 1 (vs.map Scal.encode).flatten) := by
  simp only [writeMapEntry, WVal.serialize, hs, if_false, Res.bind_ok, WVal.cipType, hT, footer_eq,
    Spec.writeService]
  simp

/-- C54 fails for failures: whatever the reply, the call succeeds. -/
theorem C54_rejection_ignored (r : Reply) (s : Byte) (_h : Spec.CarriesStatus r s) (_h0 : s ≠ 0#8) :
    writeMapReply r = .ok () := rfl

example : (writeMapBytes 9#16 [(exIoi, .one (.i32 7)), (exIoi, .one (.bool true))]).isOk = true ∧
    writeMapEntry exIoi (.many .i16 [.i16 1, .i16 2]) =
      .ok (Spec.writeService exIoi.buffer [0xC3#8, 0#8] 1 [1#8, 0#8, 2#8, 0#8]) := by decide

/-- The hypotheses of `C57_values_shift` can be met. -/
example : countFit 20 [exTag, exTag] = 1 ∧ exTag.entry.length + 6 ≤ 20 := by decide +kernel

/-- Arbitrary bytes as replies: no crash, but for writes without items. -/
example : (readSingle exIoi tDINT 3#16 [⟨0, [1#8, 2#8, 3#8]⟩]).1.safe ∧ writeReply ⟨0, [1#8, 2#8]⟩ = .err .eof := by
  decide +kernel

end Gologix
