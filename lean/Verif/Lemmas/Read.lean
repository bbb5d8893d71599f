import Verif.Spec.Read
import Verif.Props.Wire
import Verif.Props.Values
namespace Gologix

theorem item_bytes (id : BitVec 16) (d : Bytes) :
    Spec.item id d = ({ id, length := BitVec.ofNat 16 d.length, data := d, pos := 0 } : Item).bytes := by
  simp only [Spec.item, Item.bytes, putBV_ofNat16, List.append_assoc]
  rfl

/-- Reading a packet of the published layout. -/
theorem readItems_cpf (xs : List (BitVec 16 × Bytes)) (rest : Bytes) (hn : xs.length < 65536)
    (hd : ∀ x ∈ xs, x.2.length < 65536) :
    readItems (Spec.cpf xs ++ rest) =
      .ok (xs.map fun x => { id := x.1, length := BitVec.ofNat 16 x.2.length, data := x.2, pos := 0 },
        rest) := by
  let its : List Item :=
    xs.map fun x => { id := x.1, length := BitVec.ofNat 16 x.2.length, data := x.2, pos := 0 }
  have hlen : its.length = xs.length := by simp [its]
  have e : (xs.map fun i => Spec.item i.1 i.2) = its.map Item.bytes := by
    simp [its, item_bytes]
  unfold readItems Spec.cpf
  rw [e, ← putBV_ofNat16, List.append_assoc, readU16, Res.bind_ok]
  show readItemsN (BitVec.ofNat 16 xs.length).toNat _ = _
  have : (BitVec.ofNat 16 xs.length).toNat = its.length := by
    simp [hlen]; omega
  rw [this, readItemsN_bytes its rest]
  · congr 2
    simp [its]
  · intro it hit
    simp [its] at hit
    obtain ⟨a, b, hab, rfl⟩ := hit
    exact ⟨rfl, hd _ hab⟩

theorem secondOfTwo_cpf (i0 i1 : BitVec 16) (d0 d1 : Bytes) (h0 : d0.length < 65536)
    (h1 : d1.length < 65536) : secondOfTwo (Spec.cpf [(i0, d0), (i1, d1)]) = .ok d1 := by
  have := readItems_cpf [(i0, d0), (i1, d1)] [] (by simp) (by simp [h0, h1])
  rw [List.append_nil] at this
  unfold secondOfTwo
  rw [this]
  rfl

theorem body_length (f : Spec.ReplyForm) (s t : Byte) (d : Bytes) :
    (f.body s t d).length = d.length + 8 := by
  simp [Spec.ReplyForm.body]; omega

theorem payload_drop (f : Spec.ReplyForm) (s t : Byte) (d : Bytes) :
    readN 6 (f.payload s t d) =
      .ok (le 4 f.iface.toNat ++ le 2 f.timeout.toNat, Spec.cpf [(f.id0, f.address), (f.id1, f.body s t d)]) := by
  unfold Spec.ReplyForm.payload
  rw [← List.append_assoc]
  exact readN_append' (by simp)

theorem replyItem_payload (f : Spec.ReplyForm) (s t : Byte) (d : Bytes) (h : f.fits d) :
    replyItem (f.payload s t d) = .ok (f.body s t d) := by
  have e := payload_drop f s t d
  obtain ⟨hl, hp⟩ := readN_ok e
  have h6 : ¬ (f.payload s t d).length < 6 := by
    rw [hp, List.length_append, hl]; omega
  unfold replyItem
  rw [if_neg h6, hp, ← hl, List.drop_left]
  exact secondOfTwo_cpf _ _ _ _ h.1 (by rw [body_length]; exact h.2)

theorem readHdr_body (f : Spec.ReplyForm) (s t : Byte) (d : Bytes) :
    readHdr (f.body s t d) = .ok (⟨f.service, s, t⟩, d) := by
  unfold readHdr Spec.ReplyForm.body
  rw [← List.append_assoc, readN_append' (by simp)]
  simp [le]

theorem readSingle_hdr (f : Spec.ReplyForm) (s t : Byte) (d : Bytes) (h : f.fits d) :
    (do let d ← replyItem (f.payload s t d); readHdr d) = .ok (⟨f.service, s, t⟩, d) := by
  rw [replyItem_payload f s t d h, Res.bind_ok, readHdr_body]

theorem fragReply_payload (f : Spec.ReplyForm) (s t : Byte) (d : Bytes) (h : f.fits d) :
    fragReply (f.payload s t d) = .ok (d, s) := by
  unfold fragReply
  rw [payload_drop, Res.bind_ok]
  simp only []
  rw [secondOfTwo_cpf _ _ _ _ h.1 (by rw [body_length]; exact h.2), Res.bind_ok, readHdr_body,
    Res.bind_ok]

theorem take_drop_add {α : Type} (l : List α) (k n : Nat) :
    l.take k ++ (l.drop k).take n = l.take (k + n) := by
  rw [List.take_add]

/-- The fragment loop against truthful answers. -/
theorem readFragmented_answered (path : Bytes) (elements : BitVec 16) (typ : Byte) (content : Bytes)
    (hc : content.length < 2 ^ 32) (replies : List Reply) (k : Nat) (hk : k ≤ content.length)
    (h : Spec.AllAnswered typ content (readFragmented path elements replies (content.take k)).2.1 replies) :
    (readFragmented path elements replies (content.take k)).1 = .ok content := by
  induction replies generalizing k with
  | nil =>
    obtain ⟨r, hr, -⟩ := h 0 _ rfl
    simp at hr
  | cons r rs ih =>
    have hl : (content.take k).length = k := by rw [List.length_take]; omega
    have hreq : (readFragmented path elements (r :: rs) (content.take k)).2.1[0]? =
        some ⟨path, elements, some (BitVec.ofNat 32 k)⟩ := by
      rw [readFragmented, hl]
      split <;> try rfl
      split
      · rfl
      · split <;> rfl
    obtain ⟨r', hr', f, n, hfit, hp⟩ := h 0 _ hreq
    simp only [List.getElem?_cons_zero, Option.some.injEq] at hr'
    subst hr'
    have hoff : Spec.offsetOf ⟨path, elements, some (BitVec.ofNat 32 k)⟩ = k := by
      have : k < 2 ^ 32 := Nat.lt_of_le_of_lt hk hc
      simp [Spec.offsetOf, Nat.mod_eq_of_lt this]
    simp only [hoff] at hp hfit
    have hfr := fragReply_payload f (if content.length ≤ k + n then 0#8 else 6#8) typ
      ((content.drop k).take n) hfit
    rw [← hp] at hfr
    by_cases hend : content.length ≤ k + n
    · rw [if_pos hend] at hfr
      simp only [readFragmented, hfr, if_true]
      rw [take_drop_add, List.take_of_length_le hend]
    · rw [if_neg hend] at hfr
      have step : readFragmented path elements (r :: rs) (content.take k) =
          ((readFragmented path elements rs (content.take (k + n))).1,
           ⟨path, elements, some (BitVec.ofNat 32 k)⟩ ::
             (readFragmented path elements rs (content.take (k + n))).2.1,
           (readFragmented path elements rs (content.take (k + n))).2.2) := by
        rw [readFragmented, hfr]
        simp only [take_drop_add, hl]
        rfl
      rw [step]
      apply ih (k + n) (by omega)
      intro i req hi
      rw [step] at h
      have := h (i + 1) req (by simpa using hi)
      simpa using this

/-- `Read_single` against truthful answers: the tag's whole image is decoded. -/
theorem readSingle_answered (ioi : Ioi) (dt : Byte) (elements : BitVec 16) (typ : Byte) (content : Bytes)
    (hc : content.length < 2 ^ 32) (ht : typ ≠ tStruct) (replies : List Reply)
    (h : Spec.AllAnswered typ content (readSingle ioi dt elements replies).2.1 replies) :
    (readSingle ioi dt elements replies).1 =
      decodeRead dt elements.toNat ioi.bitAccess ioi.bitPosition typ content := by
  cases replies with
  | nil =>
    obtain ⟨r, hr, -⟩ := h 0 _ rfl
    simp at hr
  | cons r rs =>
    have hreq : (readSingle ioi dt elements (r :: rs)).2.1[0]? = some ⟨ioi.buffer, elements, none⟩ := by
      simp only [readSingle]
      repeat' split
      all_goals rfl
    obtain ⟨r', hr', f, n, hfit, hp⟩ := h 0 _ hreq
    simp only [List.getElem?_cons_zero, Option.some.injEq] at hr'
    subst hr'
    simp only [Spec.offsetOf, List.drop_zero, Nat.zero_add] at hp hfit
    have hh := readSingle_hdr f (if content.length ≤ n then 0#8 else 6#8) typ (content.take n) hfit
    rw [← hp] at hh
    by_cases hend : content.length ≤ n
    · rw [if_pos hend] at hh
      simp only [readSingle, hh]
      rw [if_neg (by decide), if_neg (by decide), List.take_of_length_le hend]
    · rw [if_neg hend] at hh
      have step : (readSingle ioi dt elements (r :: rs)).2.1 =
          ⟨ioi.buffer, elements, none⟩ :: (readFragmented ioi.buffer elements rs (content.take n)).2.1 := by
        simp only [readSingle, hh, if_true, ht, if_false]
        split <;> simp_all
      have hf := readFragmented_answered ioi.buffer elements typ content hc rs n (by omega) (by
        intro i req hi
        rw [step] at h
        have := h (i + 1) req (by simpa using hi)
        simpa using this)
      simp only [readSingle, hh, if_true, ht, if_false]
      split <;> simp_all

theorem readTimes_values (t : Byte) (vs : List Scal) (rest : Bytes)
    (h : ∀ v ∈ vs, ∀ r, readValue t (v.encode ++ r) = .ok (v, r)) :
    readTimes (readValue t) vs.length ((vs.map Scal.encode).flatten ++ rest) = .ok vs := by
  induction vs with
  | nil => rfl
  | cons v vs ih =>
    simp only [List.map_cons, List.flatten_cons, List.append_assoc, List.length_cons, readTimes]
    rw [h v (by simp), Res.bind_ok]
    simp only []
    rw [ih (fun w hw => h w (by simp [hw])), Res.bind_ok]

theorem castElems_ok (T : GoTy) (hT : T ≠ .str) (vs : List Scal) (h : ∀ v ∈ vs, v.ty = some T) :
    castElems T vs = .ok vs := by
  induction vs with
  | nil => rfl
  | cons v vs ih =>
    have hv := h v (by simp)
    have : castElem T v = .ok v := by
      unfold castElem
      split
      · simp [Scal.ty] at hv
      · simp [hT, hv]
    rw [castElems, this, Res.bind_ok, ih (fun w hw => h w (by simp [hw])), Res.bind_ok]

end Gologix
