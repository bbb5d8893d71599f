import Verif.Model.Read
import Verif.Model.Write
import Verif.Model.Multi
import Verif.Spec.Listing
import Verif.Lemmas.Read
import Verif.Lemmas.Multi
import Verif.Props.Listing

/-! # C77: a reply is taken only for the request it answers

A reply on a connection carries in its second item the sequence count of the request and the service asked for with
the response bit.  `GenericCIPMessage` compares the service; nothing else compares anything. -/

set_option linter.unusedSimpArgs false

namespace Gologix

theorem form_header (f : Spec.CForm) (body : Bytes) :
    readN 6 (f.payload body) = .ok (le 4 f.iface.toNat ++ le 2 f.timeout.toNat, Spec.cpf (f.items body)) ∧
    afterHeader (f.payload body) = Spec.cpf (f.items body) ∧
    (if (f.payload body).length < 6 then [] else (f.payload body).drop 6) = Spec.cpf (f.items body) := by
  have h : f.payload body = (le 4 f.iface.toNat ++ le 2 f.timeout.toNat) ++ Spec.cpf (f.items body) := by
    simp [Spec.CForm.payload]
  have hd : (if (f.payload body).length < 6 then [] else (f.payload body).drop 6) = Spec.cpf (f.items body) := by
    rw [h, if_neg (by simp; omega), List.drop_left' (by simp)]
  exact ⟨by rw [h]; exact readN_append' (by simp), hd, hd⟩

theorem form_item1 (f : Spec.CForm) (body : Bytes) (hf : f.fits body) :
    item1 (Spec.cpf (f.items body)) = .ok (le 2 f.seq.toNat ++ body) := by
  have hr := readItems_cpf _ [] hf.1 hf.2
  rw [List.append_nil] at hr
  unfold item1
  rw [hr, Res.bind_ok]
  rfl

theorem form_second (f : Spec.CForm) (body : Bytes) (hf : f.fits body) :
    secondOfTwo (Spec.cpf (f.items body)) =
      if f.more = [] then .ok (le 2 f.seq.toNat ++ body) else .err .fail := by
  have hr := readItems_cpf _ [] hf.1 hf.2
  rw [List.append_nil] at hr
  unfold secondOfTwo
  rw [hr, Res.bind_ok]
  cases hm : f.more <;> simp [Spec.CForm.items, hm]

theorem getU_two (a b : Byte) (r : Bytes) : getU 2 (a :: b :: r) = .ok (a.toNat + 256 * b.toNat, r) := by
  simp [getU, unle]

theorem byte_of_word (a b : Byte) : BitVec.ofNat 8 (a.toNat + 256 * b.toNat) = a := by
  apply BitVec.eq_of_toNat_eq
  rw [BitVec.toNat_ofNat]
  have := a.isLt
  omega

/-- C77 for `GenericCIPMessage`: whatever else the reply says, it is an error unless its service is the one asked
for. -/
theorem C77_generic_partial (svc s reserved : Byte) (f : Spec.CForm) (st : BitVec 32) (rest : Bytes)
    (hf : f.fits ([s, reserved] ++ rest)) (hs : s.toNat % 128 ≠ svc.toNat) :
    genericReply svc ⟨st, f.payload ([s, reserved] ++ rest)⟩ = .err .fail := by
  unfold genericReply
  rw [(form_header f _).1, Res.bind_ok]
  simp only
  rw [form_item1 f _ hf, Res.bind_ok, getU_le, Res.bind_ok]
  simp only [List.cons_append, List.nil_append]
  rw [getU_two, Res.bind_ok]
  simp only
  rw [byte_of_word, if_pos]
  intro h
  apply hs
  rw [← h, BitVec.toNat_and]
  exact (Nat.and_two_pow_sub_one_eq_mod s.toNat 7).symm

/-- Nothing shorter is taken for an answer either. -/
theorem C77_generic_short (svc : Byte) (f : Spec.CForm) (st : BitVec 32) (body : Bytes) (hf : f.fits body)
    (h : body.length < 4) : (genericReply svc ⟨st, f.payload body⟩).isErr = true := by
  unfold genericReply
  rw [(form_header f _).1, Res.bind_ok]
  simp only
  rw [form_item1 f _ hf, Res.bind_ok, getU_le, Res.bind_ok]
  simp only
  match body, h with
  | [], _ => rfl
  | [a], _ => rfl
  | [a, b], _ =>
    rw [getU_two, Res.bind_ok]
    simp only
    split <;> rfl
  | [a, b, c], _ =>
    rw [getU_two, Res.bind_ok]
    simp only
    split <;> rfl

/-- C77 is false for the response bit: a request sent back is taken for its own answer. -/
theorem C77_echo_accepted (svc reserved : Byte) (hs : svc.toNat < 128) (f : Spec.CForm) (st : BitVec 32) (d : Bytes)
    (hf : f.fits ([svc, reserved, 0#8, 0#8] ++ d)) :
    genericReply svc ⟨st, f.payload ([svc, reserved, 0#8, 0#8] ++ d)⟩ = .ok d := by
  unfold genericReply
  rw [(form_header f _).1, Res.bind_ok]
  simp only
  rw [form_item1 f _ hf, Res.bind_ok, getU_le, Res.bind_ok]
  simp only [List.cons_append, List.nil_append]
  rw [getU_two, Res.bind_ok]
  simp only
  rw [byte_of_word, show svc &&& 0x7F#8 = svc by clear hf; revert hs; revert svc; decide +kernel, if_neg (by simp), getU_two,
    Res.bind_ok]
  simp

/-- C77 is false for the sequence count: no reply is compared with the count of its request. -/
theorem C77_sequence_ignored (svc : Byte) (f : Spec.CForm) (seq' : BitVec 16) (st : BitVec 32) (body : Bytes)
    (hf : f.fits body) : genericReply svc ⟨st, { f with seq := seq' }.payload body⟩ = genericReply svc ⟨st, f.payload body⟩ := by
  have hf' : ({ f with seq := seq' } : Spec.CForm).fits body := by
    refine ⟨by simpa [Spec.CForm.items] using hf.1, fun x hx => ?_⟩
    simp only [Spec.CForm.items, List.mem_cons] at hx
    rcases hx with rfl | rfl | hx
    · exact hf.2 _ (by simp [Spec.CForm.items])
    · have := hf.2 (f.id, le 2 f.seq.toNat ++ body) (by simp [Spec.CForm.items])
      simpa using this
    · exact hf.2 _ (by simp [Spec.CForm.items, hx])
  unfold genericReply
  rw [(form_header f _).1, (form_header _ _).1, Res.bind_ok, Res.bind_ok]
  simp only
  rw [form_item1 f _ hf, form_item1 _ _ hf', Res.bind_ok, Res.bind_ok, getU_le, getU_le, Res.bind_ok, Res.bind_ok]

theorem readHdr_two (a b a' b' s s' : Byte) (rest : Bytes) :
    (∃ hd hd' d, readHdr (a :: b :: s :: rest) = .ok (hd, d) ∧ readHdr (a' :: b' :: s' :: rest) = .ok (hd', d) ∧
      hd.status = hd'.status ∧ hd.typ = hd'.typ) ∨
    (∃ e, readHdr (a :: b :: s :: rest) = .err e ∧ readHdr (a' :: b' :: s' :: rest) = .err e) := by
  by_cases h : rest.length < 5
  · right
    refine ⟨.unexpectedEof, ?_, ?_⟩ <;>
      (unfold readHdr readN; rw [if_neg (by simp), if_neg (by simp), if_pos (by simp; omega)]; rfl)
  · left
    match rest, h with
    | r0 :: r1 :: r2 :: r3 :: r4 :: rest, _ =>
      refine ⟨⟨s, r1, r3⟩, ⟨s', r1, r3⟩, rest, ?_, ?_, rfl, rfl⟩ <;>
        (unfold readHdr readN; rw [if_neg (by simp), if_neg (by simp), if_neg (by simp)]; rfl)
    | [], h => simp at h
    | [_], h => simp at h
    | [_, _], h => simp at h
    | [_, _, _], h => simp at h
    | [_, _, _, _], h => simp at h

theorem readN_six (a b a' b' s s' : Byte) (rest : Bytes) :
    (∃ r0 r1 r2 d, readN 6 (a :: b :: s :: rest) = .ok ([a, b, s, r0, r1, r2], d) ∧
      readN 6 (a' :: b' :: s' :: rest) = .ok ([a', b', s', r0, r1, r2], d)) ∨
    (∃ e, readN 6 (a :: b :: s :: rest) = .err e ∧ readN 6 (a' :: b' :: s' :: rest) = .err e) := by
  by_cases h : rest.length < 3
  · right
    refine ⟨.unexpectedEof, ?_, ?_⟩ <;>
      (unfold readN; rw [if_neg (by simp), if_neg (by simp), if_pos (by simp; omega)])
  · left
    match rest, h with
    | r0 :: r1 :: r2 :: rest, _ =>
      refine ⟨r0, r1, r2, rest, ?_, ?_⟩ <;>
        (unfold readN; rw [if_neg (by simp), if_neg (by simp), if_neg (by simp)]; rfl)
    | [], h => simp at h
    | [_], h => simp at h
    | [_, _], h => simp at h

/-- C77 is false for reads: neither the sequence count nor the service of the reply is looked at, so the answer to
anything else is taken for the value. -/
theorem C77_read_ignored (ioi : Ioi) (datatype : Byte) (elements : BitVec 16) (f : Spec.CForm) (seq' : BitVec 16)
    (st : BitVec 32) (s s' : Byte) (rest : Bytes) (replies : List Reply)
    (hf : f.fits (s :: rest)) (hf' : ({ f with seq := seq' } : Spec.CForm).fits (s' :: rest)) :
    readSingle ioi datatype elements (⟨st, f.payload (s :: rest)⟩ :: replies) =
      readSingle ioi datatype elements (⟨st, { f with seq := seq' }.payload (s' :: rest)⟩ :: replies) := by
  unfold readSingle replyItem
  simp only
  rw [(form_header f _).2.2, (form_header _ _).2.2, form_second f _ hf, form_second _ _ hf']
  simp only
  by_cases hm : f.more = []
  · rw [if_pos hm, if_pos hm, Res.bind_ok, Res.bind_ok]
    obtain ⟨a, b, hab⟩ := le_two_cons f.seq.toNat
    obtain ⟨a', b', hab'⟩ := le_two_cons seq'.toNat
    rw [hab, hab']
    rcases readHdr_two a b a' b' s s' rest with ⟨hd, hd', d, h1, h2, h3, h4⟩ | ⟨e, h1, h2⟩
    · simp only [List.cons_append, List.nil_append]
      rw [h1, h2]
      simp only [h3, h4]
    · simp only [List.cons_append, List.nil_append]
      rw [h1, h2]
  · rw [if_neg hm, if_neg hm]

/-- C77 is false for writes in the same way. -/
theorem C77_write_ignored (f : Spec.CForm) (seq' : BitVec 16) (st : BitVec 32) (s s' : Byte) (rest : Bytes)
    (hf : f.fits (s :: rest)) (hf' : ({ f with seq := seq' } : Spec.CForm).fits (s' :: rest)) :
    writeReply ⟨st, f.payload (s :: rest)⟩ = writeReply ⟨st, { f with seq := seq' }.payload (s' :: rest)⟩ := by
  unfold writeReply
  simp only
  rw [(form_header f _).2.1, (form_header _ _).2.1, form_item1 f _ hf, form_item1 _ _ hf', Res.bind_ok, Res.bind_ok]
  obtain ⟨a, b, hab⟩ := le_two_cons f.seq.toNat
  obtain ⟨a', b', hab'⟩ := le_two_cons seq'.toNat
  simp only [hab, hab', List.cons_append, List.nil_append]
  rcases readN_six a b a' b' s s' rest with ⟨r0, r1, r2, d, h1, h2⟩ | ⟨e, h1, h2⟩
  · rw [h1, h2, Res.bind_ok, Res.bind_ok]
    rfl
  · rw [h1, h2]

/-- C77 is false for the attribute requests in the same way. -/
theorem C77_attributes_ignored (f : Spec.CForm) (seq' : BitVec 16) (st : BitVec 32) (s s' : Byte) (rest : Bytes)
    (hf : f.fits (s :: rest)) (hf' : ({ f with seq := seq' } : Spec.CForm).fits (s' :: rest)) :
    getAttrSingleReply ⟨st, f.payload (s :: rest)⟩ =
      getAttrSingleReply ⟨st, { f with seq := seq' }.payload (s' :: rest)⟩ ∧
    getAttrListReply ⟨st, f.payload (s :: rest)⟩ =
      getAttrListReply ⟨st, { f with seq := seq' }.payload (s' :: rest)⟩ := by
  unfold getAttrSingleReply getAttrListReply
  simp only
  rw [(form_header f _).2.1, (form_header _ _).2.1, (form_header f _).1, (form_header _ _).1, Res.bind_ok, Res.bind_ok]
  simp only
  rw [form_item1 f _ hf, form_item1 _ _ hf', Res.bind_ok, Res.bind_ok, Res.bind_ok, Res.bind_ok]
  obtain ⟨a, b, hab⟩ := le_two_cons f.seq.toNat
  obtain ⟨a', b', hab'⟩ := le_two_cons seq'.toNat
  simp only [hab, hab', List.cons_append, List.nil_append]
  rcases readN_six a b a' b' s s' rest with ⟨r0, r1, r2, d, h1, h2⟩ | ⟨e, h1, h2⟩
  · rw [h1, h2]
    exact ⟨rfl, rfl⟩
  · rw [h1, h2]
    exact ⟨rfl, rfl⟩

/-- C77 is false for the embedded replies of a multi-tag read: any service with the response bit is taken, and one
without it is refused. -/
theorem C77_multi_ignored (t : MTag) (pre rest : Bytes) (off : BitVec 16) (ho : pre.length = (off + 10#16).toNat)
    (s s' : Byte) (hs : 128 ≤ s.toNat) :
    (128 ≤ s'.toNat → multiEntry (some t) (pre ++ s :: rest) off = multiEntry (some t) (pre ++ s' :: rest) off) ∧
    (s'.toNat < 128 → (multiEntry (some t) (pre ++ s' :: rest) off).isErr = true) := by
  have bit : ∀ b : Byte, (b &&& 0x80#8 = 0#8) ↔ b.toNat < 128 := by decide +kernel
  have hd : ∀ b : Byte, (pre ++ b :: rest).drop (off + 10#16).toNat = b :: rest := fun b => List.drop_left' ho
  unfold multiEntry
  simp only [hd]
  have hl : ∀ b : Byte, ¬ (pre ++ b :: rest).length < (off + 10#16).toNat := by
    intro b; rw [← ho]; simp
  rw [if_neg (hl s), if_neg (hl s')]
  by_cases h : rest.length < 5
  · have hr : ∀ b : Byte, readN 6 (b :: rest) = .err .unexpectedEof := by
      intro b
      unfold readN; rw [if_neg (by simp), if_neg (by simp), if_pos (by simp; omega)]
    rw [hr, hr]
    exact ⟨fun _ => rfl, fun _ => rfl⟩
  · match rest, h with
    | r0 :: r1 :: r2 :: r3 :: r4 :: rest, _ =>
      have hr : ∀ b : Byte, readN 6 (b :: r0 :: r1 :: r2 :: r3 :: r4 :: rest) = .ok ([b, r0, r1, r2, r3, r4], rest) := by
        intro b
        unfold readN; rw [if_neg (by simp), if_neg (by simp), if_neg (by simp)]; rfl
      rw [hr, hr, Res.bind_ok, Res.bind_ok]
      simp only
      constructor
      · intro h'
        have h0 : ∀ b : Byte, 128 ≤ b.toNat → ¬ ([b, r0, r1, r2, r3, r4].getD 0 0#8 &&& 0x80#8 = 0#8) := by
          intro b hb
          simp only [List.getD_cons_zero]; rw [bit]; omega
        rw [if_neg (h0 s hs), if_neg (h0 s' h')]
        rfl
      · intro h'
        rw [if_pos (by simp only [List.getD_cons_zero]; rw [bit]; omega)]
        rfl
    | [], h => simp at h
    | [_], h => simp at h
    | [_, _], h => simp at h
    | [_, _, _], h => simp at h
    | [_, _, _, _], h => simp at h

/-- The answer to a write of another tag, with another sequence count, taken for the value of a DINT; and the same
bytes refused by `GenericCIPMessage`. -/
def exServiceForm : Spec.CForm := ⟨0, 0, (0xA1, []), 0xB1, 7, []⟩

example : (readSingle ⟨str "A", 0xC4#8, false, 0, [0x91#8, 1#8, 0x41#8, 0#8]⟩ 0xC4#8 1
      [⟨0, exServiceForm.payload [0xCD#8, 0#8, 0#8, 0#8, 0xC4#8, 0#8, 5#8, 0#8, 0#8, 0#8]⟩]).1 = .ok (.one (.i32 5)) ∧
    genericReply 0x4C#8 ⟨0, exServiceForm.payload [0xCD#8, 0#8, 0#8, 0#8, 0xC4#8, 0#8, 5#8, 0#8, 0#8, 0#8]⟩ = .err .fail := by
  decide +kernel

end Gologix
