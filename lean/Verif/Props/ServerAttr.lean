import Verif.Spec.ServerAttr
import Verif.Props.ServerReply
import Verif.Props.ServerConn
import Verif.Props.Listing
import Verif.Props.Service
/-
C93: the attributes the server tells.
-/
set_option linter.unusedSimpArgs false

namespace Gologix.Server
open Gologix.Server.Spec M

/-! ### Requests -/

theorem serveStep_connected (C : Conv) (st : St) (k : BitVec 32) (seq : BitVec 16) (svc : Byte) (body : Bytes)
    (h : Connected st.inp k seq (svc :: body)) :
    ∃ st0 a, serveStep C st = unitService C a (le 2 seq.toNat ++ svc :: body) k svc body st0 ∧ st0.srv = st.srv ∧
      st0.sent = st.sent ∧ st0.h.seq = seq := by
  obtain ⟨r, rest, more, hr, hi, hcmd, hid, h0, h1⟩ := h
  refine ⟨{ st with inp := rest, h := { st.h with context := r.context, seq := seq } }, r.data0, ?_, rfl, rfl, rfl⟩
  rw [unit_request C st r hr rest hi hcmd hid k more h0 seq svc body h1, h1]

theorem classRead_short (x : Byte) (xs : Bytes) : classRead (0x20#8 :: x :: xs) = .ok (BitVec.ofNat 16 x.toNat, xs) := by
  unfold classRead
  rw [readBV_cons8, Res.bind_ok]
  simp only
  rw [if_pos (by rfl), readBV_cons8, Res.bind_ok]

theorem instanceRead_short (x : Byte) (xs : Bytes) :
    instanceRead (0x24#8 :: x :: xs) = .ok (BitVec.ofNat 32 x.toNat, xs) := by
  unfold instanceRead
  rw [readBV_cons8, Res.bind_ok]
  simp only
  rw [if_pos (by rfl), readBV_cons8, Res.bind_ok]

theorem attributeRead_short (x : Byte) (xs : Bytes) :
    attributeRead (0x30#8 :: x :: xs) = .ok (BitVec.ofNat 16 x.toNat, xs) := by
  unfold attributeRead
  rw [readBV_cons8, Res.bind_ok]
  simp only
  rw [if_pos (by rfl), readBV_cons8, Res.bind_ok]

theorem classRead_decode {d rest : Bytes} {v : Nat} (hh : d.head? ≠ some 0x22#8)
    (h : Gologix.Spec.decodeLogical d = some (.classId, v, rest)) :
    v < 65536 ∧ classRead d = .ok (BitVec.ofNat 16 v, rest) := by
  cases d with
  | nil => simp [Gologix.Spec.decodeLogical] at h
  | cons b bs =>
    unfold Gologix.Spec.decodeLogical at h
    simp only at h
    by_cases hb : b.toNat / 32 = 1
    · rw [if_neg (by simp [hb])] at h
      have hlt : ∀ n : Nat, n < 8 → Gologix.Spec.logicalType b = .classId → (b.toNat / 4) % 8 = 0 := by
        intro _ _ hc
        unfold Gologix.Spec.logicalType at hc
        have : (b.toNat / 4) % 8 < 8 := Nat.mod_lt _ (by decide)
        revert hc
        generalize (b.toNat / 4) % 8 = m at this
        intro hc
        match m, this with
        | 0, _ => rfl
        | 1, _ | 2, _ | 3, _ | 4, _ | 5, _ | 6, _ | 7, _ => simp at hc
      have hm : b.toNat % 4 < 4 := Nat.mod_lt _ (by decide)
      have hx : b.toNat % 4 ≠ 2 ∨ Gologix.Spec.logicalType b ≠ .classId := by
        by_cases hc : Gologix.Spec.logicalType b = .classId
        · left
          intro h2
          have := hlt 0 (by decide) hc
          apply hh
          simp only [List.head?_cons, Option.some.injEq]
          apply BitVec.eq_of_toNat_eq
          show b.toNat = 0x22
          omega
        · exact .inr hc
      generalize hmm : b.toNat % 4 = m at h hm hx
      match m, bs, h with
      | 0, x :: xs, h =>
        simp only [Option.some.injEq, Prod.mk.injEq] at h
        obtain ⟨hc, rfl, rfl⟩ := h
        have h0 := hlt 0 (by decide) hc
        have hb' : b = 0x20#8 := by apply BitVec.eq_of_toNat_eq; show b.toNat = 0x20; omega
        subst hb'
        refine ⟨by have := x.isLt; omega, ?_⟩
        exact classRead_short x xs
      | 1, p :: x :: y :: xs, h =>
        simp only [Option.some.injEq, Prod.mk.injEq] at h
        obtain ⟨hc, rfl, rfl⟩ := h
        have h0 := hlt 0 (by decide) hc
        have hb' : b = 0x21#8 := by apply BitVec.eq_of_toNat_eq; show b.toNat = 0x21; omega
        subst hb'
        refine ⟨by have := x.isLt; have := y.isLt; omega, ?_⟩
        unfold classRead
        rw [readBV_cons8]
        exact readBV16_cons x y xs
      | 2, p :: x :: y :: z :: w :: xs, h =>
        simp only [Option.some.injEq, Prod.mk.injEq] at h
        exact absurd h.1 (hx.resolve_left (by simp))
    · rw [if_pos hb] at h
      exact absurd h (by simp)

theorem readBV32_cons (x y z w : Byte) (xs : Bytes) : readBV 32 (x :: y :: z :: w :: xs) =
    .ok (BitVec.ofNat 32 (x.toNat + 256 * y.toNat + 65536 * z.toNat + 16777216 * w.toNat), xs) := by
  have : ¬ xs.length + 1 + 1 + 1 + 1 < 4 := by omega
  simp only [readBV, readLE, readN, List.length_cons, this, if_false, Res.bind_ok]
  simp only [List.take_succ_cons, List.take_zero, List.drop_succ_cons, List.drop_zero, unle, Res.bind_ok, Res.ok.injEq,
    Prod.mk.injEq, and_true, show ¬ (32 / 8 = 0) by decide, if_false, reduceCtorEq]
  apply congrArg (BitVec.ofNat 32)
  omega

theorem instanceRead_decode {d rest : Bytes} {v : Nat}
    (h : Gologix.Spec.decodeLogical d = some (.instanceId, v, rest)) :
    v < 2 ^ 32 ∧ instanceRead d = .ok (BitVec.ofNat 32 v, rest) := by
  cases d with
  | nil => simp [Gologix.Spec.decodeLogical] at h
  | cons b bs =>
    unfold Gologix.Spec.decodeLogical at h
    simp only at h
    by_cases hb : b.toNat / 32 = 1
    · rw [if_neg (by simp [hb])] at h
      have hlt : Gologix.Spec.logicalType b = .instanceId → (b.toNat / 4) % 8 = 1 := by
        intro hc
        unfold Gologix.Spec.logicalType at hc
        have : (b.toNat / 4) % 8 < 8 := Nat.mod_lt _ (by decide)
        revert hc
        generalize (b.toNat / 4) % 8 = m at this
        intro hc
        match m, this with
        | 1, _ => rfl
        | 0, _ | 2, _ | 3, _ | 4, _ | 5, _ | 6, _ | 7, _ => simp at hc
      have hm : b.toNat % 4 < 4 := Nat.mod_lt _ (by decide)
      generalize hmm : b.toNat % 4 = m at h hm
      match m, bs, h with
      | 0, x :: xs, h =>
        simp only [Option.some.injEq, Prod.mk.injEq] at h
        obtain ⟨hc, rfl, rfl⟩ := h
        have h0 := hlt hc
        have hb' : b = 0x24#8 := by apply BitVec.eq_of_toNat_eq; show b.toNat = 0x24; omega
        subst hb'
        refine ⟨by have := x.isLt; omega, ?_⟩
        exact instanceRead_short x xs
      | 1, p :: x :: y :: xs, h =>
        simp only [Option.some.injEq, Prod.mk.injEq] at h
        obtain ⟨hc, rfl, rfl⟩ := h
        have h0 := hlt hc
        have hb' : b = 0x25#8 := by apply BitVec.eq_of_toNat_eq; show b.toNat = 0x25; omega
        subst hb'
        have hx := x.isLt
        have hy := y.isLt
        refine ⟨by omega, ?_⟩
        unfold instanceRead
        rw [readBV_cons8]
        show (readBV 16 (x :: y :: xs) >>= fun q => Res.ok (BitVec.ofNat 32 q.1.toNat, q.2)) = _
        rw [readBV16_cons, Res.bind_ok]
        simp only [BitVec.toNat_ofNat]
        rw [Nat.mod_eq_of_lt (by omega)]
      | 2, p :: x :: y :: z :: w :: xs, h =>
        simp only [Option.some.injEq, Prod.mk.injEq] at h
        obtain ⟨hc, rfl, rfl⟩ := h
        have h0 := hlt hc
        have hb' : b = 0x26#8 := by apply BitVec.eq_of_toNat_eq; show b.toNat = 0x26; omega
        subst hb'
        have hx := x.isLt
        have hy := y.isLt
        have hz := z.isLt
        have hw := w.isLt
        refine ⟨by omega, ?_⟩
        unfold instanceRead
        rw [readBV_cons8]
        exact readBV32_cons x y z w xs
    · rw [if_pos hb] at h
      exact absurd h (by simp)

theorem parseClassInstance_path {cls inst : Nat} {path : Bytes} (h : ObjectPath cls inst path) :
    cls < 65536 ∧ inst < 2 ^ 32 ∧ parseClassInstance path = .ok (BitVec.ofNat 16 cls, BitVec.ofNat 32 inst) := by
  obtain ⟨rest, rest', hh, h1, h2⟩ := h
  have k1 := classRead_decode hh h1
  have k2 := instanceRead_decode h2
  refine ⟨k1.1, k2.1, ?_⟩
  unfold parseClassInstance
  rw [k1.2, Res.bind_ok]
  simp only
  rw [k2.2, Res.bind_ok]

/-! ### Replies -/

theorem rr_fields (h : Handler) (s status : Byte) (p : Bytes) :
    let f := frameOf h 0x6F#16 (serializeItems [Item.new 0x0#16, (Item.new 0xB2#16).write (resultHdr s status ++ p)])
    rrServiceOf f = some (s ||| 0x80#8) ∧ rrStatusOf f = some status ∧ rrAnswerOf f = p := by
  simp only [rrServiceOf, rrStatusOf, rrAnswerOf]
  rw [show (40 : Nat) = 24 + 16 from rfl, show (44 : Nat) = 24 + 20 from rfl,
    show (42 : Nat) = 24 + 18 from rfl, ← List.drop_drop, frameOf_drop, frameOf_get, frameOf_get, rr_payload]
  refine ⟨?_, ?_, ?_⟩ <;> simp [Gologix.Spec.cpf, Gologix.Spec.item, le, putBV, resultHdr]

/-- What answers a connected request: one frame, with its service, sequence count, status and data; the server stays as
it was and goes on. -/
def AnswersUnit (C : Conv) (st : St) (seq : BitVec 16) (service status : Byte) (data : Bytes) : Prop :=
  ∃ f, newFrames st (serveStep C st).2 = [f] ∧ serviceOf f = some (service ||| 0x80#8) ∧ seqOf f = le 2 seq.toNat ∧
    statusOf f = some status ∧ answerOf f = data ∧ (serveStep C st).1 = .ok () ∧ (serveStep C st).2.srv = st.srv

/-- The same for an unconnected request. -/
def AnswersRR (C : Conv) (st : St) (service status : Byte) (data : Bytes) : Prop :=
  ∃ f, newFrames st (serveStep C st).2 = [f] ∧ rrServiceOf f = some (service ||| 0x80#8) ∧
    rrStatusOf f = some status ∧ rrAnswerOf f = data ∧ (serveStep C st).1 = .ok () ∧ (serveStep C st).2.srv = st.srv

theorem answersUnit_of {C : Conv} {st st0 : St} {seq : BitVec 16} {conn : BitVec 32} {s status : Byte} {p : Bytes}
    (h : serveStep C st = sendUnit conn (putBV seq ++ resultHdr s status ++ p) st0) (hs : st0.srv = st.srv)
    (hn : st0.sent = st.sent) : AnswersUnit C st seq s status p := by
  have hu := unit_fields st0.h conn seq s status p
  have hv := unit_service st0.h conn (putBV seq) rfl s ([0#8, status, 0#8] ++ p)
  refine ⟨_, ?_, ?_, hu.2.1, hu.2.2.1, hu.2.2.2, by rw [h]; rfl, by rw [h]; exact hs⟩
  · rw [h]
    simp [newFrames, sendUnit, send, hn]
  · have := hv.2.2
    simpa [resultHdr] using this

theorem answersRR_of {C : Conv} {st st0 : St} {s status : Byte} {p : Bytes}
    (h : serveStep C st = sendUnconn s status p st0) (hs : st0.srv = st.srv)
    (hn : st0.sent = st.sent) : AnswersRR C st s status p := by
  have hu := rr_fields st0.h s status p
  refine ⟨_, ?_, hu.1, hu.2.1, hu.2.2, by rw [h]; rfl, by rw [h]; exact hs⟩
  rw [h]
  simp [newFrames, sendUnconn, sendRR, send, hn]

/-! ### All attributes -/

theorem identityAll_published {attrs : BitVec 16 → Option Scal} {d : Gologix.Spec.Device} (h : Publishes attrs d)
    (hn : d.name.length ≤ 255) : identityAll attrs = .ok (allAttributes d) := by
  obtain ⟨h1, h2, h3, h4, h5, h6, h7⟩ := h
  have hs : shortName d.name = d.name := List.take_of_length_le hn
  unfold identityAll
  rw [show attrs 1#16 = _ from h1, show attrs 2#16 = _ from h2, show attrs 3#16 = _ from h3,
    show attrs 4#16 = _ from h4, show attrs 5#16 = _ from h5, show attrs 6#16 = _ from h6,
    show attrs 7#16 = _ from h7]
  simp only [hs]
  simp [allAttributes, attrOf, List.range', shortString, putBV]

theorem programAll_published {attrs : BitVec 16 → Option Scal} {d : Gologix.Spec.Device} (h : Publishes attrs d)
    (hn : d.name.length ≤ 255) : programAll attrs = .ok (shortString d.name) := by
  have hs : shortName d.name = d.name := List.take_of_length_le hn
  unfold programAll
  rw [show attrs 7#16 = _ from h.2.2.2.2.2.2]
  simp [hs, shortString]

theorem attributesAll_cases {attrs : BitVec 16 → Option Scal} {d : Gologix.Spec.Device} (h : Publishes attrs d)
    (hn : d.name.length ≤ 255) {cls inst : Nat} (hc : cls < 65536) (hi : inst < 2 ^ 32) :
    attributesAll attrs (BitVec.ofNat 16 cls) (BitVec.ofNat 32 inst) = .ok
      (if cls = 1 ∧ inst = 1 then (0#8, allAttributes d)
        else if cls = 0x64 ∧ inst = 1 then (0#8, shortString d.name) else (0x05#8, [])) := by
  have e1 : BitVec.ofNat 16 cls = 1#16 ↔ cls = 1 := by
    rw [← BitVec.toNat_inj]; simp only [BitVec.toNat_ofNat]; omega
  have e2 : BitVec.ofNat 16 cls = 0x64#16 ↔ cls = 0x64 := by
    rw [← BitVec.toNat_inj]; simp only [BitVec.toNat_ofNat]; omega
  have e3 : BitVec.ofNat 32 inst = 1#32 ↔ inst = 1 := by
    rw [← BitVec.toNat_inj]; simp only [BitVec.toNat_ofNat]; omega
  unfold attributesAll
  simp only [e1, e2, e3, ne_eq]
  by_cases hi1 : inst = 1
  · by_cases h1 : cls = 1
    · simp only [h1, hi1, true_or, if_true, not_true_eq_false, if_false, and_self]
      rw [identityAll_published h hn, Res.bind_ok]
    · by_cases h2 : cls = 0x64
      · simp only [h2, hi1, or_true, if_true, not_true_eq_false, if_false, and_self,
          show (0x64 : Nat) ≠ 1 by decide, false_and]
        rw [programAll_published h hn, Res.bind_ok]
      · simp [h1, h2]
  · by_cases h1 : cls = 1 ∨ cls = 0x64
    · simp [h1, hi1]
    · simp [h1, hi1]

theorem connectedAll_run {cls inst : Nat} {svc : Byte} {body : Bytes} (h : AsksAll cls inst (svc :: body)) (seq : BitVec 16)
    (st : St) : cls < 65536 ∧ inst < 2 ^ 32 ∧ svc = 0x01#8 ∧
      connectedGetAttributeAll (le 2 seq.toNat ++ svc :: body) st =
        (look (fun st => attributesAll st.srv.attrs (BitVec.ofNat 16 cls) (BitVec.ofNat 32 inst)) >>= fun x =>
          sendUnitData 0x01#8 x.1 x.2) st := by
  obtain ⟨n, path, more, hd, hl, hp⟩ := h
  obtain ⟨h1, h2, h3⟩ := parseClassInstance_path hp
  cases hd
  refine ⟨h1, h2, rfl, ?_⟩
  unfold connectedGetAttributeAll
  rw [getU_le, lift_ok_bind]
  simp only
  rw [getU_one, lift_ok_bind]
  simp only
  rw [getU_one, lift_ok_bind]
  simp only
  rw [show n.toNat * 2 = path.length by omega, readN_append, lift_ok_bind]
  simp only [h3]

/-- C93, all attributes, on a connection: the identity object gives all its attributes, the program object the name,
any other object an error status. -/
theorem C93_all (C : Conv) (st : St) (d : Gologix.Spec.Device) (hp : Publishes st.srv.attrs d)
    (hn : d.name.length ≤ 255) (k : BitVec 32) (seq : BitVec 16) (q : Bytes) (hq : Connected st.inp k seq q)
    (cls inst : Nat) (ha : AsksAll cls inst q) :
    AnswersUnit C st seq 0x01#8 (if (cls = 1 ∨ cls = 0x64) ∧ inst = 1 then 0#8 else 0x05#8)
      (if cls = 1 ∧ inst = 1 then allAttributes d else if cls = 0x64 ∧ inst = 1 then shortString d.name else []) := by
  cases q with
  | nil => obtain ⟨n, p, m, hd, -⟩ := ha; cases hd
  | cons svc body =>
    obtain ⟨st0, a, hs, h1, h2, h3⟩ := serveStep_connected C st k seq svc body hq
    obtain ⟨hc, hi, rfl, hrun⟩ := connectedAll_run ha seq st0
    have hs' : serveStep C st = connectedGetAttributeAll (le 2 seq.toNat ++ 0x01#8 :: body) st0 := by
      rw [hs]; rfl
    rw [hrun, bind_def] at hs'
    simp only [look] at hs'
    rw [h1, attributesAll_cases hp hn hc hi] at hs'
    simp only at hs'
    rw [show (if cls = 1 ∧ inst = 1 then (0#8, allAttributes d)
        else if cls = 0x64 ∧ inst = 1 then (0#8, shortString d.name) else (0x05#8, [])) =
        ((if (cls = 1 ∨ cls = 0x64) ∧ inst = 1 then 0#8 else 0x05#8),
        (if cls = 1 ∧ inst = 1 then allAttributes d else if cls = 0x64 ∧ inst = 1 then shortString d.name else []))
        by
          by_cases i1 : inst = 1
          · by_cases c1 : cls = 1
            · simp [c1, i1]
            · by_cases c2 : cls = 0x64
              · simp [c2, i1]
              · simp [c1, c2]
          · simp [i1]] at hs'
    refine answersUnit_of (conn := st0.h.to) ?_ h1 h2
    rw [hs']
    simp only [sendUnitData, h3]

/-- C93, all attributes, outside a connection: the same answers. -/
theorem C93_all_unconnected (C : Conv) (st : St) (d : Gologix.Spec.Device) (hp : Publishes st.srv.attrs d)
    (hn : d.name.length ≤ 255) (q : Bytes) (hq : Unconnected st.inp q) (cls inst : Nat) (ha : AsksAll cls inst q) :
    AnswersRR C st 0x01#8 (if (cls = 1 ∨ cls = 0x64) ∧ inst = 1 then 0#8 else 0x05#8)
      (if cls = 1 ∧ inst = 1 then allAttributes d else if cls = 0x64 ∧ inst = 1 then shortString d.name else []) := by
  obtain ⟨st0, hs, h1, h2⟩ := serveStep_unconnected C st q hq
  obtain ⟨n, path, more, rfl, hl, hpath⟩ := ha
  obtain ⟨hc, hi, h3⟩ := parseClassInstance_path hpath
  have hs' : serveStep C st = unconnectedGetAttributeAll (n :: (path ++ more)) st0 := by
    rw [hs]
    unfold unconnectedData
    rw [readBV_cons8, lift_ok_bind]
    simp [show (0x01#8 : Byte) ≠ 0x54#8 by decide, show (0x01#8 : Byte) ≠ 0x5B#8 by decide,
      show (0x01#8 : Byte) ≠ 0x4E#8 by decide]
  unfold unconnectedGetAttributeAll at hs'
  rw [readBV_cons8, lift_ok_bind] at hs'
  simp only at hs'
  rw [show n.toNat * 2 = path.length by omega, readN_append, lift_ok_bind] at hs'
  simp only [h3] at hs'
  rw [bind_def] at hs'
  simp only [look] at hs'
  rw [h1, attributesAll_cases hp hn hc hi] at hs'
  simp only at hs'
  refine answersRR_of (st0 := st0) ?_ h1 h2
  rw [hs']
  by_cases i1 : inst = 1
  · by_cases c1 : cls = 1
    · simp [c1, i1]
    · by_cases c2 : cls = 0x64
      · simp [c2, i1]
      · simp [c1, c2]
  · simp [i1]

/-! ### One attribute -/

theorem single_run (conn : BitVec 32) (c : Conn) (st : St) (hc : st.srv.conns.getByOT conn = .ok c) (seq : BitVec 16)
    (cls inst attr : Byte) (more : Bytes) :
    connectedGetAttr conn (le 2 seq.toNat ++ (askOne cls inst attr ++ more)) st =
      if cls = 1#8 ∧ inst = 1#8 then
        match st.srv.attrs (BitVec.ofNat 16 attr.toNat) with
        | some v => (lift (TVal.serialize (.scal v)) >>= fun b => sendConnected 0x52#8 seq c.to 0#8 b) st
        | none => (.err .fail, st)
      else (.err .fail, st) := by
  unfold connectedGetAttr
  rw [bind_def]
  simp only [getByOT, hc]
  rw [show readBV 16 (le 2 seq.toNat ++ (askOne cls inst attr ++ more)) = .ok (seq, askOne cls inst attr ++ more) from
    readU16 seq _, lift_ok_bind]
  simp only [askOne, List.cons_append, List.nil_append]
  rw [getU_one, lift_ok_bind]
  simp only
  rw [getU_one, lift_ok_bind]
  simp only [show (3#8 : Byte).toNat = 3 from rfl, ne_eq, not_true_eq_false, if_false]
  rw [show classRead (0x20#8 :: cls :: 0x24#8 :: inst :: 0x30#8 :: attr :: more) =
    .ok (BitVec.ofNat 16 cls.toNat, 0x24#8 :: inst :: 0x30#8 :: attr :: more) from classRead_short _ _, lift_ok_bind]
  simp only
  rw [show instanceRead (0x24#8 :: inst :: 0x30#8 :: attr :: more) =
    .ok (BitVec.ofNat 32 inst.toNat, 0x30#8 :: attr :: more) from instanceRead_short _ _, lift_ok_bind]
  simp only
  have e1 : BitVec.ofNat 16 cls.toNat = 1#16 ↔ cls = 1#8 := by
    rw [← BitVec.toNat_inj, ← BitVec.toNat_inj]; have := cls.isLt; simp only [BitVec.toNat_ofNat]; omega
  have e2 : BitVec.ofNat 32 inst.toNat = 1#32 ↔ inst = 1#8 := by
    rw [← BitVec.toNat_inj, ← BitVec.toNat_inj]; have := inst.isLt; simp only [BitVec.toNat_ofNat]; omega
  simp only [e1, e2]
  by_cases h : cls = 1#8 ∧ inst = 1#8
  · rw [if_neg (by simp [h]), if_pos h]
    rw [show attributeRead (0x30#8 :: attr :: more) = .ok (BitVec.ofNat 16 attr.toNat, more) from attributeRead_short _ _, lift_ok_bind]
    simp only
    rw [bind_def]
    simp only [look]
    cases st.srv.attrs (BitVec.ofNat 16 attr.toNat) <;> rfl
  · rw [if_pos (by rw [← Decidable.not_and_iff_not_or_not]; exact h), if_neg h]
    rfl

theorem attr_single_step (C : Conv) (st : St) (k : BitVec 32) (seq : BitVec 16) (cls inst attr : Byte) (more : Bytes)
    (hq : Connected st.inp k seq (askOne cls inst attr ++ more)) (c : Conn) (hc : st.srv.conns.getByOT k = .ok c) :
    ∃ st0, st0.srv = st.srv ∧ st0.sent = st.sent ∧ serveStep C st =
      if cls = 1#8 ∧ inst = 1#8 then
        match st.srv.attrs (BitVec.ofNat 16 attr.toNat) with
        | some v => (lift (TVal.serialize (.scal v)) >>= fun b => sendConnected 0x52#8 seq c.to 0#8 b) st0
        | none => (.err .fail, st0)
      else (.err .fail, st0) := by
  obtain ⟨st0, a, hs, h1, h2, h3⟩ := serveStep_connected C st k seq 0x0E#8
    ([3#8, 0x20#8, cls, 0x24#8, inst, 0x30#8, attr] ++ more) hq
  refine ⟨st0, h1, h2, ?_⟩
  rw [← h1] at hc ⊢
  rw [← single_run k c st0 hc seq cls inst attr more, hs]
  rfl

theorem attribute_number {attrs : BitVec 16 → Option Scal} {d : Gologix.Spec.Device} (h : Publishes attrs d)
    (a : Byte) (b : Bytes) (hb : attrOf d a.toNat = some b) (h7 : a ≠ 7#8) :
    ∃ v, attrs (BitVec.ofNat 16 a.toNat) = some v ∧ TVal.serialize (.scal v) = .ok b ∧
      TVal.cipType (.scal v) = if a = 6#8 then 0xC8#8 else 0xC3#8 := by
  obtain ⟨h1, h2, h3, h4, h5, h6, -⟩ := h
  have ha : a = 1#8 ∨ a = 2#8 ∨ a = 3#8 ∨ a = 4#8 ∨ a = 5#8 ∨ a = 6#8 := by
    have hlt : 1 ≤ a.toNat ∧ a.toNat ≤ 7 := by
      unfold attrOf at hb
      split at hb <;> first | omega | exact absurd hb (by simp)
    have h7' : a.toNat ≠ 7 := fun h => h7 (BitVec.eq_of_toNat_eq h)
    simp only [← BitVec.toNat_inj, BitVec.toNat_ofNat]
    omega
  rcases ha with rfl | rfl | rfl | rfl | rfl | rfl
  · exact ⟨_, h1, by cases hb; rfl, rfl⟩
  · exact ⟨_, h2, by cases hb; rfl, rfl⟩
  · exact ⟨_, h3, by cases hb; rfl, rfl⟩
  · exact ⟨_, h4, by cases hb; rfl, rfl⟩
  · exact ⟨_, h5, by cases hb; rfl, rfl⟩
  · exact ⟨_, h6, by cases hb; rfl, rfl⟩

/-- C93, one attribute, on a connection: every attribute but the name is given as published.  Missing: the name
(`C93_name`), the service code of the reply, which is that of a read instead of 0x8E, and objects and attributes that do
not exist (`C93_absent_silent`). -/
theorem C93_single_partial (C : Conv) (st : St) (d : Gologix.Spec.Device) (hp : Publishes st.srv.attrs d)
    (k : BitVec 32) (c : Conn) (hc : st.srv.conns.getByOT k = .ok c) (seq : BitVec 16) (a : Byte) (more : Bytes)
    (hq : Connected st.inp k seq (askOne 1#8 1#8 a ++ more)) (b : Bytes) (hb : attrOf d a.toNat = some b)
    (h7 : a ≠ 7#8) : AnswersUnit C st seq 0x52#8 0#8 b := by
  obtain ⟨st0, h1, h2, hs⟩ := attr_single_step C st k seq 1#8 1#8 a more hq c hc
  obtain ⟨v, hv, hser, -⟩ := attribute_number hp a b hb h7
  rw [if_pos ⟨rfl, rfl⟩, hv] at hs
  simp only at hs
  rw [hser, lift_ok_bind] at hs
  exact answersUnit_of (conn := c.to) hs h1 h2

/-- C93 is false for the name: it is given as a tag of type STRING would be, a 32-bit length and 84 characters, not as the
published SHORT_STRING. -/
theorem C93_name (C : Conv) (st : St) (d : Gologix.Spec.Device) (hp : Publishes st.srv.attrs d)
    (k : BitVec 32) (c : Conn) (hc : st.srv.conns.getByOT k = .ok c) (seq : BitVec 16) (more : Bytes)
    (hn : d.name.length ≤ 84) (hq : Connected st.inp k seq (askOne 1#8 1#8 7#8 ++ more)) :
    AnswersUnit C st seq 0x52#8 0#8 (le 4 d.name.length ++ d.name ++ List.replicate (84 - d.name.length) 0#8) ∧
      ¬ AnswersUnit C st seq 0x52#8 0#8 (shortString d.name) := by
  obtain ⟨st0, h1, h2, hs⟩ := attr_single_step C st k seq 1#8 1#8 7#8 more hq c hc
  rw [if_pos ⟨rfl, rfl⟩, show st.srv.attrs (BitVec.ofNat 16 (7#8 : Byte).toNat) = some (.str d.name) from hp.2.2.2.2.2.2] at hs
  simp only at hs
  rw [show TVal.serialize (.scal (.str d.name)) = .ok (stringBytes d.name) from rfl, lift_ok_bind] at hs
  have hx := answersUnit_of (conn := c.to) hs h1 h2
  have e : stringBytes d.name = le 4 d.name.length ++ d.name ++ List.replicate (84 - d.name.length) 0#8 := by
    unfold stringBytes putBV fitTo
    rw [List.take_of_length_le hn, BitVec.toNat_ofNat, Nat.mod_eq_of_lt (by omega)]
    simp
  rw [e] at hx
  refine ⟨hx, fun hy => ?_⟩
  obtain ⟨f, hf, -, -, -, ha, -⟩ := hx
  obtain ⟨g, hg, -, -, -, hb, -⟩ := hy
  rw [hf] at hg
  cases hg
  rw [ha] at hb
  have := congrArg List.length hb
  simp [shortString] at this
  omega

/-- C93 is false for objects and attributes that do not exist: nothing is sent and the server ends the session. -/
theorem C93_absent_silent (C : Conv) (st : St) (k : BitVec 32) (c : Conn) (hc : st.srv.conns.getByOT k = .ok c)
    (seq : BitVec 16) (cls inst a : Byte) (more : Bytes) (hq : Connected st.inp k seq (askOne cls inst a ++ more))
    (h : cls ≠ 1#8 ∨ inst ≠ 1#8 ∨ st.srv.attrs (BitVec.ofNat 16 a.toNat) = none) :
    newFrames st (serveStep C st).2 = [] ∧ (serveStep C st).1 = .err .fail := by
  obtain ⟨st0, h1, h2, hs⟩ := attr_single_step C st k seq cls inst a more hq c hc
  have : serveStep C st = (.err .fail, st0) := by
    rw [hs]
    by_cases hc : cls = 1#8 ∧ inst = 1#8
    · rw [if_pos hc, (h.resolve_left (by simp [hc.1])).resolve_left (by simp [hc.2])]
    · rw [if_neg hc]
  rw [this]
  exact ⟨by simp [newFrames, h2], rfl⟩

/-- C93, gologix's own client: it takes the attribute out of the reply as published. -/
theorem C93_client_partial (C : Conv) (st : St) (d : Gologix.Spec.Device) (hp : Publishes st.srv.attrs d)
    (k : BitVec 32) (c : Conn) (hc : st.srv.conns.getByOT k = .ok c) (seq : BitVec 16) (a : Byte) (more : Bytes)
    (hq : Connected st.inp k seq (askOne 1#8 1#8 a ++ more)) (b : Bytes) (hb : attrOf d a.toNat = some b)
    (h7 : a ≠ 7#8) :
    ∃ f, newFrames st (serveStep C st).2 = [f] ∧ ∀ s, getAttrSingleReply ⟨s, f.drop 24⟩ = .ok b := by
  obtain ⟨st0, h1, h2, hs⟩ := attr_single_step C st k seq 1#8 1#8 a more hq c hc
  obtain ⟨v, hv, hser, -⟩ := attribute_number hp a b hb h7
  rw [if_pos ⟨rfl, rfl⟩, hv] at hs
  simp only at hs
  rw [hser, lift_ok_bind] at hs
  refine ⟨_, by rw [hs]; simp [newFrames, sendConnected, sendUnit, send, h2]; rfl, fun s => ?_⟩
  have hlen : b.length ≤ 4 := by
    unfold attrOf at hb
    split at hb <;> first
      | exact absurd (BitVec.eq_of_toNat_eq (by assumption)) h7
      | (cases hb; simp)
      | cases hb
  have hx : (frameOf st0.h 0x70#16 (serializeItems [(Item.new 0xA1#16).write (putBV c.to),
      (Item.new 0xB1#16).write (putBV seq ++ (resultHdr 0x52#8 0#8 ++ b))])).drop 24 =
      Gologix.Spec.CForm.payload ⟨0#32, 0#16, (0xA1#16, putBV c.to), 0xB1#16, seq, []⟩ (resultHdr 0x52#8 0#8 ++ b) := by
    rw [frameOf_drop, unit_payload]
    unfold Gologix.Spec.CForm.payload
    simp only [Gologix.Spec.CForm.items]
    rw [← List.append_assoc (le 4 _) (le 2 _)]
    exact congrArg₂ (· ++ ·) (by decide) rfl
  rw [hx]
  unfold getAttrSingleReply
  rw [(form_header _ _).2.1, form_item1]
  · rw [Res.bind_ok]
    rfl
  · refine ⟨by simp [Gologix.Spec.CForm.items], ?_⟩
    intro x hx
    simp only [Gologix.Spec.CForm.items, List.mem_cons, List.not_mem_nil, or_false] at hx
    rcases hx with rfl | rfl
    · simp [putBV]
    · simp [resultHdr]; omega

theorem single_unconnected_run (C : Conv) (st : St) (cls inst attr : Byte) (more : Bytes)
    (hq : Unconnected st.inp (askOne cls inst attr ++ more)) (hcls : cls ≠ 0xC8#8) :
    ∃ st0, st0.srv = st.srv ∧ st0.sent = st.sent ∧ serveStep C st =
      if cls = 1#8 ∧ inst = 1#8 then
        match st.srv.attrs (BitVec.ofNat 16 attr.toNat) with
        | none => sendUnconn 0x0E#8 0x14#8 [] st0
        | some v => (lift (typedPayload (.scal v)) >>= fun b => sendUnconn 0x0E#8 0#8 b) st0
      else sendUnconn 0x0E#8 0x05#8 [] st0 := by
  obtain ⟨st0, hs, h1, h2⟩ := serveStep_unconnected C st _ hq
  refine ⟨st0, h1, h2, ?_⟩
  have hs' : serveStep C st = unconnectedGetAttrSingle ([3#8, 0x20#8, cls, 0x24#8, inst, 0x30#8, attr] ++ more) st0 := by
    rw [hs]
    unfold unconnectedData askOne
    rw [List.cons_append, readBV_cons8, lift_ok_bind]
    simp [show (0x0E#8 : Byte) ≠ 0x54#8 by decide, show (0x0E#8 : Byte) ≠ 0x5B#8 by decide,
      show (0x0E#8 : Byte) ≠ 0x4E#8 by decide, show (0x0E#8 : Byte) ≠ 0x01#8 by decide]
  unfold unconnectedGetAttrSingle at hs'
  rw [show attrPath ([3#8, 0x20#8, cls, 0x24#8, inst, 0x30#8, attr] ++ more) =
    .ok (some (BitVec.ofNat 16 cls.toNat, BitVec.ofNat 32 inst.toNat, BitVec.ofNat 16 attr.toNat, more)) by
      unfold attrPath
      simp only [List.cons_append, List.nil_append]
      rw [getU_one, Res.bind_ok]
      simp only
      rw [if_neg (by decide), classRead_short, Res.bind_ok]
      simp only
      rw [instanceRead_short, Res.bind_ok]
      simp only
      rw [attributeRead_short, Res.bind_ok],
    lift_ok_bind] at hs'
  simp only [depend] at hs'
  have e0 : BitVec.ofNat 16 cls.toNat = 0xC8#16 ↔ cls = 0xC8#8 := by
    rw [← BitVec.toNat_inj, ← BitVec.toNat_inj]; have := cls.isLt; simp only [BitVec.toNat_ofNat]; omega
  have e1 : BitVec.ofNat 16 cls.toNat = 1#16 ↔ cls = 1#8 := by
    rw [← BitVec.toNat_inj, ← BitVec.toNat_inj]; have := cls.isLt; simp only [BitVec.toNat_ofNat]; omega
  have e2 : BitVec.ofNat 32 inst.toNat = 1#32 ↔ inst = 1#8 := by
    rw [← BitVec.toNat_inj, ← BitVec.toNat_inj]; have := inst.isLt; simp only [BitVec.toNat_ofNat]; omega
  rw [if_neg (by rw [e0]; exact hcls)] at hs'
  simp only [ne_eq, e1, e2] at hs'
  rw [hs', h1]
  by_cases h : cls = 1#8 ∧ inst = 1#8
  · rw [if_neg (by simp [h]), if_pos h]
    cases st.srv.attrs (BitVec.ofNat 16 attr.toNat) <;> rfl
  · rw [if_pos (by rw [← Decidable.not_and_iff_not_or_not]; exact h), if_neg h]

/-- C93, one attribute, outside a connection: the value of an attribute is given, but with a type code and a zero in
front, which the published reply does not have; so C93 is false for every attribute. -/
theorem C93_unconnected_typed (C : Conv) (st : St) (d : Gologix.Spec.Device) (hp : Publishes st.srv.attrs d)
    (a : Byte) (more : Bytes) (hq : Unconnected st.inp (askOne 1#8 1#8 a ++ more)) (b : Bytes)
    (hb : attrOf d a.toNat = some b) (h7 : a ≠ 7#8) :
    AnswersRR C st 0x0E#8 0#8 ((if a = 6#8 then 0xC8#8 else 0xC3#8) :: 0#8 :: b) ∧ ¬ AnswersRR C st 0x0E#8 0#8 b := by
  obtain ⟨st0, h1, h2, hs⟩ := single_unconnected_run C st 1#8 1#8 a more hq (by decide)
  obtain ⟨v, hv, hser, hty⟩ := attribute_number hp a b hb h7
  rw [if_pos ⟨rfl, rfl⟩, hv] at hs
  simp only at hs
  rw [show typedPayload (.scal v) = .ok ([TVal.cipType (.scal v), 0#8] ++ b) by
    unfold typedPayload; rw [hser, Res.bind_ok], lift_ok_bind, hty] at hs
  have hx := answersRR_of hs h1 h2
  refine ⟨hx, fun hy => ?_⟩
  obtain ⟨f, hf, -, -, ha, -⟩ := hx
  obtain ⟨g, hg, -, -, hb', -⟩ := hy
  rw [hf] at hg
  cases hg
  rw [ha] at hb'
  have := congrArg List.length hb'
  simp only [List.cons_append, List.nil_append, List.length_cons] at this
  omega

/-- C93, outside a connection: an attribute or object that does not exist is answered with an error status, and the
session goes on.  (Class 0xC8 is that of the tags, see C80.) -/
theorem C93_absent_unconnected (C : Conv) (st : St) (cls inst a : Byte) (more : Bytes)
    (hq : Unconnected st.inp (askOne cls inst a ++ more)) (hc : cls ≠ 0xC8#8)
    (h : cls ≠ 1#8 ∨ inst ≠ 1#8 ∨ st.srv.attrs (BitVec.ofNat 16 a.toNat) = none) :
    AnswersRR C st 0x0E#8 (if cls = 1#8 ∧ inst = 1#8 then 0x14#8 else 0x05#8) [] := by
  obtain ⟨st0, h1, h2, hs⟩ := single_unconnected_run C st cls inst a more hq hc
  refine answersRR_of (st0 := st0) ?_ h1 h2
  rw [hs]
  by_cases hx : cls = 1#8 ∧ inst = 1#8
  · rw [if_pos hx, if_pos hx, (h.resolve_left (by simp [hx.1])).resolve_left (by simp [hx.2])]
  · rw [if_neg hx, if_neg hx]

/-! ### The hypotheses can hold -/

def demoDevice : Gologix.Spec.Device := ⟨0x1776#16, 0x0E#16, 0x01#16, 0x1412#16, 0x3060#16, 0xC0FFEE#32, str "Gologix"⟩

example : Publishes demoSrv.attrs demoDevice := ⟨rfl, rfl, rfl, rfl, rfl, rfl, rfl⟩
example : attrOf demoDevice 6 = some [0xEE#8, 0xFF#8, 0xC0#8, 0#8] := by decide
example : ∃ c, demoSrv.conns.getByOT 0x11#32 = .ok c := ⟨_, rfl⟩

/-- Class 1 in one byte, instance 1 in four. -/
example : AsksAll 1 1 [0x01#8, 4#8, 0x20#8, 1#8, 0x26#8, 0#8, 1#8, 0#8, 0#8, 0#8] :=
  ⟨4#8, [0x20#8, 1#8, 0x26#8, 0#8, 1#8, 0#8, 0#8, 0#8], [], rfl, rfl, _, _, by decide, rfl, rfl⟩

example : Connected (demoSt ((demoUnit (le 2 5 ++ askOne 1#8 1#8 6#8)).bytes)).inp 0x11#32 5#16 (askOne 1#8 1#8 6#8) :=
  ⟨demoUnit (le 2 5 ++ askOne 1#8 1#8 6#8), [], [], by decide, by simp [demoSt], rfl, rfl, rfl, rfl⟩

example : (newFrames (demoSt ((demoUnit (le 2 5 ++ askOne 1#8 1#8 6#8)).bytes))
    (serveStep demoConv (demoSt ((demoUnit (le 2 5 ++ askOne 1#8 1#8 6#8)).bytes))).2).map answerOf =
      [[0xEE#8, 0xFF#8, 0xC0#8, 0#8]] := by decide +kernel

example : (newFrames (demoSt ((demoRR (askOne 1#8 1#8 6#8)).bytes))
    (serveStep demoConv (demoSt ((demoRR (askOne 1#8 1#8 6#8)).bytes))).2).map rrAnswerOf =
      [[0xC8#8, 0#8, 0xEE#8, 0xFF#8, 0xC0#8, 0#8]] := by decide +kernel

end Gologix.Server
