import Verif.Model.Controller
import Verif.Spec.Controller
import Verif.Props.Service
/-
C82 A change of the controller is noticed
C83 Forces and faults are reported as the controller has them
-/
set_option linter.unusedSimpArgs false
namespace Gologix

theorem attrList_form (svc reserved : Byte) (n : Nat) (f : Spec.CForm) (st : BitVec 32) (d : Bytes)
    (hf : f.fits ([svc, reserved, 0#8, 0#8] ++ le 2 n ++ d)) :
    getAttrListReply ⟨st, f.payload ([svc, reserved, 0#8, 0#8] ++ le 2 n ++ d)⟩ = .ok d := by
  unfold getAttrListReply
  rw [(form_header f _).1, Res.bind_ok]
  simp only
  rw [form_item1 f _ hf, Res.bind_ok]
  have h6 : readN 6 (le 2 f.seq.toNat ++ ([svc, reserved, 0#8, 0#8] ++ le 2 n ++ d)) =
      .ok (le 2 f.seq.toNat ++ [svc, reserved, 0#8, 0#8], le 2 n ++ d) := by
    rw [show le 2 f.seq.toNat ++ ([svc, reserved, 0#8, 0#8] ++ le 2 n ++ d) =
      (le 2 f.seq.toNat ++ [svc, reserved, 0#8, 0#8]) ++ (le 2 n ++ d) by simp]
    exact readN_append' (by simp)
  rw [h6, Res.bind_ok]
  simp only
  rw [if_neg (by simp [le, unle]), getU_le, Res.bind_ok]

/-- C82, the request: service 3, class 0xAC, instance 1, and the five attributes. -/
theorem C82_request (seq : BitVec 16) :
    propListRequest seq = le 2 seq.toNat ++ [0x03#8, 2#8, 0x20#8, 0xAC#8, 0x24#8, 1#8] ++ le 2 5 ++
      (le 2 1 ++ le 2 2 ++ le 2 3 ++ le 2 4 ++ le 2 10) := by
  simp [propListRequest, attrListRequest, putBV, serializeSegs, Seg.bytes, classBytes, instanceBytes, pathLengthOf, le]

theorem readN_all {n : Nat} {d : Bytes} (h : d.length = n) : readN n d = .ok (d, []) := by
  have := readN_append' (rest := []) h
  rwa [List.append_nil] at this

theorem unle_bv {w : Nat} (k : Nat) (v : BitVec w) (h : w = 8 * k) : unle (le k v.toNat) = v.toNat := by
  apply unle_le_of_lt
  have := v.isLt
  rw [show (256 : Nat) = 2 ^ 8 from rfl, ← Nat.pow_mul]
  subst h
  exact this

theorem fieldAt_append {a b c : Bytes} {o w : Nat} (ho : a.length = o) (hw : b.length = w) :
    fieldAt (a ++ (b ++ c)) o w = unle b := by
  unfold fieldAt
  rw [List.drop_left' ho, List.take_left' hw]

/-- The answers when nothing is refused, in a row. -/
theorem answers_bytes (m : Spec.ChangeMarks) :
    ((m.answers 0 0 0 0 0).map Spec.AttrAnswer.bytes).flatten =
      le 2 1 ++ (le 2 0 ++ (le 2 m.a.toNat ++ (le 2 2 ++ (le 2 0 ++ (le 2 m.b.toNat ++ (le 2 3 ++ (le 2 0 ++
      (le 4 m.c.toNat ++ (le 2 4 ++ (le 2 0 ++ (le 4 m.d.toNat ++ (le 2 10 ++ (le 2 0 ++ le 4 m.e.toNat))))))))))))) := by
  simp [Spec.ChangeMarks.answers, Spec.AttrAnswer.bytes]

/-- The properties read for given marks. -/
def propsOf (m : Spec.ChangeMarks) : PropList :=
  { id1 := 1, st1 := 0, v1 := m.a.toNat, id2 := 2, st2 := 0, v2 := m.b.toNat, id3 := 3, st3 := 0, v3 := m.c.toNat,
    id4 := 4, st4 := 0, v4 := m.d.toNat, id5 := 10, st5 := 0, v5 := m.e.toNat }

/-- C82, the reply: the five attributes are read from where they are. -/
theorem C82_read (svc reserved : Byte) (f : Spec.CForm) (st : BitVec 32) (m : Spec.ChangeMarks)
    (hf : f.fits (Spec.attrListBody svc reserved (m.answers 0 0 0 0 0))) :
    controllerProps ⟨st, f.payload (Spec.attrListBody svc reserved (m.answers 0 0 0 0 0))⟩ = .ok (propsOf m) := by
  unfold controllerProps
  unfold Spec.attrListBody at hf ⊢
  rw [attrList_form _ _ _ _ _ _ hf, Res.bind_ok, answers_bytes]
  unfold readPropList
  rw [readN_all (by simp), Res.bind_ok]
  have ha := unle_bv 2 m.a rfl
  have hb := unle_bv 2 m.b rfl
  have hc := unle_bv 4 m.c rfl
  have hd := unle_bv 4 m.d rfl
  have he := unle_bv 4 m.e rfl
  simp only [le, unle] at ha hb hc hd he
  simp only [fieldAt, le, List.cons_append, List.nil_append, List.drop, List.take, unle, propsOf, ha, hb, hc, hd, he]
  rfl

/-- C82: the properties of two replies match exactly if no attribute differs. -/
theorem C82_change_detected (m m' : Spec.ChangeMarks) : (propsOf m).matches (propsOf m') = true ↔ m = m' := by
  constructor
  · intro h
    simp only [PropList.matches, propsOf, ne_eq, not_true_eq_false, or_false] at h
    cases m with
    | mk a b c d e =>
      cases m' with
      | mk a' b' c' d' e' =>
        simp only at h
        split at h
        · simp at h
        · split at h
          · simp at h
          · split at h
            · simp at h
            · split at h
              · simp at h
              · split at h
                · simp at h
                · simp_all [BitVec.toNat_inj]
  · rintro rfl
    simp [PropList.matches]

/-- C82 for any two answers: they match exactly if no value and no status differs. -/
theorem C82_change_of_status (old new : PropList) :
    old.matches new = true ↔
      [old.v1, old.v2, old.v3, old.v4, old.v5] = [new.v1, new.v2, new.v3, new.v4, new.v5] ∧
      [old.st1, old.st2, old.st3, old.st4, old.st5] = [new.st1, new.st2, new.st3, new.st4, new.st5] := by
  simp only [PropList.matches, List.cons.injEq, and_true]
  constructor
  · intro h
    split at h
    · simp at h
    · split at h
      · simp at h
      · split at h
        · simp at h
        · split at h
          · simp at h
          · split at h
            · simp at h
            · omega
  · intro h
    obtain ⟨⟨a, b, c, d, e⟩, a', b', c', d', e'⟩ := h
    simp [a, b, c, d, e, a', b', c', d', e']

/-- C82, refusal: if the controller refuses one of the attributes, and so leaves its value out, the call fails. -/
theorem C82_refused (svc reserved : Byte) (f : Spec.CForm) (st : BitVec 32) (m : Spec.ChangeMarks)
    (s1 s2 s3 s4 s5 : BitVec 16) (h : ¬ (s1 = 0 ∧ s2 = 0 ∧ s3 = 0 ∧ s4 = 0 ∧ s5 = 0))
    (hf : f.fits (Spec.attrListBody svc reserved (m.answers s1 s2 s3 s4 s5))) :
    (controllerProps ⟨st, f.payload (Spec.attrListBody svc reserved (m.answers s1 s2 s3 s4 s5))⟩).isErr = true := by
  unfold controllerProps
  unfold Spec.attrListBody at hf ⊢
  rw [attrList_form _ _ _ _ _ _ hf, Res.bind_ok]
  unfold readPropList
  have hl : ((m.answers s1 s2 s3 s4 s5).map Spec.AttrAnswer.bytes).flatten.length < 36 := by
    simp only [Spec.ChangeMarks.answers, Spec.AttrAnswer.bytes, List.map_cons, List.map_nil, List.flatten_cons,
      List.flatten_nil, List.length_append, le_length, List.length_nil]
    by_cases h1 : s1 = 0 <;> by_cases h2 : s2 = 0 <;> by_cases h3 : s3 = 0 <;> by_cases h4 : s4 = 0 <;>
      by_cases h5 : s5 = 0 <;> simp_all
  have hn : ((m.answers s1 s2 s3 s4 s5).map Spec.AttrAnswer.bytes).flatten ≠ [] := by
    simp [Spec.ChangeMarks.answers, Spec.AttrAnswer.bytes, le]
  unfold readN
  rw [if_neg (by decide), if_neg hn, if_pos hl]
  rfl

/-- The attributes of a reply of the controller to the keep-alive. -/
structure MarkReply where
  svc      : Byte
  reserved : Byte
  form     : Spec.CForm
  status   : BitVec 32
  marks    : Spec.ChangeMarks

/-- The reply; nothing is refused. -/
def MarkReply.body (x : MarkReply) : Bytes := Spec.attrListBody x.svc x.reserved (x.marks.answers 0 0 0 0 0)

def MarkReply.reply (x : MarkReply) : Reply := ⟨x.status, x.form.payload x.body⟩

theorem append_le_inj {k m n : Nat} {a b : Bytes} (hm : m < 256 ^ k) (hn : n < 256 ^ k) (h : le k m ++ a = le k n ++ b) :
    m = n ∧ a = b := by
  obtain ⟨h1, h2⟩ := List.append_inj h (by simp)
  exact ⟨le_inj hm hn h1, h2⟩

theorem answers_inj {m m' : Spec.ChangeMarks}
    (h : ((m.answers 0 0 0 0 0).map Spec.AttrAnswer.bytes).flatten =
      ((m'.answers 0 0 0 0 0).map Spec.AttrAnswer.bytes).flatten) : m = m' := by
  rw [answers_bytes, answers_bytes] at h
  have h := List.append_cancel_left (List.append_cancel_left h)
  obtain ⟨ha, h⟩ := append_le_inj m.a.isLt m'.a.isLt h
  have h := List.append_cancel_left (List.append_cancel_left h)
  obtain ⟨hb, h⟩ := append_le_inj m.b.isLt m'.b.isLt h
  have h := List.append_cancel_left (List.append_cancel_left h)
  obtain ⟨hc, h⟩ := append_le_inj m.c.isLt m'.c.isLt h
  have h := List.append_cancel_left (List.append_cancel_left h)
  obtain ⟨hd, h⟩ := append_le_inj m.d.isLt m'.d.isLt h
  have h := List.append_cancel_left (List.append_cancel_left h)
  have he := le_inj m.e.isLt m'.e.isLt h
  cases m; cases m'
  simp only [BitVec.toNat_inj] at ha hb hc hd he
  subst ha hb hc hd he
  rfl

/-- C82 for the keep-alive: as long as the controller answers and listing works, the tags are listed at the beginning and
then exactly as often as the attributes changed between two ticks, if that was asked for; the attributes of the last
answer are kept. -/
theorem C82_watch (poll : Bool) (x : MarkReply) (xs : List MarkReply) (hx : x.form.fits x.body)
    (hxs : ∀ y ∈ xs, y.form.fits y.body) :
    watchTicks poll (watchStart poll x.reply true) (xs.map fun y => (y.reply, true)) =
      .on (((Spec.latest x.marks (xs.map MarkReply.marks)).answers 0 0 0 0 0).map Spec.AttrAnswer.bytes).flatten
        (if poll then 1 + Spec.changes x.marks (xs.map MarkReply.marks) else 0) := by
  have key : ∀ (xs : List MarkReply) (m : Spec.ChangeMarks) (n : Nat), (∀ y ∈ xs, y.form.fits y.body) →
      watchTicks poll (.on ((m.answers 0 0 0 0 0).map Spec.AttrAnswer.bytes).flatten n) (xs.map fun y => (y.reply, true)) =
        .on (((Spec.latest m (xs.map MarkReply.marks)).answers 0 0 0 0 0).map Spec.AttrAnswer.bytes).flatten
          (if poll then n + Spec.changes m (xs.map MarkReply.marks) else n) := by
    intro xs
    induction xs with
    | nil =>
      intro m n _
      cases poll <;> simp [watchTicks, Spec.latest, Spec.changes]
    | cons y ys ih =>
      intro m n hy
      have hr : getAttrListReply y.reply =
          .ok ((y.marks.answers 0 0 0 0 0).map Spec.AttrAnswer.bytes).flatten :=
        attrList_form _ _ _ _ _ _ (hy y (List.mem_cons_self ..))
      have hys : ∀ z ∈ ys, z.form.fits z.body := fun z hz => hy z (List.mem_cons_of_mem _ hz)
      simp only [watchTicks, List.map_cons, List.foldl_cons, Spec.latest, Spec.changes]
      by_cases hm : y.marks = m
      · have ht : watchTick poll (.on ((m.answers 0 0 0 0 0).map Spec.AttrAnswer.bytes).flatten n) y.reply true =
            .on ((y.marks.answers 0 0 0 0 0).map Spec.AttrAnswer.bytes).flatten n := by
          simp only [watchTick, hr, hm, ne_eq, not_true_eq_false, if_false]
        rw [ht, if_pos hm]
        have := ih y.marks n hys
        simp only [watchTicks] at this
        rw [this]
        simp
      · have hne : ((y.marks.answers 0 0 0 0 0).map Spec.AttrAnswer.bytes).flatten ≠
            ((m.answers 0 0 0 0 0).map Spec.AttrAnswer.bytes).flatten := fun h => hm (answers_inj h)
        have ht : watchTick poll (.on ((m.answers 0 0 0 0 0).map Spec.AttrAnswer.bytes).flatten n) y.reply true =
            .on ((y.marks.answers 0 0 0 0 0).map Spec.AttrAnswer.bytes).flatten (if poll then n + 1 else n) := by
          simp only [watchTick, hr, ne_eq, hne, not_false_eq_true, if_true]
          cases poll <;> simp
        rw [ht, if_neg hm]
        have := ih y.marks (if poll then n + 1 else n) hys
        simp only [watchTicks] at this
        rw [this]
        cases poll <;> simp [Nat.add_assoc]
  have hr : getAttrListReply x.reply = .ok ((x.marks.answers 0 0 0 0 0).map Spec.AttrAnswer.bytes).flatten :=
    attrList_form _ _ _ _ _ _ hx
  have hs : watchStart poll x.reply true =
      .on ((x.marks.answers 0 0 0 0 0).map Spec.AttrAnswer.bytes).flatten (if poll then 1 else 0) := by
    simp only [watchStart, hr]
    cases poll <;> simp
  rw [hs, key xs x.marks _ hxs]
  cases poll <;> simp

/-- C82, the end of the keep-alive: an answer that is an error ends it, and then nothing is listed any more. -/
theorem C82_watch_ends (poll listed : Bool) (last : Bytes) (n : Nat) (r : Reply) (rs : List (Reply × Bool))
    (h : (getAttrListReply r).isErr = true) : watchTicks poll (.on last n) ((r, listed) :: rs) = .off n := by
  have hoff : ∀ rs : List (Reply × Bool), watchTicks poll (.off n) rs = .off n := by
    intro rs
    induction rs with
    | nil => rfl
    | cons x xs ih => exact ih
  have h1 : watchTick poll (.on last n) r listed = .off n := by
    simp only [watchTick]
    cases hr : getAttrListReply r with
    | ok d => rw [hr] at h; simp [Res.isErr] at h
    | err e => rfl
    | panic => rfl
  show watchTicks poll (watchTick poll (.on last n) r listed) rs = _
  rw [h1, hoff]

/-- C83, the requests: attribute 9 of the class 0x69, and everything of the fault log, class 0x73. -/
theorem C83_requests (seq : BitVec 16) :
    forcesRequest seq = le 2 seq.toNat ++ [0x03#8, 2#8, 0x20#8, 0x69#8, 0x24#8, 0#8] ++ le 2 1 ++ le 2 9 ∧
    faultsRequest seq = le 2 seq.toNat ++ [0x01#8, 2#8, 0x20#8, 0x73#8, 0x24#8, 1#8] := by
  constructor
  · simp [forcesRequest, attrListRequest, putBV, serializeSegs, Seg.bytes, classBytes, instanceBytes, pathLengthOf, le]
  · simp [faultsRequest, genericRequest, putBV, serializeSegs, Seg.bytes, classBytes, instanceBytes, pathLengthOf, le]

/-- C83, forces: the status word the controller has is the one returned; enabled is its bit 0. -/
theorem C83_forces (svc reserved : Byte) (f : Spec.CForm) (st : BitVec 32) (v : BitVec 16)
    (hf : f.fits (Spec.attrListBody svc reserved [⟨9, 0, 2, v.toNat⟩])) :
    getForces ⟨st, f.payload (Spec.attrListBody svc reserved [⟨9, 0, 2, v.toNat⟩])⟩ = .ok v ∧
      (forcesEnabled v = true ↔ Spec.bitSet v.toNat 0) := by
  constructor
  · unfold getForces
    unfold Spec.attrListBody at hf ⊢
    rw [attrList_form _ _ _ _ _ _ hf, Res.bind_ok, readN_all (by simp [Spec.AttrAnswer.bytes]), Res.bind_ok]
    have hb := unle_bv 2 v rfl
    simp only [le, unle] at hb
    simp only [Spec.AttrAnswer.bytes, fieldAt, le, unle, List.map_cons, List.map_nil, List.flatten_cons, List.flatten_nil,
      if_true, List.cons_append, List.nil_append, List.append_nil, List.drop, List.take, hb]
    exact congrArg Res.ok (BitVec.eq_of_toNat_eq (by simp))
  · unfold forcesEnabled Spec.bitSet
    simp only [Nat.pow_zero, Nat.div_one, ne_eq, decide_eq_true_eq]
    have h1 : (v &&& 1).toNat = v.toNat % 2 := by rw [BitVec.toNat_and]; exact Nat.and_one_is_mod _
    constructor
    · intro h
      by_contra hc
      exact h (BitVec.eq_of_toNat_eq (by rw [h1]; show _ = 0; omega))
    · intro h he
      rw [he] at h1
      have h0 : (0 : BitVec 16).toNat = 0 := rfl
      omega

/-- C83, forces: an attribute refused is an error. -/
theorem C83_forces_refused (svc reserved : Byte) (f : Spec.CForm) (st : BitVec 32) (s : BitVec 16) (v : Nat) (hs : s ≠ 0)
    (hf : f.fits (Spec.attrListBody svc reserved [⟨9, s, 2, v⟩])) :
    (getForces ⟨st, f.payload (Spec.attrListBody svc reserved [⟨9, s, 2, v⟩])⟩).isErr = true := by
  unfold getForces
  unfold Spec.attrListBody at hf ⊢
  rw [attrList_form _ _ _ _ _ _ hf, Res.bind_ok]
  unfold readN
  rw [if_neg (by decide), if_neg (by simp [Spec.AttrAnswer.bytes, le]), if_pos (by
      simp only [List.map_cons, List.map_nil, List.flatten_cons, List.flatten_nil, Spec.AttrAnswer.bytes, if_neg hs]
      simp)]
  rfl

/-- C83 is false for forces that exist but are not enabled: both methods look at the same bit, the others do not count. -/
theorem C83_exist_is_enabled (v : BitVec 16) :
    forcesExist v = forcesEnabled v ∧ ∀ w : BitVec 16, v.toNat % 2 = w.toNat % 2 → forcesExist v = forcesExist w := by
  refine ⟨rfl, fun w h => ?_⟩
  have h1 : v &&& 1 = w &&& 1 := by
    apply BitVec.eq_of_toNat_eq
    rw [BitVec.toNat_and, BitVec.toNat_and]
    show v.toNat &&& 1 = w.toNat &&& 1
    rw [Nat.and_one_is_mod, Nat.and_one_is_mod, h]
  unfold forcesExist
  rw [h1]

theorem ofNat_unle {w : Nat} (k : Nat) (v : BitVec w) (h : w = 8 * k) : BitVec.ofNat w (unle (le k v.toNat)) = v := by
  rw [unle_bv k v h]
  exact BitVec.eq_of_toNat_eq (by simp)

theorem fieldAt_skip (a d : Bytes) (o w : Nat) : fieldAt (a ++ d) (a.length + o) w = fieldAt d o w := by
  unfold fieldAt
  rw [List.drop_length_add_append]

theorem fieldAt_zero {b c : Bytes} {w : Nat} (hw : b.length = w) : fieldAt (b ++ c) 0 w = unle b :=
  fieldAt_append (a := []) rfl hw

/-- The bytes of an event. -/
def FaultEvent.bytes (e : FaultEvent) : Bytes := Spec.faultEventBytes e.time e.cls e.code e.detail

theorem eventAt_append (pre post : Bytes) (e : FaultEvent) (h : e.detail.length = 30) :
    eventAt (pre ++ (e.bytes ++ post)) pre.length = e := by
  have h0 : fieldAt (pre ++ (e.bytes ++ post)) pre.length 8 = unle (le 8 e.time.toNat) := by
    have := fieldAt_skip pre (e.bytes ++ post) 0 8
    rw [Nat.add_zero] at this
    rw [this]
    simp only [FaultEvent.bytes, Spec.faultEventBytes, List.append_assoc]
    exact fieldAt_zero (by simp)
  have h1 : fieldAt (pre ++ (e.bytes ++ post)) (pre.length + 8) 2 = unle (le 2 e.cls.toNat) := by
    rw [fieldAt_skip]
    simp only [FaultEvent.bytes, Spec.faultEventBytes, List.append_assoc]
    exact fieldAt_append (by simp) (by simp)
  have h2 : fieldAt (pre ++ (e.bytes ++ post)) (pre.length + 10) 2 = unle (le 2 e.code.toNat) := by
    rw [fieldAt_skip]
    simp only [FaultEvent.bytes, Spec.faultEventBytes, List.append_assoc]
    rw [← List.append_assoc (le 8 _)]
    exact fieldAt_append (by simp) (by simp)
  have h3 : ((pre ++ (e.bytes ++ post)).drop (pre.length + 12)).take 30 = e.detail := by
    rw [List.drop_length_add_append]
    have hb : e.bytes ++ post = (le 8 e.time.toNat ++ le 2 e.cls.toNat ++ le 2 e.code.toNat) ++ (e.detail ++ post) := by
      simp [FaultEvent.bytes, Spec.faultEventBytes]
    rw [hb, List.drop_left' (by simp), List.take_left' h]
  unfold eventAt
  rw [h0, h1, h2, h3, ofNat_unle 8 _ rfl, ofNat_unle 2 _ rfl, ofNat_unle 2 _ rfl]

theorem event_length (e : FaultEvent) (h : e.detail.length = 30) : e.bytes.length = 42 := by
  simp [FaultEvent.bytes, Spec.faultEventBytes, h]

/-- C83, faults: the log the controller sends is the one returned, whatever follows it. -/
theorem C83_faults (svc reserved : Byte) (hs : svc.toNat % 128 = 1) (f : Spec.CForm) (st : BitVec 32) (major minor : BitVec 32)
    (majors minors : BitVec 16) (e1 e2 e3 : FaultEvent) (rest : Bytes) (h1 : e1.detail.length = 30)
    (h2 : e2.detail.length = 30) (h3 : e3.detail.length = 30)
    (hf : f.fits ([svc, reserved, 0#8, 0#8] ++ (le 4 major.toNat ++ (le 4 minor.toNat ++ (le 2 majors.toNat ++
      (le 2 minors.toNat ++ (e1.bytes ++ (e2.bytes ++ (e3.bytes ++ rest))))))))) :
    getFaults ⟨st, f.payload ([svc, reserved, 0#8, 0#8] ++ (le 4 major.toNat ++ (le 4 minor.toNat ++ (le 2 majors.toNat ++
      (le 2 minors.toNat ++ (e1.bytes ++ (e2.bytes ++ (e3.bytes ++ rest))))))))⟩ =
      .ok ⟨major, minor, majors, minors, [e1, e2, e3]⟩ := by
  unfold getFaults genericReply
  rw [(form_header f _).1, Res.bind_ok]
  simp only
  rw [form_item1 f _ hf, Res.bind_ok, getU_le, Res.bind_ok]
  simp only [List.cons_append, List.nil_append]
  rw [getU_two, Res.bind_ok]
  simp only
  rw [byte_of_word, if_neg (by simpa using (by
    apply BitVec.eq_of_toNat_eq
    rw [BitVec.toNat_and]
    show svc.toNat &&& 127 = 1
    rw [show (127 : Nat) = 2 ^ 7 - 1 from rfl, Nat.and_two_pow_sub_one_eq_mod]
    exact hs : svc &&& 0x7F#8 = 1#8)), getU_two, Res.bind_ok]
  simp only
  rw [if_neg (by simp), Res.bind_ok]
  unfold readFaultSummary
  have l1 := event_length e1 h1
  have l2 := event_length e2 h2
  have l3 := event_length e3 h3
  rw [show le 4 major.toNat ++ (le 4 minor.toNat ++ (le 2 majors.toNat ++
      (le 2 minors.toNat ++ (e1.bytes ++ (e2.bytes ++ (e3.bytes ++ rest)))))) =
      (le 4 major.toNat ++ (le 4 minor.toNat ++ (le 2 majors.toNat ++
      (le 2 minors.toNat ++ (e1.bytes ++ (e2.bytes ++ e3.bytes)))))) ++ rest by simp,
    readN_append' (by simp [l1, l2, l3]), Res.bind_ok]
  simp only
  have a1 := eventAt_append (le 4 major.toNat ++ (le 4 minor.toNat ++ (le 2 majors.toNat ++ le 2 minors.toNat)))
    (e2.bytes ++ e3.bytes) e1 h1
  have a2 := eventAt_append (le 4 major.toNat ++ (le 4 minor.toNat ++ (le 2 majors.toNat ++ (le 2 minors.toNat ++ e1.bytes))))
    e3.bytes e2 h2
  have a3 := eventAt_append (le 4 major.toNat ++ (le 4 minor.toNat ++ (le 2 majors.toNat ++ (le 2 minors.toNat ++
    (e1.bytes ++ e2.bytes))))) [] e3 h3
  simp only [List.append_assoc, List.length_append, le_length, l1, l2, List.append_nil] at a1 a2 a3
  rw [a1, a2, a3]
  have b0 : fieldAt (le 4 major.toNat ++ (le 4 minor.toNat ++ (le 2 majors.toNat ++
      (le 2 minors.toNat ++ (e1.bytes ++ (e2.bytes ++ e3.bytes)))))) 0 4 = unle (le 4 major.toNat) := fieldAt_zero (by simp)
  have b1 : fieldAt (le 4 major.toNat ++ (le 4 minor.toNat ++ (le 2 majors.toNat ++
      (le 2 minors.toNat ++ (e1.bytes ++ (e2.bytes ++ e3.bytes)))))) 4 4 = unle (le 4 minor.toNat) :=
    fieldAt_append (by simp) (by simp)
  have b2 : fieldAt (le 4 major.toNat ++ (le 4 minor.toNat ++ (le 2 majors.toNat ++
      (le 2 minors.toNat ++ (e1.bytes ++ (e2.bytes ++ e3.bytes)))))) 8 2 = unle (le 2 majors.toNat) := by
    rw [← List.append_assoc (le 4 _)]
    exact fieldAt_append (by simp) (by simp)
  have b3 : fieldAt (le 4 major.toNat ++ (le 4 minor.toNat ++ (le 2 majors.toNat ++
      (le 2 minors.toNat ++ (e1.bytes ++ (e2.bytes ++ e3.bytes)))))) 10 2 = unle (le 2 minors.toNat) := by
    rw [← List.append_assoc (le 4 _), ← List.append_assoc (le 4 _ ++ le 4 _)]
    exact fieldAt_append (by simp) (by simp)
  rw [b0, b1, b2, b3, ofNat_unle 4 _ rfl, ofNat_unle 4 _ rfl, ofNat_unle 2 _ rfl, ofNat_unle 2 _ rfl]

/-- C83, faults: a log too short, or a status that is not zero, is an error. -/
theorem C83_faults_short (r : Reply) (s : FaultSummary) (h : getFaults r = .ok s) :
    ∃ d, genericReply 0x01#8 r = .ok d ∧ 138 ≤ d.length := by
  unfold getFaults at h
  obtain ⟨d, h1, h2⟩ := Res.bind_eq_ok.mp h
  refine ⟨d, h1, ?_⟩
  unfold readFaultSummary at h2
  obtain ⟨⟨a, b⟩, h3, _⟩ := Res.bind_eq_ok.mp h2
  obtain ⟨h4, h5⟩ := readN_ok h3
  rw [h5, List.length_append]
  omega

/-- The number of the fault class a method of `FaultType` is named for, as in the table of descriptions. -/
def FaultKind.class : FaultKind → Nat
  | .powerup => 1
  | .io => 3
  | .program => 4
  | .watchdog => 6
  | .nvMemory => 7
  | .modeChange => 8
  | .serialPort => 9
  | .energyStorage => 10
  | .motion => 11
  | .redundancy => 12
  | .rtc => 13
  | .nonRecoverable => 14
  | .communication => 16
  | .diagnostics => 17
  | .cipMotion => 18
  | .ethernet => 19
  | .license => 20
  | .alarm => 21
  | .opcua => 22

theorem and_bit (f : BitVec 32) (i : Nat) (hi : i < 32) : f &&& (1#32 <<< i) ≠ 0 ↔ Spec.bitSet f.toNat i := by
  have h1 : 1#32 <<< i = BitVec.twoPow 32 i := (BitVec.twoPow_eq 32 i).symm
  rw [h1, BitVec.and_twoPow]
  unfold Spec.bitSet
  have h2 : f.getLsbD i = decide (f.toNat / 2 ^ i % 2 = 1) := Nat.testBit_eq_decide_div_mod_eq
  rw [h2]
  have h3 : BitVec.twoPow 32 i ≠ 0 := by
    intro h
    have := congrArg BitVec.toNat h
    rw [BitVec.toNat_twoPow_of_lt hi] at this
    exact absurd this (Nat.ne_of_gt (Nat.two_pow_pos i))
  have h4 : ¬ BitVec.twoPow 32 i = 0#32 := h3
  by_cases h : f.toNat / 2 ^ i % 2 = 1 <;> simp [h, h4]

/-- C83, fault types: every method looks at one bit of its own; for a power-up fault it is the one with the number of the
class of the fault. -/
theorem C83_flags_partial (f : BitVec 32) (k : FaultKind) :
    (hasFault f k = true ↔ Spec.bitSet f.toNat (if k = .powerup then k.class else k.class - 1)) := by
  unfold hasFault
  rw [decide_eq_true_iff]
  cases k <;> exact and_bit f _ (by decide)

/-- C83 is false for the other fault types: their bits are one lower than the class, so that the bit of a class is
reported as something else. -/
theorem C83_flag_of_other_class (k : FaultKind) (h : k ≠ .powerup) (f : BitVec 32)
    (hf : f.toNat = 2 ^ k.class) : hasFault f k = false := by
  cases hb : hasFault f k with
  | false => rfl
  | true =>
    rw [C83_flags_partial, if_neg h] at hb
    unfold Spec.bitSet at hb
    rw [hf] at hb
    revert h hb
    cases k <;> decide

/-- A watchdog fault, class 6, is shown as a fault of the memory. -/
example : hasFault (1 <<< 6) .watchdog = false ∧ hasFault (1 <<< 6) .nvMemory = true ∧
    FaultKind.watchdog.class = 6 := by decide

/-- C83, descriptions: an event is described by the entry for its class and code, the display too, or as unknown; but for
class 17, code 32. -/
theorem C83_description_partial (e : FaultEvent) (hx : ¬ (e.cls = 17 ∧ e.code = 32)) :
    (∃ major shown, e.description = .known ⟨e.cls.toNat, e.code.toNat, e.cls.toNat, e.code.toNat, major, shown⟩ ∧
      ∀ m t c, shown = some (m, t, c) → m = major ∧ t = e.cls.toNat ∧ c = e.code.toNat) ∨
    (e.description = .unknown e.cls.toNat e.code.toNat ∧ ∀ r ∈ faultTable, ¬ (r.key1 = e.cls.toNat ∧ r.key2 = e.code.toNat)) := by
  have hall : ∀ r ∈ faultTable, ¬ (r.key1 = 17 ∧ r.key2 = 32) → r.type = r.key1 ∧ r.code = r.key2 ∧
      (∀ x ∈ r.shown, x = (r.major, r.key1, r.key2)) := by decide +kernel
  unfold FaultEvent.description
  cases hfind : faultTable.find? fun r => r.key1 = e.cls.toNat ∧ r.key2 = e.code.toNat with
  | some r =>
    left
    have hm := List.mem_of_find?_eq_some hfind
    have hk := List.find?_some hfind
    obtain ⟨k1, k2, t, c, major, shown⟩ := r
    simp only [decide_eq_true_eq] at hk
    obtain ⟨rfl, rfl⟩ := hk
    have hne : ¬ (e.cls.toNat = 17 ∧ e.code.toNat = 32) := fun h =>
      hx ⟨BitVec.eq_of_toNat_eq h.1, BitVec.eq_of_toNat_eq h.2⟩
    obtain ⟨h1, h2, h3⟩ := hall _ hm hne
    simp only at h1 h2 h3
    subst h1 h2
    refine ⟨major, shown, rfl, ?_⟩
    intro m t' c' hs
    have := h3 (m, t', c') (by rw [hs]; rfl)
    simp only [Prod.mk.injEq] at this
    exact this
  | none =>
    right
    refine ⟨rfl, fun r hr => ?_⟩
    have := List.find?_eq_none.mp hfind r hr
    simpa using this

/-- C83 is false for class 17: the description of code 34 is filed under 32 with the code 31, and 34 is unknown. -/
theorem C83_misfiled (e : FaultEvent) (h : e.cls = 17) :
    (e.code = 32 → e.shown = some (.known ⟨17, 32, 17, 31, true, some (true, 17, 34)⟩)) ∧
    (e.code = 34 → e.shown = some (.unknown 17 34)) := by
  constructor <;> intro hc
  · unfold FaultEvent.shown
    rw [if_neg (by rw [h]; simp)]
    unfold FaultEvent.description
    rw [h, hc]
    decide +kernel
  · unfold FaultEvent.shown
    rw [if_neg (by rw [h]; simp)]
    unfold FaultEvent.description
    rw [h, hc]
    decide +kernel

/-- "No Fault" is shown for class 0, code 0, and for nothing else. -/
theorem C83_no_fault (e : FaultEvent) : e.shown = none ↔ e.cls = 0 ∧ e.code = 0 := by
  unfold FaultEvent.shown
  split <;> simp_all

/-- A controller whose attributes change once in three ticks. -/
example :
    let m : Spec.ChangeMarks := ⟨1, 2, 3, 4, 5⟩
    let m' : Spec.ChangeMarks := ⟨1, 2, 3, 4, 6⟩
    let x : Spec.ChangeMarks → MarkReply := fun m => ⟨0x83, 0, exServiceForm, 0, m⟩
    (controllerProps (x m).reply = .ok (propsOf m)) ∧ Spec.changes m [m, m', m'] = 1 ∧
    watchTicks true (watchStart true (x m).reply true) [((x m).reply, true), ((x m').reply, true), ((x m').reply, true)] =
      .on ((m'.answers 0 0 0 0 0).map Spec.AttrAnswer.bytes).flatten 2 := by decide +kernel

/-- A fault log with one major fault. -/
example :
    let e : FaultEvent := ⟨123456789, 6, 1, List.replicate 30 7⟩
    let z : FaultEvent := ⟨0, 0, 0, List.replicate 30 0⟩
    getFaults ⟨0, exServiceForm.payload ([0x81#8, 0, 0, 0] ++ (le 4 64 ++ (le 4 0 ++ (le 2 1 ++ (le 2 0 ++
      (e.bytes ++ (z.bytes ++ (z.bytes ++ []))))))))⟩ = .ok ⟨64, 0, 1, 0, [e, z, z]⟩ ∧ z.shown = none ∧
      e.description = .known ⟨6, 1, 6, 1, true, some (true, 6, 1)⟩ := by decide +kernel

/-- Forces enabled, and forces that exist but are not enabled. -/
example : getForces ⟨0, exServiceForm.payload (Spec.attrListBody 0x83 0 [⟨9, 0, 2, 3⟩])⟩ = .ok 3 ∧
    forcesEnabled 3 = true ∧ forcesExist 2 = false ∧ forcesEnabled 2 = false := by decide +kernel

end Gologix
