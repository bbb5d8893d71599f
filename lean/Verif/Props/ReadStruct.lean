import Verif.Model.ReadStruct
import Verif.Spec.ReadStruct
import Verif.Props.UnpackLayout
import Verif.Props.ServerIo
import Verif.Props.Read
set_option linter.unusedSimpArgs false
namespace Gologix.ReadStruct
open Gologix.ServerIo Gologix.Spec

/-- The reply of a controller for a structure. -/
def structReply (f : ReplyForm) (st : BitVec 32) (handle : BitVec 16) (image : Bytes) : Reply :=
  ⟨st, f.payload 0#8 tStruct (structData handle image)⟩

theorem single_struct (ioi : Ioi) (n : BitVec 16) (f : ReplyForm) (st : BitVec 32) (handle : BitVec 16) (image : Bytes)
    (hf : f.fits (structData handle image)) (more : List Reply) :
    readSingle ioi tStruct n (structReply f st handle image :: more) =
      (.ok (.one (.bytes image)), [⟨ioi.buffer, n, none⟩], more) := by
  have hh := readSingle_hdr f 0#8 tStruct (structData handle image) hf
  have hd : decodeRead tStruct n.toNat ioi.bitAccess ioi.bitPosition tStruct (structData handle image) =
      .ok (.one (.bytes image)) := by
    unfold decodeRead structData
    rw [if_pos rfl, if_neg (by decide), readN_append' (by simp)]
    rfl
  simp only [structReply, readSingle, hh, hd]
  rfl

theorem into_of_fields {t : Ty} (hs : t.isStruct = true) (hw : t.wf = true) (old : t.Val) {b : Bytes} {v : t.Val} {s : UnpackSt}
    (h : unpackFields t ⟨b, 0, 0, 0#8⟩ = .ok (v, s)) : unpackInto t old ⟨b, 0, 0, 0#8⟩ = (v, .ok s) := by
  have ha := agree_into t hs hw old ⟨b, 0, 0, 0#8⟩
  rw [h] at ha
  exact ha

theorem fields_of_into {t : Ty} (hs : t.isStruct = true) (hw : t.wf = true) (old : t.Val) {b : Bytes} {s : UnpackSt}
    (h : (unpackInto t old ⟨b, 0, 0, 0#8⟩).2 = .ok s) :
    unpackFields t ⟨b, 0, 0, 0#8⟩ = .ok ((unpackInto t old ⟨b, 0, 0, 0#8⟩).1, s) := by
  have ha := agree_into t hs hw old ⟨b, 0, 0, 0#8⟩
  cases hu : unpackFields t ⟨b, 0, 0, 0#8⟩ with
  | ok p =>
    rw [hu] at ha
    have ha : unpackInto t old ⟨b, 0, 0, 0#8⟩ = (p.1, .ok p.2) := ha
    rw [ha] at h ⊢
    simp only [Res.ok.injEq] at h
    rw [← h]
  | err e =>
    rw [hu] at ha
    have ha : (unpackInto t old ⟨b, 0, 0, 0#8⟩).2 = .err e := ha
    rw [ha] at h
    simp at h
  | panic => rw [hu] at ha; exact absurd ha id

/-- C88, for structures without arrays of structures that need padding or have booleans: a controller's image is read
into the structure whatever was in it before, with one request for one element.  The bits between the scalars and the bytes after the structure do not
matter. -/
theorem C88_struct_partial (t : Ty) (hs : t.isStruct = true) (hw : t.wf = true) (hpl : plain t = true) (old v : t.Val)
    (ioi : Ioi) (f : ReplyForm) (st : BitVec 32) (handle : BitVec 16) (image : Bytes) (hf : f.fits (structData handle image))
    (hv : HoldsValue t image v) (more : List Reply) :
    readStruct t old ioi (structReply f st handle image :: more) = (v, .ok (), [⟨ioi.buffer, 1#16, none⟩]) := by
  obtain ⟨s, h1, -⟩ := unpackFields_found t hw hpl (full := image) (st := ⟨image, 0, 0, 0#8⟩) v
    ⟨rfl, by simp, by simp, by simp⟩ hs hv.1 hv.2
  have h2 := into_of_fields hs hw old h1
  simp only [readStruct, single_struct ioi 1#16 f st handle image hf more, Res.bind_ok, asBytes, h2]

/-- C88: what is read was in the image, every scalar at its place.  Booleans tagged nopack are left out: they are true for
any byte other than 0. -/
theorem C88_struct_found_partial (t : Ty) (hs : t.isStruct = true) (hw : t.wf = true) (hpl : plain t = true)
    (hbb : bitBools t = true) (old v : t.Val) (ioi : Ioi) (f : ReplyForm) (st : BitVec 32) (handle : BitVec 16)
    (image : Bytes) (hf : f.fits (structData handle image)) (more : List Reply) (reqs : List ReadReq)
    (h : readStruct t old ioi (structReply f st handle image :: more) = (v, .ok (), reqs)) :
    Found image (place t v 0).1 := by
  simp only [readStruct, single_struct ioi 1#16 f st handle image hf more, Res.bind_ok, asBytes, Prod.mk.injEq] at h
  obtain ⟨h1, h2, -⟩ := h
  rw [Res.bind_eq_ok] at h2
  obtain ⟨s, h2, -⟩ := h2
  have h3 := fields_of_into hs hw old h2
  rw [h1] at h3
  exact unpack_found t hs hw hpl hbb h3

/-- C88: an image shorter than the structure is an error (for structures every field of which takes a byte). -/
theorem C88_struct_short (t : Ty) (hs : t.isStruct = true) (hw : t.wf = true) (hso : solid t = true) (old v0 : t.Val)
    (ioi : Ioi) (f : ReplyForm) (st : BitVec 32) (handle : BitVec 16) (image : Bytes) (hf : f.fits (structData handle image))
    (hb : image.length < (pack t v0).1.length) (more : List Reply) :
    ∃ e, (readStruct t old ioi (structReply f st handle image :: more)).2.1 = .err e := by
  simp only [readStruct, single_struct ioi 1#16 f st handle image hf more, Res.bind_ok, asBytes]
  have ha := agree_into t hs hw old ⟨image, 0, 0, 0#8⟩
  cases hu : unpackFields t ⟨image, 0, 0, 0#8⟩ with
  | ok p => exact absurd hu (unpack_short t hs hw hso v0 image hb p.1 p.2)
  | err e =>
    rw [hu] at ha
    have ha : (unpackInto t old ⟨image, 0, 0, 0#8⟩).2 = .err e := ha
    rw [ha]
    exact ⟨e, rfl⟩
  | panic => rw [hu] at ha; exact absurd ha id

theorem readTimes_many {f : Bytes → Res (Scal × Bytes)} {n : Nat} {d : Bytes} {b : Bytes} :
    (do let vs ← readTimes f n d; Res.ok (RV.many vs)) ≠ .ok (.one (.bytes b)) := by
  intro h
  rw [Res.bind_eq_ok] at h
  obtain ⟨vs, -, h⟩ := h
  simp at h

theorem ite_ne {α : Type} {p : Prop} [Decidable p] {a b c : α} (ha : a ≠ c) (hb : b ≠ c) : (if p then a else b) ≠ c := by
  split
  · exact ha
  · exact hb

theorem readValue_bytes (typ : Byte) (d : Bytes) (b r : Bytes) : readValue typ d ≠ .ok (.bytes b, r) := by
  unfold readValue
  repeat' apply ite_ne
  all_goals intro h
  all_goals first
    | (simp at h; done)
    | (rw [Res.bind_eq_ok] at h; obtain ⟨⟨x, y⟩, -, h⟩ := h; simp at h)

theorem decode_bytes {dt : Byte} {n : Nat} {ba : Bool} {bp : Int} {typ : Byte} {d b : Bytes}
    (h : decodeRead dt n ba bp typ d = .ok (.one (.bytes b))) : typ = tStruct := by
  apply Classical.byContradiction
  intro ht
  unfold decodeRead at h
  rw [if_neg ht] at h
  split at h
  · split at h
    · rw [Res.bind_eq_ok] at h
      obtain ⟨⟨x, y⟩, -, h⟩ := h
      rw [Res.bind_eq_ok] at h
      obtain ⟨z, -, h⟩ := h
      simp at h
    · rw [Res.bind_eq_ok] at h
      obtain ⟨⟨x, y⟩, h1, h⟩ := h
      simp only [Res.ok.injEq, RV.one.injEq] at h
      subst h
      exact readValue_bytes _ _ _ _ h1
  · exact readTimes_many h

/-- C88: only a reply of a structure, whole and with status 0, changes the destination. -/
theorem C88_struct_only (t : Ty) (old : t.Val) (ioi : Ioi) (replies : List Reply)
    (h : (readStruct t old ioi replies).1 ≠ old ∨ (readStruct t old ioi replies).2.1 = .ok ()) :
    ∃ r rs hd d, replies = r :: rs ∧ (do let d ← replyItem r.payload; readHdr d) = .ok (hd, d) ∧ hd.status = 0#8 ∧
      hd.typ = tStruct := by
  have key : ∃ b, (readSingle ioi tStruct 1#16 replies).1 >>= asBytes = .ok b := by
    cases hb : (readSingle ioi tStruct 1#16 replies).1 >>= asBytes with
    | ok b => exact ⟨b, rfl⟩
    | err e => simp [readStruct, hb] at h
    | panic => simp [readStruct, hb] at h
  obtain ⟨b, hb⟩ := key
  rw [Res.bind_eq_ok] at hb
  obtain ⟨rv, h1, h2⟩ := hb
  have h2 : rv = .one (.bytes b) := by
    cases rv with
    | one v => cases v <;> simp [asBytes] at h2 <;> simp [h2]
    | many vs => simp [asBytes] at h2
  subst h2
  unfold readSingle at h1
  cases replies with
  | nil => simp at h1
  | cons r rs =>
    simp only at h1
    cases hh : (do let d ← replyItem r.payload; readHdr d) with
    | err e => rw [hh] at h1; simp at h1
    | panic => rw [hh] at h1; simp at h1
    | ok p =>
      obtain ⟨hd, d⟩ := p
      rw [hh] at h1
      simp only at h1
      refine ⟨r, rs, hd, d, rfl, hh, ?_⟩
      by_cases h6 : hd.status = 0x06#8
      · rw [if_pos h6] at h1
        by_cases ht : hd.typ = tStruct
        · rw [if_pos ht] at h1; simp at h1
        · rw [if_neg ht] at h1
          rcases hfr : readFragmented ioi.buffer 1#16 rs d with ⟨x, y, z⟩
          rw [hfr] at h1
          cases x with
          | ok m => exact absurd (decode_bytes h1) ht
          | err e => simp at h1
          | panic => simp at h1
      · rw [if_neg h6] at h1
        by_cases h0 : hd.status ≠ 0#8
        · rw [if_pos h0] at h1; simp at h1
        · rw [if_neg h0] at h1
          exact ⟨by simpa using h0, decode_bytes h1⟩

/-- The failed read of a structure can leave it half changed: an image that ends in the second number of two is refused,
and has changed the first. -/
theorem C88_partly_written (a b x : BitVec 32) (cut : Bytes) (hcut : cut.length < 4) (ioi : Ioi) (f : ReplyForm)
    (st : BitVec 32) (handle : BitVec 16) (hf : f.fits (structData handle (le 4 x.toNat ++ cut))) (more : List Reply) :
    ∃ e reqs, readStruct (.cons false (.num 4) (.cons false (.num 4) .nil)) (a, (b, ())) ioi
      (structReply f st handle (le 4 x.toNat ++ cut) :: more) = ((x, (b, ())), .err e, reqs) := by
  have short : ∃ e, readN 4 cut = .err e := by
    unfold readN
    rw [if_neg (by omega)]
    split
    · exact ⟨_, rfl⟩
    · exact ⟨_, rfl⟩
  obtain ⟨e, he⟩ := short
  have hx : BitVec.ofNat 32 (unle ((le 4 x.toNat).take 4)) = x := by
    rw [List.take_of_length_le (by simp), unle_le_of_lt (by have := x.isLt; omega)]; simp
  have r1 : readN (Ty.num 4).flat (le 4 x.toNat ++ cut) = .ok (le 4 x.toNat, cut) := readN_append' (by simp [Ty.flat])
  have r2 : readN (Ty.num 4).flat cut = .err e := he
  refine ⟨e, [⟨ioi.buffer, 1#16, none⟩], ?_⟩
  simp only [readStruct, single_struct ioi 1#16 f st handle _ hf more, Res.bind_ok, asBytes]
  simp [unpackInto, boolsInto, UnpackSt.pad, Ty.align, Ty.isStruct, r1, r2, Ty.goSize, Ty.goSizeEnd, Ty.dec, hx, Res.bind]
  rfl

/-! ### Slices -/

theorem unpackSlice_found (t : Ty) (hs : t.isStruct = true) (hw : t.wf = true) (hpl : plain t = true) (vs : List t.Val)
    (b : Bytes) (h : HoldsArray t b vs) : ∃ n r, unpackSlice t vs.length b = .ok (vs, n, r) := by
  have ha : 0 < t.align := by rw [(align_eq t).1]; exact natAlign_pos t hw
  induction vs generalizing b with
  | nil => exact ⟨0, b, rfl⟩
  | cons v vs ih =>
    obtain ⟨h1, h2, h3⟩ := h
    obtain ⟨s, u1, u2⟩ := unpackFields_found t hw hpl (full := b) (st := ⟨b, 0, 0, 0#8⟩) v
      ⟨rfl, by simp, by simp, by simp⟩ hs h1.1 h1.2
    have hn : s.n = ((place t v 0).2 + 7) / 8 := by
      have := (readAt_flush u2).cur
      simp only [if_true, Nat.add_zero] at this
      unfold roundUp at this
      omega
    have hm := Nat.mod_lt s.n ha
    have hst : strideOf t v = if s.n % t.align = 0 then s.n else s.n + (t.align - s.n % t.align) := by
      unfold strideOf
      rw [← hn, ← (align_eq t).1]
      unfold roundUp
      have hd := Nat.div_add_mod s.n t.align
      split
      · rename_i hz
        have : (s.n + (t.align - 1)) / t.align = s.n / t.align := by
          rw [Nat.div_eq_iff ha, Nat.mul_comm]
          omega
        rw [this, Nat.mul_comm]; omega
      · rename_i hz
        have : (s.n + (t.align - 1)) / t.align = s.n / t.align + 1 := by
          rw [Nat.div_eq_iff ha, Nat.add_mul, Nat.mul_comm]
          omega
        rw [this, Nat.add_mul, Nat.mul_comm]; omega
    obtain ⟨n, r, hr⟩ := ih _ h3
    simp only [List.length_cons, unpackSlice, unpack, u1, Res.bind_ok]
    by_cases hz : s.n % t.align = 0
    · rw [if_pos hz] at hst
      rw [hst, ← u2.src] at hr
      simp only [hz, ne_eq, not_true, if_false, Res.bind_ok, hr]
      exact ⟨_, _, rfl⟩
    · rw [if_neg hz] at hst
      rw [hst] at hr h2
      have hne : s.src ≠ [] := by
        intro e
        have := congrArg List.length (e.symm.trans u2.src)
        simp only [List.length_nil, List.length_drop] at this
        omega
      simp only [hz, ne_eq, not_false_eq_true, if_true, hne, if_false, Res.bind_ok]
      rw [u2.src, List.drop_drop, hr]
      exact ⟨_, _, rfl⟩

/-- C88, slices: the elements of a controller's array are read in order, with one request for as many. -/
theorem C88_slice_partial (t : Ty) (hs : t.isStruct = true) (hw : t.wf = true) (hpl : plain t = true) (vs : List t.Val)
    (hn : vs.length < 65536) (ioi : Ioi) (f : ReplyForm) (st : BitVec 32) (handle : BitVec 16) (image : Bytes)
    (hf : f.fits (structData handle image)) (hv : HoldsArray t image vs) (more : List Reply) :
    (readStructs t vs.length ioi (structReply f st handle image :: more)).1 = .ok vs ∧
    ∃ r, (readStructs t vs.length ioi (structReply f st handle image :: more)).2 = [r] ∧ r.path = ioi.buffer ∧
      r.elements.toNat = vs.length ∧ r.offset = none := by
  obtain ⟨n, r, h⟩ := unpackSlice_found t hs hw hpl vs image hv
  simp only [readStructs, single_struct ioi _ f st handle image hf more, Res.bind_ok, asBytes, h]
  refine ⟨trivial, _, rfl, rfl, ?_, rfl⟩
  simp only [BitVec.toNat_ofNat]
  omega

/-- The count is cut to 16 bits: for 65536 elements none is asked for. -/
theorem C88_count_wraps (t : Ty) (ioi : Ioi) (r : Reply) (rs : List Reply) :
    ∃ reqs, (readStructs t 65536 ioi (r :: rs)).2 = ⟨ioi.buffer, 0#16, none⟩ :: reqs := by
  have : ∀ n, ∃ reqs, (readSingle ioi tStruct n (r :: rs)).2.1 = ⟨ioi.buffer, n, none⟩ :: reqs := by
    intro n
    unfold readSingle
    simp only
    repeat' split
    all_goals exact ⟨_, rfl⟩
  exact this 0#16

/-! ### Destinations that do not work -/

/-- `ReadPacked` cannot read anything: for a structure it panics, and anything else is refused. -/
theorem C88_packed_panics (t : Ty) (h : 0 < (pack t (zero t)).2) (ioi : Ioi) (f : ReplyForm) (st : BitVec 32)
    (handle : BitVec 16) (image : Bytes) (hf : f.fits (structData handle image)) (more : List Reply) :
    (readPacked t ioi (structReply f st handle image :: more)).1 = .panic := by
  simp only [readPacked, readSlicePtr, single_struct ioi 1#16 f st handle image hf more, Res.bind_ok, asBytes, unpackOthers]
  rw [if_neg (by omega)]
  rfl

theorem C88_packed_never (t : Ty) (h : 0 < (pack t (zero t)).2) (ioi : Ioi) (replies : List Reply) (v : t.Val) :
    (readPacked t ioi replies).1 ≠ .ok v := by
  intro hc
  simp only [readPacked, readSlicePtr, Res.bind_eq_ok, unpackOthers] at hc
  obtain ⟨_, ⟨_, _, hx⟩, _⟩ := hc
  rw [if_neg (by omega)] at hx
  simp at hx

/-- Arrays, and types like `type Speed float32`, panic when the tag is a structure and are refused otherwise. -/
theorem C88_other_pointer_panics (ioi : Ioi) (f : ReplyForm) (st : BitVec 32) (handle : BitVec 16) (image : Bytes)
    (hf : f.fits (structData handle image)) (more : List Reply) :
    (readOtherPtr ioi (structReply f st handle image :: more)).1 = .panic := by
  simp only [readOtherPtr, single_struct ioi 1#16 f st handle image hf more, Res.bind_ok, asBytes]

theorem C88_other_pointer_never (ioi : Ioi) (replies : List Reply) : (readOtherPtr ioi replies).1 ≠ .ok () := by
  intro hc
  simp only [readOtherPtr, Res.bind_eq_ok] at hc
  obtain ⟨x, -, hx⟩ := hc
  simp at hx

/-- A slice of `any` that has elements panics; one that has none is asked for twice. -/
theorem C88_anys_panic (n : Nat) (h : 0 < n) (ioi : Ioi) (f : ReplyForm) (st : BitVec 32) (handle : BitVec 16)
    (image : Bytes) (hf : f.fits (structData handle image)) (more : List Reply) :
    (readAnys n ioi (structReply f st handle image :: more)).1 = .panic := by
  simp only [readAnys, single_struct ioi 1#16 f st handle image hf more, Res.bind_ok, asBytes, unpackOthers]
  rw [if_neg (by omega)]

theorem C88_anys_twice (ioi : Ioi) (f f2 : ReplyForm) (st st2 : BitVec 32) (handle handle2 : BitVec 16)
    (image image2 : Bytes) (hf : f.fits (structData handle image)) (hf2 : f2.fits (structData handle2 image2))
    (more : List Reply) :
    readAnys 0 ioi (structReply f st handle image :: structReply f2 st2 handle2 image2 :: more) =
      (.ok (), [⟨ioi.buffer, 1#16, none⟩, ⟨ioi.buffer, 0#16, none⟩]) := by
  simp only [readAnys, single_struct ioi 1#16 f st handle image hf, Res.bind_ok, asBytes, unpackOthers, if_true,
    single_struct ioi _ f2 st2 handle2 image2 hf2 more]
  rfl

/-- A structure that is passed by value, not by pointer, is not read, and there is no error. -/
theorem C88_by_value_silent (ioi : Ioi) (replies : List Reply) : readByValue ioi replies = (.ok (), []) := rfl

/-- A pointer to `any` gets the bytes of a structure as they are. -/
theorem C88_any_raw (ioi : Ioi) (f : ReplyForm) (st : BitVec 32) (handle : BitVec 16) (image : Bytes)
    (hf : f.fits (structData handle image)) (more : List Reply) :
    readAny ioi (structReply f st handle image :: more) = (.ok (.one (.bytes image)), [⟨ioi.buffer, 1#16, none⟩]) := by
  simp only [readAny, single_struct ioi 1#16 f st handle image hf more]

/-- What `Pack` writes holds the value, with anything after it. -/
theorem pack_holds (t : Ty) (hs : t.isStruct = true) (hw : t.wf = true) (hpl : plain t = true) (hbb : bitBools t = true)
    (v : t.Val) (rest : Bytes) : HoldsValue t ((pack t v).1 ++ rest) v := by
  obtain ⟨⟨hlen, -⟩, -⟩ := C17_layout_partial t hw hpl v
  have h := C16_roundtrip t hs hw v rest
  simp only [unpack, Res.bind_eq_ok] at h
  obtain ⟨⟨w, s⟩, h1, h2⟩ := h
  simp only [Res.ok.injEq, Prod.mk.injEq] at h2
  rw [h2.1] at h1
  refine ⟨?_, unpack_found t hs hw hpl hbb h1⟩
  rw [List.length_append]
  omega

/-! ### Examples -/

/-- Three bits, a 32-bit and a 16-bit number, with other bits set between them. -/
def demoImage : Bytes := [0xFD#8, 0xAA#8, 0xBB#8, 0xCC#8, 1#8, 2#8, 3#8, 4#8, 5#8, 6#8, 7#8, 8#8]

theorem demo_holds : HoldsValue demoTy demoImage (demoVal true false true 0x04030201 0x0605) := by
  unfold HoldsValue Found
  decide +kernel

example (old : demoTy.Val) (ioi : Ioi) (more : List Reply) :
    readStruct demoTy old ioi (structReply exForm 0 0x1234 demoImage :: more) =
      (demoVal true false true 0x04030201 0x0605, .ok (), [⟨ioi.buffer, 1#16, none⟩]) :=
  C88_struct_partial demoTy (by decide) (by decide) (by decide) old _ ioi exForm 0 0x1234 demoImage
    (by unfold ReplyForm.fits; decide) demo_holds more

example : bitBools demoTy = true ∧ plain demoTy = true ∧ solid demoTy = true := by decide

/-- Two of them: the elements start at multiples of four. -/
example (ioi : Ioi) : (readStructs demoTy 2 ioi [structReply exForm 0 0x1234 (demoImage ++ demoImage)]).1 =
    .ok [demoVal true false true 0x04030201 0x0605, demoVal true false true 0x04030201 0x0605] := by
  have h : HoldsArray demoTy (demoImage ++ demoImage)
      [demoVal true false true 0x04030201 0x0605, demoVal true false true 0x04030201 0x0605] := by
    unfold HoldsArray HoldsArray HoldsArray HoldsValue Found
    decide +kernel
  exact (C88_slice_partial demoTy (by decide) (by decide) (by decide) _ (by decide) ioi exForm 0 0x1234 _
    (by unfold ReplyForm.fits; decide) h []).1

example (ioi : Ioi) : (readPacked demoTy ioi [structReply exForm 0 0x1234 demoImage]).1 = .panic :=
  C88_packed_panics demoTy (by decide) ioi exForm 0 0x1234 demoImage (by unfold ReplyForm.fits; decide) []

end Gologix.ReadStruct
