import Verif.Model.WriteOwn
import Verif.Props.ReadOwn
import Verif.Props.WriteAny
set_option linter.unusedSimpArgs false
/-! C111: writing what has TIMER, COUNTER and CONTROL in it. -/
namespace Gologix.WriteOwn
open Gologix.Spec
open Gologix.Spec.Writing
open Gologix.WriteAny (Nameless)
open Gologix.ReadOwn (Readable)

/-- The type as sent.  The handles of the built-in types are those a controller has for them. -/
def OwnHandle (d : DTy) : OTy → Bytes → Prop
  | .own .timer, typ => typ = [0xA0#8, 0x02#8, 0x83#8, 0x0F#8]
  | .own .counter, typ => typ = [0xA0#8, 0x02#8, 0x82#8, 0x0F#8]
  | .own .control, typ => typ = [0xA0#8, 0x02#8, 0x81#8, 0x0F#8]
  | _, typ => HandleOf d typ

/-- The type `d` is that of `t`, and can be described. -/
def Fitting (d : DTy) : OTy → Prop
  | .own k => d = abbr k
  | _ => Plain d ∧ StructType d

/-- The request writes the elements `vs`, each where it is in a controller's array. -/
def CarriesOwns (seq : BitVec 16) (path : Bytes) (d : DTy) (t : OTy) (vs : List t.Val) (msg : Bytes) : Prop :=
  ∃ typ data, OwnHandle d t typ ∧ HoldsOwns t data vs ∧ vs.length < 65536 ∧
    msg = le 2 seq.toNat ++ writeService path typ vs.length data

theorem handle_of (d : DTy) (t : OTy) (h : Fitting d t) :
    ∃ s i, typeEncode d = .ok (s, i) ∧ OwnHandle d t ([0xA0#8, 0x02#8] ++ le 2 i.toNat) := by
  have key : Plain d ∧ StructType d → ∃ s i, typeEncode d = .ok (s, i) ∧ HandleOf d ([0xA0#8, 0x02#8] ++ le 2 i.toNat) := by
    rintro ⟨hp, hst⟩
    cases d with
    | basic n => exact hst.elim
    | bool => exact hst.elim
    | arr n e => exact hst.elim
    | known s i => exact ⟨s, i, by unfold typeEncode; rfl, .inl ⟨i, s, rfl, rfl⟩⟩
    | struct name fs =>
      obtain ⟨s, hs, hd⟩ := C81_described_partial name fs hp
      exact ⟨s, checksum s, hs, .inr ⟨s, checksum s, (by intro s i h; cases h), hd, C42_crc s, rfl⟩⟩
  cases t with
  | own k =>
    have h : d = abbr k := h
    subst h
    cases k <;> exact ⟨_, _, by unfold abbr typeEncode; rfl, by simp [OwnHandle]; decide⟩
  | _ => exact key h

theorem any_image (t : OTy) (ht : Readable t) (v : t.Val) :
    IsImage (packAny t v).1 (placeWhole t v).1 (placeWhole t v).2 ∧ HoldsOwn t (packAny t v).1 v := by
  rcases ht with ⟨k, rfl⟩ | ⟨hs, hw, hpl⟩
  · have hi : IsImage (k.pack v).1 (ownLeaves k v 0) 96 := by
      refine ⟨by exact (own_length k v).1, fun i => ?_⟩
      have := own_image k v 0 i
      simp only [Nat.zero_le, decide_true, Bool.true_and, Nat.sub_zero] at this
      exact this.symm
    have hf := found_image (by omega) hi (sound_own k v 0 (by omega)) []
    rw [List.append_nil] at hf
    refine ⟨hi, ?_, hf⟩
    show 96 ≤ 8 * (k.pack v).1.length
    rw [(own_length k v).1]
  · have e : placeWhole t v = placeOwn t v 0 := by
      cases t with
      | own k => simp [OTy.isStruct] at hs
      | _ => rfl
    have e2 : packAny t v = packOwn t v := by
      cases t with
      | own k => simp [OTy.isStruct] at hs
      | _ => rfl
    obtain ⟨hi, -⟩ := C111_layout_partial t hw hpl v
    have hpos : 0 < ownAlign t := by rcases ownAlign_cases t hw with h | h | h | h <;> omega
    have hf := found_image hpos hi (sound_placeOwn t hw hpl v 0) []
    rw [List.append_nil] at hf
    rw [HoldsOwn, e, e2]
    have hl := hi.1
    exact ⟨hi, by omega, hf⟩

/-- C111: a built-in type, or a structure with members of built-in types, is written with one request, which has its handle
and its image in the controller: all bits that are not of a member are 0, and nothing follows. -/
theorem C111_written_partial (seq : BitVec 16) (ioi : Ioi) (d : DTy) (t : OTy) (ht : Readable t) (hd : Fitting d t) (v : t.Val) :
    ∃ typ image, writeOwn seq ioi d t v = .ok (le 2 seq.toNat ++ writeService ioi.buffer typ 1 image) ∧
      OwnHandle d t typ ∧ IsImage image (placeWhole t v).1 (placeWhole t v).2 := by
  obtain ⟨s, i, hi, hh⟩ := handle_of d t hd
  refine ⟨_, (packAny t v).1, ?_, hh, (any_image t ht v).1⟩
  simp only [writeOwn, hi, Res.bind_ok]
  simp [writeUdtBytes, writeService, putBV, tStruct, le]

/-- C111: what was written is read back, from any controller that keeps the bytes; FS, LS, OV and ER of TIMERs are not
written. -/
theorem C111_written_back_partial (seq : BitVec 16) (ioi : Ioi) (d : DTy) (t : OTy) (ht : Readable t) (hd : Fitting d t)
    (old v : t.Val) :
    ∃ typ image, writeOwn seq ioi d t v = .ok (le 2 seq.toNat ++ writeService ioi.buffer typ 1 image) ∧
      ∀ (f : ReplyForm) (st : BitVec 32) (handle : BitVec 16) (more : List Reply), f.fits (structData handle image) →
        ReadOwn.readOwn t old ioi (ReadStruct.structReply f st handle image :: more) =
          (.ok (ownKept t old v), [⟨ioi.buffer, 1#16, none⟩]) := by
  obtain ⟨s, i, hi, hh⟩ := handle_of d t hd
  refine ⟨[0xA0#8, 0x02#8] ++ le 2 i.toNat, (packAny t v).1, ?_, fun f st handle more hf => ?_⟩
  · simp only [writeOwn, hi, Res.bind_ok]
    simp [writeUdtBytes, writeService, putBV, tStruct, le]
  · exact ReadOwn.C111_client_read_partial t ht old v ioi f st handle _ hf (any_image t ht v).2 more

theorem handle_type {d : DTy} {t : OTy} {typ : Bytes} (h : OwnHandle d t typ) : ∃ r, typ = 0xA0#8 :: 0x02#8 :: r := by
  have key : HandleOf d typ → ∃ r, typ = 0xA0#8 :: 0x02#8 :: r := by
    rintro (⟨i, s, -, h⟩ | ⟨s, i, -, -, -, h⟩) <;> exact ⟨_, h⟩
  cases t with
  | own k => cases k <;> exact ⟨_, h⟩
  | _ => exact key h

theorem nameless_owns {seq n : BitVec 16} {path raw msg : Bytes} {d : DTy} {t : OTy} {vs : List t.Val}
    (h : Nameless seq path n raw msg) : ¬ CarriesOwns seq path d t vs msg := by
  rintro ⟨typ, data, hm, -, -, he⟩
  obtain ⟨r, rfl⟩ := handle_type hm
  rw [h] at he
  simp only [writeService, List.append_assoc, List.cons_append, List.nil_append, List.append_cancel_left_eq,
    List.cons.injEq, true_and] at he
  exact absurd he.1 (by decide)

/-- C111 fails for pointers, for all values: they are sent as a structure without a handle, … -/
theorem C111_pointer_wrong (seq : BitVec 16) (ioi : Ioi) (d : DTy) (t : OTy) (v : t.Val) :
    Nameless seq ioi.buffer 1#16 (enc t v) (writeOwnPtr seq ioi t v) ∧
    ¬ CarriesOwns seq ioi.buffer d t [v] (writeOwnPtr seq ioi t v) := by
  have h : Nameless seq ioi.buffer 1#16 (enc t v) (writeOwnPtr seq ioi t v) := by
    simp only [Nameless, writeOwnPtr, writeFooter_two tStruct (by decide)]
    simp [putBV, tStruct]
  exact ⟨h, nameless_owns h⟩

/-- … and for slices, although slices are read (`C111_client_slice_partial`). -/
theorem C111_written_slice_wrong (seq : BitVec 16) (ioi : Ioi) (d : DTy) (t : OTy) (vs : List t.Val) :
    Nameless seq ioi.buffer (BitVec.ofNat 16 vs.length) (vs.map (enc t)).flatten (writeOwns seq ioi t vs) ∧
    ¬ CarriesOwns seq ioi.buffer d t vs (writeOwns seq ioi t vs) := by
  have h : Nameless seq ioi.buffer (BitVec.ofNat 16 vs.length) (vs.map (enc t)).flatten (writeOwns seq ioi t vs) := by
    simp only [Nameless, writeOwns, writeFooter_two tStruct (by decide)]
    simp [putBV, tStruct]
  exact ⟨h, nameless_owns h⟩

/-- Number of bytes of a built-in type by itself: 4 for each number and 1 for each flag. -/
def rawSize : Own → Nat
  | .timer => 15
  | .counter => 13
  | .control => 16

/-- The bytes of the slice are not the controller's either: the elements are 15, 13 and 16 bytes long instead of 12. -/
theorem C111_written_slice_size (k : Own) (vs : List (OTy.own k).Val) :
    ((vs.map (enc (.own k))).flatten).length = vs.length * rawSize k := by
  have e : ∀ v : (OTy.own k).Val, (enc (.own k) v).length = rawSize k := by
    intro v
    cases k <;> simp [enc, Own.enc, putBV_length, rawSize]
  induction vs with
  | nil => simp only [List.map_nil, List.flatten_nil, List.length_nil, Nat.zero_mul]
  | cons v vs ih =>
    simp only [List.map_cons, List.flatten_cons, List.length_append, ih, List.length_cons, Nat.add_mul, e v]
    omega

/-! ### Examples -/

/-- A TIMER is written as its control word, preset and accumulated value, under its handle. -/
example : writeOwn 1#16 WriteAny.demoIoi (abbr .timer) (.own .timer) ReadOwn.timerA = .ok
    [1#8, 0#8, 0x4D#8, 2#8, 0x91#8, 1#8, 0x61#8, 0#8, 0xA0#8, 2#8, 0x83#8, 0x0F#8, 1#8, 0#8,
      0#8, 0#8, 0#8, 0xA0#8, 0xE8#8, 3#8, 0#8, 0#8, 7#8, 0#8, 0#8, 0#8] := by decide +kernel

example : Readable (.own .timer) ∧ Fitting (abbr .timer) (.own .timer) := ⟨.inl ⟨_, rfl⟩, rfl⟩

/-- A structure of an INT and a COUNTER. -/
example : Readable (.cons false (.ty (.num 2)) (.cons false (.own .counter) .nil)) ∧
    Fitting (.struct (str "T") [.basic (str "int16"), abbr .counter]) (.cons false (.ty (.num 2)) (.cons false (.own .counter) .nil)) :=
  ⟨.inr ⟨rfl, rfl, rfl⟩, .struct (.one (.number (l := str "INT") (by decide +kernel)) (.one .known .nil)), trivial⟩

/-- A pointer to a TIMER: no handle, no control word. -/
example : writeOwnPtr 1#16 WriteAny.demoIoi (.own .timer) ReadOwn.timerA =
    [1#8, 0#8, 0x4D#8, 2#8, 0x91#8, 1#8, 0x61#8, 0#8, 0xA0#8, 0#8, 1#8, 0#8,
      0xE8#8, 3#8, 0#8, 0#8, 7#8, 0#8, 0#8, 0#8, 1#8, 0#8, 1#8, 0#8, 0#8, 0#8, 0#8] := by decide +kernel

end Gologix.WriteOwn
