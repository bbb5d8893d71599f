import Verif.Model.ReadOwn
import Verif.Props.PackOwn
import Verif.Props.ReadStruct
set_option linter.unusedSimpArgs false
/-! C111: reading what has TIMER, COUNTER and CONTROL in it. -/
namespace Gologix.ReadOwn
open Gologix.Spec
open Gologix.ReadStruct

/-- What can be read by itself: a built-in type, or a structure. -/
def Readable (t : OTy) : Prop := (∃ k, t = .own k) ∨ (t.isStruct = true ∧ t.wf = true ∧ plainOwn t = true)

theorem any_found (t : OTy) (ht : Readable t) (old v : t.Val) (b : Bytes) (h : HoldsOwn t b v) :
    unpackAny t old b = .ok (ownKept t old v, ((placeWhole t v).2 + 7) / 8, b.drop (((placeWhole t v).2 + 7) / 8)) := by
  rcases ht with ⟨k, rfl⟩ | ⟨hs, hw, hpl⟩
  · have e : (((placeWhole (.own k) v).2 + 7) / 8) = 12 := by simp [placeWhole]
    rw [e]
    exact own_found k old v h.2
  · have e : placeWhole t v = placeOwn t v 0 := by
      cases t with
      | own k => simp [OTy.isStruct] at hs
      | _ => rfl
    have e2 : unpackAny t old b = unpackOwn t old b := by
      cases t with
      | own k => simp [OTy.isStruct] at hs
      | _ => rfl
    rw [HoldsOwn, e] at h
    rw [e, e2]
    exact C111_read_partial t hs hw hpl old v b h.1 h.2

/-- C111: a controller's image of a built-in type, or of a structure with members of built-in types, is read into the
destination with one request for one element.  FS, LS, OV and ER of TIMERs stay as they were. -/
theorem C111_client_read_partial (t : OTy) (ht : Readable t) (old v : t.Val) (ioi : Ioi) (f : ReplyForm) (st : BitVec 32)
    (handle : BitVec 16) (image : Bytes) (hf : f.fits (structData handle image)) (hv : HoldsOwn t image v) (more : List Reply) :
    readOwn t old ioi (structReply f st handle image :: more) = (.ok (ownKept t old v), [⟨ioi.buffer, 1#16, none⟩]) := by
  simp only [readOwn, single_struct ioi 1#16 f st handle image hf more, Res.bind_ok, asBytes, any_found t ht old v image hv]

theorem roundUp_ite (s : Nat) {a : Nat} (ha : 0 < a) : roundUp s a = if s % a = 0 then s else s + (a - s % a) := by
  unfold roundUp
  have hd := Nat.div_add_mod s a
  have hm := Nat.mod_lt s ha
  split
  · rename_i hz
    rw [show (s + (a - 1)) / a = s / a by rw [Nat.div_eq_iff ha, Nat.mul_comm]; omega, Nat.mul_comm]; omega
  · rename_i hz
    rw [show (s + (a - 1)) / a = s / a + 1 by rw [Nat.div_eq_iff ha, Nat.add_mul, Nat.mul_comm]; omega,
      Nat.add_mul, Nat.mul_comm]; omega

theorem slice_found (t : OTy) (ht : Readable t) (hw : t.wf = true) (olds vs : List t.Val) (hl : olds.length = vs.length)
    (b : Bytes) (h : HoldsOwns t b vs) : ∃ r, unpackOwnSlice t olds b = .ok (ownsKept t olds vs, r) := by
  have ha : 0 < ownAlign t := by rcases ownAlign_cases t hw with h | h | h | h <;> omega
  induction olds generalizing vs b with
  | nil => exact ⟨b, rfl⟩
  | cons old olds ih =>
    cases vs with
    | nil => simp at hl
    | cons v vs =>
      obtain ⟨h1, h2, h3⟩ := h
      have u := any_found t ht old v b h1
      obtain ⟨r, hr⟩ := ih vs (by simpa using hl) _ h3
      simp only [unpackOwnSlice, u, Res.bind_ok, ownAlign_eq t, ownsKept]
      have hst : ownStride t v = roundUp (((placeWhole t v).2 + 7) / 8) (ownAlign t) := rfl
      generalize ((placeWhole t v).2 + 7) / 8 = s at *
      have hm := Nat.mod_lt s ha
      rw [roundUp_ite s ha] at hst
      by_cases hz : s % ownAlign t = 0
      · rw [if_pos hz] at hst
        rw [hst] at hr
        simp only [hz, ne_eq, not_true, if_false, Res.bind_ok, hr]
        exact ⟨_, rfl⟩
      · rw [if_neg hz] at hst
        rw [hst] at hr h2
        have hne : b.drop s ≠ [] := by
          intro e
          have := congrArg List.length e
          simp only [List.length_nil, List.length_drop] at this
          omega
        simp only [hz, ne_eq, not_false_eq_true, if_true, hne, if_false, Res.bind_ok]
        rw [List.drop_drop, hr]
        exact ⟨_, rfl⟩

/-- C111, slices: the elements of a controller's array are read in order, with one request for as many.  So a slice of
TIMERs is read although an array of them in a structure is not (`C111_array_short`). -/
theorem C111_client_slice_partial (t : OTy) (ht : Readable t) (hw : t.wf = true) (olds vs : List t.Val)
    (hl : olds.length = vs.length) (hn : vs.length < 65536) (ioi : Ioi) (f : ReplyForm) (st : BitVec 32)
    (handle : BitVec 16) (image : Bytes) (hf : f.fits (structData handle image)) (hv : HoldsOwns t image vs) (more : List Reply) :
    (readOwns t olds ioi (structReply f st handle image :: more)).1 = .ok (ownsKept t olds vs) ∧
    ∃ r, (readOwns t olds ioi (structReply f st handle image :: more)).2 = [r] ∧ r.path = ioi.buffer ∧
      r.elements.toNat = vs.length ∧ r.offset = none := by
  obtain ⟨r, h⟩ := slice_found t ht hw olds vs hl image hv
  simp only [readOwns, single_struct ioi _ f st handle image hf more, Res.bind_ok, asBytes, h]
  refine ⟨trivial, _, rfl, rfl, ?_, rfl⟩
  simp only [BitVec.toNat_ofNat]
  omega

/-! ### Examples -/

/-- The images of two TIMERs: EN and DN, preset 1000, accumulated 7; then TT, preset 5, accumulated 4.  Bits the library
does not know are set in the control words. -/
def timersImage : Bytes :=
  [1#8, 0#8, 0#8, 0xA4#8, 0xE8#8, 3#8, 0#8, 0#8, 7#8, 0#8, 0#8, 0#8, 0xFF#8, 0#8, 0#8, 0x40#8, 5#8, 0#8, 0#8, 0#8, 4#8, 0#8, 0#8, 0#8]

def timerA : Timer := ⟨1000#32, 7#32, true, false, true, false, false, false, false⟩
def timerB : Timer := ⟨5#32, 4#32, false, true, false, false, false, false, false⟩

theorem timers_held : HoldsOwns (.own .timer) timersImage [timerA, timerB] := by
  simp only [HoldsOwns, HoldsOwn, Found, ownStride]
  decide +kernel

example (old0 old1 : Timer) (ioi : Ioi) (more : List Reply) :
    (readOwns (.own .timer) [old0, old1] ioi (structReply exForm 0 0x0F83 timersImage :: more)).1 =
      .ok (ownsKept (.own .timer) [old0, old1] [timerA, timerB]) :=
  (C111_client_slice_partial (.own .timer) (.inl ⟨_, rfl⟩) rfl [old0, old1] [timerA, timerB] rfl (by decide) ioi exForm 0
    0x0F83 timersImage (by unfold ReplyForm.fits; decide) timers_held more).1

end Gologix.ReadOwn
