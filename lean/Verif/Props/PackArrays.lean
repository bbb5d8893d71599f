import Verif.Props.ReadStruct
set_option linter.unusedSimpArgs false
namespace Gologix
open Spec
open ReadStruct

/-! ### Arrays of structures that need no padding -/

theorem spot_shift (d : Nat) (ls ms : List Leaf) (h : ls.map Leaf.spot = ms.map Leaf.spot) :
    (ls.map (Leaf.shift d)).map Leaf.spot = (ms.map (Leaf.shift d)).map Leaf.spot := by
  have e : ∀ ns : List Leaf, (ns.map (Leaf.shift d)).map Leaf.spot = (ns.map Leaf.spot).map fun s => (s.1 + d, s.2) := by
    intro ns
    simp only [List.map_map]
    rfl
  rw [e, e, h]

theorem run_shift (c d : Nat) (xs : List (Nat × Nat)) :
    ((run c xs).map (Leaf.shift d)).map Leaf.spot = (run (c + d) xs).map Leaf.spot := by
  induction xs generalizing c with
  | nil => rfl
  | cons x xs ih =>
    simp only [run, List.map_cons, ih]
    rw [show c + x.1 + d = c + d + x.1 by omega]
    rfl

theorem dense_unpacked {f : Ty} {o : Nat} (h : dense f o = true) (np : Bool) (v : f.Val) : packedBools np f v = none := by
  cases np with
  | true => cases f <;> rfl
  | false =>
    cases f with
    | bool => simp [dense] at h
    | arr n t => cases t <;> first | rfl | simp [dense] at h
    | _ => rfl

/-- In a structure without padding the scalars follow each other. -/
theorem place_dense (t : Ty) (hs : t.isStruct = true) (hw : t.wf = true) (v : t.Val) (o : Nat) (hd : dense t o = true) :
    (place t v (8 * o)).1.map Leaf.spot = (run (8 * o) ((scalars t v).map fun x => (8 * x.1, x.2))).map Leaf.spot ∧
    (place t v (8 * o)).2 = 8 * (o + bytes t) := by
  induction t generalizing o with
  | num k => simp [Ty.isStruct] at hs
  | bool => simp [Ty.isStruct] at hs
  | arr n t ih => simp [Ty.isStruct] at hs
  | nil => exact ⟨rfl, rfl⟩
  | cons np f rest ihf ihr =>
    simp only [Ty.wf, Bool.and_eq_true] at hw
    simp only [dense, Bool.and_eq_true, beq_iff_eq, decide_eq_true_eq] at hd
    obtain ⟨⟨⟨⟨d1, d2⟩, d3⟩, d4⟩, d5⟩ := hd
    have hc : roundUp (8 * o) (8 * natAlign f) = 8 * o :=
      roundUp_of_mod (by have := natAlign_pos f hw.1.1; omega) (by rw [Nat.mul_mod_mul_left, d1])
    obtain ⟨r1, r2⟩ := ihr hw.2 hw.1.2 v.2 _ d5
    simp only [place, dense_unpacked d4, scalars, List.map_append]
    rw [run_append, sum_bits, sum_flat, hc, List.map_append]
    cases hst : f.isStruct with
    | true =>
      simp only [if_true]
      obtain ⟨f1, f2⟩ := ihf hst hw.1.1 v.1 0 (dense_zero hw.1.1 d1 d4)
      rw [Nat.mul_zero] at f1 f2
      rw [f2, Nat.zero_add, roundUp_of_mod (by decide) (by simp), show 8 * o + 8 * bytes f = 8 * (o + bytes f) by omega]
      refine ⟨?_, by rw [r2]; simp only [bytes]; omega⟩
      rw [r1, spot_shift _ _ _ f1, run_shift, Nat.zero_add, ← bytes_flat,
        show 8 * o + 8 * bytes f = 8 * (o + bytes f) by omega]
    | false =>
      simp only [Bool.false_eq_true, if_false]
      rw [← bytes_flat, show 8 * o + 8 * bytes f = 8 * (o + bytes f) by omega]
      exact ⟨by rw [r1], by rw [r2]; simp only [bytes]; omega⟩

theorem placeAll_dense (t : Ty) (hs : t.isStruct = true) (hw : t.wf = true) (hd : dense t 0 = true)
    (h8 : bytes t % natAlign t = 0) (xs : List t.Val) (c : Nat) :
    (placeAll t xs c).map Leaf.spot = (run c ((xs.flatMap (scalars t)).map fun x => (8 * x.1, x.2))).map Leaf.spot := by
  induction xs generalizing c with
  | nil => rfl
  | cons x xs ih =>
    obtain ⟨p1, p2⟩ := place_dense t hs hw x 0 hd
    rw [Nat.mul_zero] at p1 p2
    simp only [placeAll, List.flatMap_cons, List.map_append]
    rw [run_append, sum_bits, sum_flat, List.map_append, ih, spot_shift _ _ _ p1, run_shift, Nat.zero_add, p2, Nat.zero_add,
      roundUp_of_mod (by have := natAlign_pos t hw; omega) (by rw [Nat.mul_mod_mul_left, h8]), bytes_flat]

/-- C17, for arrays of structures that need no padding: the layout of `C17_layout_partial` puts the elements one after
the other, each at a multiple of its alignment with its own layout inside, and the next field after the last of them. -/
theorem C17_elements_partial (np : Bool) (n : Nat) (t rest : Ty) (hs : t.isStruct = true) (hw : t.wf = true)
    (hd : dense (.arr n t) 0 = true) (v : (Ty.cons np (.arr n t) rest).Val) (c : Nat) :
    (place (.cons np (.arr n t) rest) v c).1.map Leaf.spot =
      (placeAll t (Rep.toList n v.1) (roundUp c (8 * natAlign t)) ++
        (place rest v.2 (roundUp c (8 * natAlign t) + 8 * (n * bytes t))).1).map Leaf.spot := by
  have hb := dense_unpacked hd np v.1
  simp only [dense, Bool.and_eq_true, beq_iff_eq] at hd
  have e := placeAll_dense t hs hw hd.2 hd.1.2 (Rep.toList n v.1) (roundUp c (8 * natAlign t))
  simp only [place, hb, Ty.isStruct, Bool.false_eq_true, if_false, List.map_append]
  rw [sum_flat, e]
  simp only [scalars, natAlign, Ty.flat, bytes_flat]

/-- C17 fails for arrays of structures with booleans, for all values: in `struct { A [2]struct{B, C bool} }` every boolean
takes a byte of its own. -/
theorem C17_array_of_flags (a b c d : Bool) :
    pack (.cons false (.arr 2 (.cons false .bool (.cons false .bool .nil))) .nil) (((a, b, ()), (c, d, ()), ()), ()) =
      ([boolByte a, boolByte b, boolByte c, boolByte d], 4) := by
  cases a <;> cases b <;> cases c <;> cases d <;> decide

/-- C88 fails for arrays of structures that need padding, for all values and all padding: of the controller's image of
`struct { A [2]struct{X uint8; Y uint32} }` the first three bytes of Y are taken from the padding, and nothing is reported. -/
theorem C88_padded_array_wrong (old : (Ty.cons false (.arr 2 (.cons false (.num 1) (.cons false (.num 4) .nil))) .nil).Val)
    (x0 p1 p2 p3 a0 a1 a2 a3 x1 q1 q2 q3 b0 b1 b2 b3 : Byte)
    (ioi : Ioi) (f : ReplyForm) (st : BitVec 32) (handle : BitVec 16) (more : List Reply)
    (hf : f.fits (structData handle [x0, p1, p2, p3, a0, a1, a2, a3, x1, q1, q2, q3, b0, b1, b2, b3])) :
    readStruct (.cons false (.arr 2 (.cons false (.num 1) (.cons false (.num 4) .nil))) .nil) old ioi
      (structReply f st handle [x0, p1, p2, p3, a0, a1, a2, a3, x1, q1, q2, q3, b0, b1, b2, b3] :: more) =
    ((((BitVec.ofNat 8 (unle [x0]), BitVec.ofNat 32 (unle [p1, p2, p3, a0]), ()),
      (BitVec.ofNat 8 (unle [a1]), BitVec.ofNat 32 (unle [a2, a3, x1, q1]), ()), ()), ()), .ok (), [⟨ioi.buffer, 1#16, none⟩]) := by
  have h1 : unpackFields (.cons false (.arr 2 (.cons false (.num 1) (.cons false (.num 4) .nil))) .nil)
      ⟨[x0, p1, p2, p3, a0, a1, a2, a3, x1, q1, q2, q3, b0, b1, b2, b3], 0, 0, 0#8⟩ =
      .ok ((((BitVec.ofNat 8 (unle [x0]), BitVec.ofNat 32 (unle [p1, p2, p3, a0]), ()),
      (BitVec.ofNat 8 (unle [a1]), BitVec.ofNat 32 (unle [a2, a3, x1, q1]), ()), ()), ()),
      ⟨[q2, q3, b0, b1, b2, b3], 16, 0, 0#8⟩) := rfl
  have h2 := into_of_fields rfl (by decide) old h1
  simp only [readStruct, single_struct ioi 1#16 f st handle _ hf more, Res.bind_ok, asBytes, h2]
  rfl

/-- `struct { A uint16; B [2]struct{X uint32; Y, Z uint16}; C bool }`. -/
def denseTy : Ty :=
  .cons false (.num 2) (.cons false (.arr 2 (.cons false (.num 4) (.cons false (.num 2) (.cons false (.num 2) .nil))))
    (.cons false .bool .nil))

example : plain denseTy = true ∧ denseTy.wf = true := by decide
example : pack denseTy (0x0102#16, ((0x11223344#32, 0x5566#16, 0x7788#16, ()), (1#32, 2#16, 3#16, ()), ()), true, ()) =
    ([2#8, 1#8, 0#8, 0#8, 0x44#8, 0x33#8, 0x22#8, 0x11#8, 0x66#8, 0x55#8, 0x88#8, 0x77#8, 1#8, 0#8, 0#8, 0#8, 2#8, 0#8, 3#8, 0#8,
      1#8], 21) := by decide
-- an array of structures that needs padding
example : plain (.cons false (.arr 2 (.cons false (.num 1) (.cons false (.num 4) .nil))) .nil) = false := by decide
-- and one that would need it after each element
example : plain (.cons false (.arr 2 (.cons false (.num 4) (.cons false (.num 2) .nil))) .nil) = false := by decide

end Gologix
