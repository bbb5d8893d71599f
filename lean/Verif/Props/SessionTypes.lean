import Verif.Props.SessionBits
import Verif.Props.StoreTypes
set_option linter.unusedSimpArgs false
/-
C120: values of another type, written to arrays of a server.
-/
namespace Gologix.Session
open Gologix Gologix.Spec Gologix.Server Gologix.Server.Spec Gologix.Connect Gologix.Connect.Spec Gologix.Session.Spec

/-- A write the tags refuse: the server does not answer and gives the connection up, and the tags are what they were. -/
theorem refused_served {s : Settings} {k : Conn} {ep : Nat} {y : Sys} {tags : Store} {tag : List Part} {dt : Byte}
    {ioi : Ioi} {T : GoTy} {v : WVal} {vs : List Scal} {d left : Bytes} {e : Err} (C : Conv) (seq : BitVec 16) (hq : Quiet y)
    (hsv : Serves y.server.srv s.ot k ep tags) (hp : ClientPath tag dt ioi)
    (hl : (writeBytes seq ioi v).length < 65536)
    (hbytes : writeBytes seq ioi v = le 2 seq.toNat ++ 0x4D#8 :: BitVec.ofNat 8 (ioi.buffer.length / 2) ::
      (ioi.buffer ++ (typeField T ++ d)))
    (hpv : parseWriteValues (typeField T ++ d) = .ok (vs, left)) (hne : vs ≠ [])
    (hw : tagWrite C tags (render tag) (written vs) = (.err e, tags)) :
    ∃ y', perform C s y (.write seq ioi v) = (.err .eof, y') ∧ y'.up = false ∧ Serves y'.server.srv s.ot k ep tags := by
  obtain ⟨hp', hrn⟩ := clientPath_of hp
  have ha' := frame_asks y.server s _ hl
  rw [hbytes] at ha'
  have htw : tagWrite C tags (render (lowerPath tag)) (written vs) = (.err e, tags) := by
    rw [hrn, tagWrite_same (t := render tag) _ (toLower_idem _), hw]
  obtain ⟨st', h1, h2, h3⟩ := write_step_refused (C := C) ha' hp' hsv hpv hne htw
  obtain ⟨q1, q2, q3⟩ := hq
  refine ⟨⟨st', [], false⟩, ?_, rfl, h3⟩
  simp only [perform, hbytes]
  have hex : exchange C y (connectedFrame s (le 2 seq.toNat ++ 0x4D#8 :: BitVec.ofNat 8 (ioi.buffer.length / 2) ::
      (ioi.buffer ++ (typeField T ++ d)))) = (.err .eof, ⟨st', [], false⟩) := by
    unfold exchange
    rw [q1, q3]
    simp only [Bool.not_true, Bool.false_eq_true, if_false]
    rw [h1]
    simp only
    rw [q2, h2]
    simp only [List.drop_length, List.flatten_nil, List.append_nil]
    rfl
  rw [hex]
  rfl

/-- The tags of the server hold what the memory says, but the client has no connection any more: every call is an error and
changes nothing. -/
def Cut (C : Conv) (s : Settings) (k : Conn) (ep : Nat) (y : Sys) (m : Memory) : Prop :=
  (∃ tags : Store, Serves y.server.srv s.ot k ep tags ∧ Holds tags m) ∧
    ∀ cs, (performAll C s y cs).2 = y ∧ ∀ r ∈ (performAll C s y cs).1, ∃ e, r = .err e

theorem one_length {v : Scal} {T : GoTy} (hv : Server.Fits v T) (seq : BitVec 16) {ioi : Ioi} (hl : ioi.buffer.length ≤ 65000) :
    (writeBytes seq ioi (.one v)).length < 65536 := by
  have h1 := encode_small hv
  have h2 := typeField_length T
  rw [write_one_bytes hv.1]
  simp
  omega

theorem many_length {a : GoTy} {vs : List Scal} (ha : a ≠ .str) (hb : a ≠ .bool) (hv : ∀ v ∈ vs, v.ty = some a) (seq : BitVec 16)
    {ioi : Ioi} (hl : ioi.buffer.length + goSize a * vs.length ≤ 65000) :
    (writeBytes seq ioi (.many a vs)).length < 65536 ∧ vs.length < 65536 := by
  have h1 := encodes_length ha vs hv
  have h2 := typeField_length a
  have hpos : 1 ≤ goSize a := by cases a <;> decide
  have hn : vs.length ≤ 65000 := Nat.le_trans (Nat.le_mul_of_pos_left _ hpos) (by omega)
  refine ⟨?_, by omega⟩
  rw [write_many_bytes ha hb hv]
  simp only [List.length_append, List.length_cons, le_length, List.append_nil, h1]
  omega

theorem written_many {vs : List Scal} (h : 2 ≤ vs.length) : written vs = .slice none (vs.map TVal.scal) := by
  match vs, h with
  | _ :: _ :: _, _ => rfl

theorem held_fits {T : GoTy} (hs : T ≠ .str) {vs ws : List Scal} (h : AllHeld T vs ws) : ∀ w ∈ ws, Server.Fits w T := by
  induction h with
  | nil => intro w hw; cases hw
  | cons h1 _ ih =>
    intro w hw
    rcases List.mem_cons.1 hw with rfl | hw
    · refine ⟨h1.1, fun t e => ?_⟩
      subst e
      exact absurd (Option.some.inj h1.1).symm hs
    · exact ih w hw

/-- C120, one element: a value that an array of another type takes is held by the element as a value of that type - the same
number, if the type has it -, the other elements and tags stay what they are and the session goes on. -/
theorem C120_converts (C : Conv) (s : Settings) (k : Conn) (ep : Nat) (y : Sys) (m : Memory) (tag : List Part) (name : Str)
    (i : Nat) (T a : GoTy) (vs : List Scal) (v : Scal) (dt : Byte) (ioi : Ioi) (seq : BitVec 16) (hj : Joined s k ep y m)
    (hp : ClientPath tag dt ioi) (hl : ioi.buffer.length ≤ 65000) (hpl : Place tag name (some i))
    (hm : m name = some (.many T vs)) (hi : i < vs.length) (hv : Server.Fits v a) (ht : Takes T a) (hs : T ≠ .str) :
    ∃ y' w, perform C s y (.write seq ioi (.one v)) = (.ok .done, y') ∧ HeldAs T v w ∧
      ∀ m', m.After name (.many T (vs.set i w)) m' → Joined s k ep y' m' := by
  obtain ⟨hq, tags, hsv, hh⟩ := hj
  obtain ⟨g1, g2⟩ := hh _ _ hm
  cases hpl with
  | element hr hi' =>
    rcases convert_typed C v a T hv.1 with ⟨-, w, hw, hheld⟩ | ⟨hT, -⟩
    · have htw : tagWrite C tags (render tag) (.scal v) =
          (.ok (), tags.set (toLower name) (Cell.kept (.many T (vs.set i w)))) := by
        rw [hr]
        unfold tagWrite elemName
        rw [parse_elem (atoi_dec hi')]
        simp only [g1, Cell.kept, List.length_map]
        rw [if_neg (by omega), hw]
        simp [List.map_set]
      obtain ⟨left, hpv⟩ := parse_one hv
      obtain ⟨y', h1, h2, h3, h4, h5⟩ := write_served C seq hq hsv hp (one_length hv seq hl) (write_one_bytes hv.1 seq ioi) hpv
        (by simp) htw
      refine ⟨y', w, h1, hheld, fun m' hm' => ⟨h2, _, h5, holds_set hh hm' fun u hu => ?_⟩⟩
      rcases List.mem_or_eq_of_mem_set hu with hu | rfl
      · exact g2 u hu
      · refine ⟨hheld.1, fun t e => ?_⟩
        subst e
        have := hheld.1
        cases this
        exact absurd rfl hs
    · exact absurd ht hT

/-- C120: a value that an array of another type does not take is an error and nothing changes.  Missing: the session does not
go on, the connection is lost. -/
theorem C120_refused_partial (C : Conv) (s : Settings) (k : Conn) (ep : Nat) (y : Sys) (m : Memory) (tag : List Part) (name : Str)
    (i : Nat) (T a : GoTy) (vs : List Scal) (v : Scal) (dt : Byte) (ioi : Ioi) (seq : BitVec 16) (hj : Joined s k ep y m)
    (hp : ClientPath tag dt ioi) (hl : ioi.buffer.length ≤ 65000) (hpl : Place tag name (some i))
    (hm : m name = some (.many T vs)) (hv : Server.Fits v a) (ht : ¬ Takes T a ∨ vs.length ≤ i) :
    ∃ y', perform C s y (.write seq ioi (.one v)) = (.err .eof, y') ∧ Cut C s k ep y' m := by
  obtain ⟨hq, tags, hsv, hh⟩ := hj
  obtain ⟨g1, g2⟩ := hh _ _ hm
  cases hpl with
  | element hr hi' =>
    have htw : tagWrite C tags (render tag) (.scal v) = (.err .fail, tags) := by
      rw [hr]
      unfold tagWrite elemName
      rw [parse_elem (atoi_dec hi')]
      simp only [g1, Cell.kept, List.length_map]
      by_cases hi : vs.length ≤ i
      · rw [if_pos (by omega)]
      · rw [if_neg (by omega)]
        rcases convert_typed C v a T hv.1 with ⟨hT, -⟩ | ⟨-, hw⟩
        · rcases ht with ht | ht
          · exact absurd hT ht
          · exact absurd ht hi
        · rw [hw]
    obtain ⟨left, hpv⟩ := parse_one hv
    obtain ⟨y', h1, h2, h3⟩ := refused_served C seq hq hsv hp (one_length hv seq hl) (write_one_bytes hv.1 seq ioi) hpv
      (by simp) htw
    exact ⟨y', h1, ⟨tags, h3, hh⟩, fun cs => ⟨(performAll_down C s _ h2 cs).1, (performAll_down C s _ h2 cs).2.2⟩⟩

/-- C120, an array: values that an array of another type takes are held by it as values of that type. -/
theorem C120_array_converts (C : Conv) (s : Settings) (k : Conn) (ep : Nat) (y : Sys) (m : Memory) (tag : List Part)
    (T a : GoTy) (old vs : List Scal) (dt : Byte) (ioi : Ioi) (seq : BitVec 16) (hj : Joined s k ep y m)
    (hp : ClientPath tag dt ioi) (hl : ioi.buffer.length + goSize a * vs.length ≤ 65000) (hw : wholeName (render tag))
    (hm : m (render tag) = some (.many T old)) (ha : a ≠ .str) (hb : a ≠ .bool) (hv : ∀ v ∈ vs, v.ty = some a) (h2 : 2 ≤ vs.length)
    (hs : T ≠ .str) (ht : Takes T a) :
    ∃ y' ws, perform C s y (.write seq ioi (.many a vs)) = (.ok .done, y') ∧ AllHeld T vs ws ∧
      ∀ m', m.After (render tag) (.many T ws) m' → Joined s k ep y' m' := by
  obtain ⟨hq, tags, hsv, hh⟩ := hj
  obtain ⟨g1, g2⟩ := hh _ _ hm
  obtain ⟨k1, k2⟩ := many_length ha hb hv seq hl
  obtain ⟨ws, hc, hheld⟩ := (convertAll_typed C T vs fun v h => by rw [hv v h]; simp).1 fun v h => ⟨a, hv v h, ht⟩
  have htw : tagWrite C tags (render tag) (written vs) =
      (.ok (), tags.set (toLower (render tag)) (Cell.kept (.many T ws))) := by
    rw [written_many h2]
    unfold tagWrite
    rw [parse_whole hw]
    simp only [g1, Cell.kept, hc]
  obtain ⟨y', e1, e2, e3, e4, e5⟩ := write_served C seq hq hsv hp k1 (write_many_bytes ha hb hv seq ioi)
    (parse_values ha hv k2 []) (by intro e; rw [e] at h2; simp at h2) htw
  exact ⟨y', ws, e1, hheld, fun m' hm' => ⟨e2, _, e5, holds_set hh hm' (held_fits hs hheld)⟩⟩

/-- C120, an array: values that an array of another type does not take are an error and nothing changes.  Missing: the
connection is lost. -/
theorem C120_array_refused_partial (C : Conv) (s : Settings) (k : Conn) (ep : Nat) (y : Sys) (m : Memory) (tag : List Part)
    (T a : GoTy) (old vs : List Scal) (dt : Byte) (ioi : Ioi) (seq : BitVec 16) (hj : Joined s k ep y m)
    (hp : ClientPath tag dt ioi) (hl : ioi.buffer.length + goSize a * vs.length ≤ 65000) (hw : wholeName (render tag))
    (hm : m (render tag) = some (.many T old)) (ha : a ≠ .str) (hb : a ≠ .bool) (hv : ∀ v ∈ vs, v.ty = some a) (h2 : 2 ≤ vs.length)
    (ht : ¬ Takes T a) :
    ∃ y', perform C s y (.write seq ioi (.many a vs)) = (.err .eof, y') ∧ Cut C s k ep y' m := by
  obtain ⟨hq, tags, hsv, hh⟩ := hj
  obtain ⟨g1, g2⟩ := hh _ _ hm
  obtain ⟨k1, k2⟩ := many_length ha hb hv seq hl
  obtain ⟨v, hvm⟩ : ∃ v, v ∈ vs := by
    match vs, h2 with
    | v :: _, _ => exact ⟨v, by simp⟩
  have hc := (convertAll_typed C T vs fun v h => by rw [hv v h]; simp).2 ⟨v, hvm, a, hv v hvm, ht⟩
  have htw : tagWrite C tags (render tag) (written vs) = (.err .fail, tags) := by
    rw [written_many h2]
    unfold tagWrite
    rw [parse_whole hw]
    simp only [g1, Cell.kept, hc]
  obtain ⟨y', e1, e2, e3⟩ := refused_served C seq hq hsv hp k1 (write_many_bytes ha hb hv seq ioi)
    (parse_values ha hv k2 []) (by intro e; rw [e] at h2; simp at h2) htw
  exact ⟨y', e1, ⟨tags, e3, hh⟩, fun cs => ⟨(performAll_down C s _ e2 cs).1, (performAll_down C s _ e2 cs).2.2⟩⟩

/-- C119, an element: writing a bit of an element of an array of numbers is an error, nothing changes and the connection is
lost. -/
theorem C119_element_write_ends (C : Conv) (s : Settings) (k : Conn) (ep : Nat) (y : Sys) (m : Memory) (tag : List Part) (n : Nat)
    (name : Str) (i : Nat) (T : GoTy) (vs : List Scal) (ioi : Ioi) (seq : BitVec 16) (b : Bool) (hj : Joined s k ep y m)
    (hp : BitPath tag n ioi) (hl : ioi.buffer.length ≤ 65000) (hpl : Place tag name (some i))
    (hm : m name = some (.many T vs)) (hT : T ≠ .bool) :
    ∃ y', perform C s y (.write seq ioi (.one (.bool b))) = (.err .eof, y') ∧ Cut C s k ep y' m := by
  obtain ⟨j, g1, g2, g3, g4⟩ := bitPath_of hp
  obtain ⟨y', h1, h2⟩ := C120_refused_partial C s k ep y m tag name i T .bool vs (.bool b) tBOOL j seq hj g1 (by rw [← g2]; exact hl)
    hpl hm ⟨rfl, fun s hs => by cases hs⟩ (.inl fun h => by rw [takes_iff] at h; revert h; cases T <;> first | exact absurd rfl hT | decide)
  refine ⟨y', ?_, h2⟩
  rw [← h1]
  simp only [perform, writeBytes, g2]

/-- Numbers of other types to the array of DINT `arr`, an element and all; then a boolean. -/
example : (performAll demoConv demoJoined.1 demoJoined.2
    [.write 1#16 (demoIoi "arr[1]" tINT) (.one (.i16 (-7#16))), .read 2#16 (demoIoi "arr[1]" tDINT) .i32,
     .write 3#16 (demoIoi "Arr" tUSINT) (.many .u8 [.u8 200#8, .u8 9#8]), .fill 4#16 (demoIoi "arr" tDINT) .i32 2,
     .write 5#16 (demoIoi "arr[0].3" tBOOL) (.one (.bool true)), .read 6#16 (demoIoi "arr[1]" tDINT) .i32]).1 =
    [.ok .done, .ok (.value (.i32 (-7#32))), .ok .done, .ok (.values [.i32 200#32, .i32 9#32]), .err .eof, .err .eof] := by
  decide +kernel

/-- Element 5 is not there. -/
example : (performAll demoConv demoJoined.1 demoJoined.2 [.write 1#16 (demoIoi "arr[5]" tDINT) (.one (.i32 7#32))]).1 =
    [.err .eof] := by
  decide +kernel

/-- An array of DINT takes no booleans, one of numbers takes numbers. -/
example : ¬ Takes .i32 .bool ∧ Takes .i32 .i16 ∧ HeldAs .i32 (.i16 (-7#16)) (.i32 (-7#32)) := by
  refine ⟨by rw [takes_iff]; decide, by rw [takes_iff]; decide, rfl, by decide, ?_⟩
  intro n u h1 h2 h3
  cases h1
  cases u <;> cases h3
  rename_i x
  have hx : ∀ n, Denotes (.i32 x) n → x.toInt = n := by intro n h; cases h; rfl
  have : x.toInt = (-7#32 : BitVec 32).toInt := hx _ h2
  rw [BitVec.eq_of_toInt_eq this]

end Gologix.Session
