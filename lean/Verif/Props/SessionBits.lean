import Verif.Props.Session
set_option linter.unusedSimpArgs false
/-
C119: bits of tags of a server.
-/
namespace Gologix.Session
open Gologix Gologix.Spec Gologix.Server Gologix.Server.Spec Gologix.Connect Gologix.Connect.Spec Gologix.Session.Spec

/-- `ioi` is a client's encoding of `tag.n` for a boolean. -/
def BitPath (tag : List Part) (n : Nat) (ioi : Ioi) : Prop :=
  WfPath 65536 tag ∧ n ≤ 31 ∧ ∃ db, NotDirect db (render tag) tBOOL ∧ NotDirect db (render tag ++ [0x2E#8] ++ dec n) tBOOL ∧
    (newIOI db [] (render tag ++ [0x2E#8] ++ dec n) tBOOL).1 = .ok ioi

theorem bitPath_of {tag : List Part} {n : Nat} {ioi : Ioi} (h : BitPath tag n ioi) :
    ∃ i, ClientPath tag tBOOL i ∧ ioi.buffer = i.buffer ∧ ioi.bitAccess = true ∧ ioi.bitPosition = n := by
  obtain ⟨hw, hn, db, h1, h2, h3⟩ := h
  obtain ⟨i, j, g1, g2, g3, g4, g5⟩ := C12_bit_path_partial tag
    ⟨hw.1, fun p hp => ⟨(hw.2 p hp).1, fun i hi => Nat.lt_of_lt_of_le ((hw.2 p hp).2 i hi) (by decide)⟩⟩ n hn db tBOOL h1 h2
  rw [h3] at g2
  cases g2
  exact ⟨i, ⟨hw, db, h1, g1⟩, g3, g4, g5⟩

/-- What a client that asks for a bit makes of a reply with a number. -/
theorem bit_reply {v : Scal} {T : GoTy} (hv : v.ty = some T) (hs : T ≠ .str) (hb : T ≠ .bool) {ioi : Ioi}
    (ha : ioi.bitAccess = true) (t seq : Nat) :
    readT .bool ioi [⟨0#32, [0, 0, 0, 0, 0, 0] ++ cpf [(0xA1#16, le 4 t),
        (0xB1#16, le 2 seq ++ ([0xCC#8, 0#8, 0#8, 0#8] ++ (typeField T ++ v.encode)))]⟩] =
      (getBit (cipOfGo T) v ioi.bitPosition >>= fun b => .ok (.bool b)) := by
  have hlen : v.encode.length ≤ 8 := by
    rw [(C13_value_roundtrip v T hv hs []).2.2]; cases T <;> first | decide | exact absurd rfl hs
  have hh := readSingle_hdr ⟨0#32, 0#16, 0xA1#16, le 4 t, 0xB1#16, BitVec.ofNat 16 seq, 0xCC#8, 0#8, 0#8, 0#8⟩ 0#8 (cipOfGo T) v.encode
    (by simp [ReplyForm.fits]; omega)
  have hp : (⟨0#32, 0#16, 0xA1#16, le 4 t, 0xB1#16, BitVec.ofNat 16 seq, 0xCC#8, 0#8, 0#8, 0#8⟩ : ReplyForm).payload 0#8 (cipOfGo T)
      v.encode = [0, 0, 0, 0, 0, 0] ++ cpf [(0xA1#16, le 4 t),
        (0xB1#16, le 2 seq ++ ([0xCC#8, 0#8, 0#8, 0#8] ++ (typeField T ++ v.encode)))] := by
    have e1 : le 2 seq = le 2 (BitVec.ofNat 16 seq).toNat := by
      rw [← putBV_ofNat16]; rfl
    rw [e1, typeField_cip hs]
    simp [ReplyForm.payload, ReplyForm.body, le]
  rw [hp] at hh
  have hr := (C13_value_roundtrip v T hv hs []).1
  rw [List.append_nil] at hr
  have hne : cipOfGo T ≠ tBOOL := by cases T <;> first | decide | exact absurd rfl hb
  unfold readT readSingle
  simp only [hh]
  rw [if_neg (by decide), if_neg (by simp)]
  unfold decodeRead
  rw [if_neg cip_not_struct, if_pos (by decide), if_pos ⟨rfl, hne, ha⟩, hr]
  cases hg : getBit (cipOfGo T) v ioi.bitPosition with
  | ok b =>
    simp only [Res.bind_ok, hg]
    rfl
  | err e =>
    simp only [Res.bind_ok, hg]
    rfl
  | panic =>
    simp only [Res.bind_ok, hg]
    rfl

/-- A read of a bit of the number a tag or an element has. -/
theorem bit_served (C : Conv) (s : Settings) (k : Conn) (ep : Nat) (y : Sys) (m : Memory) (tag : List Part) (n : Nat) (ioi : Ioi)
    (seq : BitVec 16) (T : GoTy) (v : Scal) (hj : Joined s k ep y m) (hp : BitPath tag n ioi) (hl : ioi.buffer.length ≤ 65000)
    (hm : Sees m ⟨tag, T, 1⟩ (.one v)) (hs : T ≠ .str) (hb : T ≠ .bool) :
    ∃ y', perform C s y (.read seq ioi .bool) = (getBit (cipOfGo T) v n >>= fun b => .ok (.value (.bool b)), y') ∧
      Joined s k ep y' m := by
  obtain ⟨hq, tags, hsv, hh⟩ := hj
  obtain ⟨i, g1, g2, g3, g4⟩ := bitPath_of hp
  rcases sees_read hh hm with ⟨w, e, hf, -, hr⟩ | ⟨ws, e, -, -, -, -⟩
  · cases e
    have hsm := shown_small hf (.scalar v T hf.1 hs)
    obtain ⟨hd, p, y', h1, h2, h3, h4⟩ := read_served (n := 1) C seq hq hsv g1 (by rw [← g2]; exact hl) (by decide) (by decide) hr
      (.scalar v T hf.1 hs) (by omega)
    refine ⟨y', ?_, h2, tags, by rw [h3]; exact hsv, hh⟩
    simp only [perform]
    rw [g2, h1]
    simp only [Res.bind_ok, h4, bit_reply hf.1 hs hb g3, g4]
    cases getBit (cipOfGo T) v n <;> rfl
  · cases e

/-- C119: a client that reads bit `n` of a tag, or of an element of an array, of a server gets the bit of the number the tag has
at that time, and the session goes on.  Partial: not for SINT (`C119_sint_refused`), and only for bits inside the number
(`C119_beyond`) below 32 (C12). -/
theorem C119_read_partial (C : Conv) (s : Settings) (k : Conn) (ep : Nat) (y : Sys) (m : Memory) (tag : List Part) (n : Nat)
    (ioi : Ioi) (seq : BitVec 16) (T : GoTy) (v : Scal) (z : Int) (hj : Joined s k ep y m) (hp : BitPath tag n ioi)
    (hl : ioi.buffer.length ≤ 65000) (hm : Sees m ⟨tag, T, 1⟩ (.one v)) (hz : Gologix.Spec.intVal v = some z) (hv : v.ty = some T)
    (hs : T ≠ .i8) (hn : n < 8 * goSize T) :
    ∃ y', perform C s y (.read seq ioi .bool) = (.ok (.value (.bool (bitOf z n))), y') ∧ Joined s k ep y' m := by
  have hT : T ≠ .str ∧ T ≠ .bool ∧ intWidth (cipOfGo T) = some (8 * goSize T) ∧ cipOfGo T ≠ tSINT := by
    cases v <;> cases hz <;> cases hv <;> first | exact absurd rfl hs | exact ⟨by decide, by decide, by decide, by decide⟩
  obtain ⟨h1, h2, h3, h4⟩ := hT
  obtain ⟨y', e1, e2⟩ := bit_served C s k ep y m tag n ioi seq T v hj hp hl hm h1 h2
  obtain ⟨z', g1, g2⟩ := C12_bit_of_value_partial h3 h4 (C13_value_roundtrip v T hv h1 []).1 hn
  rw [hz] at g1
  cases g1
  rw [g2] at e1
  exact ⟨y', e1, e2⟩

/-- Disagreement: a bit of a SINT of a server cannot be read. -/
theorem C119_sint_refused (C : Conv) (s : Settings) (k : Conn) (ep : Nat) (y : Sys) (m : Memory) (tag : List Part) (n : Nat)
    (ioi : Ioi) (seq : BitVec 16) (x : BitVec 8) (hj : Joined s k ep y m) (hp : BitPath tag n ioi)
    (hl : ioi.buffer.length ≤ 65000) (hm : Sees m ⟨tag, .i8, 1⟩ (.one (.i8 x))) (hn : n < 8) :
    ∃ y', perform C s y (.read seq ioi .bool) = (.err .fail, y') ∧ Joined s k ep y' m := by
  obtain ⟨y', e1, e2⟩ := bit_served C s k ep y m tag n ioi seq .i8 _ hj hp hl hm (by decide) (by decide)
  rw [show cipOfGo .i8 = tSINT from rfl, C12_sint_refused _ _ _ (C13_value_roundtrip (.i8 x) .i8 rfl (by decide) []).1 n hn] at e1
  exact ⟨y', e1, e2⟩

/-- Disagreement: a bit outside the number of a tag of a server reads as false, without an error. -/
theorem C119_beyond (C : Conv) (s : Settings) (k : Conn) (ep : Nat) (y : Sys) (m : Memory) (tag : List Part) (n : Nat)
    (ioi : Ioi) (seq : BitVec 16) (T : GoTy) (v : Scal) (z : Int) (hj : Joined s k ep y m) (hp : BitPath tag n ioi)
    (hl : ioi.buffer.length ≤ 65000) (hm : Sees m ⟨tag, T, 1⟩ (.one v)) (hz : Gologix.Spec.intVal v = some z) (hv : v.ty = some T)
    (hn : 8 * goSize T ≤ n) :
    ∃ y', perform C s y (.read seq ioi .bool) = (.ok (.value (.bool false)), y') ∧ Joined s k ep y' m := by
  have hT : T ≠ .str ∧ T ≠ .bool ∧ intWidth (cipOfGo T) = some (8 * goSize T) := by
    cases v <;> cases hz <;> cases hv <;> exact ⟨by decide, by decide, by decide⟩
  obtain ⟨h1, h2, h3⟩ := hT
  obtain ⟨y', e1, e2⟩ := bit_served C s k ep y m tag n ioi seq T v hj hp hl hm h1 h2
  rw [C12_out_of_range_silent h3 v hn] at e1
  exact ⟨y', e1, e2⟩

/-- Disagreement: a client that writes bit `n` of a tag of a server is told that it succeeded, but what is under the name
afterwards is the boolean alone.  The number is lost, whatever it was, and the bit cannot be told from any other. -/
theorem C119_write_replaces (C : Conv) (s : Settings) (k : Conn) (ep : Nat) (y : Sys) (m m' : Memory) (tag : List Part) (n : Nat)
    (ioi : Ioi) (seq : BitVec 16) (b : Bool) (hj : Joined s k ep y m) (hp : BitPath tag n ioi)
    (hl : ioi.buffer.length ≤ 65000) (hw : wholeName (render tag)) (hm : m.After (render tag) (.one (.bool b)) m') :
    ∃ y', perform C s y (.write seq ioi (.one (.bool b))) = (.ok .done, y') ∧ Joined s k ep y' m' := by
  obtain ⟨hq, tags, hsv, hh⟩ := hj
  obtain ⟨i, g1, g2, g3, g4⟩ := bitPath_of hp
  have hd : Does m (.write tag (.bool b)) .done m' := .write (.whole (.whole hw) hm)
  obtain ⟨y', tags', h1, h2, h3, h4, h5, h6⟩ := call_does C hq hsv hh (.write seq .bool g1 (by rw [← g2]; exact hl) ⟨rfl, fun s hs => by cases hs⟩) hd
  refine ⟨y', ?_, h2, tags', h5, h6⟩
  rw [← h1]
  simp only [perform, writeBytes, g2]

/-- The hypothesis on the path holds for `Count.3`. -/
example : BitPath [⟨str "Count", []⟩] 3 (demoIoi "Count.3" tBOOL) :=
  ⟨by decide, by decide, demoDb, .inl (by decide), .inl (by decide), by decide +kernel⟩

/-- Bits of 5, in and outside the number; then bit 0 is written and all is gone. -/
example : (performAll demoConv demoJoined.1 demoJoined.2
    [.read 1#16 (demoIoi "Count.0" tBOOL) .bool, .read 2#16 (demoIoi "count.1" tBOOL) .bool, .read 3#16 (demoIoi "arr[2].1" tBOOL) .bool,
     .write 4#16 (demoIoi "Count.0" tBOOL) (.one (.bool false)), .read 5#16 (demoIoi "Count" tDINT) .i32,
     .read 6#16 (demoIoi "Count.2" tBOOL) .bool]).1 =
    [.ok (.value (.bool true)), .ok (.value (.bool false)), .ok (.value (.bool true)), .ok .done, .err .fail,
     .ok (.value (.bool false))] := by
  decide +kernel

end Gologix.Session
