import Verif.Props.SessionAbsent
set_option linter.unusedSimpArgs false
/-
C121: what becomes of values written at once if the server refuses one of them.
-/
namespace Gologix.Session
open Gologix Gologix.Spec Gologix.Server Gologix.Server.Spec Gologix.Connect Gologix.Connect.Spec Gologix.Session.Spec

/-- An entry of `WriteMap` is a write of one value. -/
theorem put_entry {w : List Part × Scal} {e : Ioi × WVal} (h : PutsFor w e) :
    ∃ (b : Bytes) (T : GoTy), writeMapEntry e.1 e.2 = .ok b ∧ w.2.ty = some T ∧
      (EReq.write (BitVec.ofNat 8 (e.1.buffer.length / 2)) (lowerPath w.1) e.1.buffer T [w.2]).bytes = b ∧
      (EReq.write (BitVec.ofNat 8 (e.1.buffer.length / 2)) (lowerPath w.1) e.1.buffer T [w.2]).wf ∧
      b.length + 2 ≤ 16 + e.1.buffer.length ∧ render (lowerPath w.1) = toLower (render w.1) := by
  obtain ⟨dt, T, hcp, he, hT, hstr⟩ := h
  obtain ⟨tag, v⟩ := w
  obtain ⟨io, wv⟩ := e
  simp only at he hcp hT
  subst he
  obtain ⟨hp', hrn⟩ := clientPath_of hcp
  have hf : writeFooter (cipOfGo T) 1#16 = typeField T ++ le 2 1 := by cases T <;> decide
  have henc : v.encode.length ≤ 8 := by
    rw [(C13_value_roundtrip v T hT hstr []).2.2]
    revert hstr
    cases T <;> decide
  have htl : (typeField T).length = 2 := by rw [typeField_cip hstr]; rfl
  refine ⟨[0x4D#8, BitVec.ofNat 8 (io.buffer.length / 2)] ++ io.buffer ++ (typeField T ++ le 2 1) ++ v.encode, T, ?_, hT, ?_,
    ⟨hp', hstr, by simp, by simp, by simpa using hT⟩, ?_, hrn⟩
  · simp only [writeMapEntry, WVal.serialize, WVal.cipType, hT, hf, Res.bind_ok]
  · simp [EReq.bytes]
  · simp only [List.length_append, List.length_cons, List.length_nil, le_length]
    omega

/-- The entries of `WriteMap` are writes. -/
theorem put_entries : ∀ (ws : List (List Part × Scal)) (es : List (Ioi × WVal)), es.length = ws.length →
    (∀ (i : Nat) w e, ws[i]? = some w → es[i]? = some e → PutsFor w e) →
    ∃ (bs : List Bytes) (qs : List EReq), writeMapEntries es = .ok bs ∧ qs.map EReq.bytes = bs ∧
      bs.flatten.length + 2 * bs.length ≤ (es.map fun e => 16 + e.1.buffer.length).sum
  | [], [], _, _ => ⟨[], [], rfl, rfl, by simp⟩
  | w :: ws, e :: es, hl, hp => by
    obtain ⟨bs, qs, i1, i2, i3⟩ := put_entries ws es (by simpa using hl)
      (fun i w e h h' => hp (i + 1) w e (by simpa using h) (by simpa using h'))
    obtain ⟨b, T, j1, -, j2, -, j3, -⟩ := put_entry (hp 0 w e rfl rfl)
    refine ⟨b :: bs, _ :: qs, ?_, by rw [List.map_cons, j2, i2], ?_⟩
    · simp only [writeMapEntries, j1, i1, Res.bind_ok]
    · simp only [List.flatten_cons, List.length_append, List.length_cons, List.map_cons, List.sum_cons]
      omega

theorem entries_append : ∀ (es fs : List (Ioi × WVal)) (bs cs : List Bytes), writeMapEntries es = .ok bs →
    writeMapEntries fs = .ok cs → writeMapEntries (es ++ fs) = .ok (bs ++ cs)
  | [], fs, bs, cs, h1, h2 => by
    cases h1
    simpa using h2
  | (io, v) :: es, fs, bs, cs, h1, h2 => by
    simp only [writeMapEntries] at h1
    cases hb : writeMapEntry io v with
    | err x => rw [hb] at h1; cases h1
    | panic => rw [hb] at h1; cases h1
    | ok b =>
      rw [hb, Res.bind_ok] at h1
      cases hr : writeMapEntries es with
      | err x => rw [hr] at h1; cases h1
      | panic => rw [hr] at h1; cases h1
      | ok r =>
        rw [hr, Res.bind_ok] at h1
        cases h1
        simp only [List.cons_append, writeMapEntries, hb, Res.bind_ok, entries_append es fs r cs hr h2]

/-- What an element of an array does not take is refused. -/
theorem element_refused {C : Conv} {tags : Store} {m : Memory} {tag : List Part} {name : Str} {i : Nat} {T a : GoTy}
    {vs : List Scal} {v : Scal} (hh : Holds tags m) (hpl : Place tag name (some i)) (hm : m name = some (.many T vs))
    (hv : v.ty = some a) (ht : ¬ Takes T a ∨ vs.length ≤ i) :
    tagWrite C tags (render tag) (.scal v) = (.err .fail, tags) := by
  obtain ⟨g1, g2⟩ := hh _ _ hm
  cases hpl with
  | element hr hi' =>
    rw [hr]
    unfold tagWrite elemName
    rw [parse_elem (atoi_dec hi')]
    simp only [g1, Cell.kept, List.length_map]
    by_cases hi : vs.length ≤ i
    · rw [if_pos (by omega)]
    · rw [if_neg (by omega)]
      rcases convert_typed C v a T hv with ⟨hT, -⟩ | ⟨-, hw⟩
      · rcases ht with ht | ht
        · exact absurd hT ht
        · exact absurd ht hi
      · rw [hw]
/-- **C121, what fails.**  A client that writes values to several tags of a server, one of which is an element of an array that
does not take the value or does not have the element, gets an error although the values before it are written; the connection
is lost. -/
theorem C121_half (C : Conv) (s : Settings) (k : Conn) (ep : Nat) (y : Sys) (m m' : Memory)
    (ws more : List (List Part × Scal)) (tag : List Part) (v : Scal) (es em : List (Ioi × WVal)) (eb : Ioi × WVal)
    (seq : BitVec 16) (name : Str) (i : Nat) (T a : GoTy) (vs : List Scal) (hj : Joined s k ep y m)
    (hn : es.length = ws.length) (hp : ∀ (i : Nat) w e, ws[i]? = some w → es[i]? = some e → PutsFor w e)
    (hpb : PutsFor (tag, v) eb) (hnm : em.length = more.length)
    (hpm : ∀ (i : Nat) w e, more[i]? = some w → em[i]? = some e → PutsFor w e)
    (hl : ((es ++ eb :: em).map fun e => 16 + e.1.buffer.length).sum ≤ 32000) (hs : StoresAll m ws m')
    (hpl : Place tag name (some i)) (hm : m' name = some (.many T vs)) (hv : v.ty = some a) (ht : ¬ Takes T a ∨ vs.length ≤ i) :
    ∃ y', perform C s y (.map seq (es ++ eb :: em)) = (.err .eof, y') ∧ Cut C s k ep y' m' := by
  obtain ⟨hq, tags, hsv, hh⟩ := hj
  obtain ⟨bs, qs, rs, tags', i1, i2, i3, i4, i5, i6, i7, i8, i9⟩ := all_stored C ws es tags m m' hh hn hp hs
  obtain ⟨bm, qm, k1, k2, k3⟩ := put_entries more em hnm hpm
  obtain ⟨b, U, j1, j2, j3, j4, j5, j6⟩ := put_entry hpb
  have hent : writeMapEntries (es ++ eb :: em) = .ok (bs ++ b :: bm) :=
    entries_append es _ bs _ i1 (by simp only [writeMapEntries, j1, k1, Res.bind_ok])
  have hx := element_refused (C := C) i5 hpl hm hv ht
  have hbl : (multiBytes seq (bs ++ b :: bm)).length ≤ 32768 := by
    simp only [multiBytes, List.length_append, flatten_put_length, jumpTable_length, putBV_length,
      List.length_cons, List.length_nil, List.flatten_append, List.flatten_cons]
    simp only [List.map_append, List.map_cons, List.sum_append, List.sum_cons] at hl
    omega
  obtain ⟨st', hex, g3⟩ := packet_cut (x := .fail) (good := qs) (more := qm) C seq hq hsv hbl
    (by rw [List.map_append, List.map_cons, i2, k2]; exact congrArg (fun c => bs ++ c :: bm) j3) i3 i4
    (fun data off st1 keys1 hat he => multiOne_write_err hat.1 hat.2.choose_spec j4 he (by
      rw [j6, tagWrite_same (t := render tag) _ (toLower_idem _)]
      exact hx))
  refine ⟨⟨st', [], false⟩, ?_, ⟨tags', g3, i5⟩,
    fun cs => ⟨(performAll_down C s _ rfl cs).1, (performAll_down C s _ rfl cs).2.2⟩⟩
  simp only [perform, writeMapBytes, hent, Res.bind_ok, hex]
  rfl

/-- A string in a packet: the server takes it for a structure it does not know. -/
theorem multiOne_string {C : Conv} {st : St} {ep : Nat} {data : Bytes} {off : BitVec 16} {words : Byte} {ps : List Part}
    {path : Bytes} {vs : List Scal} {rest : Bytes} (hoff : 0 ≤ off.toInt)
    (hd : data.drop (off.toInt + 8).toNat = (EReq.write words ps path .str vs).bytes ++ rest) (hp : PathOf ps path) :
    multiOne C ep data off st = (.err .fail, st) := by
  have e : data.drop (off.toInt + 8).toNat = 0x4D#8 :: words :: (path ++ (typeField .str ++
      (putBV (BitVec.ofNat 16 vs.length) ++ ((vs.map Scal.encode).flatten ++ rest)))) := by
    rw [hd]; simp [EReq.bytes, putBV_ofNat16]
  have ht : typeField .str = [tStruct, 2#8] ++ putBV 0x0FCE#16 := by decide
  have hr : ∀ r, readElems (readValue tStruct) (0x0FCE#16).toNat r = .err .fail := fun r => rfl
  unfold multiOne
  rw [if_neg (show ¬ off.toInt + 8 < 0 by omega), e]
  simp only [readBV8_cons, lift_ok_bind, getU_one]
  rw [if_neg (by decide), if_pos (by simp), getTag_path hp _ (typeField_head .str _)]
  simp only [lift_ok_bind]
  rw [ht]
  simp only [List.cons_append, List.nil_append, List.append_assoc, readBV8_cons, lift_ok_bind, readU16, hr]
  rfl

/-- **C115, what fails.**  A string written together with other values is an error, although the values before it are written and
the server takes a string that is written alone (C104); the connection is lost. -/
theorem C115_string_half (C : Conv) (s : Settings) (k : Conn) (ep : Nat) (y : Sys) (m m' : Memory)
    (ws more : List (List Part × Scal)) (tag : List Part) (t : Str) (es em : List (Ioi × WVal)) (io : Ioi) (dt : Byte)
    (seq : BitVec 16) (hj : Joined s k ep y m) (hn : es.length = ws.length)
    (hp : ∀ (i : Nat) w e, ws[i]? = some w → es[i]? = some e → PutsFor w e) (hpb : ClientPath tag dt io) (hnm : em.length = more.length)
    (hpm : ∀ (i : Nat) w e, more[i]? = some w → em[i]? = some e → PutsFor w e) (ht : t.length ≤ 82)
    (hl : (((es ++ em).map fun e => 16 + e.1.buffer.length)).sum + io.buffer.length ≤ 32000) (hs : StoresAll m ws m') :
    ∃ y', perform C s y (.map seq (es ++ (io, .one (.str t)) :: em)) = (.err .eof, y') ∧ Cut C s k ep y' m' := by
  obtain ⟨hq, tags, hsv, hh⟩ := hj
  obtain ⟨bs, qs, rs, tags', i1, i2, i3, i4, i5, i6, i7, i8, i9⟩ := all_stored C ws es tags m m' hh hn hp hs
  obtain ⟨bm, qm, k1, k2, k3⟩ := put_entries more em hnm hpm
  obtain ⟨hp', -⟩ := clientPath_of hpb
  have hf : writeFooter (cipOfGo .str) 1#16 = typeField .str ++ le 2 1 := by decide
  have htl : (typeField .str).length = 4 := by decide
  have henc := encode_small (v := .str t) (T := .str) ⟨rfl, fun _ h => by cases h; exact ht⟩
  obtain ⟨b, j1, j3, j5⟩ : ∃ b, writeMapEntry io (.one (.str t)) = .ok b ∧
      (EReq.write (BitVec.ofNat 8 (io.buffer.length / 2)) (lowerPath tag) io.buffer .str [.str t]).bytes = b ∧
      b.length ≤ 100 + io.buffer.length := by
    refine ⟨[0x4D#8, BitVec.ofNat 8 (io.buffer.length / 2)] ++ io.buffer ++ (typeField .str ++ le 2 1) ++ (Scal.str t).encode,
      ?_, ?_, ?_⟩
    · simp only [writeMapEntry, WVal.serialize, WVal.cipType, Scal.ty, hf, Res.bind_ok]
    · simp [EReq.bytes]
    · simp only [List.length_append, List.length_cons, List.length_nil, le_length]
      omega
  have hent : writeMapEntries (es ++ (io, .one (.str t)) :: em) = .ok (bs ++ b :: bm) :=
    entries_append es _ bs _ i1 (by simp only [writeMapEntries, j1, k1, Res.bind_ok])
  have hbl : (multiBytes seq (bs ++ b :: bm)).length ≤ 32768 := by
    simp only [multiBytes, List.length_append, flatten_put_length, jumpTable_length, putBV_length,
      List.length_cons, List.length_nil, List.flatten_append, List.flatten_cons]
    simp only [List.map_append, List.sum_append] at hl
    omega
  obtain ⟨st', hex, g3⟩ := packet_cut (x := .fail) (good := qs) (more := qm) C seq hq hsv hbl
    (by rw [List.map_append, List.map_cons, i2, k2]; exact congrArg (fun c => bs ++ c :: bm) j3) i3 i4
    (fun data off st1 keys1 hat he => multiOne_string hat.1 hat.2.choose_spec hp')
  refine ⟨⟨st', [], false⟩, ?_, ⟨tags', g3, i5⟩,
    fun cs => ⟨(performAll_down C s _ rfl cs).1, (performAll_down C s _ rfl cs).2.2⟩⟩
  simp only [perform, writeMapBytes, hent, Res.bind_ok, hex]
  rfl

/-- C121: values that the tags take are all written.  Missing: when one of them is refused the ones before it are written all
the same (`C121_half`). -/
theorem C121_all_partial (C : Conv) (s : Settings) (k : Conn) (ep : Nat) (y : Sys) (m m' : Memory) (ws : List (List Part × Scal))
    (es : List (Ioi × WVal)) (seq : BitVec 16) (hj : Joined s k ep y m) (hn : es.length = ws.length)
    (hp : ∀ (i : Nat) w e, ws[i]? = some w → es[i]? = some e → PutsFor w e)
    (hl : (es.map fun e => 16 + e.1.buffer.length).sum ≤ 32000) (hs : StoresAll m ws m') :
    ∃ y', perform C s y (.map seq es) = (.ok .done, y') ∧ Joined s k ep y' m' := by
  obtain ⟨hq, tags, hsv, hh⟩ := hj
  obtain ⟨y', tags', h1, h2, -, -, h3, h4⟩ := map_served C seq hq hsv hh hn hp hs hl
  exact ⟨y', h1, h2, tags', h3, h4⟩

/-- C121: when the first of them is refused nothing is written. -/
theorem C121_none_partial (C : Conv) (s : Settings) (k : Conn) (ep : Nat) (y : Sys) (m : Memory) (more : List (List Part × Scal))
    (tag : List Part) (v : Scal) (em : List (Ioi × WVal)) (eb : Ioi × WVal) (seq : BitVec 16) (name : Str) (i : Nat) (T a : GoTy)
    (vs : List Scal) (hj : Joined s k ep y m) (hpb : PutsFor (tag, v) eb) (hnm : em.length = more.length)
    (hpm : ∀ (i : Nat) w e, more[i]? = some w → em[i]? = some e → PutsFor w e)
    (hl : ((eb :: em).map fun e => 16 + e.1.buffer.length).sum ≤ 32000) (hpl : Place tag name (some i))
    (hm : m name = some (.many T vs)) (hv : v.ty = some a) (ht : ¬ Takes T a ∨ vs.length ≤ i) :
    ∃ y', perform C s y (.map seq (eb :: em)) = (.err .eof, y') ∧ Cut C s k ep y' m :=
  C121_half C s k ep y m m [] more tag v [] em eb seq name i T a vs hj rfl (by simp) hpb hnm hpm hl (.nil m) hpl hm hv ht

/-- What the demo server has under a name after a call. -/
def heldAfter (cs : List Call) (n : String) : Option Scal :=
  match (performAll demoConv demoJoined.1 demoJoined.2 cs).2.server.srv.eps 0 with
  | .tags s _ => match s (str n) with
    | some (.scal v) => some v
    | _ => none
  | _ => none

/-- `Count` is 7 afterwards although `arr` has only three elements and the call is an error; what comes after `arr[5]` is not
written. -/
example : (performAll demoConv demoJoined.1 demoJoined.2
      [.map 1#16 [(demoIoi "Count" tDINT, .one (.i32 7#32)), (demoIoi "arr[5]" tDINT, .one (.i32 8#32)),
        (demoIoi "other" tDINT, .one (.i32 9#32))]]).1 = [.err .eof] ∧
    heldAfter [] "count" = some (.i32 5#32) ∧
    heldAfter [.map 1#16 [(demoIoi "Count" tDINT, .one (.i32 7#32)), (demoIoi "arr[5]" tDINT, .one (.i32 8#32)),
        (demoIoi "other" tDINT, .one (.i32 9#32))]] "count" = some (.i32 7#32) ∧
    heldAfter [.map 1#16 [(demoIoi "Count" tDINT, .one (.i32 7#32)), (demoIoi "arr[5]" tDINT, .one (.i32 8#32)),
        (demoIoi "other" tDINT, .one (.i32 9#32))]] "other" = none := by
  decide +kernel

/-- The same with a string. -/
example : (performAll demoConv demoJoined.1 demoJoined.2
      [.map 1#16 [(demoIoi "Count" tDINT, .one (.i32 7#32)), (demoIoi "new" 0xA0#8, .one (.str (str "text")))]]).1 = [.err .eof] ∧
    heldAfter [.map 1#16 [(demoIoi "Count" tDINT, .one (.i32 7#32)), (demoIoi "new" 0xA0#8, .one (.str (str "text")))]] "count" =
      some (.i32 7#32) ∧
    heldAfter [.write 1#16 (demoIoi "new" 0xA0#8) (.one (.str (str "text")))] "new" = some (.str (str "text")) := by
  decide +kernel

end Gologix.Session
