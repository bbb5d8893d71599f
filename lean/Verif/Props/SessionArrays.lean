import Verif.Props.Session
import Verif.Model.ServerStruct
/-
C104: arrays of booleans and of strings in a session; structures.
-/
set_option linter.unusedSimpArgs false

namespace Gologix.Session
open Gologix Gologix.Spec Gologix.Server Gologix.Server.Spec Gologix.Connect Gologix.Connect.Spec Gologix.Session.Spec
open Gologix.ReadStruct
open Gologix.ServerIo (unpackInto)

/-- C104 is false for slices of booleans: whatever the tag is, the server does not answer the write, changes nothing and ends
the connection. -/
theorem C104_bools_end (C : Conv) (s : Settings) (y : Sys) (tag : List Part) (vs : List Scal) (dt : Byte) (ioi : Ioi)
    (seq : BitVec 16) (hq : Quiet y) (hp : ClientPath tag dt ioi) (hl : (writeBytes seq ioi (.many .bool vs)).length < 65536) :
    ∃ y', perform C s y (.write seq ioi (.many .bool vs)) = (.err .eof, y') ∧ y'.up = false ∧ y'.server.srv = y.server.srv ∧
      ∀ cs, (performAll C s y' cs).2 = y' ∧ ∀ r ∈ (performAll C s y' cs).1, ∃ e, r = .err e := by
  have ha := frame_asks y.server s _ hl
  obtain ⟨e, st', h1, h2, h3⟩ := C35_bools_refused C _ _ _ seq _ tag dt ioi vs hp ha
  obtain ⟨q1, q2, q3⟩ := hq
  have hex : exchange C y (connectedFrame s (writeBytes seq ioi (.many .bool vs))) = (.err .eof, ⟨st', [], false⟩) := by
    unfold exchange
    rw [q1, q3]
    simp only [Bool.not_true, Bool.false_eq_true, if_false]
    rw [h1]
    simp only
    rw [q2, h2]
    simp only [List.drop_length, List.flatten_nil, List.append_nil]
    rfl
  refine ⟨⟨st', [], false⟩, ?_, rfl, h3, fun cs => ⟨(performAll_down C s _ rfl cs).1, (performAll_down C s _ rfl cs).2.2⟩⟩
  simp only [perform, hex]
  rfl

/-- What the server sends for strings: each with the type and the handle of a STRING. -/
theorem strings_payload : ∀ ss : List Str,
    readPayload (.slice (some .str) (ss.map fun t => .scal (.str t))) = .ok (ss.map stringSlotBytes).flatten := by
  intro ss
  simp only [readPayload, List.map_map]
  rfl

theorem stringSlot_length (t : Str) : (stringSlotBytes t).length = 92 := by
  simp [stringSlotBytes, fitTo]
  omega

/-- The client takes what follows a string for the length of the next one. -/
theorem strings_decoded (a b : Str) (n : Nat) (h2 : 2 ≤ n) (rest : Bytes) (ba : Bool) (bp : Int) :
    decodeRead tSTRING n ba bp tStruct ((stringSlotBytes a ++ (stringSlotBytes b ++ rest)).drop 2) = .panic := by
  obtain ⟨m, rfl⟩ : ∃ m, n = m + 1 + 1 := ⟨n - 2, by omega⟩
  have hf : ∀ t : Str, (fitTo 82 t).length = 82 := by
    intro t; simp [fitTo]; omega
  have e : ∀ t : Str, stringSlotBytes t = [0xA0#8, 2#8] ++ (([0xCE#8, 0x0F#8] ++
      putBV (BitVec.ofNat 32 (if t.length > 82 then 82 else t.length))) ++ (fitTo 82 t ++ [0#8, 0#8])) := by
    intro t; simp [stringSlotBytes]
  have hfirst : ∃ v, readString82 ((stringSlotBytes a ++ (stringSlotBytes b ++ rest)).drop 2) =
      .ok (v, [0#8, 0#8] ++ (stringSlotBytes b ++ rest)) := by
    have e1 : (stringSlotBytes a ++ (stringSlotBytes b ++ rest)).drop 2 = ([0xCE#8, 0x0F#8] ++
        putBV (BitVec.ofNat 32 (if a.length > 82 then 82 else a.length))) ++
          (fitTo 82 a ++ ([0#8, 0#8] ++ (stringSlotBytes b ++ rest))) := by
      rw [e a]
      simp only [List.append_assoc]
      rfl
    rw [e1]
    unfold readString82
    rw [readN_append' (by simp [putBV_length]), Res.bind_ok]
    simp only
    rw [readN_append' (hf a), Res.bind_ok]
    simp only
    rw [if_pos ?_]
    · exact ⟨_, rfl⟩
    · rw [List.drop_left' (show [0xCE#8, 0x0F#8].length = 2 from rfl)]
      have : unle (putBV (BitVec.ofNat 32 (if a.length > 82 then 82 else a.length))) =
          if a.length > 82 then 82 else a.length := by
        unfold putBV
        rw [unle_le, BitVec.toNat_ofNat]
        split <;> omega
      rw [this]
      split <;> omega
  have hsecond : readString82 ([0#8, 0#8] ++ (stringSlotBytes b ++ rest)) = .panic := by
    obtain ⟨tail, ht, hl⟩ : ∃ tail, stringSlotBytes b ++ rest = [0xA0#8, 2#8, 0xCE#8, 0x0F#8] ++ tail ∧ 82 ≤ tail.length := by
      refine ⟨putBV (BitVec.ofNat 32 (if b.length > 82 then 82 else b.length)) ++ (fitTo 82 b ++ ([0#8, 0#8] ++ rest)), ?_, ?_⟩
      · rw [e b]; simp
      · simp [hf b]; omega
    rw [ht, ← List.append_assoc]
    unfold readString82
    rw [readN_append' (by rfl), Res.bind_ok]
    simp only
    rw [← List.take_append_drop 82 tail, readN_append' (by simp; omega), Res.bind_ok]
    rfl
  obtain ⟨v, hv⟩ := hfirst
  unfold decodeRead
  rw [if_pos rfl, if_pos rfl, if_neg (by omega)]
  simp only [readTimes]
  rw [hv, Res.bind_ok]
  simp only
  rw [hsecond]
  rfl

/-- C104 is false for arrays of strings: reading two or more of them at once crashes the client, whatever they are.  The server
sends the type again before every string. -/
theorem C104_strings_crash (C : Conv) (s : Settings) (k : Conn) (ep : Nat) (y : Sys) (m : Memory) (tag : List Part)
    (n : Nat) (vs : List Scal) (dt : Byte) (ioi : Ioi) (seq : BitVec 16) (hj : Joined s k ep y m) (hp : ClientPath tag dt ioi)
    (hs : Sees m ⟨tag, .str, n⟩ (.many vs)) (hn : n ≤ 700) (hsafe : safeCount n) (hl : ioi.buffer.length ≤ 65000) :
    ∃ y', perform C s y (.fill seq ioi .str n) = (.panic, y') := by
  obtain ⟨hq, tags, hsv, hh⟩ := hj
  rcases sees_read hh hs with ⟨w, e, -, -, -⟩ | ⟨ws, e, hf, hln, h2, hr⟩
  · cases e
  · cases e
    simp only at hf hln h2 hr
    obtain ⟨ss, rfl⟩ : ∃ ss : List Str, vs = ss.map Scal.str := by
      clear hr hs hln
      induction vs with
      | nil => exact ⟨[], rfl⟩
      | cons v vs ih =>
        obtain ⟨ss, rfl⟩ := ih fun w hw => hf w (by simp [hw])
        have := (hf v (by simp)).1
        cases v <;> simp [Scal.ty] at this
        rename_i t
        exact ⟨t :: ss, rfl⟩
    rw [List.length_map] at hln
    subst hln
    have hpay := strings_payload ss
    rw [List.map_map] at hr
    have hlen : (ss.map stringSlotBytes).flatten.length = 92 * ss.length := by
      clear hr hs hpay hf hn hsafe h2
      induction ss with
      | nil => rfl
      | cons t ss ih => rw [List.map_cons, List.flatten_cons, List.length_append, ih, stringSlot_length, List.length_cons]; omega
    obtain ⟨hd, p, y', h1, -, -, h4⟩ := payload_served C seq hq hsv hp hl (by omega) hsafe hr hpay (by omega)
    refine ⟨y', ?_⟩
    simp only [perform]
    rw [h1]
    simp only [Res.bind_ok, h4]
    obtain ⟨a, b, rest, rfl⟩ : ∃ a b rest, ss = a :: b :: rest := by
      match ss, h2 with
      | a :: b :: rest, _ => exact ⟨a, b, rest, rfl⟩
    have himg : ((a :: b :: rest).map stringSlotBytes).flatten = tStruct :: 2#8 ::
        ((stringSlotBytes a ++ (stringSlotBytes b ++ (rest.map stringSlotBytes).flatten)).drop 2) := by
      simp [stringSlotBytes, tStruct]
    have hpl : [0, 0, 0, 0, 0, 0] ++ cpf [(0xA1#16, le 4 k.to.toNat), (0xB1#16, le 2 seq.toNat ++ ([0xCC#8, 0#8, 0#8, 0#8] ++
        ((a :: b :: rest).map stringSlotBytes).flatten))] =
        (⟨0#32, 0#16, 0xA1#16, le 4 k.to.toNat, 0xB1#16, seq, 0xCC#8, 0#8, 0#8, 2#8⟩ : ReplyForm).payload 0#8 tStruct
          ((stringSlotBytes a ++ (stringSlotBytes b ++ (rest.map stringSlotBytes).flatten)).drop 2) := by
      rw [himg]
      simp [ReplyForm.payload, ReplyForm.body, le]
    rw [hpl]
    have hh := readSingle_hdr (⟨0#32, 0#16, 0xA1#16, le 4 k.to.toNat, 0xB1#16, seq, 0xCC#8, 0#8, 0#8, 2#8⟩ : ReplyForm) 0#8 tStruct
      ((stringSlotBytes a ++ (stringSlotBytes b ++ (rest.map stringSlotBytes).flatten)).drop 2) (by
        refine ⟨by simp, ?_⟩
        have := congrArg List.length himg
        rw [hlen] at this
        simp only [List.length_cons] at this hn
        omega)
    unfold readSliceT readArrayT
    rw [if_neg (by
      intro h
      have := congrArg BitVec.toNat h
      rw [BitVec.toNat_ofNat] at this
      simp only [List.length_cons] at this hn
      simp at this
      omega)]
    simp only [readSingle, hh]
    rw [if_neg (by decide), if_neg (by decide)]
    simp only [cipOfGo, BitVec.toNat_ofNat]
    rw [strings_decoded a b _ (by simp only [List.length_cons] at hn ⊢; omega)]
    rfl

/-- C104 is false for structures: the client takes the first two bytes of the fields for the handle, which the server leaves
out, and unpacks the rest. -/
theorem C104_structure_cut (t : Ty) (old : t.Val) (ioi : Ioi) (fields : List Bytes) (id : BitVec 32) (seq : BitVec 16)
    (h2 : 2 ≤ fields.flatten.length) (hl : fields.flatten.length ≤ 65000) :
    let r := readStruct t old ioi [⟨0#32, [0, 0, 0, 0, 0, 0] ++ cpf [(0xA1#16, le 4 id.toNat),
      (0xB1#16, le 2 seq.toNat ++ ([0xCC#8, 0#8, 0#8, 0#8] ++ structPayload fields))]⟩]
    let u := unpackInto t old ⟨fields.flatten.drop 2, 0, 0, 0#8⟩
    r.1 = u.1 ∧ r.2.1 = (u.2 >>= fun _ => .ok ()) := by
  have hpl : [0, 0, 0, 0, 0, 0] ++ cpf [(0xA1#16, le 4 id.toNat), (0xB1#16, le 2 seq.toNat ++ ([0xCC#8, 0#8, 0#8, 0#8] ++
        structPayload fields))] =
      (⟨0#32, 0#16, 0xA1#16, le 4 id.toNat, 0xB1#16, seq, 0xCC#8, 0#8, 0#8, 0#8⟩ : ReplyForm).payload 0#8 tStruct
        fields.flatten := by
    simp [ReplyForm.payload, ReplyForm.body, le, structPayload]
  have hh := readSingle_hdr (⟨0#32, 0#16, 0xA1#16, le 4 id.toNat, 0xB1#16, seq, 0xCC#8, 0#8, 0#8, 0#8⟩ : ReplyForm) 0#8 tStruct
    fields.flatten ⟨by simp, by omega⟩
  have hn : readN 2 fields.flatten = .ok (fields.flatten.take 2, fields.flatten.drop 2) := by
    conv => lhs; rw [← List.take_append_drop 2 fields.flatten]
    exact readN_append' (by rw [List.length_take]; omega)
  have hs : (readSingle ioi tStruct 1#16 [⟨0#32, (⟨0#32, 0#16, 0xA1#16, le 4 id.toNat, 0xB1#16, seq, 0xCC#8, 0#8, 0#8, 0#8⟩ :
      ReplyForm).payload 0#8 tStruct fields.flatten⟩]).1 = .ok (.one (.bytes (fields.flatten.drop 2))) := by
    simp only [readSingle, hh]
    rw [if_neg (by decide), if_neg (by decide)]
    unfold decodeRead
    rw [if_pos rfl, if_neg (by decide), hn, Res.bind_ok]
  intro r u
  simp only [r, readStruct, hpl, hs]
  exact ⟨rfl, rfl⟩

/-- Hence a structure of one number is never read. -/
theorem C104_structure_unread (old : (Ty.cons false (.num 4) .nil).Val) (ioi : Ioi) (w id : BitVec 32) (seq : BitVec 16) :
    (readStruct (.cons false (.num 4) .nil) old ioi [⟨0#32, [0, 0, 0, 0, 0, 0] ++ cpf [(0xA1#16, le 4 id.toNat),
      (0xB1#16, le 2 seq.toNat ++ ([0xCC#8, 0#8, 0#8, 0#8] ++ structPayload [putBV w]))]⟩]).2.1 = .err .unexpectedEof := by
  rw [(C104_structure_cut _ old ioi [putBV w] id seq (by simp) (by simp)).2]
  have : ([putBV w].flatten).drop 2 = [BitVec.ofNat 8 (w.toNat / 256 / 256), BitVec.ofNat 8 (w.toNat / 256 / 256 / 256)] := by
    simp [putBV, le]
  rw [this]
  rfl

/-! ### Examples -/

/-- The demo server with three booleans, two strings and two words among its tags, and a client that has connected. -/
def demoArrays : Settings × Sys :=
  (connect demoConv bare 5#32 { demoSys with server := { demoSys.server with srv := { demoSys.server.srv with
    eps := fun _ => .tags (fun k =>
      if k = str "flags" then some (.slice (some .bool) [.scal (.bool true), .scal (.bool false), .scal (.bool true)])
      else if k = str "names" then some (.slice (some .str) [.scal (.str (str "ab")), .scal (.str (str "c"))])
      else if k = str "words" then some (.slice (some .u32) [.scal (.u32 5#32), .scal (.u32 0x80000000#32)])
      else none) [] } } }).2

/-- Elements can be read; the slice cannot be written. -/
example : (performAll demoConv demoArrays.1 demoArrays.2
    [.read 1#16 (demoIoi "flags[0]" tBOOL) .bool, .read 2#16 (demoIoi "names[1]" tSTRING) .str,
     .write 3#16 (demoIoi "flags" tBOOL) (.many .bool [.bool false, .bool true, .bool true]),
     .read 4#16 (demoIoi "flags[0]" tBOOL) .bool]).1 =
    [.ok (.value (.bool true)), .ok (.value (.str (str "c"))), .err .eof, .err .eof] := by
  decide +kernel

/-- Two strings. -/
example : (perform demoConv demoArrays.1 demoArrays.2 (.fill 1#16 (demoIoi "names" tSTRING) .str 2)).1 = .panic := by
  decide +kernel

/-- The bits of two words, and of one of them; the number of bits is a multiple of 32. -/
example : (performAll demoConv demoArrays.1 demoArrays.2
    [.bits 1#16 (demoIoi "words" tUDINT) 64, .bits 2#16 (demoIoi "words[0]" tUDINT) 32,
     .bits 3#16 (demoIoi "words" tUDINT) 33]).1 =
    [.ok (.values (.bool true :: .bool false :: .bool true :: List.replicate 60 (.bool false) ++ [.bool true])),
     .ok (.values (.bool true :: .bool false :: .bool true :: List.replicate 29 (.bool false))), .err .fail] := by
  decide +kernel

/-- The hypotheses of `C104_session_partial` for a read of bits. -/
example (m : Memory) (hm : m (str "words") = some (.many .u32 [.u32 5#32, .u32 0#32])) :
    Makes (.readBits [⟨str "words", []⟩] 2) (.bits 4#16 (demoIoi "words" tUDINT) 64) ∧
    Does m (.readBits [⟨str "words", []⟩] 2)
      (.values ((true :: false :: true :: List.replicate 61 false).map .bool)) m := by
  refine ⟨.readBits (dt := tUDINT) (n := 2) 4#16 ⟨by decide, demoDb, .inl (by decide), by decide +kernel⟩ (by decide)
    (by decide) (by decide) (by decide +kernel), ?_⟩
  have hp : Place [⟨str "words", []⟩] (str "words") none := .whole (by unfold wholeName; decide)
  refine .readBits (ws := [5#32, 0#32]) (.many (.many hp hm (by decide) (by decide))) rfl ⟨rfl, fun i => ?_⟩
  by_cases h : i < 64
  · exact (show ∀ i < 64, (true :: false :: true :: List.replicate 61 false)[i]? =
      ([5#32, 0#32][i / 32]?).map fun w => w.getLsbD (i % 32) by decide +kernel) i h
  · rw [List.getElem?_eq_none (by simp; omega), List.getElem?_eq_none (by simp; omega)]
    rfl

end Gologix.Session
