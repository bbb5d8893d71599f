import Verif.Props.ServerTags
import Verif.Props.Reply
/-
C35: what a client writes through the server, a client reads back.
-/
set_option linter.unusedSimpArgs false

namespace Gologix.Server
open Gologix Gologix.Spec Gologix.Server.Spec M

/-- What a client gets from a frame: the status of the header and what follows it. -/
def replyOf (f : Bytes) : Reply := ⟨BitVec.ofNat 32 (unle (field 8 4 f)), f.drop 24⟩

theorem orElse_ok_bind {α β : Type} (a : α) (m : M Unit) (f : α → M β) (st : St) :
    ((orElse (.ok a) m : M α) >>= f) st = f a st := rfl

theorem orElseAt_ok_bind {α β : Type} {r : St → Res α} {a : α} {m : M Unit} {f : α → M β} {st : St}
    (h : r st = .ok a) : ((orElseAt r m : M α) >>= f) st = f a st := by
  rw [bind_def]; unfold orElseAt; rw [h]; rfl

theorem readBV16_two (a b : Byte) (r : Bytes) : ∃ v, readBV 16 (a :: b :: r) = .ok (v, r) := by
  have h1 : readN 2 (a :: b :: r) = .ok ([a, b], r) := readN_append' (a := [a, b]) rfl
  exact ⟨BitVec.ofNat 16 (unle [a, b]), by simp [readBV, readLE, h1, Res.bind_ok]⟩

theorem readBV16_le {seq : BitVec 16} (d : Bytes) : readBV 16 (le 2 seq.toNat ++ d) = .ok (seq, d) := by
  have := readU16 seq d; simpa [putBV] using this

theorem frame_status (h : Handler) (cmd : BitVec 16) (p : Bytes) : (replyOf (frameOf h cmd p)).status = 0#32 := by
  simp [replyOf, field, frameOf, EipHeader.encode, putBV, le, unle]

/-- A read of a tag whose value has the payload `image` is answered with it; nothing changes. -/
theorem payload_step {C : Conv} {st : St} {r : Req} {conn : BitVec 32} {seq : BitVec 16} {words : Byte}
    {ps : List Part} {path rest : Bytes} {n : Nat} {c : Conn} {ep : Nat} {s : Store} {v : TVal} {image : Bytes}
    (h : Asks st r conn (le 2 seq.toNat ++ 0x4C#8 :: words :: (path ++ le 2 n)) rest) (hp : PathOf ps path)
    (hn : n < 32768) (hsafe : safeCount n) (hs : Serves st.srv conn c ep s)
    (hr : tagRead s (render ps) n = .ok v) (hv : readPayload v = .ok image) :
    ∃ st' f, serveStep C st = (.ok (), st') ∧ st'.sent = st.sent ++ [f] ∧ st'.srv = st.srv ∧
      replyOf f = ⟨0#32, [0, 0, 0, 0, 0, 0] ++ cpf [(0xA1#16, le 4 c.to.toNat),
        (0xB1#16, le 2 seq.toNat ++ ([0xCC#8, 0#8, 0#8, 0#8] ++ image))]⟩ := by
  rw [unit_step h]
  unfold unitService
  rw [if_neg (by decide), if_neg (by decide), if_pos rfl]
  unfold connectedRead
  obtain ⟨h1, h2, keys, h3⟩ := hs
  have e4 : readBV 32 (le 4 conn.toNat) = .ok (conn, []) := by
    have := readU32 conn []
    simpa [putBV] using this
  rw [e4, orElse_ok_bind]
  simp only
  rw [orElseAt_ok_bind (a := c) (by exact h1), readBV16_le, orElse_ok_bind]
  simp only
  obtain ⟨w, hw⟩ := readBV16_two 0x4C#8 words (path ++ le 2 n)
  rw [hw, orElse_ok_bind]
  simp only
  have := getTag_path hp (le 2 n) (by simpa using safe_head hsafe [])
  rw [this, orElse_ok_bind]
  simp only
  have e5 : readBV 16 (le 2 n) = .ok (BitVec.ofNat 16 n, []) := by
    have := readU16 (BitVec.ofNat 16 n) []
    rwa [putBV_ofNat16, List.append_nil] at this
  rw [e5, orElse_ok_bind]
  simp only
  rw [orElseAt_ok_bind (a := ep) (by exact h2)]
  rw [orElseAt_ok_bind (a := v) (by rw [readTag_ok (by exact h3), count_int hn, hr])]
  rw [hv, lift_ok_bind]
  refine ⟨_, _, rfl, rfl, rfl, ?_⟩
  have hst := frame_status (handling st r seq rest).h 0x70#16 (serializeItems [(Item.new 0xA1#16).write
    (putBV c.to), (Item.new 0xB1#16).write (putBV seq ++ resultHdr 0x4C#8 0#8 ++ image)])
  unfold replyOf at hst ⊢
  simp only at hst
  rw [hst, frameOf_drop, unit_payload]
  simp [resultHdr, putBV]

/-- The reply to a read carries the value. -/
theorem read_step {C : Conv} {st : St} {r : Req} {conn : BitVec 32} {seq : BitVec 16} {words : Byte}
    {ps : List Part} {path rest : Bytes} {n : Nat} {c : Conn} {ep : Nat} {s : Store} {v : TVal} {image : Bytes}
    (h : Asks st r conn (le 2 seq.toNat ++ 0x4C#8 :: words :: (path ++ le 2 n)) rest) (hp : PathOf ps path)
    (hn : n < 32768) (hsafe : safeCount n) (hs : Serves st.srv conn c ep s)
    (hr : tagRead s (render ps) n = .ok v) (hv : Shown v image) :
    ∃ st' f, serveStep C st = (.ok (), st') ∧ st'.sent = st.sent ++ [f] ∧ st'.srv = st.srv ∧
      replyOf f = ⟨0#32, [0, 0, 0, 0, 0, 0] ++ cpf [(0xA1#16, le 4 c.to.toNat),
        (0xB1#16, le 2 seq.toNat ++ ([0xCC#8, 0#8, 0#8, 0#8] ++ image))]⟩ :=
  payload_step h hp hn hsafe hs hr (readPayload_shown hv)

theorem write_confirmed (h : Handler) (to : BitVec 32) (seq : BitVec 16) :
    writeReply (replyOf (frameOf h 0x70#16 (serializeItems [(Item.new 0xA1#16).write (putBV to),
      (Item.new 0xB1#16).write (putBV seq ++ resultHdr 0x4D#8 0#8 ++ [])]))) = .ok () := by
  unfold writeReply
  rw [if_neg (by rw [frame_status]; simp)]
  have hit : item1 (afterHeader ([0, 0, 0, 0, 0, 0] ++ cpf [(0xA1#16, putBV to),
        (0xB1#16, putBV seq ++ resultHdr 0x4D#8 0#8 ++ [])])) =
      .ok (putBV seq ++ resultHdr 0x4D#8 0#8) := by
    unfold afterHeader
    rw [if_neg (by simp), List.drop_left' (by rfl)]
    unfold item1
    have := Gologix.readItems_cpf [(0xA1#16, putBV to),
        (0xB1#16, putBV seq ++ resultHdr 0x4D#8 0#8 ++ [])] [] (by simp) (by simp [resultHdr])
    rw [List.append_nil] at this
    rw [this, Res.bind_ok]
    simp
  rw [show (replyOf _).payload = (frameOf h 0x70#16 (serializeItems [(Item.new 0xA1#16).write (putBV to),
      (Item.new 0xB1#16).write (putBV seq ++ resultHdr 0x4D#8 0#8 ++ [])])).drop 24 from rfl,
    frameOf_drop, unit_payload, hit, Res.bind_ok]
  have := readN_append' (n := 6) (a := putBV seq ++ resultHdr 0x4D#8 0#8) (rest := []) (by simp [resultHdr])
  rw [List.append_nil] at this
  rw [this, Res.bind_ok]
  simp [putBV, le, resultHdr]

/-- A write changes the store and is confirmed. -/
theorem write_step {C : Conv} {st : St} {r : Req} {conn : BitVec 32} {seq : BitVec 16} {words : Byte}
    {ps : List Part} {path d rest left : Bytes} {c : Conn} {ep : Nat} {s s' : Store} {T : GoTy} {vs : List Scal}
    (h : Asks st r conn (le 2 seq.toNat ++ 0x4D#8 :: words :: (path ++ (typeField T ++ d))) rest)
    (hp : PathOf ps path) (hs : Serves st.srv conn c ep s)
    (hpv : parseWriteValues (typeField T ++ d) = .ok (vs, left)) (hne : vs ≠ [])
    (hw : tagWrite C s (render ps) (written vs) = (.ok (), s')) :
    ∃ st' f, serveStep C st = (.ok (), st') ∧ st'.sent = st.sent ++ [f] ∧ Serves st'.srv conn c ep s' ∧
      writeReply (replyOf f) = .ok () := by
  rw [unit_step h]
  unfold unitService
  rw [if_pos rfl]
  unfold cipConnectedWrite
  obtain ⟨h1, h2, keys, h3⟩ := hs
  rw [readBV8_cons, lift_ok_bind]
  simp only
  rw [getTag_path hp _ (typeField_head T d), lift_ok_bind]
  simp only
  rw [hpv, lift_ok_bind]
  simp only
  have e1 : getByOT conn (handling st r seq rest) = (.ok c, handling st r seq rest) := by
    unfold getByOT; rw [show (handling st r seq rest).srv = st.srv from rfl, h1]
  have e2 : resolve c.path (handling st r seq rest) = (.ok ep, handling st r seq rest) := by
    unfold resolve; rw [show (handling st r seq rest).srv = st.srv from rfl, h2]
  rw [bind_ok e1, bind_ok e2]
  obtain ⟨keys', hk⟩ := writeValues_ok (C := C) (st := handling st r seq rest) hne h3 hw
  rw [bind_ok hk]
  refine ⟨_, _, rfl, rfl, ⟨h1, h2, keys', by simp [Srv.setStore]⟩, ?_⟩
  exact write_confirmed _ _ _

/-- A complete answer is a truthful answer to all that is asked. -/
theorem single_answered (ioi : Ioi) (dt typ : Byte) (n : BitVec 16) (content : Bytes) (f : ReplyForm)
    (hf : f.fits content) {rep : Reply} (hrep : rep.payload = f.payload 0#8 typ content) :
    AllAnswered typ content (readSingle ioi dt n [rep]).2.1 [rep] := by
  have hlog : (readSingle ioi dt n [rep]).2.1 = [⟨ioi.buffer, n, none⟩] := by
    have hh := readSingle_hdr f 0#8 typ content hf
    unfold readSingle
    simp only [hrep, hh]
    rw [if_neg (by decide), if_neg (by simp)]
  rw [hlog]
  intro i req hi
  match i, hi with
  | 0, hi =>
    simp at hi
    subst hi
    refine ⟨rep, rfl, f, content.length, ?_⟩
    simp [offsetOf, hf, hrep]

/-! ### Clients -/

/-- `ioi` is a client's encoding of the tag path `ps` by names (not by the instance number of a tag it
knows). -/
def ClientPath (ps : List Part) (dt : Byte) (ioi : Ioi) : Prop :=
  WfPath 65536 ps ∧ ∃ db, NotDirect db (render ps) dt ∧ (newIOI db [] (render ps) dt).1 = .ok ioi

theorem clientPath_of {ps : List Part} {dt : Byte} {ioi : Ioi} (h : ClientPath ps dt ioi) :
    PathOf (lowerPath ps) ioi.buffer ∧ render (lowerPath ps) = toLower (render ps) := by
  obtain ⟨hw, db, h1, h2⟩ := h
  exact ⟨client_path hw h1 h2, (toLower_render ps).symm⟩

/-- A value of an atomic type or a string that fits a STRING. -/
def Fits (v : Scal) (T : GoTy) : Prop := v.ty = some T ∧ ∀ s, v = .str s → s.length ≤ 82

/-- A client, on any connection to endpoint `ep` and in any state of the server in which what is stored under
`k` is what `s1` has there, asks for `n` elements of the tag `t`: it gets a reply with which `good` holds. -/
def ReadsBack (C : Conv) (ep : Nat) (s1 : Store) (k t : Str) (dt : Byte) (n : Nat)
    (good : Ioi → Reply → Prop) : Prop :=
  ∀ (st : St) (r : Req) (conn : BitVec 32) (c : Conn) (s : Store) (seq : BitVec 16) (rest : Bytes)
    (ps : List Part) (ioi : Ioi), Serves st.srv conn c ep s → s k = s1 k → sameName (render ps) t →
    ClientPath ps dt ioi → Asks st r conn (ReadReq.bytes seq ⟨ioi.buffer, BitVec.ofNat 16 n, none⟩) rest →
    ∃ st' f, serveStep C st = (.ok (), st') ∧ st'.sent = st.sent ++ [f] ∧ good ioi (replyOf f)

theorem readReq_bytes (seq : BitVec 16) (path : Bytes) (n : Nat) :
    ReadReq.bytes seq ⟨path, BitVec.ofNat 16 n, none⟩ =
      le 2 seq.toNat ++ 0x4C#8 :: BitVec.ofNat 8 (path.length / 2) :: (path ++ le 2 n) := by
  simp only [ReadReq.bytes, putBV_ofNat16]
  simp [putBV]

theorem tagRead_same {s : Store} {t t' : Str} (q : Int) (h : sameName t' t) : tagRead s t' q = tagRead s t q := by
  have h' : toLower t' = toLower t := h
  unfold tagRead; rw [h']

theorem tagWrite_same {C : Conv} {s : Store} {t t' : Str} (v : TVal) (h : sameName t' t) :
    tagWrite C s t' v = tagWrite C s t v := by
  have h' : toLower t' = toLower t := h
  unfold tagWrite; rw [h']

/-- If every store that agrees with `s1` at `k` shows `image` for the tag, then clients get it. -/
theorem readsBack_of {C : Conv} {ep : Nat} {s1 : Store} {k t : Str} {dt : Byte} {n : Nat} {v : TVal}
    {image : Bytes} {good : Ioi → Reply → Prop} (hn : n < 32768) (hsafe : safeCount n)
    (hr : ∀ s : Store, s k = s1 k → tagRead s t n = .ok v) (hv : Shown v image)
    (hgood : ∀ ioi to seq, good ioi ⟨0#32, [0, 0, 0, 0, 0, 0] ++ cpf [(0xA1#16, le 4 to),
        (0xB1#16, le 2 seq ++ ([0xCC#8, 0#8, 0#8, 0#8] ++ image))]⟩) :
    ReadsBack C ep s1 k t dt n good := by
  intro st r conn c s seq rest ps ioi hsv hk hname hcp ha
  rw [readReq_bytes] at ha
  obtain ⟨hp, hrn⟩ := clientPath_of hcp
  have hr' : tagRead s (render (lowerPath ps)) n = .ok v := by
    rw [hrn, tagRead_same n (show sameName (toLower (render ps)) t from ?_), hr s hk]
    unfold sameName at *
    rw [toLower_idem, hname]
  obtain ⟨st', f, h1, h2, -, h4⟩ := read_step (C := C) ha hp hn hsafe hsv hr' hv
  exact ⟨st', f, h1, h2, h4 ▸ hgood ioi c.to.toNat seq.toNat⟩

theorem write_one_bytes {v : Scal} {T : GoTy} (hv : v.ty = some T) (seq : BitVec 16) (ioi : Ioi) :
    writeBytes seq ioi (.one v) = le 2 seq.toNat ++ 0x4D#8 :: BitVec.ofNat 8 (ioi.buffer.length / 2) ::
      (ioi.buffer ++ (typeField T ++ (le 2 1 ++ v.encode))) := by
  have hf : writeFooter (cipOfGo T) 1#16 = typeField T ++ le 2 1 := by cases T <;> decide
  simp only [writeBytes, WVal.cipType, hv, hf]
  simp [putBV]

theorem parse_one {v : Scal} {T : GoTy} (h : Fits v T) :
    ∃ left, parseWriteValues (typeField T ++ (le 2 1 ++ v.encode)) = .ok ([v], left) := by
  obtain ⟨hv, hs⟩ := h
  by_cases hT : T = .str
  · subst hT
    have : ∃ s, v = .str s := by cases v <;> simp [Scal.ty] at hv; exact ⟨_, rfl⟩
    obtain ⟨s, rfl⟩ := this
    have hl := hs s rfl
    refine ⟨[0#8, 0#8], ?_⟩
    have e : typeField .str ++ (le 2 1 ++ (Scal.str s).encode) =
        0xA0#8 :: 2#8 :: ([0xCE#8, 0x0F#8] ++ (putBV 1#16 ++ (putBV (BitVec.ofNat 32 s.length) ++
          ((s ++ List.replicate (82 - s.length) 0#8) ++ [0#8, 0#8])))) := by
      have : fitTo 84 s = (s ++ List.replicate (82 - s.length) 0#8) ++ [0#8, 0#8] := by
        unfold fitTo
        rw [List.take_of_length_le (by omega), show 84 - s.length = (82 - s.length) + 2 by omega,
          ← List.replicate_append_replicate]
        simp
      simp only [Scal.encode, stringBytes, this]
      simp [typeField, le, putBV]
    rw [e]
    unfold parseWriteValues
    simp only [readBV8_cons, Res.bind_ok]
    rw [readN_append' (by rfl), Res.bind_ok]
    simp only [readU16, Res.bind_ok]
    rw [if_pos (by rfl), if_pos (by decide)]
    rw [show (1#16 : BitVec 16).toNat = 0 + 1 from rfl]
    simp only [readElems, readStringElem, readU32, Res.bind_ok]
    rw [readN_append' (by simp; omega)]
    simp only [Res.bind_ok, BitVec.toNat_ofNat]
    rw [Nat.mod_eq_of_lt (show s.length < 2 ^ 32 by omega), if_neg (show ¬ s.length > 82 by omega),
      List.take_left' rfl]
  · have := parse_values (T := T) (vs := [v]) hT (by simpa using hv) (by simp) []
    refine ⟨[], ?_⟩
    simpa using this

theorem shown_one {v : Scal} {T : GoTy} (h : Fits v T) : ∃ image, Shown (.scal v) image ∧
    ∀ ioi to seq, readT T ioi [⟨0#32, [0, 0, 0, 0, 0, 0] ++ cpf [(0xA1#16, le 4 to),
        (0xB1#16, le 2 seq ++ ([0xCC#8, 0#8, 0#8, 0#8] ++ image))]⟩] = .ok v := by
  obtain ⟨hv, hs⟩ := h
  by_cases hT : T = .str
  · subst hT
    have : ∃ s, v = .str s := by cases v <;> simp [Scal.ty] at hv; exact ⟨_, rfl⟩
    obtain ⟨s, rfl⟩ := this
    have hl := hs s rfl
    refine ⟨_, .string s hl, ?_⟩
    intro ioi to seq
    have := C56_read_string ioi ⟨0#32, 0#16, 0xA1#16, le 4 to, 0xB1#16, BitVec.ofNat 16 seq, 0xCC#8, 0#8, 0#8, 2#8⟩
      0x0FCE#16 s (List.replicate (84 - s.length) 0#8) (by omega) (by simp [ReplyForm.fits]; omega) 0#32 []
    rw [← this]
    congr 3
    have e1 : le 2 seq = le 2 (BitVec.ofNat 16 seq).toNat := by
      rw [← putBV_ofNat16]; rfl
    rw [e1]
    simp [ReplyForm.payload, ReplyForm.body, stringSlot, typeField, le, tStruct]
  · refine ⟨_, .scalar v T hv hT, ?_⟩
    intro ioi to seq
    apply C56_read_scalar ioi T hT v hv
    have hlen : v.encode.length ≤ 8 := by
      rw [(C13_value_roundtrip v T hv hT []).2.2]; cases T <;> first | decide | exact absurd rfl hT
    exact single_answered ioi _ _ _ _ ⟨0#32, 0#16, 0xA1#16, le 4 to, 0xB1#16, BitVec.ofNat 16 seq, 0xCC#8, 0#8, 0#8, 0#8⟩
      (by simp [ReplyForm.fits]; omega) (by
        have e1 : le 2 seq = le 2 (BitVec.ofNat 16 seq).toNat := by
          rw [← putBV_ofNat16]; rfl
        rw [e1, typeField_cip hT]
        simp [ReplyForm.payload, ReplyForm.body, le])

/-! ### C35 -/

/-- C35 for one value of any atomic type or a string of up to 82 characters, written to a tag or member as a
whole: the write is confirmed, and until something else is written there every client that reads the tag
with that type gets the value.
Missing: several values at once (`C35_array_partial`), elements (`C35_element_partial`), paths that use the
instance number of a tag, longer strings. -/
theorem C35_value_partial (C : Conv) (st : St) (r : Req) (conn : BitVec 32) (seq : BitVec 16) (rest : Bytes)
    (c : Conn) (ep : Nat) (s : Store) (ps : List Part) (dt : Byte) (ioi : Ioi) (v : Scal) (T : GoTy)
    (hcp : ClientPath ps dt ioi) (hwhole : wholeName (render ps)) (hv : Fits v T)
    (ha : Asks st r conn (writeBytes seq ioi (.one v)) rest) (hsv : Serves st.srv conn c ep s) :
    ∃ st' f s1, serveStep C st = (.ok (), st') ∧ st'.sent = st.sent ++ [f] ∧
      writeReply (replyOf f) = .ok () ∧ Serves st'.srv conn c ep s1 ∧
      ReadsBack C ep s1 (toLower (render ps)) (render ps) (cipOfGo T) 1
        fun ioi' reply => readT T ioi' [reply] = .ok v := by
  rw [write_one_bytes hv.1] at ha
  obtain ⟨hp, hrn⟩ := clientPath_of hcp
  obtain ⟨left, hpv⟩ := parse_one hv
  have hw : tagWrite C s (render (lowerPath ps)) (written [v]) =
      (.ok (), s.set (toLower (render ps)) (.scal v)) := by
    rw [hrn, tagWrite_same (t := render ps) _ (toLower_idem _)]
    unfold tagWrite
    rw [parse_whole hwhole]
    simp only [written]
    split <;> simp_all
  obtain ⟨st', f, h1, h2, h3, h4⟩ := write_step (C := C) ha hp hsv hpv (by simp) hw
  refine ⟨st', f, _, h1, h2, h4, h3, ?_⟩
  obtain ⟨image, hi1, hi2⟩ := shown_one hv
  refine readsBack_of (by decide) (by decide) (fun s' hs' => ?_) hi1 hi2
  unfold tagRead
  rw [parse_whole hwhole]
  simp only [hs', set_self]

/-- C35 for one element of an array: the value is written to element `i` of a stored array of that type, read
back from there, and the other elements are as before. -/
theorem C35_element_partial (C : Conv) (st : St) (r : Req) (conn : BitVec 32) (seq : BitVec 16) (rest : Bytes)
    (c : Conn) (ep : Nat) (s : Store) (ps : List Part) (dt : Byte) (ioi : Ioi) (v : Scal) (T : GoTy)
    (base : Str) (i : Nat) (old : List TVal)
    (hcp : ClientPath ps dt ioi) (hname : render ps = elemText base (dec i)) (hv : Fits v T)
    (hold : s (toLower base) = some (.slice (some T) old)) (hi : i < old.length) (hi63 : i < 2 ^ 63)
    (ha : Asks st r conn (writeBytes seq ioi (.one v)) rest) (hsv : Serves st.srv conn c ep s) :
    ∃ st' f s1, serveStep C st = (.ok (), st') ∧ st'.sent = st.sent ++ [f] ∧
      writeReply (replyOf f) = .ok () ∧ Serves st'.srv conn c ep s1 ∧
      (∃ new, s1 (toLower base) = some (.slice (some T) new) ∧ new.length = old.length ∧
        ∀ j, j ≠ i → new[j]? = old[j]?) ∧
      ReadsBack C ep s1 (toLower base) (render ps) (cipOfGo T) 1
        fun ioi' reply => readT T ioi' [reply] = .ok v := by
  rw [write_one_bytes hv.1] at ha
  obtain ⟨hp, hrn⟩ := clientPath_of hcp
  obtain ⟨left, hpv⟩ := parse_one hv
  have hat := atoi_dec hi63
  have hw : tagWrite C s (render (lowerPath ps)) (written [v]) =
      (.ok (), s.set (toLower base) (.slice (some T) (old.set i (.scal v)))) := by
    rw [hrn, tagWrite_same (t := render ps) _ (toLower_idem _), hname]
    unfold tagWrite
    rw [parse_elem hat]
    simp only [hold, written]
    rw [if_neg (by omega), C33_write_same_type C (.scal v) T ⟨v, rfl, hv.1⟩]
    simp
  obtain ⟨st', f, h1, h2, h3, h4⟩ := write_step (C := C) ha hp hsv hpv (by simp) hw
  refine ⟨st', f, _, h1, h2, h4, h3, ⟨old.set i (.scal v), set_self _ _ _, by simp, fun j hj => ?_⟩, ?_⟩
  · rw [List.getElem?_set_ne (by omega)]
  obtain ⟨image, hi1, hi2⟩ := shown_one hv
  refine readsBack_of (by decide) (by decide) (fun s' hs' => ?_) hi1 hi2
  rw [hname]
  unfold tagRead
  rw [parse_elem hat]
  simp only [hs', set_self, List.length_set]
  rw [if_neg (by omega), if_neg (by omega), if_pos (by simp)]
  simp [List.getD_eq_getElem?_getD, hi]

theorem write_many_bytes {T : GoTy} {vs : List Scal} (hT : T ≠ .str) (hb : T ≠ .bool)
    (hv : ∀ v ∈ vs, v.ty = some T) (seq : BitVec 16) (ioi : Ioi) :
    writeBytes seq ioi (.many T vs) = le 2 seq.toNat ++ 0x4D#8 :: BitVec.ofNat 8 (ioi.buffer.length / 2) ::
      (ioi.buffer ++ (typeField T ++ (le 2 vs.length ++ ((vs.map Scal.encode).flatten ++ [])))) := by
  have hf : writeFooter (cipOfGo T) (BitVec.ofNat 16 vs.length) = typeField T ++ le 2 vs.length := by
    unfold writeFooter
    rw [if_neg (cip_not_string hT), putBV_ofNat16, typeField_cip hT]
  have he : encodeSlice vs = (vs.map Scal.encode).flatten := by
    unfold encodeSlice
    congr 1
    apply List.map_congr_left
    intro v h
    have := hv v h
    cases v <;> simp [Scal.ty] at this <;> subst this <;> first | rfl | exact absurd rfl hT
  simp only [writeBytes, WVal.cipType, if_neg hb, hf, he]
  simp [putBV]

/-- C35 for 2 to 32767 values of an atomic type, written over a stored array of that type: the write is
confirmed, and until something else is written there every client that reads as many elements gets them.
Missing: tags that are not yet arrays of the type (`C35_new_array_unreadable`), strings
(`C35_strings_shifted`), booleans (`C35_bools_refused`), a slice of one value (`C35_single_replaces_array`),
counts such as 40 (`C35_forty_unreadable`), parts of an array (`C35_slice_at_element_refused`). -/
theorem C35_array_partial (C : Conv) (st : St) (r : Req) (conn : BitVec 32) (seq : BitVec 16) (rest : Bytes)
    (c : Conn) (ep : Nat) (s : Store) (ps : List Part) (dt : Byte) (ioi : Ioi) (T : GoTy) (vs : List Scal)
    (old : List TVal) (hcp : ClientPath ps dt ioi) (hwhole : wholeName (render ps)) (hT : T ≠ .str)
    (hb : T ≠ .bool) (hv : ∀ v ∈ vs, v.ty = some T) (h2 : 2 ≤ vs.length) (hn : vs.length < 32768)
    (hsafe : safeCount vs.length) (hold : s (toLower (render ps)) = some (.slice (some T) old))
    (ha : Asks st r conn (writeBytes seq ioi (.many T vs)) rest) (hsv : Serves st.srv conn c ep s) :
    ∃ st' f s1, serveStep C st = (.ok (), st') ∧ st'.sent = st.sent ++ [f] ∧
      writeReply (replyOf f) = .ok () ∧ Serves st'.srv conn c ep s1 ∧
      ReadsBack C ep s1 (toLower (render ps)) (render ps) (cipOfGo T) vs.length
        fun ioi' reply => readSliceT T ioi' vs.length [reply] = .ok vs := by
  rw [write_many_bytes hT hb hv] at ha
  have hsize : (vs.map Scal.encode).flatten.length + 10 < 65536 := by
    have hl := ha.1.2.2
    rw [ha.2.2.2.2.2, typeField_cip hT] at hl
    simp only [List.length_append, List.length_cons, le_length, List.length_nil] at hl
    have : 2 ≤ ioi.buffer.length := by
      have hp := (clientPath_of hcp).1
      obtain ⟨hw, hpb⟩ := hp
      have : ∃ x xs, segsOf (lowerPath ps) = PSeg.name x :: xs := by
        cases hlp : lowerPath ps with
        | nil => exact absurd hlp hw.1
        | cons p qs => exact ⟨p.name, _, rfl⟩
      obtain ⟨x, xs, hx⟩ := this
      rw [hx] at hpb
      generalize hbuf : ioi.buffer = buf at hpb
      cases hpb with
      | cons h1 h2 => cases h1; simp
    omega
  obtain ⟨hp, hrn⟩ := clientPath_of hcp
  have hpv := parse_values hT hv (by omega) []
  have hwr : written vs = .slice none (vs.map TVal.scal) := by
    match vs, h2 with
    | _ :: _ :: _, _ => rfl
  have hall : allOfType T (vs.map TVal.scal) := by
    intro v h
    simp at h
    obtain ⟨x, hx, rfl⟩ := h
    exact ⟨x, rfl, hv x hx⟩
  have hw : tagWrite C s (render (lowerPath ps)) (written vs) =
      (.ok (), s.set (toLower (render ps)) (.slice (some T) (vs.map TVal.scal))) := by
    rw [hrn, tagWrite_same (t := render ps) _ (toLower_idem _), hwr]
    unfold tagWrite
    rw [parse_whole hwhole]
    simp only [hold, convertAll_same C hall]
  obtain ⟨st', f, h1, h2', h3, h4⟩ := write_step (C := C) ha hp hsv hpv
    (by intro e; rw [e] at h2; simp at h2) hw
  refine ⟨st', f, _, h1, h2', h4, h3, ?_⟩
  refine readsBack_of hn hsafe (fun s' hs' => ?_) (.array T vs hv hT hb) (fun ioi' to seq' => ?_)
  · rw [read_slice (t := render ps) hwhole rfl (by rw [hs']; exact set_self _ _ _) (by omega)]
    rw [if_pos (by simp), List.take_of_length_le (by simp)]
  · apply C56_read_array_partial ioi' T hT vs hv h2 (by omega)
    exact single_answered ioi' _ _ _ _ ⟨0#32, 0#16, 0xA1#16, le 4 to, 0xB1#16, BitVec.ofNat 16 seq', 0xCC#8, 0#8, 0#8, 0#8⟩
      (by
        refine ⟨by simp, ?_⟩
        omega) (by
        have e1 : le 2 seq' = le 2 (BitVec.ofNat 16 seq').toNat := by
          rw [← putBV_ofNat16]; rfl
        rw [e1, typeField_cip hT]
        simp [ReplyForm.payload, ReplyForm.body, le])

/-! ### Disagreements -/

theorem write_step_bad {C : Conv} {st : St} {r : Req} {conn : BitVec 32} {seq : BitVec 16} {words : Byte}
    {ps : List Part} {path d rest : Bytes} {e : Err}
    (h : Asks st r conn (le 2 seq.toNat ++ 0x4D#8 :: words :: (path ++ d)) rest)
    (hp : PathOf ps path) (hd : ∀ b, d.head? = some b → b ≠ 0x28#8 ∧ b ≠ 0x29#8 ∧ b ≠ 0x91#8)
    (hpv : parseWriteValues d = .err e) :
    ∃ st', serveStep C st = (.err e, st') ∧ st'.sent = st.sent ∧ st'.srv = st.srv := by
  rw [unit_step h]
  unfold unitService
  rw [if_pos rfl]
  unfold cipConnectedWrite
  rw [readBV8_cons, lift_ok_bind]
  simp only
  rw [getTag_path hp _ hd, lift_ok_bind]
  simp only
  rw [hpv]
  exact ⟨_, rfl, rfl, rfl⟩

theorem write_step_refused {C : Conv} {st : St} {r : Req} {conn : BitVec 32} {seq : BitVec 16} {words : Byte}
    {ps : List Part} {path d rest left : Bytes} {c : Conn} {ep : Nat} {s : Store} {T : GoTy} {vs : List Scal}
    {e : Err} (h : Asks st r conn (le 2 seq.toNat ++ 0x4D#8 :: words :: (path ++ (typeField T ++ d))) rest)
    (hp : PathOf ps path) (hs : Serves st.srv conn c ep s)
    (hpv : parseWriteValues (typeField T ++ d) = .ok (vs, left)) (hne : vs ≠ [])
    (hw : tagWrite C s (render ps) (written vs) = (.err e, s)) :
    ∃ st', serveStep C st = (.err e, st') ∧ st'.sent = st.sent ∧ Serves st'.srv conn c ep s := by
  rw [unit_step h]
  unfold unitService
  rw [if_pos rfl]
  unfold cipConnectedWrite
  obtain ⟨h1, h2, keys, h3⟩ := hs
  rw [readBV8_cons, lift_ok_bind]
  simp only
  rw [getTag_path hp _ (typeField_head T d), lift_ok_bind]
  simp only
  rw [hpv, lift_ok_bind]
  simp only
  have e1 : getByOT conn (handling st r seq rest) = (.ok c, handling st r seq rest) := by
    unfold getByOT; rw [show (handling st r seq rest).srv = st.srv from rfl, h1]
  have e2 : resolve c.path (handling st r seq rest) = (.ok ep, handling st r seq rest) := by
    unfold resolve; rw [show (handling st r seq rest).srv = st.srv from rfl, h2]
  rw [bind_ok e1, bind_ok e2]
  have hk : ∃ keys', writeValues C ep (render ps) vs (handling st r seq rest) =
      (.err e, { handling st r seq rest with srv := (handling st r seq rest).srv.setStore ep s keys' }) := by
    have ht : ∀ v, written vs = v → ∃ keys', writeTag C ep (render ps) v (handling st r seq rest) =
        (.err e, { handling st r seq rest with srv := (handling st r seq rest).srv.setStore ep s keys' }) := by
      intro v hv
      subst hv
      unfold writeTag
      have h3' : (handling st r seq rest).srv.eps ep = .tags s keys := h3
      simp only [h3', hw]
      exact ⟨_, rfl⟩
    match vs, hne, ht with
    | [v], _, ht => exact ht _ rfl
    | _ :: _ :: _, _, ht => exact ht _ rfl
  obtain ⟨keys', hk⟩ := hk
  rw [bind_err hk]
  exact ⟨_, rfl, rfl, h1, h2, keys', by simp [Srv.setStore]⟩

/-- Disagreement: a slice of booleans (unless it has one element) is announced as a structure without a
handle; the server ends the connection without a reply. -/
theorem C35_bools_refused (C : Conv) (st : St) (r : Req) (conn : BitVec 32) (seq : BitVec 16) (rest : Bytes)
    (ps : List Part) (dt : Byte) (ioi : Ioi) (vs : List Scal) (hcp : ClientPath ps dt ioi)
    (ha : Asks st r conn (writeBytes seq ioi (.many .bool vs)) rest) :
    ∃ e st', serveStep C st = (.err e, st') ∧ st'.sent = st.sent ∧ st'.srv = st.srv := by
  have hb : writeBytes seq ioi (.many .bool vs) = le 2 seq.toNat ++ 0x4D#8 ::
      BitVec.ofNat 8 (ioi.buffer.length / 2) :: (ioi.buffer ++ (0xA0#8 :: 0#8 ::
        (putBV (BitVec.ofNat 16 vs.length) ++ encodeSlice vs))) := by
    have hf : writeFooter tStruct (BitVec.ofNat 16 vs.length) = 0xA0#8 :: 0#8 :: putBV (BitVec.ofNat 16 vs.length) := by
      unfold writeFooter
      rw [if_neg (by decide)]; rfl
    simp only [writeBytes, WVal.cipType, if_true, hf]
    simp [putBV]
  rw [hb] at ha
  obtain ⟨hp, -⟩ := clientPath_of hcp
  obtain ⟨st', h⟩ := write_step_bad (C := C) (e := .fail) ha hp
    (by intro b hb; simp at hb; subst hb; decide)
    (by
      unfold parseWriteValues
      simp only [readBV8_cons, Res.bind_ok]
      rw [show (0#8 : BitVec 8).toNat = 0 from rfl]
      simp only [readN, if_true, Res.bind_ok, readU16]
      rw [if_pos (by rfl), if_neg (by simp)])
  exact ⟨_, st', h⟩

/-- Disagreement: several values cannot be written to a part of an array; the server ends the connection
without a reply. -/
theorem C35_slice_at_element_refused (C : Conv) (st : St) (r : Req) (conn : BitVec 32) (seq : BitVec 16)
    (rest : Bytes) (c : Conn) (ep : Nat) (s : Store) (ps : List Part) (dt : Byte) (ioi : Ioi) (T : GoTy)
    (vs : List Scal) (base : Str) (i : Nat) (old : List TVal) (hcp : ClientPath ps dt ioi)
    (hname : render ps = elemText base (dec i)) (hi63 : i < 2 ^ 63) (hT : T ≠ .str) (hb : T ≠ .bool)
    (hv : ∀ v ∈ vs, v.ty = some T) (h2 : 2 ≤ vs.length) (hn : vs.length < 65536)
    (hold : s (toLower base) = some (.slice (some T) old))
    (ha : Asks st r conn (writeBytes seq ioi (.many T vs)) rest) (hsv : Serves st.srv conn c ep s) :
    ∃ e st', serveStep C st = (.err e, st') ∧ st'.sent = st.sent ∧ Serves st'.srv conn c ep s := by
  rw [write_many_bytes hT hb hv] at ha
  obtain ⟨hp, hrn⟩ := clientPath_of hcp
  have hpv := parse_values hT hv hn []
  have hwr : written vs = .slice none (vs.map TVal.scal) := by
    match vs, h2 with
    | _ :: _ :: _, _ => rfl
  have hw : tagWrite C s (render (lowerPath ps)) (written vs) = (.err .fail, s) := by
    rw [hrn, tagWrite_same (t := render ps) _ (toLower_idem _), hwr, hname]
    unfold tagWrite
    rw [parse_elem (atoi_dec hi63)]
    simp only [hold]
    split
    · rfl
    · cases T <;> simp [convertToElement] <;> first | rfl | exact absurd rfl hT
  obtain ⟨st', h⟩ := write_step_refused (C := C) ha hp hsv hpv (by intro e; rw [e] at h2; simp at h2) hw
  exact ⟨_, st', h⟩

/-- Disagreement: a slice of one value, written to a tag that holds an array, replaces the array by the
value. -/
theorem C35_single_replaces_array (C : Conv) (st : St) (r : Req) (conn : BitVec 32) (seq : BitVec 16)
    (rest : Bytes) (c : Conn) (ep : Nat) (s : Store) (ps : List Part) (dt : Byte) (ioi : Ioi) (T : GoTy)
    (v : Scal) (hcp : ClientPath ps dt ioi) (hwhole : wholeName (render ps)) (hT : T ≠ .str) (hb : T ≠ .bool)
    (hv : v.ty = some T)
    (ha : Asks st r conn (writeBytes seq ioi (.many T [v])) rest) (hsv : Serves st.srv conn c ep s) :
    ∃ st' f s1, serveStep C st = (.ok (), st') ∧ writeReply (replyOf f) = .ok () ∧
      st'.sent = st.sent ++ [f] ∧ Serves st'.srv conn c ep s1 ∧
      ∀ count, tagRead s1 (render ps) count = .ok (.scal v) := by
  rw [write_many_bytes hT hb (by simpa using hv)] at ha
  obtain ⟨hp, hrn⟩ := clientPath_of hcp
  have hpv := parse_values (vs := [v]) hT (by simpa using hv) (by simp) []
  have hw : tagWrite C s (render (lowerPath ps)) (written [v]) =
      (.ok (), s.set (toLower (render ps)) (.scal v)) := by
    rw [hrn, tagWrite_same (t := render ps) _ (toLower_idem _)]
    unfold tagWrite
    rw [parse_whole hwhole]
    simp only [written]
    split <;> simp_all
  obtain ⟨st', f, h1, h2, h3, h4⟩ := write_step (C := C) ha hp hsv hpv (by simp) hw
  refine ⟨st', f, _, h1, h4, h2, h3, fun count => ?_⟩
  unfold tagRead
  rw [parse_whole hwhole]
  simp [set_self]

/-- Disagreement: several values written to a tag that does not exist are accepted, and then no read of the
tag is answered: the server ends the connection. -/
theorem C35_new_array_unreadable (C : Conv) (st : St) (r : Req) (conn : BitVec 32) (seq : BitVec 16)
    (rest : Bytes) (c : Conn) (ep : Nat) (s : Store) (ps : List Part) (dt : Byte) (ioi : Ioi) (T : GoTy)
    (vs : List Scal) (hcp : ClientPath ps dt ioi) (hwhole : wholeName (render ps)) (hT : T ≠ .str)
    (hb : T ≠ .bool) (hv : ∀ v ∈ vs, v.ty = some T) (h2 : 2 ≤ vs.length) (hn : vs.length < 65536)
    (hold : s (toLower (render ps)) = none)
    (ha : Asks st r conn (writeBytes seq ioi (.many T vs)) rest) (hsv : Serves st.srv conn c ep s) :
    ∃ st' f s1, serveStep C st = (.ok (), st') ∧ writeReply (replyOf f) = .ok () ∧
      st'.sent = st.sent ++ [f] ∧ Serves st'.srv conn c ep s1 ∧
      ∀ (st2 : St) (r2 : Req) (seq2 : BitVec 16) (rest2 : Bytes) (n : Nat) (ioi2 : Ioi) (dt2 : Byte),
        st2.srv = st'.srv → ClientPath ps dt2 ioi2 → n ≤ vs.length → n < 32768 → safeCount n →
        Asks st2 r2 conn (ReadReq.bytes seq2 ⟨ioi2.buffer, BitVec.ofNat 16 n, none⟩) rest2 →
        ∃ e st2', serveStep C st2 = (.err e, st2') ∧ st2'.sent = st2.sent := by
  rw [write_many_bytes hT hb hv] at ha
  obtain ⟨hp, hrn⟩ := clientPath_of hcp
  have hpv := parse_values hT hv hn []
  have hwr : written vs = .slice none (vs.map TVal.scal) := by
    match vs, h2 with
    | _ :: _ :: _, _ => rfl
  have hw : tagWrite C s (render (lowerPath ps)) (written vs) =
      (.ok (), s.set (toLower (render ps)) (.slice none (vs.map TVal.scal))) := by
    rw [hrn, tagWrite_same (t := render ps) _ (toLower_idem _), hwr]
    unfold tagWrite
    rw [parse_whole hwhole]
    simp only [hold]
  obtain ⟨st', f, h1, h2', h3, h4⟩ := write_step (C := C) ha hp hsv hpv
    (by intro e; rw [e] at h2; simp at h2) hw
  refine ⟨st', f, _, h1, h4, h2', h3, ?_⟩
  intro st2 r2 seq2 rest2 n ioi2 dt2 hsrv hcp2 hnv hn15 hsafe ha2
  rw [readReq_bytes] at ha2
  obtain ⟨hp2, hrn2⟩ := clientPath_of hcp2
  have hr : tagRead (s.set (toLower (render ps)) (.slice none (vs.map TVal.scal))) (render (lowerPath ps)) n =
      .ok (.slice none ((vs.map TVal.scal).take n)) := by
    rw [hrn2, tagRead_same (t := render ps) _ (toLower_idem _)]
    rw [read_slice (t := render ps) hwhole rfl (set_self _ _ _) (by omega), if_pos (by simpa using hnv)]
    simp
  rw [← hsrv] at h3
  obtain ⟨h1', h2', keys, h3'⟩ := h3
  rw [unit_step ha2]
  unfold unitService
  rw [if_neg (by decide), if_neg (by decide), if_pos rfl]
  unfold connectedRead
  have e4 : readBV 32 (le 4 conn.toNat) = .ok (conn, []) := by
    have := readU32 conn []
    simpa [putBV] using this
  rw [e4, orElse_ok_bind]
  simp only
  rw [orElseAt_ok_bind (a := c) (by exact h1'), readBV16_le, orElse_ok_bind]
  simp only
  obtain ⟨w, hw⟩ := readBV16_two 0x4C#8 (BitVec.ofNat 8 (ioi2.buffer.length / 2)) (ioi2.buffer ++ le 2 n)
  rw [hw, orElse_ok_bind]
  simp only
  have := getTag_path hp2 (le 2 n) (by simpa using safe_head hsafe [])
  rw [this, orElse_ok_bind]
  simp only
  have e5 : readBV 16 (le 2 n) = .ok (BitVec.ofNat 16 n, []) := by
    have := readU16 (BitVec.ofNat 16 n) []
    rwa [putBV_ofNat16, List.append_nil] at this
  rw [e5, orElse_ok_bind]
  simp only
  rw [orElseAt_ok_bind (a := ep) (by exact h2')]
  rw [orElseAt_ok_bind (by rw [readTag_ok (by exact h3'), count_int hn15, hr])]
  exact ⟨_, _, rfl, rfl⟩

theorem stringElem_split {a : Str} (h : a.length ≤ 82) :
    stringElemBytes a = putBV (BitVec.ofNat 32 a.length) ++ ((a ++ List.replicate (82 - a.length) 0#8) ++ [0#8, 0#8]) := by
  unfold stringElemBytes fitTo
  rw [if_neg (by omega), List.take_of_length_le (by omega), show 84 - a.length = (82 - a.length) + 2 by omega,
    ← List.replicate_append_replicate]
  simp [List.replicate]

theorem readStringElem_ok {a : Str} (h : a.length ≤ 82) (r : Bytes) :
    readStringElem (putBV (BitVec.ofNat 32 a.length) ++ ((a ++ List.replicate (82 - a.length) 0#8) ++ r)) =
      .ok (.str a, r) := by
  unfold readStringElem
  simp only [readU32, Res.bind_ok]
  rw [readN_append' (by simp; omega)]
  simp only [Res.bind_ok, BitVec.toNat_ofNat]
  rw [Nat.mod_eq_of_lt (show a.length < 2 ^ 32 by omega), if_neg (show ¬ a.length > 82 by omega),
    List.take_left' rfl]

/-- Disagreement: of two strings written at once the second arrives shifted: the client sends 88 bytes per
string, the server reads 86.  The stored string is two zero bytes followed by the first 80 characters,
padded. -/
theorem C35_strings_shifted (C : Conv) (st : St) (r : Req) (conn : BitVec 32) (seq : BitVec 16)
    (rest : Bytes) (c : Conn) (ep : Nat) (s : Store) (ps : List Part) (dt : Byte) (ioi : Ioi)
    (a b : Str) (old : List TVal) (hcp : ClientPath ps dt ioi) (hwhole : wholeName (render ps))
    (hal : a.length ≤ 82) (hbl : b.length ≤ 82) (hb0 : b ≠ [])
    (hold : s (toLower (render ps)) = some (.slice (some .str) old))
    (ha : Asks st r conn (writeBytes seq ioi (.many .str [.str a, .str b])) rest)
    (hsv : Serves st.srv conn c ep s) :
    ∃ st' f s1, serveStep C st = (.ok (), st') ∧ writeReply (replyOf f) = .ok () ∧
      st'.sent = st.sent ++ [f] ∧ Serves st'.srv conn c ep s1 ∧
      tagRead s1 (render ps) 2 = .ok (.slice (some .str) [.scal (.str a),
        .scal (.str ([0#8, 0#8] ++ (b ++ List.replicate (82 - b.length) 0#8).take 80))]) := by
  have hbytes : writeBytes seq ioi (.many .str [.str a, .str b]) = le 2 seq.toNat ++ 0x4D#8 ::
      BitVec.ofNat 8 (ioi.buffer.length / 2) :: (ioi.buffer ++ (typeField .str ++ (le 2 2 ++
        (stringElemBytes a ++ stringElemBytes b)))) := by
    have hf : writeFooter tSTRING (BitVec.ofNat 16 2) = typeField .str ++ le 2 2 := by decide
    have hc : WVal.cipType (.many .str [.str a, .str b]) = tSTRING := rfl
    simp only [writeBytes, hc, List.length_cons, List.length_nil, Nat.zero_add, Nat.reduceAdd, hf, encodeSlice,
      List.map_cons, List.map_nil, Scal.encodeElem]
    simp [putBV]
  rw [hbytes] at ha
  obtain ⟨hp, hrn⟩ := clientPath_of hcp
  let b' : Str := [0#8, 0#8] ++ (b ++ List.replicate (82 - b.length) 0#8).take 80
  have hbl' : (b ++ List.replicate (82 - b.length) 0#8).length = 82 := by simp; omega
  have hpv : ∃ left, parseWriteValues (typeField .str ++ (le 2 2 ++ (stringElemBytes a ++ stringElemBytes b))) =
      .ok ([.str a, .str b'], left) := by
    refine ⟨(b ++ List.replicate (82 - b.length) 0#8).drop 80 ++ [0#8, 0#8], ?_⟩
    have e2 : [0#8, 0#8] ++ stringElemBytes b = putBV (BitVec.ofNat 32 (65536 * b.length)) ++
        (b' ++ ((b ++ List.replicate (82 - b.length) 0#8).drop 80 ++ [0#8, 0#8])) := by
      have e3 : putBV (BitVec.ofNat 32 b.length) = [BitVec.ofNat 8 b.length, 0#8, 0#8, 0#8] := by
        rw [putBV_ofNat32]
        simp [le, show b.length / 256 = 0 by omega]
      have e4 : putBV (BitVec.ofNat 32 (65536 * b.length)) = [0#8, 0#8, BitVec.ofNat 8 b.length, 0#8] := by
        rw [putBV_ofNat32]
        have h1 : BitVec.ofNat 8 (65536 * b.length) = 0#8 := by
          apply BitVec.eq_of_toNat_eq; simp; omega
        have h2 : BitVec.ofNat 8 (65536 * b.length / 256) = 0#8 := by
          apply BitVec.eq_of_toNat_eq; simp; omega
        have h3 : 65536 * b.length / 256 / 256 = b.length := by omega
        simp [le, h1, h2, h3, show b.length / 256 = 0 by omega]
      rw [stringElem_split hbl, e3, e4]
      simp only [b']
      rw [show ([0#8, 0#8] ++ (b ++ List.replicate (82 - b.length) 0#8).take 80) ++
          ((b ++ List.replicate (82 - b.length) 0#8).drop 80 ++ [0#8, 0#8]) =
        [0#8, 0#8] ++ (((b ++ List.replicate (82 - b.length) 0#8).take 80 ++
          (b ++ List.replicate (82 - b.length) 0#8).drop 80) ++ [0#8, 0#8]) by
          simp only [List.append_assoc], List.take_append_drop]
      simp
    have e1 : typeField .str ++ (le 2 2 ++ (stringElemBytes a ++ stringElemBytes b)) =
        0xA0#8 :: 2#8 :: ([0xCE#8, 0x0F#8] ++ (putBV 2#16 ++ (putBV (BitVec.ofNat 32 a.length) ++
          ((a ++ List.replicate (82 - a.length) 0#8) ++ ([0#8, 0#8] ++ stringElemBytes b))))) := by
      rw [stringElem_split hal]
      simp [typeField, le, putBV]
    rw [e1]
    unfold parseWriteValues
    simp only [readBV8_cons, Res.bind_ok]
    rw [readN_append' (by rfl), Res.bind_ok]
    simp only [readU16, Res.bind_ok]
    rw [if_pos (by rfl), if_pos (by decide)]
    rw [show (2#16 : BitVec 16).toNat = (0 + 1) + 1 from rfl]
    simp only [readElems]
    rw [readStringElem_ok hal, Res.bind_ok]
    simp only
    rw [e2]
    have e5 : readStringElem (putBV (BitVec.ofNat 32 (65536 * b.length)) ++
        (b' ++ ((b ++ List.replicate (82 - b.length) 0#8).drop 80 ++ [0#8, 0#8]))) =
        .ok (.str b', (b ++ List.replicate (82 - b.length) 0#8).drop 80 ++ [0#8, 0#8]) := by
      have hb82 : b'.length = 82 := by simp only [b', List.length_append, List.length_take, hbl']; rfl
      have hpos : 0 < b.length := List.length_pos_iff.mpr hb0
      unfold readStringElem
      simp only [readU32, Res.bind_ok]
      rw [readN_append' hb82]
      simp only [Res.bind_ok, BitVec.toNat_ofNat]
      rw [Nat.mod_eq_of_lt (show 65536 * b.length < 2 ^ 32 by omega),
        if_pos (show 65536 * b.length > 82 by omega), List.take_of_length_le (by omega)]
    rw [e5]
    rfl
  obtain ⟨left, hpv⟩ := hpv
  have hall : allOfType .str [.scal (.str a), .scal (.str b')] := by
    intro v h
    simp at h
    rcases h with rfl | rfl <;> exact ⟨_, rfl, rfl⟩
  have hw : tagWrite C s (render (lowerPath ps)) (written [.str a, .str b']) =
      (.ok (), s.set (toLower (render ps)) (.slice (some .str) [.scal (.str a), .scal (.str b')])) := by
    rw [hrn, tagWrite_same (t := render ps) _ (toLower_idem _)]
    unfold tagWrite
    rw [parse_whole hwhole]
    simp only [hold, written, List.map_cons, List.map_nil, convertAll_same C hall]
  obtain ⟨st', f, h1, h2', h3, h4⟩ := write_step (C := C) ha hp hsv hpv (by simp) hw
  refine ⟨st', f, _, h1, h4, h2', h3, ?_⟩
  rw [read_slice (t := render ps) hwhole rfl (set_self _ _ _) (by omega)]
  rfl

/-- Disagreement: no client can read 40 elements of anything.  The server takes the count for an array index,
answers "path error", and ends the connection; `readSliceT` fails. -/
theorem C35_forty_unreadable (C : Conv) (st : St) (r : Req) (conn : BitVec 32) (seq : BitVec 16)
    (rest : Bytes) (c : Conn) (ep : Nat) (s : Store) (ps : List Part) (dt : Byte) (ioi : Ioi)
    (hcp : ClientPath ps dt ioi)
    (ha : Asks st r conn (ReadReq.bytes seq ⟨ioi.buffer, BitVec.ofNat 16 40, none⟩) rest)
    (hsv : Serves st.srv conn c ep s) :
    ∃ e st' f, serveStep C st = (.err e, st') ∧ st'.sent = st.sent ++ [f] ∧
      ∀ (T : GoTy) (vs : List Scal), readSliceT T ioi 40 [replyOf f] ≠ .ok vs := by
  rw [readReq_bytes] at ha
  obtain ⟨⟨hw, hpb⟩, hrn⟩ := clientPath_of hcp
  obtain ⟨h1, h2, keys, h3⟩ := hsv
  have hne : render (lowerPath ps) ≠ [] := by
    intro e
    cases hlp : lowerPath ps with
    | nil => exact hw.1 hlp
    | cons p qs =>
      have hpn := (hw.2 p (by rw [hlp]; simp)).1.1
      rw [hlp] at e
      cases qs with
      | nil => simp [render, joinWith, renderPart, hpn] at e
      | cons q qs => simp [render, joinWith, renderPart] at e
  have htag : ∃ t, getTagFromPath (ioi.buffer ++ le 2 40) = .ok (t, []) := by
    have hl := path_length hpb
    rw [segsOf_length] at hl
    have e : (ioi.buffer ++ le 2 40).length + 1 =
        segCount (lowerPath ps) + ((ioi.buffer.length - segCount (lowerPath ps)) + 1 + 1 + 1) := by
      simp; omega
    unfold getTagFromPath
    rw [e, wire_parts (fun q hq => (hw.2 q hq).1) hpb, if_neg hw.1, if_pos rfl]
    have hadd : ∃ t, addIndex (render (lowerPath ps)) 0 = .ok t := by
      unfold addIndex
      rw [List.getLast?_eq_some_getLast hne]
      simp only
      split <;> exact ⟨_, rfl⟩
    obtain ⟨t, hadd⟩ := hadd
    refine ⟨t, ?_⟩
    have := seg_parse (fuel := ioi.buffer.length - segCount (lowerPath ps) + 1 + 1) (s := render (lowerPath ps)) (r := [])
      (SegBytes.index8 0#8)
    rw [show le 2 40 = [0x28#8, 0#8] ++ [] from rfl, this]
    rw [show (0#8 : BitVec 8).toNat = 0 from rfl, hadd, Res.bind_ok]
    rfl
  obtain ⟨t, htag⟩ := htag
  rw [unit_step ha]
  unfold unitService
  rw [if_neg (by decide), if_neg (by decide), if_pos rfl]
  unfold connectedRead
  have e4 : readBV 32 (le 4 conn.toNat) = .ok (conn, []) := by
    have := readU32 conn []
    simpa [putBV] using this
  rw [e4, orElse_ok_bind]
  simp only
  rw [orElseAt_ok_bind (a := c) (by exact h1), readBV16_le, orElse_ok_bind]
  simp only
  obtain ⟨w, hww⟩ := readBV16_two 0x4C#8 (BitVec.ofNat 8 (ioi.buffer.length / 2)) (ioi.buffer ++ le 2 40)
  rw [hww, orElse_ok_bind]
  simp only
  rw [htag, orElse_ok_bind]
  refine ⟨_, _, _, rfl, rfl, ?_⟩
  intro T vs hok
  have hpay : (replyOf (frameOf (handling st r seq rest).h 0x70#16 (serializeItems [(Item.new 0xA1#16).write
      (putBV c.to), (Item.new 0xB1#16).write (putBV seq ++ resultHdr 0x4C#8 0x20#8 ++ [])]))).payload =
      [0, 0, 0, 0, 0, 0] ++ cpf [(0xA1#16, putBV c.to), (0xB1#16, putBV seq ++ resultHdr 0x4C#8 0x20#8 ++ [])] := by
    unfold replyOf
    simp only
    rw [frameOf_drop, unit_payload]
  have hit : replyItem ([0, 0, 0, 0, 0, 0] ++ cpf [(0xA1#16, putBV c.to),
        (0xB1#16, putBV seq ++ resultHdr 0x4C#8 0x20#8 ++ [])]) = .ok (putBV seq ++ resultHdr 0x4C#8 0x20#8) := by
    unfold replyItem
    rw [if_neg (by simp), List.drop_left' (by rfl)]
    unfold secondOfTwo
    have := Gologix.readItems_cpf [(0xA1#16, putBV c.to),
        (0xB1#16, putBV seq ++ resultHdr 0x4C#8 0x20#8 ++ [])] [] (by simp) (by simp [resultHdr])
    rw [List.append_nil] at this
    rw [this, Res.bind_ok]
    simp
  have hbad : (readSingle ioi (cipOfGo T) (BitVec.ofNat 16 40) [replyOf (frameOf (handling st r seq rest).h 0x70#16
      (serializeItems [(Item.new 0xA1#16).write (putBV c.to),
        (Item.new 0xB1#16).write (putBV seq ++ resultHdr 0x4C#8 0x20#8 ++ [])]))]).1 = .err .unexpectedEof := by
    unfold readSingle
    simp only [hpay, hit, Res.bind_ok]
    have : readHdr (putBV seq ++ resultHdr 0x4C#8 0x20#8) = .err .unexpectedEof := by
      unfold readHdr readN
      simp [resultHdr, putBV, le]
    rw [this]
  have hok' : readSliceT T ioi 40 [replyOf (frameOf (handling st r seq rest).h 0x70#16
      (serializeItems [(Item.new 0xA1#16).write (putBV c.to),
        (Item.new 0xB1#16).write (putBV seq ++ resultHdr 0x4C#8 0x20#8 ++ [])]))] = .ok vs := hok
  unfold readSliceT readArrayT at hok'
  rw [if_neg (by decide), hbad] at hok'
  cases hok'

/-! ### The demo server -/

def demoDb : TagDb := ⟨20, fun _ => none⟩

def demoIoi (t : String) (dt : Byte) : Ioi :=
  match (newIOI demoDb [] (str t) dt).1 with | .ok i => i | _ => ⟨[], dt, false, 0, []⟩

/-- Write `v` to `t` and read `t` again over the same connection: what the client makes of the reply. -/
def demoTrip (t : String) (w : WVal) (T : GoTy) : Res Scal :=
  let st1 := (serveStep demoConv (demoSt (demoUnit (writeBytes 5#16 (demoIoi t w.cipType) w)).bytes)).2
  let ioi := demoIoi t (cipOfGo T)
  let st2 := (serveStep demoConv { st1 with
    inp := (demoUnit (ReadReq.bytes 6#16 ⟨ioi.buffer, 1#16, none⟩)).bytes, sent := [] }).2
  readT T ioi (st2.sent.map replyOf)

def demoTrips (t : String) (w : WVal) (T : GoTy) (n : Nat) : Res (List Scal) :=
  let st1 := (serveStep demoConv (demoSt (demoUnit (writeBytes 5#16 (demoIoi t w.cipType) w)).bytes)).2
  let ioi := demoIoi t (cipOfGo T)
  let st2 := (serveStep demoConv { st1 with
    inp := (demoUnit (ReadReq.bytes 6#16 ⟨ioi.buffer, BitVec.ofNat 16 n, none⟩)).bytes, sent := [] }).2
  readSliceT T ioi n (st2.sent.map replyOf)

example : demoTrip "Count" (.one (.i32 7#32)) .i32 = .ok (.i32 7#32) := by decide +kernel

example : demoTrip "NewTag" (.one (.str (str "hello"))) .str = .ok (.str (str "hello")) := by decide +kernel

example : demoTrip "arr[2]" (.one (.i32 9#32)) .i32 = .ok (.i32 9#32) := by decide +kernel

example : demoTrips "arr" (.many .i32 [.i32 9#32, .i32 8#32]) .i32 2 = .ok [.i32 9#32, .i32 8#32] := by
  decide +kernel

/-- `C35_bools_refused` -/
example : (serveStep demoConv (demoSt (demoUnit (writeBytes 5#16 (demoIoi "flags" tStruct)
    (.many .bool [.bool true, .bool false]))).bytes)).1 = .err .fail := by decide +kernel

/-- `C35_slice_at_element_refused` -/
example : (serveStep demoConv (demoSt (demoUnit (writeBytes 5#16 (demoIoi "arr[1]" tDINT)
    (.many .i32 [.i32 9#32, .i32 8#32]))).bytes)).2.sent = [] := by decide +kernel

/-- `C35_single_replaces_array`: after a one-element write the array is gone. -/
example : demoTrip "arr" (.many .i32 [.i32 9#32]) .i32 = .ok (.i32 9#32) ∧
    (demoTrips "arr" (.many .i32 [.i32 9#32]) .i32 3).isOk = false := by decide +kernel

/-- `C35_new_array_unreadable` -/
example : (demoTrips "fresh" (.many .i32 [.i32 9#32, .i32 8#32]) .i32 2).isOk = false := by decide +kernel

/-- `C35_forty_unreadable` -/
example : (serveStep demoConv (demoSt (demoUnit (ReadReq.bytes 6#16
    ⟨(demoIoi "arr" tDINT).buffer, 40#16, none⟩)).bytes)).1 ≠ .ok () := by decide +kernel

/-- The premises of `C35_value_partial` and `C35_array_partial` hold of the demo server. -/
example : ∃ c, ClientPath [⟨str "Count", []⟩] tDINT (demoIoi "Count" tDINT) ∧ wholeName (str "Count") ∧
    Fits (.i32 7#32) .i32 ∧
    Asks (demoSt (demoUnit (writeBytes 5#16 (demoIoi "Count" tDINT) (.one (.i32 7#32)))).bytes)
      (demoUnit (writeBytes 5#16 (demoIoi "Count" tDINT) (.one (.i32 7#32)))) 0x11#32
      (writeBytes 5#16 (demoIoi "Count" tDINT) (.one (.i32 7#32))) [] ∧
    Serves demoSrv 0x11#32 c 0 demoStore := by
  obtain ⟨c, hc, -⟩ := demo_serves []
  exact ⟨c, ⟨by decide, demoDb, .inl (by decide), by decide +kernel⟩,
    by unfold wholeName; decide, ⟨rfl, by intro s h; cases h⟩,
    demo_asks _ (by decide +kernel), hc⟩

end Gologix.Server
