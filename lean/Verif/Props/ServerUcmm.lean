import Verif.Spec.ServerUcmm
import Verif.Props.ServerAttr
import Verif.Props.ServerRoundtrip
import Verif.Props.ServerList
/-
C94: tags read and written outside a connection.
-/
set_option linter.unusedSimpArgs false

namespace Gologix.Server
open Gologix Gologix.Spec Gologix.Server.Spec M

/-- The route leads to endpoint `ep`, which has the tags `s`. -/
def Offers (srv : Srv) (route : Bytes) (ep : Nat) (s : Store) : Prop :=
  srv.router.resolve route = .ok ep ∧ ∃ keys, srv.eps ep = .tags s keys

/-- No reply; the error ends the session, and the server stays as it was. -/
def Silent (C : Conv) (st : St) : Prop :=
  newFrames st (serveStep C st).2 = [] ∧ (∃ e, (serveStep C st).1 = .err e) ∧ (serveStep C st).2.srv = st.srv

/-- One frame with service, status and data; the session goes on. -/
def Replied (C : Conv) (st : St) (service status : Byte) (data : Bytes) : Prop :=
  ∃ f, newFrames st (serveStep C st).2 = [f] ∧ rrServiceOf f = some (service ||| 0x80#8) ∧
    rrStatusOf f = some status ∧ rrAnswerOf f = data ∧ (serveStep C st).1 = .ok ()

theorem lift_err_bind {α β : Type} (e : Err) (f : α → M β) (st : St) :
    ((lift (.err e : Res α) : M α) >>= f) st = (.err e, st) := rfl

theorem depend_at (f : St → M Unit) (st : St) : depend f st = f st st := rfl

theorem silent_of {C : Conv} {st st0 : St} {e : Err} (h : serveStep C st = (.err e, st0)) (hs : st0.srv = st.srv)
    (hn : st0.sent = st.sent) : Silent C st := by
  unfold Silent
  rw [h]
  exact ⟨by simp [newFrames, hn], ⟨e, rfl⟩, hs⟩

theorem replied_of {C : Conv} {st st0 : St} {s status : Byte} {p : Bytes}
    (h : serveStep C st = sendUnconn s status p st0) (hn : st0.sent = st.sent) :
    Replied C st s status p ∧ (serveStep C st).2.srv = st0.srv := by
  have hu := rr_fields st0.h s status p
  refine ⟨⟨_, ?_, hu.1, hu.2.1, hu.2.2, by rw [h]; rfl⟩, by rw [h]; rfl⟩
  rw [h]
  simp [newFrames, sendUnconn, sendRR, send, hn]

/-- What follows a message along a route. -/
def tailOf (msg route : Bytes) : Bytes :=
  List.replicate (msg.length % 2) 0#8 ++ (BitVec.ofNat 8 (route.length / 2) :: 0#8 :: route)

theorem along_run (C : Conv) (st : St) (route : Bytes) (svc : Byte) (body : Bytes)
    (h : Along st.inp route (svc :: body)) :
    ∃ st0, serveStep C st = embedded C svc (body ++ tailOf (svc :: body) route) st0 ∧ st0.srv = st.srv ∧
      st0.sent = st.sent ∧ route.length % 2 = 0 ∧ route.length < 512 := by
  obtain ⟨d, hu, n, path, time, hn, hp, ht, hm, he, hl, rfl⟩ := h
  obtain ⟨st0, hs, h1, h2⟩ := serveStep_unconnected C st _ hu
  refine ⟨st0, ?_, h1, h2, he, hl⟩
  have hn2 : (n * 2#8).toNat = 2 * n.toNat := by
    rw [BitVec.toNat_mul]; simp; omega
  rw [hs]
  unfold unconnectedData
  rw [readBV_cons8, lift_ok_bind]
  simp only
  rw [if_neg (by decide), if_neg (by decide), if_neg (by decide), if_neg (by decide), if_neg (by decide),
    if_neg (by decide), if_pos trivial]
  have := unconnectedSend_eq C n path (by rw [hp, hn2]) (time ++ le 2 (svc :: body).length) (by simp [ht]) svc
    (body ++ tailOf (svc :: body) route)
  rw [← this]
  simp [tailOf]

theorem route_read (route more : Bytes) (he : route.length % 2 = 0) (hl : route.length < 512) :
    readBV 16 (BitVec.ofNat 8 (route.length / 2) :: 0#8 :: (route ++ more)) =
      .ok (BitVec.ofNat 16 (route.length / 2), route ++ more) := by
  rw [readBV16_cons]
  congr 2
  apply BitVec.eq_of_toNat_eq
  simp [unle]
  omega

theorem route_len (route : Bytes) (he : route.length % 2 = 0) (hl : route.length < 512) :
    (2#16 * BitVec.ofNat 16 (route.length / 2)).toNat = route.length := by
  rw [BitVec.toNat_mul]; simp; omega

/-! ### Reading -/

theorem read_along (C : Conv) (st : St) (route msg : Bytes) (ps : List Part) (n : Nat) (h : Along st.inp route msg)
    (hm : ReadMsg ps n msg) (hsafe : safeCount n) :
    ∃ st0, st0.srv = st.srv ∧ st0.sent = st.sent ∧ serveStep C st =
      (resolve route >>= fun ep => readTag ep (render ps) (BitVec.ofNat 16 n) >>= fun v =>
        lift (readPayload v) >>= fun b => sendUnconn 0x4C#8 0#8 b) st0 := by
  obtain ⟨words, path, hp, hw, rfl⟩ := hm
  obtain ⟨st0, hs, h1, h2, he, hl⟩ := along_run C st route _ _ h
  refine ⟨st0, h1, h2, ?_⟩
  rw [hs]
  unfold embedded
  rw [if_neg (by decide), if_pos rfl]
  unfold unconnectedRead
  rw [List.cons_append, readBV_cons8, lift_ok_bind]
  simp only
  rw [List.append_assoc, getTag_path hp _ (safe_head hsafe _), lift_ok_bind]
  simp only
  have e5 : readBV 16 (le 2 n ++ tailOf (0x4C#8 :: words :: (path ++ le 2 n)) route) =
      .ok (BitVec.ofNat 16 n, tailOf (0x4C#8 :: words :: (path ++ le 2 n)) route) := by
    have := readU16 (BitVec.ofNat 16 n) (tailOf (0x4C#8 :: words :: (path ++ le 2 n)) route)
    rwa [putBV_ofNat16] at this
  rw [e5, lift_ok_bind]
  simp only
  have e6 : tailOf (0x4C#8 :: words :: (path ++ le 2 n)) route =
      BitVec.ofNat 8 (route.length / 2) :: 0#8 :: (route ++ []) := by
    unfold tailOf
    rw [show (0x4C#8 :: words :: (path ++ le 2 n)).length % 2 = 0 by simp [hw]; omega]
    simp
  rw [e6, route_read route [] he hl, lift_ok_bind]
  simp only
  rw [route_len route he hl, readN_append, lift_ok_bind]

/-- C94, reading: a request for some elements of a tag is answered with their type and bytes.
Missing: counts whose low byte is the code of a path segment (see C35), arrays of strings and of BOOLs. -/
theorem C94_read_partial (C : Conv) (st : St) (route msg : Bytes) (ps : List Part) (n : Nat)
    (h : Along st.inp route msg) (hm : ReadMsg ps n msg) (hn : n < 32768) (hsafe : safeCount n) (ep : Nat) (s : Store)
    (ho : Offers st.srv route ep s) (v : TVal) (hr : tagRead s (render ps) n = .ok v) (image : Bytes)
    (hv : Shown v image) : AnswersRR C st 0x4C#8 0#8 image := by
  obtain ⟨st0, h1, h2, hs⟩ := read_along C st route msg ps n h hm hsafe
  obtain ⟨ho1, keys, ho2⟩ := ho
  rw [bind_ok (st' := st0) (a := ep) (by unfold resolve; rw [h1, ho1]),
    bind_ok (st' := st0) (a := v) (by rw [readTag_ok (by rw [h1]; exact ho2), count_int hn, hr]),
    readPayload_shown hv, lift_ok_bind] at hs
  exact answersRR_of hs h1 h2

/-- C94 is false for a read that fails: a tag that is not there, elements past the end, or a route that leads
nowhere give no reply, and the session ends. -/
theorem C94_read_failed_silent (C : Conv) (st : St) (route msg : Bytes) (ps : List Part) (n : Nat)
    (h : Along st.inp route msg) (hm : ReadMsg ps n msg) (hn : n < 32768) (hsafe : safeCount n)
    (hf : (∃ e, st.srv.router.resolve route = .err e) ∨
      ∃ ep s e, Offers st.srv route ep s ∧ tagRead s (render ps) n = .err e) : Silent C st := by
  obtain ⟨st0, h1, h2, hs⟩ := read_along C st route msg ps n h hm hsafe
  rcases hf with ⟨e, he⟩ | ⟨ep, s, e, ⟨ho1, keys, ho2⟩, he⟩
  · rw [bind_err (st' := st0) (e := e) (by unfold resolve; rw [h1, he])] at hs
    exact silent_of hs h1 h2
  · rw [bind_ok (st' := st0) (a := ep) (by unfold resolve; rw [h1, ho1]),
      bind_err (st' := st0) (e := e) (by rw [readTag_ok (by rw [h1]; exact ho2), count_int hn, he])] at hs
    exact silent_of hs h1 h2

/-! ### Writing -/

theorem write_along (C : Conv) (st : St) (route msg : Bytes) (ps : List Part) (T : GoTy) (n : Nat) (data : Bytes)
    (h : Along st.inp route msg) (hm : WriteMsg ps T n data msg) :
    ∃ st0, st0.srv = st.srv ∧ st0.sent = st.sent ∧ route.length % 2 = 0 ∧ route.length < 512 ∧ serveStep C st =
      (lift (parseWriteValues (typeField T ++ (le 2 n ++ (data ++ (List.replicate (data.length % 2) 0#8 ++
          (BitVec.ofNat 8 (route.length / 2) :: 0#8 :: route)))))) >>= fun p =>
        lift (readBV 16 p.2) >>= fun q => lift (readN (2#16 * q.1).toNat q.2) >>= fun r =>
        resolve r.1 >>= fun ep => writeValues C ep (render ps) p.1 >>= fun _ => sendUnconn 0x4D#8 0#8 []) st0 := by
  obtain ⟨words, path, hp, hw, rfl⟩ := hm
  obtain ⟨st0, hs, h1, h2, he, hl⟩ := along_run C st route _ _ h
  refine ⟨st0, h1, h2, he, hl, ?_⟩
  rw [hs]
  unfold embedded
  rw [if_pos rfl]
  unfold unconnectedWrite
  rw [List.cons_append, readBV_cons8, lift_ok_bind]
  simp only
  rw [List.append_assoc, List.append_assoc, getTag_path hp _ (typeField_head T _), lift_ok_bind]
  simp only
  have e6 : tailOf (0x4D#8 :: words :: (path ++ (typeField T ++ (le 2 n ++ data)))) route =
      List.replicate (data.length % 2) 0#8 ++ (BitVec.ofNat 8 (route.length / 2) :: 0#8 :: route) := by
    unfold tailOf
    have ht : (typeField T).length % 2 = 0 := by cases T <;> rfl
    rw [show (0x4D#8 :: words :: (path ++ (typeField T ++ (le 2 n ++ data)))).length % 2 = data.length % 2 by
      simp [hw]; omega]
  rw [e6, List.append_assoc]

/-- C94, writing, for values that together have an even number of bytes and are no strings: the values are stored and
this is confirmed.
Missing: an odd number of bytes (`C94_write_odd_silent`), strings (`C94_write_string_silent`). -/
theorem C94_write_partial (C : Conv) (st : St) (route msg : Bytes) (ps : List Part) (T : GoTy) (vs : List Scal)
    (h : Along st.inp route msg) (hm : WriteMsg ps T vs.length (vs.map Scal.encode).flatten msg) (hT : T ≠ .str)
    (hv : ∀ v ∈ vs, v.ty = some T) (h0 : vs ≠ []) (hn : vs.length < 65536)
    (heven : (vs.map Scal.encode).flatten.length % 2 = 0) (ep : Nat) (s s' : Store) (ho : Offers st.srv route ep s)
    (hw : tagWrite C s (render ps) (written vs) = (.ok (), s')) :
    Replied C st 0x4D#8 0#8 [] ∧ Offers (serveStep C st).2.srv route ep s' := by
  obtain ⟨st0, h1, h2, he, hl, hs⟩ := write_along C st route msg ps T _ _ h hm
  obtain ⟨ho1, keys, ho2⟩ := ho
  rw [heven, List.replicate_zero, List.nil_append, parse_values hT hv hn, lift_ok_bind] at hs
  simp only at hs
  have hr := route_read route [] he hl
  rw [List.append_nil] at hr
  rw [hr, lift_ok_bind] at hs
  simp only at hs
  have hr2 := readN_append route []
  rw [List.append_nil] at hr2
  rw [route_len route he hl, hr2, lift_ok_bind] at hs
  simp only at hs
  rw [bind_ok (st' := st0) (a := ep) (by unfold resolve; rw [h1, ho1])] at hs
  obtain ⟨keys', hk⟩ := writeValues_ok (C := C) (st := st0) h0 (by rw [h1]; exact ho2) hw
  rw [bind_ok hk] at hs
  obtain ⟨hx, hy⟩ := replied_of hs h2
  refine ⟨hx, ?_⟩
  rw [hy]
  exact ⟨by simp [Srv.setStore, h1, ho1], keys', by simp [Srv.setStore]⟩

/-- C94 is false for a write that fails: if the tag does not take the values or the route leads nowhere, there is no
reply, and the session ends. -/
theorem C94_write_failed_silent (C : Conv) (st : St) (route msg : Bytes) (ps : List Part) (T : GoTy) (vs : List Scal)
    (h : Along st.inp route msg) (hm : WriteMsg ps T vs.length (vs.map Scal.encode).flatten msg) (hT : T ≠ .str)
    (hv : ∀ v ∈ vs, v.ty = some T) (h0 : vs ≠ []) (hn : vs.length < 65536)
    (heven : (vs.map Scal.encode).flatten.length % 2 = 0)
    (hf : (∃ e, st.srv.router.resolve route = .err e) ∨
      ∃ ep s e s', Offers st.srv route ep s ∧ tagWrite C s (render ps) (written vs) = (.err e, s')) :
    newFrames st (serveStep C st).2 = [] ∧ ∃ e, (serveStep C st).1 = .err e := by
  obtain ⟨st0, h1, h2, he, hl, hs⟩ := write_along C st route msg ps T _ _ h hm
  rw [heven, List.replicate_zero, List.nil_append, parse_values hT hv hn, lift_ok_bind] at hs
  simp only at hs
  have hr := route_read route [] he hl
  rw [List.append_nil] at hr
  rw [hr, lift_ok_bind] at hs
  simp only at hs
  have hr2 := readN_append route []
  rw [List.append_nil] at hr2
  rw [route_len route he hl, hr2, lift_ok_bind] at hs
  simp only at hs
  rcases hf with ⟨e, hf⟩ | ⟨ep, s, e, s', ⟨ho1, keys, ho2⟩, hw⟩
  · rw [bind_err (st' := st0) (e := e) (by unfold resolve; rw [h1, hf])] at hs
    rw [hs]
    exact ⟨by simp [newFrames, h2], e, rfl⟩
  · rw [bind_ok (st' := st0) (a := ep) (by unfold resolve; rw [h1, ho1])] at hs
    have hk : ∃ keys', writeValues C ep (render ps) vs st0 = (.err e, { st0 with srv := st0.srv.setStore ep s' keys' }) := by
      match vs, h0 with
      | [v], _ =>
        unfold writeValues writeTag
        simp only [h1, ho2, show tagWrite C s (render ps) (.scal v) = (.err e, s') from hw]
        exact ⟨_, rfl⟩
      | a :: b :: l, _ =>
        unfold writeValues writeTag
        simp only [h1, ho2, show tagWrite C s (render ps) (.slice none ((a :: b :: l).map TVal.scal)) = (.err e, s') from hw]
        exact ⟨_, rfl⟩
    obtain ⟨keys', hk⟩ := hk
    rw [bind_err hk] at hs
    rw [hs]
    exact ⟨by simp [newFrames, h2], e, rfl⟩

/-- C94 is false for an odd number of bytes: the byte with which the message is padded is taken for the length of the
route.  Nothing is written, there is no reply, and the session ends.  So no single BOOL, SINT or USINT can be
written. -/
theorem C94_write_odd_silent (C : Conv) (st : St) (route msg : Bytes) (ps : List Part) (T : GoTy) (vs : List Scal)
    (h : Along st.inp route msg) (hm : WriteMsg ps T vs.length (vs.map Scal.encode).flatten msg) (hT : T ≠ .str)
    (hv : ∀ v ∈ vs, v.ty = some T) (hn : vs.length < 65536)
    (hodd : (vs.map Scal.encode).flatten.length % 2 = 1) (h2 : route ≠ []) (hl : route.length < 256) :
    Silent C st := by
  obtain ⟨st0, h1, h2', he, hl', hs⟩ := write_along C st route msg ps T _ _ h hm
  rw [hodd, parse_values hT hv hn, lift_ok_bind] at hs
  simp only [List.replicate_one, List.cons_append, List.nil_append] at hs
  rw [readBV16_cons, lift_ok_bind] at hs
  simp only at hs
  have hpos : 2 ≤ route.length := by
    have := List.length_pos_iff.mpr h2
    omega
  have hlen : (2#16 * BitVec.ofNat 16 ((0#8).toNat + 256 * (BitVec.ofNat 8 (route.length / 2)).toNat)).toNat =
      256 * route.length := by
    rw [BitVec.toNat_mul]; simp; omega
  rw [hlen] at hs
  cases hr : readN (256 * route.length) (0#8 :: route) with
  | ok a =>
    have := readN_ok hr
    have := congrArg List.length this.2
    simp at this
    omega
  | err e =>
    rw [hr, lift_err_bind] at hs
    exact silent_of hs h1 h2'
  | panic => exact absurd (hr ▸ readN_safe _ _) (by simp [Res.safe])

/-- Of a STRING the last two bytes are left over. -/
theorem parse_string (s : Str) (hs82 : s.length ≤ 82) (rest : Bytes) :
    parseWriteValues (typeField .str ++ (le 2 1 ++ (stringSlot s ++ rest))) = .ok ([.str s], 0#8 :: 0#8 :: rest) := by
  have e : typeField .str ++ (le 2 1 ++ (stringSlot s ++ rest)) =
      0xA0#8 :: 2#8 :: ([0xCE#8, 0x0F#8] ++ (putBV 1#16 ++ (putBV (BitVec.ofNat 32 s.length) ++
        ((s ++ List.replicate (82 - s.length) 0#8) ++ (0#8 :: 0#8 :: rest))))) := by
    have hx : List.replicate (84 - s.length) 0#8 = List.replicate (82 - s.length) 0#8 ++ [0#8, 0#8] := by
      rw [show 84 - s.length = (82 - s.length) + 2 by omega, ← List.replicate_append_replicate]
      rfl
    have hy : le 4 s.length = putBV (BitVec.ofNat 32 s.length) := by
      unfold putBV; rw [BitVec.toNat_ofNat, Nat.mod_eq_of_lt (by omega)]
    simp only [stringSlot, hx, hy]
    simp [typeField, le, putBV]
  rw [e]
  unfold parseWriteValues
  simp only [readBV8_cons, Res.bind_ok]
  rw [readN_append' (by rfl), Res.bind_ok]
  simp only [readU16, Res.bind_ok]
  rw [if_pos (by rfl), if_pos (by decide)]
  rw [show (1#16 : BitVec 16).toNat = 0 + 1 from rfl]
  simp only [readElems, readStringElem, readU32, Res.bind_ok]
  rw [readN_append' (by simp; omega)]
  simp only [Res.bind_ok, BitVec.toNat_ofNat]
  rw [Nat.mod_eq_of_lt (show s.length < 2 ^ 32 by omega), if_neg (show ¬ s.length > 82 by omega),
    List.take_left' rfl]

/-- C94 is false for a string: of the 88 bytes of a STRING the last two are left over and taken for the length of the
route, which is then empty. -/
theorem C94_write_string_silent (C : Conv) (st : St) (route msg : Bytes) (ps : List Part) (s : Str)
    (h : Along st.inp route msg) (hm : WriteMsg ps .str 1 (stringSlot s) msg) (hs82 : s.length ≤ 82)
    (hnone : ∃ e, st.srv.router.resolve [] = .err e) : Silent C st := by
  obtain ⟨st0, h1, h2, he, hl, hs⟩ := write_along C st route msg ps .str _ _ h hm
  obtain ⟨e, hnone⟩ := hnone
  have hlen : (stringSlot s).length % 2 = 0 := by simp [stringSlot]; omega
  rw [hlen, List.replicate_zero, List.nil_append, parse_string s hs82, lift_ok_bind] at hs
  simp only at hs
  rw [readBV16_cons, lift_ok_bind] at hs
  simp only at hs
  rw [show (2#16 * BitVec.ofNat 16 ((0#8).toNat + 256 * (0#8).toNat)).toNat = 0 from rfl] at hs
  simp only [readN, if_true] at hs
  rw [lift_ok_bind] at hs
  simp only at hs
  rw [bind_err (st' := st0) (e := e) (by unfold resolve; rw [h1, hnone])] at hs
  exact silent_of hs h1 h2

/-! ### Tags by number -/

theorem numbered_custom {srv : Srv} {ep : Nat} (he : srv.router.resolve [1#8, 0#8] = .ok ep) {s : Store}
    {keys : List Str} (hs : srv.eps ep = .tags s keys) (hn : keys.Nodup) {i : Byte} {name : Str}
    (h : Numbered keys i.toNat name) : customTag srv (BitVec.ofNat 16 (BitVec.ofNat 32 i.toNat).toNat) = some (ep, name) := by
  obtain ⟨h1, l, hp, ha, hl⟩ := h
  have hlt := i.isLt
  have e : l = sortKeys keys := by
    refine List.Perm.eq_of_pairwise (le := fun a b : Str => a.map BitVec.toNat < b.map BitVec.toNat) ?_ ha
      (sortKeys_ascending keys hn) (hp.trans (sortKeys_perm keys).symm)
    intro a b _ _ h1 h2
    exact absurd (List.lt_trans h1 h2) (List.lt_irrefl _)
  rw [C80_instances srv ep he s keys hs]
  have e2 : (BitVec.ofNat 16 (BitVec.ofNat 32 i.toNat).toNat).toNat = i.toNat := by simp; omega
  rw [e2, if_pos h1]
  unfold sortedTags
  rw [List.getElem?_map, ← e, hl]
  rfl

theorem unnumbered_custom {srv : Srv} {ep : Nat} (he : srv.router.resolve [1#8, 0#8] = .ok ep) {s : Store}
    {keys : List Str} (hs : srv.eps ep = .tags s keys) {i : Byte} (h : i = 0#8 ∨ keys.length < i.toNat) :
    customTag srv (BitVec.ofNat 16 (BitVec.ofNat 32 i.toNat).toNat) = none := by
  have hlt := i.isLt
  rw [C80_instances srv ep he s keys hs]
  have e2 : (BitVec.ofNat 16 (BitVec.ofNat 32 i.toNat).toNat).toNat = i.toNat := by simp; omega
  rw [e2]
  rcases h with rfl | h
  · rfl
  · rw [if_pos (by omega), List.getElem?_eq_none]
    · rfl
    · simp only [sortedTags, List.length_map, (sortKeys_perm keys).length_eq]
      omega

theorem directly_get (C : Conv) (st : St) (body : Bytes) (h : Directly st.inp (0x0E#8 :: body)) :
    ∃ st0 more, serveStep C st = unconnectedGetAttrSingle (body ++ more) st0 ∧ st0.srv = st.srv ∧ st0.sent = st.sent := by
  rcases h with h | ⟨route, h⟩
  · obtain ⟨st0, hs, h1, h2⟩ := serveStep_unconnected C st _ h
    refine ⟨st0, [], ?_, h1, h2⟩
    rw [hs]
    unfold unconnectedData
    rw [readBV_cons8, lift_ok_bind]
    simp only
    rw [if_neg (by decide), if_neg (by decide), if_neg (by decide), if_neg (by decide), if_pos trivial, List.append_nil]
  · obtain ⟨st0, hs, h1, h2, -⟩ := along_run C st route _ _ h
    refine ⟨st0, tailOf (0x0E#8 :: body) route, ?_, h1, h2⟩
    rw [hs]
    unfold embedded
    rw [if_neg (by decide), if_neg (by decide), if_pos rfl]

theorem unconnected_set (C : Conv) (st : St) (body : Bytes) (h : Unconnected st.inp (0x10#8 :: body)) :
    ∃ st0, serveStep C st = unconnectedSetAttrSingle C body st0 ∧ st0.srv = st.srv ∧ st0.sent = st.sent := by
  obtain ⟨st0, hs, h1, h2⟩ := serveStep_unconnected C st _ h
  refine ⟨st0, ?_, h1, h2⟩
  rw [hs]
  unfold unconnectedData
  rw [readBV_cons8, lift_ok_bind]
  simp only
  rw [if_neg (by decide), if_neg (by decide), if_neg (by decide), if_neg (by decide), if_neg (by decide), if_pos trivial]

theorem directly_set (C : Conv) (st : St) (body : Bytes) (h : Directly st.inp (0x10#8 :: body)) :
    ∃ st0 more, serveStep C st = unconnectedSetAttrSingle C (body ++ more) st0 ∧ st0.srv = st.srv ∧
      st0.sent = st.sent := by
  rcases h with h | ⟨route, h⟩
  · obtain ⟨st0, hs, h1, h2⟩ := unconnected_set C st body h
    exact ⟨st0, [], by rw [hs, List.append_nil], h1, h2⟩
  · obtain ⟨st0, hs, h1, h2, -⟩ := along_run C st route _ _ h
    refine ⟨st0, tailOf (0x10#8 :: body) route, ?_, h1, h2⟩
    rw [hs]
    unfold embedded
    rw [if_neg (by decide), if_neg (by decide), if_neg (by decide), if_pos rfl]

theorem attrPath_short (cls inst attr : Byte) (more : Bytes) :
    attrPath (3#8 :: 0x20#8 :: cls :: 0x24#8 :: inst :: 0x30#8 :: attr :: more) =
    .ok (some (BitVec.ofNat 16 cls.toNat, BitVec.ofNat 32 inst.toNat, BitVec.ofNat 16 attr.toNat, more)) := by
  unfold attrPath
  rw [getU_one, Res.bind_ok]
  simp only
  rw [if_neg (by decide), classRead_short, Res.bind_ok]
  simp only
  rw [instanceRead_short, Res.bind_ok]
  simp only
  rw [attributeRead_short, Res.bind_ok]

theorem setOne_cons (cls inst attr : Byte) (value : Bytes) : setOne cls inst attr value =
    0x10#8 :: 3#8 :: 0x20#8 :: cls :: 0x24#8 :: inst :: 0x30#8 :: attr :: value := rfl

theorem byte16 (x : Byte) (k : Nat) (hk : k < 256) : BitVec.ofNat 16 x.toNat = BitVec.ofNat 16 k ↔ x = BitVec.ofNat 8 k := by
  rw [← BitVec.toNat_inj, ← BitVec.toNat_inj]
  have := x.isLt
  simp only [BitVec.toNat_ofNat]
  omega

/-- C94, by number: attribute 1 of instance `i` of class 0xC8 is the tag with number `i` in the list of tags. -/
theorem C94_number_read (C : Conv) (st : St) (i : Byte) (h : Directly st.inp (askOne 0xC8#8 i 1#8)) (ep : Nat)
    (he : st.srv.router.resolve [1#8, 0#8] = .ok ep) (s : Store) (keys : List Str)
    (hs : st.srv.eps ep = .tags s keys) (hn : keys.Nodup) (name : Str) (hnum : Numbered keys i.toNat name)
    (hname : wholeName name) (hlow : toLower name = name) (v : Scal) (hv : s name = some (.scal v)) (image : Bytes)
    (hi : Shown (.scal v) image) : AnswersRR C st 0x0E#8 0#8 image := by
  obtain ⟨st0, more, hr, h1, h2⟩ := directly_get C st _ h
  unfold unconnectedGetAttrSingle at hr
  simp only [List.cons_append, List.nil_append] at hr
  rw [attrPath_short, lift_ok_bind] at hr
  simp only [depend] at hr
  rw [if_pos (by decide), h1, numbered_custom he hs hn hnum] at hr
  simp only at hr
  rw [if_neg (by decide), readTag_ok (by rw [h1]; exact hs)] at hr
  have ht : tagRead s name ((1#16 : BitVec 16).toInt) = .ok (.scal v) := by
    unfold tagRead
    rw [parse_whole hname]
    simp only [hlow, hv]
  rw [ht] at hr
  simp only at hr
  have hp : attrPayload (.scal v) = .ok image := by
    rw [← readPayload_shown hi]
    cases v <;> rfl
  rw [hp, lift_ok_bind] at hr
  exact answersRR_of hr h1 h2

/-- C94, by number: a number that no tag has is answered with status 5, another attribute of a tag with status 0x14. -/
theorem C94_number_absent (C : Conv) (st : St) (i attr : Byte) (h : Directly st.inp (askOne 0xC8#8 i attr)) (ep : Nat)
    (he : st.srv.router.resolve [1#8, 0#8] = .ok ep) (s : Store) (keys : List Str)
    (hs : st.srv.eps ep = .tags s keys) (hn : keys.Nodup) :
    (i = 0#8 ∨ keys.length < i.toNat → AnswersRR C st 0x0E#8 0x05#8 []) ∧
    (∀ name, Numbered keys i.toNat name → attr ≠ 1#8 → AnswersRR C st 0x0E#8 0x14#8 []) := by
  obtain ⟨st0, more, hr, h1, h2⟩ := directly_get C st _ h
  unfold unconnectedGetAttrSingle at hr
  simp only [List.cons_append, List.nil_append] at hr
  rw [attrPath_short, lift_ok_bind] at hr
  simp only [depend] at hr
  rw [if_pos (by decide), h1] at hr
  refine ⟨fun hx => ?_, fun name hx hy => ?_⟩
  · rw [unnumbered_custom he hs hx] at hr
    exact answersRR_of hr h1 h2
  · rw [numbered_custom he hs hn hx] at hr
    simp only at hr
    rw [if_pos (by intro hc; exact hy ((byte16 attr 1 (by decide)).mp hc))] at hr
    exact answersRR_of hr h1 h2

theorem parse_data {v : Scal} {T : GoTy} (h : Fits v T) (rest : Bytes) :
    ∃ left, parseWriteValues (typeField T ++ (le 2 1 ++ (dataOf v ++ rest))) = .ok ([v], left) := by
  obtain ⟨hv, hs⟩ := h
  by_cases hT : T = .str
  · subst hT
    have : ∃ s, v = .str s := by cases v <;> simp [Scal.ty] at hv; exact ⟨_, rfl⟩
    obtain ⟨s, rfl⟩ := this
    exact ⟨_, parse_string s (hs s rfl) rest⟩
  · have hd : dataOf v = v.encode := by
      cases v <;> first | rfl | (simp [Scal.ty] at hv; exact absurd hv.symm hT)
    have := parse_values (T := T) (vs := [v]) hT (by simpa using hv) (by simp) rest
    refine ⟨rest, ?_⟩
    rw [hd]
    simpa using this

/-- C94, by number: a value is written to the tag with number `i`, and this is confirmed. -/
theorem C94_number_write (C : Conv) (st : St) (i : Byte) (v : Scal) (T : GoTy) (hv : Fits v T)
    (h : Directly st.inp (setOne 0xC8#8 i 1#8 (typeField T ++ (le 2 1 ++ dataOf v)))) (ep : Nat)
    (he : st.srv.router.resolve [1#8, 0#8] = .ok ep) (s : Store) (keys : List Str)
    (hs : st.srv.eps ep = .tags s keys) (hn : keys.Nodup) (name : Str) (hnum : Numbered keys i.toNat name)
    (hname : wholeName name) (hlow : toLower name = name) :
    Replied C st 0x10#8 0#8 [] ∧ Offers (serveStep C st).2.srv [1#8, 0#8] ep (s.set name (.scal v)) := by
  obtain ⟨st0, more, hr, h1, h2⟩ := directly_set C st _ (setOne_cons _ _ _ _ ▸ h)
  unfold unconnectedSetAttrSingle at hr
  simp only [List.cons_append] at hr
  rw [attrPath_short, lift_ok_bind] at hr
  simp only [depend] at hr
  rw [if_neg (by decide), if_neg (by decide), depend_at, h1, numbered_custom he hs hn hnum] at hr
  simp only [List.append_assoc] at hr
  obtain ⟨left, hl⟩ := parse_data hv more
  rw [hl, lift_ok_bind] at hr
  simp only at hr
  have hw : tagWrite C s name (.scal v) = (.ok (), s.set name (.scal v)) := by
    unfold tagWrite
    rw [parse_whole hname]
    simp only [hlow]
    split <;> simp_all
  obtain ⟨keys', hk⟩ := writeTag_ok (C := C) (st := st0) (ep := ep) (tag := name) (by rw [h1]; exact hs) hw
  rw [bind_ok (a := true) (by unfold tryWrite; rw [hk])] at hr
  simp only [if_true] at hr
  obtain ⟨hx, hy⟩ := replied_of hr (by exact h2)
  refine ⟨hx, ?_⟩
  rw [hy]
  exact ⟨by simp [Srv.setStore, h1, he], keys', by simp [Srv.setStore]⟩

/-- C94, by number: what cannot be written is reported.  Status 5 for another object or a number no tag has, 0x14 for
another attribute, 0x13 if there is no value, 9 if the tag does not take the value. -/
theorem C94_number_refused (C : Conv) (st : St) (cls i attr : Byte) (value : Bytes)
    (h : Directly st.inp (setOne cls i attr value)) (ep : Nat)
    (he : st.srv.router.resolve [1#8, 0#8] = .ok ep) (s : Store) (keys : List Str)
    (hs : st.srv.eps ep = .tags s keys) (hn : keys.Nodup) :
    (cls ≠ 0xC8#8 → AnswersRR C st 0x10#8 0x05#8 []) ∧
    (cls = 0xC8#8 → attr ≠ 1#8 → AnswersRR C st 0x10#8 0x14#8 []) ∧
    (cls = 0xC8#8 → attr = 1#8 → i = 0#8 ∨ keys.length < i.toNat → AnswersRR C st 0x10#8 0x05#8 []) ∧
    (∀ name T data, cls = 0xC8#8 → attr = 1#8 → Numbered keys i.toNat name → T ≠ .str →
      value = typeField T ++ (le 2 0 ++ data) → AnswersRR C st 0x10#8 0x13#8 []) ∧
    (∀ name v T e s', cls = 0xC8#8 → attr = 1#8 → Numbered keys i.toNat name → Fits v T →
      value = typeField T ++ (le 2 1 ++ dataOf v) → tagWrite C s name (.scal v) = (.err e, s') →
      Replied C st 0x10#8 0x09#8 [] ∧ Offers (serveStep C st).2.srv [1#8, 0#8] ep s') := by
  obtain ⟨st0, more, hr, h1, h2⟩ := directly_set C st _ (setOne_cons _ _ _ _ ▸ h)
  unfold unconnectedSetAttrSingle at hr
  simp only [List.cons_append] at hr
  rw [attrPath_short, lift_ok_bind] at hr
  simp only [depend] at hr
  refine ⟨fun hc => ?_, fun hc ha => ?_, fun hc ha hi => ?_, fun name T data hc ha hi hT hv => ?_,
    fun name v T e s' hc ha hi hf hv hw => ?_⟩
  · rw [if_pos (by intro hx; exact hc ((byte16 cls 0xC8 (by decide)).mp hx))] at hr
    exact answersRR_of hr h1 h2
  · subst hc
    rw [if_neg (by decide), if_pos (by intro hx; exact ha ((byte16 attr 1 (by decide)).mp hx))] at hr
    exact answersRR_of hr h1 h2
  · subst hc ha
    rw [if_neg (by decide), if_neg (by decide), depend_at, h1, unnumbered_custom he hs hi] at hr
    exact answersRR_of hr h1 h2
  · subst hc ha hv
    rw [if_neg (by decide), if_neg (by decide), depend_at, h1, numbered_custom he hs hn hi] at hr
    have := parse_values (T := T) (vs := []) hT (by simp) (by simp) (data ++ more)
    simp only [List.length_nil, List.map_nil, List.flatten_nil, List.nil_append] at this
    simp only [List.append_assoc] at hr
    rw [this, lift_ok_bind] at hr
    exact answersRR_of hr h1 h2
  · subst hc ha hv
    rw [if_neg (by decide), if_neg (by decide), depend_at, h1, numbered_custom he hs hn hi] at hr
    obtain ⟨left, hl⟩ := parse_data hf more
    simp only [List.append_assoc] at hr
    rw [hl, lift_ok_bind] at hr
    simp only at hr
    have hk : ∃ keys', writeTag C ep name (.scal v) st0 = (.err e, { st0 with srv := st0.srv.setStore ep s' keys' }) := by
      unfold writeTag
      simp only [h1, hs, hw]
      exact ⟨_, rfl⟩
    obtain ⟨keys', hk⟩ := hk
    rw [bind_ok (a := false) (by unfold tryWrite; rw [hk])] at hr
    obtain ⟨hx, hy⟩ := replied_of (s := 0x10#8) (status := 0x09#8) (p := []) hr (by exact h2)
    refine ⟨hx, ?_⟩
    rw [hy]
    exact ⟨by simp [Srv.setStore, h1, he], keys', by simp [Srv.setStore]⟩

/-- C94 is false for tags whose number does not fit in a byte: the path of a request for them has more than three
words, and any path that has not three words is refused. -/
theorem C94_number_long (C : Conv) (st : St) (svc n : Byte) (hsvc : svc = 0x0E#8 ∨ svc = 0x10#8) (hn : n ≠ 3#8)
    (body : Bytes) (h : Directly st.inp (svc :: n :: body)) : AnswersRR C st svc 0x04#8 [] := by
  have hp : ∀ more, attrPath (n :: (body ++ more)) = .ok none := by
    intro more
    unfold attrPath
    rw [getU_one, Res.bind_ok]
    simp only
    rw [if_pos (by intro hx; exact hn (BitVec.eq_of_toNat_eq hx))]
  rcases hsvc with rfl | rfl
  · obtain ⟨st0, more, hr, h1, h2⟩ := directly_get C st _ h
    unfold unconnectedGetAttrSingle at hr
    rw [List.cons_append, hp, lift_ok_bind] at hr
    exact answersRR_of hr h1 h2
  · obtain ⟨st0, more, hr, h1, h2⟩ := directly_set C st _ h
    unfold unconnectedSetAttrSingle at hr
    rw [List.cons_append, hp, lift_ok_bind] at hr
    exact answersRR_of hr h1 h2

/-- A service the server does not have is answered with status 8. -/
theorem C94_unknown (C : Conv) (st : St) (svc : Byte) (body : Bytes) (h : Directly st.inp (svc :: body))
    (hs : svc ∉ [0x4C#8, 0x4D#8, 0x0E#8, 0x10#8, 0x01#8]) (hd : svc ∉ [0x54#8, 0x5B#8, 0x4E#8, 0x52#8]) :
    AnswersRR C st svc 0x08#8 [] := by
  simp only [List.mem_cons, List.not_mem_nil, or_false, not_or] at hs hd
  obtain ⟨a1, a2, a3, a4, a5⟩ := hs
  obtain ⟨b1, b2, b3, b4⟩ := hd
  rcases h with h | ⟨route, h⟩
  · obtain ⟨st0, hr, h1, h2⟩ := serveStep_unconnected C st _ h
    refine answersRR_of (st0 := st0) ?_ h1 h2
    rw [hr]
    unfold unconnectedData
    rw [readBV_cons8, lift_ok_bind]
    simp only
    rw [if_neg b1, if_neg b2, if_neg b3, if_neg a5, if_neg a3, if_neg a4, if_neg b4]
  · obtain ⟨st0, hr, h1, h2, -⟩ := along_run C st route _ _ h
    refine answersRR_of (st0 := st0) ?_ h1 h2
    rw [hr]
    unfold embedded
    rw [if_neg a2, if_neg a1, if_neg a3, if_neg a4, if_neg a5]

/-! ### Giving back what was read -/

theorem readBV_enough {w : Nat} {r r' : Bytes} {v : BitVec w} (h : readBV w r = .ok (v, r')) :
    r.length = w / 8 + r'.length := by
  unfold readBV at h
  obtain ⟨⟨a, b⟩, h1, h2⟩ := Res.bind_eq_ok.mp h
  cases h2
  unfold readLE at h1
  obtain ⟨⟨c, d⟩, h3, h4⟩ := Res.bind_eq_ok.mp h1
  cases h4
  obtain ⟨h5, h6⟩ := readN_ok h3
  rw [h6, List.length_append, h5]

theorem readValue_enough {T : GoTy} (hT : T ≠ .str) {r r' : Bytes} {v : Scal}
    (h : readValue (cipOfGo T) r = .ok (v, r')) : goSize T ≤ r.length := by
  have key : ∀ {w : Nat} {f : BitVec w × Bytes → Res (Scal × Bytes)}, (readBV w r).bind f = .ok (v, r') →
      w / 8 ≤ r.length := by
    intro w f hk
    obtain ⟨⟨a, b⟩, h1, -⟩ := Res.bind_eq_ok.mp hk
    have := readBV_enough h1
    omega
  cases T
  case str => exact absurd rfl hT
  case bool =>
    have h' : (readBool r >>= fun p => Res.ok (Scal.bool p.1, p.2)) = .ok (v, r') := h
    obtain ⟨⟨a, b⟩, h1, -⟩ := Res.bind_eq_ok.mp h'
    unfold readBool at h1
    obtain ⟨⟨a, b⟩, h1, -⟩ := Res.bind_eq_ok.mp h1
    have := readBV_enough h1
    simp [goSize]; omega
  all_goals exact key h

theorem parse_typed {v : Scal} {T : GoTy} (hv : v.ty = some T) (hT : T ≠ .str) :
    (∃ r, parseWriteValues (typeField T ++ v.encode) = .ok ([], r)) ∨
      ∃ e, parseWriteValues (typeField T ++ v.encode) = .err e := by
  have hlen := (C13_value_roundtrip v T hv hT []).2.2
  unfold parseWriteValues
  rw [typeField_cip hT]
  simp only [List.cons_append, List.nil_append, readBV8_cons, Res.bind_ok]
  rw [show (0#8 : BitVec 8).toNat = 0 from rfl]
  simp only [readN, if_true, Res.bind_ok]
  cases hq : readBV 16 v.encode with
  | err e => exact .inr ⟨e, rfl⟩
  | panic => exact absurd (hq ▸ readBV_safe _ _) (by simp [Res.safe])
  | ok p =>
    obtain ⟨q, r⟩ := p
    simp only [Res.bind_ok]
    rw [if_neg cip_not_struct]
    have hr := readBV_enough hq
    cases hn : q.toNat with
    | zero => exact .inl ⟨r, rfl⟩
    | succ n =>
      right
      unfold readElems
      cases hx : readValue (cipOfGo T) r with
      | err e => exact ⟨e, rfl⟩
      | panic => exact absurd (hx ▸ readValue_safe _ _) (by simp [Res.safe])
      | ok p =>
        have := readValue_enough hT hx
        omega

/-- C94 is false: the comment at server_unconnected.go:518 says that the value is taken as the read by number gives it,
but the count of values which a write needs is not in there.  No number that was read can be given back. -/
theorem C94_give_back_refused (C : Conv) (st : St) (i : Byte) (v : Scal) (T : GoTy) (hv : v.ty = some T) (hT : T ≠ .str)
    (h : Unconnected st.inp (setOne 0xC8#8 i 1#8 (typeField T ++ v.encode))) (ep : Nat)
    (he : st.srv.router.resolve [1#8, 0#8] = .ok ep) (s : Store) (keys : List Str)
    (hs : st.srv.eps ep = .tags s keys) (hn : keys.Nodup) (name : Str) (hnum : Numbered keys i.toNat name) :
    AnswersRR C st 0x10#8 0x13#8 [] ∨ Silent C st := by
  obtain ⟨st0, hr, h1, h2⟩ := unconnected_set C st _ (setOne_cons _ _ _ _ ▸ h)
  unfold unconnectedSetAttrSingle at hr
  rw [attrPath_short, lift_ok_bind] at hr
  simp only [depend] at hr
  rw [if_neg (by decide), if_neg (by decide), depend_at, h1, numbered_custom he hs hn hnum] at hr
  simp only at hr
  rcases parse_typed hv hT with ⟨r, hk⟩ | ⟨e, hk⟩
  · rw [hk, lift_ok_bind] at hr
    exact .inl (answersRR_of hr h1 h2)
  · rw [hk, lift_err_bind] at hr
    exact .inr (silent_of hr h1 h2)

theorem parse_slot (c : Byte) (hc : c ≠ 0#8) : parseWriteValues (typeField .str ++ stringSlot [c]) =
    .ok ([.str (List.replicate 82 0#8)], []) := by
  have e : typeField .str ++ stringSlot [c] = 0xA0#8 :: 2#8 :: ([0xCE#8, 0x0F#8] ++ (putBV 1#16 ++
      (0#8 :: 0#8 :: c :: 0#8 :: (List.replicate 82 0#8 ++ [])))) := by
    simp only [stringSlot, List.length_cons, List.length_nil]
    rfl
  rw [e]
  unfold parseWriteValues
  simp only [readBV8_cons, Res.bind_ok]
  rw [readN_append' (by rfl), Res.bind_ok]
  simp only [readU16, Res.bind_ok]
  rw [if_pos (by rfl), if_pos (by decide)]
  rw [show (1#16 : BitVec 16).toNat = 0 + 1 from rfl]
  simp only [readElems, readStringElem]
  rw [readBV32_cons]
  simp only [Res.bind_ok]
  rw [readN_append' (by simp)]
  simp only [Res.bind_ok]
  have hpos : 1 ≤ c.toNat := by
    have : c.toNat ≠ 0 := fun h => hc (BitVec.eq_of_toNat_eq (by simpa using h))
    omega
  have hlt := c.isLt
  rw [if_pos (by simp; omega)]
  simp

/-- Worse with a string of one character: the request is confirmed, but the tag then holds 82 zeros. -/
theorem C94_give_back_corrupts (C : Conv) (st : St) (i c : Byte) (hc : c ≠ 0#8)
    (h : Unconnected st.inp (setOne 0xC8#8 i 1#8 (typeField .str ++ stringSlot [c]))) (ep : Nat)
    (he : st.srv.router.resolve [1#8, 0#8] = .ok ep) (s : Store) (keys : List Str)
    (hs : st.srv.eps ep = .tags s keys) (hn : keys.Nodup) (name : Str) (hnum : Numbered keys i.toNat name)
    (hname : wholeName name) (hlow : toLower name = name) :
    Replied C st 0x10#8 0#8 [] ∧
      Offers (serveStep C st).2.srv [1#8, 0#8] ep (s.set name (.scal (.str (List.replicate 82 0#8)))) := by
  obtain ⟨st0, hr, h1, h2⟩ := unconnected_set C st _ (setOne_cons _ _ _ _ ▸ h)
  unfold unconnectedSetAttrSingle at hr
  rw [attrPath_short, lift_ok_bind] at hr
  simp only [depend] at hr
  rw [if_neg (by decide), if_neg (by decide), depend_at, h1, numbered_custom he hs hn hnum] at hr
  simp only at hr
  rw [parse_slot c hc, lift_ok_bind] at hr
  simp only at hr
  have hw : tagWrite C s name (.scal (.str (List.replicate 82 0#8))) =
      (.ok (), s.set name (.scal (.str (List.replicate 82 0#8)))) := by
    unfold tagWrite
    rw [parse_whole hname]
    simp only [hlow]
    split <;> simp_all
  obtain ⟨keys', hk⟩ := writeTag_ok (C := C) (st := st0) (ep := ep) (tag := name) (by rw [h1]; exact hs) hw
  rw [bind_ok (a := true) (by unfold tryWrite; rw [hk])] at hr
  simp only [if_true] at hr
  obtain ⟨hx, hy⟩ := replied_of hr (by exact h2)
  refine ⟨hx, ?_⟩
  rw [hy]
  exact ⟨by simp [Srv.setStore, h1, he], keys', by simp [Srv.setStore]⟩

/-! ### The hypotheses can hold -/

/-- `count`, as a path. -/
def countPath : Bytes := [0x91#8, 5#8] ++ str "count" ++ [0#8]

/-- An Unconnected Send along the route of the demonstration server. -/
def demoSend (msg : Bytes) : Bytes :=
  0x52#8 :: 2#8 :: ([0x20#8, 6#8, 0x24#8, 1#8] ++ ([7#8, 0xE9#8] ++ (le 2 msg.length ++ (msg ++
    (List.replicate (msg.length % 2) 0#8 ++ [1#8, 0#8, 1#8, 0#8])))))

def demoAsk (d : Bytes) : St := demoSt (demoRR d).bytes

/-- What is sent back, as service, status and data, and the tag `count` afterwards. -/
def demoTalk (d : Bytes) : List (Option Byte × Option Byte × Bytes) × Option Nat :=
  ((newFrames (demoAsk d) (serveStep demoConv (demoAsk d)).2).map fun f => (rrServiceOf f, rrStatusOf f, rrAnswerOf f),
    match (serveStep demoConv (demoAsk d)).2.srv.eps 0 with
    | .tags s _ => match s (str "count") with
      | some (.scal (.i32 x)) => some x.toNat
      | _ => none
    | .other => none)

example : Along (demoAsk (demoSend (0x4C#8 :: 4#8 :: (countPath ++ le 2 1)))).inp [1#8, 0#8]
    (0x4C#8 :: 4#8 :: (countPath ++ le 2 1)) :=
  ⟨_, ⟨demoRR _, [], by decide, (List.append_nil _).symm, rfl, rfl, rfl⟩, 2#8, [0x20#8, 6#8, 0x24#8, 1#8], [7#8, 0xE9#8],
    by decide, rfl, rfl, by decide, rfl, by decide, rfl⟩

example : Offers demoSrv [1#8, 0#8] 0 demoStore := ⟨by decide +kernel, _, rfl⟩

example : Numbered [str "count", str "arr"] 2 (str "count") :=
  ⟨by decide, [str "arr", str "count"], by decide, by unfold Ascending; decide, rfl⟩

example : demoTalk (demoSend (0x4C#8 :: 4#8 :: (countPath ++ le 2 1))) =
    ([(some 0xCC#8, some 0#8, [0xC4#8, 0#8, 5#8, 0#8, 0#8, 0#8])], some 5) := by decide +kernel

example : demoTalk (demoSend (0x4D#8 :: 4#8 :: (countPath ++ ([0xC4#8, 0#8] ++ (le 2 1 ++ le 4 9))))) =
    ([(some 0xCD#8, some 0#8, [])], some 9) := by decide +kernel

example : demoTalk (demoSend (0x4D#8 :: 4#8 :: (countPath ++ ([0xC2#8, 0#8] ++ (le 2 1 ++ [9#8]))))) =
    ([], some 5) := by decide +kernel

example : demoTalk (askOne 0xC8#8 2#8 1#8) =
    ([(some 0x8E#8, some 0#8, [0xC4#8, 0#8, 5#8, 0#8, 0#8, 0#8])], some 5) := by decide +kernel

example : demoTalk (setOne 0xC8#8 2#8 1#8 ([0xC4#8, 0#8] ++ (le 2 1 ++ le 4 9))) =
    ([(some 0x90#8, some 0#8, [])], some 9) := by decide +kernel

/-- A tag whose name looks like an element of an array that is not there. -/
example : (tagWrite demoConv (fun k => if k = str "x[1]" then some (.scal (.i32 5#32)) else none) (str "x[1]")
    (.scal (.i32 6#32))).1 = .err .fail := by decide +kernel

end Gologix.Server
