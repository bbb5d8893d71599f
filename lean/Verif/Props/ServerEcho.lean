import Verif.Lemmas.Server
import Verif.Props.ServerDemo
/-
C38: replies echo the request.
-/
set_option linter.unusedSimpArgs false

namespace Gologix.Server
open Gologix.Server.Spec M

/-! ### Connected requests -/

theorem replies_write (C : Conv) (ctx : BitVec 64) (hd : BitVec 32) (conn : BitVec 32) (r : Bytes) :
    Replies ctx hd (Echo ctx hd 0x4D#8) (cipConnectedWrite C conn r) := by
  unfold cipConnectedWrite
  refine replies_bind (quiet_lift _) fun ⟨_, r⟩ => ?_
  refine replies_bind (quiet_lift _) fun ⟨tag, r⟩ => ?_
  refine replies_bind (quiet_lift _) fun ⟨vs, r⟩ => ?_
  refine replies_bind (quiet_getByOT _) fun c => ?_
  refine replies_bind (quiet_resolve _) fun ep => ?_
  refine replies_bind (quiet_writeValues _ _ _ _) fun _ => ?_
  exact replies_sendUnitData _ _ _

theorem replies_read (svc : Byte) (ctx : BitVec 64) (hd : BitVec 32) (addr data : Bytes) :
    Replies ctx hd (Echo ctx hd svc) (connectedRead svc addr data) := by
  unfold connectedRead
  refine replies_orElse' (replies_sendConnected _ _ _ _ _) fun ⟨conn, _⟩ => ?_
  refine replies_orElse (replies_sendConnected _ _ _ _ _) fun c => ?_
  refine replies_orElse' (replies_sendConnected _ _ _ _ _) fun ⟨seq, r⟩ => ?_
  refine replies_orElse' (replies_sendConnected _ _ _ _ _) fun ⟨_, r⟩ => ?_
  refine replies_orElse' (replies_sendConnected _ _ _ _ _) fun ⟨tag, r⟩ => ?_
  refine replies_orElse' (replies_sendConnected _ _ _ _ _) fun ⟨qty, r⟩ => ?_
  refine replies_orElse (replies_sendConnected _ _ _ _ _) fun ep => ?_
  refine replies_orElse (replies_sendConnected _ _ _ _ _) fun v => ?_
  refine replies_bind (quiet_lift _) fun b => ?_
  exact replies_sendConnected _ _ _ _ _

theorem replies_multi (C : Conv) (ctx : BitVec 64) (hd : BitVec 32) (conn : BitVec 32) (data : Bytes) :
    Replies ctx hd (Echo ctx hd 0x0A#8) (connectedMulti C conn data) := by
  unfold connectedMulti
  refine replies_bind (quiet_getByOT _) fun c => ?_
  refine replies_bind (quiet_resolve _) fun ep => ?_
  refine replies_bind (quiet_lift _) fun ⟨seq, r⟩ => ?_
  refine replies_bind (quiet_lift _) fun ⟨_, r⟩ => ?_
  refine replies_bind (quiet_lift _) fun ⟨plen, r⟩ => ?_
  refine replies_bind (quiet_lift _) fun ⟨_, r⟩ => ?_
  refine replies_bind (quiet_lift _) fun ⟨qty, r⟩ => ?_
  refine replies_bind (quiet_lift _) fun ⟨tab, _⟩ => ?_
  refine replies_bind (quiet_multiAll _ _ _ _) fun results => ?_
  exact replies_sendConnected _ _ _ _ _

theorem replies_getAttr (ctx : BitVec 64) (hd : BitVec 32) (conn : BitVec 32) (data : Bytes) :
    Replies ctx hd (Echo ctx hd 0x52#8) (connectedGetAttr conn data) := by
  unfold connectedGetAttr
  refine replies_bind (quiet_getByOT _) fun c => ?_
  refine replies_bind (quiet_lift _) fun ⟨seq, r⟩ => ?_
  refine replies_bind (quiet_lift _) fun ⟨_, r⟩ => ?_
  refine replies_bind (quiet_lift _) fun ⟨plen, r⟩ => ?_
  refine replies_ite (fun _ => replies_fail) fun _ => ?_
  refine replies_bind (quiet_lift _) fun ⟨cls, r⟩ => ?_
  refine replies_bind (quiet_lift _) fun ⟨inst, r⟩ => ?_
  refine replies_ite (fun _ => replies_fail) fun _ => ?_
  refine replies_bind (quiet_lift _) fun ⟨attr, r⟩ => ?_
  refine replies_bind (quiet_look _) fun a => ?_
  refine replies_bind (quiet_lift _) fun b => ?_
  exact replies_sendConnected _ _ _ _ _

theorem replies_getAttrAll (ctx : BitVec 64) (hd : BitVec 32) (data : Bytes) :
    Replies ctx hd (Echo ctx hd 0x01#8) (connectedGetAttributeAll data) := by
  unfold connectedGetAttributeAll
  refine replies_bind (quiet_lift _) fun ⟨_, r⟩ => ?_
  refine replies_bind (quiet_lift _) fun ⟨_, r⟩ => ?_
  refine replies_bind (quiet_lift _) fun ⟨plen, r⟩ => ?_
  refine replies_bind (quiet_lift _) fun ⟨path, _⟩ => ?_
  simp only
  split
  · exact replies_bind (quiet_look _) fun ⟨_, _⟩ => replies_sendUnitData _ _ _
  · exact replies_sendUnitData _ _ _

theorem replies_symbols (ctx : BitVec 64) (hd : BitVec 32) (conn : BitVec 32) :
    Replies ctx hd (Echo ctx hd 0x55#8) (connectedSymbolList conn) := by
  unfold connectedSymbolList
  refine replies_bind (quiet_getByOT _) fun c => ?_
  refine replies_bind (quiet_resolve _) fun ep => ?_
  refine replies_depend fun st => ?_
  split <;> exact replies_sendUnitData _ _ _

theorem replies_unitService (C : Conv) (ctx : BitVec 64) (hd : BitVec 32) (addr data : Bytes)
    (conn : BitVec 32) (svc : Byte) (r : Bytes) :
    Replies ctx hd (Echo ctx hd (if svc = 0x0E#8 then 0x52#8 else svc))
      (unitService C addr data conn svc r) := by
  unfold unitService
  refine replies_ite (fun h => ?_) fun _ => ?_
  · subst h; exact replies_write C ctx hd conn r
  refine replies_ite (fun h => ?_) fun _ => ?_
  · subst h; exact replies_read _ ctx hd addr data
  refine replies_ite (fun h => ?_) fun _ => ?_
  · subst h; exact replies_read _ ctx hd addr data
  refine replies_ite (fun h => ?_) fun _ => ?_
  · subst h; exact replies_multi C ctx hd conn data
  refine replies_ite (fun h => ?_) fun h => ?_
  · subst h; exact replies_getAttr ctx hd conn data
  rw [if_neg h]
  refine replies_ite (fun h => ?_) fun _ => ?_
  · subst h; exact replies_getAttrAll ctx hd data
  refine replies_ite (fun h => ?_) fun _ => ?_
  · subst h; exact replies_symbols ctx hd conn
  · exact replies_sendUnitData _ _ _

/-! ### Unconnected requests -/

theorem replies_fwdOpen (large : Bool) (ctx : BitVec 64) (hd : BitVec 32) (svc : Byte) (r : Bytes) :
    Replies ctx hd (Echo ctx hd svc) (forwardOpen large (svc :: r)) := by
  unfold forwardOpen
  have hs : ∀ f rest, readFwdOpen large (svc :: r) = .ok (f, rest) → f.service = svc := by
    intro f rest h
    unfold readFwdOpen at h
    rw [Res.bind_eq_ok] at h
    obtain ⟨⟨b, rst⟩, h1, h2⟩ := h
    obtain ⟨hl, h3⟩ := readN_ok h1
    simp only [Res.bind_eq_ok] at h2
    obtain ⟨⟨hd8, b1⟩, h4, h2⟩ := h2
    obtain ⟨hl8, h5⟩ := readN_ok h4
    obtain ⟨_, -, _, -, _, -, _, -, _, -, _, -, _, -, _, -, _, -, _, -, _, -, _, -, h2⟩ := h2
    simp only [Res.ok.injEq, Prod.mk.injEq] at h2
    rw [← h2.1]
    match hd8, hl8 with
    | x :: xs, _ =>
      subst h5
      simp at h3
      simp [h3.1]
  intro st hc hh
  cases hf : readFwdOpen large (svc :: r) with
  | ok p =>
    obtain ⟨f, rest⟩ := p
    have hsv := hs f rest hf
    rw [lift_ok_bind]
    revert st
    show Replies ctx hd _ _
    refine replies_bind (quiet_lift _) fun ⟨fpath, _⟩ => ?_
    refine replies_ite (fun _ => replies_crash) fun _ => ?_
    refine replies_bind (quiet_chooseId _) fun to => ?_
    refine replies_bind (quiet_chooseId _) fun ot => ?_
    refine replies_bind (quiet_modify fun _ => ⟨rfl, rfl, rfl⟩) fun _ => ?_
    refine replies_then (replies_send fun h hc hh => ?_) fun _ => ?_
    · subst hc hh
      have := rr_service h svc ([0#8, 0#8, 0#8] ++ putBV ot ++ putBV to ++ putBV f.serial ++
        putBV f.vendor ++ putBV f.oserial ++ putBV f.otrpi ++ putBV f.torpi ++ [0#8, 0#8])
      simpa [fwdOpenReply, hsv] using this
    · refine quiet_bind (quiet_addConn _ _ _ _ _) fun ref => ?_
      exact quiet_ite (quiet_startIO _ _ _) (quiet_pure _)
  | err e => exact ⟨⟨[], by rw [bind_def]; simp, by simp, by simp, by rw [bind_def]; simp⟩, hc, hh⟩
  | panic => exact ⟨⟨[], by rw [bind_def]; simp, by simp, by simp, by rw [bind_def]; simp⟩, hc, hh⟩

theorem replies_unconnAll (ctx : BitVec 64) (hd : BitVec 32) (r : Bytes) :
    Replies ctx hd (Echo ctx hd 0x01#8) (unconnectedGetAttributeAll r) := by
  unfold unconnectedGetAttributeAll
  refine replies_bind (quiet_lift _) fun ⟨plen, r⟩ => ?_
  refine replies_bind (quiet_lift _) fun ⟨path, _⟩ => ?_
  simp only
  split
  · exact replies_bind (quiet_look _) fun ⟨_, _⟩ => replies_sendUnconn _ _ _
  · exact replies_sendUnconn _ _ _

theorem replies_unconnGet (ctx : BitVec 64) (hd : BitVec 32) (r : Bytes) :
    Replies ctx hd (Echo ctx hd 0x0E#8) (unconnectedGetAttrSingle r) := by
  unfold unconnectedGetAttrSingle
  refine replies_bind (quiet_lift _) fun p => ?_
  split
  · exact replies_sendUnconn _ _ _
  · refine replies_depend fun st => ?_
    refine replies_ite (fun _ => ?_) fun _ => ?_
    · split
      · exact replies_sendUnconn _ _ _
      · refine replies_ite (fun _ => replies_sendUnconn _ _ _) fun _ => ?_
        split
        · exact replies_bind (quiet_lift _) fun b => replies_sendUnconn _ _ _
        · exact replies_sendUnconn _ _ _
        · exact replies_crash
    · refine replies_ite (fun _ => replies_sendUnconn _ _ _) fun _ => ?_
      split
      · exact replies_sendUnconn _ _ _
      · exact replies_bind (quiet_lift _) fun b => replies_sendUnconn _ _ _

theorem replies_unconnSet (C : Conv) (ctx : BitVec 64) (hd : BitVec 32) (r : Bytes) :
    Replies ctx hd (Echo ctx hd 0x10#8) (unconnectedSetAttrSingle C r) := by
  unfold unconnectedSetAttrSingle
  refine replies_bind (quiet_lift _) fun p => ?_
  split
  · exact replies_sendUnconn _ _ _
  · refine replies_ite (fun _ => replies_sendUnconn _ _ _) fun _ => ?_
    refine replies_ite (fun _ => replies_sendUnconn _ _ _) fun _ => ?_
    refine replies_depend fun st => ?_
    split
    · exact replies_sendUnconn _ _ _
    · refine replies_bind (quiet_lift _) fun ⟨vs, _⟩ => ?_
      simp only
      split
      · exact replies_sendUnconn _ _ _
      · refine replies_bind (quiet_tryWrite _ _ _ _) fun ok => ?_
        exact replies_ite (fun _ => replies_sendUnconn _ _ _) fun _ => replies_sendUnconn _ _ _

theorem replies_unconnWrite (C : Conv) (ctx : BitVec 64) (hd : BitVec 32) (r : Bytes) :
    Replies ctx hd (Echo ctx hd 0x4D#8) (unconnectedWrite C r) := by
  unfold unconnectedWrite
  refine replies_bind (quiet_lift _) fun ⟨_, r⟩ => ?_
  refine replies_bind (quiet_lift _) fun ⟨tag, r⟩ => ?_
  refine replies_bind (quiet_lift _) fun ⟨vs, r⟩ => ?_
  refine replies_bind (quiet_lift _) fun ⟨ps, r⟩ => ?_
  refine replies_bind (quiet_lift _) fun ⟨path, r⟩ => ?_
  refine replies_bind (quiet_resolve _) fun ep => ?_
  refine replies_bind (quiet_writeValues _ _ _ _) fun _ => ?_
  exact replies_sendUnconn _ _ _

theorem replies_unconnRead (ctx : BitVec 64) (hd : BitVec 32) (r : Bytes) :
    Replies ctx hd (Echo ctx hd 0x4C#8) (unconnectedRead r) := by
  unfold unconnectedRead
  refine replies_bind (quiet_lift _) fun ⟨_, r⟩ => ?_
  refine replies_bind (quiet_lift _) fun ⟨tag, r⟩ => ?_
  refine replies_bind (quiet_lift _) fun ⟨qty, r⟩ => ?_
  refine replies_bind (quiet_lift _) fun ⟨ps, r⟩ => ?_
  refine replies_bind (quiet_lift _) fun ⟨path, r⟩ => ?_
  refine replies_bind (quiet_resolve _) fun ep => ?_
  refine replies_bind (quiet_readTag _ _ _) fun v => ?_
  refine replies_bind (quiet_lift _) fun b => ?_
  exact replies_sendUnconn _ _ _

/-- The request embedded in an Unconnected Send. -/
def embedded (C : Conv) (svc : Byte) (r : Bytes) : M Unit :=
  if svc = 0x4D#8 then unconnectedWrite C r
  else if svc = 0x4C#8 then unconnectedRead r
  else if svc = 0x0E#8 then unconnectedGetAttrSingle r
  else if svc = 0x10#8 then unconnectedSetAttrSingle C r
  else if svc = 0x01#8 then unconnectedGetAttributeAll r
  else sendUnconn svc 0x08#8 []

theorem replies_embedded (C : Conv) (ctx : BitVec 64) (hd : BitVec 32) (svc : Byte) (r : Bytes) :
    Replies ctx hd (Echo ctx hd svc) (embedded C svc r) := by
  unfold embedded
  refine replies_ite (fun h => ?_) fun _ => ?_
  · subst h; exact replies_unconnWrite C ctx hd r
  refine replies_ite (fun h => ?_) fun _ => ?_
  · subst h; exact replies_unconnRead ctx hd r
  refine replies_ite (fun h => ?_) fun _ => ?_
  · subst h; exact replies_unconnGet ctx hd r
  refine replies_ite (fun h => ?_) fun _ => ?_
  · subst h; exact replies_unconnSet C ctx hd r
  refine replies_ite (fun h => ?_) fun _ => ?_
  · subst h; exact replies_unconnAll ctx hd r
  · exact replies_sendUnconn _ _ _

theorem readBV_cons8 (b : Byte) (r : Bytes) : readBV 8 (b :: r) = .ok (b, r) := by
  have := readU8 b r
  rwa [putBV_eight] at this

theorem unconnectedSend_eq (C : Conv) (plen : Byte) (path : Bytes) (hp : path.length = (plen * 2#8).toNat)
    (four : Bytes) (h4 : four.length = 4) (svc : Byte) (r : Bytes) :
    unconnectedSend C (plen :: (path ++ (four ++ (svc :: r)))) = embedded C svc r := by
  unfold unconnectedSend
  funext st
  have e1 : readBV 16 (four ++ (svc :: r)) = .ok (BitVec.ofNat 16 (unle (four.take 2)),
      four.drop 2 ++ (svc :: r)) := by
    match four, h4 with
    | [a, b, c, d], _ =>
      simp only [List.cons_append, List.nil_append, List.take, List.drop, readBV, readLE, readN, List.length_cons]
      rw [if_neg (by omega), if_neg (by simp), if_neg (by omega)]
      rfl
  have e2 : readBV 16 (four.drop 2 ++ (svc :: r)) = .ok (BitVec.ofNat 16 (unle (four.drop 2)), svc :: r) := by
    match four, h4 with
    | [a, b, c, d], _ =>
      simp only [List.cons_append, List.nil_append, List.take, List.drop, readBV, readLE, readN, List.length_cons]
      rw [if_neg (by omega), if_neg (by simp), if_neg (by omega)]
      rfl
  rw [readBV_cons8, lift_ok_bind]
  simp only
  rw [readN_append' hp, lift_ok_bind]
  simp only
  rw [e1, lift_ok_bind]
  simp only
  rw [e2, lift_ok_bind]
  simp only
  rw [readBV_cons8, lift_ok_bind]
  rfl

theorem replies_unconnected (C : Conv) (ctx : BitVec 64) (hd : BitVec 32) (svc : Byte) (r : Bytes)
    (h1 : svc ≠ 0x52#8) (h2 : svc ≠ 0x4E#8) :
    Replies ctx hd (Echo ctx hd svc) (unconnectedData C (svc :: r)) := by
  intro st
  unfold unconnectedData
  rw [readBV_cons8, lift_ok_bind]
  revert st
  show Replies ctx hd _ _
  refine replies_ite (fun h => ?_) fun _ => ?_
  · exact replies_fwdOpen false ctx hd svc r
  refine replies_ite (fun h => ?_) fun _ => ?_
  · exact replies_fwdOpen true ctx hd svc r
  refine replies_ite (fun h => absurd h h2) fun _ => ?_
  refine replies_ite (fun h => ?_) fun _ => ?_
  · subst h; exact replies_unconnAll ctx hd r
  refine replies_ite (fun h => ?_) fun _ => ?_
  · subst h; exact replies_unconnGet ctx hd r
  refine replies_ite (fun h => ?_) fun _ => ?_
  · subst h; exact replies_unconnSet C ctx hd r
  refine replies_ite (fun h => absurd h h1) fun _ => ?_
  exact replies_sendUnconn _ _ _

/-! ### Theorems -/

/-- What one iteration of the server loop sent. -/
def newFrames (st st' : St) : List Bytes := st'.sent.drop st.sent.length

theorem of_replies {ctx : BitVec 64} {hd : BitVec 32} {P : Bytes → Prop} {m : M Unit} {s0 : St} (st : St)
    (h : Replies ctx hd P m) (hc : s0.h.context = ctx) (hh : s0.h.handle = hd) (hs : s0.sent = st.sent) :
    (∀ f ∈ newFrames st (m s0).2, P f) ∧ (newFrames st (m s0).2).length ≤ 1 ∧
      ((m s0).1 = .ok () → (newFrames st (m s0).2).length = 1) := by
  obtain ⟨⟨new, h1, h2, h3, h4⟩, -, -⟩ := h s0 hc hh
  have : newFrames st (m s0).2 = new := by simp [newFrames, h1, hs]
  rw [this]
  exact ⟨h2, h3, h4⟩

/-- The two items of a connected request. -/
theorem replies_unitItems (C : Conv) (ctx : BitVec 64) (hd : BitVec 32) (i0 i1 : Item) (seq : BitVec 16)
    (svc : Byte) (body : Bytes) (hd1 : i1.data = le 2 seq.toNat ++ svc :: body) :
    Replies ctx hd (Echo ctx hd (if svc = 0x0E#8 then 0x52#8 else svc)) (unitItems C [i0, i1]) := by
  unfold unitItems
  refine replies_ite (fun _ => replies_fail) fun _ => ?_
  refine replies_bind (quiet_lift _) fun ⟨conn, _⟩ => ?_
  have h16 : readBV 16 i1.data = .ok (seq, svc :: body) := by
    rw [hd1]; exact readU16 seq (svc :: body)
  intro s0 hc hh
  simp only [h16]
  rw [lift_ok_bind]
  revert s0
  show Replies ctx hd _ _
  refine replies_bind (quiet_modify fun _ => ⟨rfl, rfl, rfl⟩) fun _ => ?_
  intro s0 hc hh
  rw [readBV_cons8, lift_ok_bind]
  exact replies_unitService C ctx hd i0.data i1.data conn svc body s0 hc hh

theorem handle_unitItems (C : Conv) (items : List Item) (s0 : St) :
    (unitItems C items s0).2.h.handle = s0.h.handle := by
  have : Replies s0.h.context s0.h.handle (fun _ => True) (unitItems C items) := by
    unfold unitItems
    split
    · refine replies_ite (fun _ => replies_fail) fun _ => ?_
      refine replies_bind (quiet_lift _) fun ⟨conn, _⟩ => ?_
      refine replies_bind (quiet_lift _) fun ⟨seq, r⟩ => ?_
      refine replies_bind (quiet_modify fun _ => ⟨rfl, rfl, rfl⟩) fun _ => ?_
      refine replies_bind (quiet_lift _) fun ⟨svc, r⟩ => ?_
      intro s1 hc hh
      obtain ⟨⟨new, h1, -, h3, h4⟩, h5⟩ := replies_unitService C _ _ _ _ conn svc r s1 hc hh
      exact ⟨⟨new, h1, fun _ _ => trivial, h3, h4⟩, h5⟩
    · exact replies_fail
  exact (this s0 rfl rfl).2.2

/-- C38 for connected requests: on a connection that has registered session `session`, a request of any
service except Get_Attribute_Single is answered by at most one frame, by exactly one unless the server
closes the connection, and the frame carries the request's context, session and service. -/
theorem C38_connected_partial (C : Conv) (st : St) (r : Req) (hr : r.wf) (rest : Bytes)
    (hi : st.inp = r.bytes ++ rest) (hcmd : r.cmd = 0x70#16) (hs : st.h.handle = r.session)
    (seq : BitVec 16) (svc : Byte) (body : Bytes) (hd : r.data1 = le 2 seq.toNat ++ svc :: body)
    (hsvc : svc ≠ 0x0E#8) :
    (∀ f ∈ newFrames st (serveStep C st).2, Echo r.context r.session svc f) ∧
      (newFrames st (serveStep C st).2).length ≤ 1 ∧
      ((serveStep C st).1 = .ok () → (newFrames st (serveStep C st).2).length = 1) := by
  rw [serveStep_unit C r hr rest st hi hcmd]
  refine of_replies (ctx := r.context) (hd := r.session) st ?_ rfl hs rfl
  have := replies_unitItems C r.context r.session ⟨r.id0, BitVec.ofNat 16 r.data0.length, r.data0, 0⟩
    ⟨r.id1, BitVec.ofNat 16 r.data1.length, r.data1, 0⟩ seq svc body hd
  rwa [if_neg hsvc] at this

/-- C38 for unconnected requests other than forward close and Unconnected Send. -/
theorem C38_unconnected_partial (C : Conv) (st : St) (r : Req) (hr : r.wf) (rest : Bytes)
    (hi : st.inp = r.bytes ++ rest) (hcmd : r.cmd = 0x6F#16) (hid : r.id1 = 0xB2#16)
    (hs : st.h.handle = r.session)
    (svc : Byte) (body : Bytes) (hd : r.data1 = svc :: body) (h1 : svc ≠ 0x52#8) (h2 : svc ≠ 0x4E#8) :
    (∀ f ∈ newFrames st (serveStep C st).2, Echo r.context r.session svc f) ∧
      (newFrames st (serveStep C st).2).length ≤ 1 ∧
      ((serveStep C st).1 = .ok () → (newFrames st (serveStep C st).2).length = 1) := by
  rw [serveStep_rr C r hr rest st hi hcmd]
  refine of_replies (ctx := r.context) (hd := r.session) st ?_ rfl hs rfl
  unfold rrItems
  simp only []
  rw [if_neg (by simp [hid]), if_pos (by simp [hid])]
  simp only [hd]
  exact replies_unconnected C _ _ svc body h1 h2

/-- C38 for a request wrapped in an Unconnected Send: the reply is that of the embedded service. -/
theorem C38_unconnected_send_partial (C : Conv) (st : St) (r : Req) (hr : r.wf) (rest : Bytes)
    (hi : st.inp = r.bytes ++ rest) (hcmd : r.cmd = 0x6F#16) (hid : r.id1 = 0xB2#16)
    (hs : st.h.handle = r.session)
    (plen : Byte) (path : Bytes) (hp : path.length = (plen * 2#8).toNat)
    (four : Bytes) (h4 : four.length = 4) (svc : Byte) (body : Bytes)
    (hd : r.data1 = 0x52#8 :: plen :: (path ++ (four ++ (svc :: body)))) :
    (∀ f ∈ newFrames st (serveStep C st).2, Echo r.context r.session svc f) ∧
      (newFrames st (serveStep C st).2).length ≤ 1 ∧
      ((serveStep C st).1 = .ok () → (newFrames st (serveStep C st).2).length = 1) := by
  rw [serveStep_rr C r hr rest st hi hcmd]
  refine of_replies (ctx := r.context) (hd := r.session) st ?_ rfl hs rfl
  unfold rrItems
  simp only []
  rw [if_neg (by simp [hid]), if_pos (by simp [hid])]
  simp only [hd]
  intro s0 hc hh
  unfold unconnectedData
  rw [readBV_cons8, lift_ok_bind]
  simp only [show ((0x52#8 : Byte) = 0x54#8) = False from by decide, show ((0x52#8 : Byte) = 0x5B#8) = False from by decide,
    show ((0x52#8 : Byte) = 0x4E#8) = False from by decide, show ((0x52#8 : Byte) = 0x01#8) = False from by decide,
    show ((0x52#8 : Byte) = 0x0E#8) = False from by decide, show ((0x52#8 : Byte) = 0x10#8) = False from by decide,
    if_false, if_true]
  rw [unconnectedSend_eq C plen path hp four h4 svc body]
  exact replies_embedded C _ _ svc body s0 hc hh

/-! ### Any bytes at all -/

/-- `m` sends at most one frame; it carries the context and the handle. -/
def Carries (ctx : BitVec 64) (m : M Unit) : Prop :=
  ∀ st, st.h.context = ctx →
    ∃ new, (m st).2.sent = st.sent ++ new ∧ new.length ≤ 1 ∧
      ∀ f ∈ new, contextOf f = le 8 ctx.toNat ∧ sessionOf f = le 4 (m st).2.h.handle.toNat

theorem carries_of_replies {ctx : BitVec 64} {m : M Unit} {svc : Byte}
    (h : ∀ hd, Replies ctx hd (Echo ctx hd svc) m) : Carries ctx m := by
  intro st hc
  obtain ⟨⟨new, h1, h2, h3, -⟩, -, h5⟩ := h st.h.handle st hc rfl
  exact ⟨new, h1, h3, fun f hf => ⟨(h2 f hf).1, by rw [h5]; exact (h2 f hf).2.1⟩⟩

theorem carries_of_quiet {ctx : BitVec 64} {m : M Unit} (h : Quiet m) : Carries ctx m :=
  fun st _ => ⟨[], by simp [(h st).1], by simp, by simp⟩

theorem carries_bind {α : Type} {ctx : BitVec 64} {m : M α} {f : α → M Unit} (hm : Quiet m)
    (hf : ∀ a, Carries ctx (f a)) : Carries ctx (m >>= f) := by
  intro st hc
  rw [bind_def]
  have h1 := hm st
  cases h : m st with
  | mk r st' =>
    rw [h] at h1
    simp only at h1
    cases r with
    | ok a =>
      have := hf a st' (h1.2.1.trans hc)
      rw [h1.1] at this
      exact this
    | err e => exact ⟨[], by simp [h1.1], by simp, by simp⟩
    | panic => exact ⟨[], by simp [h1.1], by simp, by simp⟩

theorem carries_ite {ctx : BitVec 64} {c : Prop} [Decidable c] {a b : M Unit}
    (ha : c → Carries ctx a) (hb : ¬ c → Carries ctx b) : Carries ctx (if c then a else b) := by
  split
  · exact ha ‹_›
  · exact hb ‹_›

theorem carries_send (ctx : BitVec 64) (cmd : BitVec 16) (p : Bytes) : Carries ctx (send cmd p) := by
  intro st hc
  refine ⟨[frameOf st.h cmd p], rfl, by simp, ?_⟩
  intro f hf
  rw [List.mem_singleton] at hf
  subst hf
  obtain ⟨-, h2, h3⟩ := frameOf_parts st.h cmd p
  exact ⟨by rw [← hc]; exact h3, h2⟩

theorem carries_unconnected (C : Conv) (ctx : BitVec 64) (d : Bytes) : Carries ctx (unconnectedData C d) := by
  cases d with
  | nil => exact carries_of_quiet fun st => ⟨rfl, rfl, rfl⟩
  | cons svc r =>
    by_cases h1 : svc = 0x52#8
    · intro st
      unfold unconnectedData
      rw [readBV_cons8, lift_ok_bind]
      subst h1
      simp only [show ((0x52#8 : Byte) = 0x54#8) = False from by decide, show ((0x52#8 : Byte) = 0x5B#8) = False from by decide,
        show ((0x52#8 : Byte) = 0x4E#8) = False from by decide, show ((0x52#8 : Byte) = 0x01#8) = False from by decide,
        show ((0x52#8 : Byte) = 0x0E#8) = False from by decide, show ((0x52#8 : Byte) = 0x10#8) = False from by decide,
        if_false, if_true]
      revert st
      show Carries ctx _
      unfold unconnectedSend
      refine carries_bind (quiet_lift _) fun ⟨plen, r⟩ => ?_
      refine carries_bind (quiet_lift _) fun ⟨_, r⟩ => ?_
      refine carries_bind (quiet_lift _) fun ⟨_, r⟩ => ?_
      refine carries_bind (quiet_lift _) fun ⟨_, r⟩ => ?_
      refine carries_bind (quiet_lift _) fun ⟨s, r⟩ => ?_
      exact carries_of_replies fun hd => replies_embedded C ctx hd s r
    · by_cases h2 : svc = 0x4E#8
      · intro st
        unfold unconnectedData
        rw [readBV_cons8, lift_ok_bind]
        subst h2
        simp only [show ((0x4E#8 : Byte) = 0x54#8) = False from by decide, show ((0x4E#8 : Byte) = 0x5B#8) = False from by decide,
          if_false, if_true]
        revert st
        exact carries_of_quiet (quiet_forwardClose _)
      · exact carries_of_replies fun hd => replies_unconnected C ctx hd svc r h1 h2

theorem carries_unitItems (C : Conv) (ctx : BitVec 64) (items : List Item) : Carries ctx (unitItems C items) := by
  unfold unitItems
  split
  · refine carries_ite (fun _ => carries_of_quiet quiet_fail) fun _ => ?_
    refine carries_bind (quiet_lift _) fun ⟨conn, _⟩ => ?_
    refine carries_bind (quiet_lift _) fun ⟨seq, r⟩ => ?_
    refine carries_bind (quiet_modify fun _ => ⟨rfl, rfl, rfl⟩) fun _ => ?_
    refine carries_bind (quiet_lift _) fun ⟨svc, r⟩ => ?_
    exact carries_of_replies fun hd => replies_unitService C ctx hd _ _ conn svc r
  · exact carries_of_quiet quiet_fail

theorem carries_rrItems (C : Conv) (ctx : BitVec 64) (items : List Item) : Carries ctx (rrItems C items) := by
  unfold rrItems
  split
  · refine carries_ite (fun _ => ?_) fun _ => carries_ite (fun _ => carries_unconnected C ctx _) fun _ =>
      carries_of_quiet (quiet_pure _)
    refine carries_bind (quiet_lift _) fun ⟨svc, _⟩ => ?_
    exact carries_of_replies fun hd => replies_read svc ctx hd _ _
  · exact carries_of_quiet quiet_fail

/-- C38 for every byte sequence: whatever arrives after a header with some context, the server sends at
most one frame, and it carries that context and the session handle the connection has afterwards. -/
theorem C38_any_bytes (C : Conv) (st : St) (hdr : EipHeader) (rest : Bytes)
    (hi : st.inp = hdr.encode ++ rest) :
    (newFrames st (serveStep C st).2).length ≤ 1 ∧
    ∀ f ∈ newFrames st (serveStep C st).2,
      contextOf f = le 8 hdr.context.toNat ∧ sessionOf f = le 4 (serveStep C st).2.h.handle.toNat := by
  have key : Carries hdr.context (dispatch C hdr) := by
    unfold dispatch
    refine carries_ite (fun _ => ?_) fun _ => carries_ite (fun _ => ?_) fun _ =>
      carries_ite (fun _ => ?_) fun _ => carries_ite (fun _ => ?_) fun _ =>
      carries_ite (fun _ => ?_) fun _ => carries_of_quiet (quiet_pure _)
    · unfold registerSession
      refine carries_bind (quiet_recv _) fun b => ?_
      refine carries_bind (quiet_chooseId _) fun handle => ?_
      intro s0 hc
      exact carries_send hdr.context 0x65#16 b
        { s0 with h := { s0.h with handle := handle, options := hdr.options } } hc
    · unfold handleRRData
      refine carries_bind (quiet_recv _) fun _ => carries_bind (quiet_recv _) fun _ =>
        carries_bind quiet_recvItems fun items => carries_rrItems C _ items
    · unfold handleUnitData
      refine carries_bind (quiet_recv _) fun _ => carries_bind (quiet_recv _) fun _ =>
        carries_bind quiet_recvItems fun items => carries_unitItems C _ items
    · exact carries_send _ _ _
    · unfold sendListIdentity
      exact carries_bind (quiet_look _) fun b => carries_send _ _ _
  have hs : serveStep C st = dispatch C hdr { st with inp := rest, h := { st.h with context := hdr.context } } := by
    unfold serveStep
    rw [bind_def]
    simp only [recvHeader, hi, readEIPHeader_encode]
    rfl
  rw [hs]
  obtain ⟨new, h1, h2, h3⟩ := key { st with inp := rest, h := { st.h with context := hdr.context } } rfl
  have : newFrames st (dispatch C hdr { st with inp := rest, h := { st.h with context := hdr.context } }).2 = new := by
    simp only at h1
    simp [newFrames, h1]
  rw [this]
  exact ⟨h2, h3⟩

/-! ### Where the code disagrees -/

instance (c : BitVec 64) (s : BitVec 32) (v : Byte) (f : Bytes) : Decidable (Echo c s v f) := by
  unfold Echo; infer_instance

/-- C38 is false for a connected Get_Attribute_Single: whatever is sent in answer has the service code of a
fragmented read. -/
theorem C38_get_attr_single_code (C : Conv) (st : St) (r : Req) (hr : r.wf) (rest : Bytes)
    (hi : st.inp = r.bytes ++ rest) (hcmd : r.cmd = 0x70#16) (hs : st.h.handle = r.session)
    (seq : BitVec 16) (body : Bytes) (hd : r.data1 = le 2 seq.toNat ++ 0x0E#8 :: body) :
    ∀ f ∈ newFrames st (serveStep C st).2,
      serviceOf f = some 0xD2#8 ∧ ¬ Echo r.context r.session 0x0E#8 f := by
  have key : ∀ f ∈ newFrames st (serveStep C st).2, Echo r.context r.session 0x52#8 f := by
    rw [serveStep_unit C r hr rest st hi hcmd]
    have := replies_unitItems C r.context r.session ⟨r.id0, BitVec.ofNat 16 r.data0.length, r.data0, 0⟩
      ⟨r.id1, BitVec.ofNat 16 r.data1.length, r.data1, 0⟩ seq 0x0E#8 body hd
    rw [if_pos rfl] at this
    exact (of_replies (s0 := { st with inp := rest, h := { st.h with context := r.context } }) st this rfl hs
      rfl).1
  intro f hf
  have h := (key f hf).2.2
  refine ⟨by rw [h]; decide, fun he => ?_⟩
  rw [he.2.2] at h
  exact absurd h (by decide)

/-- Get attribute 7 of the identity object. -/
def getName : Req := demoUnit ([1#8, 0#8, 0x0E#8, 3#8, 0x20#8, 1#8, 0x24#8, 1#8, 0x30#8, 7#8])

/-- Such an answer is really sent. -/
example : getName.wf ∧ (serveStep demoConv (demoSt getName.bytes)).1 = .ok () ∧
    (newFrames (demoSt getName.bytes) (serveStep demoConv (demoSt getName.bytes)).2).length = 1 := by
  decide +kernel

/-- C38 is false for a SendRRData request whose second item is connected data: the service code of the
reply is made from the low byte of the sequence number. -/
theorem C38_rr_connected_item (C : Conv) (st : St) (r : Req) (hr : r.wf) (rest : Bytes)
    (hi : st.inp = r.bytes ++ rest) (hcmd : r.cmd = 0x6F#16) (hid : r.id1 = 0xB1#16)
    (hs : st.h.handle = r.session) (lo : Byte) (body : Bytes) (hd : r.data1 = lo :: body) :
    ∀ f ∈ newFrames st (serveStep C st).2, serviceOf f = some (lo ||| 0x80#8) := by
  intro f hf
  refine ((of_replies (ctx := r.context) (hd := r.session) (P := Echo r.context r.session lo)
    (m := rrItems C [⟨r.id0, BitVec.ofNat 16 r.data0.length, r.data0, 0⟩,
        ⟨r.id1, BitVec.ofNat 16 r.data1.length, r.data1, 0⟩])
    (s0 := { st with inp := rest, h := { st.h with context := r.context } }) st ?_ rfl hs rfl).1 f ?_).2.2
  · unfold rrItems
    simp only []
    rw [if_pos (by simp [hid])]
    intro s0 hc hh
    simp only [hd]
    rw [readBV_cons8, lift_ok_bind]
    exact replies_read lo r.context r.session _ _ s0 hc hh
  · rwa [serveStep_rr C r hr rest st hi hcmd] at hf

/-- A read (0x4C) of `count` with sequence number 5 sent this way is answered with service 0x85. -/
example :
    let r : Req := { demoRR ([5#8, 0#8, 0x4C#8, 4#8, 0x91#8, 5#8] ++ str "count" ++ [0#8, 1#8, 0#8]) with
      id0 := 0xA1#16, data0 := [0x11#8, 0#8, 0#8, 0#8], id1 := 0xB1#16 }
    (newFrames (demoSt r.bytes) (serveStep demoConv (demoSt r.bytes)).2).map serviceOf = [some 0x85#8] := by
  decide +kernel

/-- C38 is false for the session: a request that carries a session other than the registered one is served,
and the reply carries the registered one. -/
theorem C38_session_not_checked (C : Conv) (st : St) (r : Req) (hr : r.wf) (rest : Bytes)
    (hi : st.inp = r.bytes ++ rest) (hcmd : r.cmd = 0x70#16) (hs : st.h.handle ≠ r.session) :
    ∀ f ∈ newFrames st (serveStep C st).2, sessionOf f ≠ le 4 r.session.toNat := by
  have hin : st.inp = EipHeader.encode ⟨r.cmd, r.length, r.session, r.status, r.context, r.options⟩ ++
      (r.pre ++ Gologix.Spec.cpf [(r.id0, r.data0), (r.id1, r.data1)] ++ rest) := by
    rw [hi, req_header]; simp
  intro f hf
  have h1 := ((C38_any_bytes C st _ _ hin).2 f hf).2
  have h2 : (serveStep C st).2.h.handle = st.h.handle := by
    rw [serveStep_unit C r hr rest st hi hcmd]
    exact handle_unitItems C _ _
  rw [h1, h2]
  intro he
  exact hs (putBV_inj (by decide) (show putBV st.h.handle = putBV r.session from he))

/-- The reply to ListServices (0x04) is sent under command SendRRData (0x6F). -/
theorem C38_list_services_command (C : Conv) (st : St) (hdr : EipHeader) (rest : Bytes)
    (hi : st.inp = hdr.encode ++ rest) (hc : hdr.command = 0x04#16) :
    ∃ f, newFrames st (serveStep C st).2 = [f] ∧ commandOf f = [0x6F#8, 0#8] := by
  have hs : serveStep C st = dispatch C hdr { st with inp := rest, h := { st.h with context := hdr.context } } := by
    unfold serveStep
    rw [bind_def]
    simp only [recvHeader, hi, readEIPHeader_encode]
    rfl
  rw [hs]
  refine ⟨frameOf { st.h with context := hdr.context } 0x6F#16 listServicesReply, ?_, ?_⟩
  · simp [dispatch, hc, send, newFrames]
  · rw [(frameOf_parts _ _ _).1]; decide

/-- Session registration: the reply carries the session the client asked for, or a fresh one. -/
theorem C38_register (C : Conv) (st : St) (hdr : EipHeader) (four rest : Bytes) (h4 : four.length = 4)
    (hi : st.inp = hdr.encode ++ (four ++ rest)) (hc : hdr.command = 0x65#16) :
    ∃ f, newFrames st (serveStep C st).2 = [f] ∧ (serveStep C st).1 = .ok () ∧
      commandOf f = [0x65#8, 0#8] ∧ contextOf f = le 8 hdr.context.toNat ∧
      sessionOf f = le 4 (if hdr.session = 0#32 then st.srv.rnd 0 else hdr.session).toNat ∧
      f.drop 24 = four := by
  have hs : serveStep C st = registerSession hdr
      { st with inp := four ++ rest, h := { st.h with context := hdr.context } } := by
    unfold serveStep
    rw [bind_def]
    simp only [recvHeader, hi, readEIPHeader_encode]
    simp only [dispatch, hc]
    rfl
  rw [hs]
  have hr : recv 4 { st with inp := four ++ rest, h := { st.h with context := hdr.context } } =
      (.ok four, { st with inp := rest, h := { st.h with context := hdr.context } }) := by
    simp [recv, readN_append' h4]
  unfold registerSession
  rw [bind_ok hr]
  by_cases hz : hdr.session = 0#32
  all_goals
    rw [bind_def]
    simp only [chooseId, hz, if_true, if_false]
    rw [bind_def]
    simp only [M.modify, send, newFrames, List.drop_left]
    refine ⟨_, rfl, trivial, ?_, ?_, ?_, ?_⟩
    · rw [(frameOf_parts _ _ _).1]; decide
    · rw [(frameOf_parts _ _ _).2.2]
    · rw [(frameOf_parts _ _ _).2.1]
    · rw [frameOf_drop]

/-- A read of `arr` is answered, with the request's context, session and service. -/
example :
    let r := demoUnit ([5#8, 0#8, 0x4C#8, 3#8, 0x91#8, 3#8] ++ str "arr" ++ [0#8, 2#8, 0#8])
    r.wf ∧ (serveStep demoConv (demoSt r.bytes)).1 = .ok () ∧
    (newFrames (demoSt r.bytes) (serveStep demoConv (demoSt r.bytes)).2).length = 1 ∧
    ∀ f ∈ newFrames (demoSt r.bytes) (serveStep demoConv (demoSt r.bytes)).2,
      Echo r.context r.session 0x4C#8 f ∧
        f.drop 50 = [tDINT, 0#8, 1#8, 0#8, 0#8, 0#8, 2#8, 0#8, 0#8, 0#8] := by
  decide +kernel

end Gologix.Server
