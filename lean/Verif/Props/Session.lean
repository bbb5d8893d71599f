import Verif.Spec.Session
import Verif.Props.Settings
import Verif.Props.Connect
import Verif.Props.ServerTruth
import Verif.Props.Controller
/-
C104: a client of this library with a server of this library.
-/
set_option linter.unusedSimpArgs false

namespace Gologix.Session
open Gologix Gologix.Spec Gologix.Server Gologix.Server.Spec Gologix.Connect Gologix.Connect.Spec Gologix.Session.Spec

/-! ### Frames -/

theorem putBV_unle {w : Nat} (b : Bytes) (h : b.length * 8 = w) : putBV (BitVec.ofNat w (unle b)) = b := by
  subst h
  unfold putBV
  have := unle_lt b
  rw [BitVec.toNat_ofNat, Nat.mod_eq_of_lt (by rw [Nat.mul_comm, Nat.pow_mul]; exact this)]
  rw [show b.length * 8 / 8 = b.length by omega]
  exact le_unle b

theorem header_of (f : Bytes) (h : 24 ≤ f.length) : ∃ hd : EipHeader, f = hd.encode ++ f.drop 24 := by
  have hp : ∀ {w : Nat} (off len : Nat), off + len ≤ 24 → len * 8 = w →
      putBV (BitVec.ofNat w (unle (field off len f))) = field off len f := by
    intro w off len hle hw
    exact putBV_unle _ (by simp only [field, List.length_take, List.length_drop]; omega)
  refine ⟨⟨BitVec.ofNat 16 (unle (field 0 2 f)), BitVec.ofNat 16 (unle (field 2 2 f)),
    BitVec.ofNat 32 (unle (field 4 4 f)), BitVec.ofNat 32 (unle (field 8 4 f)),
    BitVec.ofNat 64 (unle (field 12 8 f)), BitVec.ofNat 32 (unle (field 20 4 f))⟩, ?_⟩
  unfold EipHeader.encode
  simp only
  rw [hp 0 2 (by decide) rfl, hp 2 2 (by decide) rfl, hp 4 4 (by decide) rfl, hp 8 4 (by decide) rfl,
    hp 12 8 (by decide) rfl, hp 20 4 (by decide) rfl]
  have hs : ∀ off len, f.drop off = field off len f ++ f.drop (off + len) := by
    intro off len
    unfold field
    rw [← List.drop_drop, List.take_append_drop]
  have e0 := hs 0 2
  have e1 := hs 2 2
  have e2 := hs 4 4
  have e3 := hs 8 4
  have e4 := hs 12 8
  have e5 := hs 20 4
  simp only [List.drop_zero] at e0
  simp only [List.append_assoc]
  rw [← e5, ← e4, ← e3, ← e2, ← e1]
  exact e0

/-- A client that reads a whole frame gets its status and what follows the header. -/
theorem recv_framed (f : Bytes) (h : Framed f) (hl : f.length < 65560) :
    ∃ hd, recvData f = .ok (hd, (replyOf f).payload, []) ∧ hd.status = (replyOf f).status ∧ f.take 24 = hd.encode := by
  obtain ⟨h24, hlen⟩ := h
  obtain ⟨hd, he⟩ := header_of f h24
  have hdl : hd.length.toNat = f.length - 24 := by
    have h2 : field 2 2 f = putBV hd.length := by
      rw [he]
      simp [field, EipHeader.encode, putBV, le]
    rw [h2] at hlen
    have := congrArg unle hlen
    unfold putBV at this
    rw [unle_le, unle_le] at this
    have hb := hd.length.isLt
    omega
  refine ⟨hd, ?_, ?_, ?_⟩
  · unfold recvData
    have hr : readEIPHeader f = .ok (hd, f.drop 24) := by
      conv => lhs; rw [he]
      exact readEIPHeader_encode hd _
    rw [hr, Res.bind_ok]
    simp only [replyOf]
    have hdr : (f.drop 24).length = f.length - 24 := by simp
    by_cases h0 : hd.length.toNat > 0
    · rw [if_pos h0]
      have := readN_exact hd.length.toNat (f.drop 24) [] (by omega)
      rw [List.append_nil] at this
      rw [this, Res.bind_ok]
    · rw [if_neg h0]
      have : f.drop 24 = [] := List.length_eq_zero_iff.mp (by omega)
      rw [this]
  · show hd.status = BitVec.ofNat 32 (unle (field 8 4 f))
    have h2 : field 8 4 f = putBV hd.status := by
      rw [he]
      simp [field, EipHeader.encode, putBV, le]
    rw [h2]
    unfold putBV
    rw [unle_le]
    apply BitVec.eq_of_toNat_eq
    have := hd.status.isLt
    simp
    omega
  · conv => lhs; rw [he]
    rw [List.take_left' (by simp [encode_length])]

/-- The request in a connected frame. -/
def asking (s : Settings) (msg : Bytes) : Req where
  cmd := 0x70#16
  length := BitVec.ofNat 16 (serializeItems [(Item.new 0xA1#16).write (putBV s.ot), (Item.new 0xB1#16).write msg]).length
  session := s.session
  status := 0#32
  context := s.context
  options := 0#32
  pre := [0, 0, 0, 0, 0, 0]
  id0 := 0xA1#16
  data0 := le 4 s.ot.toNat
  id1 := 0xB1#16
  data1 := msg

/-- A connected frame is a request on the connection the client was granted. -/
theorem frame_asks (st : St) (s : Settings) (msg : Bytes) (hm : msg.length < 65536) :
    Asks { st with inp := [] ++ connectedFrame s msg } (asking s msg) s.ot msg [] := by
  refine ⟨⟨rfl, by simp [asking], hm⟩, ?_, rfl, rfl, rfl, rfl⟩
  unfold connectedFrame
  rw [C01_frame_layout]
  simp only [List.flatten_cons, List.flatten_nil, List.append_nil, List.nil_append]
  simp only [asking]
  rw [unit_payload]
  simp [Gologix.Spec.frame, Req.bytes, putBV]
  exact (le_mod 2 _).symm

/-! ### Exchanges -/

/-- The client and the server are in step: the connection is up and nothing is on the way. -/
def Quiet (y : Sys) : Prop := y.up = true ∧ y.socket = [] ∧ y.server.inp = []

theorem inp_stable : Stable (fun st : St => st.inp) := ⟨fun _ _ => rfl, fun _ _ => rfl, fun _ _ => rfl⟩

theorem router_stable : Stable (fun st : St => st.srv.router) := ⟨fun _ _ => rfl, fun _ _ => rfl, fun _ _ => rfl⟩

theorem exchange_recv {C : Conv} {y : Sys} {req f p : Bytes} {hd : EipHeader} {st' : St} (hq : Quiet y)
    (hs : serveStep C { y.server with inp := [] ++ req } = (.ok (), st')) (hf : st'.sent = y.server.sent ++ [f])
    (h1 : recvData f = .ok (hd, p, [])) : exchange C y req = (.ok (hd, p), ⟨st', [], true⟩) := by
  obtain ⟨q1, q2, q3⟩ := hq
  have hs' : serveStep C ⟨y.server.h, y.server.srv, req, y.server.sent⟩ = (.ok (), st') := hs
  unfold exchange
  rw [q1, q2, q3]
  simp only [Bool.not_true, Bool.false_eq_true, if_false, hs', hf, List.drop_left, List.flatten_cons, List.flatten_nil,
    List.append_nil, List.nil_append, h1]

/-- A request the server answers with one frame. -/
theorem exchange_ok {C : Conv} {y : Sys} {req f : Bytes} {st' : St} (hq : Quiet y)
    (hs : serveStep C { y.server with inp := [] ++ req } = (.ok (), st')) (hf : st'.sent = y.server.sent ++ [f])
    (hl : f.length < 65560) :
    ∃ hd, exchange C y req = (.ok (hd, (replyOf f).payload), ⟨st', [], true⟩) ∧ hd.status = (replyOf f).status ∧
      f.take 24 = hd.encode := by
  have hw := (whole_serveStep C { y.server with inp := [] ++ req } trivial).2
  rw [hs] at hw
  obtain ⟨new, hn1, hn2⟩ := hw
  have : new = [f] := by
    have h : y.server.sent ++ [f] = y.server.sent ++ new := by rw [← hf]; exact hn1
    exact (List.append_cancel_left h).symm
  subst this
  obtain ⟨hd, h1, h2, h3⟩ := recv_framed f (hn2 f (by simp)) hl
  exact ⟨hd, exchange_recv hq hs hf h1, h2, h3⟩

theorem conns_stable : Stable (fun st : St => st.srv.conns) := ⟨fun _ _ => rfl, fun _ _ => rfl, fun _ _ => rfl⟩

/-- What a connected request does not change. -/
theorem keeps_unit {γ : Type} {g : St → γ} (hg : Stable g) (hi : ∀ st i, g { st with inp := i } = g st) (C : Conv) {st : St}
    {r : Req} {conn : BitVec 32} {seq : BitVec 16} {svc : Byte} {d rest : Bytes}
    (h : Asks st r conn (le 2 seq.toNat ++ svc :: d) rest) : g (serveStep C st).2 = g st := by
  rw [unit_step h]
  refine (keeps_unitService hg C _ _ _ _ _ (handling st r seq rest)).trans ?_
  show g { { st with h := _ } with inp := rest } = g st
  rw [hi, hg.hdl]

/-- After a connected request that was answered, nothing is left of it. -/
theorem unit_inp {C : Conv} {st : St} {r : Req} {conn : BitVec 32} {seq : BitVec 16} {svc : Byte} {d rest : Bytes}
    (h : Asks st r conn (le 2 seq.toNat ++ svc :: d) rest) : (serveStep C st).2.inp = rest := by
  rw [unit_step h]
  exact keeps_unitService inp_stable C _ _ _ _ _ (handling st r seq rest)

theorem shown_small {v : Scal} {T : GoTy} (h : Server.Fits v T) {image : Bytes} (hi : Shown (.scal v) image) :
    image.length ≤ 92 := by
  cases hi with
  | scalar v T' hv hT =>
    rw [List.length_append, (C13_value_roundtrip v T' hv hT []).2.2]
    cases T' <;> simp_all [typeField, le] <;> decide
  | string s hs => simp [typeField, stringSlot, le]; omega

/-- The acknowledgement of a write is 50 bytes long. -/
theorem write_ack_length {C : Conv} {st : St} {r : Req} {conn : BitVec 32} {seq : BitVec 16} {d rest : Bytes}
    (h : Asks st r conn (le 2 seq.toNat ++ 0x4D#8 :: d) rest) :
    ∀ f ∈ newFrames st (serveStep C st).2, f.length = 50 := by
  have key : Tells (fun _ => True) (fun f => f.length = 50)
      (unitService C (le 4 conn.toNat) (le 2 seq.toNat ++ 0x4D#8 :: d) conn 0x4D#8 d) := by
    unfold unitService
    rw [if_pos rfl]
    unfold cipConnectedWrite
    have hw : ∀ ep tag vs, Tells (fun _ => True) (fun f => f.length = 50) (writeValues C ep tag vs) := by
      intro ep tag vs st' _
      refine ⟨trivial, [], ?_, by simp⟩
      rw [(writeValues_tags C ep tag vs st' st' rfl).2.2.2, List.append_nil]
    refine tells_bind (tells_lift _) fun _ => tells_bind (tells_lift _) fun _ => tells_bind (tells_lift _) fun _ =>
      tells_bind (tells_getByOT _) fun _ => tells_bind (tells_resolve _) fun _ => tells_bind (hw _ _ _) fun _ => ?_
    intro st' _
    refine ⟨trivial, _, rfl, ?_⟩
    intro f hf
    rw [List.mem_singleton] at hf
    subst hf
    rw [unit_payload]
    simp [frameOf, encode_length, cpf, item, resultHdr]
  intro f hf
  rw [unit_step h] at hf
  obtain ⟨-, new, h1, h2⟩ := key (handling st r seq rest) trivial
  apply h2
  unfold newFrames at hf
  rw [h1] at hf
  simpa [handling] using hf

/-! ### A session -/

/-- What the server keeps for a cell. -/
def Cell.kept : Cell → TVal
  | .one v => .scal v
  | .many T vs => .slice (some T) (vs.map .scal)

/-- Strings fit a STRING, and an array has values of its type only. -/
def Cell.sound : Cell → Prop
  | .one v => ∀ t, v = .str t → t.length ≤ 82
  | .many T vs => ∀ v ∈ vs, Server.Fits v T

/-- The tags hold what the memory says. -/
def Holds (tags : Store) (m : Memory) : Prop :=
  ∀ n c, m n = some c → tags (toLower n) = some (Cell.kept c) ∧ Cell.sound c

/-- The client's connection leads to the server's tags, and they hold what the memory says. -/
def Joined (s : Settings) (k : Conn) (ep : Nat) (y : Sys) (m : Memory) : Prop :=
  Quiet y ∧ ∃ tags : Store, Serves y.server.srv s.ot k ep tags ∧ Holds tags m

/-- `t` is what `ReadList` makes of `a`, with the path made for the tag.  No bit of a number is asked for, arrays are not of
booleans or strings, and the count is not one the server takes for a part of the path. -/
def AsksFor (a : Ask) (t : MTag) : Prop :=
  ClientPath a.tag t.typ t.ioi ∧ t.typ = cipOfGo a.T ∧ (t.ioi.bitAccess = false ∨ t.typ ≠ tBOOL) ∧ t.elements = a.n ∧
    a.n < 32768 ∧ safeCount a.n ∧ (a.T = .str ∨ a.T = .bool → a.n = 1)

/-- `e` is what `WriteMap` makes of a tag and its value, which is of an atomic type; not a string, which the server does not take
in a packet. -/
def PutsFor (w : List Part × Scal) (e : Ioi × WVal) : Prop :=
  ∃ dt T, ClientPath w.1 dt e.1 ∧ e.2 = .one w.2 ∧ w.2.ty = some T ∧ T ≠ .str

/-- `c` is a call for `op`: the client has encoded the tag by its names, whose path fits a frame.  A value to write is of
an atomic type or a string that fits a STRING.  Arrays have at least two elements, not booleans or strings; the count is not
one the server takes for a part of the path, and they fit a frame.  A request for several tags has at most 32 KiB, and its
reply fits a frame; the same for values to be written at once. -/
inductive Makes : Op → Call → Prop
  | write {tag : List Part} {v : Scal} {dt : Byte} {ioi : Ioi} (seq : BitVec 16) (T : GoTy)
      (hp : ClientPath tag dt ioi) (hl : ioi.buffer.length ≤ 65000) (hv : Server.Fits v T) :
      Makes (.write tag v) (.write seq ioi (.one v))
  | read {tag : List Part} {T : GoTy} {dt : Byte} {ioi : Ioi} (seq : BitVec 16)
      (hp : ClientPath tag dt ioi) (hl : ioi.buffer.length ≤ 65000) : Makes (.read tag T) (.read seq ioi T)
  | writeAll {tag : List Part} {T : GoTy} {vs : List Scal} {dt : Byte} {ioi : Ioi} (seq : BitVec 16)
      (hp : ClientPath tag dt ioi) (hT : T ≠ .str) (hb : T ≠ .bool) (hv : ∀ v ∈ vs, v.ty = some T) (h2 : 2 ≤ vs.length)
      (hl : ioi.buffer.length + goSize T * vs.length ≤ 65000) : Makes (.writeAll tag T vs) (.write seq ioi (.many T vs))
  | readMany {tag : List Part} {T : GoTy} {n : Nat} {dt : Byte} {ioi : Ioi} (seq : BitVec 16)
      (hp : ClientPath tag dt ioi) (hT : T ≠ .str) (hb : T ≠ .bool) (h2 : 2 ≤ n) (hn : n < 32768) (hs : safeCount n)
      (hl : ioi.buffer.length ≤ 65000) (hl' : goSize T * n ≤ 65000) : Makes (.readMany tag T n) (.fill seq ioi T n)
  | readBits {tag : List Part} {n : Nat} {dt : Byte} {ioi : Ioi} (seq : BitVec 16) (hp : ClientPath tag dt ioi) (h1 : 1 ≤ n)
      (hn : n ≤ 16000) (hs : safeCount n) (hl : ioi.buffer.length ≤ 65000) : Makes (.readBits tag n) (.bits seq ioi (32 * n))
  | readSeveral {asks : List Ask} {tags : List MTag} (seq : BitVec 16) (hlen : tags.length = asks.length)
      (h : ∀ (i : Nat) a t, asks[i]? = some a → tags[i]? = some t → AsksFor a t)
      (hl : (readListBytes seq tags).length ≤ 32768) (hl' : (asks.map fun a => 10 + goSize a.T * a.n).sum ≤ 65500) :
      Makes (.readSeveral asks) (.several seq tags)
  | writeSeveral {ws : List (List Part × Scal)} {es : List (Ioi × WVal)} (seq : BitVec 16) (hn : es.length = ws.length)
      (hp : ∀ (i : Nat) w e, ws[i]? = some w → es[i]? = some e → PutsFor w e)
      (hl : (es.map fun e => 16 + e.1.buffer.length).sum ≤ 32000) : Makes (.writeSeveral ws) (.map seq es)

theorem typeField_length (T : GoTy) : (typeField T).length ≤ 4 := by cases T <;> simp [typeField, le]

theorem encode_small {v : Scal} {T : GoTy} (h : Server.Fits v T) : v.encode.length ≤ 88 := by
  obtain ⟨hv, hs⟩ := h
  by_cases hT : T = .str
  · subst hT
    cases v <;> simp [Scal.ty] at hv
    simp [Scal.encode, stringBytes, fitTo, putBV]
    omega
  · rw [(C13_value_roundtrip v T hv hT []).2.2]
    cases T <;> first | decide | exact absurd rfl hT

theorem encodes_length {T : GoTy} (hT : T ≠ .str) : ∀ vs : List Scal, (∀ v ∈ vs, v.ty = some T) →
    (vs.map Scal.encode).flatten.length = goSize T * vs.length
  | [], _ => rfl
  | v :: vs, h => by
    rw [List.map_cons, List.flatten_cons, List.length_append, encodes_length hT vs (fun w hw => h w (by simp [hw])),
      (C13_value_roundtrip v T (h v (by simp)) hT []).2.2, List.length_cons, Nat.mul_add, Nat.mul_one, Nat.add_comm]

theorem read_bytes (seq : BitVec 16) (path : Bytes) : ReadReq.bytes seq ⟨path, 1#16, none⟩ =
    le 2 seq.toNat ++ 0x4C#8 :: BitVec.ofNat 8 (path.length / 2) :: (path ++ le 2 1) := readReq_bytes seq path 1

/-- A read of a tag whose value has the payload `image` brings it to the client; nothing changes at the server. -/
theorem payload_served {s : Settings} {k : Conn} {ep : Nat} {y : Sys} {tags : Store} {tag : List Part} {dt : Byte} {ioi : Ioi}
    {n : Nat} {v : TVal} {image : Bytes} (C : Conv) (seq : BitVec 16) (hq : Quiet y)
    (hsv : Serves y.server.srv s.ot k ep tags) (hp : ClientPath tag dt ioi) (hl : ioi.buffer.length ≤ 65000)
    (hn : n < 32768) (hsafe : safeCount n) (hr : tagRead tags (render tag) n = .ok v) (hv : readPayload v = .ok image)
    (hi : image.length ≤ 65010) :
    ∃ hd p y', exchange C y (connectedFrame s (ReadReq.bytes seq ⟨ioi.buffer, BitVec.ofNat 16 n, none⟩)) = (.ok (hd, p), y') ∧
      Quiet y' ∧ y'.server.srv = y.server.srv ∧
      (⟨hd.status, p⟩ : Reply) = ⟨0#32, [0, 0, 0, 0, 0, 0] ++ cpf [(0xA1#16, le 4 k.to.toNat),
        (0xB1#16, le 2 seq.toNat ++ ([0xCC#8, 0#8, 0#8, 0#8] ++ image))]⟩ := by
  obtain ⟨hp', hrn⟩ := clientPath_of hp
  have hb : (ReadReq.bytes seq ⟨ioi.buffer, BitVec.ofNat 16 n, none⟩).length < 65536 := by
    rw [readReq_bytes]
    simp
    omega
  have ha' := frame_asks y.server s _ hb
  rw [readReq_bytes] at ha'
  have hr' : tagRead tags (render (lowerPath tag)) n = .ok v := by
    rw [hrn, tagRead_same (t := render tag) n (toLower_idem _), hr]
  have hin := unit_inp (C := C) ha'
  obtain ⟨st', f, h1, h2, h3, h4⟩ := payload_step (C := C) ha' hp' hn hsafe hsv hr' hv
  have hlen : f.length < 65560 := by
    have h5 := congrArg (fun r => r.payload.length) h4
    simp [replyOf, cpf, item] at h5
    omega
  obtain ⟨hd, e1, e2, -⟩ := exchange_ok hq h1 h2 hlen
  rw [h1] at hin
  rw [readReq_bytes]
  refine ⟨hd, _, ⟨st', [], true⟩, e1, ⟨rfl, rfl, hin⟩, h3, ?_⟩
  rw [e2, ← h4]

/-- A request for `n` elements of what can be shown is answered with it, and nothing changes at the server. -/
theorem read_served {s : Settings} {k : Conn} {ep : Nat} {y : Sys} {tags : Store} {tag : List Part} {dt : Byte} {ioi : Ioi}
    {n : Nat} {v : TVal} {image : Bytes} (C : Conv) (seq : BitVec 16) (hq : Quiet y)
    (hsv : Serves y.server.srv s.ot k ep tags) (hp : ClientPath tag dt ioi) (hl : ioi.buffer.length ≤ 65000)
    (hn : n < 32768) (hsafe : safeCount n) (hr : tagRead tags (render tag) n = .ok v) (hv : Shown v image)
    (hi : image.length ≤ 65010) :
    ∃ hd p y', exchange C y (connectedFrame s (ReadReq.bytes seq ⟨ioi.buffer, BitVec.ofNat 16 n, none⟩)) = (.ok (hd, p), y') ∧
      Quiet y' ∧ y'.server.srv = y.server.srv ∧
      (⟨hd.status, p⟩ : Reply) = ⟨0#32, [0, 0, 0, 0, 0, 0] ++ cpf [(0xA1#16, le 4 k.to.toNat),
        (0xB1#16, le 2 seq.toNat ++ ([0xCC#8, 0#8, 0#8, 0#8] ++ image))]⟩ :=
  payload_served C seq hq hsv hp hl hn hsafe hr (readPayload_shown hv) hi

/-- A write of values the server takes is confirmed; nothing but the tags changes for any connection. -/
theorem write_served {s : Settings} {k : Conn} {ep : Nat} {y : Sys} {tags tags' : Store} {tag : List Part} {dt : Byte}
    {ioi : Ioi} {T : GoTy} {v : WVal} {vs : List Scal} {d left : Bytes} (C : Conv) (seq : BitVec 16) (hq : Quiet y)
    (hsv : Serves y.server.srv s.ot k ep tags) (hp : ClientPath tag dt ioi)
    (hl : (writeBytes seq ioi v).length < 65536)
    (hbytes : writeBytes seq ioi v = le 2 seq.toNat ++ 0x4D#8 :: BitVec.ofNat 8 (ioi.buffer.length / 2) ::
      (ioi.buffer ++ (typeField T ++ d)))
    (hpv : parseWriteValues (typeField T ++ d) = .ok (vs, left)) (hne : vs ≠ [])
    (hw : tagWrite C tags (render tag) (written vs) = (.ok (), tags')) :
    ∃ y', perform C s y (.write seq ioi v) = (.ok .done, y') ∧ Quiet y' ∧
      y'.server.srv.conns = y.server.srv.conns ∧ y'.server.srv.router = y.server.srv.router ∧
      Serves y'.server.srv s.ot k ep tags' := by
  obtain ⟨hp', hrn⟩ := clientPath_of hp
  have ha' := frame_asks y.server s _ hl
  rw [hbytes] at ha'
  have htw : tagWrite C tags (render (lowerPath tag)) (written vs) = (.ok (), tags') := by
    rw [hrn, tagWrite_same (t := render tag) _ (toLower_idem _), hw]
  have hin := unit_inp (C := C) ha'
  have hlen := write_ack_length (C := C) ha'
  have hco := keeps_unit conns_stable (fun _ _ => rfl) C ha'
  have hro := keeps_unit router_stable (fun _ _ => rfl) C ha'
  obtain ⟨st', f, h1, h2, h3, h4⟩ := write_step (C := C) ha' hp' hsv hpv hne htw
  rw [h1] at hin hlen hco hro
  have hlen' : f.length = 50 := by
    apply hlen
    unfold newFrames
    rw [h2]
    simp
  obtain ⟨hd, e1, e2, -⟩ := exchange_ok hq h1 h2 (by omega)
  refine ⟨⟨st', [], true⟩, ?_, ⟨rfl, rfl, hin⟩, hco, hro, h3⟩
  simp only [perform, hbytes]
  simp only [e1, Res.bind_ok, e2]
  rw [show (⟨(replyOf f).status, (replyOf f).payload⟩ : Reply) = replyOf f from rfl, h4]
  rfl

theorem holds_set {tags : Store} {m m' : Memory} {name : Str} {c : Cell} (h : Holds tags m) (hm : m.After name c m')
    (hc : Cell.sound c) : Holds (tags.set (toLower name) (Cell.kept c)) m' := by
  intro n w hn
  by_cases hs : sameName n name
  · rw [hm.1 n hs] at hn
    cases hn
    rw [show toLower n = toLower name from hs, set_self]
    exact ⟨rfl, hc⟩
  · rw [hm.2 n hs] at hn
    rw [set_other _ _ hs]
    exact h n w hn

theorem read_element {tags : Store} {base : Str} {i : Nat} (hi : i < 2 ^ 63) {T : GoTy} {vs : List Scal} {v : Scal}
    (h : tags (toLower base) = some (.slice (some T) (vs.map .scal))) (hv : vs[i]? = some v) :
    tagRead tags (elemName base i) 1 = .ok (.scal v) := by
  have hl := (List.getElem?_eq_some_iff.1 hv).1
  unfold tagRead elemName
  rw [parse_elem (atoi_dec hi)]
  simp only [h, List.length_map]
  rw [if_neg (by omega), if_neg (by omega), if_pos (by simp)]
  simp [List.getD_eq_getElem?_getD, hv]

theorem read_part {tags : Store} {base : Str} {i n : Nat} (hi : i < 2 ^ 63) {T : GoTy} {vs : List Scal}
    (h : tags (toLower base) = some (.slice (some T) (vs.map .scal))) (hn : i + n ≤ vs.length) (h2 : 2 ≤ n) :
    tagRead tags (elemName base i) n = .ok (.slice (some T) (((vs.drop i).take n).map .scal)) := by
  unfold tagRead elemName
  rw [parse_elem (atoi_dec hi)]
  simp only [h, List.length_map]
  rw [if_neg (by omega), if_neg (by omega), if_neg (by omega), if_neg (by omega)]
  simp [List.map_drop, List.map_take]

theorem write_element {C : Conv} {tags : Store} {base : Str} {i : Nat} (hi : i < 2 ^ 63) {T : GoTy} {vs : List Scal} {v : Scal}
    (h : tags (toLower base) = some (.slice (some T) (vs.map .scal))) (hl : i < vs.length) (hv : v.ty = some T) :
    tagWrite C tags (elemName base i) (.scal v) =
      (.ok (), tags.set (toLower base) (.slice (some T) ((vs.set i v).map .scal))) := by
  unfold tagWrite elemName
  rw [parse_elem (atoi_dec hi)]
  simp only [h, List.length_map]
  rw [if_neg (by omega), C33_write_same_type C (.scal v) T ⟨v, rfl, hv⟩]
  simp [List.map_set]

/-- A reply with an array fills the slice. -/
theorem fills (ioi : Ioi) {T : GoTy} (hT : T ≠ .str) {vs : List Scal} (hv : ∀ v ∈ vs, v.ty = some T) (h2 : 2 ≤ vs.length)
    (hl : goSize T * vs.length ≤ 65000) (t seq : Nat) :
    readSliceT T ioi vs.length [⟨0#32, [0, 0, 0, 0, 0, 0] ++ cpf [(0xA1#16, le 4 t),
        (0xB1#16, le 2 seq ++ ([0xCC#8, 0#8, 0#8, 0#8] ++ (typeField T ++ (vs.map Scal.encode).flatten)))]⟩] = .ok vs := by
  have hsz := encodes_length hT vs hv
  have hpos : 1 ≤ goSize T := by cases T <;> decide
  have hn : vs.length ≤ 65000 := Nat.le_trans (Nat.le_mul_of_pos_left _ hpos) hl
  apply C56_read_array_partial ioi T hT vs hv h2 (by omega)
  exact single_answered ioi _ _ _ _ ⟨0#32, 0#16, 0xA1#16, le 4 t, 0xB1#16, BitVec.ofNat 16 seq, 0xCC#8, 0#8, 0#8, 0#8⟩
    (by
      refine ⟨by simp, ?_⟩
      omega) (by
      have e1 : le 2 seq = le 2 (BitVec.ofNat 16 seq).toNat := by
        rw [← putBV_ofNat16]; rfl
      rw [e1, typeField_cip hT]
      simp [ReplyForm.payload, ReplyForm.body, le])

/-- A reply with words fills the slice with their bits. -/
theorem fills_bits (ioi : Ioi) {ws : List (BitVec 32)} (h1 : 1 ≤ ws.length) (hn : ws.length ≤ 16000) {bs : List Bool}
    (hb : BitsOf ws bs) (t seq : Nat) :
    readBools ioi (32 * ws.length) [⟨0#32, [0, 0, 0, 0, 0, 0] ++ cpf [(0xA1#16, le 4 t),
        (0xB1#16, le 2 seq ++ ([0xCC#8, 0#8, 0#8, 0#8] ++
          (typeField .u32 ++ ((ws.map Scal.u32).map Scal.encode).flatten)))]⟩] = .ok bs := by
  have hsz := encodes_length (T := .u32) (by decide) (ws.map Scal.u32) (by simp [Scal.ty])
  have henc : (ws.map fun w => le 4 w.toNat) = (ws.map Scal.u32).map Scal.encode := by
    simp [Scal.encode, putBV]
  obtain ⟨bs', e1, e2, e3⟩ := C14_bools_partial ioi tUDINT (.inr rfl) ws h1 (by omega)
    [⟨0#32, [0, 0, 0, 0, 0, 0] ++ cpf [(0xA1#16, le 4 t), (0xB1#16, le 2 seq ++ ([0xCC#8, 0#8, 0#8, 0#8] ++
      (typeField .u32 ++ ((ws.map Scal.u32).map Scal.encode).flatten)))]⟩] (by
      rw [henc]
      exact single_answered ioi _ _ _ _
        ⟨0#32, 0#16, 0xA1#16, le 4 t, 0xB1#16, BitVec.ofNat 16 seq, 0xCC#8, 0#8, 0#8, 0#8⟩
        (by
          refine ⟨by simp, ?_⟩
          simp only [goSize, List.length_map] at hsz
          omega) (by
          have e1 : le 2 seq = le 2 (BitVec.ofNat 16 seq).toNat := by
            rw [← putBV_ofNat16]; rfl
          rw [e1, typeField_cip (by decide)]
          simp [ReplyForm.payload, ReplyForm.body, le, cipOfGo]))
  rw [e1]
  congr 1
  apply List.ext_getElem?
  intro i
  rw [e3, hb.2]

/-- The server finds what a memory has. -/
theorem sees_read {tags : Store} {m : Memory} {a : Ask} {rv : RV} (hh : Holds tags m) (h : Sees m a rv) :
    (∃ w, rv = .one w ∧ Server.Fits w a.T ∧ a.n = 1 ∧ tagRead tags (render a.tag) 1 = .ok (.scal w)) ∨
    ∃ ws : List Scal, rv = .many ws ∧ (∀ w ∈ ws, Server.Fits w a.T) ∧ ws.length = a.n ∧ 2 ≤ a.n ∧
      tagRead tags (render a.tag) a.n = .ok (.slice (some a.T) (ws.map .scal)) := by
  cases h with
  | one hpl hm hT =>
    left
    cases hpl with
    | whole hw =>
      obtain ⟨g1, g2⟩ := hh _ _ hm
      refine ⟨_, rfl, ⟨hT, g2⟩, rfl, ?_⟩
      unfold tagRead
      rw [parse_whole hw]
      simp only [g1, Cell.kept]
  | element hpl hm hi =>
    left
    cases hpl with
    | element hr hi63 =>
      obtain ⟨g1, g2⟩ := hh _ _ hm
      refine ⟨_, rfl, g2 _ (List.mem_of_getElem? hi), rfl, ?_⟩
      simp only
      rw [hr]
      exact read_element hi63 g1 hi
  | many hpl hm h2 hn =>
    right
    cases hpl with
    | whole hw =>
      obtain ⟨g1, g2⟩ := hh _ _ hm
      refine ⟨_, rfl, fun v hv => g2 v (List.mem_of_mem_take hv), by simp; omega, h2, ?_⟩
      simp only
      rw [read_slice hw rfl g1 (by omega), if_pos (by simp; omega)]
      simp [List.map_take]
  | «from» hpl hm h2 hn =>
    right
    cases hpl with
    | element hr hi63 =>
      obtain ⟨g1, g2⟩ := hh _ _ hm
      refine ⟨_, rfl, fun v hv => g2 v (List.mem_of_mem_drop (List.mem_of_mem_take hv)), by simp; omega, h2, ?_⟩
      simp only
      rw [hr]
      exact read_part hi63 g1 hn h2

/-- The image the server sends for a value means this value to the client. -/
theorem ask_shown {tags : Store} {m : Memory} {a : Ask} {t : MTag} {rv : RV} (hh : Holds tags m) (ha : AsksFor a t)
    (h : Sees m a rv) :
    ∃ v typ u d, tagRead tags (render a.tag) a.n = .ok v ∧ Shown v (typ :: u :: d) ∧ d.length ≤ 2 + goSize a.T * a.n ∧
      Means t typ d rv := by
  obtain ⟨-, hcip, hbit, hel, -, -, hn1⟩ := ha
  have hty : t.typ = tSTRING ↔ a.T = .str := by rw [hcip]; cases a.T <;> decide
  rcases sees_read hh h with ⟨w, rfl, hf, e1, hr⟩ | ⟨ws, rfl, hf, hln, h2, hr⟩
  · by_cases hs : a.T = .str
    · obtain ⟨hv, hw⟩ := hf
      rw [hs] at hv
      cases w <;> simp [Scal.ty] at hv
      rename_i str
      have h82 := hw str rfl
      refine ⟨.scal (.str str), 0xA0#8, 0x02#8, le 2 (0x0FCE#16).toNat ++ stringSlot str, by rw [e1]; exact hr, ?_, ?_,
        .string t str 0x0FCE#16 (by rw [hel, e1]) (hty.mpr hs) h82⟩
      · exact .string str h82
      · rw [hs, e1]
        simp [stringSlot, goSize]
        omega
    · refine ⟨.scal w, cipOfGo a.T, 0#8, w.encode, by rw [e1]; exact hr, ?_, ?_,
        .scalar t a.T w (by rw [hel, e1]) (fun h => hs (hty.mp h)) hf.1 hs hbit⟩
      · have := Shown.scalar w a.T hf.1 hs
        rw [typeField_cip hs] at this
        exact this
      · rw [(C13_value_roundtrip w a.T hf.1 hs []).2.2, e1]
        omega
  · have hs : a.T ≠ .str := fun e => by have := hn1 (.inl e); omega
    have hb : a.T ≠ .bool := fun e => by have := hn1 (.inr e); omega
    have hv : ∀ w ∈ ws, w.ty = some a.T := fun w hw => (hf w hw).1
    refine ⟨_, cipOfGo a.T, 0#8, (ws.map Scal.encode).flatten, hr, ?_, ?_,
      .array t a.T ws (by rw [hel, hln]) (by omega) (fun h => hs (hty.mp h)) hv hs⟩
    · have := Shown.array a.T ws hv hs hb
      rw [typeField_cip hs] at this
      exact this
    · rw [encodes_length hs ws hv, hln]
      omega

/-- What the server is asked for a tag. -/
def asked (a : Ask) (t : MTag) : EReq := .read false (BitVec.ofNat 8 (t.ioi.buffer.length / 2)) (lowerPath a.tag) t.ioi.buffer a.n

theorem asked_bytes {a : Ask} {t : MTag} (h : AsksFor a t) : (asked a t).bytes = t.entry ∧ (asked a t).wf := by
  obtain ⟨hp, -, -, hel, hn, hs, -⟩ := h
  refine ⟨?_, (clientPath_of hp).1, hn, hs⟩
  simp only [asked, EReq.bytes, MTag.entry, putBV_ofNat16, hel]

theorem all_shown {tags : Store} {m : Memory} (C : Conv) (hh : Holds tags m) :
    ∀ (asks : List Ask) (ts : List MTag) (vs : List RV), ts.length = asks.length → vs.length = asks.length →
      (∀ (i : Nat) a t, asks[i]? = some a → ts[i]? = some t → AsksFor a t) →
      (∀ (i : Nat) a v, asks[i]? = some a → vs[i]? = some v → Sees m a v) →
      ∃ (es : List EReq) (xs : List (MTag × Byte × Bytes × RV)) (rs : List Bytes),
        es.map EReq.bytes = ts.map MTag.entry ∧ (∀ e ∈ es, e.wf) ∧ Served C tags es rs tags ∧
        xs.map (·.1) = ts ∧ xs.map (·.2.2.2) = vs ∧ (∀ x ∈ xs, Means x.1 x.2.1 x.2.2.1 x.2.2.2) ∧
        rs.length = xs.length ∧ (∀ (i : Nat) x, xs[i]? = some x → ∃ u, rs[i]? = some ([0xCC#8, 0#8, 0#8, 0#8, x.2.1, u] ++ x.2.2.1)) ∧
        rs.flatten.length + 2 * rs.length ≤ (asks.map fun a => 10 + goSize a.T * a.n).sum
  | [], [], [], _, _, _, _ => ⟨[], [], [], rfl, by simp, .nil _, rfl, rfl, by simp, rfl, by simp, by simp⟩
  | a :: asks, t :: ts, v :: vs, hl, hl', ha, hs => by
    obtain ⟨es, xs, rs, h1, h2, h3, h4, h5, h6, h7, h8, h9⟩ := all_shown C hh asks ts vs (by simpa using hl) (by simpa using hl')
      (fun i a t h h' => ha (i + 1) a t (by simpa using h) (by simpa using h'))
      (fun i a v h h' => hs (i + 1) a v (by simpa using h) (by simpa using h'))
    have ha0 := ha 0 a t rfl rfl
    obtain ⟨w, typ, u, d, g1, g2, g3, g4⟩ := ask_shown hh ha0 (hs 0 a v rfl rfl)
    obtain ⟨b1, b2⟩ := asked_bytes ha0
    have hrn := (clientPath_of ha0.1).2
    refine ⟨asked a t :: es, (t, typ, d, v) :: xs, ([0xCC#8, 0#8, 0#8, 0#8] ++ (typ :: u :: d)) :: rs, by simp [b1, h1], ?_, ?_,
      by simp [h4], by simp [h5], ?_, by simp [h7], ?_, ?_⟩
    · intro e he
      rcases List.mem_cons.mp he with rfl | he
      · exact b2
      · exact h2 e he
    · exact .read false _ _ _ _ w _ (by rw [hrn, tagRead_same (t := render a.tag) a.n (toLower_idem _), g1]) g2 h3
    · intro x hx
      rcases List.mem_cons.mp hx with rfl | hx
      · exact g4
      · exact h6 x hx
    · intro i x hx
      cases i with
      | zero =>
        simp only [List.getElem?_cons_zero, Option.some.injEq] at hx
        subst hx
        exact ⟨u, rfl⟩
      | succ i =>
        obtain ⟨u, hu⟩ := h8 i x (by simpa using hx)
        exact ⟨u, by simpa using hu⟩
    · simp only [List.flatten_cons, List.length_append, List.length_cons, List.map_cons, List.sum_cons, List.length_nil]
      omega

/-- The client finds the values in the replies of a packet. -/
theorem packet_read (conn : BitVec 32) (seq : BitVec 16) (xs : List (MTag × Byte × Bytes × RV)) (rs : List Bytes)
    (hl : rs.length = xs.length) (hs : 2 + 2 * rs.length + rs.flatten.length + 8 < 65536)
    (hx : ∀ (i : Nat) x, xs[i]? = some x → ∃ u, rs[i]? = some ([0xCC#8, 0#8, 0#8, 0#8, x.2.1, u] ++ x.2.2.1))
    (hv : ∀ x ∈ xs, Means x.1 x.2.1 x.2.2.1 x.2.2.2) :
    multiReply (xs.map (·.1)) ⟨0#32, [0, 0, 0, 0, 0, 0] ++ (cpf [(0xA1#16, le 4 conn.toNat),
      (0xB1#16, le 2 seq.toNat ++ ([0x0A#8 ||| 0x80#8, 0#8, 0#8, 0#8] ++ multiPayload rs))] ++ [])⟩ = .ok (xs.map (·.2.2.2)) := by
  have hput : ∀ l : List (BitVec 16), ((l.map BitVec.toNat).map (le 2)) = l.map putBV := by
    intro l
    simp only [List.map_map]
    apply List.map_congr_left
    intro b _
    rfl
  have htab := jumpTable_length ((rs.length + 1) * 2) 0 rs
  have hbl : (multiPayload rs).length = 2 + 2 * rs.length + rs.flatten.length := by
    simp only [multiPayload, List.length_append, flatten_put_length, htab, putBV_length]
  refine multiReply_images ⟨0#32, 0#16, 0xA1#16, le 4 conn.toNat, 0xB1#16, seq, 0x0A#8 ||| 0x80#8, 0#8⟩
    ((jumpTable ((rs.length + 1) * 2) 0 rs).map BitVec.toNat) rs.flatten (multiPayload rs) ?_ rfl ?_ (by simp) (by omega)
    (by rw [List.length_map, htab, hl]) ?_ hv
  · rw [hput, multiPayload, putBV_ofNat16, hl]
    simp
  · simp [MultiForm.payload, le]
  · intro k x hk
    obtain ⟨u, hu⟩ := hx k x hk
    obtain ⟨hk', he⟩ := List.getElem?_eq_some_iff.1 hu
    have hle : (rs.take k).flatten.length ≤ rs.flatten.length := by
      conv => rhs; rw [← List.take_append_drop k rs, List.flatten_append, List.length_append]
      omega
    refine ⟨(rs.length + 1) * 2 + (rs.take k).flatten.length, 0xCC#8, 0#8, u, (rs.drop (k + 1)).flatten, ?_, by decide, ?_⟩
    · rw [List.getElem?_map, jumpTable_get _ _ _ _ hk', Option.map_some, BitVec.toNat_ofNat, Nat.mod_eq_of_lt (by omega)]
      simp only [Nat.zero_add]
    · have hsplit : rs.flatten = (rs.take k).flatten ++ (rs[k] ++ (rs.drop (k + 1)).flatten) := by
        conv => lhs; rw [← List.take_append_drop k rs, List.flatten_append, List.drop_eq_getElem_cons hk', List.flatten_cons]
      unfold multiPayload
      rw [hsplit, ← List.append_assoc, List.drop_left', he]
      · simp
      · simp only [List.length_append, flatten_put_length, htab, putBV_length]
        omega

/-- A connected reply. -/
def UnitReply (f : Bytes) (conn : BitVec 32) (seq : BitVec 16) (s status : Byte) (p : Bytes) : Prop :=
  ∃ h, f = frameOf h 0x70#16 (serializeItems [(Item.new 0xA1#16).write (putBV conn),
    (Item.new 0xB1#16).write (putBV seq ++ resultHdr s status ++ p)])

theorem unitReply_payload {f : Bytes} {conn : BitVec 32} {seq : BitVec 16} {s status : Byte} {p : Bytes}
    (h : UnitReply f conn seq s status p) : (replyOf f).payload = [0, 0, 0, 0, 0, 0] ++
      (cpf [(0xA1#16, le 4 conn.toNat), (0xB1#16, le 2 seq.toNat ++ ([s ||| 0x80#8, 0#8, status, 0#8] ++ p))] ++ []) ∧
      f.length = 50 + p.length := by
  obtain ⟨h, rfl⟩ := h
  refine ⟨?_, ?_⟩
  · simp only [replyOf, frameOf_drop, unit_payload]
    simp [putBV, resultHdr]
  · rw [unit_payload]
    simp [frameOf, encode_length, cpf, item, resultHdr]
    omega

/-- A packet of requests each of which succeeds is answered with their replies. -/
theorem packet_exchanged {s : Settings} {k : Conn} {ep : Nat} {y : Sys} {tags tags' : Store} {bs : List Bytes} {es : List EReq}
    {rs : List Bytes} (C : Conv) (seq : BitVec 16) (hq : Quiet y) (hsv : Serves y.server.srv s.ot k ep tags)
    (hl : (multiBytes seq bs).length ≤ 32768) (h1 : es.map EReq.bytes = bs) (h2 : ∀ e ∈ es, e.wf) (h3 : Served C tags es rs tags')
    (hrs : 2 + 2 * rs.length + rs.flatten.length ≤ 65502) :
    ∃ hd y', exchange C y (connectedFrame s (multiBytes seq bs)) = (.ok (hd, [0, 0, 0, 0, 0, 0] ++ (cpf [(0xA1#16, le 4 k.to.toNat),
        (0xB1#16, le 2 seq.toNat ++ ([0x0A#8 ||| 0x80#8, 0#8, 0#8, 0#8] ++ multiPayload rs))] ++ [])), y') ∧
      hd.status = 0#32 ∧ Quiet y' ∧ y'.server.srv.conns = y.server.srv.conns ∧
      y'.server.srv.router = y.server.srv.router ∧ Serves y'.server.srv s.ot k ep tags' := by
  have hpk := C24_packet seq bs (by omega)
  have hbytes : multiBytes seq bs = le 2 seq.toNat ++ ([0x0A#8, 2#8, 0x20#8, 2#8, 0x24#8, 1#8] ++ (multiBytes seq bs).drop 8) := by
    conv => lhs; rw [← List.take_append_drop 8 (multiBytes seq bs)]
    rw [hpk.1]
    simp [putBV]
  have hel : es.length = bs.length := by
    have := congrArg List.length h1
    simpa using this
  have ha' := frame_asks y.server s (multiBytes seq bs) (by omega)
  have hdl : 2 + 2 * es.length ≤ ((multiBytes seq bs).drop 8).length := by
    simp only [multiBytes, List.length_drop, List.length_append, flatten_put_length, jumpTable_length, putBV_length,
      List.length_map, List.length_cons, List.length_nil]
    omega
  have hpk2 : Packet ((multiBytes seq bs).drop 8) (es.map EReq.bytes) := by
    rw [h1]
    exact hpk.2
  generalize hB : (multiBytes seq bs).drop 8 = B at *
  rw [hbytes] at ha'
  have hin := unit_inp (C := C) (svc := 0x0A#8) (d := [2#8, 0x20#8, 2#8, 0x24#8, 1#8] ++ B) ha'
  have hco := keeps_unit (svc := 0x0A#8) (d := [2#8, 0x20#8, 2#8, 0x24#8, 1#8] ++ B) conns_stable (fun _ _ => rfl) C ha'
  have hro := keeps_unit (svc := 0x0A#8) (d := [2#8, 0x20#8, 2#8, 0x24#8, 1#8] ++ B) router_stable (fun _ _ => rfl) C ha'
  have hBl : B.length ≤ 32768 := by rw [← hB, List.length_drop]; omega
  obtain ⟨st', e1, e2, e3⟩ := multi_answered C _ _ _ seq B [] k ep tags tags' es rs ha' hpk2 hdl hBl h2 hsv h3
  rw [e1] at hin hco hro
  have hu : UnitReply (frameOf (handling { y.server with inp := [] ++ connectedFrame s (le 2 seq.toNat ++
      ([0x0A#8, 2#8, 0x20#8, 2#8, 0x24#8, 1#8] ++ B)) } (asking s (le 2 seq.toNat ++
      ([0x0A#8, 2#8, 0x20#8, 2#8, 0x24#8, 1#8] ++ B))) seq []).h 0x70#16 (serializeItems
        [(Item.new 0xA1#16).write (putBV k.to), (Item.new 0xB1#16).write (putBV seq ++ resultHdr 0x0A#8 0#8 ++ multiPayload rs)]))
      k.to seq 0x0A#8 0#8 (multiPayload rs) := ⟨_, rfl⟩
  obtain ⟨hpay, hfl⟩ := unitReply_payload hu
  have hbl : (multiPayload rs).length = 2 + 2 * rs.length + rs.flatten.length := by
    simp only [multiPayload, List.length_append, flatten_put_length, jumpTable_length, putBV_length]
  obtain ⟨hd, g1, g2, -⟩ := exchange_ok hq e1 e2 (by rw [hfl, hbl]; omega)
  refine ⟨hd, ⟨st', [], true⟩, ?_, by rw [g2, frame_status], ⟨rfl, rfl, hin⟩, hco, hro, e3⟩
  rw [hbytes, g1, hpay]

/-- A request for several tags is answered with what the memory has. -/
theorem several_served {s : Settings} {k : Conn} {ep : Nat} {y : Sys} {tags : Store} {m : Memory} {asks : List Ask}
    {ts : List MTag} {vs : List RV} (C : Conv) (seq : BitVec 16) (hq : Quiet y) (hsv : Serves y.server.srv s.ot k ep tags)
    (hh : Holds tags m) (hlen : ts.length = asks.length) (hvl : vs.length = asks.length)
    (ha : ∀ (i : Nat) a t, asks[i]? = some a → ts[i]? = some t → AsksFor a t)
    (h : ∀ (i : Nat) a v, asks[i]? = some a → vs[i]? = some v → Sees m a v)
    (hl : (readListBytes seq ts).length ≤ 32768) (hl' : (asks.map fun a => 10 + goSize a.T * a.n).sum ≤ 65500) :
    ∃ y' tags', perform C s y (.several seq ts) = (.ok (.several vs), y') ∧ Quiet y' ∧
      y'.server.srv.conns = y.server.srv.conns ∧ y'.server.srv.router = y.server.srv.router ∧
      Serves y'.server.srv s.ot k ep tags' ∧ Holds tags' m := by
  obtain ⟨es, xs, rs, h1, h2, h3, rfl, rfl, h6, h7, h8, h9⟩ := all_shown C hh asks ts vs hlen hvl ha h
  obtain ⟨hd, y', g1, g2, g3, g4, g5, g6⟩ := packet_exchanged C seq hq hsv hl h1 h2 h3 (by omega)
  refine ⟨y', tags, ?_, g3, g4, g5, g6, hh⟩
  simp only [perform, readListBytes]
  rw [g1]
  simp only [Res.bind_ok]
  rw [g2, packet_read k.to seq xs rs h7 (by omega) h8 h6, Res.bind_ok]

/-- What a write does to the store of the server. -/
theorem stored {tags : Store} {m m' : Memory} {tag : List Part} {v : Scal} (C : Conv) (hh : Holds tags m)
    (hf : ∀ s, v = .str s → s.length ≤ 82) (hd : Stores m tag v m') :
    ∃ tags', tagWrite C tags (render tag) (written [v]) = (.ok (), tags') ∧ Holds tags' m' := by
  cases hd with
  | whole hpl h =>
    cases hpl with
    | whole hw =>
      have htw : tagWrite C tags (render tag) (written [v]) =
          (.ok (), tags.set (toLower (render tag)) (Cell.kept (.one v))) := by
        unfold tagWrite
        rw [parse_whole hw]
        simp only [written]
        split <;> simp_all [Cell.kept]
      exact ⟨_, htw, holds_set hh h hf⟩
  | element hpl hm hi hT h =>
    cases hpl with
    | element hr hi63 =>
      obtain ⟨g1, g2⟩ := hh _ _ hm
      have htw := write_element (C := C) (v := v) hi63 g1 hi hT
      rw [← hr] at htw
      refine ⟨_, htw, holds_set hh h ?_⟩
      intro w hw
      rcases List.mem_or_eq_of_mem_set hw with hw | rfl
      · exact g2 w hw
      · exact ⟨hT, hf⟩

theorem all_stored (C : Conv) : ∀ (ws : List (List Part × Scal)) (es : List (Ioi × WVal)) (tags : Store) (m m' : Memory),
    Holds tags m → es.length = ws.length → (∀ (i : Nat) w e, ws[i]? = some w → es[i]? = some e → PutsFor w e) → StoresAll m ws m' →
    ∃ (bs : List Bytes) (qs : List EReq) (rs : List Bytes) (tags' : Store), writeMapEntries es = .ok bs ∧ qs.map EReq.bytes = bs ∧
      (∀ e ∈ qs, e.wf) ∧ Served C tags qs rs tags' ∧ Holds tags' m' ∧ bs.length = es.length ∧ rs.length = es.length ∧
      rs.flatten.length = 4 * es.length ∧
      bs.flatten.length + 2 * bs.length ≤ (es.map fun e => 16 + e.1.buffer.length).sum
  | [], [], tags, m, m', hh, _, _, hs => by
    cases hs
    exact ⟨[], [], [], tags, rfl, rfl, by simp, .nil _, hh, rfl, rfl, rfl, by simp⟩
  | w :: ws, e :: es, tags, m, m', hh, hl, hp, hs => by
    cases hs with
    | @cons _ m1 _ tag v _ h hs =>
      obtain ⟨dt, T, hcp, he, hT, hstr⟩ := hp 0 _ e rfl rfl
      simp only at hcp he hT
      obtain ⟨tags1, htw, hh1⟩ := stored C hh (by rintro x rfl; cases hT; exact absurd rfl hstr) h
      obtain ⟨bs, qs, rs, tags', i1, i2, i3, i4, i5, i6, i7, i8, i9⟩ := all_stored C ws es tags1 m1 m' hh1 (by simpa using hl)
        (fun i w e h h' => hp (i + 1) w e (by simpa using h) (by simpa using h')) hs
      obtain ⟨io, wv⟩ := e
      simp only at he hcp
      subst he
      obtain ⟨hp', hrn⟩ := clientPath_of hcp
      have hf : writeFooter (cipOfGo T) 1#16 = typeField T ++ le 2 1 := by cases T <;> decide
      have henc : v.encode.length ≤ 8 := by
        rw [(C13_value_roundtrip v T hT hstr []).2.2]
        revert hstr
        cases T <;> decide
      have htl : (typeField T).length = 2 := by rw [typeField_cip hstr]; rfl
      refine ⟨([0x4D#8, BitVec.ofNat 8 (io.buffer.length / 2)] ++ io.buffer ++ (typeField T ++ le 2 1) ++ v.encode) :: bs,
        .write (BitVec.ofNat 8 (io.buffer.length / 2)) (lowerPath tag) io.buffer T [v] :: qs, [0xCD#8, 0#8, 0#8, 0#8] :: rs, tags',
        ?_, ?_, ?_, ?_, i5, by simp [i6], by simp [i7], ?_, ?_⟩
      · simp only [writeMapEntries, writeMapEntry, WVal.serialize, WVal.cipType, hT, hf, Res.bind_ok, i1]
      · simp [EReq.bytes, i2]
      · intro q hq
        rcases List.mem_cons.mp hq with rfl | hq
        · exact ⟨hp', hstr, by simp, by simp, by simpa using hT⟩
        · exact i3 q hq
      · exact .write _ _ _ _ _ (by rw [hrn, tagWrite_same (t := render tag) _ (toLower_idem _), htw]) i4
      · simp [i8]; omega
      · simp only [List.flatten_cons, List.length_append, List.length_cons, List.map_cons, List.sum_cons, List.length_nil, le_length]
        omega

/-- The values of `WriteMap` are all written. -/
theorem map_served {s : Settings} {k : Conn} {ep : Nat} {y : Sys} {tags : Store} {m m' : Memory} {ws : List (List Part × Scal)}
    {es : List (Ioi × WVal)} (C : Conv) (seq : BitVec 16) (hq : Quiet y) (hsv : Serves y.server.srv s.ot k ep tags)
    (hh : Holds tags m) (hn : es.length = ws.length) (hp : ∀ (i : Nat) w e, ws[i]? = some w → es[i]? = some e → PutsFor w e)
    (hs : StoresAll m ws m') (hl : (es.map fun e => 16 + e.1.buffer.length).sum ≤ 32000) :
    ∃ y' tags', perform C s y (.map seq es) = (.ok .done, y') ∧ Quiet y' ∧
      y'.server.srv.conns = y.server.srv.conns ∧ y'.server.srv.router = y.server.srv.router ∧
      Serves y'.server.srv s.ot k ep tags' ∧ Holds tags' m' := by
  obtain ⟨bs, qs, rs, tags', i1, i2, i3, i4, i5, i6, i7, i8, i9⟩ := all_stored C ws es tags m m' hh hn hp hs
  have hbl : (multiBytes seq bs).length ≤ 32768 := by
    simp only [multiBytes, List.length_append, flatten_put_length, jumpTable_length, putBV_length,
      List.length_cons, List.length_nil]
    omega
  have hcnt : 16 * es.length ≤ (es.map fun e => 16 + e.1.buffer.length).sum := by
    clear * -
    induction es with
    | nil => simp
    | cons e es ih => simp only [List.length_cons, List.map_cons, List.sum_cons]; omega
  obtain ⟨hd, y', g1, g2, g3, g4, g5, g6⟩ := packet_exchanged C seq hq hsv hbl i2 i3 i4 (by omega)
  refine ⟨y', tags', ?_, g3, g4, g5, g6, i5⟩
  simp only [perform, writeMapBytes, i1, Res.bind_ok]
  rw [g1]
  rfl

/-- What a call does: its outcome is that of the operation, and afterwards the tags hold what the memory then holds.
Of the server nothing but the tags changes. -/
theorem call_does {s : Settings} {k : Conn} {ep : Nat} {y : Sys} {tags : Store} {m m' : Memory} {op : Op} {c : Call} {o : Outcome}
    (C : Conv) (hq : Quiet y) (hsv : Serves y.server.srv s.ot k ep tags) (hh : Holds tags m) (hmk : Makes op c)
    (hd : Does m op o m') :
    ∃ y' tags', perform C s y c = (.ok o, y') ∧ Quiet y' ∧ y'.server.srv.conns = y.server.srv.conns ∧
      y'.server.srv.router = y.server.srv.router ∧ Serves y'.server.srv s.ot k ep tags' ∧ Holds tags' m' := by
  cases hmk with
  | @write tag v dt ioi seq T hp hl hv =>
    have hlen : (writeBytes seq ioi (.one v)).length < 65536 := by
      have h1 := encode_small hv
      have h2 := typeField_length T
      rw [write_one_bytes hv.1]
      simp
      omega
    obtain ⟨left, hpv⟩ := parse_one hv
    cases hd with
    | write hst =>
      obtain ⟨tags', htw, hh'⟩ := stored C hh hv.2 hst
      obtain ⟨y', h1, h2, h3, h4, h5⟩ := write_served C seq hq hsv hp hlen (write_one_bytes hv.1 seq ioi) hpv (by simp) htw
      exact ⟨y', _, h1, h2, h3, h4, h5, hh'⟩
  | @read tag T dt ioi seq hp hl =>
    have key : ∀ v, Server.Fits v T → tagRead tags (render tag) 1 = .ok (.scal v) → ∃ y' tags',
        perform C s y (.read seq ioi T) = (.ok (.value v), y') ∧ Quiet y' ∧ y'.server.srv.conns = y.server.srv.conns ∧
        y'.server.srv.router = y.server.srv.router ∧ Serves y'.server.srv s.ot k ep tags' ∧ Holds tags' m := by
      intro v hf hr
      obtain ⟨image, hi1, hi2⟩ := shown_one hf
      have hsm := shown_small hf hi1
      obtain ⟨hd, p, y', h1, h2, h3, h4⟩ := read_served (n := 1) C seq hq hsv hp hl (by decide) (by decide) hr hi1 (by omega)
      refine ⟨y', tags, ?_, h2, by rw [h3], by rw [h3], by rw [h3]; exact hsv, hh⟩
      simp only [perform]
      rw [h1]
      simp only [Res.bind_ok, h4, hi2]
    cases hd with
    | read h =>
      rcases sees_read hh h with ⟨w, e, hf, -, hr⟩ | ⟨ws, e, -, -, -, -⟩
      · cases e
        exact key _ hf hr
      · cases e
  | @writeAll tag T vs dt ioi seq hp hT hb hv h2 hl =>
    have hlen : (writeBytes seq ioi (.many T vs)).length < 65536 := by
      have h1 := encodes_length hT vs hv
      have h2 := typeField_length T
      rw [write_many_bytes hT hb hv]
      simp only [List.length_append, List.length_cons, le_length, List.append_nil, h1]
      omega
    have hpos : 1 ≤ goSize T := by cases T <;> decide
    have hn : vs.length ≤ 65000 := Nat.le_trans (Nat.le_mul_of_pos_left _ hpos) (by omega)
    have hpv := parse_values hT hv (by omega) []
    cases hd with
    | writeAll hpl hm h =>
      cases hpl with
      | whole hw =>
        obtain ⟨g1, g2⟩ := hh _ _ hm
        have hwr : written vs = .slice none (vs.map TVal.scal) := by
          match vs, h2 with
          | _ :: _ :: _, _ => rfl
        have hall : allOfType T (vs.map TVal.scal) := by
          intro v h
          simp at h
          obtain ⟨x, hx, rfl⟩ := h
          exact ⟨x, rfl, hv x hx⟩
        have htw : tagWrite C tags (render tag) (written vs) =
            (.ok (), tags.set (toLower (render tag)) (Cell.kept (.many T vs))) := by
          rw [hwr]
          unfold tagWrite
          rw [parse_whole hw]
          simp only [g1, Cell.kept, convertAll_same C hall]
        obtain ⟨y', e1, e2, e3, e4, e5⟩ := write_served C seq hq hsv hp hlen (write_many_bytes hT hb hv seq ioi) hpv
          (by intro e; rw [e] at h2; simp at h2) htw
        refine ⟨y', _, e1, e2, e3, e4, e5, holds_set hh h ?_⟩
        intro v hvm
        refine ⟨hv v hvm, ?_⟩
        rintro t rfl
        exact absurd (Option.some.inj (hv _ hvm)).symm hT
  | @readMany tag T n dt ioi seq hp hT hb h2 hn hs hl hl' =>
    have key : ∀ vs : List Scal, (∀ v ∈ vs, v.ty = some T) → vs.length = n →
        tagRead tags (render tag) n = .ok (.slice (some T) (vs.map .scal)) → ∃ y' tags',
        perform C s y (.fill seq ioi T n) = (.ok (.values vs), y') ∧ Quiet y' ∧ y'.server.srv.conns = y.server.srv.conns ∧
        y'.server.srv.router = y.server.srv.router ∧ Serves y'.server.srv s.ot k ep tags' ∧ Holds tags' m := by
      intro vs hv hlen hr
      subst hlen
      have hsz := encodes_length hT vs hv
      have htf := typeField_length T
      obtain ⟨hd, p, y', h1, h2', h3, h4⟩ := read_served C seq hq hsv hp hl hn hs hr (.array T vs hv hT hb)
        (by rw [List.length_append, hsz]; omega)
      refine ⟨y', tags, ?_, h2', by rw [h3], by rw [h3], by rw [h3]; exact hsv, hh⟩
      simp only [perform]
      rw [h1]
      simp only [Res.bind_ok, h4, fills ioi hT hv h2 hl']
    cases hd with
    | readMany h =>
      rcases sees_read hh h with ⟨w, e, -, -, -⟩ | ⟨ws, e, hf, hln, -, hr⟩
      · cases e
      · cases e
        exact key _ (fun v hv => (hf v hv).1) hln hr
  | @readBits tag n dt ioi seq hp h1 hn hs hl =>
    have key : ∀ (ws : List (BitVec 32)) (bs : List Bool) (v : TVal) image, ws.length = n → BitsOf ws bs →
        tagRead tags (render tag) n = .ok v → Shown v image →
        image = typeField .u32 ++ ((ws.map Scal.u32).map Scal.encode).flatten → ∃ y' tags',
        perform C s y (.bits seq ioi (32 * n)) = (.ok (.values (bs.map .bool)), y') ∧ Quiet y' ∧
        y'.server.srv.conns = y.server.srv.conns ∧ y'.server.srv.router = y.server.srv.router ∧
        Serves y'.server.srv s.ot k ep tags' ∧ Holds tags' m := by
      intro ws bs v image hlen hb hr hsh him
      subst hlen
      have hsz := encodes_length (T := .u32) (by decide) (ws.map Scal.u32) (by simp [Scal.ty])
      have htf := typeField_length .u32
      obtain ⟨hd, p, y', h1', h2', h3, h4⟩ := read_served C seq hq hsv hp hl (by omega) hs hr hsh
        (by rw [him, List.length_append, hsz]; simp only [goSize, List.length_map]; omega)
      refine ⟨y', tags, ?_, h2', by rw [h3], by rw [h3], by rw [h3]; exact hsv, hh⟩
      simp only [perform]
      rw [if_neg (by omega), show 32 * ws.length / 32 = ws.length by omega, h1']
      simp only [Res.bind_ok, h4, him, fills_bits ioi h1 hn hb]
    cases hd with
    | @readBits _ _ _ bs h hln hb =>
      cases h with
      | one h =>
        rcases sees_read hh h with ⟨w, e, hf, -, hr⟩ | ⟨ws, e, -, -, -, -⟩
        · cases e
          subst hln
          exact key _ bs _ _ rfl hb hr (.scalar _ .u32 hf.1 (by decide)) (by simp)
        · cases e
      | many h =>
        rcases sees_read hh h with ⟨w, e, -, -, -⟩ | ⟨vs, e, hf, -, -, hr⟩
        · cases e
        · cases e
          subst hln
          exact key _ bs _ _ rfl hb hr (.array .u32 _ (fun v hv => (hf v hv).1) (by decide) (by decide)) rfl
  | @readSeveral asks mtags seq hln ha hl hl' =>
    cases hd with
    | readSeveral hvl h => exact several_served C seq hq hsv hh hln hvl ha h hl hl'
  | writeSeveral seq hn hp hl =>
    cases hd with
    | writeSeveral hs => exact map_served C seq hq hsv hh hn hp hs hl

/-- C104: any sequence of writes and reads of tags, of elements of arrays, of arrays and of several of these at once by a
connected client: every call succeeds, and every read returns the values that were last written there, or that were there
from the beginning.  Booleans of an array are read as the bits of words.  Missing: structures, other arrays of booleans and strings
as a whole (`C104_bools_end`, `C104_strings_crash` in Props/SessionArrays), what else the server's owner does
with the tags in between. -/
theorem C104_session_partial (C : Conv) (s : Settings) (k : Conn) (ep : Nat) (ops : List Op) (calls : List Call)
    (os : List Outcome) (y : Sys) (m m' : Memory) (hj : Joined s k ep y m) (hc : calls.length = ops.length)
    (hmk : ∀ (i : Nat) op c, ops[i]? = some op → calls[i]? = some c → Makes op c) (hd : DoesAll m ops os m') :
    ∃ y', performAll C s y calls = (os.map .ok, y') ∧ Joined s k ep y' m' := by
  induction hd generalizing y calls with
  | nil m =>
    cases List.length_eq_zero_iff.mp hc
    exact ⟨y, rfl, hj⟩
  | @cons m m1 m2 op ops o os h _ ih =>
    match calls, hc with
    | c :: calls, hc =>
      obtain ⟨hq, tags, hsv, hh⟩ := hj
      obtain ⟨y1, tags1, e1, q1, -, -, s1, h1⟩ := call_does C hq hsv hh (hmk 0 op c rfl rfl) h
      obtain ⟨y2, e2, j2⟩ := ih calls y1 ⟨q1, tags1, s1, h1⟩ (by simpa using hc) (fun i op c h h' => hmk (i + 1) op c h h')
      refine ⟨y2, ?_, j2⟩
      simp only [performAll, e1, e2, List.map_cons]

/-! ### ReadList -/

theorem sum_take_le (l : List Nat) (i : Nat) : (l.take i).sum ≤ l.sum := by
  conv => rhs; rw [← List.take_append_drop i l, List.sum_append_nat]
  omega

theorem sum_drop_le (l : List Nat) (i : Nat) : (l.drop i).sum ≤ l.sum := by
  conv => rhs; rw [← List.take_append_drop i l, List.sum_append_nat]
  omega

/-- The tags `ts` are asked for by `asks`, and `vs` is there. -/
def Answerable (m : Memory) (asks : List Ask) (ts : List MTag) (vs : List RV) : Prop :=
  ts.length = asks.length ∧ vs.length = asks.length ∧
    (∀ (i : Nat) a t, asks[i]? = some a → ts[i]? = some t → AsksFor a t) ∧
    ∀ (i : Nat) a v, asks[i]? = some a → vs[i]? = some v → Sees m a v

theorem answerable_take {m : Memory} {asks : List Ask} {ts : List MTag} {vs : List RV} (h : Answerable m asks ts vs) (i : Nat) :
    Answerable m (asks.take i) (ts.take i) (vs.take i) := by
  obtain ⟨h1, h2, h3, h4⟩ := h
  refine ⟨by simp [h1], by simp [h2], fun k a t ha ht => ?_, fun k a v ha hv => ?_⟩
  · rw [List.getElem?_take] at ha ht
    by_cases hk : k < i
    · rw [if_pos hk] at ha ht
      exact h3 k a t ha ht
    · rw [if_neg hk] at ha
      cases ha
  · rw [List.getElem?_take] at ha hv
    by_cases hk : k < i
    · rw [if_pos hk] at ha hv
      exact h4 k a v ha hv
    · rw [if_neg hk] at ha
      cases ha

theorem answerable_drop {m : Memory} {asks : List Ask} {ts : List MTag} {vs : List RV} (h : Answerable m asks ts vs) (i : Nat) :
    Answerable m (asks.drop i) (ts.drop i) (vs.drop i) := by
  obtain ⟨h1, h2, h3, h4⟩ := h
  refine ⟨by simp [h1], by simp [h2], fun k a t ha ht => ?_, fun k a v ha hv => ?_⟩
  · rw [List.getElem?_drop] at ha ht
    exact h3 _ a t ha ht
  · rw [List.getElem?_drop] at ha hv
    exact h4 _ a v ha hv

theorem list_over (C : Conv) (s : Settings) (k : Conn) (ep conn : Nat) (seq : Nat → BitVec 16) (m : Memory) :
    ∀ (fuel i : Nat) (y : Sys) (asks : List Ask) (ts : List MTag) (vs : List RV), Joined s k ep y m → Answerable m asks ts vs →
      (∀ t ∈ ts, t.entry.length + 6 ≤ conn) → ts ≠ [] → ts.length ≤ fuel →
      10 + 2 * ts.length + (ts.map fun t => t.entry.length).sum ≤ 32768 →
      (asks.map fun a => 10 + goSize a.T * a.n).sum ≤ 65500 →
      ∃ i' y', listOver C s conn seq fuel i y ts = some (.ok vs, i', y') ∧ Joined s k ep y' m
  | 0, i, y, asks, ts, vs, hj, ha, hfit, hne, hf, hl, hl' => by
    exact absurd (List.eq_nil_of_length_eq_zero (by omega)) hne
  | fuel + 1, i, y, asks, ts, vs, hj, ha, hfit, hne, hf, hl, hl' => by
    unfold listOver
    cases hsp : splitIndex conn 0 0 ts with
    | none =>
      obtain ⟨hq, tags, hsv, hh⟩ := hj
      obtain ⟨h1, h2, h3, h4⟩ := ha
      obtain ⟨y', tags', e1, e2, -, -, e3, e4⟩ := several_served C (seq i) hq hsv hh h1 h2 h3 h4
        (by rw [readListBytes_length, List.length_flatten, List.map_map]; exact hl) hl'
      simp only [perform] at e1
      refine ⟨i + 1, y', ?_, e2, tags', e3, e4⟩
      simp only
      generalize exchange C y (connectedFrame s (readListBytes (seq i) ts)) = R at e1 ⊢
      obtain ⟨r, y1⟩ := R
      obtain ⟨e1a, e1b⟩ := Prod.mk.inj e1
      obtain ⟨a, g1, g2⟩ := Res.bind_eq_ok.mp e1a
      obtain ⟨ws, g3, g4⟩ := Res.bind_eq_ok.mp g2
      cases g4
      rw [g1, Res.bind_ok, g3, e1b]
    | some j =>
      have hpos := splitIndex_pos hfit hsp
      have hlt := (splitIndex_bound hsp).2
      have hn0 : ts.take j ≠ [] := by
        intro h; have := congrArg List.length h; simp at this
        rcases this with h | h
        · omega
        · exact hne h
      have hn1 : ts.drop j ≠ [] := by
        intro h; have := congrArg List.length h; simp at this; omega
      have b1 := sum_take_le (ts.map fun t => t.entry.length) j
      have b2 := sum_drop_le (ts.map fun t => t.entry.length) j
      have b3 := sum_take_le (asks.map fun a => 10 + goSize a.T * a.n) j
      have b4 := sum_drop_le (asks.map fun a => 10 + goSize a.T * a.n) j
      rw [← List.map_take] at b1 b3
      rw [← List.map_drop] at b2 b4
      obtain ⟨i1, y1, e1, j1⟩ := list_over C s k ep conn seq m fuel i y _ _ _ hj (answerable_take ha j)
        (fun t ht => hfit t (List.mem_of_mem_take ht)) hn0 (by simp; omega) (by simp only [List.length_take]; omega) (by omega)
      obtain ⟨i2, y2, e2, j2⟩ := list_over C s k ep conn seq m fuel i1 y1 _ _ _ j1 (answerable_drop ha j)
        (fun t ht => hfit t (List.mem_of_mem_drop ht)) hn1 (by simp; omega) (by simp only [List.length_drop]; omega) (by omega)
      refine ⟨i2, y2, ?_, j2⟩
      simp only [e1, e2, List.take_append_drop]

/-- The path of a tag is not empty. -/
theorem path_length {ps : List Part} {dt : Byte} {ioi : Ioi} (h : ClientPath ps dt ioi) : 2 ≤ ioi.buffer.length := by
  obtain ⟨hw, hpb⟩ := (clientPath_of h).1
  have : ∃ x xs, segsOf (lowerPath ps) = PSeg.name x :: xs := by
    cases hlp : lowerPath ps with
    | nil => exact absurd hlp hw.1
    | cons p qs => exact ⟨p.name, _, rfl⟩
  obtain ⟨x, xs, hx⟩ := this
  rw [hx] at hpb
  generalize ioi.buffer = buf at hpb ⊢
  cases hpb with
  | cons h1 h2 => cases h1; simp

theorem entries_bound : ∀ (asks : List Ask) (ts : List MTag), ts.length = asks.length →
    (∀ (i : Nat) a t, asks[i]? = some a → ts[i]? = some t → AsksFor a t) →
    6 * ts.length ≤ (ts.map fun t => t.entry.length).sum
  | [], [], _, _ => by simp
  | a :: asks, t :: ts, hl, h => by
    have ih := entries_bound asks ts (by simpa using hl) (fun i a t h1 h2 => h (i + 1) a t (by simpa using h1) (by simpa using h2))
    have h1 := path_length (h 0 a t rfl rfl).1
    have h2 := entry_length t
    simp only [List.map_cons, List.sum_cons, List.length_cons]
    omega

/-- What the values of `ReadList` take in a reply, from what the code counts. -/
theorem reply_bound : ∀ (asks : List Ask) (ts : List MTag), ts.length = asks.length →
    (∀ (i : Nat) a t, asks[i]? = some a → ts[i]? = some t → AsksFor a t) →
    (asks.map fun a => 10 + goSize a.T * a.n).sum ≤ 98 * ts.length + dataSize ts
  | [], [], _, _ => by simp
  | a :: asks, t :: ts, hl, h => by
    have ih := reply_bound asks ts (by simpa using hl) (fun i a t h1 h2 => h (i + 1) a t (by simpa using h1) (by simpa using h2))
    obtain ⟨-, hcip, -, hel, -, -, hn1⟩ := h 0 a t rfl rfl
    have hsz : goSize a.T * a.n ≤ 88 + cipSize t.typ * t.elements := by
      rw [hcip, hel]
      by_cases hs : a.T = .str
      · rw [hs, hn1 (.inl hs)]
        simp [goSize]
      · have : cipSize (cipOfGo a.T) = goSize a.T := by
          revert hs
          cases a.T <;> decide
        rw [this]
        omega
    simp only [List.map_cons, List.sum_cons, List.length_cons, dataSize] at ih ⊢
    omega

/-- C104, `ReadList`: however many tags a client asks for, in whatever requests they are sent, it gets what is there under each,
in their order.  The connection has the size the client asks for by default or less, a request for each tag and its reply fit
a message. -/
theorem C104_list_partial (C : Conv) (s : Settings) (k : Conn) (ep conn : Nat) (hconn : conn ≤ 4002) (seq : Nat → BitVec 16)
    (m : Memory) : ∀ (fuel i : Nat) (y : Sys) (asks : List Ask) (ts : List MTag) (vs : List RV), Joined s k ep y m →
      Answerable m asks ts vs → (∀ t ∈ ts, t.entry.length + 6 ≤ conn) → (∀ a ∈ asks, goSize a.T * a.n ≤ 65000) →
      ts.length + 1 ≤ fuel →
      ∃ i' y', batchesOver C s conn seq fuel i y ts = some (.ok vs, i', y') ∧ Joined s k ep y' m
  | 0, i, y, asks, ts, vs, hj, ha, hfit, hsz, hf => by omega
  | fuel + 1, i, y, asks, ts, vs, hj, ha, hfit, hsz, hf => by
    unfold batchesOver
    by_cases hne : ts = []
    · subst hne
      obtain ⟨h1, h2, -, -⟩ := ha
      have : vs = [] := List.eq_nil_of_length_eq_zero (by rw [h2, ← h1]; rfl)
      subst this
      exact ⟨i, y, by rw [if_pos rfl], hj⟩
    · rw [if_neg hne]
      obtain ⟨hb1, hb2⟩ := countFit_bounds conn ts hne
      have hsize := countFit_size conn ts hne
      generalize countFit conn ts = n at hb1 hb2 hsize
      have hta := answerable_take ha n
      have hn0 : ts.take n ≠ [] := by
        intro h; have := congrArg List.length h; simp at this
        rcases this with h | h
        · omega
        · exact hne h
      have hlen : (ts.take n).length = n := by simp; omega
      have hrb := reply_bound _ _ hta.1 hta.2.2.1
      rw [hlen] at hrb
      have hfl : ((ts.take n).map fun t => t.entry.length).sum = (((ts.take n).map MTag.entry).flatten).length := by
        rw [List.length_flatten, List.map_map]
        rfl
      have hb : 10 + 2 * (ts.take n).length + ((ts.take n).map fun t => t.entry.length).sum ≤ 32768 ∧
          ((asks.take n).map fun a => 10 + goSize a.T * a.n).sum ≤ 65500 := by
        rcases hsize with h1 | ⟨h1, h2⟩
        · subst h1
          obtain ⟨t, ts', rfl⟩ := List.exists_cons_of_ne_nil hne
          match asks, ha.1 with
          | a :: asks', _ =>
            have := hfit t (by simp)
            have := hsz a (by simp)
            simp
            omega
        · have hn6 : 6 * n ≤ ((ts.take n).map fun t => t.entry.length).sum := by
            have := entries_bound _ _ hta.1 hta.2.2.1
            rwa [hlen] at this
          rw [← hfl] at h1
          rw [hlen]
          exact ⟨by omega, by omega⟩
      obtain ⟨i1, y1, e1, j1⟩ := list_over C s k ep conn seq m fuel i y _ _ _ hj hta
        (fun t ht => hfit t (List.mem_of_mem_take ht)) hn0 (by omega) hb.1 hb.2
      obtain ⟨i2, y2, e2, j2⟩ := C104_list_partial C s k ep conn hconn seq m fuel i1 y1 _ _ _ j1 (answerable_drop ha n)
        (fun t ht => hfit t (List.mem_of_mem_drop ht)) (fun a h => hsz a (List.mem_of_mem_drop h)) (by simp; omega)
      refine ⟨i2, y2, ?_, j2⟩
      simp only [e1, e2, List.take_append_drop]

/-! ### Several clients -/

/-- The clients in `who` are connected to the tags of the server's endpoint `ep`, each by its connection in `ks`, and the tags
hold what the memory says. -/
def World.Joined (who : Nat → Prop) (ks : Nat → Conn) (ep : Nat) (w : World) (m : Memory) : Prop :=
  ∃ tags : Store, Holds tags m ∧ (∃ keys, w.srv.eps ep = .tags tags keys) ∧ ∀ i, who i → Quiet (w.clients i).2 ∧ Serves w.srv (w.clients i).1.ot (ks i) ep tags

/-- C106: any number of clients, whose calls come in any order: all share one memory. -/
theorem C106_clients_partial (C : Conv) (who : Nat → Prop) (ks : Nat → Conn) (ep : Nat) (ops : List Op)
    (calls : List (Nat × Call)) (os : List Outcome) (w : World) (m m' : Memory) (hj : w.Joined who ks ep m)
    (hc : calls.length = ops.length) (hw : ∀ c ∈ calls, who c.1)
    (hmk : ∀ (i : Nat) op c, ops[i]? = some op → calls[i]? = some c → Makes op c.2) (hd : DoesAll m ops os m') :
    ∃ w', w.performAll C calls = (os.map .ok, w') ∧ w'.Joined who ks ep m' := by
  induction hd generalizing w calls with
  | nil m =>
    cases List.length_eq_zero_iff.mp hc
    exact ⟨w, rfl, hj⟩
  | @cons m m1 m2 op ops o os h _ ih =>
    match calls, hc with
    | (i, c) :: calls, hc =>
      obtain ⟨tags, hh, -, hall⟩ := hj
      obtain ⟨hq, hsv⟩ := hall i (hw (i, c) (by simp))
      obtain ⟨y1, tags1, e1, q1, c1, r1, s1, h1⟩ := call_does C
        (y := { (w.clients i).2 with server := { (w.clients i).2.server with srv := w.srv } }) hq hsv hh (hmk 0 op (i, c) rfl rfl) h
      have e0 : w.perform C i c = (.ok o, ⟨y1.server.srv, fun j => if j = i then ((w.clients i).1, y1) else w.clients j⟩) := by
        unfold World.perform
        simp only [e1]
      obtain ⟨w2, e2, j2⟩ := ih calls ⟨y1.server.srv, fun j => if j = i then ((w.clients i).1, y1) else w.clients j⟩
        ⟨tags1, h1, s1.2.2, fun j hjw => by
          obtain ⟨hqj, g1, g2, -⟩ := hall j hjw
          have g3 := s1.2.2
          simp only
          by_cases hji : j = i
          · subst hji
            rw [if_pos rfl]
            exact ⟨q1, s1⟩
          · rw [if_neg hji]
            refine ⟨hqj, ?_, ?_, g3⟩
            · rw [c1]; exact g1
            · rw [r1]; exact g2⟩
        (by simpa using hc) (fun c h => hw c (by simp [h])) (fun i op c h h' => hmk (i + 1) op c h h')
      refine ⟨w2, ?_, j2⟩
      simp only [World.performAll, e0, e2, List.map_cons]

/-! ### Connecting -/

/-- The server's answer to the request for a session. -/
theorem register_exchange (C : Conv) (y : Sys) (c : Cfg) (hq : Quiet y) :
    ∃ hd p y1, exchange C y (registerFrame c) = (.ok (hd, p), y1) ∧ Quiet y1 ∧
      hd.session = y1.server.h.handle ∧ y1.server.srv.conns = y.server.srv.conns ∧
      y1.server.srv.nextRef = y.server.srv.nextRef ∧ y1.server.srv.router = y.server.srv.router ∧
      y1.server.srv.eps = y.server.srv.eps := by
  have hf : ∃ hdr : EipHeader, hdr.command = 0x65#16 ∧ registerFrame c = hdr.encode ++ ([1#8, 0#8, 0#8, 0#8] ++ []) := by
    refine ⟨⟨0x65#16, 4#16, c.session, 0#32, c.context, 0#32⟩, rfl, ?_⟩
    unfold registerFrame
    rw [C01_frame_layout]
    simp [Gologix.Spec.frame, EipHeader.encode, putBV, le]
  obtain ⟨hdr, hc, hb⟩ := hf
  obtain ⟨st, hst⟩ : ∃ st, st = ({ y.server with inp := [] ++ registerFrame c } : St) := ⟨_, rfl⟩
  have hi : st.inp = hdr.encode ++ ([1#8, 0#8, 0#8, 0#8] ++ []) := by rw [hst, ← hb]; rfl
  obtain ⟨f, g1, g2, -, -, -, g6⟩ := C38_register C st hdr [1#8, 0#8, 0#8, 0#8] [] rfl hi hc
  have hrun : (serveStep C st).2.inp = [] ∧ (serveStep C st).2.srv.conns = st.srv.conns ∧
      (serveStep C st).2.srv.nextRef = st.srv.nextRef ∧ (serveStep C st).2.srv.router = st.srv.router ∧
      (serveStep C st).2.srv.eps = st.srv.eps ∧
      ∃ h : Handler, h.handle = (serveStep C st).2.h.handle ∧ (serveStep C st).2.sent = st.sent ++ [frameOf h 0x65#16
        [1#8, 0#8, 0#8, 0#8]] := by
    have hs : serveStep C st = registerSession hdr
        { st with inp := [1#8, 0#8, 0#8, 0#8] ++ [], h := { st.h with context := hdr.context } } := by
      unfold serveStep
      rw [bind_def]
      simp only [recvHeader, hi, readEIPHeader_encode]
      simp only [dispatch, hc]
      rfl
    rw [hs]
    have hr : recv 4 { st with inp := [1#8, 0#8, 0#8, 0#8] ++ [], h := { st.h with context := hdr.context } } =
        (.ok [1#8, 0#8, 0#8, 0#8], { st with inp := [], h := { st.h with context := hdr.context } }) := by
      simp only [recv, readN_exact 4 [1#8, 0#8, 0#8, 0#8] [] rfl]
    unfold registerSession
    rw [bind_ok hr]
    obtain ⟨rnd', hid⟩ := chooseId_eq hdr.session { st with inp := [], h := { st.h with context := hdr.context } }
    rw [bind_ok hid]
    rw [bind_def]
    simp only [M.modify, send]
    exact ⟨trivial, trivial, trivial, trivial, trivial, _, rfl, rfl⟩
  obtain ⟨r1, r2, r3, r4, r5, h, r6, r7⟩ := hrun
  have hlen : (frameOf h 0x65#16 [1#8, 0#8, 0#8, 0#8]).length = 28 := by simp [frameOf, encode_length]
  obtain ⟨r, st', hr⟩ : ∃ r st', serveStep C st = (r, st') := ⟨_, _, rfl⟩
  rw [hr] at r1 r2 r3 r4 r5 r6 r7 g2
  simp only at r1 r2 r3 r4 r5 r6 r7 g2
  subst g2
  subst hst
  obtain ⟨hd, e1, -, e3⟩ := exchange_ok hq hr r7 (by omega)
  refine ⟨hd, _, _, e1, ⟨rfl, rfl, r1⟩, ?_, r2, r3, r4, r5⟩
  have hx : ∀ e : EipHeader, field 4 4 e.encode = le 4 e.session.toNat := by
    intro e; simp [field, EipHeader.encode, putBV, le]
  have h4 : le 4 hd.session.toNat = le 4 h.handle.toNat := by
    rw [← hx hd, ← e3]
    simp [field, frameOf, EipHeader.encode, putBV, le]
  have h5 := congrArg unle h4
  rw [unle_le, unle_le] at h5
  apply BitVec.eq_of_toNat_eq
  have a1 := hd.session.isLt
  have a2 := h.handle.isLt
  rw [← r6]
  omega

/-- The request in an unconnected frame. -/
def askingRR (c : Cfg) (msg : Bytes) : Req where
  cmd := 0x6F#16
  length := BitVec.ofNat 16 (serializeItems [Item.new 0x0#16, (Item.new 0xB2#16).write msg]).length
  session := c.session
  status := 0#32
  context := c.context
  options := 0#32
  pre := [0, 0, 0, 0, 0, 0]
  id0 := 0#16
  data0 := []
  id1 := 0xB2#16
  data1 := msg

/-- What opening a connection does not change. -/
theorem keeps_forwardOpen {γ : Type} {g : St → γ} (hg : ∀ st s, g { st with sent := s } = g st)
    (hh : ∀ st a b, g { st with h := { st.h with «to» := a, ot := b } } = g st)
    (hr : ∀ st r, g { st with srv := { st.srv with rnd := r } } = g st)
    (hc : ∀ st t n, g { st with srv := { st.srv with conns := t, nextRef := n } } = g st)
    (hio : ∀ st io, g { st with srv := { st.srv with io := io } } = g st) (large : Bool) (d : Bytes) :
    Keeps g (forwardOpen large d) := by
  have hch : ∀ k, Keeps g (chooseId k) := by
    intro k st
    obtain ⟨rnd', h⟩ := chooseId_eq k st
    rw [h]
    exact hr st _
  unfold forwardOpen
  refine keeps_bind (keeps_lift _) fun ⟨f, r⟩ => keeps_bind (keeps_lift _) fun ⟨fpath, _⟩ => ?_
  refine keeps_ite keeps_crash (keeps_bind (hch _) fun _ => keeps_bind (hch _) fun _ => ?_)
  refine keeps_bind (fun st => hh st _ _) fun _ => keeps_bind (fun st => hg st _) fun _ => ?_
  refine keeps_bind (fun st => hc st _ _) fun ref => keeps_ite (keeps_startIO hio _ _ _) (keeps_pure _)

/-- The server's answer to the request for a connection. -/
theorem open_exchange (C : Conv) (y : Sys) (large : Bool) (c : Cfg) (hq : Quiet y) (hr : Routable c.path) :
    ∃ hd p y1 k, exchange C y (unconnectedFrame c (newOpen large c).1) = (.ok (hd, p), y1) ∧ Quiet y1 ∧
      forwardOpenReply (.ok ⟨hd.status, p⟩) = .ok k.ot ∧ y1.server.srv.conns = y.server.srv.conns.add k ∧
      (c.seq + 2#32 ≠ 0#32 → k.ot = c.seq + 2#32) ∧ (c.path.length = 2 → k.path = c.path) ∧
      y1.server.srv.router = y.server.srv.router ∧ y1.server.h.handle = y.server.h.handle ∧
      (∀ ep, y1.server.srv.eps ep = y.server.srv.eps ep) ∧ k.id = (newOpen large c).2.serial := by
  obtain ⟨st, hst⟩ : ∃ st, st = ({ y.server with inp := [] ++ unconnectedFrame c (newOpen large c).1 } : St) := ⟨_, rfl⟩
  have hi : st.inp = unconnectedFrame c (newOpen large c).1 ++ [] := by rw [hst]; simp
  obtain ⟨k, f, a1, a2, a3, a4, a5, a6, a7, a8, a9, a10, a11⟩ := C70_connects_partial C st large c [] hr hi
  obtain ⟨o, h1, -⟩ := C70_request_partial large c hr
  have hkeep : ∃ st0 : St, serveStep C st = forwardOpen o.large o.bytes st0 ∧ st0.inp = [] ∧ st0.srv = st.srv ∧
      st0.h.handle = st.h.handle := by
    obtain ⟨r, hrr⟩ : ∃ r, r = askingRR c (newOpen large c).1 := ⟨_, rfl⟩
    have hb : st.inp = r.bytes ++ [] := by
      rw [hi, hrr]
      unfold unconnectedFrame
      rw [C01_frame_layout]
      simp only [List.flatten_cons, List.flatten_nil, List.append_nil, askingRR]
      rw [rr_payload]
      simp [Gologix.Spec.frame, Req.bytes]
      exact (le_mod 2 _).symm
    refine ⟨{ st with inp := [], h := { st.h with context := r.context } }, ?_, rfl, rfl, rfl⟩
    have hid : r.id1 = 0xB2#16 := by rw [hrr]; rfl
    have hdt : r.data1 = (newOpen large c).1 := by rw [hrr]; rfl
    have hwf : r.wf := by rw [hrr]; exact ⟨rfl, by simp [askingRR], open_length large c hr⟩
    rw [serveStep_rr C r hwf [] st hb (by rw [hrr]; rfl)]
    simp only [rrItems, hid]
    rw [if_neg (by simp), if_pos trivial, hdt, h1, unconnectedData_open]
  obtain ⟨st0, k1, k2, k3, k4⟩ := hkeep
  have c1 := keeps_inp_forwardOpen o.large o.bytes st0
  have c2 := keeps_forwardOpen (g := fun st : St => st.srv.router) (fun _ _ => rfl) (fun _ _ _ => rfl)
    (fun _ _ => rfl) (fun _ _ _ => rfl) (fun _ _ => rfl) o.large o.bytes st0
  have c3 := keeps_forwardOpen (g := fun st : St => st.srv.eps) (fun _ _ => rfl) (fun _ _ _ => rfl)
    (fun _ _ => rfl) (fun _ _ _ => rfl) (fun _ _ => rfl) o.large o.bytes st0
  have c4 := keeps_forwardOpen (g := fun st : St => st.h.handle) (fun _ _ => rfl) (fun _ _ _ => rfl)
    (fun _ _ => rfl) (fun _ _ _ => rfl) (fun _ _ => rfl) o.large o.bytes st0
  obtain ⟨r, st', hrun⟩ : ∃ r st', serveStep C st = (r, st') := ⟨_, _, rfl⟩
  rw [← k1, hrun] at c1 c2 c3 c4
  rw [hrun] at a1 a2 a3
  simp only at a1 a2 a3 c1 c2 c3 c4
  subst a1
  obtain ⟨hd, p, b1, b2⟩ := a10 []
  have hsent : st'.sent = st.sent ++ [f] := by
    have hw := (whole_serveStep C st trivial).2
    rw [hrun] at hw
    obtain ⟨new, hn1, -⟩ := hw
    simp only at hn1
    unfold newFrames at a3
    rw [hn1, List.drop_left] at a3
    rw [hn1, a3]
  subst hst
  rw [List.append_nil] at b1
  have := exchange_recv hq hrun hsent b1
  exact ⟨hd, p, _, k, this, ⟨rfl, rfl, by rw [c1, k2]⟩, b2, a2, a6, a9, by rw [c2, k3], by rw [c4, k4],
    fun ep => by rw [c3, k3], a5⟩

theorem open_granted (C : Conv) (y : Sys) (c : Cfg) (hq : Quiet y) (hr : Routable c.path) :
    ∃ hd p y1 k msg c', exchange C y (unconnectedFrame c msg) = (.ok (hd, p), y1) ∧ Quiet y1 ∧
      openConnection c (.ok ⟨hd.status, p⟩) (.ok ⟨hd.status, p⟩) = ([msg], c', .ok ()) ∧ c'.ot = k.ot ∧
      c'.session = c.session ∧ y1.server.srv.conns = y.server.srv.conns.add k ∧
      (c.seq + 2#32 ≠ 0#32 → k.ot = c.seq + 2#32) ∧ (c.path.length = 2 → k.path = c.path) ∧
      y1.server.srv.router = y.server.srv.router ∧ y1.server.h.handle = y.server.h.handle ∧
      (∀ ep, y1.server.srv.eps ep = y.server.srv.eps ep) ∧ c'.serial = k.id ∧ k.id = (c.seq + 1#32).setWidth 16 := by
  obtain ⟨d, hd⟩ : ∃ d, d = (if c.size = 0#16 then { c with size := 4000#16 } else c) := ⟨_, rfl⟩
  have hsame : d.seq = c.seq ∧ d.path = c.path ∧ d.session = c.session ∧ d.context = c.context ∧ d.size ≠ 0#16 := by
    rw [hd]; split
    · exact ⟨rfl, rfl, rfl, rfl, by simp⟩
    · exact ⟨rfl, rfl, rfl, rfl, by assumption⟩
  obtain ⟨s1, s2, s3, s4, s5⟩ := hsame
  have hfr : ∀ msg, unconnectedFrame d msg = unconnectedFrame c msg := by
    intro msg; unfold unconnectedFrame; rw [s3, s4]
  obtain ⟨h, p, y1, k, e1, e2, e3, e4, e5, e6, e7, e8, e9, e10⟩ :=
    open_exchange C y (decide (511 < d.size.toNat)) d hq (by rw [s2]; exact hr)
  rw [s1] at e5
  rw [s2] at e6
  rw [hfr] at e1
  by_cases hb : 511 < d.size.toNat
  · refine ⟨h, p, y1, k, _, { (newForwardOpenLarge d).2 with ot := k.ot }, e1, e2, ?_, rfl, ?_, e4, e5, e6, e7, e8, e9, ?_, ?_⟩
    · unfold openConnection
      simp only [← hd]
      rw [if_pos hb]
      simp only [e3]
      have : (newForwardOpenLarge d).2.size = d.size := by unfold newForwardOpenLarge; simp only [s5, if_false]
      rw [if_neg (by simp), if_neg (by rw [this]; omega)]
      simp [newOpen, hb]
    · rw [← s3]; unfold newForwardOpenLarge; simp only [s5, if_false]
    · rw [e10]; simp [newOpen, hb]
    · rw [e10, ← s1]; simp [newOpen, hb, newForwardOpenLarge, s5]
  · refine ⟨h, p, y1, k, _, { (newForwardOpenStandard d).2 with ot := k.ot }, e1, e2, ?_, rfl, ?_, e4, e5, e6, e7, e8, e9, ?_, ?_⟩
    · unfold openConnection
      simp only [← hd]
      rw [if_neg hb]
      simp only [e3]
      rw [if_neg (by simp), if_pos (by omega)]
      simp [newOpen, hb]
    · rw [← s3]; unfold newForwardOpenStandard; simp only [s5, hb, if_false]
    · rw [e10]; simp [newOpen, hb]
    · rw [e10, ← s1]; simp [newOpen, hb, newForwardOpenStandard, s5]

theorem added_found {t : ConnTable} {k : Conn} (h : ∀ d ∈ t.conns, d.ot ≠ k.ot) : (t.add k).getByOT k.ot = .ok k := by
  unfold ConnTable.getByOT ConnTable.getBy ConnTable.add
  have : (t.conns.find? fun x => x.ot == k.ot) = none := by
    rw [List.find?_eq_none]; intro d hd; simpa using h d hd
  simp only [List.find?_append, this]
  simp

theorem added_keeps {t : ConnTable} {k c : Conn} {ot : BitVec 32} (h : t.getByOT ot = .ok c) :
    (t.add k).getByOT ot = .ok c := by
  unfold ConnTable.getByOT ConnTable.getBy ConnTable.add at *
  simp only [List.find?_append]
  cases hf : t.conns.find? fun x => x.ot == ot with
  | none => rw [hf] at h; simp at h
  | some d => rw [hf] at h; simpa using h

theorem sent_first (c : Cfg) (reg : Res EipHeader) (l t : Res Reply) :
    (connectWith c reg l t).1[0]? = some (registerFrame c) := by
  unfold connectWith
  cases reg <;> rfl

theorem sent_second (c : Cfg) (h : EipHeader) (l t l' t' : Res Reply) :
    (connectWith c (.ok h) l t).1[1]? = (connectWith c (.ok h) l' t').1[1]? := by
  unfold connectWith
  have key : ∀ d : Cfg, ∀ (e : Cfg) (l t : Res Reply),
      ((registerFrame c :: (openConnection d l t).1.map (unconnectedFrame e)))[1]? =
        some (unconnectedFrame e (if 511 < (if d.size = 0#16 then { d with size := 4000#16 } else d).size.toNat then
          (newForwardOpenLarge (if d.size = 0#16 then { d with size := 4000#16 } else d)).1 else
          (newForwardOpenStandard (if d.size = 0#16 then { d with size := 4000#16 } else d)).1)) := by
    intro d e l t
    unfold openConnection
    simp only
    generalize (if d.size = 0#16 then { d with size := 4000#16 } else d) = f
    by_cases hb : 511 < f.size.toNat
    · simp only [hb, if_true]
      cases forwardOpenReply l with
      | ok ot =>
        simp only [Bool.false_eq_true, if_false]
        split
        · cases forwardOpenReply t <;> rfl
        · rfl
      | err e' =>
        simp only [Bool.false_eq_true, if_false]
        split
        · cases forwardOpenReply t <;> rfl
        · rfl
      | panic => rfl
    · have hb' : f.size.toNat ≤ 511 := by omega
      simp only [hb, if_false, hb', if_true, Bool.false_eq_true]
      cases forwardOpenReply t <;> rfl
  exact (key _ _ l t).trans (key _ _ l' t').symm

/-- What comes of connecting. -/
theorem connected (C : Conv) (s : Settings) (ms : BitVec 32) (y : Sys) (route : Bytes) (hq : Quiet y)
    (hl : s.logger = true) (hp : (∀ r, s.path = some r → route = r) ∧ (s.path = none → route = [1#8, 0#8]))
    (hr : Routable route) :
    ∃ y2 k after, connect C s ms y = (.ok (), after, y2) ∧ after.ot = k.ot ∧ after.session = y2.server.h.handle ∧ Quiet y2 ∧
      y2.server.srv.conns = y.server.srv.conns.add k ∧ (s.seq + ms + 2#32 ≠ 0#32 → k.ot = s.seq + ms + 2#32) ∧
      (route.length = 2 → k.path = route) ∧ y2.server.srv.router = y.server.srv.router ∧
      (∀ ep, y2.server.srv.eps ep = y.server.srv.eps ep) ∧ after.serial = k.id ∧ k.id = (s.seq + ms + 1#32).setWidth 16 ∧
      after.path = some route := by
  obtain ⟨f1, -, -, -, -, -, -⟩ := fill_cfg ms s
  have hroute : (fill ms s).cfg.path = route := by
    rw [f1]
    cases h : s.path with
    | none => exact (hp.2 h).symm
    | some r => exact (hp.1 r h).symm
  have hseq : (fill ms s).cfg.seq = s.seq + ms := by rw [fill_eq]; rfl
  obtain ⟨hd, p, y1, a1, a2, a3, a4, a5, a6, a7⟩ := register_exchange C y (fill ms s).cfg hq
  obtain ⟨hd2, p2, y2, k, msg, c', b1, b2, b3, b4, b5, b6, b7, b8, b9, b10, b11, b12, b13⟩ :=
    open_granted C y1 { (fill ms s).cfg with session := hd.session } a2 (by simp only [hroute]; exact hr)
  have hcw : connectWith (fill ms s).cfg (.ok hd) (.ok ⟨hd2.status, p2⟩) (.ok ⟨hd2.status, p2⟩) =
      ([registerFrame (fill ms s).cfg, unconnectedFrame { (fill ms s).cfg with session := hd.session } msg], c', .ok ()) := by
    unfold connectWith
    simp only [b3]
    rfl
  obtain ⟨e1, e2, e3⟩ := connectFrom_eq s ms (.ok hd) (.ok ⟨hd2.status, p2⟩) (.ok ⟨hd2.status, p2⟩) hl
  have g1 := (connectFrom_eq s ms (.err .eof) (.err .eof) (.err .eof) hl).1
  have g2 := (connectFrom_eq s ms (.ok hd) (.err .eof) (.err .eof) hl).1
  have h1 : (connectFrom s ms true (.err .eof) (.err .eof) (.err .eof)).sent[0]? = some (registerFrame (fill ms s).cfg) := by
    rw [g1, sent_first]
  have h2 : (connectFrom s ms true (.ok hd) (.err .eof) (.err .eof)).sent[1]? =
      some (unconnectedFrame { (fill ms s).cfg with session := hd.session } msg) := by
    rw [g2, sent_second _ _ _ _ (.ok ⟨hd2.status, p2⟩) (.ok ⟨hd2.status, p2⟩), hcw]
    rfl
  rw [hcw] at e1 e2 e3
  have h3 : (connectFrom s ms true (.ok hd) (.ok ⟨hd2.status, p2⟩) (.ok ⟨hd2.status, p2⟩)).sent[2]? = none := by
    rw [e1]
    rfl
  refine ⟨y2, k, (connectFrom s ms true (.ok hd) (.ok ⟨hd2.status, p2⟩) (.ok ⟨hd2.status, p2⟩)).after, ?_,
    by rw [e3]; exact b4, ?_, b2, by rw [b6, a4], fun h => b7 (by simp only [hseq]; exact h) |>.trans (by simp only [hseq]),
    fun h => (b8 (by simp only [hroute]; exact h)).trans hroute, by rw [b9, a6], fun ep => by rw [b11, a7],
    by rw [e3]; exact b12, by rw [b13]; simp only [hseq], ?_⟩
  · unfold connect
    simp only [h1, a1, Res.bind_ok, h2, b1, h3, e2]
  · rw [e3]
    show c'.session = _
    rw [b5, b10, a3]
  · rw [e3]
    show (fill ms s).path = some route
    rw [← hroute, f1, fill_eq]

/-- C104, connecting: a client that knows the server's address and whose route the server can take is connected; it uses
the session and the connection the server has entered.  If the route is one the server has tags for, and no other connection
has the identifier the client draws, then the client is joined to these tags.
Missing: routes that are not whole words or too long, identifiers that are in use already (`C106_same_instant`); a server of
this library takes only the first two bytes of a route. -/
theorem C104_connects_partial (C : Conv) (s : Settings) (ms : BitVec 32) (y : Sys) (route : Bytes) (hq : Quiet y)
    (hl : s.logger = true) (hp : (∀ r, s.path = some r → route = r) ∧ (s.path = none → route = [1#8, 0#8]))
    (hr : Routable route) :
    ∃ y2 k after, connect C s ms y = (.ok (), after, y2) ∧ after.ot = k.ot ∧ after.session = y2.server.h.handle ∧ Quiet y2 ∧
      y2.server.srv.conns = y.server.srv.conns.add k ∧
      ∀ ep tags keys (m : Memory), route.length = 2 → y.server.srv.router.resolve route = .ok ep →
        y.server.srv.eps ep = .tags tags keys → s.seq + ms + 2#32 ≠ 0#32 →
        (∀ d ∈ y.server.srv.conns.conns, d.ot ≠ s.seq + ms + 2#32) →
        Holds tags m → Joined after k ep y2 m := by
  obtain ⟨y2, k, after, a1, a2, a3, a4, a5, a6, a7, a8, a9, -⟩ := connected C s ms y route hq hl hp hr
  refine ⟨y2, k, after, a1, a2, a3, a4, a5, ?_⟩
  intro ep tags keys m h1 h2 h3 h4 h5 h6
  refine ⟨a4, tags, ⟨?_, ?_, keys, by rw [a9]; exact h3⟩, h6⟩
  · rw [a2, a5]
    exact added_found (fun d hd => by rw [a6 h4]; exact h5 d hd)
  · rw [a8, a7 h1]
    exact h2

/-- C106: a client that connects to a server with other clients joins them, if it draws an identifier that no connection has. -/
theorem C106_joins_partial (C : Conv) (who : Nat → Prop) (ks : Nat → Conn) (ep : Nat) (w : World) (m : Memory) (i : Nat)
    (ms : BitVec 32) (route : Bytes) (hj : w.Joined who ks ep m) (hq : Quiet (w.clients i).2)
    (hl : (w.clients i).1.logger = true)
    (hp : (∀ r, (w.clients i).1.path = some r → route = r) ∧ ((w.clients i).1.path = none → route = [1#8, 0#8]))
    (hr : Routable route) (h2 : route.length = 2) (hres : w.srv.router.resolve route = .ok ep)
    (h0 : (w.clients i).1.seq + ms + 2#32 ≠ 0#32)
    (hnew : ∀ d ∈ w.srv.conns.conns, d.ot ≠ (w.clients i).1.seq + ms + 2#32) :
    ∃ w' k, w.connect C i ms = (.ok (), w') ∧
      w'.Joined (fun j => who j ∨ j = i) (fun j => if j = i then k else ks j) ep m := by
  obtain ⟨tags, hh, ⟨keys, hk⟩, hall⟩ := hj
  obtain ⟨y2, k, after, a1, a2, a3, a4, a5, a6, a7, a8, a9, -⟩ := connected C (w.clients i).1 ms
    { (w.clients i).2 with server := { (w.clients i).2.server with srv := w.srv } } route hq hl hp hr
  refine ⟨⟨y2.server.srv, fun j => if j = i then (after, y2) else w.clients j⟩, k, ?_, tags, hh, ⟨keys, by rw [a9]; exact hk⟩, ?_⟩
  · unfold World.connect
    simp only [a1]
  · intro j hj
    by_cases hji : j = i
    · subst hji
      simp only [if_pos]
      refine ⟨a4, ?_, ?_, keys, by rw [a9]; exact hk⟩
      · rw [a2, a5]
        exact added_found (fun d hd => by rw [a6 h0]; exact hnew d hd)
      · rw [a8, a7 h2]
        exact hres
    · simp only [if_neg hji]
      obtain ⟨g1, g2, g3, keys', g4⟩ := hall j (hj.resolve_right hji)
      refine ⟨g1, ?_, by rw [a8]; exact g3, keys', by rw [a9]; exact g4⟩
      rw [a5]
      exact added_keeps g2

/-- Disagreement: the identifier a client draws is the time of day in milliseconds, and the server takes it as it is.  Of two
clients that connect in the same millisecond the second is told that it is connected, but is joined to the tags of the
first's route: its own has no effect. -/
theorem C106_same_instant (C : Conv) (s : Settings) (ms : BitVec 32) (y : Sys) (k1 : Conn) (ep1 : Nat) (tags : Store)
    (keys : List Str) (m : Memory) (route : Bytes) (hq : Quiet y) (hl : s.logger = true)
    (hp : (∀ r, s.path = some r → route = r) ∧ (s.path = none → route = [1#8, 0#8])) (hr : Routable route)
    (h0 : s.seq + ms + 2#32 ≠ 0#32) (hfirst : y.server.srv.conns.getByOT (s.seq + ms + 2#32) = .ok k1)
    (hres : y.server.srv.router.resolve k1.path = .ok ep1) (heps : y.server.srv.eps ep1 = .tags tags keys) (hm : Holds tags m) :
    ∃ y2 after, connect C s ms y = (.ok (), after, y2) ∧ Joined after k1 ep1 y2 m := by
  obtain ⟨y2, k, after, a1, a2, a3, a4, a5, a6, a7, a8, a9, -⟩ := connected C s ms y route hq hl hp hr
  refine ⟨y2, after, a1, a4, tags, ⟨?_, by rw [a8]; exact hres, keys, by rw [a9]; exact heps⟩, hm⟩
  rw [a2, a6 h0, a5]
  exact added_keeps hfirst

/-! ### What ends a session -/

theorem unitReply_items {conn : BitVec 32} {d : Bytes} (hd : d.length < 65536) :
    replyItem ([0, 0, 0, 0, 0, 0] ++ (cpf [(0xA1#16, le 4 conn.toNat), (0xB1#16, d)] ++ [])) = .ok d ∧
      item1 (cpf [(0xA1#16, le 4 conn.toNat), (0xB1#16, d)] ++ []) = .ok d := by
  have hi := readItems_cpf [(0xA1#16, le 4 conn.toNat), (0xB1#16, d)] [] (by simp) (by
    intro x hx
    simp only [List.mem_cons, List.not_mem_nil, or_false] at hx
    rcases hx with rfl | rfl
    · simp
    · exact hd)
  refine ⟨?_, ?_⟩
  · unfold replyItem secondOfTwo
    rw [if_neg (by simp), List.drop_left' (by rfl), hi]
    rfl
  · unfold item1
    rw [hi]
    rfl

theorem read_replies (C : Conv) {st : St} {r : Req} {conn : BitVec 32} {seq : BitVec 16} {d rest : Bytes}
    (h : Asks st r conn (le 2 seq.toNat ++ 0x4C#8 :: d) rest) :
    ∀ f ∈ newFrames st (serveStep C st).2, ∃ conn seq s status p, UnitReply f conn seq s status p := by
  have hsend : ∀ s seq conn status p, Tells (fun _ => True) (fun f => ∃ conn seq s status p, UnitReply f conn seq s status p)
      (sendConnected s seq conn status p) := by
    intro s seq conn status p
    exact tells_send (fun _ _ _ => trivial) fun st _ => ⟨conn, seq, s, status, p, st.h, rfl⟩
  have key : Tells (fun _ => True) (fun f => ∃ conn seq s status p, UnitReply f conn seq s status p)
      (unitService C (le 4 conn.toNat) (le 2 seq.toNat ++ 0x4C#8 :: d) conn 0x4C#8 d) := by
    unfold unitService
    rw [if_neg (by decide), if_neg (by decide), if_pos rfl]
    unfold connectedRead
    exact tells_bind (tells_orElse (hsend _ _ _ _ _)) fun _ => tells_bind (tells_orElseAt (hsend _ _ _ _ _)) fun _ =>
      tells_bind (tells_orElse (hsend _ _ _ _ _)) fun _ => tells_bind (tells_orElse (hsend _ _ _ _ _)) fun _ =>
      tells_bind (tells_orElse (hsend _ _ _ _ _)) fun _ => tells_bind (tells_orElse (hsend _ _ _ _ _)) fun _ =>
      tells_bind (tells_orElseAt (hsend _ _ _ _ _)) fun _ => tells_bind (tells_orElseAt (hsend _ _ _ _ _)) fun _ =>
      tells_bind (tells_lift _) fun _ => hsend _ _ _ _ _
  intro f hf
  rw [unit_step h] at hf
  obtain ⟨-, new, h1, h2⟩ := key (handling st r seq rest) trivial
  apply h2
  unfold newFrames at hf
  rw [h1] at hf
  simpa [handling] using hf

theorem map_no_panic (seq : BitVec 16) (es : List (Ioi × WVal)) : writeMapBytes seq es ≠ .panic := by
  have he : writeMapEntries es ≠ .panic := by
    induction es with
    | nil => intro h; cases h
    | cons e es ih =>
      obtain ⟨io, v⟩ := e
      have hs : v.serialize ≠ .panic := by
        cases v with
        | one v => intro h; cases h
        | many T vs => simp only [WVal.serialize]; split <;> (intro h; cases h)
      intro h
      simp only [writeMapEntries, writeMapEntry] at h
      cases hv : v.serialize with
      | panic => exact hs hv
      | err x => rw [hv] at h; cases h
      | ok b =>
        rw [hv] at h
        cases hr : writeMapEntries es with
        | panic => exact ih hr
        | err x => rw [hr] at h; cases h
        | ok bs => rw [hr] at h; cases h
  intro h
  unfold writeMapBytes at h
  cases hr : writeMapEntries es with
  | panic => exact he hr
  | err x => rw [hr] at h; cases h
  | ok bs => rw [hr] at h; cases h

/-- A client whose connection is gone gets an error from every call, and nothing reaches the server. -/
theorem performAll_down (C : Conv) (s : Settings) (y : Sys) (h : y.up = false) (cs : List Call) :
    (performAll C s y cs).2 = y ∧ (performAll C s y cs).1.length = cs.length ∧
      ∀ r ∈ (performAll C s y cs).1, ∃ e, r = .err e := by
  have hx : ∀ f, exchange C y f = (.err .eof, y) := by
    intro f; unfold exchange; rw [h]; rfl
  induction cs with
  | nil => exact ⟨rfl, rfl, fun r hr => by cases hr⟩
  | cons c cs ih =>
    have : ∃ e, perform C s y c = (.err e, y) := by
      cases c with
      | map seq es =>
        simp only [perform, hx]
        cases hb : writeMapBytes seq es with
        | ok b => exact ⟨.eof, rfl⟩
        | err e => exact ⟨e, rfl⟩
        | panic => exact absurd hb (map_no_panic seq es)
      | bits seq ioi n =>
        simp only [perform, hx]
        by_cases h : n % 32 ≠ 0
        · exact ⟨.fail, by rw [if_pos h]⟩
        · exact ⟨.eof, by rw [if_neg h]; rfl⟩
      | _ => exact ⟨.eof, by simp only [perform, hx]; rfl⟩
    obtain ⟨e, he⟩ := this
    obtain ⟨h1, h2, h3⟩ := ih
    simp only [performAll, he]
    refine ⟨h1, by simp [h2], fun r hr => ?_⟩
    rcases List.mem_cons.mp hr with rfl | hr
    · exact ⟨e, rfl⟩
    · exact h3 r hr

/-- A read of a tag the server does not have: the server answers, with an error the client takes for a reply that is too
short, and gives the connection up. -/
theorem missing_exchanged (C : Conv) (s : Settings) (k : Conn) (ep : Nat) (y : Sys) (tags : Store) (tag : List Part)
    (dt : Byte) (ioi : Ioi) (seq : BitVec 16) (hq : Quiet y) (hsv : Serves y.server.srv s.ot k ep tags)
    (hp : ClientPath tag dt ioi) (hw : wholeName (render tag)) (hl : ioi.buffer.length ≤ 65000)
    (hm : tags (toLower (render tag)) = none) :
    ∃ st' hd p, st'.srv = y.server.srv ∧ exchange C y (connectedFrame s (ReadReq.bytes seq ⟨ioi.buffer, 1#16, none⟩)) =
      (.ok (hd, p), ⟨st', [], false⟩) ∧ ∀ T, readT T ioi [⟨hd.status, p⟩] = .err .unexpectedEof := by
  obtain ⟨hp', hrn⟩ := clientPath_of hp
  have hb : (ReadReq.bytes seq ⟨ioi.buffer, 1#16, none⟩).length < 65536 := by
    rw [read_bytes]
    simp
    omega
  have ha := frame_asks y.server s _ hb
  rw [read_bytes] at ha
  have hr : tagRead tags (render (lowerPath tag)) 1 = .err .fail := by
    rw [hrn, tagRead_same (t := render tag) 1 (toLower_idem _)]
    unfold tagRead
    rw [parse_whole hw]
    simp only [hm]
  obtain ⟨⟨f, status, g1, g2, g3, -, g5, -⟩, g6, g7⟩ := C79_read_missing C _ _ _ seq 0x4C#8 _ (.inl rfl) _ _ _ 1 ha hp'
    (by decide) (by decide) k ep tags hsv .fail hr
  obtain ⟨conn, seq', sv, status', p, hu⟩ := read_replies C ha f (by rw [g1]; simp)
  have hpe : p = [] := by
    obtain ⟨h, rfl⟩ := hu
    rw [← g5, (unit_fields h conn seq' sv status' p).2.2.2]
  subst hpe
  obtain ⟨hpay, hlen⟩ := unitReply_payload hu
  have hwh := (whole_serveStep C { y.server with inp := [] ++ connectedFrame s (le 2 seq.toNat ++ 0x4C#8 ::
    BitVec.ofNat 8 (ioi.buffer.length / 2) :: (ioi.buffer ++ le 2 1)) } trivial).2
  obtain ⟨new, hn1, hn2⟩ := hwh
  have hnew : new = [f] := by
    unfold newFrames at g1
    rw [hn1, List.drop_left] at g1
    exact g1
  subst hnew
  obtain ⟨hd, r1, r2, -⟩ := recv_framed f (hn2 f (by simp)) (by rw [hlen]; simp)
  obtain ⟨q1, q2, q3⟩ := hq
  have hex : ∃ st', st'.srv = y.server.srv ∧ exchange C y (connectedFrame s (le 2 seq.toNat ++ 0x4C#8 ::
      BitVec.ofNat 8 (ioi.buffer.length / 2) :: (ioi.buffer ++ le 2 1))) =
      (.ok (hd, (replyOf f).payload), ⟨st', [], false⟩) := by
    refine ⟨_, g6, ?_⟩
    unfold exchange
    rw [q1, q2, q3]
    simp only [Bool.not_true, Bool.false_eq_true, if_false]
    have e1 : (serveStep C ⟨y.server.h, y.server.srv, connectedFrame s (le 2 seq.toNat ++ 0x4C#8 ::
      BitVec.ofNat 8 (ioi.buffer.length / 2) :: (ioi.buffer ++ le 2 1)), y.server.sent⟩).1 = .err .fail := g7
    have e2 : (serveStep C ⟨y.server.h, y.server.srv, connectedFrame s (le 2 seq.toNat ++ 0x4C#8 ::
      BitVec.ofNat 8 (ioi.buffer.length / 2) :: (ioi.buffer ++ le 2 1)), y.server.sent⟩).2.sent = y.server.sent ++ [f] := hn1
    simp only [List.nil_append, e1, e2, List.drop_left, List.flatten_cons, List.flatten_nil, List.append_nil, r1]
  obtain ⟨st', hst, hex⟩ := hex
  refine ⟨st', hd, (replyOf f).payload, hst, by rw [read_bytes]; exact hex, fun T => ?_⟩
  rw [hpay]
  unfold readT readSingle
  simp only [(unitReply_items (conn := conn) (d := le 2 seq'.toNat ++ ([sv ||| 0x80#8, 0#8, status', 0#8] ++ []))
    (by simp)).1, Res.bind_ok]
  rfl

/-- C104 is false for tags the server does not have: one read of such a tag ends the connection.  The error the client
reports is not the status the server sent (no such member), but that the reply is too short; every later call fails as
well. -/
theorem C104_missing_ends (C : Conv) (s : Settings) (k : Conn) (ep : Nat) (y : Sys) (tags : Store) (tag : List Part)
    (T : GoTy) (dt : Byte) (ioi : Ioi) (seq : BitVec 16) (hq : Quiet y) (hsv : Serves y.server.srv s.ot k ep tags)
    (hp : ClientPath tag dt ioi) (hw : wholeName (render tag)) (hl : ioi.buffer.length ≤ 65000)
    (hm : tags (toLower (render tag)) = none) :
    ∃ y', perform C s y (.read seq ioi T) = (.err .unexpectedEof, y') ∧ y'.up = false ∧ y'.server.srv = y.server.srv ∧
      ∀ cs, (performAll C s y' cs).2 = y' ∧ ∀ r ∈ (performAll C s y' cs).1, ∃ e, r = .err e := by
  obtain ⟨st', hdr, p, h1, h2, h3⟩ := missing_exchanged C s k ep y tags tag dt ioi seq hq hsv hp hw hl hm
  refine ⟨⟨st', [], false⟩, ?_, rfl, h1, fun cs => ⟨(performAll_down C s _ rfl cs).1, (performAll_down C s _ rfl cs).2.2⟩⟩
  simp only [perform, h2, Res.bind_ok, h3 T]
  rfl

/-- C104 is false for strings that are written with `WriteMap`: the server does not answer and ends the connection. -/
theorem C104_map_string_ends (C : Conv) (s : Settings) (k : Conn) (ep : Nat) (y : Sys) (tags : Store) (tag : List Part)
    (v : Str) (dt : Byte) (ioi : Ioi) (seq : BitVec 16) (hq : Quiet y) (hsv : Serves y.server.srv s.ot k ep tags)
    (hp : ClientPath tag dt ioi) (hl : ioi.buffer.length ≤ 65000) :
    ∃ y', perform C s y (.map seq [(ioi, .one (.str v))]) = (.err .eof, y') ∧ y'.up = false ∧
      ∀ cs, (performAll C s y' cs).2 = y' ∧ ∀ r ∈ (performAll C s y' cs).1, ∃ e, r = .err e := by
  have hbytes : writeMapBytes seq [(ioi, .one (.str v))] = .ok (le 2 seq.toNat ++ ([0x0A#8, 2#8, 0x20#8, 2#8, 0x24#8, 1#8] ++
      single ([0x4D#8, BitVec.ofNat 8 (ioi.buffer.length / 2)] ++
        (ioi.buffer ++ (typeField .str ++ (le 2 1 ++ (Scal.str v).encode)))))) := by
    have hf : writeFooter tSTRING 1#16 = typeField .str ++ le 2 1 := by decide
    simp only [writeMapBytes, writeMapEntries, writeMapEntry, WVal.serialize, WVal.cipType, Scal.ty, cipOfGo, hf, Res.bind_ok,
      multiBytes, single, jumpTable]
    simp [putBV, le]
  have ha := frame_asks y.server s _ (show (le 2 seq.toNat ++ ([0x0A#8, 2#8, 0x20#8, 2#8, 0x24#8, 1#8] ++
      single ([0x4D#8, BitVec.ofNat 8 (ioi.buffer.length / 2)] ++
        (ioi.buffer ++ (typeField .str ++ (le 2 1 ++ (Scal.str v).encode)))))).length < 65536 by
    simp [single, typeField, Scal.encode, (C15_footprint v).1]
    omega)
  obtain ⟨e, st', h1, h2⟩ := C36_string_write_refused C _ _ _ seq _ _ _ _ [] k ep tags ha (clientPath_of hp).1 hsv
  obtain ⟨q1, q2, q3⟩ := hq
  have hex : exchange C y (connectedFrame s (le 2 seq.toNat ++ ([0x0A#8, 2#8, 0x20#8, 2#8, 0x24#8, 1#8] ++
      single ([0x4D#8, BitVec.ofNat 8 (ioi.buffer.length / 2)] ++
        (ioi.buffer ++ (typeField .str ++ (le 2 1 ++ (Scal.str v).encode))))))) = (.err .eof, ⟨st', [], false⟩) := by
    unfold exchange
    rw [q1, q3]
    simp only [Bool.not_true, Bool.false_eq_true, if_false]
    rw [h1]
    simp only
    rw [q2, h2]
    simp only [List.drop_length, List.flatten_nil, List.append_nil]
    rfl
  refine ⟨⟨st', [], false⟩, ?_, rfl, fun cs => ⟨(performAll_down C s _ rfl cs).1, (performAll_down C s _ rfl cs).2.2⟩⟩
  simp only [perform, hbytes, hex]
  rfl

/-- C104 is false for arrays that are written with `WriteMap`: the call succeeds, but the tag then holds the first value alone. -/
theorem C104_map_array (C : Conv) (s : Settings) (k : Conn) (ep : Nat) (y : Sys) (tags : Store) (tag : List Part) (T : GoTy)
    (v : Scal) (vs : List Scal) (dt : Byte) (ioi : Ioi) (seq : BitVec 16) (hq : Quiet y)
    (hsv : Serves y.server.srv s.ot k ep tags) (hp : ClientPath tag dt ioi) (hw : wholeName (render tag)) (hT : T ≠ .str) (hb : T ≠ .bool)
    (hv : ∀ w ∈ v :: vs, w.ty = some T) (hl : ioi.buffer.length + 8 * vs.length ≤ 32000) :
    ∃ y', perform C s y (.map seq [(ioi, .many T (v :: vs))]) = (.ok .done, y') ∧ Quiet y' ∧
      Serves y'.server.srv s.ot k ep (tags.set (toLower (render tag)) (.scal v)) := by
  have hfl := encodes_length hT (v :: vs) hv
  have hsz : goSize T ≤ 8 := by revert hT; cases T <;> decide
  have hmul : goSize T * (v :: vs).length ≤ 8 * (v :: vs).length := Nat.mul_le_mul_right _ hsz
  have htl : (typeField T).length = 2 := by rw [typeField_cip hT]; rfl
  have hbytes : writeMapBytes seq [(ioi, .many T (v :: vs))] = .ok (le 2 seq.toNat ++ ([0x0A#8, 2#8, 0x20#8, 2#8, 0x24#8, 1#8] ++
      single ((EReq.write (BitVec.ofNat 8 (ioi.buffer.length / 2)) (lowerPath tag) ioi.buffer T [v]).bytes ++
        (vs.map Scal.encode).flatten))) := by
    have hf : writeFooter (cipOfGo T) 1#16 = typeField T ++ le 2 1 := by cases T <;> decide
    simp only [writeMapBytes, writeMapEntries, writeMapEntry, WVal.serialize, WVal.cipType, hT, hb, if_false, hf, Res.bind_ok,
      multiBytes, single, jumpTable, EReq.bytes]
    simp [putBV, le]
  generalize hB : single ((EReq.write (BitVec.ofNat 8 (ioi.buffer.length / 2)) (lowerPath tag) ioi.buffer T [v]).bytes ++
        (vs.map Scal.encode).flatten) = B at hbytes
  have hBl : B.length ≤ 65000 := by
    rw [← hB]
    simp only [List.map_cons, List.flatten_cons, List.length_append, List.length_cons] at hfl hmul
    simp only [single, EReq.bytes, List.length_append, List.length_cons, List.length_nil, le_length, htl, List.map_cons,
      List.flatten_cons, List.map_nil, List.flatten_nil]
    omega
  have ha := frame_asks y.server s (le 2 seq.toNat ++ ([0x0A#8, 2#8, 0x20#8, 2#8, 0x24#8, 1#8] ++ B)) (by simp; omega)
  have hin := unit_inp (C := C) (svc := 0x0A#8) (d := [2#8, 0x20#8, 2#8, 0x24#8, 1#8] ++ B) ha
  obtain ⟨hp', hrn⟩ := clientPath_of hp
  have htw : tagWrite C tags (render (lowerPath tag)) (written [v]) = (.ok (), tags.set (toLower (render tag)) (.scal v)) := by
    rw [hrn, tagWrite_same (t := render tag) _ (toLower_idem _)]
    unfold tagWrite
    rw [parse_whole hw]
    simp only [written]
    split <;> simp_all
  rw [← hB] at ha
  obtain ⟨data, hd, hstep⟩ := single_step (C := C) ha hsv
  obtain ⟨q1, q2, keys, q3⟩ := hsv
  obtain ⟨keys', hone⟩ := multiOne_write (C := C) (st := handling { y.server with inp := [] ++ connectedFrame s (le 2 seq.toNat ++
      ([0x0A#8, 2#8, 0x20#8, 2#8, 0x24#8, 1#8] ++ B)) } (asking s (le 2 seq.toNat ++
      ([0x0A#8, 2#8, 0x20#8, 2#8, 0x24#8, 1#8] ++ B))) seq []) (off := 4#16) (by decide) hd
    ⟨hp', hT, by simp, by simp, by simpa using hv v (by simp)⟩ q3 htw
  rw [← hB] at hone hin
  rw [bind_ok (by rw [bind_ok hone]; rfl)] at hstep
  have hu : ∀ (h : Handler), UnitReply (frameOf h 0x70#16 (serializeItems [(Item.new 0xA1#16).write (putBV k.to),
      (Item.new 0xB1#16).write (putBV seq ++ resultHdr 0x0A#8 0#8 ++ multiPayload [[0xCD#8, 0#8, 0#8, 0#8]])])) k.to seq 0x0A#8 0#8
      (multiPayload [[0xCD#8, 0#8, 0#8, 0#8]]) := fun h => ⟨h, rfl⟩
  obtain ⟨st', f, h1, h2, h3, h4⟩ : ∃ st' f, serveStep C { y.server with inp := [] ++ connectedFrame s (le 2 seq.toNat ++
      ([0x0A#8, 2#8, 0x20#8, 2#8, 0x24#8, 1#8] ++ single ((EReq.write (BitVec.ofNat 8 (ioi.buffer.length / 2)) (lowerPath tag)
        ioi.buffer T [v]).bytes ++ (vs.map Scal.encode).flatten))) } = (.ok (), st') ∧ st'.sent = y.server.sent ++ [f] ∧
      f.length < 65560 ∧ Serves st'.srv s.ot k ep (tags.set (toLower (render tag)) (.scal v)) := by
    refine ⟨_, _, hstep, rfl, ?_, q1, q2, keys', ?_⟩
    · exact (unitReply_payload (hu _)).2 ▸ (by decide)
    · show (if ep = ep then _ else _) = _
      rw [if_pos rfl]
  rw [h1] at hin
  obtain ⟨hd, g1, -, -⟩ := exchange_ok hq h1 h2 h3
  refine ⟨⟨st', [], true⟩, ?_, ⟨rfl, rfl, hin⟩, h4⟩
  · simp only [perform, hbytes]
    rw [← hB, g1]
    rfl

/-- C104 is false for lists of attributes: the server does not have the service, whatever is asked for.  Hence the
keep-alive of a client of this library ends at once. -/
theorem C104_no_attributes (C : Conv) (s : Settings) (y : Sys) (seq cls : BitVec 16) (inst : BitVec 32)
    (attrs : List (BitVec 16)) (hq : Quiet y) (hl : attrs.length ≤ 30000) :
    ∃ hd p y', exchange C y (connectedFrame s (attrListRequest seq cls inst attrs)) = (.ok (hd, p), y') ∧ Quiet y' ∧
      getAttrListReply ⟨hd.status, p⟩ = .err .fail ∧ ∀ poll listed, watchStart poll ⟨hd.status, p⟩ listed = .off 0 := by
  obtain ⟨d, hd, hdl⟩ : ∃ d, attrListRequest seq cls inst attrs = le 2 seq.toNat ++ 0x03#8 :: d ∧ d.length ≤ 65000 := by
    refine ⟨pathLengthOf (serializeSegs [.cls cls, .inst inst]) :: (serializeSegs [.cls cls, .inst inst] ++
      le 2 attrs.length ++ (attrs.map putBV).flatten), by simp [attrListRequest, putBV], ?_⟩
    have h1 : ((attrs.map putBV).flatten).length = 2 * attrs.length := by
      clear hl
      induction attrs with
      | nil => rfl
      | cons a l ih => simp [ih]; omega
    have h2 : (serializeSegs [.cls cls, .inst inst]).length ≤ 20 := by
      simp only [serializeSegs, List.foldl_cons, List.foldl_nil, Seg.bytes, classBytes, instanceBytes, List.nil_append,
        List.length_append]
      split <;> split <;> (try split) <;> simp
    simp only [List.length_cons, List.length_append, le_length, h1]
    omega
  rw [hd]
  have ha := frame_asks y.server s (le 2 seq.toNat ++ 0x03#8 :: d) (by simp; omega)
  have hin := unit_inp (C := C) ha
  have hrun := unit_step (C := C) ha
  obtain ⟨st', hst⟩ : ∃ st', serveStep C { y.server with inp := [] ++ connectedFrame s (le 2 seq.toNat ++ 0x03#8 :: d) } =
      (.ok (), st') ∧ ∃ f, st'.sent = y.server.sent ++ [f] ∧ UnitReply f y.server.h.to seq 0x03#8 0x08#8 [] := by
    rw [hrun]
    exact ⟨_, rfl, _, rfl, _, by simp only [List.append_nil]; rfl⟩
  obtain ⟨hst, f, hf, hu⟩ := hst
  obtain ⟨hpay, hlen⟩ := unitReply_payload hu
  rw [hst] at hin
  obtain ⟨h, e1, -, -⟩ := exchange_ok hq hst hf (by rw [hlen]; simp)
  rw [hpay] at e1
  have hfail : ∀ st, getAttrListReply ⟨st, [0, 0, 0, 0, 0, 0] ++ (cpf [(0xA1#16, le 4 y.server.h.to.toNat),
      (0xB1#16, le 2 seq.toNat ++ ([0x03#8 ||| 0x80#8, 0#8, 0x08#8, 0#8] ++ []))] ++ [])⟩ = .err .fail := by
    intro st
    unfold getAttrListReply
    simp only
    rw [readN_exact 6 _ _ rfl, Res.bind_ok]
    simp only
    rw [(unitReply_items (by simp)).2, Res.bind_ok]
    rfl
  refine ⟨h, _, _, e1, ⟨rfl, rfl, hin⟩, hfail _, fun poll listed => ?_⟩
  unfold watchStart
  rw [hfail]

/-! ### An example -/

/-- A client without settings and the demo server, before they have met. -/
def demoSys : Sys := ⟨demoSt [], [], true⟩

/-- The hypotheses of `C104_connects_partial` hold for them, also those of being joined to the tags of the server. -/
example : Quiet demoSys ∧ bare.logger = true ∧ bare.path = none ∧ Routable [1#8, 0#8] ∧
    demoSys.server.srv.router.resolve [1#8, 0#8] = .ok 0 ∧ bare.seq + 5#32 + 2#32 ≠ 0#32 ∧
    (∀ d ∈ demoSys.server.srv.conns.conns, d.ot ≠ bare.seq + 5#32 + 2#32) := by
  refine ⟨⟨rfl, rfl, rfl⟩, rfl, rfl, by decide, rfl, by decide, by decide⟩

/-- The client after connecting at the time 5, and the server. -/
def demoJoined : Settings × Sys := (connect demoConv bare 5#32 demoSys).2

/-- A session: a new tag and an old one, upper and lower case; then a tag that does not exist. -/
example : (performAll demoConv demoJoined.1 demoJoined.2
    [.read 1#16 (demoIoi "count" tDINT) .i32, .write 2#16 (demoIoi "Count" tDINT) (.one (.i32 7#32)),
     .write 3#16 (demoIoi "new" 0xA0#8) (.one (.str (str "text"))), .read 4#16 (demoIoi "COUNT" tDINT) .i32,
     .read 5#16 (demoIoi "new" 0xA0#8) .str, .read 6#16 (demoIoi "missing" tDINT) .i32,
     .read 7#16 (demoIoi "count" tDINT) .i32]).1 =
    [.ok (.value (.i32 5#32)), .ok .done, .ok .done, .ok (.value (.i32 7#32)), .ok (.value (.str (str "text"))),
     .err .unexpectedEof, .err .eof] := by
  decide +kernel

/-- Arrays: an element, all, some of them; one element of a slice of the elements is read as a value. -/
example : (performAll demoConv demoJoined.1 demoJoined.2
    [.write 1#16 (demoIoi "Arr[1]" tDINT) (.one (.i32 9#32)), .fill 2#16 (demoIoi "arr" tDINT) .i32 3,
     .write 3#16 (demoIoi "arr" tDINT) (.many .i32 [.i32 4#32, .i32 5#32, .i32 6#32, .i32 7#32]),
     .fill 4#16 (demoIoi "arr[2]" tDINT) .i32 2, .read 5#16 (demoIoi "ARR[3]" tDINT) .i32]).1 =
    [.ok .done, .ok (.values [.i32 1#32, .i32 9#32, .i32 3#32]), .ok .done, .ok (.values [.i32 6#32, .i32 7#32]),
     .ok (.value (.i32 7#32))] := by
  decide +kernel

/-- The tags of `ReadList` for `Count` and two elements of `arr`. -/
def demoTags : List MTag := [⟨demoIoi "Count" tDINT, tDINT, 1, .sized 4⟩, ⟨demoIoi "arr" tDINT, tDINT, 2, .sized 4⟩]

/-- Several tags at once. -/
example : (perform demoConv demoJoined.1 demoJoined.2 (.several 1#16 demoTags)).1 =
    .ok (.several [.one (.i32 5#32), .many [.i32 1#32, .i32 2#32]]) := by
  decide +kernel

/-- A packet with a tag that does not exist is not answered. -/
example : (perform demoConv demoJoined.1 demoJoined.2
    (.several 2#16 (demoTags ++ [⟨demoIoi "missing" tDINT, tDINT, 1, .sized 4⟩]))).1 = .err .eof := by
  decide +kernel

/-- `WriteMap`; an array and a string in a map. -/
example : (performAll demoConv demoJoined.1 demoJoined.2
    [.map 1#16 [(demoIoi "Count" tDINT, .one (.i32 6#32)), (demoIoi "Arr[1]" tDINT, .one (.i32 8#32))],
     .several 2#16 demoTags]).1 =
    [.ok .done, .ok (.several [.one (.i32 6#32), .many [.i32 1#32, .i32 8#32]])] := by
  decide +kernel

example : (performAll demoConv demoJoined.1 demoJoined.2
    [.map 1#16 [(demoIoi "arr" tDINT, .many .i32 [.i32 6#32, .i32 8#32])], .read 2#16 (demoIoi "arr" tDINT) .i32]).1 =
    [.ok .done, .ok (.value (.i32 6#32))] := by
  decide +kernel

example : (perform demoConv demoJoined.1 demoJoined.2 (.map 3#16 [(demoIoi "s" tSTRING, .one (.str (str "abc")))])).1 =
    .err .eof := by
  decide +kernel

/-- `ReadList` with a connection of the usual size, and with one too small for both tags. -/
example : (batchesOver demoConv demoJoined.1 4002 (BitVec.ofNat 16) 3 0 demoJoined.2 demoTags).map (fun r => (r.1, r.2.1)) =
    some (.ok [.one (.i32 5#32), .many [.i32 1#32, .i32 2#32]], 1) := by
  decide +kernel

example : (batchesOver demoConv demoJoined.1 22 (BitVec.ofNat 16) 3 0 demoJoined.2 demoTags).map (fun r => (r.1, r.2.1)) =
    some (.ok [.one (.i32 5#32), .many [.i32 1#32, .i32 2#32]], 2) := by
  decide +kernel

/-- The hypotheses of `C104_list_partial` on the tags hold for the first two. -/
example (m : Memory) (hc : m (str "Count") = some (.one (.i32 5#32)))
    (hm : m (str "arr") = some (.many .i32 [.i32 1#32, .i32 2#32, .i32 3#32])) :
    Answerable m [⟨[⟨str "Count", []⟩], .i32, 1⟩, ⟨[⟨str "arr", []⟩], .i32, 2⟩]
      demoTags [.one (.i32 5#32), .many [.i32 1#32, .i32 2#32]] := by
  have h1 : AsksFor ⟨[⟨str "Count", []⟩], .i32, 1⟩ ⟨demoIoi "Count" tDINT, tDINT, 1, .sized 4⟩ :=
    ⟨⟨by decide, demoDb, .inl (by decide), by decide +kernel⟩, rfl, .inr (by decide), rfl, by decide, by decide, by decide⟩
  have h2 : AsksFor ⟨[⟨str "arr", []⟩], .i32, 2⟩ ⟨demoIoi "arr" tDINT, tDINT, 2, .sized 4⟩ :=
    ⟨⟨by decide, demoDb, .inl (by decide), by decide +kernel⟩, rfl, .inr (by decide), rfl, by decide, by decide, by decide⟩
  have s1 : Sees m ⟨[⟨str "Count", []⟩], .i32, 1⟩ (.one (.i32 5#32)) :=
    .one (.whole (by unfold wholeName; decide)) hc rfl
  have s2 : Sees m ⟨[⟨str "arr", []⟩], .i32, 2⟩ (.many [.i32 1#32, .i32 2#32]) :=
    .many (vs := [.i32 1#32, .i32 2#32, .i32 3#32]) (Place.whole (tag := [⟨str "arr", []⟩]) (by unfold wholeName; decide)) hm
      (by decide) (by decide)
  refine ⟨rfl, rfl, fun i a t ha ht => ?_, fun i a v ha hv => ?_⟩
  · match i with
    | 0 => cases ha; cases ht; exact h1
    | 1 => cases ha; cases ht; exact h2
    | i + 2 => cases ha
  · match i with
    | 0 => cases ha; cases hv; exact s1
    | 1 => cases ha; cases hv; exact s2
    | i + 2 => cases ha

/-- Such calls are made for such operations, which a memory with an array can do. -/
example (m : Memory) (hm : m (str "arr") = some (.many .i32 [.i32 1#32, .i32 2#32, .i32 3#32])) :
    Makes (.readMany [⟨str "arr", []⟩] .i32 2) (.fill 4#16 (demoIoi "arr" tDINT) .i32 2) ∧
    Does m (.readMany [⟨str "arr", []⟩] .i32 2) (.values [.i32 1#32, .i32 2#32]) m := by
  refine ⟨.readMany (dt := tDINT) 4#16 ⟨by decide, demoDb, .inl (by decide), by decide +kernel⟩ (by decide) (by decide)
    (by decide) (by decide) (by decide) (by decide +kernel) (by decide), ?_⟩
  have hp : Place [⟨str "arr", []⟩] (str "arr") none := .whole (by unfold wholeName; decide)
  exact .readMany (.many hp hm (by decide) (by decide))

/-- Two clients, the second at another time, and one that comes at the same time as the first. -/
def demoWorld : World :=
  let w : World := ⟨demoSrv, fun _ => (bare, demoSys)⟩
  (((w.connect demoConv 0 5#32).2.connect demoConv 1 6#32).2.connect demoConv 2 5#32).2

/-- What the one writes the other reads. -/
example : (demoWorld.performAll demoConv
    [(0, .write 1#16 (demoIoi "Count" tDINT) (.one (.i32 7#32))), (1, .read 1#16 (demoIoi "count" tDINT) .i32),
     (1, .write 2#16 (demoIoi "arr[0]" tDINT) (.one (.i32 8#32))), (0, .fill 2#16 (demoIoi "arr" tDINT) .i32 2),
     (2, .read 1#16 (demoIoi "count" tDINT) .i32)]).1 =
    [.ok .done, .ok (.value (.i32 7#32)), .ok .done, .ok (.values [.i32 8#32, .i32 2#32]), .ok (.value (.i32 7#32))] := by
  decide +kernel

/-- The first and the third have one identifier. -/
example : ((demoWorld.clients 0).1.ot, (demoWorld.clients 1).1.ot, (demoWorld.clients 2).1.ot) = (7#32, 8#32, 7#32) := by
  decide +kernel

/-- Two processors: with the route of the second, a client that comes at the same time as one of the first reads the tags of
the first. -/
example :
    let srv := { demoSrv with
      router := demoSrv.router.handle [1#8, 3#8] 1,
      eps := fun e => if e = 1 then .tags (fun k => if k = str "count" then some (.scal (.i32 100#32)) else none) [] else demoSrv.eps e }
    let w : World := ⟨srv, fun i => (if i = 0 then bare else { bare with path := some [1#8, 3#8] }, demoSys)⟩
    let same := ((w.connect demoConv 0 5#32).2.connect demoConv 1 5#32).2
    let later := ((w.connect demoConv 0 5#32).2.connect demoConv 1 6#32).2
    (same.perform demoConv 1 (.read 1#16 (demoIoi "count" tDINT) .i32)).1 = .ok (.value (.i32 5#32)) ∧
    (later.perform demoConv 1 (.read 1#16 (demoIoi "count" tDINT) .i32)).1 = .ok (.value (.i32 100#32)) := by
  decide +kernel

end Gologix.Session

