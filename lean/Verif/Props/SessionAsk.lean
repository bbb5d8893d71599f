import Verif.Model.SessionAsk
import Verif.Props.Session
import Verif.Props.Listing
import Verif.Props.ServerAttr
/-
C110: a client of the library asks a server of the library about itself.
-/
set_option linter.unusedSimpArgs false

namespace Gologix.Session
open Gologix Gologix.Spec Gologix.Server Gologix.Server.Spec Gologix.Connect Gologix.Connect.Spec Gologix.Session.Spec

theorem joined_same {s : Settings} {k : Conn} {ep : Nat} {y y' : Sys} {m : Memory} (h : Joined s k ep y m) (hq : Quiet y')
    (hs : y'.server.srv = y.server.srv) : Joined s k ep y' m := by
  obtain ⟨-, tags, h1, h2⟩ := h
  exact ⟨hq, tags, by rw [hs]; exact h1, h2⟩

theorem exchange_new {C : Conv} {y : Sys} {req f p : Bytes} {hd : EipHeader} {st' : St} (hq : Quiet y)
    (hs : serveStep C { y.server with inp := [] ++ req } = (.ok (), st'))
    (hf : newFrames { y.server with inp := [] ++ req } st' = [f]) (h1 : recvData f = .ok (hd, p, [])) :
    exchange C y req = (.ok (hd, p), ⟨st', [], true⟩) := by
  obtain ⟨q1, q2, q3⟩ := hq
  have hs' : serveStep C ⟨y.server.h, y.server.srv, req, y.server.sent⟩ = (.ok (), st') := hs
  have hf' : st'.sent.drop y.server.sent.length = [f] := hf
  unfold exchange
  rw [q1, q2, q3]
  simp only [Bool.not_true, Bool.false_eq_true, if_false, List.nil_append, hs', hf', List.flatten_cons, List.flatten_nil,
    List.append_nil, h1]

/-- C110, the identity: the client learns the identity the server publishes and the address of the server's socket, and its session
goes on. -/
theorem C110_identity (C : Conv) (s : Settings) (k : Conn) (ep : Nat) (y : Sys) (m : Memory) (d : Device) (addr : BitVec 32)
    (hj : Joined s k ep y m) (hd : Publishes y.server.srv.attrs d) (hn : d.name.length ≤ 255)
    (ha : y.server.h.addr = be 4 addr.toNat) :
    ∃ y', askIdentity C s y = (.ok (bodyOf d 1#16 y.server.h.port addr 0xFF#8), y') ∧ Joined s k ep y' m ∧ y'.server.srv = y.server.srv := by
  obtain ⟨f, hdr, payload, h1, h2, h3, -, -, h4, h5, h6⟩ := C48_roundtrip C
    { y.server with inp := [] ++ sendMsgBuild { session := s.session, context := s.context } 0x63#16 [] }
    { session := s.session, context := s.context } d addr [] hd hn ha (by simp)
  obtain ⟨r, st', hst⟩ : ∃ r st', serveStep C
      { y.server with inp := [] ++ sendMsgBuild { session := s.session, context := s.context } 0x63#16 [] } = (r, st') :=
    ⟨_, _, rfl⟩
  rw [hst] at h1 h2 h5 h6
  simp only at h2 h5 h6
  subst h5
  have hx := exchange_new hj.1 hst h1 h3
  refine ⟨⟨st', [], true⟩, ?_, joined_same hj ⟨rfl, rfl, h2⟩ h6, h6⟩
  simp only [askIdentity, hx, Res.bind_ok, h4]

/-- Disagreement: the server's list of services cannot be read by the client, as the length in the reply is wrong (C67).  The session
goes on. -/
theorem C110_services (C : Conv) (s : Settings) (k : Conn) (ep : Nat) (y : Sys) (m : Memory) (hj : Joined s k ep y m) :
    ∃ y', askServices C s y = (.err .unexpectedEof, y') ∧ Joined s k ep y' m ∧ y'.server.srv = y.server.srv := by
  obtain ⟨st', hst⟩ : ∃ st', serveStep C
      { y.server with inp := [] ++ sendMsgBuild { session := s.session, context := s.context } 0x04#16 [] } = (.ok (), st') ∧
      st'.srv = y.server.srv ∧ st'.inp = [] ∧
      ∃ h, st'.sent = y.server.sent ++ [frameOf h 0x6F#16 listServicesReply] := by
    have hi : ([] ++ sendMsgBuild { session := s.session, context := s.context } 0x04#16 [] : Bytes) =
        (newEIPHeader { session := s.session, context := s.context } 0x04#16 0).encode ++ [] := by
      rw [sendMsgBuild_eq]; simp
    unfold serveStep
    rw [bind_def]
    simp only [recvHeader, hi, readEIPHeader_encode]
    exact ⟨_, rfl, rfl, rfl, _, rfl⟩
  obtain ⟨hst, hsrv, hin, h, hf⟩ := hst
  obtain ⟨hd, e1, -, -⟩ := exchange_ok hj.1 hst hf (by simp [frameOf, encode_length, listServicesReply, str])
  refine ⟨⟨st', [], true⟩, ?_, joined_same hj ⟨rfl, rfl, hin⟩ hsrv, hsrv⟩
  simp only [askServices, e1, Res.bind_ok]
  have : (replyOf (frameOf h 0x6F#16 listServicesReply)).payload = listServicesReply := by
    simp only [replyOf, frameOf_drop]
  rw [this, C67_unreadable]

theorem attrSingle_bytes (seq : BitVec 16) (cls inst a : Byte) :
    attrSingleRequest seq (cls.setWidth 16) (inst.setWidth 32) (a.setWidth 16) = le 2 seq.toNat ++ askOne cls inst a := by
  have h1 : classBytes (cls.setWidth 16) = [0x20#8, cls] ∧ classLen (cls.setWidth 16) = 2 := by revert cls; decide +kernel
  have h2 : instanceBytes (inst.setWidth 32) = [0x24#8, inst] ∧ instanceLen (inst.setWidth 32) = 2 := by
    revert inst; decide +kernel
  have h3 : attributeBytes (a.setWidth 16) = [0x30#8, a] ∧ attributeLen (a.setWidth 16) = 2 := by revert a; decide +kernel
  simp only [attrSingleRequest, getAttrSinglePathLength, getAttrSinglePath, h1, h2, h3, putBV, askOne]
  rfl

theorem identity_bytes (seq : BitVec 16) (a : Byte) :
    attrSingleRequest seq 1#16 1#32 (a.setWidth 16) = le 2 seq.toNat ++ askOne 1#8 1#8 a := attrSingle_bytes seq 1#8 1#8 a

/-- The server's answer to a request for an attribute it has. -/
theorem attribute_exchanged (C : Conv) (s : Settings) (k : Conn) (y : Sys) (seq : BitVec 16) (a : Byte) (v : Scal) (b : Bytes)
    (hq : Quiet y) (hc : y.server.srv.conns.getByOT s.ot = .ok k)
    (hv : y.server.srv.attrs (BitVec.ofNat 16 a.toNat) = some v) (hb : TVal.serialize (.scal v) = .ok b) (hl : b.length ≤ 65000) :
    ∃ y', askAttribute C s y seq 1#16 1#32 (a.setWidth 16) = (.ok b, y') ∧ Quiet y' ∧ y'.server.srv = y.server.srv := by
  have ha := frame_asks y.server s (attrSingleRequest seq 1#16 1#32 (a.setWidth 16)) (by rw [identity_bytes]; simp [askOne])
  rw [identity_bytes] at ha
  have hin := unit_inp (C := C) (svc := 0x0E#8) (d := [3#8, 0x20#8, 1#8, 0x24#8, 1#8, 0x30#8, a]) ha
  obtain ⟨a1, a2, a3, a4, a5, a6⟩ := ha
  have hcon : Connected ([] ++ connectedFrame s (le 2 seq.toNat ++ askOne 1#8 1#8 a)) s.ot seq (askOne 1#8 1#8 a ++ []) :=
    ⟨_, [], [], a1, a2, a3, a4, by rw [a5]; simp, by rw [a6]; simp⟩
  obtain ⟨st0, h1, h2, hs⟩ := attr_single_step C
    { y.server with inp := [] ++ connectedFrame s (le 2 seq.toNat ++ askOne 1#8 1#8 a) } s.ot seq 1#8 1#8 a [] hcon k hc
  rw [if_pos ⟨rfl, rfl⟩] at hs
  simp only [hv] at hs
  rw [hb, lift_ok_bind] at hs
  obtain ⟨st', hst⟩ : ∃ st', serveStep C { y.server with inp := [] ++ connectedFrame s (le 2 seq.toNat ++ askOne 1#8 1#8 a) } =
      (.ok (), st') ∧ st'.srv = y.server.srv ∧ ∃ f, st'.sent = y.server.sent ++ [f] ∧ UnitReply f k.to seq 0x52#8 0#8 b := by
    have h2' : st0.sent = y.server.sent := h2
    rw [hs, ← h2']
    exact ⟨_, rfl, h1, _, rfl, _, rfl⟩
  obtain ⟨hst, hsrv, f, hf, hu⟩ := hst
  obtain ⟨hpay, hlen⟩ := unitReply_payload hu
  rw [hst] at hin
  obtain ⟨h, e1, -, -⟩ := exchange_ok hq hst hf (by rw [hlen]; omega)
  rw [hpay] at e1
  refine ⟨⟨st', [], true⟩, ?_, ⟨rfl, rfl, hin⟩, hsrv⟩
  simp only [askAttribute, identity_bytes, e1, Res.bind_ok]
  unfold getAttrSingleReply afterHeader
  simp only
  rw [if_neg (by simp), List.drop_left' (by rfl), (unitReply_items (by simp; omega)).2, Res.bind_ok,
    show le 2 seq.toNat ++ ([0x52#8 ||| 0x80#8, 0#8, 0#8, 0#8] ++ b) =
      (le 2 seq.toNat ++ [0x52#8 ||| 0x80#8, 0#8, 0#8, 0#8]) ++ b by simp, readN_exact 6 _ _ (by simp), Res.bind_ok]

/-- C110, an attribute: the client that asks for one attribute of the server's identity, other than the name, gets it as
published, and its session goes on.  Missing: the name (`C110_name`), what does not exist (`C110_absent_ends`). -/
theorem C110_attribute_partial (C : Conv) (s : Settings) (k : Conn) (ep : Nat) (y : Sys) (m : Memory) (d : Device)
    (seq : BitVec 16) (a : Byte) (b : Bytes) (hj : Joined s k ep y m) (hd : Publishes y.server.srv.attrs d)
    (hb : attrOf d a.toNat = some b) (h7 : a ≠ 7#8) :
    ∃ y', askAttribute C s y seq 1#16 1#32 (a.setWidth 16) = (.ok b, y') ∧ Joined s k ep y' m ∧ y'.server.srv = y.server.srv := by
  obtain ⟨hq, tags, hsv, hh⟩ := id hj
  obtain ⟨v, hv, hs, -⟩ := attribute_number hd a b hb h7
  have hl : b.length ≤ 65000 := by
    unfold attrOf at hb
    split at hb <;> first
      | (cases hb; simp)
      | (cases hb; done)
      | (exfalso; exact h7 (BitVec.eq_of_toNat_eq ‹_›))
  obtain ⟨y', e1, e2, e3⟩ := attribute_exchanged C s k y seq a v b hq hsv.1 hv hs hl
  exact ⟨y', e1, joined_same hj e2 e3, e3⟩

/-- Disagreement: the name comes as a tag of type STRING would, not as the SHORT_STRING that is published. -/
theorem C110_name (C : Conv) (s : Settings) (k : Conn) (ep : Nat) (y : Sys) (m : Memory) (d : Device)
    (seq : BitVec 16) (hj : Joined s k ep y m) (hd : Publishes y.server.srv.attrs d) (hn : d.name.length ≤ 84) :
    ∃ y', askAttribute C s y seq 1#16 1#32 7#16 =
      (.ok (le 4 d.name.length ++ d.name ++ List.replicate (84 - d.name.length) 0#8), y') ∧ Joined s k ep y' m ∧ y'.server.srv = y.server.srv := by
  obtain ⟨hq, tags, hsv, hh⟩ := id hj
  have hb : stringBytes d.name = le 4 d.name.length ++ d.name ++ List.replicate (84 - d.name.length) 0#8 := by
    unfold stringBytes putBV fitTo
    rw [List.take_of_length_le hn, BitVec.toNat_ofNat, Nat.mod_eq_of_lt (by omega)]
    simp
  obtain ⟨y', e1, e2, e3⟩ := attribute_exchanged C s k y seq 7#8 (.str d.name) (stringBytes d.name) hq hsv.1
    hd.2.2.2.2.2.2 rfl (by rw [hb]; simp; omega)
  rw [hb] at e1
  exact ⟨y', e1, joined_same hj e2 e3, e3⟩

/-- Disagreement: a request for an object or an attribute that the server does not have is not answered but ends the session. -/
theorem C110_absent_ends (C : Conv) (s : Settings) (k : Conn) (ep : Nat) (y : Sys) (m : Memory) (seq : BitVec 16)
    (cls inst a : Byte) (hj : Joined s k ep y m)
    (hn : cls ≠ 1#8 ∨ inst ≠ 1#8 ∨ y.server.srv.attrs (BitVec.ofNat 16 a.toNat) = none) :
    ∃ y', askAttribute C s y seq (cls.setWidth 16) (inst.setWidth 32) (a.setWidth 16) = (.err .eof, y') ∧ y'.server.srv = y.server.srv ∧
      ∀ cs, ∀ r ∈ (performAll C s y' cs).1, ∃ e, r = .err e := by
  obtain ⟨hq, tags, hsv, hh⟩ := hj
  have ha := frame_asks y.server s (attrSingleRequest seq (cls.setWidth 16) (inst.setWidth 32) (a.setWidth 16)) (by rw [attrSingle_bytes]; simp [askOne])
  rw [attrSingle_bytes] at ha
  obtain ⟨a1, a2, a3, a4, a5, a6⟩ := ha
  have hcon : Connected ([] ++ connectedFrame s (le 2 seq.toNat ++ askOne cls inst a)) s.ot seq (askOne cls inst a ++ []) :=
    ⟨_, [], [], a1, a2, a3, a4, by rw [a5]; simp, by rw [a6]; simp⟩
  obtain ⟨st0, h1, h2, hs⟩ := attr_single_step C
    { y.server with inp := [] ++ connectedFrame s (le 2 seq.toNat ++ askOne cls inst a) } s.ot seq cls inst a [] hcon k hsv.1
  have hs : serveStep C { y.server with inp := [] ++ connectedFrame s (le 2 seq.toNat ++ askOne cls inst a) } =
      (.err .fail, st0) := by
    rw [hs]
    by_cases h : cls = 1#8 ∧ inst = 1#8
    · rw [if_pos h]
      have hn' : y.server.srv.attrs (BitVec.ofNat 16 a.toNat) = none := by
        rcases hn with hn | hn | hn
        · exact absurd h.1 hn
        · exact absurd h.2 hn
        · exact hn
      simp only [hn']
    · rw [if_neg h]
  have hx : exchange C y (connectedFrame s (le 2 seq.toNat ++ askOne cls inst a)) = (.err .eof, ⟨st0, [], false⟩) := by
    obtain ⟨q1, q2, q3⟩ := hq
    have hs' : serveStep C ⟨y.server.h, y.server.srv, connectedFrame s (le 2 seq.toNat ++ askOne cls inst a), y.server.sent⟩ =
      (.err .fail, st0) := hs
    have h2' : st0.sent = y.server.sent := h2
    unfold exchange
    rw [q1, q2, q3]
    simp only [Bool.not_true, Bool.false_eq_true, if_false, List.nil_append, hs', h2', List.drop_length, List.flatten_nil]
    rfl
  refine ⟨⟨st0, [], false⟩, ?_, h1, fun cs => (performAll_down C s _ rfl cs).2.2⟩
  simp only [askAttribute, attrSingle_bytes, hx]
  rfl

/-! ### Any service -/

/-- The client that sends any service gets the data of the answer, or the status as an error. -/
theorem generic_exchanged (C : Conv) (s : Settings) (y : Sys) (seq : BitVec 16) (svc status : Byte) (path data p : Bytes)
    (hq : Quiet y) (hs : svc &&& 0x80#8 = 0#8) (hl : path.length + data.length ≤ 65000) (hp : p.length ≤ 65000)
    (hrun : ∀ st, st.h.seq = seq → st.srv = y.server.srv →
      unitService C (le 4 s.ot.toNat) (le 2 seq.toNat ++ svc :: pathLengthOf path :: (path ++ data)) s.ot svc
        (pathLengthOf path :: (path ++ data)) st = sendUnitData svc status p st) :
    ∃ y', askGeneric C s y seq svc path data = (if status = 0#8 then .ok p else .err (.cipStatus status.toNat), y') ∧ Quiet y' ∧
      y'.server.srv = y.server.srv := by
  have hb : genericRequest seq svc path data = le 2 seq.toNat ++ svc :: (pathLengthOf path :: (path ++ data)) := by
    simp [genericRequest, putBV]
  have ha := frame_asks y.server s (le 2 seq.toNat ++ svc :: (pathLengthOf path :: (path ++ data))) (by simp; omega)
  have hin := unit_inp (C := C) ha
  have hst := unit_step (C := C) ha
  have hrun' := hrun (handling { y.server with inp := [] ++ connectedFrame s (le 2 seq.toNat ++ svc :: (pathLengthOf path ::
    (path ++ data))) } (asking s (le 2 seq.toNat ++ svc :: (pathLengthOf path :: (path ++ data)))) seq []) rfl rfl
  rw [hrun'] at hst
  obtain ⟨st', hst⟩ : ∃ st', serveStep C { y.server with inp := [] ++ connectedFrame s (le 2 seq.toNat ++ svc ::
      (pathLengthOf path :: (path ++ data))) } = (.ok (), st') ∧ st'.srv = y.server.srv ∧
      ∃ f, st'.sent = y.server.sent ++ [f] ∧ UnitReply f y.server.h.to seq svc status p := by
    rw [hst]
    exact ⟨_, rfl, rfl, _, rfl, _, rfl⟩
  obtain ⟨hst, hsrv, f, hf, hu⟩ := hst
  obtain ⟨hpay, hlen⟩ := unitReply_payload hu
  rw [hst] at hin
  obtain ⟨h, e1, -, -⟩ := exchange_ok hq hst hf (by rw [hlen]; omega)
  rw [hpay] at e1
  refine ⟨⟨st', [], true⟩, ?_, ⟨rfl, rfl, hin⟩, hsrv⟩
  simp only [askGeneric, hb, e1, Res.bind_ok]
  unfold genericReply
  simp only
  rw [readN_exact 6 _ _ rfl, Res.bind_ok]
  simp only
  rw [(unitReply_items (by simp; omega)).2, Res.bind_ok, getU_le, Res.bind_ok]
  simp only [List.cons_append, List.nil_append]
  rw [getU_two, Res.bind_ok]
  have h1 : BitVec.ofNat 8 ((svc ||| 0x80#8).toNat + 256 * (0#8 : Byte).toNat) &&& 0x7F#8 = svc :=
    (show ∀ v : Byte, v &&& 0x80#8 = 0#8 → BitVec.ofNat 8 ((v ||| 0x80#8).toNat + 256 * (0#8 : Byte).toNat) &&& 0x7F#8 = v by decide +kernel) svc hs
  have h2 : status.toNat + 256 * (0#8 : Byte).toNat = status.toNat := by simp
  simp only
  rw [if_neg (by rw [h1]; simp), getU_two, Res.bind_ok]
  simp only [h2]
  by_cases h0 : status = 0#8
  · subst h0; rfl
  · have : status.toNat ≠ 0 := fun h => h0 (BitVec.eq_of_toNat_eq h)
    rw [if_neg h0, if_pos this, Nat.mod_eq_of_lt status.isLt]

/-- C110, all attributes at once: the client that asks the identity object gets all attributes as published, from the program
object the name, and from any other the error "path destination unknown"; its session goes on. -/
theorem C110_all (C : Conv) (s : Settings) (k : Conn) (ep : Nat) (y : Sys) (m : Memory) (d : Device) (seq : BitVec 16)
    (cls inst : Nat) (path data : Bytes) (hj : Joined s k ep y m) (hd : Publishes y.server.srv.attrs d)
    (hn : d.name.length ≤ 255) (hp : ObjectPath cls inst path) (he : path.length % 2 = 0) (hl : path.length ≤ 510)
    (hl' : data.length ≤ 64000) :
    ∃ y', askGeneric C s y seq 0x01#8 path data =
        (if cls = 1 ∧ inst = 1 then .ok (allAttributes d)
          else if cls = 0x64 ∧ inst = 1 then .ok (shortString d.name) else .err (.cipStatus 5), y') ∧
      Joined s k ep y' m ∧ y'.server.srv = y.server.srv := by
  have hasks : AsksAll cls inst (0x01#8 :: pathLengthOf path :: (path ++ data)) := by
    refine ⟨pathLengthOf path, path, data, rfl, ?_, hp⟩
    unfold pathLengthOf
    rw [BitVec.toNat_ofNat, Nat.mod_eq_of_lt (by omega)]
    omega
  obtain ⟨hc, hi, -, -⟩ := connectedAll_run hasks seq y.server
  have hcases := attributesAll_cases hd hn hc hi
  have key : ∀ x : Byte × Bytes, attributesAll y.server.srv.attrs (BitVec.ofNat 16 cls) (BitVec.ofNat 32 inst) = .ok x →
      x.2.length ≤ 65000 →
      ∃ y', askGeneric C s y seq 0x01#8 path data = (if x.1 = 0#8 then .ok x.2 else .err (.cipStatus x.1.toNat), y') ∧
        Joined s k ep y' m ∧ y'.server.srv = y.server.srv := by
    intro x hx hxl
    obtain ⟨y', e1, e2, e3⟩ := generic_exchanged C s y seq 0x01#8 x.1 path data x.2 hj.1 (by decide) (by omega) hxl (by
      intro st hseq hsrv
      show connectedGetAttributeAll _ st = _
      obtain ⟨-, -, -, hrun⟩ := connectedAll_run hasks seq st
      rw [hrun, bind_def]
      simp only [M.look, hsrv, hx])
    exact ⟨y', e1, joined_same hj e2 e3, e3⟩
  obtain ⟨y', e1, e2⟩ := key _ hcases (by
    by_cases h1 : cls = 1 ∧ inst = 1
    · rw [if_pos h1]
      have : allAttributes d = le 2 d.vendor.toNat ++ (le 2 d.device.toNat ++ (le 2 d.product.toNat ++ (le 2 d.revision.toNat ++
        (le 2 d.status.toNat ++ (le 4 d.serial.toNat ++ (shortString d.name ++ [])))))) := rfl
      simp only [this, shortString]
      simp
      omega
    · rw [if_neg h1]
      by_cases h2 : cls = 0x64 ∧ inst = 1
      · rw [if_pos h2]; simp only [shortString]; simp; omega
      · rw [if_neg h2]; simp)
  refine ⟨y', ?_, e2⟩
  rw [e1]
  by_cases h1 : cls = 1 ∧ inst = 1
  · simp only [if_pos h1]; rfl
  · by_cases h2 : cls = 0x64 ∧ inst = 1
    · simp only [if_neg h1, if_pos h2]; rfl
    · simp only [if_neg h1, if_neg h2]; rfl

/-- C110, a service the server does not have: the client is told so, with the status "service not supported", and its session goes
on. -/
theorem C110_unsupported (C : Conv) (s : Settings) (k : Conn) (ep : Nat) (y : Sys) (m : Memory) (seq : BitVec 16) (svc : Byte)
    (path data : Bytes) (hj : Joined s k ep y m) (hs : svc &&& 0x80#8 = 0#8)
    (hn : svc ∉ [0x01#8, 0x0A#8, 0x0E#8, 0x4C#8, 0x4D#8, 0x52#8, 0x55#8]) (hl : path.length + data.length ≤ 65000) :
    ∃ y', askGeneric C s y seq svc path data = (.err (.cipStatus 8), y') ∧ Joined s k ep y' m ∧ y'.server.srv = y.server.srv := by
  obtain ⟨y', e1, e2, e3⟩ := generic_exchanged C s y seq svc 0x08#8 path data [] hj.1 hs hl (by simp) (by
    intro st _ _
    simp only [List.mem_cons, List.not_mem_nil, or_false, not_or] at hn
    obtain ⟨n1, n2, n3, n4, n5, n6, n7⟩ := hn
    unfold unitService
    rw [if_neg n5, if_neg n6, if_neg n4, if_neg n2, if_neg n3, if_neg n1, if_neg n7])
  exact ⟨y', e1, joined_same hj e2 e3, e3⟩

/-! ### An example -/

example : (askIdentity demoConv demoJoined.1 demoJoined.2).1 = .ok (bodyOf demoDevice 1#16 44818#16 0x7F000001#32 0xFF#8) := by
  decide +kernel

/-- The hypotheses of `C110_identity` about the server hold. -/
example : Publishes demoJoined.2.server.srv.attrs demoDevice ∧ demoJoined.2.server.h.addr = be 4 (0x7F000001#32).toNat :=
  ⟨⟨rfl, rfl, rfl, rfl, rfl, rfl, rfl⟩, by decide +kernel⟩

/-- The serial number of the server, and an attribute it does not have. -/
example : (askAttribute demoConv demoJoined.1 demoJoined.2 9#16 1#16 1#32 6#16).1 = .ok (le 4 demoDevice.serial.toNat) := by
  decide +kernel

example : (askAttribute demoConv demoJoined.1 demoJoined.2 9#16 1#16 1#32 9#16).1 = .err .eof := by decide +kernel

example : (askAttribute demoConv demoJoined.1 demoJoined.2 9#16 2#16 1#32 1#16).1 = .err .eof := by decide +kernel

example : (askGeneric demoConv demoJoined.1 demoJoined.2 9#16 1#8 [0x20#8, 1#8, 0x24#8, 1#8] []).1 =
    .ok (allAttributes demoDevice) := by
  decide +kernel

example : (askGeneric demoConv demoJoined.1 demoJoined.2 9#16 5#8 [0x20#8, 1#8, 0x24#8, 1#8] []).1 = .err (.cipStatus 8) := by
  decide +kernel

end Gologix.Session
