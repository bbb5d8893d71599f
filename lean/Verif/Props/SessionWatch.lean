import Verif.Model.SessionWatch
import Verif.Props.SessionAsk
set_option linter.unusedSimpArgs false
/-
C116: the keep-alive of a client that is connected to a server of this library.
-/
namespace Gologix.Session
open Gologix Gologix.Spec Gologix.Server Gologix.Server.Spec Gologix.Connect Gologix.Connect.Spec Gologix.Session.Spec

/-- The reply to a service the server does not have. -/
theorem refused_exchanged (C : Conv) (s : Settings) (y : Sys) (seq : BitVec 16) (svc : Byte) (path data : Bytes)
    (hq : Quiet y) (hn : svc ∉ [0x01#8, 0x0A#8, 0x0E#8, 0x4C#8, 0x4D#8, 0x52#8, 0x55#8]) (hl : path.length + data.length ≤ 65000) :
    ∃ y' hd, exchange C y (connectedFrame s (genericRequest seq svc path data)) =
        (.ok (hd, [0, 0, 0, 0, 0, 0] ++ (cpf [(0xA1#16, le 4 y.server.h.to.toNat),
          (0xB1#16, le 2 seq.toNat ++ ([svc ||| 0x80#8, 0#8, 8#8, 0#8] ++ []))] ++ [])), y') ∧
      Quiet y' ∧ y'.server.srv = y.server.srv := by
  have hb : genericRequest seq svc path data = le 2 seq.toNat ++ svc :: (pathLengthOf path :: (path ++ data)) := by
    simp [genericRequest, putBV]
  have ha := frame_asks y.server s (le 2 seq.toNat ++ svc :: (pathLengthOf path :: (path ++ data))) (by simp; omega)
  have hin := unit_inp (C := C) ha
  have hst := unit_step (C := C) ha
  have hrun' : unitService C (le 4 s.ot.toNat) (le 2 seq.toNat ++ svc :: (pathLengthOf path :: (path ++ data))) s.ot svc
      (pathLengthOf path :: (path ++ data)) (handling { y.server with inp := [] ++ connectedFrame s (le 2 seq.toNat ++ svc ::
        (pathLengthOf path :: (path ++ data))) } (asking s (le 2 seq.toNat ++ svc :: (pathLengthOf path :: (path ++ data)))) seq []) =
      sendUnitData svc 8#8 [] (handling { y.server with inp := [] ++ connectedFrame s (le 2 seq.toNat ++ svc ::
        (pathLengthOf path :: (path ++ data))) } (asking s (le 2 seq.toNat ++ svc :: (pathLengthOf path :: (path ++ data)))) seq []) := by
    simp only [List.mem_cons, List.not_mem_nil, or_false, not_or] at hn
    obtain ⟨n1, n2, n3, n4, n5, n6, n7⟩ := hn
    unfold unitService
    rw [if_neg n5, if_neg n6, if_neg n4, if_neg n2, if_neg n3, if_neg n1, if_neg n7]
  rw [hrun'] at hst
  obtain ⟨st', hst⟩ : ∃ st', serveStep C { y.server with inp := [] ++ connectedFrame s (le 2 seq.toNat ++ svc ::
      (pathLengthOf path :: (path ++ data))) } = (.ok (), st') ∧ st'.srv = y.server.srv ∧
      ∃ f, st'.sent = y.server.sent ++ [f] ∧ UnitReply f y.server.h.to seq svc 8#8 [] := by
    rw [hst]
    exact ⟨_, rfl, rfl, _, rfl, _, rfl⟩
  obtain ⟨hst, hsrv, f, hf, hu⟩ := hst
  obtain ⟨hpay, hlen⟩ := unitReply_payload hu
  rw [hst] at hin
  obtain ⟨h, e1, -, -⟩ := exchange_ok hq hst hf (by rw [hlen]; simp)
  rw [hpay] at e1
  exact ⟨⟨st', [], true⟩, h, by rw [hb]; exact e1, ⟨rfl, rfl, hin⟩, hsrv⟩

theorem attrList_generic (seq cls : BitVec 16) (inst : BitVec 32) (attrs : List (BitVec 16)) :
    attrListRequest seq cls inst attrs = genericRequest seq 0x03#8 (serializeSegs [.cls cls, .inst inst])
      (le 2 attrs.length ++ (attrs.map putBV).flatten) := by
  simp [attrListRequest, genericRequest]

theorem listReply_refused (st : BitVec 32) (conn : BitVec 32) (seq : BitVec 16) (svc : Byte) :
    getAttrListReply ⟨st, [0, 0, 0, 0, 0, 0] ++ (cpf [(0xA1#16, le 4 conn.toNat),
      (0xB1#16, le 2 seq.toNat ++ ([svc, 0#8, 8#8, 0#8] ++ []))] ++ [])⟩ = .err .fail := by
  unfold getAttrListReply
  simp only
  rw [readN_exact 6 _ _ rfl, Res.bind_ok]
  simp only
  rw [(unitReply_items (by simp)).2, Res.bind_ok]
  have : (le 2 seq.toNat ++ ([svc, 0#8, 8#8, 0#8] ++ []) : Bytes) = (le 2 seq.toNat ++ [svc, 0#8, 8#8, 0#8]) ++ [] := by simp
  rw [this, readN_exact 6 _ _ (by simp), Res.bind_ok]
  simp only
  have h : unle (((le 2 seq.toNat ++ [svc, 0#8, 8#8, 0#8]).drop 4).take 2) = 8 := by
    rw [show ((le 2 seq.toNat ++ [svc, 0#8, 8#8, 0#8]) : Bytes) = (le 2 seq.toNat ++ [svc, 0#8]) ++ [8#8, 0#8] by simp,
      List.drop_left' (by simp)]
    rfl
  rw [h]
  rfl

theorem segs_short (cls : BitVec 16) (inst : BitVec 32) : (serializeSegs [.cls cls, .inst inst]).length ≤ 16 := by
  simp only [serializeSegs, List.foldl, Seg.bytes, List.nil_append, List.length_append]
  have h1 : (classBytes cls).length ≤ 8 := by
    unfold classBytes; split <;> simp [putBV]
  have h2 : (instanceBytes inst).length ≤ 8 := by
    unfold instanceBytes; split <;> (try split) <;> simp [putBV]
  omega

/-- **C116, lists of attributes.**  The server answers no list of attributes, of whatever object: the client gets an error, and its session
goes on. -/
theorem C116_attributes_refused (C : Conv) (s : Settings) (k : Conn) (ep : Nat) (y : Sys) (m : Memory) (seq cls : BitVec 16)
    (inst : BitVec 32) (attrs : List (BitVec 16)) (hj : Joined s k ep y m) (hl : attrs.length ≤ 32000) :
    ∃ y', askAttributes C s y seq cls inst attrs = (.err .fail, y') ∧ Joined s k ep y' m ∧ y'.server.srv = y.server.srv := by
  obtain ⟨y', hd, e, hq, hs⟩ := refused_exchanged C s y seq 0x03#8 (serializeSegs [.cls cls, .inst inst])
    (le 2 attrs.length ++ (attrs.map putBV).flatten) hj.1 (by decide) (by
      have h1 := segs_short cls inst
      have h2 : (attrs.map putBV).flatten.length = 2 * attrs.length := by
        clear hl
        induction attrs with
        | nil => rfl
        | cons a l ih => simp only [List.map_cons, List.flatten_cons, List.length_append, ih, List.length_cons]; simp [putBV]; omega
      simp only [List.length_append, le_length, h2]
      omega)
  refine ⟨y', ?_, joined_same hj hq hs, hs⟩
  simp only [askAttributes, attrList_generic, e, Res.bind_ok, listReply_refused]

/-- **C116, the keep-alive.**  Whatever it is to watch and however often it ticks, the keep-alive of a client connected to a server of this
library sends one request, gets an error, and returns: no tick sends anything.  The session goes on, nothing changes at the server. -/
theorem C116_ends_at_once (C : Conv) (s : Settings) (k : Conn) (ep : Nat) (y : Sys) (m : Memory) (seq : Nat → BitVec 16)
    (props : List (BitVec 16)) (poll : Bool) (list : Sys → Bool × Sys) (n : Nat) (hj : Joined s k ep y m)
    (hl : props.length ≤ 32000) :
    ∃ y', aliveOver C s seq props poll list y n = (⟨none, 1⟩, y') ∧ Joined s k ep y' m ∧ y'.server.srv = y.server.srv := by
  obtain ⟨y', e, h1, h2⟩ := C116_attributes_refused C s k ep y m (seq 0) 0xAC#16 1#32 props hj hl
  refine ⟨y', ?_, h1, h2⟩
  induction n with
  | zero => simp only [aliveOver, aliveStart, e]
  | succ n ih => simp only [aliveOver, ih, aliveTick]

/-- What is left of a watch: the attributes last seen. -/
def seen : Watch → Option Bytes
  | .on d _ => some d
  | .off _ => none

/-- **C116, a server that answers.**  Were the request answered, the keep-alive would do what C82 says of its ticks: go on with the attributes
the reply brings, list the tags when they differ and it is to poll them, and disconnect when the reply is an error. -/
theorem C116_answered (C : Conv) (s : Settings) (seq : BitVec 16) (props : List (BitVec 16)) (poll : Bool) (list : Sys → Bool × Sys)
    (a : Alive) (old : Bytes) (n : Nat) (y y1 : Sys) (hd : EipHeader) (p : Bytes) (ha : a.last = some old) (hu : y.up = true)
    (he : exchange C y (connectedFrame s (attrListRequest seq 0xAC#16 1#32 props)) = (.ok (hd, p), y1)) :
    (aliveTick C s seq props poll list a y).1 = ⟨seen (watchTick poll (.on old n) ⟨hd.status, p⟩ (list y1).1), a.sent + 1⟩ ∧
    (aliveTick C s seq props poll list a y).2 =
      match getAttrListReply ⟨hd.status, p⟩ with
      | .ok d => if d ≠ old ∧ poll = true then (list y1).2 else y1
      | _ => disconnect C s y1 := by
  simp only [aliveTick, ha, hu, askAttributes, he, Res.bind_ok, watchTick, Bool.not_true, Bool.false_eq_true, if_false]
  cases hr : getAttrListReply ⟨hd.status, p⟩ with
  | err e => exact ⟨rfl, rfl⟩
  | panic => exact ⟨rfl, rfl⟩
  | ok d =>
    by_cases h : d = old
    · subst h
      simp [seen]
    · simp only [h, if_false, ne_eq, not_false_iff, if_true, true_and]
      cases poll
      · exact ⟨rfl, rfl⟩
      · cases hli : list y1 with
        | mk b y2 => cases b <;> exact ⟨rfl, rfl⟩

/-- **C116, what the controller tells.**  The attributes that tell of a change and the forces cannot be asked of the server: both calls
return an error, and the session goes on. -/
theorem C116_questions_refused (C : Conv) (s : Settings) (k : Conn) (ep : Nat) (y : Sys) (m : Memory) (seq : BitVec 16)
    (hj : Joined s k ep y m) :
    (∃ y', askProps C s y seq = (.err .fail, y') ∧ Joined s k ep y' m ∧ y'.server.srv = y.server.srv) ∧
    ∃ y', askForces C s y seq = (.err .fail, y') ∧ Joined s k ep y' m ∧ y'.server.srv = y.server.srv := by
  constructor
  · obtain ⟨y', e, h1, h2⟩ := C116_attributes_refused C s k ep y m seq 0xAC#16 1#32 [1, 2, 3, 4, 10] hj (by decide)
    exact ⟨y', by simp only [askProps, e]; rfl, h1, h2⟩
  · obtain ⟨y', hd, e, hq, hs⟩ := refused_exchanged C s y seq 0x03#8 (serializeSegs [.cls 0x69, .inst 0])
      (le 2 1 ++ ([9].map (putBV (w := 16))).flatten) hj.1 (by decide) (by decide)
    refine ⟨y', ?_, joined_same hj hq hs, hs⟩
    simp only [askForces, forcesRequest, attrList_generic]
    rw [show ([9] : List (BitVec 16)).length = 1 from rfl, e]
    simp only [Res.bind_ok, getForces, listReply_refused]
    rfl

/-! ### Examples -/

/-- The keep-alive of the demo client, for three ticks, and a read after it. -/
example : (aliveOver demoConv demoJoined.1 (BitVec.ofNat 16) [1, 2, 3, 4, 10] true (fun y => (true, y)) demoJoined.2 3).1 = ⟨none, 1⟩ ∧
    (aliveOver demoConv demoJoined.1 (BitVec.ofNat 16) [1, 2, 3, 4, 10] true (fun y => (true, y)) demoJoined.2 3).2.up = true := by
  decide +kernel

end Gologix.Session
