import Verif.Model.SessionAuto
import Verif.Props.Session
set_option linter.unusedSimpArgs false
/-
C118: a client that connects by itself.
-/
namespace Gologix.Session
open Gologix Gologix.Spec Gologix.Server Gologix.Server.Spec Gologix.Connect Gologix.Connect.Spec Gologix.Session.Spec

theorem ok_answered {C : Conv} {s : Settings} {y y' : Sys} {c : Call} {o : Outcome} (h : perform C s y c = (.ok o, y')) :
    c.answered C s y = true := by
  have key : ∀ f, (∃ (g : EipHeader × Bytes → Res Outcome), ((exchange C y f).1 >>= g) = .ok o) →
      (match (exchange C y f).1 with | .ok _ => true | _ => false) = true := by
    rintro f ⟨g, hg⟩
    cases hx : (exchange C y f).1 with
    | ok a => rfl
    | err e => rw [hx] at hg; cases hg
    | panic => rw [hx] at hg; cases hg
  unfold Call.answered
  cases c with
  | map seq es =>
    simp only [perform] at h
    simp only [Call.frame]
    cases hb : writeMapBytes seq es with
    | ok b => rw [hb] at h; exact key _ ⟨_, congrArg Prod.fst h⟩
    | err e => rfl
    | panic => rfl
  | bits seq ioi n =>
    simp only [perform] at h
    simp only [Call.frame]
    by_cases hn : n % 32 ≠ 0
    · rw [if_pos hn]
    · rw [if_neg hn] at h
      rw [if_neg hn]
      exact key _ ⟨_, congrArg Prod.fst h⟩
  | _ => exact key _ ⟨_, congrArg Prod.fst h⟩

/-- A client that is connected does what the memory does, and stays connected. -/
theorem calls_joined (C : Conv) (auto : Bool) (addr : Bytes) (port : BitVec 16) (k : Conn) (ep : Nat) (s : Settings) :
    ∀ (ops : List Op) (cs : List (BitVec 32 × Call)) (os : List Outcome) (y : Sys) (m m' : Memory),
    Joined s k ep y m → cs.length = ops.length →
    (∀ (i : Nat) op c, ops[i]? = some op → cs[i]? = some c → Makes op c.2) → DoesAll m ops os m' →
    ∃ y', (Caller.mk s y true true).calls C auto addr port cs = (os.map .ok, ⟨s, y', true, true⟩) ∧ Joined s k ep y' m' := by
  intro ops
  induction ops with
  | nil =>
    intro cs os y m m' hj hc hmk hd
    cases hd
    cases List.length_eq_zero_iff.mp hc
    exact ⟨y, rfl, hj⟩
  | cons op ops ih =>
    intro cs os y m m' hj hc hmk hd
    cases cs with
    | nil => cases hc
    | cons c cs =>
      obtain ⟨ms, c⟩ := c
      cases hd with
      | @cons _ m1 _ _ _ o os h hs =>
      obtain ⟨y1, h1, h2⟩ := C104_session_partial C s k ep [op] [c] [o] y m m1 hj rfl (by
        intro i op' c' ho hc'
        cases i with
        | zero =>
          cases ho
          cases hc'
          exact hmk 0 op (ms, c) rfl rfl
        | succ i => cases ho) (.cons h (.nil _))
      have h1' : perform C s y c = (.ok o, y1) := by
        cases hp : perform C s y c with
        | mk r y1' =>
        simp only [performAll, hp, List.map_cons, List.map_nil, Prod.mk.injEq, List.cons.injEq, and_true] at h1
        rw [h1.1, h1.2]
      obtain ⟨y2, g1, g2⟩ := ih cs os y1 m1 m' h2 (by simpa using hc)
        (fun i op' c' ho hc' => hmk (i + 1) op' c' ho hc') hs
      refine ⟨y2, ?_, g2⟩
      have hcall : (Caller.mk s y true true).call C auto ms addr port c = (.ok o, ⟨s, y1, true, true⟩) := by
        unfold Caller.call Caller.check
        simp only [if_true, ite_self, Bool.not_true, Bool.false_and, Bool.false_eq_true, if_false, h1', ok_answered h1', Bool.and_true]
      simp only [Caller.calls, hcall, g1, List.map_cons]

/-- C118: a client that is not connected and may connect by itself connects with the first call to the server, and this call
and all later ones do what the memory does.  Partial as C104: `WriteMap` as the first call does not connect (`C118_map_not_checked`), the identifier has to be free. -/
theorem C118_connects_partial (C : Conv) (addr : Bytes) (port : BitVec 16) (a : Caller) (route : Bytes) (ep : Nat) (tags : Store)
    (keys : List Str) (ms : BitVec 32) (op : Op) (ops : List Op) (c : Call) (cs : List (BitVec 32 × Call)) (os : List Outcome)
    (m m' : Memory) (hno : a.connected = false) (hfirst : ∀ seq es, c ≠ .map seq es)
    (hl : a.settings.logger = true)
    (hp : (∀ r, a.settings.path = some r → route = r) ∧ (a.settings.path = none → route = [1#8, 0#8]))
    (hr : Routable route) (h2 : route.length = 2) (hres : a.sys.server.srv.router.resolve route = .ok ep)
    (heps : a.sys.server.srv.eps ep = .tags tags keys) (h0 : a.settings.seq + ms + 2#32 ≠ 0#32)
    (hnew : ∀ d ∈ a.sys.server.srv.conns.conns, d.ot ≠ a.settings.seq + ms + 2#32) (hm : Holds tags m)
    (hc : cs.length = ops.length) (hmk0 : Makes op c)
    (hmk : ∀ (i : Nat) op c, ops[i]? = some op → cs[i]? = some c → Makes op c.2) (hd : DoesAll m (op :: ops) os m') :
    ∃ s y k, a.calls C true addr port ((ms, c) :: cs) = (os.map .ok, ⟨s, y, true, true⟩) ∧ Joined s k ep y m' := by
  obtain ⟨y2, k, after, g1, g2, -, g4, g5, g6⟩ := C104_connects_partial C a.settings ms (dialed a.sys.server.srv addr port) route
    ⟨rfl, rfl, rfl⟩ hl hp hr
  have hj : Joined after k ep y2 m := g6 ep tags keys m h2 hres heps h0 hnew hm
  obtain ⟨y', e1, e2⟩ := calls_joined C true addr port k ep after (op :: ops) ((ms, c) :: cs) os y2 m m' hj (by simp [hc]) (by
    intro i op' c' ho hc'
    cases i with
    | zero => cases ho; cases hc'; exact hmk0
    | succ i => exact hmk i op' c' ho hc') hd
  have hck : c.checks = true := by
    cases c with
    | map seq es => exact absurd rfl (hfirst seq es)
    | _ => rfl
  have hchk : a.check C true ms addr port = (.ok (), ⟨after, y2, true, true⟩) := by
    unfold Caller.check
    rw [hno, g1]
    rfl
  have hchk2 : (Caller.mk after y2 true true).check C true ms addr port = (.ok (), ⟨after, y2, true, true⟩) := rfl
  have hcall : a.call C true ms addr port c = (Caller.mk after y2 true true).call C true ms addr port c := by
    unfold Caller.call
    rw [hck, if_pos rfl, if_pos rfl, hchk, hchk2]
  refine ⟨after, y', k, ?_, e2⟩
  rw [← e1]
  simp only [Caller.calls, hcall]

/-- C118: without leave to connect, every call of a client that is not connected is an error, and nothing reaches the
server: nothing changes. -/
theorem C118_not_allowed (C : Conv) (addr : Bytes) (port : BitVec 16) (a : Caller) (hno : a.connected = false)
    (cs : List (BitVec 32 × Call)) (hc : ∀ ms seq es, (ms, .map seq es) ∉ cs) :
    a.calls C false addr port cs = (cs.map fun _ => .err .fail, a) := by
  induction cs with
  | nil => rfl
  | cons c cs ih =>
    obtain ⟨ms, c⟩ := c
    have hck : c.checks = true := by
      cases c with
      | map seq es => exact absurd (List.mem_cons_self) (hc ms seq es)
      | _ => rfl
    have : a.call C false ms addr port c = (.err .fail, a) := by
      unfold Caller.call Caller.check
      rw [hck, hno]
      rfl
    simp only [Caller.calls, this, ih (fun ms seq es h => hc ms seq es (List.mem_cons_of_mem _ h)), List.map_cons]

/-- Disagreement: `WriteMap` does not look whether the client is connected.  With a client that never was, it crashes; with
one whose connection was lost it fails and does not connect again, whatever the client is allowed to. -/
theorem C118_map_not_checked (C : Conv) (auto : Bool) (addr : Bytes) (port : BitVec 16) (ms : BitVec 32) (a : Caller)
    (seq : BitVec 16) (es : List (Ioi × WVal)) (b : Bytes) (hno : a.connected = false) (hb : writeMapBytes seq es = .ok b) :
    (a.opened = false → a.call C auto ms addr port (.map seq es) = (.panic, a)) ∧
    (a.opened = true → a.sys.up = false → a.call C auto ms addr port (.map seq es) = (.err .eof, a)) := by
  refine ⟨fun ho => ?_, fun ho hu => ?_⟩
  · unfold Caller.call
    simp only [Call.checks, Bool.false_eq_true, if_false, ho, Call.frame, hb, Option.isSome_some, Bool.not_false, Bool.and_true, if_true]
  · unfold Caller.call
    simp only [Call.checks, Bool.false_eq_true, if_false, ho, Call.frame, hb, Option.isSome_some, Bool.not_true, Bool.false_and, hno]
    have hx : ∀ f, exchange C a.sys f = (.err .eof, a.sys) := by
      intro f; unfold exchange; rw [hu]; rfl
    simp only [perform, hb, hx]
    cases a
    cases hno
    cases ho
    rfl

/-- A client whose connection the server has given up learns of it with its next call, which is lost. -/
theorem down_call (C : Conv) (auto : Bool) (addr : Bytes) (port : BitVec 16) (ms : BitVec 32) (s : Settings) (y : Sys) (c : Call)
    (f : Bytes) (hu : y.up = false) (hf : c.frame s = some f) :
    (Caller.mk s y true true).call C auto ms addr port c = (.err .eof, ⟨s, y, false, true⟩) := by
  have hx : ∀ f, exchange C y f = (.err .eof, y) := by
    intro f; unfold exchange; rw [hu]; rfl
  have hp : perform C s y c = (.err .eof, y) := by
    cases c with
    | map seq es =>
      simp only [Call.frame] at hf
      simp only [perform, hx]
      cases hb : writeMapBytes seq es with
      | ok b => rfl
      | err e => rw [hb] at hf; cases hf
      | panic => rw [hb] at hf; cases hf
    | bits seq ioi n =>
      simp only [Call.frame] at hf
      by_cases h : n % 32 ≠ 0
      · rw [if_pos h] at hf; cases hf
      · simp only [perform, hx]; rw [if_neg h]; rfl
    | _ => simp only [perform, hx]; rfl
  have ha : c.answered C s y = false := by
    unfold Call.answered
    rw [hf]
    simp only [hx]
  unfold Caller.call Caller.check
  simp only [if_true, ite_self, Bool.not_true, Bool.false_and, Bool.false_eq_true, if_false, hp, ha, Bool.and_false]

/-- Disagreement: a read of a tag the server does not have costs the next call as well, even of a client that may connect by
itself.  The server answers the read and then gives the connection up; the client takes itself for connected, and what it asks
next, whatever it is, is lost.  Only the call after that connects again, to the same tags with the same values. -/
theorem C118_missing_costs_next (C : Conv) (addr : Bytes) (port : BitVec 16) (s : Settings) (k : Conn) (ep : Nat) (y : Sys)
    (tags : Store) (keys : List Str) (route : Bytes) (tag : List Part) (T : GoTy) (dt : Byte) (ioi : Ioi) (seq : BitVec 16)
    (ms0 ms1 ms : BitVec 32) (lost : Call) (f : Bytes) (op : Op) (ops : List Op) (c : Call) (cs : List (BitVec 32 × Call))
    (os : List Outcome) (m m' : Memory) (hq : Quiet y) (hsv : Serves y.server.srv s.ot k ep tags) (hm : Holds tags m)
    (hpath : ClientPath tag dt ioi) (hw : wholeName (render tag)) (hlen : ioi.buffer.length ≤ 65000)
    (hmissing : tags (toLower (render tag)) = none) (hlost : lost.frame s = some f)
    (hfirst : ∀ seq es, c ≠ .map seq es) (hl : s.logger = true)
    (hp : (∀ r, s.path = some r → route = r) ∧ (s.path = none → route = [1#8, 0#8]))
    (hr : Routable route) (h2 : route.length = 2) (hres : y.server.srv.router.resolve route = .ok ep)
    (heps : y.server.srv.eps ep = .tags tags keys) (h0 : s.seq + ms + 2#32 ≠ 0#32)
    (hnew : ∀ d ∈ y.server.srv.conns.conns, d.ot ≠ s.seq + ms + 2#32)
    (hc : cs.length = ops.length) (hmk0 : Makes op c)
    (hmk : ∀ (i : Nat) op c, ops[i]? = some op → cs[i]? = some c → Makes op c.2) (hd : DoesAll m (op :: ops) os m') :
    ∃ s' y' k', (Caller.mk s y true true).calls C true addr port ((ms0, .read seq ioi T) :: (ms1, lost) :: (ms, c) :: cs) =
      (.err .unexpectedEof :: .err .eof :: os.map .ok, ⟨s', y', true, true⟩) ∧ Joined s' k' ep y' m' := by
  obtain ⟨st', hdr, p, g1, g2, g3⟩ := missing_exchanged C s k ep y tags tag dt ioi seq hq hsv hpath hw hlen hmissing
  have hcall : (Caller.mk s y true true).call C true ms0 addr port (.read seq ioi T) =
      (.err .unexpectedEof, ⟨s, ⟨st', [], false⟩, true, true⟩) := by
    unfold Caller.call Caller.check
    simp only [if_true, ite_self, Bool.not_true, Bool.false_and, Bool.false_eq_true, if_false, perform, g2, Res.bind_ok, g3 T,
      Call.answered, Call.frame, Bool.and_true]
    rfl
  have hcall2 := down_call C true addr port ms1 s ⟨st', [], false⟩ lost f rfl hlost
  obtain ⟨s', y', k', e1, e2⟩ := C118_connects_partial C addr port ⟨s, ⟨st', [], false⟩, false, true⟩ route ep tags keys ms op ops c
    cs os m m' rfl hfirst hl hp hr h2 (by rw [← g1] at hres; exact hres) (by rw [← g1] at heps; exact heps) h0
    (by rw [← g1] at hnew; exact hnew) hm hc hmk0 hmk hd
  refine ⟨s', y', k', ?_, e2⟩
  rw [Caller.calls, hcall]
  simp only
  rw [Caller.calls, hcall2]
  simp only
  rw [e1]

/-- A client that has never been connected, and the server. -/
def demoCaller : Caller := ⟨bare, ⟨demoSt [], [], false⟩, false, false⟩

/-- The hypotheses of `C118_connects_partial` hold for it. -/
example : demoCaller.connected = false ∧ demoCaller.settings.logger = true ∧ demoCaller.settings.path = none ∧
    demoCaller.sys.server.srv.router.resolve [1#8, 0#8] = .ok 0 ∧ demoCaller.settings.seq + 5#32 + 2#32 ≠ 0#32 ∧
    (∀ d ∈ demoCaller.sys.server.srv.conns.conns, d.ot ≠ demoCaller.settings.seq + 5#32 + 2#32) := by
  refine ⟨rfl, rfl, rfl, rfl, by decide, by decide⟩

/-- It connects, loses a write after reading a tag that is not there, and connects again. -/
example : (demoCaller.calls demoConv true [] 0#16
    [(5#32, .write 1#16 (demoIoi "Count" tDINT) (.one (.i32 7#32))), (6#32, .read 2#16 (demoIoi "missing" tDINT) .i32),
     (7#32, .write 3#16 (demoIoi "Count" tDINT) (.one (.i32 8#32))), (8#32, .read 4#16 (demoIoi "Count" tDINT) .i32)]).1 =
    [.ok .done, .err .unexpectedEof, .err .eof, .ok (.value (.i32 7#32))] := by
  decide +kernel

/-- The same without leave to connect, and `WriteMap` before and after. -/
example : (demoCaller.calls demoConv false [] 0#16 [(5#32, .read 1#16 (demoIoi "Count" tDINT) .i32)]).1 = [.err .fail] ∧
    (demoCaller.calls demoConv true [] 0#16 [(5#32, .map 1#16 [(demoIoi "Count" tDINT, .one (.i32 6#32))])]).1 = [.panic] ∧
    (demoCaller.calls demoConv true [] 0#16
      [(5#32, .read 1#16 (demoIoi "missing" tDINT) .i32), (6#32, .read 2#16 (demoIoi "Count" tDINT) .i32),
       (7#32, .map 3#16 [(demoIoi "Count" tDINT, .one (.i32 6#32))]), (8#32, .map 4#16 [(demoIoi "Count" tDINT, .one (.i32 6#32))])]).1 =
      [.err .unexpectedEof, .err .eof, .err .eof, .err .eof] := by
  decide +kernel

end Gologix.Session
