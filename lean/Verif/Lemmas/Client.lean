import Verif.Spec.Client
set_option linter.unusedSimpArgs false
/-
A logic for goroutine programs: `wp p Q g` says that program `p`, run by a goroutine in ghost state `g` among
any other goroutines that obey the same rules, obeys the rules and ends in a state satisfying `Q`.
-/
namespace Gologix.Conc
open Spec
open Prog (one)

/-- The part of the client's status a goroutine is responsible for. -/
inductive Mode where
  | out
  | conn (dialled : Bool)
  | disc
deriving DecidableEq

/-- What the holder of the mutex has done on the connection. -/
inductive Io where
  | idle
  | writing (c : Nat) (req sent : Bytes)
  | wrote (c : Nat) (req recv : Bytes)
  | reading (c : Nat) (req recv : Bytes) (c' : Nat) (acc : Bytes)
  | dead
  | done

structure Ghost where
  mode : Mode
  last : Option Status
  lk : Option (Status × Io)

/-- Statuses possible while a goroutine is in a mode. -/
def consistent : Mode → Status → Prop
  | .out, _ => True
  | .conn _, s => s = .connecting
  | .disc, s => s = .disconnecting

/-- Status changes a goroutine may make. -/
def trans : Mode → Status → Status → Option Mode
  | .out, .disconnected, .connecting => some (.conn false)
  | .out, .connected, .disconnecting => some .disc
  | .conn true, _, .connected => some .out
  | .conn _, _, .disconnected => some .out
  | .disc, _, .disconnected => some .out
  | _, _, _ => none

/-- What a call may report, given the status it set last. -/
def resultOK (last : Option Status) (cn ac ok : Bool) : Prop :=
  if ac then last = some (if cn && ok then .connected else .disconnected) else last = none ∧ ok = false

def wp {α : Type} : Prog α → (α → Ghost → Prop) → Ghost → Prop
  | .pure a, Q, g => Q a g
  | .act .lock k, Q, g => g.lk = none ∧ ∀ s, consistent g.mode s → wp (k ()) Q { g with lk := some (s, .idle) }
  | .act .unlock k, Q, g => (∃ s io, g.lk = some (s, io)) ∧ wp (k ()) Q { g with lk := none }
  | .act .getStatus k, Q, g => ∃ s io, g.lk = some (s, io) ∧ wp (k s) Q g
  | .act (.setStatus st) k, Q, g => ∃ s io m, g.lk = some (s, io) ∧ trans g.mode s st = some m ∧
      wp (k ()) Q { mode := m, last := some st, lk := some (st, io) }
  | .act .dial k, Q, g | .act .dialing k, Q, g => (∃ d, g.mode = .conn d) ∧ g.lk = none ∧
      ∀ r, wp (k r) Q { g with mode := .conn r }
  | .act (.write b) k, Q, g => ∃ s, g.lk = some (s, .idle) ∧
      (∀ c, wp (k true) Q { g with lk := some (s, .wrote c b []) }) ∧ wp (k false) Q { g with lk := some (s, .dead) }
  | .act (.writing c b) k, Q, g => ∃ s req sent, g.lk = some (s, .writing c req sent) ∧ sent ++ b = req ∧
      wp (k true) Q { g with lk := some (s, .wrote c req []) } ∧ wp (k false) Q { g with lk := some (s, .dead) }
  | .act (.read n) k, Q, g => ∃ s c req r, g.lk = some (s, .wrote c req r) ∧
      (∀ bs, bs.length = n → wp (k (some bs)) Q { g with lk := some (s, .wrote c req (r ++ bs)) }) ∧
      wp (k none) Q { g with lk := some (s, .dead) }
  | .act (.reading c' n acc) k, Q, g => ∃ s c req r, g.lk = some (s, .reading c req r c' acc) ∧
      (∀ bs, bs.length = n → wp (k (some bs)) Q { g with lk := some (s, .wrote c req (r ++ bs)) }) ∧
      wp (k none) Q { g with lk := some (s, .dead) }
  | .act .close k, Q, g => g.mode = .disc ∧ g.lk = none ∧ wp (k ()) Q g
  | .act (.handed req h p) k, Q, g => ∃ s c, g.lk = some (s, .wrote c req (h ++ p)) ∧ h.length = 24 ∧
      p.length = hdrLen h ∧ wp (k ()) Q { g with lk := some (s, .done) }
  | .act (.result cn ac ok) k, Q, g => resultOK g.last cn ac ok ∧ wp (k ()) Q g
  | .act .choose k, Q, g | .act .kaWait k, Q, g => ∀ r, wp (k r) Q g
  | .act .pick k, Q, g => ∀ b, wp (k b) Q g
  | .act .kaStart k, Q, g | .act .kaEnd k, Q, g | .act .kaClose k, Q, g => wp (k ()) Q g
  | .act .abort _, _, _ => False

theorem wp_bind {α β : Type} (p : Prog α) (f : α → Prog β) (Q : β → Ghost → Prop) (g : Ghost) :
    wp (p.bind f) Q g ↔ wp p (fun a g => wp (f a) Q g) g := by
  induction p generalizing g with
  | pure a => exact Iff.rfl
  | act a k ih => cases a <;> simp only [Prog.bind, wp, ih]

theorem wp_mono {α : Type} (p : Prog α) (Q Q' : α → Ghost → Prop) (g : Ghost)
    (h : wp p Q g) (hq : ∀ a g, Q a g → Q' a g) : wp p Q' g := by
  induction p generalizing g with
  | pure a => exact hq _ _ h
  | act a k ih =>
    cases a <;> simp only [wp] at h ⊢
    case lock => exact ⟨h.1, fun s hs => ih _ _ (h.2 s hs)⟩
    case unlock => exact ⟨h.1, ih _ _ h.2⟩
    case getStatus => obtain ⟨s, io, h1, h2⟩ := h; exact ⟨s, io, h1, ih _ _ h2⟩
    case setStatus => obtain ⟨s, io, m, h1, h2, h3⟩ := h; exact ⟨s, io, m, h1, h2, ih _ _ h3⟩
    case dial => exact ⟨h.1, h.2.1, fun r => ih _ _ (h.2.2 r)⟩
    case dialing => exact ⟨h.1, h.2.1, fun r => ih _ _ (h.2.2 r)⟩
    case write => obtain ⟨s, h1, h2, h3⟩ := h; exact ⟨s, h1, fun c => ih _ _ (h2 c), ih _ _ h3⟩
    case writing =>
      obtain ⟨s, r, x, h1, h2, h3, h4⟩ := h; exact ⟨s, r, x, h1, h2, ih _ _ h3, ih _ _ h4⟩
    case read =>
      obtain ⟨s, c, r, x, h1, h2, h3⟩ := h; exact ⟨s, c, r, x, h1, fun b hb => ih _ _ (h2 b hb), ih _ _ h3⟩
    case reading =>
      obtain ⟨s, c, r, x, h1, h2, h3⟩ := h; exact ⟨s, c, r, x, h1, fun b hb => ih _ _ (h2 b hb), ih _ _ h3⟩
    case close => exact ⟨h.1, h.2.1, ih _ _ h.2.2⟩
    case handed => obtain ⟨s, c, h1, h2, h3, h4⟩ := h; exact ⟨s, c, h1, h2, h3, ih _ _ h4⟩
    case result => exact ⟨h.1, ih _ _ h.2⟩
    case choose => exact fun r => ih _ _ (h r)
    case kaWait => exact fun r => ih _ _ (h r)
    case pick => exact fun r => ih _ _ (h r)
    case kaStart => exact ih _ _ h
    case kaEnd => exact ih _ _ h
    case kaClose => exact ih _ _ h

/-- `wp_bind` for programs in do-notation. -/
theorem wp_do {α β : Type} (p : Prog α) (f : α → Prog β) (Q : β → Ghost → Prop) (g : Ghost) :
    wp (p >>= f) Q g ↔ wp p (fun a g => wp (f a) Q g) g := wp_bind p f Q g

theorem wp_pure {α : Type} (a : α) (Q : α → Ghost → Prop) (g : Ghost) : wp (pure a : Prog α) Q g ↔ Q a g := Iff.rfl

theorem wp_ite {α : Type} (b : Bool) (p q : Prog α) (Q : α → Ghost → Prop) (g : Ghost)
    (h1 : b = true → wp p Q g) (h2 : b = false → wp q Q g) : wp (if b = true then p else q) Q g := by
  cases b
  · exact h2 rfl
  · exact h1 rfl

theorem startConnect_wp (g : Ghost) (hm : g.mode = .out) (hl : g.lk = none) :
    wp startConnect (fun b g' => g' = if b then ⟨.conn false, some .connecting, none⟩ else g) g := by
  obtain ⟨m, la, lk⟩ := g
  simp only at hm hl
  subst hm hl
  simp only [startConnect, wp_do, one, wp]
  refine ⟨trivial, fun s _ => ⟨s, .idle, rfl, ?_⟩⟩
  cases s <;> simp [wp_do, wp, trans, one, wp_pure]

theorem startDisconnect_wp (g : Ghost) (hl : g.lk = none) :
    wp startDisconnect (fun b g' => (b = true → g.mode = .out) ∧
      g' = if b then ⟨.disc, some .disconnecting, none⟩ else g) g := by
  obtain ⟨m, la, lk⟩ := g
  simp only at hl
  subst hl
  simp only [startDisconnect, wp_do, one, wp]
  refine ⟨trivial, fun s hs => ⟨s, .idle, rfl, ?_⟩⟩
  cases s <;> simp [wp_do, wp, trans, one, wp_pure]
  cases m <;> simp [consistent] at hs ⊢

theorem finish_wp (g : Ghost) (s : Status) (hl : g.lk = none)
    (hs : ∀ st, consistent g.mode st → trans g.mode st s = some .out) :
    wp (finish s) (fun _ g' => g' = ⟨.out, some s, none⟩) g := by
  obtain ⟨m, la, lk⟩ := g
  simp only at hl hs
  subst hl
  simp only [finish, wp_do, one, wp]
  exact ⟨trivial, fun st hst => ⟨st, .idle, .out, rfl, hs st hst, ⟨_, _, rfl⟩, rfl⟩⟩

theorem recvData_wp (g : Ghost) (s : Status) (c : Nat) (req : Bytes) (hl : g.lk = some (s, .wrote c req [])) :
    wp recvData (fun r g' => match r with
      | some (h, p) => g' = { g with lk := some (s, .wrote c req (h ++ p)) } ∧ h.length = 24 ∧ p.length = hdrLen h
      | none => g' = { g with lk := some (s, .dead) }) g := by
  simp only [recvData, wp_do, one, wp]
  refine ⟨s, c, req, [], hl, fun h hh => ?_, ?_⟩
  · simp only [List.nil_append]
    split
    · simp only [wp_do, wp]
      exact ⟨s, c, req, h, rfl, fun p hp => ⟨rfl, hh, hp⟩, rfl⟩
    · refine ⟨by simp, hh, ?_⟩
      simp; omega
  · exact rfl

/-- What a call of send_recv_data or Disconnect leaves behind. -/
def kept (g g' : Ghost) : Prop := g'.mode = g.mode ∧ g'.lk = none ∧ (g.mode ≠ .out → g' = g)

theorem sendRecvWith_wp (disc : Prog (Bool × Bool)) (req : Bytes) (g : Ghost) (hl : g.lk = none)
    (hd : wp disc (fun _ g' => kept g g') g) :
    wp (sendRecvWith disc req) (fun _ g' => kept g g') g := by
  obtain ⟨m, la, lk⟩ := g
  simp only at hl
  subst hl
  simp only [sendRecvWith, wp_do, one, wp]
  refine ⟨trivial, fun s _ => ⟨s, rfl, fun c => ?_, ?_⟩⟩
  · simp only [if_true, wp_do]
    refine wp_mono _ _ _ _ (recvData_wp _ s c req rfl) ?_
    intro r g' h
    cases r with
    | none =>
      simp only at h
      subst h
      simp only [wp_do, one, wp]
      exact ⟨⟨_, _, rfl⟩, wp_mono _ _ _ _ hd (fun a g h => h)⟩
    | some hp =>
      obtain ⟨hh, p⟩ := hp
      obtain ⟨rfl, h1, h2⟩ := h
      simp only [wp_do, one, wp]
      exact ⟨s, c, rfl, h1, h2, ⟨_, _, rfl⟩, rfl, rfl, fun _ => rfl⟩
  · simp only [Bool.false_eq_true, if_false, wp_do, wp]
    exact ⟨⟨_, _, rfl⟩, wp_mono _ _ _ _ hd (fun a g h => h)⟩

/-- In any mode but `out` Disconnect is refused. -/
theorem disconnectN_refused (n : Nat) (g : Ghost) (hm : g.mode ≠ .out) (hl : g.lk = none) :
    wp (disconnectN (n + 1)) (fun r g' => r = (false, false) ∧ g' = g) g := by
  simp only [disconnectN, wp_do]
  refine wp_mono _ _ _ _ (startDisconnect_wp g hl) ?_
  rintro b g' ⟨hb, rfl⟩
  cases b with
  | true => exact absurd (hb rfl) hm
  | false => exact ⟨rfl, rfl⟩

theorem disconnectBody_wp (exch : Bytes → Prog (Option (Bytes × Bytes))) (g : Ghost) (hm : g.mode = .disc)
    (hl : g.lk = none) (he : ∀ req, wp (exch req) (fun _ g' => kept g g') g) :
    wp (disconnectBody exch) (fun _ g' => g' = g) g := by
  simp only [disconnectBody, wp_do, one, wp]
  intro r
  refine wp_ite _ _ _ _ _ (fun _ => ?_) (fun _ => ?_)
  · simp only [wp_do, wp]
    exact ⟨hm, hl, rfl⟩
  · simp only [wp_do, wp]
    intro b
    refine wp_mono _ _ _ _ (he b) ?_
    intro _ g' h
    have : g' = g := h.2.2 (by rw [hm]; decide)
    subst this
    exact ⟨hm, hl, rfl⟩

/-- Disconnect called by a goroutine that is not connecting or disconnecting. -/
theorem disconnect_wp (g : Ghost) (hl : g.lk = none) :
    wp disconnect (fun r g' => (g' = if r.1 then ⟨.out, some .disconnected, none⟩ else g) ∧
      (r.1 = false → r.2 = false)) g := by
  simp only [disconnect, disconnectN, wp_do]
  refine wp_mono _ _ _ _ (startDisconnect_wp g hl) ?_
  rintro b g' ⟨-, rfl⟩
  cases b with
  | false => exact ⟨rfl, fun _ => rfl⟩
  | true =>
    simp only [if_true, wp_do]
    have hd := disconnectN_refused 0 ⟨.disc, some .disconnecting, none⟩ (by decide) rfl
    refine wp_mono _ _ _ _ (disconnectBody_wp _ ⟨.disc, some .disconnecting, none⟩ rfl rfl fun req =>
      sendRecvWith_wp _ req _ rfl (wp_mono _ _ _ _ hd ?_)) ?_
    · rintro r g' ⟨-, rfl⟩
      exact ⟨rfl, rfl, fun _ => rfl⟩
    · rintro ok g' rfl
      refine wp_mono _ _ _ _ (finish_wp _ .disconnected rfl ?_) ?_
      · intro st _; rfl
      · rintro _ g' rfl
        exact ⟨rfl, by simp⟩

theorem disconnect_kept (g : Ghost) (hl : g.lk = none) : wp disconnect (fun _ g' => kept g g') g := by
  by_cases hm : g.mode = .out
  · refine wp_mono _ _ _ _ (disconnect_wp g hl) ?_
    rintro r g' ⟨rfl, -⟩
    split
    · exact ⟨hm.symm, rfl, fun h => absurd hm h⟩
    · exact ⟨rfl, hl, fun _ => rfl⟩
  · refine wp_mono _ _ _ _ (disconnectN_refused 1 g hm hl) ?_
    rintro r g' ⟨-, rfl⟩
    exact ⟨rfl, hl, fun _ => rfl⟩

theorem sendRecv_wp (req : Bytes) (g : Ghost) (hl : g.lk = none) :
    wp (sendRecv req) (fun _ g' => kept g g') g :=
  sendRecvWith_wp _ req g hl (disconnect_kept g hl)

theorem registerSession_wp (g : Ghost) (hm : g.mode ≠ .out) (hl : g.lk = none) :
    wp registerSession (fun _ g' => g' = g) g := by
  simp only [registerSession, wp_do, one, wp]
  intro b
  refine wp_mono _ _ _ _ (sendRecv_wp b g hl) ?_
  intro r g' h
  cases r <;> exact h.2.2 hm

theorem forwardOpen_wp (g : Ghost) (hm : g.mode ≠ .out) (hl : g.lk = none) :
    wp forwardOpen (fun _ g' => g' = g) g := by
  simp only [forwardOpen, wp_do, one, wp]
  intro r
  refine wp_ite _ _ _ _ _ (fun _ => rfl) (fun _ => ?_)
  simp only [wp_do, wp]
  intro b
  refine wp_mono _ _ _ _ (sendRecv_wp b g hl) ?_
  intro r g' h
  have := h.2.2 hm
  cases r with
  | none => exact this
  | some _ => simp only [wp]; exact fun _ => this

theorem connectBody_wp (g : Ghost) (d : Bool) (hm : g.mode = .conn d) (hl : g.lk = none) :
    wp connectBody (fun ok g' => (∃ d', g' = { g with mode := .conn d' }) ∧
      (ok = true → g' = { g with mode := .conn true })) g := by
  simp only [connectBody, wp_do, one, wp]
  intro r
  refine wp_ite _ _ _ _ _ (fun _ => ⟨⟨d, by rw [← hm]⟩, by simp⟩) (fun _ => ?_)
  simp only [wp_do, wp]
  refine ⟨⟨d, hm⟩, hl, fun r => ?_⟩
  refine wp_ite _ _ _ _ _ (fun hr => ?_) (fun hr => ⟨⟨r, rfl⟩, by simp⟩)
  subst hr
  simp only [wp_do]
  have hm' : ({ g with mode := .conn true } : Ghost).mode ≠ .out := by simp
  have hfo : wp forwardOpen (fun ok g' => (∃ d', g' = { g with mode := .conn d' }) ∧
      (ok = true → g' = { g with mode := .conn true })) { g with mode := .conn true } :=
    wp_mono _ _ _ _ (forwardOpen_wp _ hm' hl) (by rintro _ _ rfl; exact ⟨⟨true, rfl⟩, fun _ => rfl⟩)
  refine wp_mono _ _ _ _ (registerSession_wp _ hm' hl) ?_
  rintro b g' rfl
  refine wp_ite _ _ _ _ _ (fun _ => ?_) (fun _ => ⟨⟨true, rfl⟩, fun _ => rfl⟩)
  simp only [wp_do, wp]
  intro large
  refine wp_ite _ _ _ _ _ (fun _ => ?_) (fun _ => hfo)
  simp only [wp_do, wp]
  intro r
  refine wp_ite _ _ _ _ _ (fun _ => ⟨⟨true, rfl⟩, fun _ => rfl⟩) (fun _ => ?_)
  simp only [wp_do]
  refine wp_mono _ _ _ _ (forwardOpen_wp _ hm' hl) ?_
  rintro b g' rfl
  exact wp_ite _ _ _ _ _ (fun _ => ⟨⟨true, rfl⟩, fun _ => rfl⟩) (fun _ => hfo)

/-- Connect called by a goroutine that is not connecting or disconnecting. -/
theorem connect_wp (g : Ghost) (hm : g.mode = .out) (hl : g.lk = none) :
    wp connect (fun r g' => (g' = if r.1 then ⟨.out, some (if r.2 then .connected else .disconnected), none⟩ else g) ∧
      (r.1 = false → r.2 = false)) g := by
  simp only [connect, wp_do]
  refine wp_mono _ _ _ _ (startConnect_wp g hm hl) ?_
  rintro b g' rfl
  refine wp_ite _ _ _ _ _ (fun hb => ?_) (fun hb => ?_)
  · subst hb
    simp only [wp_do, if_true]
    refine wp_mono _ _ _ _ (connectBody_wp _ false rfl rfl) ?_
    rintro ok g' ⟨⟨d, hd⟩, hok⟩
    have hl' : g'.lk = none := by rw [hd]
    refine wp_mono _ _ _ _ (finish_wp g' (if ok then .connected else .disconnected) hl' ?_) ?_
    · intro st _
      cases ok with
      | true => rw [hok rfl]; rfl
      | false => rw [hd]; cases d <;> rfl
    · rintro _ g' rfl
      exact ⟨rfl, by simp⟩
  · subst hb
    exact ⟨rfl, fun _ => rfl⟩

theorem isConnected_wp (g : Ghost) (hl : g.lk = none) : wp isConnected (fun _ g' => g' = g) g := by
  obtain ⟨m, la, lk⟩ := g
  simp only at hl
  subst hl
  simp only [isConnected, wp_do, one, wp]
  exact ⟨trivial, fun s _ => ⟨s, .idle, rfl, ⟨_, _, rfl⟩, rfl⟩⟩

def outside (g : Ghost) : Prop := g.mode = .out ∧ g.lk = none

theorem checkConnection_wp (g : Ghost) (h : outside g) : wp checkConnection (fun _ g' => outside g') g := by
  simp only [checkConnection, wp_do]
  refine wp_mono _ _ _ _ (isConnected_wp g h.2) ?_
  rintro b g' rfl
  refine wp_ite _ _ _ _ _ (fun _ => h) (fun _ => ?_)
  simp only [wp_do, one, wp]
  intro r
  refine wp_ite _ _ _ _ _ (fun _ => ?_) (fun _ => h)
  simp only [wp_do]
  refine wp_mono _ _ _ _ (connect_wp g' h.1 h.2) ?_
  rintro r g'' ⟨rfl, -⟩
  show outside _
  split
  · exact ⟨rfl, rfl⟩
  · exact h

theorem request_wp (g : Ghost) (h : outside g) : wp request (fun _ g' => outside g') g := by
  simp only [request, wp_do]
  refine wp_mono _ _ _ _ (checkConnection_wp g h) ?_
  intro b g' h
  refine wp_ite _ _ _ _ _ (fun _ => ?_) (fun _ => h)
  simp only [wp_do, one, wp]
  intro b
  refine wp_mono _ _ _ _ (sendRecv_wp b g' h.2) ?_
  intro r g'' h'
  have : outside g'' := ⟨h'.1.trans h.1, h'.2.1⟩
  cases r with
  | none => exact this
  | some _ => simp only [wp]; exact fun _ => this

theorem disconnect_outside (g : Ghost) (h : outside g) : wp disconnect (fun _ g' => outside g') g :=
  wp_mono _ _ _ _ (disconnect_kept g h.2) fun _ _ h' => ⟨h'.1.trans h.1, h'.2.1⟩

theorem keepAliveLoop_wp (n : Nat) (g : Ghost) (h : outside g) :
    wp (keepAliveLoop n) (fun _ g' => outside g') g := by
  induction n generalizing g with
  | zero => exact h
  | succ n ih =>
    simp only [keepAliveLoop, wp_do, one, wp]
    intro r
    refine wp_ite _ _ _ _ _ (fun _ => ?_) (fun _ => h)
    simp only [wp_do]
    refine wp_mono _ _ _ _ (isConnected_wp g h.2) ?_
    rintro b g' rfl
    refine wp_ite _ _ _ _ _ (fun _ => ?_) (fun _ => h)
    simp only [wp_do]
    refine wp_mono _ _ _ _ (request_wp g' h) ?_
    intro b g'' h
    refine wp_ite _ _ _ _ _ (fun _ => ?_) (fun _ => ?_)
    · simp only [wp_do, wp]
      intro r
      refine wp_ite _ _ _ _ _ (fun _ => ?_) (fun _ => ih _ h)
      simp only [wp_do]
      refine wp_mono _ _ _ _ (request_wp _ h) ?_
      intro b g3 h
      exact wp_ite _ _ _ _ _ (fun _ => ih _ h) (fun _ => h)
    · simp only [wp_do]
      exact wp_mono _ _ _ _ (disconnect_outside _ h) fun _ _ h => h

theorem keepAlive_wp (n : Nat) (g : Ghost) (h : outside g) : wp (keepAlive n) (fun _ g' => outside g') g := by
  simp only [keepAlive, wp_do, one, wp]
  refine wp_mono _ _ _ _ (request_wp g h) ?_
  intro b g' h
  refine wp_ite _ _ _ _ _ (fun _ => ?_) (fun _ => ?_)
  · simp only [wp_do]
    exact wp_mono _ _ _ _ (keepAliveLoop_wp n g' h) fun _ _ h => h
  · exact h

/-- Every call obeys the rules. -/
theorem op_wp (op : Op) : wp op.prog (fun _ g' => outside g') ⟨.out, none, none⟩ := by
  have h0 : outside ⟨.out, none, none⟩ := ⟨rfl, rfl⟩
  cases op with
  | connect =>
    simp only [Op.prog, wp_do]
    refine wp_mono _ _ _ _ (connect_wp _ rfl rfl) ?_
    rintro ⟨ac, ok⟩ g' ⟨rfl, h⟩
    simp only [one, wp]
    cases ac <;> cases ok <;> simp_all [resultOK, outside]
  | disconnect =>
    simp only [Op.prog, wp_do]
    refine wp_mono _ _ _ _ (disconnect_wp _ rfl) ?_
    rintro ⟨ac, ok⟩ g' ⟨rfl, h⟩
    simp only [one, wp]
    cases ac <;> cases ok <;> simp_all [resultOK, outside]
  | request =>
    simp only [Op.prog, wp_do]
    exact wp_mono _ _ _ _ (request_wp _ h0) fun _ _ h => h
  | keepAlive n => exact keepAlive_wp n _ h0

end Gologix.Conc
