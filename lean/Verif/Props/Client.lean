import Verif.Lemmas.ClientSafe
import Verif.Lemmas.ClientTidy
import Verif.Spec.Client
set_option linter.unusedSimpArgs false
/-
C27, C28, C29 and C60, C61, C62: goroutines sharing one client.  `Reach s` is any state of any number of
goroutines under any schedule and any behaviour of the network.
-/
namespace Gologix.Conc
open Spec
open Prog (one)

/-! ### Runs used in examples -/

/-- `n` steps of goroutine `t`. -/
def go (t n : Nat) : List Choice := List.replicate n (.run t true [])

/-- A device that answers each byte with a bare header carrying that byte. -/
def dev (b : Byte) : Bytes := List.replicate 12 0#8 ++ [b] ++ List.replicate 11 0#8

/-- Send a one-byte request on connection `c` and receive the answer; then unlock. -/
def goExchange (t c : Nat) : List Choice :=
  [.run t true [7#8]] ++ go t 4 ++ [.deliver c (dev 7)] ++ go t 28

/-- A Connect of goroutine `t` on connection `c` that succeeds. -/
def goConnect (t c : Nat) : List Choice :=
  [.call t .connect] ++ go t 4 ++ [.run t false []] ++ go t 2 ++ goExchange t c ++
  [.run t false [], .run t false []] ++ goExchange t c ++ go t 5

/-- A Connect of goroutine `t` whose dial fails. -/
def goConnectFail (t : Nat) : List Choice :=
  [.call t .connect] ++ go t 4 ++ [.run t false [], .run t true [], .run t false []] ++ go t 4

/-- A Disconnect of goroutine `t` on connection `c`. -/
def goDisconnect (t c : Nat) : List Choice :=
  [.call t .disconnect] ++ go t 5 ++ [.run t false []] ++ goExchange t c ++ go t 5

/-- What remains to be done by `t` (none if its program has ended). -/
def nextAct (s : Client) (t : Nat) : Option Act :=
  match s.prog t with
  | .pure _ => none
  | .act a _ => some a

example : (runs .init (goConnect 0 0)).map (fun s => (s.status, nextAct s 0, s.notes.getLast?)) =
    some (.connected, none, some (.result 0 true true true)) := by decide +kernel

example : (runs .init (goConnect 0 0 ++ goDisconnect 1 0)).map (fun s => (s.status, nextAct s 1, s.notes.getLast?)) =
    some (.disconnected, none, some (.result 1 false true true)) := by decide +kernel

example : (runs .init (goConnectFail 0)).map (fun s => (s.status, nextAct s 0, s.notes.getLast?)) =
    some (.disconnected, none, some (.result 0 true true false)) := by decide +kernel


/-- Goroutines that are never called stay idle. -/
theorem exec_other (s s' : Client) (t t' : Nat) (ok : Bool) (b : Bytes) (p : Prog Unit) (hne : t' ≠ t)
    (h : exec s t ok b p = some s') : s'.prog t' = s.prog t' := by
  cases p with
  | pure a => cases h
  | act a k =>
    cases a
    case writing c d =>
      cases d <;> simp only [exec] at h <;> (repeat' split at h) <;> cases h <;>
        first | rfl | exact upd_ne _ _ hne
    all_goals
      simp only [exec] at h
      (repeat' split at h) <;> cases h <;> first | rfl | exact upd_ne _ _ hne

theorem runs_idle (t : Nat) (cs : List Choice) : ∀ (s s' : Client), (s.prog t).isPure = true →
    (∀ op, .call t op ∉ cs) → runs s cs = some s' → (s'.prog t).isPure = true := by
  induction cs with
  | nil => intro s s' h _ e; injection e with e; subst e; exact h
  | cons c cs ih =>
    intro s s' h hc e
    simp only [runs] at e
    cases hs : step s c with
    | none => rw [hs] at e; cases e
    | some s1 =>
      rw [hs] at e
      refine ih s1 s' ?_ (fun op ho => hc op (List.mem_cons_of_mem _ ho)) e
      unfold step at hs
      split at hs
      · cases hs
      cases c with
      | call t' op =>
        simp only at hs
        split at hs
        · injection hs with hs; subst hs
          have hne : t ≠ t' := by
            intro he; subst he; exact hc op (List.mem_cons_self ..)
          simp only [upd_ne _ _ hne]; exact h
        · cases hs
      | run t' ok b =>
        simp only at hs
        by_cases hne : t = t'
        · subst hne
          cases hp : s.prog t with
          | pure a => rw [hp] at hs; cases hs
          | act a k => rw [hp] at h; cases h
        · rw [exec_other _ _ _ _ _ _ _ hne hs]; exact h
      | deliver c b =>
        simp only at hs
        split at hs
        · cases hs
        · injection hs with hs; subst hs; exact h

/-- A trace that can be run, with facts about the state it leads to. -/
theorem run_facts {α : Type} (cs : List Choice) (f : Client → α) (a : α) (h : (runs .init cs).map f = some a) :
    ∃ s, runs .init cs = some s ∧ f s = a := by
  cases hr : runs .init cs with
  | none => rw [hr] at h; cases h
  | some s => rw [hr] at h; exact ⟨s, rfl, Option.some.inj h⟩

theorem pure_of_nextAct {s : Client} {t : Nat} (h : nextAct s t = none) : (s.prog t).isPure = true := by
  unfold nextAct at h
  cases hp : s.prog t with
  | pure a => rfl
  | act a k => rw [hp] at h; cases h

theorem snoc_induction {α : Type} {P : List α → Prop} (l : List α) (nil : P []) (snoc : ∀ l x, P l → P (l ++ [x])) :
    P l := by
  have : ∀ l : List α, P l.reverse := by
    intro l
    induction l with
    | nil => exact nil
    | cons x l ih => rw [List.reverse_cons]; exact snoc _ _ ih
  have h := this l.reverse
  rwa [List.reverse_reverse] at h

/-! ### C27 -/

/-- Once no call is in progress the client is connected or disconnected and the mutex is free, after every
interleaving of any number of calls with any outcome of every network step. -/
theorem C27_quiescent {s : Client} (h : Reach s) (hq : ∀ t, (s.prog t).isPure = true) :
    (s.status = .connected ∨ s.status = .disconnected) ∧ s.lock = none := by
  obtain ⟨g, h⟩ := reach_inv h
  have out : ∀ t, outside (g t) := by
    intro t
    have h1 := h.progs t
    have h2 := hq t
    cases hp : s.prog t with
    | pure a => rw [hp] at h1; exact h1
    | act a k => rw [hp] at h2; cases h2
  constructor
  · cases hs : s.status with
    | connected => exact Or.inl rfl
    | disconnected => exact Or.inr rfl
    | connecting => obtain ⟨t, d, ht⟩ := h.ownC hs; rw [(out t).1] at ht; cases ht
    | disconnecting => obtain ⟨t, ht⟩ := h.ownD hs; rw [(out t).1] at ht; cases ht
  · cases hl : s.lock with
    | none => rfl
    | some t => exact absurd (out t).2 (h.lock2 t hl)

example : Reach (((runs .init (goConnect 0 0)).getD .init)) := ⟨goConnect 0 0, by rfl⟩

/-- Every event in the log of every run is as `NoteOK` says, and the client's status is what the log says. -/
theorem C27_log {s : Client} (h : Reach s) :
    (∀ pre n post, s.notes = pre ++ n :: post → NoteOK pre n) ∧ s.status = statusOf s.notes := by
  obtain ⟨g, h⟩ := reach_inv h
  exact ⟨h.notes, h.stat.symm⟩

theorem status_of_last (t : Nat) (pre : List Note) (op : Op) (mid : List Note) (st : Status)
    (hmid : ∀ t' st', .status t' st' ∈ mid → t' = t) (h : lastSet t (pre ++ .called t op :: mid) = some st) :
    statusOf (pre ++ .called t op :: mid) = st := by
  induction mid using snoc_induction generalizing st with
  | nil =>
    rw [lastSet_snoc] at h
    simp at h
  | snoc mid n ih =>
    rw [show pre ++ Note.called t op :: (mid ++ [n]) = (pre ++ .called t op :: mid) ++ [n] by simp] at h ⊢
    rw [lastSet_snoc] at h
    rw [statusOf_snoc]
    have hm : ∀ t' st', .status t' st' ∈ mid → t' = t := fun t' st' h => hmid t' st' (by simp [h])
    cases n with
    | called t' op' =>
      simp only at h ⊢
      by_cases ht : t' = t
      · rw [if_pos ht] at h; cases h
      · rw [if_neg ht] at h; exact ih st hm h
    | status t' st' =>
      have := hmid t' st' (by simp)
      simp only [this, if_true] at h ⊢
      exact Option.some.inj h
    | dialled t' => exact ih st hm h
    | opened t' c => exact ih st hm h
    | result t' a b c => exact ih st hm h

/-- A Connect that is accepted leaves the client connected if it succeeds and disconnected if it fails, and an
accepted Disconnect leaves it disconnected: when the call returns the status is this, unless another goroutine
has changed it since the call began. -/
theorem C27_outcome {s : Client} (h : Reach s) (t : Nat) (op : Op) (pre mid : List Note) (cn ok : Bool)
    (hn : s.notes = pre ++ .called t op :: mid ++ [.result t cn true ok])
    (hmid : ∀ t' st', .status t' st' ∈ mid → t' = t) :
    s.status = if cn && ok then .connected else .disconnected := by
  obtain ⟨h1, h2⟩ := C27_log h
  have := h1 _ _ [] hn
  rw [h2, hn, statusOf_snoc]
  exact status_of_last t pre op mid _ hmid this

/-- A refused Connect or Disconnect changes nothing, and reports an error. -/
theorem C27_refused {s : Client} (h : Reach s) (t : Nat) (pre post : List Note) (cn ok : Bool)
    (hn : s.notes = pre ++ .result t cn false ok :: post) : lastSet t pre = none ∧ ok = false :=
  (C27_log h).1 _ _ _ hn

/-- The literal claim that a Disconnect always ends disconnected is false: it is refused while another goroutine
is connecting, and then the client ends connected. -/
theorem C27_disconnect_refused_while_connecting :
    ∃ s, Reach s ∧ (∀ t, (s.prog t).isPure = true) ∧ s.status = .connected ∧
      ∃ pre post, s.notes = pre ++ .result 1 false false false :: post := by
  let tr := (goConnect 0 0).take 6 ++ [.call 1 .disconnect] ++ go 1 4 ++ (goConnect 0 0).drop 6
  obtain ⟨s, hs, h1⟩ := run_facts tr (fun s => (s.status, nextAct s 0, nextAct s 1, s.notes))
    (.connected, none, none, [.called 0 .connect, .status 0 .connecting, .called 1 .disconnect] ++
      .result 1 false false false :: [.dialled 0, .opened 0 0, .status 0 .connected, .result 0 true true true]) (by decide +kernel)
  simp only [Prod.mk.injEq] at h1
  refine ⟨s, ⟨tr, hs⟩, ?_, h1.1, _, _, h1.2.2.2⟩
  intro t
  by_cases h0 : t = 0
  · subst h0; exact pure_of_nextAct h1.2.1
  by_cases h0' : t = 1
  · subst h0'; exact pure_of_nextAct h1.2.2.1
  refine runs_idle t tr _ _ rfl ?_ hs
  intro op
  simp [tr, goConnect, go, goExchange, h0, h0', List.mem_replicate]


/-! A run in which goroutines only disconnect. -/

/-- No action of the program satisfies `P`. -/
def never {α : Type} (P : Act → Prop) : Prog α → Prop
  | .pure _ => True
  | .act a k => ¬P a ∧ ∀ r, never P (k r)

theorem never_bind {α β : Type} (P : Act → Prop) (p : Prog α) (f : α → Prog β)
    (h : never P p) (hf : ∀ a, never P (f a)) : never P (p.bind f) := by
  induction p with
  | pure a => exact hf a
  | act a k ih => exact ⟨h.1, fun r => ih r (h.2 r)⟩

theorem never_do {α β : Type} (P : Act → Prop) (p : Prog α) (f : α → Prog β)
    (h : never P p) (hf : ∀ a, never P (f a)) : never P (p >>= f) := never_bind P p f h hf

theorem never_one (P : Act → Prop) (a : Act) (h : ¬P a) : never P (one a) := ⟨h, fun _ => trivial⟩

theorem never_ite {α : Type} (P : Act → Prop) (c : Prop) [Decidable c] (p q : Prog α) (h1 : never P p) (h2 : never P q) :
    never P (if c then p else q) := by split <;> assumption

/-- Actions that lead towards being connected. -/
def connects : Act → Prop
  | .setStatus .connecting | .setStatus .connected => True
  | _ => False

theorem startDisconnect_never : never connects startDisconnect := by
  refine never_do _ _ _ (never_one _ _ (by simp [connects])) fun _ => ?_
  refine never_do _ _ _ (never_one _ _ (by simp [connects])) fun s => ?_
  cases s <;>
    repeat' first
      | exact trivial
      | exact never_one _ _ (by simp [connects])
      | refine never_do _ _ _ ?_ fun _ => ?_

theorem recvData_never : never connects recvData := by
  refine never_do _ _ _ (never_one _ _ (by simp [connects])) fun r => ?_
  cases r with
  | none => trivial
  | some h =>
    refine never_ite _ _ _ _ ?_ trivial
    refine never_do _ _ _ (never_one _ _ (by simp [connects])) fun r => ?_
    cases r <;> trivial

theorem sendRecvWith_never (disc : Prog (Bool × Bool)) (h : never connects disc) (req : Bytes) :
    never connects (sendRecvWith disc req) := by
  refine never_do _ _ _ (never_one _ _ (by simp [connects])) fun _ => ?_
  refine never_do _ _ _ (never_one _ _ (by simp [connects])) fun _ => ?_
  refine never_ite _ _ _ _ ?_ ?_
  · refine never_do _ _ _ recvData_never fun r => ?_
    cases r <;>
      repeat' first
        | exact trivial
        | exact h
        | exact never_one _ _ (by simp [connects])
        | refine never_do _ _ _ ?_ fun _ => ?_
  · repeat' first
      | exact trivial
      | exact h
      | exact never_one _ _ (by simp [connects])
      | refine never_do _ _ _ ?_ fun _ => ?_

theorem disconnectN_never (n : Nat) : never connects (disconnectN n) := by
  induction n with
  | zero =>
    refine never_do _ _ _ (never_one _ _ (by simp [connects])) fun _ => trivial
  | succ n ih =>
    refine never_do _ _ _ startDisconnect_never fun _ => ?_
    refine never_ite _ _ _ _ ?_ trivial
    refine never_do _ _ _ ?_ fun _ => ?_
    · refine never_do _ _ _ (never_one _ _ (by simp [connects])) fun _ => ?_
      refine never_do _ _ _ (never_one _ _ (by simp [connects])) fun _ => ?_
      refine never_ite _ _ _ _ ?_ ?_
      · exact never_do _ _ _ (never_one _ _ (by simp [connects])) fun _ => trivial
      · refine never_do _ _ _ (never_one _ _ (by simp [connects])) fun _ => ?_
        refine never_do _ _ _ (sendRecvWith_never _ ih _) fun _ => ?_
        exact never_do _ _ _ (never_one _ _ (by simp [connects])) fun _ => trivial
    · refine never_do _ _ _ ?_ fun _ => trivial
      refine never_do _ _ _ (never_one _ _ (by simp [connects])) fun _ => ?_
      exact never_do _ _ _ (never_one _ _ (by simp [connects])) fun _ => never_one _ _ (by simp [connects])

/-- The first three points of a Disconnect that finds the client connected. -/
def d0 : Prog Unit := Op.disconnect.prog
def d1 : Prog Unit := match d0 with | .act .lock k => k () | p => p
def d2 : Prog Unit := match d1 with | .act .getStatus k => k .connected | p => p

theorem d0_never : never connects d0 :=
  never_do _ _ _ (disconnectN_never 2) fun _ => never_one _ _ (by simp [connects])

/-- What holds while goroutines only disconnect; `T` has been called. -/
structure Leaving (s : Client) (T : Nat → Prop) : Prop where
  never : ∀ t, never connects (s.prog t)
  early : s.status = .connected → ∀ t,
    (¬T t ∧ (s.prog t).isPure = true) ∨ s.prog t = d0 ∨ s.prog t = d1 ∨ s.prog t = d2

theorem leaving_upd {s s' : Client} {T : Nat → Prop} (h : Leaving s T) (t : Nat) (p : Prog Unit)
    (hp : Conc.never connects p) (e1 : s'.prog = upd s.prog t p)
    (e2 : s'.status = .connected → s.status = .connected ∧ (p = d1 ∨ p = d2)) : Leaving s' T := by
  constructor
  · intro t'
    rw [e1]
    by_cases ht : t' = t
    · subst ht; rw [upd_same]; exact hp
    · rw [upd_ne _ _ ht]; exact h.never t'
  · intro hs t'
    obtain ⟨h1, h2⟩ := e2 hs
    rw [e1]
    by_cases ht : t' = t
    · subst ht; rw [upd_same]; exact Or.inr (Or.inr h2)
    · rw [upd_ne _ _ ht]; exact h.early h1 t'

/-- The choice calls nothing but Disconnect. -/
def onlyDisconnect : Choice → Prop
  | .call _ op => op = .disconnect
  | _ => True

theorem step_leaving (s s' : Client) (ch : Choice) (T : Nat → Prop) (h : Leaving s T) (hc : onlyDisconnect ch)
    (hs : step s ch = some s') : Leaving s' (fun t => T t ∨ ∃ op, ch = .call t op) := by
  unfold step at hs
  split at hs
  · cases hs
  cases ch with
  | deliver c b =>
    simp only at hs
    split at hs
    · cases hs
    · injection hs with hs; subst hs
      exact ⟨h.never, fun hs t => by
        have := h.early hs t
        simpa using this⟩
  | call t op =>
    simp only [onlyDisconnect] at hc
    subst hc
    simp only at hs
    split at hs
    · injection hs with hs; subst hs
      constructor
      · intro t'
        by_cases ht : t' = t
        · subst ht; simp only [upd_same]; exact d0_never
        · simp only [upd_ne _ _ ht]; exact h.never t'
      · intro hs t'
        by_cases ht : t' = t
        · subst ht; simp only [upd_same]; exact Or.inr (Or.inl rfl)
        · simp only [upd_ne _ _ ht]
          rcases h.early hs t' with h1 | h1
          · refine Or.inl ⟨?_, h1.2⟩
            rintro (h2 | ⟨op, h2⟩)
            · exact h1.1 h2
            · injection h2 with h2; exact ht h2.symm
          · exact Or.inr h1
    · cases hs
  | run t ok b =>
    simp only at hs
    have hT : (fun t' => T t' ∨ ∃ op, Choice.run t ok b = .call t' op) = T := by
      funext t'; simp
    rw [hT]
    have hn := h.never t
    by_cases hcn : s.status = .connected
    · rcases h.early hcn t with ⟨-, h1⟩ | h1 | h1 | h1
      · cases hp : s.prog t with
        | pure a => rw [hp] at hs; cases hs
        | act a k => rw [hp] at h1; cases h1
      · rw [h1] at hs hn
        have he : d0 = .act .lock fun _ => d1 := rfl
        rw [he] at hs hn
        simp only [exec] at hs
        split at hs
        · injection hs with hs; subst hs
          exact leaving_upd h t d1 (hn.2 ()) rfl fun h => ⟨h, Or.inl rfl⟩
        · cases hs
      · rw [h1] at hs hn
        have he : ∃ k, d1 = .act .getStatus k ∧ d2 = k .connected := ⟨_, rfl, rfl⟩
        obtain ⟨k, he, he2⟩ := he
        rw [he] at hs hn
        simp only [exec] at hs
        injection hs with hs; subst hs
        refine leaving_upd h t (k s.status) (hn.2 _) rfl fun h => ⟨h, Or.inr ?_⟩
        rw [he2]; exact congrArg k h
      · rw [h1] at hs hn
        have he : ∃ k, d2 = .act (.setStatus .disconnecting) k := ⟨_, rfl⟩
        obtain ⟨k, he⟩ := he
        rw [he] at hs hn
        simp only [exec] at hs
        injection hs with hs; subst hs
        exact leaving_upd h t (k ()) (hn.2 _) rfl fun h => by cases h
    · -- not connected, and nobody sets it
      cases hp : s.prog t with
      | pure a => rw [hp] at hs; cases hs
      | act a k =>
        rw [hp] at hs hn
        cases a
        case setStatus st =>
          simp only [exec] at hs
          injection hs with hs; subst hs
          refine leaving_upd h t _ (hn.2 _) rfl fun h => ?_
          simp only at h
          subst h
          exact absurd trivial hn.1
        case dial =>
          simp only [exec] at hs
          injection hs with hs; subst hs
          (refine leaving_upd h t _ ?_ rfl fun h => absurd h hcn; exact ⟨by simp [connects], hn.2⟩)
        case writing c d =>
          cases d <;> simp only [exec] at hs <;> (repeat' split at hs) <;> cases hs <;>
            first
            | exact leaving_upd h t _ (hn.2 _) rfl fun h => absurd h hcn
            | (refine leaving_upd h t _ ?_ rfl fun h => absurd h hcn; exact ⟨by simp [connects], hn.2⟩)
        all_goals
          simp only [exec] at hs
          (repeat' split at hs) <;> cases hs <;>
            first
            | exact ⟨h.never, fun h => absurd h hcn⟩
            | exact leaving_upd h t _ (hn.2 _) rfl fun h => absurd h hcn
            | (refine leaving_upd h t _ ?_ rfl fun h => absurd h hcn; exact ⟨by simp [connects], hn.2⟩)

theorem runs_leaving (cs : List Choice) : ∀ (s s' : Client) (T : Nat → Prop), Leaving s T →
    (∀ ch ∈ cs, onlyDisconnect ch) → runs s cs = some s' →
    Leaving s' (fun t => T t ∨ ∃ op, .call t op ∈ cs) := by
  induction cs with
  | nil =>
    intro s s' T h _ e
    injection e with e; subst e
    have : (fun t => T t ∨ ∃ op, Choice.call t op ∈ []) = T := by funext t; simp
    rw [this]; exact h
  | cons c cs ih =>
    intro s s' T h hc e
    simp only [runs] at e
    cases hs : step s c with
    | none => rw [hs] at e; cases e
    | some s1 =>
      rw [hs] at e
      have h1 := step_leaving s s1 c T h (hc c (List.mem_cons_self ..)) hs
      have h2 := ih s1 s' _ h1 (fun ch hch => hc ch (List.mem_cons_of_mem _ hch)) e
      have : (fun t => T t ∨ ∃ op, Choice.call t op ∈ c :: cs) =
          (fun t => (T t ∨ ∃ op, c = .call t op) ∨ ∃ op, Choice.call t op ∈ cs) := by
        funext t
        simp only [List.mem_cons, eq_iff_iff]
        constructor
        · rintro (h | ⟨op, h | h⟩)
          · exact Or.inl (Or.inl h)
          · exact Or.inl (Or.inr ⟨op, h.symm⟩)
          · exact Or.inr ⟨op, h⟩
        · rintro ((h | ⟨op, h⟩) | ⟨op, h⟩)
          · exact Or.inl h
          · exact Or.inr ⟨op, Or.inl h.symm⟩
          · exact Or.inr ⟨op, Or.inr h⟩
      rw [this]; exact h2

/-- From any state with no call in progress, one or more Disconnects, by however many goroutines at the same
time and with any outcome of the network steps, end disconnected. -/
theorem C27_disconnects_end_disconnected {s s' : Client} (h : Reach s) (hq : ∀ t, (s.prog t).isPure = true)
    (cs : List Choice) (hc : ∀ ch ∈ cs, onlyDisconnect ch) (t : Nat) (ht : .call t .disconnect ∈ cs)
    (hr : runs s cs = some s') (hq' : ∀ t, (s'.prog t).isPure = true) : s'.status = .disconnected := by
  have hreach : Reach s' := by
    obtain ⟨cs0, h0⟩ := h
    refine ⟨cs0 ++ cs, ?_⟩
    have : ∀ (a b : List Choice) (s : Client), runs s (a ++ b) = (runs s a).bind fun s => runs s b := by
      intro a b
      induction a with
      | nil => intro s; rfl
      | cons c a ih =>
        intro s
        simp only [List.cons_append, runs]
        cases step s c with
        | none => rfl
        | some s1 => exact ih s1
    rw [this, h0]; exact hr
  have h0 : Leaving s (fun _ => False) := by
    constructor
    · intro t
      have := hq t
      cases hp : s.prog t with
      | pure a => trivial
      | act a k => rw [hp] at this; cases this
    · intro _ t
      exact Or.inl ⟨id, hq t⟩
  have h1 := runs_leaving cs s s' _ h0 hc hr
  rcases (C27_quiescent hreach hq').1 with h2 | h2
  · have hp := hq' t
    rcases h1.early h2 t with h3 | h3 | h3 | h3
    · exact absurd (Or.inr ⟨_, ht⟩) h3.1
    · rw [h3] at hp; cases hp
    · rw [h3] at hp; cases hp
    · rw [h3] at hp; cases hp
  · exact h2

example : (runs .init (goConnect 0 0 ++ goDisconnect 1 0)).map (·.status) = some .disconnected ∧
    ∀ ch ∈ goDisconnect 1 0, onlyDisconnect ch := by
  refine ⟨by decide +kernel, ?_⟩
  simp only [goDisconnect, go, goExchange, List.mem_append, List.mem_replicate, List.mem_cons, List.not_mem_nil, or_false]
  intro ch h
  rcases h with (((rfl | ⟨-, rfl⟩) | rfl | rfl) | ((rfl | ⟨-, rfl⟩) | rfl) | ⟨-, rfl⟩) | ⟨-, rfl⟩ <;> simp [onlyDisconnect]

/-! ### C28 -/

/-- At most one goroutine is dialling at any moment. -/
theorem C28_one_dialler {s : Client} (h : Reach s) (t t' : Nat)
    (h1 : nextAct s t = some .dialing) (h2 : nextAct s t' = some .dialing) : t = t' := by
  obtain ⟨g, h⟩ := reach_inv h
  have key : ∀ t, nextAct s t = some .dialing → (g t).mode ≠ .out := by
    intro t ht
    have hwp := h.progs t
    unfold nextAct at ht
    cases hp : s.prog t with
    | pure a => rw [hp] at ht; cases ht
    | act a k =>
      rw [hp] at ht hwp
      injection ht with ht
      subst ht
      obtain ⟨⟨d, hd⟩, -⟩ := hwp
      rw [hd]; simp
  exact h.uniq t t' (key t h1) (key t' h2)

example : (runs .init (((goConnect 0 0).take 7) ++ [.call 1 .connect] ++ go 1 4)).map
    (fun s => (nextAct s 0, nextAct s 1, s.notes.getLast?)) =
    some (some .dialing, none, some (.result 1 true false false)) := by decide +kernel

theorem last_split (t : Nat) (ns : List Note) (st : Status) (h : lastSet t ns = some st) :
    ∃ pre mid, ns = pre ++ .status t st :: mid ∧ ∀ n ∈ mid, (∀ op, n ≠ .called t op) ∧ ∀ st', n ≠ .status t st' := by
  induction ns using snoc_induction with
  | nil => cases h
  | snoc ns n ih =>
    rw [lastSet_snoc] at h
    have ext : lastSet t ns = some st → ((∀ op, n ≠ .called t op) ∧ ∀ st', n ≠ .status t st') →
        ∃ pre mid, ns ++ [n] = pre ++ .status t st :: mid ∧
          ∀ n ∈ mid, (∀ op, n ≠ .called t op) ∧ ∀ st', n ≠ .status t st' := by
      intro hl hn
      obtain ⟨pre, mid, h1, h2⟩ := ih hl
      refine ⟨pre, mid ++ [n], by rw [h1]; simp, ?_⟩
      intro m hm
      rcases List.mem_append.mp hm with hm | hm
      · exact h2 m hm
      · rw [List.mem_singleton.mp hm]; exact hn
    cases n with
    | called t' op =>
      simp only at h
      by_cases ht : t' = t
      · rw [if_pos ht] at h; cases h
      · rw [if_neg ht] at h; exact ext h ⟨by simp [ht], by simp⟩
    | status t' st' =>
      simp only at h
      by_cases ht : t' = t
      · rw [if_pos ht] at h
        injection h with h
        subst h ht
        exact ⟨ns, [], rfl, by simp⟩
      · rw [if_neg ht] at h; exact ext h ⟨by simp, by simp [ht]⟩
    | dialled t' => exact ext h ⟨by simp, by simp⟩
    | opened t' c => exact ext h ⟨by simp, by simp⟩
    | result t' a b c => exact ext h ⟨by simp, by simp⟩

/-- Whoever dials has found the client disconnected in the same call and has set it to connecting; a caller that
finds it connected or connecting does not dial. -/
theorem C28_dial_only_from_disconnected {s : Client} (h : Reach s) (t : Nat) (pre post : List Note)
    (hn : s.notes = pre ++ .dialled t :: post) :
    ∃ a b, pre = a ++ .status t .connecting :: b ∧ statusOf a = .disconnected ∧
      ∀ n ∈ b, (∀ op, n ≠ .called t op) ∧ ∀ st, n ≠ .status t st := by
  obtain ⟨h1, -⟩ := C27_log h
  have h2 : lastSet t pre = some .connecting := h1 _ _ _ hn
  obtain ⟨a, b, h3, h4⟩ := last_split t pre _ h2
  refine ⟨a, b, h3, ?_, h4⟩
  have : s.notes = a ++ .status t .connecting :: (b ++ .dialled t :: post) := by rw [hn, h3]; simp
  have h5 : Move (statusOf a) .connecting := h1 _ _ _ this
  generalize statusOf a = x at h5
  cases h5
  rfl

/-! ### C29 -/

/-- On the wire of every run, the exchanges follow each other without mixing: each consists of a request sent
without a break by one goroutine on one connection, of bytes received by the same goroutine on that connection, and of
the reply handed to it if it succeeds. -/
theorem C29_exchanges {s : Client} (h : Reach s) : Exchanges s.wire := by
  obtain ⟨g, h⟩ := reach_inv h
  obtain ⟨w, c, h1, h2, h3, h4⟩ := h.wire
  rw [h1]
  cases hl : s.lock with
  | none => rw [h3 hl, List.append_nil]; exact h2
  | some t =>
    cases hk : (g t).lk with
    | none => exact absurd hk (h.lock2 t hl)
    | some x =>
      obtain ⟨e, he, -, hc⟩ := cur_proper (h4 t x.1 x.2 hk)
      rw [hc]
      exact .snoc w e h2 he

/-- The log is the truth about the connections: bytes sent are those of the log, in its order, and bytes
received are the delivered ones in the order of delivery. -/
theorem C29_streams {s : Client} (h : Reach s) (c : Nat) :
    (s.socks c).sent = sentOn c s.wire ∧ recvOn c s.wire <+: (s.socks c).delivered := by
  obtain ⟨g, h⟩ := reach_inv h
  refine ⟨h.sent c, ?_⟩
  rw [(h.recv c).1]
  exact List.take_prefix _ _

theorem exchanges_handed {w : List Wire} (h : Exchanges w) : ∀ (pre post : List Wire) (t : Nat) (req hd p : Bytes),
    w = pre ++ .handed t req hd p :: post →
    ∃ pre' c, pre = pre' ++ req.map (.out t c) ++ (hd ++ p).map (.inp t c) ∧ hd.length = 24 ∧ p.length = announced hd := by
  induction h with
  | nil => intro pre post t req hd p e; simp at e
  | snoc w e hw he ih =>
    intro pre post t req hd p heq
    rcases List.append_eq_append_iff.mp heq with ⟨a', h1, h2⟩ | ⟨c', h1, h2⟩
    · -- the mark is among the new events
      obtain ⟨et, ec, ereq, esent, erecv, erep⟩ := e
      cases erep with
      | none =>
        simp only [Exchange.events, List.append_nil] at h2
        have : Wire.handed t req hd p ∈ esent.map (.out et ec) ++ erecv.map (.inp et ec) := by rw [h2]; simp
        simp at this
      | some r =>
        obtain ⟨rh, rp⟩ := r
        obtain ⟨-, -, h3⟩ := he
        obtain ⟨h4, h5, h6, h7⟩ := h3 rh rp rfl
        simp only at h4 h5
        subst h4 h5
        simp only [Exchange.events] at h2
        rcases List.eq_nil_or_concat post with rfl | ⟨post', x, rfl⟩
        · obtain ⟨h8, h9⟩ := List.append_inj' h2 rfl
          injection h9 with h9
          injection h9 with h9 h10 h11 h12
          subst h9 h10 h11 h12
          exact ⟨w, ec, by rw [h1, ← h8]; simp, h6, h7⟩
        · have h8 : (esent.map (.out et ec) ++ (rh ++ rp).map (.inp et ec)) ++ [.handed et esent rh rp] =
              (a' ++ .handed t req hd p :: post') ++ [x] := by rw [h2]; simp
          obtain ⟨h9, -⟩ := List.append_inj' h8 rfl
          have : Wire.handed t req hd p ∈ esent.map (.out et ec) ++ (rh ++ rp).map (.inp et ec) := by rw [h9]; simp
          simp at this
    · -- the mark is before them
      cases c' with
      | nil =>
        simp only [List.nil_append, List.append_nil] at h1 h2
        -- the new events start with the mark: impossible unless nothing was sent and received
        obtain ⟨et, ec, ereq, esent, erecv, erep⟩ := e
        have h2' : (Exchange.mk et ec ereq esent erecv erep).events = .handed t req hd p :: post := h2.symm
        cases erep with
        | none =>
          simp only [Exchange.events, List.append_nil] at h2'
          have : Wire.handed t req hd p ∈ esent.map (.out et ec) ++ erecv.map (.inp et ec) := by rw [h2']; simp
          simp at this
        | some r =>
          obtain ⟨rh, rp⟩ := r
          obtain ⟨-, -, h3⟩ := he
          obtain ⟨h4, h5, h6, h7⟩ := h3 rh rp rfl
          simp only at h4 h5
          subst h4 h5
          have hne : rh ≠ [] := by intro h; rw [h] at h6; cases h6
          cases esent with
          | cons x l => simp [Exchange.events] at h2'
          | nil =>
            cases rh with
            | nil => exact absurd rfl hne
            | cons x l => simp [Exchange.events] at h2'
      | cons x c' =>
        simp only [List.cons_append, List.cons.injEq] at h2
        obtain ⟨h2a, h2b⟩ := h2
        subst h2a
        exact ih pre c' t req hd p h1

/-- The reply handed to a goroutine is what was received directly after its own request was sent, by itself and on
the same connection, with nothing in between. -/
theorem C29_reply_follows_request {s : Client} (h : Reach s) (pre post : List Wire) (t : Nat) (req hd p : Bytes)
    (hw : s.wire = pre ++ .handed t req hd p :: post) :
    ∃ pre' c, pre = pre' ++ req.map (.out t c) ++ (hd ++ p).map (.inp t c) ∧ hd.length = 24 ∧ p.length = announced hd :=
  exchanges_handed (C29_exchanges h) pre post t req hd p hw

example : (runs .init (goConnect 0 0)).map (fun s => s.wire.filter fun | .inp _ _ _ => false | _ => true) =
    some [.out 0 0 7, .handed 0 [7] (dev 7) [], .out 0 0 7, .handed 0 [7] (dev 7) []] := by
  decide +kernel

/-! ### C60: replies and requests on one connection -/

/-- A reply with the length its header announces. -/
def Framed (a : Bytes × Bytes) : Prop := a.1.length = 24 ∧ a.2.length = announced a.1

theorem framed_prefix (rs : List (Bytes × Bytes)) : ∀ (as : List (Bytes × Bytes)), (∀ a ∈ rs, Framed a) → (∀ a ∈ as, Framed a) →
    rs.flatMap (fun a => a.1 ++ a.2) <+: as.flatMap (fun a => a.1 ++ a.2) → rs <+: as := by
  induction rs with
  | nil => intro as _ _ _; exact List.nil_prefix
  | cons r rs ih =>
    intro as hr ha hp
    obtain ⟨r1, r2⟩ := r
    have hr0 := hr _ (List.mem_cons_self ..)
    cases as with
    | nil =>
      have := hp.length_le
      have h24 := hr0.1
      simp only at h24
      simp [h24] at this
    | cons a as =>
      obtain ⟨a1, a2⟩ := a
      have ha0 := ha _ (List.mem_cons_self ..)
      obtain ⟨tl, ht⟩ := hp
      simp only [List.flatMap_cons, List.append_assoc] at ht
      have e1 := List.append_inj ht (hr0.1.trans ha0.1.symm)
      have hlen : r2.length = a2.length := by
        have h1 := hr0.2; have h2 := ha0.2
        simp only at h1 h2
        rw [h1, h2, e1.1]
      have e2 := List.append_inj e1.2 hlen
      rw [e1.1, e2.1]
      refine List.cons_prefix_cons.mpr ⟨rfl, ih as (fun x h => hr x (List.mem_cons_of_mem _ h))
        (fun x h => ha x (List.mem_cons_of_mem _ h)) ⟨tl, e2.2⟩⟩

theorem exchanges_list {w : List Wire} (h : Exchanges w) :
    ∃ es : List Exchange, w = es.flatMap Exchange.events ∧ ∀ e ∈ es, e.Proper := by
  induction h with
  | nil => exact ⟨[], rfl, by simp⟩
  | snoc w e hw he ih =>
    obtain ⟨es, h1, h2⟩ := ih
    refine ⟨es ++ [e], by rw [h1]; simp, ?_⟩
    intro x hx
    rcases List.mem_append.mp hx with hx | hx
    · exact h2 x hx
    · rw [List.mem_singleton.mp hx]; exact he

theorem recvOn_events (c : Nat) (e : Exchange) : recvOn c e.events = if e.c = c then e.recv else [] := by
  obtain ⟨et, ec, ereq, esent, erecv, erep⟩ := e
  have h1 : ∀ l : Bytes, recvOn c (l.map (.out et ec)) = [] := by
    intro l; induction l with
    | nil => rfl
    | cons x l ih => simp [recvOn]
  have h2 : ∀ l : Bytes, recvOn c (l.map (.inp et ec)) = if ec = c then l else [] := by
    intro l; induction l with
    | nil => simp [recvOn]
    | cons x l ih =>
      by_cases hc : ec = c
      · simp only [recvOn, hc, if_true] at ih
        simp [recvOn, hc, ih]
      · simp only [recvOn, hc, if_false] at ih
        simp [recvOn, hc, ih]
  simp only [Exchange.events, recvOn_append, h1, h2, List.nil_append]
  cases erep <;> simp [recvOn]

/-- The exchanges of a run on connection `c`. -/
def onConn (c : Nat) (es : List Exchange) : List Exchange := es.filter fun e => e.c = c

/-- As long as every exchange on a connection succeeds, the i-th request on it gets the i-th reply the device sends
on it, whichever goroutines send the requests.  `answers` are the replies the device sends, each as long as its
header says. -/
theorem C60_replies_in_order {s : Client} (h : Reach s) :
    ∃ es : List Exchange, s.wire = es.flatMap Exchange.events ∧ (∀ e ∈ es, e.Proper) ∧
      ∀ (c : Nat) (answers : List (Bytes × Bytes)), (∀ a ∈ answers, Framed a) →
        (s.socks c).delivered <+: answers.flatMap (fun a => a.1 ++ a.2) →
        ∀ es1 es2, es = es1 ++ es2 → (∀ e ∈ onConn c es1, e.reply ≠ none) →
          (onConn c es1).map (·.reply) <+: answers.map some := by
  obtain ⟨es, h1, h2⟩ := exchanges_list (C29_exchanges h)
  refine ⟨es, h1, h2, ?_⟩
  intro c answers ha hd es1 es2 he hrep
  -- the replies of these exchanges
  have key : ∃ rs : List (Bytes × Bytes), (onConn c es1).map (·.reply) = rs.map some ∧ (∀ r ∈ rs, Framed r) ∧
      recvOn c (es1.flatMap Exchange.events) = rs.flatMap (fun a => a.1 ++ a.2) := by
    have hp : ∀ e ∈ es1, e.Proper := fun e hh => h2 e (by rw [he]; simp [hh])
    clear he h1 h2
    induction es1 with
    | nil => exact ⟨[], rfl, by simp, rfl⟩
    | cons e es1 ih =>
      by_cases hc : e.c = c
      · have hf : onConn c (e :: es1) = e :: onConn c es1 := by simp [onConn, hc]
        rw [hf] at hrep ⊢
        obtain ⟨rs, i1, i2, i3⟩ := ih (fun e hh => hrep e (List.mem_cons_of_mem _ hh))
          (fun e hh => hp e (List.mem_cons_of_mem _ hh))
        have hr := hrep e (List.mem_cons_self ..)
        have hpe := hp e (List.mem_cons_self ..)
        cases hre : e.reply with
        | none => exact absurd hre hr
        | some r =>
          obtain ⟨-, -, hpe⟩ := hpe
          obtain ⟨-, h5, h6, h7⟩ := hpe r.1 r.2 hre
          refine ⟨r :: rs, by simp [hre, i1], ?_, ?_⟩
          · intro x hx
            rcases List.mem_cons.mp hx with hx | hx
            · subst hx; exact ⟨h6, h7⟩
            · exact i2 x hx
          · rw [List.flatMap_cons, recvOn_append, recvOn_events, if_pos hc, i3, h5]
            simp
      · have hf : onConn c (e :: es1) = onConn c es1 := by simp [onConn, hc]
        rw [hf] at hrep ⊢
        obtain ⟨rs, i1, i2, i3⟩ := ih hrep (fun e hh => hp e (List.mem_cons_of_mem _ hh))
        exact ⟨rs, i1, i2, by rw [List.flatMap_cons, recvOn_append, recvOn_events, if_neg hc, i3]; rfl⟩
  obtain ⟨rs, k1, k2, k3⟩ := key
  rw [k1]
  obtain ⟨tl, htl⟩ := framed_prefix rs answers k2 ha (by
    rw [← k3]
    refine List.IsPrefix.trans ?_ ((C29_streams h c).2.trans hd)
    rw [h1, he, List.flatMap_append, recvOn_append]
    exact List.prefix_append _ _)
  exact ⟨tl.map some, by rw [← htl]; simp⟩

/-! ### C61: after a failed exchange -/

/-- After an exchange that failed (a timeout), another goroutine can be handed the late reply to it: the device
answers every request in order, and yet goroutine 1, whose request is 2, gets the answer to request 1. -/
theorem C61_late_reply_to_other_goroutine :
    ∃ s, Reach s ∧ (s.socks 0).delivered <+: (s.socks 0).sent.flatMap dev ∧
      .handed 1 [2] (dev 1) [] ∈ s.wire ∧ dev 1 ≠ dev 2 := by
  let tr := goConnect 0 0 ++ [.call 0 .request] ++ go 0 3 ++ [.run 0 true [1]] ++ go 0 5 ++ [.run 0 false []] ++ go 0 1 ++
    [.call 1 .request] ++ go 1 3 ++ [.run 1 true [2]] ++ go 1 5 ++ [.deliver 0 (dev 1)] ++ go 1 26
  obtain ⟨s, hs, h1⟩ := run_facts tr (fun s => ((s.socks 0).delivered.isPrefixOf ((s.socks 0).sent.flatMap dev),
    s.wire.getLast?)) (true, some (.handed 1 [2] (dev 1) [])) (by decide +kernel)
  simp only [Prod.mk.injEq] at h1
  exact ⟨s, ⟨tr, hs⟩, List.isPrefixOf_iff_prefix.mp h1.1, List.mem_of_getLast? h1.2, by decide⟩

/-! ### C62: crashes -/

/-- A goroutine that has found the client connected, and is about to send, crashes the program when in the
meantime the client was disconnected and reconnecting failed to dial: the connection is nil. -/
theorem C62_nil_connection_crash : ∃ s, Reach s ∧ s.crashed = true ∧ ∀ n, .called 1 (.keepAlive n) ∉ s.notes := by
  let tr := goConnect 0 0 ++ [.call 1 .request] ++ go 1 3 ++ goDisconnect 0 0 ++ goConnectFail 0 ++ go 1 3
  obtain ⟨s, hs, h1⟩ := run_facts tr (fun s => (s.crashed, s.notes.filter fun | .called 1 _ => true | _ => false))
    (true, [.called 1 .request]) (by decide +kernel)
  simp only [Prod.mk.injEq] at h1
  refine ⟨s, ⟨tr, hs⟩, h1.1, ?_⟩
  intro n hn
  have : Note.called 1 (.keepAlive n) ∈ s.notes.filter fun | .called 1 _ => true | _ => false :=
    List.mem_filter.mpr ⟨hn, rfl⟩
  rw [h1.2] at this
  simp at this

/-- With the keep-alive running, Disconnect, Connect and again Disconnect crash the program if the keep-alive
goroutine has not noticed the first Disconnect yet: its cancel channel is closed twice.  No network step fails. -/
theorem C62_double_close_crash : ∃ s, Reach s ∧ s.crashed = true := by
  let tr := goConnect 0 0 ++ [.call 1 (.keepAlive 3)] ++ go 1 1 ++ goDisconnect 0 0 ++ goConnect 0 1 ++
    [.call 0 .disconnect] ++ go 0 5
  obtain ⟨s, hs, h1⟩ := run_facts tr (·.crashed) true (by decide +kernel)
  exact ⟨s, ⟨tr, hs⟩, h1⟩

/-- A run in which no dial fails and the keep-alive is not used. -/
inductive CalmRun : Client → Prop
  | init : CalmRun .init
  | step (s s' : Client) (ch : Choice) : CalmRun s → calm s ch → step s ch = some s' → CalmRun s'

/-- Without failing dials and without the keep-alive no interleaving of calls crashes the program (panics while
parsing replies apart, see C26).  Missing: failing dials and the keep-alive, where it is false. -/
theorem C62_no_crash_partial {s : Client} (h : CalmRun s) : s.crashed = false := by
  have : ∃ g, Inv s g ∧ Calm s := by
    induction h with
    | init => exact ⟨_, inv_init, ⟨fun t => ⟨false, trivial, by simp⟩, rfl, rfl⟩⟩
    | step s s' ch _ hc hs ih =>
      obtain ⟨g, h1, h2⟩ := ih
      obtain ⟨g', h3⟩ := step_inv s s' ch g h1 hs
      exact ⟨g', h3, step_calm s s' ch g h1 h2 hc hs⟩
  obtain ⟨g, -, h⟩ := this
  exact h.ok

/-! ### C63: connections left open -/

/-- A Connect that fails after dialling leaves its socket open, and nothing closes it later: no call is in
progress, the status is disconnected, and the connection has not been closed. -/
theorem C63_failed_connect_leaks :
    ∃ s, Reach s ∧ (∀ t, (s.prog t).isPure = true) ∧ s.status = .disconnected ∧ s.conn = some 0 ∧
      (s.socks 0).closed = false := by
  let tr := [.call 0 .connect] ++ go 0 4 ++ [.run 0 false []] ++ go 0 2 ++ [.run 0 true [7]] ++ go 0 2 ++ [.run 0 false []] ++
    go 0 8
  obtain ⟨s, hs, h1⟩ := run_facts tr (fun s => (nextAct s 0, s.status, s.conn, (s.socks 0).closed))
    (none, .disconnected, some 0, false) (by decide +kernel)
  simp only [Prod.mk.injEq] at h1
  refine ⟨s, ⟨tr, hs⟩, ?_, h1.2⟩
  intro t
  by_cases h0 : t = 0
  · subst h0; exact pure_of_nextAct h1.1
  refine runs_idle t tr _ _ rfl ?_ hs
  intro op
  simp [tr, go, h0, List.mem_replicate]

/-- Exactly those are left open: when the client is disconnected, a connection it has opened is still open if and
only if the Connect that opened it failed. -/
theorem C63_left_open {s : Client} (h : Reach s) (hd : s.status = .disconnected) (t c : Nat)
    (ho : .opened t c ∈ s.notes) : (s.socks c).closed = false ↔ Abandoned c s.notes := by
  obtain ⟨m, hm⟩ := reach_tidy h
  have hc : c < s.nconn := by
    by_cases hc : c < s.nconn
    · exact hc
    · exact absurd ho ((hm.fresh c (by omega)).2 t)
  constructor
  · intro hh
    exact (hm.done (Or.inl hd) c hc).resolve_left (by simp [hh])
  · exact hm.nab c

/-- Whatever the status, a connection is closed, or left by a failed Connect, or the one in use. -/
theorem C63_at_most_one_in_use {s : Client} (h : Reach s) (t c : Nat) (ho : .opened t c ∈ s.notes)
    (hopen : (s.socks c).closed = false) (ha : ¬ Abandoned c s.notes) : s.conn = some c := by
  obtain ⟨m, hm⟩ := reach_tidy h
  have hc : c < s.nconn := by
    by_cases hc : c < s.nconn
    · exact hc
    · exact absurd ho ((hm.fresh c (by omega)).2 t)
  rcases hm.all c hc with hh | hh | hh
  · rw [hopen] at hh; cases hh
  · exact absurd hh ha
  · exact hh

/-- While connected the connection is open. -/
theorem C63_connected_open {s : Client} (h : Reach s) (hs : s.status = .connected) (c : Nat) (hc : s.conn = some c) :
    (s.socks c).closed = false := by
  obtain ⟨m, hm⟩ := reach_tidy h
  exact (hm.live (Or.inl hs) c hc).1

/-- A Connect, a Disconnect and a Connect that fails: connection 0 is closed, connection 1 is not. -/
example : (runs .init (goConnect 0 0 ++ goDisconnect 0 0 ++ [.call 0 .connect] ++ go 0 4 ++ [.run 0 false []] ++ go 0 2 ++
      [.run 0 true [7]] ++ go 0 2 ++ [.run 0 false []] ++ go 0 8)).map
    (fun s => (s.status, (s.socks 0).closed, (s.socks 1).closed,
      s.notes.filter fun | .opened _ _ => true | .status _ .disconnected => true | _ => false)) =
    some (.disconnected, true, false,
      [.opened 0 0, .status 0 .disconnected, .opened 0 1, .status 0 .disconnected]) := by decide +kernel

end Gologix.Conc
