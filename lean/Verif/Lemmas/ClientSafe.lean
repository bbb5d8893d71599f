import Verif.Lemmas.ClientInv
set_option linter.unusedSimpArgs false
/-
A second, smaller logic: a goroutine uses the connection only after it has dialled successfully itself or has
seen the client connected.
-/
namespace Gologix.Conc
open Spec
open Prog (one)

/-- `safe p Q kn`: with `kn` true if the client is known to have dialled, `p` touches the connection only when
that is known, and does not start the keep-alive. -/
def safe {α : Type} : Prog α → (α → Bool → Prop) → Bool → Prop
  | .pure a, Q, kn => Q a kn
  | .act .getStatus k, Q, kn => ∀ s, safe (k s) Q (kn || decide (s = .connected))
  | .act .dial k, Q, kn | .act .dialing k, Q, kn => ∀ r, safe (k r) Q (kn || r)
  | .act (.write _) k, Q, kn | .act (.writing _ _) k, Q, kn => kn = true ∧ ∀ r, safe (k r) Q kn
  | .act (.read _) k, Q, kn | .act (.reading _ _ _) k, Q, kn => kn = true ∧ ∀ r, safe (k r) Q kn
  | .act .close k, Q, kn => kn = true ∧ safe (k ()) Q kn
  | .act .kaStart _, _, _ => False
  | .act .abort _, _, _ => True        -- excluded by the first logic
  | .act .lock k, Q, kn | .act .unlock k, Q, kn | .act (.setStatus _) k, Q, kn | .act (.handed _ _ _) k, Q, kn
  | .act (.result _ _ _) k, Q, kn | .act .kaEnd k, Q, kn | .act .kaClose k, Q, kn => safe (k ()) Q kn
  | .act .choose k, Q, kn | .act .kaWait k, Q, kn => ∀ r, safe (k r) Q kn
  | .act .pick k, Q, kn => ∀ b, safe (k b) Q kn

theorem safe_bind {α β : Type} (p : Prog α) (f : α → Prog β) (Q : β → Bool → Prop) (kn : Bool) :
    safe (p.bind f) Q kn ↔ safe p (fun a kn => safe (f a) Q kn) kn := by
  induction p generalizing kn with
  | pure a => exact Iff.rfl
  | act a k ih => cases a <;> simp only [Prog.bind, safe, ih]

theorem safe_do {α β : Type} (p : Prog α) (f : α → Prog β) (Q : β → Bool → Prop) (kn : Bool) :
    safe (p >>= f) Q kn ↔ safe p (fun a kn => safe (f a) Q kn) kn := safe_bind p f Q kn

theorem safe_pure {α : Type} (a : α) (Q : α → Bool → Prop) (kn : Bool) : safe (pure a : Prog α) Q kn ↔ Q a kn := Iff.rfl

theorem safe_mono {α : Type} (p : Prog α) (Q Q' : α → Bool → Prop) (kn : Bool)
    (h : safe p Q kn) (hq : ∀ a kn, Q a kn → Q' a kn) : safe p Q' kn := by
  induction p generalizing kn with
  | pure a => exact hq _ _ h
  | act a k ih =>
    cases a <;> simp only [safe] at h ⊢ <;>
      first
      | trivial
      | exact ih _ _ h
      | exact fun r => ih _ _ (h r)
      | exact ⟨h.1, ih _ _ h.2⟩
      | exact ⟨h.1, fun r => ih _ _ (h.2 r)⟩

theorem safe_ite {α : Type} (b : Bool) (p q : Prog α) (Q : α → Bool → Prop) (kn : Bool)
    (h1 : b = true → safe p Q kn) (h2 : b = false → safe q Q kn) : safe (if b = true then p else q) Q kn := by
  cases b
  · exact h2 rfl
  · exact h1 rfl

theorem startDisconnect_safe (kn : Bool) : safe startDisconnect (fun b kn' => (b = true ∨ kn = true → kn' = true)) kn := by
  simp only [startDisconnect, safe_do, one, safe]
  intro s
  cases s <;> simp [safe_do, safe, one, safe_pure]

theorem startConnect_safe (kn : Bool) : safe startConnect (fun _ kn' => kn = true → kn' = true) kn := by
  simp only [startConnect, safe_do, one, safe]
  intro s
  cases s <;> simp [safe_do, safe, one, safe_pure]

theorem finish_safe (s : Status) (kn : Bool) : safe (finish s) (fun _ kn' => kn' = kn) kn := by
  simp only [finish, safe_do, one, safe]

theorem recvData_safe : safe recvData (fun _ kn' => kn' = true) true := by
  simp only [recvData, safe_do, one, safe]
  refine ⟨trivial, fun r => ?_⟩
  cases r with
  | none => simp [safe_pure]
  | some h =>
    simp only
    split
    · simp only [safe_do, safe]
      refine ⟨trivial, fun r => ?_⟩
      cases r <;> simp [safe_pure]
    · simp [safe_pure]

theorem sendRecvWith_safe (disc : Prog (Bool × Bool)) (req : Bytes)
    (hd : safe disc (fun _ kn' => kn' = true) true) : safe (sendRecvWith disc req) (fun _ kn' => kn' = true) true := by
  simp only [sendRecvWith, safe_do, one, safe]
  refine ⟨trivial, fun r => ?_⟩
  cases r with
  | false =>
    simp only [safe_do, safe, one, Bool.false_eq_true, if_false]
    exact safe_mono _ _ _ _ hd fun _ _ h => h
  | true =>
    simp only [if_true, safe_do]
    refine safe_mono _ _ _ _ recvData_safe ?_
    rintro a kn rfl
    cases a with
    | none =>
      simp only [safe_do, safe, one]
      exact safe_mono _ _ _ _ hd fun _ _ h => h
    | some hp => simp [safe_do, safe, one, safe_pure]

theorem disconnectBody_safe (exch : Bytes → Prog (Option (Bytes × Bytes)))
    (he : ∀ b, safe (exch b) (fun _ kn' => kn' = true) true) :
    safe (disconnectBody exch) (fun _ kn' => kn' = true) true := by
  simp only [disconnectBody, safe_do, one, safe]
  intro r
  cases r with
  | true => simp [safe_do, safe, safe_pure]
  | false =>
    simp only [Bool.false_eq_true, if_false, safe_do, safe]
    intro b
    refine safe_mono _ _ _ _ (he b) ?_
    rintro _ _ rfl
    simp [safe_do, safe, safe_pure]

theorem disconnectN_safe (n : Nat) (kn : Bool) :
    safe (disconnectN n) (fun _ kn' => kn = true → kn' = true) kn := by
  induction n generalizing kn with
  | zero => simp [disconnectN, safe_do, one, safe]
  | succ n ih =>
    simp only [disconnectN, safe_do]
    refine safe_mono _ _ _ _ (startDisconnect_safe kn) ?_
    intro b kn' hk
    apply safe_ite
    · intro hb
      rw [hk (Or.inl hb)]
      simp only [safe_do]
      refine safe_mono _ _ _ _ (disconnectBody_safe _ fun b => sendRecvWith_safe _ b ?_) ?_
      · exact safe_mono _ _ _ _ (ih true) fun _ _ h => h rfl
      · rintro _ _ rfl
        refine safe_mono _ _ _ _ (finish_safe _ _) ?_
        rintro _ _ rfl
        simp [safe_pure]
    · intro _ h
      exact hk (Or.inr h)

theorem disconnect_safe (kn : Bool) : safe disconnect (fun _ kn' => kn = true → kn' = true) kn := disconnectN_safe 2 kn

theorem sendRecv_safe (req : Bytes) : safe (sendRecv req) (fun _ kn' => kn' = true) true :=
  sendRecvWith_safe _ _ (safe_mono _ _ _ _ (disconnect_safe true) fun _ _ h => h rfl)

theorem registerSession_safe : safe registerSession (fun _ kn' => kn' = true) true := by
  simp only [registerSession, safe_do, one, safe]
  intro b
  refine safe_mono _ _ _ _ (sendRecv_safe b) ?_
  rintro a _ rfl
  cases a <;> simp [safe_pure]

theorem forwardOpen_safe : safe forwardOpen (fun _ kn' => kn' = true) true := by
  simp only [forwardOpen, safe_do, one, safe]
  intro r
  apply safe_ite <;> intro _
  · simp [safe_pure]
  · simp only [safe_do, safe]
    intro b
    refine safe_mono _ _ _ _ (sendRecv_safe b) ?_
    rintro a _ rfl
    cases a <;> simp [safe_pure, safe]

theorem connectBody_safe (kn : Bool) : safe connectBody (fun ok kn' => (ok = true ∨ kn = true → kn' = true)) kn := by
  simp only [connectBody, safe_do, one, safe]
  intro r
  apply safe_ite <;> intro _
  · simp [safe_pure]
  · simp only [safe_do, safe]
    intro r
    cases r with
    | false => simp [safe_pure]
    | true =>
      simp only [if_true, safe_do, Bool.or_true]
      refine safe_mono _ _ _ _ registerSession_safe ?_
      rintro a _ rfl
      apply safe_ite <;> intro _
      · simp only [safe_do, safe]
        intro large
        have hf : safe forwardOpen (fun (ok : Bool) kn' => (ok = true ∨ kn = true → kn' = true)) true :=
          safe_mono _ _ _ _ forwardOpen_safe fun _ _ h _ => h
        apply safe_ite <;> intro _
        · simp only [safe_do, safe]
          intro r
          apply safe_ite <;> intro _
          · simp [safe_pure]
          · simp only [safe_do]
            refine safe_mono _ _ _ _ forwardOpen_safe ?_
            rintro a _ rfl
            apply safe_ite <;> intro _
            · simp [safe_pure]
            · exact hf
        · exact hf
      · simp [safe_pure]

theorem connect_safe (kn : Bool) : safe connect (fun r kn' => (r.2 = true ∨ kn = true → kn' = true)) kn := by
  simp only [connect, safe_do]
  refine safe_mono _ _ _ _ (startConnect_safe kn) ?_
  intro b kn' hk
  apply safe_ite <;> intro _
  · simp only [safe_do]
    refine safe_mono _ _ _ _ (connectBody_safe kn') ?_
    intro ok kn'' h
    refine safe_mono _ _ _ _ (finish_safe _ _) ?_
    rintro _ _ rfl
    simp only [safe_pure]
    intro h'
    exact h (h'.imp id hk)
  · simp only [safe_pure]
    intro h
    exact hk (h.resolve_left (by simp))

theorem isConnected_safe (kn : Bool) : safe isConnected (fun r kn' => (r = true ∨ kn = true → kn' = true)) kn := by
  simp only [isConnected, safe_do, one, safe, safe_pure]
  intro s
  cases s <;> simp

theorem checkConnection_safe (kn : Bool) : safe checkConnection (fun r kn' => (r = true ∨ kn = true → kn' = true)) kn := by
  simp only [checkConnection, safe_do]
  refine safe_mono _ _ _ _ (isConnected_safe kn) ?_
  intro b kn' hk
  apply safe_ite <;> intro hb
  · simp only [safe_pure]; intro _; exact hk (Or.inl hb)
  · simp only [safe_do, one, safe]
    intro r
    apply safe_ite <;> intro _
    · simp only [safe_do]
      refine safe_mono _ _ _ _ (connect_safe kn') ?_
      intro a kn'' h
      simp only [safe_pure]
      intro h'
      exact h (h'.imp id fun h => hk (Or.inr h))
    · simp only [safe_pure]
      intro h
      exact hk (Or.inr (h.resolve_left (by simp)))

theorem request_safe (kn : Bool) : safe request (fun _ _ => True) kn := by
  simp only [request, safe_do]
  refine safe_mono _ _ _ _ (checkConnection_safe kn) ?_
  intro b kn' hk
  apply safe_ite <;> intro hb
  · rw [hk (Or.inl hb)]
    simp only [safe_do, one, safe]
    intro b
    refine safe_mono _ _ _ _ (sendRecv_safe b) ?_
    rintro a _ rfl
    cases a <;> simp [safe_pure, safe]
  · simp [safe_pure]

/-- Operations other than the keep-alive. -/
def plainOp : Op → Bool
  | .keepAlive _ => false
  | _ => true

theorem op_safe (op : Op) (h : plainOp op = true) : safe op.prog (fun _ _ => True) false := by
  cases op with
  | connect =>
    simp only [Op.prog, safe_do]
    exact safe_mono _ _ _ _ (connect_safe false) (by intros; simp [one, safe])
  | disconnect =>
    simp only [Op.prog, safe_do]
    exact safe_mono _ _ _ _ (disconnect_safe false) (by intros; simp [one, safe])
  | request =>
    simp only [Op.prog, safe_do]
    exact safe_mono _ _ _ _ (request_safe false) (by intros; simp [safe_pure])
  | keepAlive n => cases h

/-- The choice does not start the keep-alive and does not let a dial fail. -/
def calm (s : Client) : Choice → Prop
  | .call _ op => plainOp op = true
  | .run t ok _ => (∃ k, s.prog t = .act .dialing k) → ok = true
  | .deliver _ _ => True

structure Calm (s : Client) : Prop where
  progs : ∀ t, ∃ kn, safe (s.prog t) (fun _ _ => True) kn ∧ (kn = true → s.conn ≠ none)
  ka : s.kaRunning = false
  ok : s.crashed = false

theorem calm_prog {s s' : Client} (h : Calm s) (t : Nat) (p : Prog Unit) (kn : Bool)
    (hp : safe p (fun _ _ => True) kn) (hk : kn = true → s'.conn ≠ none)
    (e1 : s'.prog = upd s.prog t p) (e2 : s.conn ≠ none → s'.conn ≠ none) (e3 : s'.kaRunning = false)
    (e4 : s'.crashed = s.crashed) : Calm s' := by
  refine ⟨fun t' => ?_, e3, e4.trans h.ok⟩
  rw [e1]
  by_cases ht : t' = t
  · subst ht; rw [upd_same]; exact ⟨kn, hp, hk⟩
  · rw [upd_ne _ _ ht]
    obtain ⟨kn', h1, h2⟩ := h.progs t'
    exact ⟨kn', h1, fun h => e2 (h2 h)⟩

theorem step_calm (s s' : Client) (ch : Choice) (g : Nat → Ghost) (hi : Inv s g) (h : Calm s) (hc : calm s ch)
    (hs : step s ch = some s') : Calm s' := by
  unfold step at hs
  split at hs
  · cases hs
  cases ch with
  | deliver c b =>
    simp only at hs
    split at hs
    · cases hs
    · injection hs with hs; subst hs
      exact ⟨h.progs, h.ka, h.ok⟩
  | call t op =>
    simp only at hs
    split at hs
    · injection hs with hs; subst hs
      exact calm_prog h t _ false (op_safe op hc) (by simp) rfl id h.ka rfl
    · cases hs
  | run t ok b =>
    simp only at hs
    obtain ⟨kn, hsafe, hkn⟩ := h.progs t
    have hwp := hi.progs t
    simp only [calm] at hc
    cases hp : s.prog t with
    | pure a => rw [hp] at hs; cases hs
    | act a k =>
      rw [hp] at hs hsafe hwp hc
      cases a <;> simp only [exec] at hs <;> simp only [safe] at hsafe
      case lock =>
        split at hs
        · injection hs with hs; subst hs; exact calm_prog h t _ kn hsafe hkn rfl id h.ka rfl
        · cases hs
      case unlock => injection hs with hs; subst hs; exact calm_prog h t _ kn hsafe hkn rfl id h.ka rfl
      case getStatus =>
        injection hs with hs; subst hs
        refine calm_prog h t _ _ (hsafe s.status) ?_ rfl id h.ka rfl
        intro hh
        simp only [Bool.or_eq_true, decide_eq_true_eq] at hh
        rcases hh with hh | hh
        · exact hkn hh
        · exact hi.hasC (Or.inl hh)
      case setStatus => injection hs with hs; subst hs; exact calm_prog h t _ kn hsafe hkn rfl id h.ka rfl
      case dial =>
        injection hs with hs; subst hs
        refine calm_prog h t _ kn ?_ hkn rfl id h.ka rfl
        simp only [safe]; exact hsafe
      case dialing =>
        have hok := hc ⟨k, rfl⟩
        rw [if_pos hok] at hs
        injection hs with hs; subst hs
        exact calm_prog h t _ _ (hsafe true) (by simp) rfl (by simp) h.ka rfl
      case write d =>
        obtain ⟨hk, hsafe⟩ := hsafe
        split at hs
        · rename_i hn; exact absurd hn (hkn hk)
        · injection hs with hs; subst hs
          refine calm_prog h t _ kn ?_ hkn rfl id h.ka rfl
          simp only [safe]; exact ⟨hk, hsafe⟩
      case writing c d =>
        obtain ⟨hk, hsafe⟩ := hsafe
        cases d with
        | nil =>
          simp only [exec] at hs
          injection hs with hs; subst hs; exact calm_prog h t _ kn (hsafe _) hkn rfl id h.ka rfl
        | cons y d =>
          simp only [exec] at hs
          split at hs
          · split at hs
            · cases hs
            · injection hs with hs; subst hs
              refine calm_prog h t _ kn ?_ hkn rfl id h.ka rfl
              simp only [safe]; exact ⟨hk, hsafe⟩
          · injection hs with hs; subst hs; exact calm_prog h t _ kn (hsafe _) hkn rfl id h.ka rfl
      case read n =>
        obtain ⟨hk, hsafe⟩ := hsafe
        split at hs
        · rename_i hn; exact absurd hn (hkn hk)
        · injection hs with hs; subst hs
          refine calm_prog h t _ kn ?_ hkn rfl id h.ka rfl
          simp only [safe]; exact ⟨hk, hsafe⟩
      case reading c n acc =>
        obtain ⟨hk, hsafe⟩ := hsafe
        split at hs
        · injection hs with hs; subst hs; exact calm_prog h t _ kn (hsafe _) hkn rfl id h.ka rfl
        · split at hs
          · split at hs
            · split at hs
              · cases hs
              · injection hs with hs; subst hs
                refine calm_prog h t _ kn ?_ hkn rfl id h.ka rfl
                simp only [safe]; exact ⟨hk, hsafe⟩
            · cases hs
          · injection hs with hs; subst hs; exact calm_prog h t _ kn (hsafe _) hkn rfl id h.ka rfl
      case close =>
        obtain ⟨hk, hsafe⟩ := hsafe
        split at hs
        · rename_i hn; exact absurd hn (hkn hk)
        · injection hs with hs; subst hs; exact calm_prog h t _ kn hsafe hkn rfl id h.ka rfl
      case handed => injection hs with hs; subst hs; exact calm_prog h t _ kn hsafe hkn rfl id h.ka rfl
      case result => injection hs with hs; subst hs; exact calm_prog h t _ kn hsafe hkn rfl id h.ka rfl
      case choose => injection hs with hs; subst hs; exact calm_prog h t _ kn (hsafe _) hkn rfl id h.ka rfl
      case pick => injection hs with hs; subst hs; exact calm_prog h t _ kn (hsafe _) hkn rfl id h.ka rfl
      case kaEnd => injection hs with hs; subst hs; exact calm_prog h t _ kn hsafe hkn rfl id rfl rfl
      case kaClose =>
        rw [h.ka] at hs
        injection hs with hs; subst hs; exact calm_prog h t _ kn hsafe hkn rfl id rfl rfl
      case kaWait =>
        split at hs
        · injection hs with hs; subst hs; exact calm_prog h t _ kn (hsafe _) hkn rfl id h.ka rfl
        · split at hs
          · cases hs
          · injection hs with hs; subst hs; exact calm_prog h t _ kn (hsafe _) hkn rfl id h.ka rfl
      case abort => exact hwp.elim

end Gologix.Conc
