import Verif.Lemmas.ClientInv
set_option linter.unusedSimpArgs false
/-
A third logic: what each goroutine does with the connections it opens.
-/
namespace Gologix.Conc
open Spec
open Prog (one)

/-- How far a goroutine is in Connect (before, during or after dialling) or Disconnect (before or after closing). -/
inductive Md where
  | out | before | dialing | after | disc (closed : Bool)
deriving DecidableEq

/-- The status while a goroutine is there. -/
def Md.agrees : Md → Status → Prop
  | .out, _ => True
  | .before, s | .dialing, s | .after, s => s = .connecting
  | .disc _, s => s = .disconnecting

/-- Where setting the status leads. -/
def Md.goes : Md → Status → Option Md
  | .out, .connecting => some .before
  | .out, .disconnecting => some (.disc false)
  | .after, .connected => some .out
  | .before, .disconnected | .after, .disconnected | .disc true, .disconnected => some .out
  | _, _ => none

/-- `tidy p Q m`: from `m`, `p` sets the status only along `goes`, dials once, and closes before it is done
disconnecting. -/
def tidy {α : Type} : Prog α → (α → Md → Prop) → Md → Prop
  | .pure a, Q, m => Q a m
  | .act .getStatus k, Q, m => ∀ s, m.agrees s → tidy (k s) Q m
  | .act (.setStatus s) k, Q, m => ∃ m', m.goes s = some m' ∧ tidy (k ()) Q m'
  | .act .dial k, Q, m => m = .before ∧ ∀ r, tidy (k r) Q .after
  | .act .dialing k, Q, m => m = .dialing ∧ ∀ r, tidy (k r) Q .after
  | .act .close k, Q, m => m = .disc false ∧ tidy (k ()) Q (.disc true)
  | .act .abort _, _, _ => True        -- excluded by the first logic
  | .act (.write _) k, Q, m | .act (.writing _ _) k, Q, m => ∀ r, tidy (k r) Q m
  | .act (.read _) k, Q, m | .act (.reading _ _ _) k, Q, m => ∀ r, tidy (k r) Q m
  | .act .lock k, Q, m | .act .unlock k, Q, m | .act (.handed _ _ _) k, Q, m
  | .act (.result _ _ _) k, Q, m | .act .kaStart k, Q, m | .act .kaEnd k, Q, m | .act .kaClose k, Q, m => tidy (k ()) Q m
  | .act .choose k, Q, m | .act .kaWait k, Q, m => ∀ r, tidy (k r) Q m
  | .act .pick k, Q, m => ∀ b, tidy (k b) Q m

theorem tidy_do {α β : Type} (p : Prog α) (f : α → Prog β) (Q : β → Md → Prop) (m : Md) :
    tidy (p >>= f) Q m ↔ tidy p (fun a m => tidy (f a) Q m) m := by
  show tidy (p.bind f) Q m ↔ _
  induction p generalizing m with
  | pure a => exact Iff.rfl
  | act a k ih => cases a <;> simp only [Prog.bind, tidy, ih]

theorem tidy_pure {α : Type} (a : α) (Q : α → Md → Prop) (m : Md) : tidy (pure a : Prog α) Q m ↔ Q a m := Iff.rfl

theorem tidy_mono {α : Type} (p : Prog α) (Q Q' : α → Md → Prop) (m : Md)
    (h : tidy p Q m) (hq : ∀ a m, Q a m → Q' a m) : tidy p Q' m := by
  induction p generalizing m with
  | pure a => exact hq _ _ h
  | act a k ih =>
    cases a <;> simp only [tidy] at h ⊢ <;>
      first
      | trivial
      | exact ih _ _ h
      | exact fun r => ih _ _ (h r)
      | exact fun r hr => ih _ _ (h r hr)
      | exact ⟨h.1, ih _ _ h.2⟩
      | exact ⟨h.1, fun r => ih _ _ (h.2 r)⟩
      | (obtain ⟨m', h1, h2⟩ := h; exact ⟨m', h1, ih _ _ h2⟩)

theorem tidy_ite {α : Type} (b : Bool) (p q : Prog α) (Q : α → Md → Prop) (m : Md)
    (h1 : b = true → tidy p Q m) (h2 : b = false → tidy q Q m) : tidy (if b = true then p else q) Q m := by
  cases b
  · exact h2 rfl
  · exact h1 rfl

theorem startDisconnect_tidy (m : Md) (hm : m = .out ∨ m = .after ∨ m = .disc false) :
    tidy startDisconnect (fun b m' => if b = true then m = .out ∧ m' = .disc false else m' = m) m := by
  simp only [startDisconnect, tidy_do, one, tidy]
  intro s hs
  rcases hm with rfl | rfl | rfl
  · cases s <;> simp [tidy_do, tidy, one, tidy_pure, Md.goes]
  · subst hs
    simp [tidy_do, tidy, one, tidy_pure, Md.goes]
  · subst hs
    simp [tidy_do, tidy, one, tidy_pure, Md.goes]

theorem startConnect_tidy : tidy startConnect (fun b m' => m' = if b = true then .before else .out) .out := by
  simp only [startConnect, tidy_do, one, tidy]
  intro s _
  cases s <;> simp [tidy_do, tidy, one, tidy_pure, Md.goes]

theorem finish_tidy (s : Status) (m m' : Md) (h : m.goes s = some m') : tidy (finish s) (fun _ m => m = m') m := by
  simp only [finish, tidy_do, one, tidy]
  exact ⟨m', h, rfl⟩

theorem recvData_tidy (m : Md) : tidy recvData (fun _ m' => m' = m) m := by
  simp only [recvData, tidy_do, one, tidy]
  intro r
  cases r with
  | none => simp [tidy_pure]
  | some h =>
    simp only
    split
    · simp only [tidy_do, tidy]
      intro r
      cases r <;> simp [tidy_pure]
    · simp [tidy_pure]

theorem sendRecvWith_tidy (disc : Prog (Bool × Bool)) (req : Bytes) (m : Md)
    (hd : tidy disc (fun _ m' => m' = m) m) : tidy (sendRecvWith disc req) (fun _ m' => m' = m) m := by
  simp only [sendRecvWith, tidy_do, one, tidy]
  intro r
  cases r with
  | false =>
    simp only [tidy_do, tidy, one, Bool.false_eq_true, if_false]
    exact tidy_mono _ _ _ _ hd fun _ _ h => h
  | true =>
    simp only [if_true, tidy_do]
    refine tidy_mono _ _ _ _ (recvData_tidy m) ?_
    rintro a _ rfl
    cases a with
    | none =>
      simp only [tidy_do, tidy, one]
      exact tidy_mono _ _ _ _ hd fun _ _ h => h
    | some hp => simp [tidy_do, tidy, one, tidy_pure]

theorem disconnectBody_tidy (exch : Bytes → Prog (Option (Bytes × Bytes)))
    (he : ∀ b, tidy (exch b) (fun _ m' => m' = .disc false) (.disc false)) :
    tidy (disconnectBody exch) (fun _ m' => m' = .disc true) (.disc false) := by
  simp only [disconnectBody, tidy_do, one, tidy]
  intro r
  cases r with
  | true => simp [tidy_do, tidy, tidy_pure]
  | false =>
    simp only [Bool.false_eq_true, if_false, tidy_do, tidy]
    intro b
    refine tidy_mono _ _ _ _ (he b) ?_
    rintro _ _ rfl
    simp [tidy_do, tidy, tidy_pure]

theorem disconnectN_tidy (n : Nat) (m : Md) (hm : m = .out ∨ m = .after ∨ m = .disc false) :
    tidy (disconnectN n) (fun _ m' => m' = m) m := by
  induction n generalizing m with
  | zero => simp [disconnectN, tidy_do, one, tidy]
  | succ n ih =>
    simp only [disconnectN, tidy_do]
    refine tidy_mono _ _ _ _ (startDisconnect_tidy m hm) ?_
    intro b m' hk
    apply tidy_ite
    · intro hb
      rw [if_pos hb] at hk
      obtain ⟨rfl, rfl⟩ := hk
      simp only [tidy_do]
      refine tidy_mono _ _ _ _ (disconnectBody_tidy _ fun b => sendRecvWith_tidy _ b _ (ih _ (by simp))) ?_
      rintro _ _ rfl
      refine tidy_mono _ _ _ _ (finish_tidy _ _ _ rfl) ?_
      rintro _ _ rfl
      simp [tidy_pure]
    · intro hb
      subst hb
      exact hk

theorem disconnect_tidy (m : Md) (hm : m = .out ∨ m = .after ∨ m = .disc false) :
    tidy disconnect (fun _ m' => m' = m) m := disconnectN_tidy 2 m hm

theorem sendRecv_tidy (req : Bytes) (m : Md) (hm : m = .out ∨ m = .after ∨ m = .disc false) :
    tidy (sendRecv req) (fun _ m' => m' = m) m :=
  sendRecvWith_tidy _ _ _ (disconnect_tidy m hm)

theorem registerSession_tidy : tidy registerSession (fun _ m' => m' = .after) .after := by
  simp only [registerSession, tidy_do, one, tidy]
  intro b
  refine tidy_mono _ _ _ _ (sendRecv_tidy b _ (by simp)) ?_
  rintro a _ rfl
  cases a <;> simp [tidy_pure]

theorem forwardOpen_tidy : tidy forwardOpen (fun _ m' => m' = .after) .after := by
  simp only [forwardOpen, tidy_do, one, tidy]
  intro r
  apply tidy_ite <;> intro _
  · simp [tidy_pure]
  · simp only [tidy_do, tidy]
    intro b
    refine tidy_mono _ _ _ _ (sendRecv_tidy b _ (by simp)) ?_
    rintro a _ rfl
    cases a <;> simp [tidy_pure, tidy]

theorem connectBody_tidy : tidy connectBody (fun ok m' => m' = .after ∨ ok = false ∧ m' = .before) .before := by
  simp only [connectBody, tidy_do, one, tidy]
  intro r
  apply tidy_ite <;> intro _
  · simp [tidy_pure]
  · simp only [tidy_do, tidy]
    refine ⟨trivial, fun r => ?_⟩
    cases r with
    | false => simp [tidy_pure]
    | true =>
      simp only [if_true, tidy_do]
      refine tidy_mono _ _ _ _ registerSession_tidy ?_
      rintro a _ rfl
      apply tidy_ite <;> intro _
      · simp only [tidy_do, tidy]
        intro large
        have hf : tidy forwardOpen (fun (ok : Bool) m' => m' = .after ∨ ok = false ∧ m' = .before) .after :=
          tidy_mono _ _ _ _ forwardOpen_tidy fun _ _ h => Or.inl h
        apply tidy_ite <;> intro _
        · simp only [tidy_do, tidy]
          intro r
          apply tidy_ite <;> intro _
          · simp [tidy_pure]
          · simp only [tidy_do]
            refine tidy_mono _ _ _ _ forwardOpen_tidy ?_
            rintro a _ rfl
            apply tidy_ite <;> intro _
            · simp [tidy_pure]
            · exact hf
        · exact hf
      · simp [tidy_pure]

theorem connect_tidy : tidy connect (fun _ m' => m' = .out) .out := by
  simp only [connect, tidy_do]
  refine tidy_mono _ _ _ _ startConnect_tidy ?_
  intro b m' hk
  apply tidy_ite <;> intro hb
  · rw [if_pos hb] at hk
    subst hk
    simp only [tidy_do]
    refine tidy_mono _ _ _ _ connectBody_tidy ?_
    intro ok m'' h
    refine tidy_mono _ _ _ _ (finish_tidy _ _ .out ?_) ?_
    · rcases h with rfl | ⟨rfl, rfl⟩
      · cases ok <;> rfl
      · rfl
    · rintro _ _ rfl
      simp [tidy_pure]
  · subst hb
    exact hk

theorem isConnected_tidy : tidy isConnected (fun _ m' => m' = .out) .out := by
  simp [isConnected, tidy_do, one, tidy, tidy_pure]

theorem checkConnection_tidy : tidy checkConnection (fun _ m' => m' = .out) .out := by
  simp only [checkConnection, tidy_do]
  refine tidy_mono _ _ _ _ isConnected_tidy ?_
  rintro b _ rfl
  apply tidy_ite <;> intro hb
  · simp [tidy_pure]
  · simp only [tidy_do, one, tidy]
    intro r
    apply tidy_ite <;> intro _
    · simp only [tidy_do]
      refine tidy_mono _ _ _ _ connect_tidy ?_
      rintro a _ rfl
      simp [tidy_pure]
    · simp [tidy_pure]

theorem request_tidy : tidy request (fun _ m' => m' = .out) .out := by
  simp only [request, tidy_do]
  refine tidy_mono _ _ _ _ checkConnection_tidy ?_
  rintro b _ rfl
  apply tidy_ite <;> intro hb
  · simp only [tidy_do, one, tidy]
    intro b
    refine tidy_mono _ _ _ _ (sendRecv_tidy b _ (by simp)) ?_
    rintro a _ rfl
    cases a <;> simp [tidy_pure, tidy]
  · simp [tidy_pure]

theorem keepAliveLoop_tidy (n : Nat) : tidy (keepAliveLoop n) (fun _ m' => m' = .out) .out := by
  induction n with
  | zero => simp [keepAliveLoop, tidy_pure]
  | succ n ih =>
    simp only [keepAliveLoop, tidy_do, one, tidy]
    intro r
    apply tidy_ite <;> intro _
    · simp only [tidy_do]
      refine tidy_mono _ _ _ _ isConnected_tidy ?_
      rintro b _ rfl
      apply tidy_ite <;> intro _
      · simp only [tidy_do]
        refine tidy_mono _ _ _ _ request_tidy ?_
        rintro b _ rfl
        apply tidy_ite <;> intro _
        · simp only [tidy_do, tidy]
          intro r
          apply tidy_ite <;> intro _
          · simp only [tidy_do]
            refine tidy_mono _ _ _ _ request_tidy ?_
            rintro b _ rfl
            apply tidy_ite <;> intro _
            · exact ih
            · simp [tidy_pure]
          · exact ih
        · simp only [tidy_do]
          refine tidy_mono _ _ _ _ (disconnect_tidy _ (by simp)) ?_
          rintro b _ rfl
          simp [tidy_pure]
      · simp [tidy_pure]
    · simp [tidy_pure]

theorem op_tidy (op : Op) : tidy op.prog (fun _ m' => m' = .out) .out := by
  cases op with
  | connect =>
    simp only [Op.prog, tidy_do]
    exact tidy_mono _ _ _ _ connect_tidy (by rintro _ _ rfl; simp [one, tidy])
  | disconnect =>
    simp only [Op.prog, tidy_do]
    exact tidy_mono _ _ _ _ (disconnect_tidy _ (by simp)) (by rintro _ _ rfl; simp [one, tidy])
  | request =>
    simp only [Op.prog, tidy_do]
    exact tidy_mono _ _ _ _ request_tidy (by rintro _ _ rfl; simp [tidy_pure])
  | keepAlive n =>
    simp only [Op.prog, keepAlive, tidy_do, one, tidy]
    refine tidy_mono _ _ _ _ request_tidy ?_
    rintro b _ rfl
    apply tidy_ite <;> intro _
    · simp only [tidy_do]
      refine tidy_mono _ _ _ _ (keepAliveLoop_tidy n) ?_
      rintro _ _ rfl
      simp [tidy]
    · simp [tidy_do, tidy_pure, tidy]

/-- `t` has opened `c` and not set the status since. -/
def Pending (t c : Nat) (ns : List Note) : Prop :=
  ∃ pre mid, ns = pre ++ .opened t c :: mid ∧ ∀ st, .status t st ∉ mid

theorem pending_snoc (t c : Nat) (ns : List Note) (n : Note) :
    Pending t c (ns ++ [n]) ↔ n = .opened t c ∨ Pending t c ns ∧ ∀ st, n ≠ .status t st := by
  constructor
  · rintro ⟨pre, mid, h, hm⟩
    rcases List.eq_nil_or_concat mid with rfl | ⟨mid', x, rfl⟩
    · have := (List.append_inj' h rfl).2
      exact Or.inl (List.singleton_inj.1 this)
    · rw [List.concat_eq_append, ← List.cons_append, ← List.append_assoc] at h
      obtain ⟨h1, h2⟩ := List.append_inj' h rfl
      have h2 := List.singleton_inj.1 h2
      subst h1 h2
      refine Or.inr ⟨⟨pre, mid', rfl, fun st hh => hm st (by simp [hh])⟩, ?_⟩
      rintro st rfl
      exact hm st (by simp)
  · rintro (rfl | ⟨⟨pre, mid, rfl, hm⟩, hn⟩)
    · exact ⟨ns, [], rfl, by simp⟩
    · refine ⟨pre, mid ++ [n], by simp, ?_⟩
      intro st hh
      simp only [List.mem_append, List.mem_singleton] at hh
      rcases hh with hh | hh
      · exact hm st hh
      · exact hn st hh.symm

theorem abandoned_snoc (c : Nat) (ns : List Note) (n : Note) :
    Abandoned c (ns ++ [n]) ↔ Abandoned c ns ∨ ∃ t, n = .status t .disconnected ∧ Pending t c ns := by
  constructor
  · rintro ⟨t, pre, mid, post, h, hm⟩
    rcases List.eq_nil_or_concat post with rfl | ⟨post', x, rfl⟩
    · obtain ⟨h1, h2⟩ := List.append_inj' h rfl
      have h2 := List.singleton_inj.1 h2
      exact Or.inr ⟨t, h2, pre, mid, h1, hm⟩
    · rw [List.concat_eq_append, ← List.cons_append, ← List.append_assoc] at h
      obtain ⟨h1, h2⟩ := List.append_inj' h rfl
      exact Or.inl ⟨t, pre, mid, post', h1, hm⟩
  · rintro (⟨t, pre, mid, post, rfl, hm⟩ | ⟨t, rfl, pre, mid, rfl, hm⟩)
    · exact ⟨t, pre, mid, post ++ [n], by simp, hm⟩
    · exact ⟨t, pre, mid, [], by simp, hm⟩

structure Tidy (s : Client) (m : Nat → Md) : Prop where
  progs : ∀ t, tidy (s.prog t) (fun _ m => m = .out) (m t)
  agr   : ∀ t, (m t).agrees s.status
  uniq  : ∀ t t', m t ≠ .out → m t' ≠ .out → t = t'
  all   : ∀ c, c < s.nconn → (s.socks c).closed = true ∨ Abandoned c s.notes ∨ s.conn = some c
  done  : (s.status = .disconnected ∨ ∃ t, m t = .before ∨ m t = .dialing ∨ m t = .disc true) →
            ∀ c, c < s.nconn → (s.socks c).closed = true ∨ Abandoned c s.notes
  pend  : ∀ t c, Pending t c s.notes ↔ m t = .after ∧ s.conn = some c
  live  : (s.status = .connected ∨ ∃ t, m t = .after ∨ m t = .disc false) →
            ∀ c, s.conn = some c → (s.socks c).closed = false ∧ ¬ Abandoned c s.notes
  nab   : ∀ c, Abandoned c s.notes → (s.socks c).closed = false
  fresh : ∀ c, s.nconn ≤ c → (s.socks c).closed = false ∧ ∀ t, .opened t c ∉ s.notes

theorem tidy_init : Tidy .init (fun _ => .out) := by
  have h1 : ∀ c, ¬ Abandoned c [] := by rintro c ⟨t, pre, mid, post, h, -⟩; simp at h
  have h2 : ∀ t c, ¬ Pending t c [] := by rintro t c ⟨pre, mid, h, -⟩; simp at h
  constructor <;> simp [Client.init, tidy, Md.agrees, h1, h2]

/-- The mode of one goroutine changes, not to or from where it matters. -/
theorem tidy_local {s s' : Client} {m : Nat → Md} (h : Tidy s m) (t : Nat) (p : Prog Unit) (m' : Md)
    (hp : tidy p (fun _ m => m = .out) m')
    (hm : m' = m t ∨ m t = .before ∧ m' = .dialing)
    (e1 : s'.prog = upd s.prog t p) (e2 : s'.status = s.status) (e3 : s'.conn = s.conn) (e4 : s'.nconn = s.nconn)
    (e5 : ∀ c, (s'.socks c).closed = (s.socks c).closed)
    (e6 : s'.notes = s.notes ∨ ∃ n, s'.notes = s.notes ++ [n] ∧ (∀ t st, n ≠ .status t st) ∧ ∀ t c, n ≠ .opened t c) :
    Tidy s' (upd m t m') := by
  have a1 : ∀ c, Abandoned c s'.notes ↔ Abandoned c s.notes := by
    intro c
    rcases e6 with e | ⟨n, e, h1, h2⟩
    · rw [e]
    · rw [e, abandoned_snoc]
      constructor
      · rintro (hh | ⟨t, hh, -⟩)
        · exact hh
        · exact absurd hh (h1 _ _)
      · exact Or.inl
  have a2 : ∀ t c, Pending t c s'.notes ↔ Pending t c s.notes := by
    intro t c
    rcases e6 with e | ⟨n, e, h1, h2⟩
    · rw [e]
    · rw [e, pending_snoc]
      constructor
      · rintro (hh | ⟨hh, -⟩)
        · exact absurd hh (h2 _ _)
        · exact hh
      · exact fun hh => Or.inr ⟨hh, h1 t⟩
  have a3 : ∀ t c, .opened t c ∈ s'.notes ↔ .opened t c ∈ s.notes := by
    intro t c
    rcases e6 with e | ⟨n, e, h1, h2⟩
    · rw [e]
    · rw [e, List.mem_append, List.mem_singleton]
      exact ⟨fun hh => hh.elim id fun hh => absurd hh.symm (h2 _ _), Or.inl⟩
  have n1 : ∀ t', upd m t m' t' ≠ .out ↔ m t' ≠ .out := by
    intro t'
    by_cases ht : t' = t
    · subst ht; rw [upd_same]; rcases hm with rfl | ⟨h1, rfl⟩
      · exact Iff.rfl
      · simp [h1]
    · rw [upd_ne _ _ ht]
  have n2 : ∀ t', upd m t m' t' = .after ↔ m t' = .after := by
    intro t'
    by_cases ht : t' = t
    · subst ht; rw [upd_same]; rcases hm with rfl | ⟨h1, rfl⟩
      · exact Iff.rfl
      · simp [h1]
    · rw [upd_ne _ _ ht]
  have n3 : ∀ t' b, upd m t m' t' = .disc b ↔ m t' = .disc b := by
    intro t' b
    by_cases ht : t' = t
    · subst ht; rw [upd_same]; rcases hm with rfl | ⟨h1, rfl⟩
      · exact Iff.rfl
      · simp [h1]
    · rw [upd_ne _ _ ht]
  have n4 : ∀ t', upd m t m' t' = .before ∨ upd m t m' t' = .dialing → m t' = .before ∨ m t' = .dialing := by
    intro t'
    by_cases ht : t' = t
    · subst ht; rw [upd_same]; rcases hm with rfl | ⟨h1, rfl⟩
      · exact id
      · simp [h1]
    · rw [upd_ne _ _ ht]; exact id
  constructor
  · intro t'
    rw [e1]
    by_cases ht : t' = t
    · subst ht; rw [upd_same, upd_same]; exact hp
    · rw [upd_ne _ _ ht, upd_ne _ _ ht]; exact h.progs t'
  · intro t'
    rw [e2]
    by_cases ht : t' = t
    · subst ht
      rw [upd_same]
      have := h.agr t'
      rcases hm with rfl | ⟨h1, rfl⟩
      · exact this
      · rw [h1] at this; exact this
    · rw [upd_ne _ _ ht]; exact h.agr t'
  · intro t1 t2 h1 h2
    exact h.uniq t1 t2 ((n1 _).1 h1) ((n1 _).1 h2)
  · intro c hc
    rw [e5, a1, e3]
    exact h.all c (e4 ▸ hc)
  · intro hh c hc
    rw [e5, a1]
    refine h.done ?_ c (e4 ▸ hc)
    rw [e2] at hh
    refine hh.imp id ?_
    rintro ⟨t', hh⟩
    refine ⟨t', ?_⟩
    rcases hh with hh | hh | hh
    · exact or_assoc.1 (Or.inl (n4 t' (Or.inl hh)))
    · exact or_assoc.1 (Or.inl (n4 t' (Or.inr hh)))
    · exact Or.inr (Or.inr ((n3 _ _).1 hh))
  · intro t' c
    rw [a2, n2, e3]
    exact h.pend t' c
  · intro hh c hc
    rw [e5, a1]
    refine h.live ?_ c (e3 ▸ hc)
    rw [e2] at hh
    simp only [n2, n3] at hh
    exact hh
  · intro c hc
    rw [e5]
    exact h.nab c ((a1 c).1 hc)
  · intro c hc
    rw [e5]
    have := h.fresh c (e4 ▸ hc)
    exact ⟨this.1, fun t hh => this.2 t ((a3 t c).1 hh)⟩

theorem Tidy.others {s : Client} {m : Nat → Md} (h : Tidy s m) {t t' : Nat} (ht : t' ≠ t) (hm : m t ≠ .out) :
    m t' = .out := by
  cases hh : m t' with
  | out => rfl
  | _ => exact absurd (h.uniq t' t (by simp [hh]) hm) ht

theorem goes_cases {m m' : Md} {st : Status} (h : m.goes st = some m') :
    m = .out ∧ st = .connecting ∧ m' = .before ∨ m = .out ∧ st = .disconnecting ∧ m' = .disc false ∨
    m = .after ∧ st = .connected ∧ m' = .out ∨
    (m = .before ∨ m = .after ∨ m = .disc true) ∧ st = .disconnected ∧ m' = .out := by
  cases m <;> cases st <;> simp_all [Md.goes] <;> rename_i b <;> cases b <;> simp_all [Md.goes]

theorem upd_out {m : Nat → Md} {t : Nat} {m' : Md} (ho : ∀ t', t' ≠ t → m t' = .out) (t' : Nat) (x : Md) (hx : x ≠ .out) :
    upd m t m' t' = x ↔ t' = t ∧ m' = x := by
  by_cases ht : t' = t
  · subst ht; rw [upd_same]; simp
  · rw [upd_ne _ _ ht, ho t' ht]; simp [ht, hx.symm]

/-- `t` sets the status. -/
theorem tidy_status {s : Client} {m : Nat → Md} (h : Tidy s m) (t : Nat) (p : Prog Unit) (st : Status) (m' : Md)
    (hg : (m t).goes st = some m') (hp : tidy p (fun _ m => m = .out) m') (hmove : Move s.status st) :
    Tidy { s with status := st, prog := upd s.prog t p, notes := s.notes ++ [.status t st] } (upd m t m') := by
  have hc := goes_cases hg
  have others : ∀ t', t' ≠ t → m t' = .out := by
    intro t' ht
    by_cases ho : m t = .out
    · have ha := h.agr t'
      have hst : s.status = .disconnected ∨ s.status = .connected := by
        rcases hc with ⟨-, rfl, -⟩ | ⟨-, rfl, -⟩ | ⟨h1, -⟩ | ⟨h1, -⟩
        · generalize s.status = x at hmove; cases hmove; simp
        · generalize s.status = x at hmove; cases hmove; simp
        · rw [ho] at h1; cases h1
        · rw [ho] at h1; simp at h1
      cases hm : m t' with
      | out => rfl
      | _ => rw [hm] at ha; simp only [Md.agrees] at ha; simp [ha] at hst
    · exact h.others ht ho
  have a1 : ∀ c, Abandoned c (s.notes ++ [.status t st]) ↔
      Abandoned c s.notes ∨ st = .disconnected ∧ m t = .after ∧ s.conn = some c := by
    intro c
    rw [abandoned_snoc]
    constructor
    · rintro (hh | ⟨t', hh, hp⟩)
      · exact Or.inl hh
      · injection hh with h1 h2
        subst h1 h2
        exact Or.inr ⟨rfl, (h.pend _ _).1 hp⟩
    · rintro (hh | ⟨rfl, hh⟩)
      · exact Or.inl hh
      · exact Or.inr ⟨t, rfl, (h.pend _ _).2 hh⟩
  constructor
  · intro t'
    by_cases ht : t' = t
    · subst ht; simp only [upd_same]; exact hp
    · simp only [upd_ne _ _ ht]; exact h.progs t'
  · intro t'
    by_cases ht : t' = t
    · subst ht
      simp only [upd_same]
      rcases hc with ⟨-, rfl, rfl⟩ | ⟨-, rfl, rfl⟩ | ⟨-, -, rfl⟩ | ⟨-, -, rfl⟩ <;> simp [Md.agrees]
    · rw [upd_ne _ _ ht, others t' ht]; trivial
  · intro t1 t2 h1 h2
    have : ∀ t', upd m t m' t' ≠ .out → t' = t := by
      intro t' hh
      by_cases ht : t' = t
      · exact ht
      · rw [upd_ne _ _ ht] at hh; exact absurd (others t' ht) hh
    rw [this t1 h1, this t2 h2]
  · intro c hc
    simp only [a1]
    rcases h.all c hc with hh | hh | hh
    · exact Or.inl hh
    · exact Or.inr (Or.inl (Or.inl hh))
    · exact Or.inr (Or.inr hh)
  · intro hh c hcn
    simp only [a1]
    have old : (s.socks c).closed = true ∨ Abandoned c s.notes →
        (s.socks c).closed = true ∨ Abandoned c s.notes ∨ st = .disconnected ∧ m t = .after ∧ s.conn = some c :=
      fun x => x.imp id Or.inl
    rcases hc with ⟨-, rfl, -⟩ | ⟨-, rfl, rfl⟩ | ⟨-, rfl, rfl⟩ | ⟨h1, rfl, -⟩
    · refine old (h.done (Or.inl ?_) c hcn)
      generalize s.status = x at hmove; cases hmove; rfl
    · simp [upd_out others] at hh
    · simp [upd_out others] at hh
    · rcases h1 with h1 | h1 | h1
      · exact old (h.done (Or.inr ⟨t, Or.inl h1⟩) c hcn)
      · rcases h.all c hcn with hh | hh | hh
        · exact Or.inl hh
        · exact Or.inr (Or.inl hh)
        · exact Or.inr (Or.inr ⟨rfl, h1, hh⟩)
      · exact old (h.done (Or.inr ⟨t, Or.inr (Or.inr h1)⟩) c hcn)
  · intro t' c
    simp only [pending_snoc]
    rw [upd_out others _ _ (by simp)]
    constructor
    · rintro (hh | ⟨hh, hn⟩)
      · cases hh
      · have ht : t' ≠ t := by rintro rfl; exact hn st rfl
        have := ((h.pend _ _).1 hh).1
        rw [others t' ht] at this
        cases this
    · rintro ⟨⟨-, hh⟩, -⟩
      rcases hc with ⟨-, -, rfl⟩ | ⟨-, -, rfl⟩ | ⟨-, -, rfl⟩ | ⟨-, -, rfl⟩ <;> cases hh
  · intro hh c hcn
    simp only [a1]
    rcases hc with ⟨-, rfl, rfl⟩ | ⟨-, rfl, rfl⟩ | ⟨h1, rfl, rfl⟩ | ⟨h1, rfl, rfl⟩
    · simp [upd_out others] at hh
    · have := h.live (Or.inl (by generalize s.status = x at hmove; cases hmove; rfl)) c hcn
      exact ⟨this.1, fun x => x.elim this.2 (by simp)⟩
    · have := h.live (Or.inr ⟨t, Or.inl h1⟩) c hcn
      exact ⟨this.1, fun x => x.elim this.2 (by simp)⟩
    · simp [upd_out others] at hh
  · intro c hh
    rcases (a1 c).1 hh with hh | ⟨-, h1, h2⟩
    · exact h.nab c hh
    · exact (h.live (Or.inr ⟨t, Or.inl h1⟩) c h2).1
  · intro c hcn
    have := h.fresh c hcn
    exact ⟨this.1, fun t' hh => this.2 t' (by simpa using hh)⟩

theorem not_abandoned {c : Nat} {ns : List Note} (h : ∀ t, .opened t c ∉ ns) : ¬ Abandoned c ns := by
  rintro ⟨t, pre, mid, post, rfl, -⟩
  exact h t (by simp)

/-- A dial succeeds. -/
theorem tidy_opened {s : Client} {m : Nat → Md} (h : Tidy s m) (t : Nat) (p : Prog Unit) (hm : m t = .dialing)
    (hp : tidy p (fun _ m => m = .out) .after) :
    Tidy { s with conn := some s.nconn, nconn := s.nconn + 1, prog := upd s.prog t p,
                  notes := s.notes ++ [.opened t s.nconn] } (upd m t .after) := by
  have others : ∀ t', t' ≠ t → m t' = .out := fun t' ht => h.others ht (by simp [hm])
  have hst : s.status = .connecting := by have := h.agr t; rw [hm] at this; exact this
  have a1 : ∀ c, Abandoned c (s.notes ++ [.opened t s.nconn]) ↔ Abandoned c s.notes := by
    intro c
    rw [abandoned_snoc]
    exact ⟨fun x => x.elim id (by rintro ⟨_, hh, -⟩; cases hh), Or.inl⟩
  have old := h.done (Or.inr ⟨t, Or.inr (Or.inl hm)⟩)
  constructor
  · intro t'
    by_cases ht : t' = t
    · subst ht; simp only [upd_same]; exact hp
    · simp only [upd_ne _ _ ht]; exact h.progs t'
  · intro t'
    by_cases ht : t' = t
    · subst ht; simp only [upd_same]; exact hst
    · rw [upd_ne _ _ ht, others t' ht]; trivial
  · intro t1 t2 h1 h2
    have : ∀ t', upd m t .after t' ≠ .out → t' = t := by
      intro t' hh
      by_cases ht : t' = t
      · exact ht
      · rw [upd_ne _ _ ht] at hh; exact absurd (others t' ht) hh
    rw [this t1 h1, this t2 h2]
  · intro c hc
    simp only [a1]
    by_cases hcn : c = s.nconn
    · subst hcn; exact Or.inr (Or.inr rfl)
    · have hc' : c < s.nconn := by simp only at hc; omega
      exact or_assoc.1 (Or.inl (old c hc'))
  · intro hh
    simp [upd_out others, hst] at hh
  · intro t' c
    simp only [pending_snoc]
    rw [upd_out others _ _ (by simp)]
    constructor
    · rintro (hh | ⟨hh, -⟩)
      · injection hh with h1 h2
        exact ⟨⟨h1.symm, rfl⟩, by rw [h2]⟩
      · have := ((h.pend _ _).1 hh).1
        by_cases ht : t' = t
        · rw [ht, hm] at this; cases this
        · rw [others t' ht] at this; cases this
    · rintro ⟨⟨rfl, -⟩, hh⟩
      injection hh with hh
      exact Or.inl (by rw [hh])
  · intro _ c hc
    injection hc with hc
    subst hc
    have := h.fresh s.nconn (Nat.le_refl _)
    simp only [a1]
    exact ⟨this.1, not_abandoned this.2⟩
  · intro c hh
    exact h.nab c ((a1 c).1 hh)
  · intro c hc
    simp only at hc
    have := h.fresh c (by omega)
    refine ⟨this.1, fun t' hh => ?_⟩
    simp only [List.mem_append, List.mem_singleton] at hh
    rcases hh with hh | hh
    · exact this.2 t' hh
    · injection hh with _ hh; omega

/-- A dial fails. -/
theorem tidy_undialled {s : Client} {m : Nat → Md} (h : Tidy s m) (t : Nat) (p : Prog Unit) (hm : m t = .dialing)
    (hp : tidy p (fun _ m => m = .out) .after) :
    Tidy { s with conn := none, prog := upd s.prog t p } (upd m t .after) := by
  have others : ∀ t', t' ≠ t → m t' = .out := fun t' ht => h.others ht (by simp [hm])
  have hst : s.status = .connecting := by have := h.agr t; rw [hm] at this; exact this
  have old := h.done (Or.inr ⟨t, Or.inr (Or.inl hm)⟩)
  constructor
  · intro t'
    by_cases ht : t' = t
    · subst ht; simp only [upd_same]; exact hp
    · simp only [upd_ne _ _ ht]; exact h.progs t'
  · intro t'
    by_cases ht : t' = t
    · subst ht; simp only [upd_same]; exact hst
    · rw [upd_ne _ _ ht, others t' ht]; trivial
  · intro t1 t2 h1 h2
    have : ∀ t', upd m t .after t' ≠ .out → t' = t := by
      intro t' hh
      by_cases ht : t' = t
      · exact ht
      · rw [upd_ne _ _ ht] at hh; exact absurd (others t' ht) hh
    rw [this t1 h1, this t2 h2]
  · intro c hc
    exact or_assoc.1 (Or.inl (old c hc))
  · intro hh
    simp [upd_out others, hst] at hh
  · intro t' c
    simp only [h.pend]
    constructor
    · rintro ⟨hh, -⟩
      by_cases ht : t' = t
      · rw [ht, hm] at hh; cases hh
      · rw [others t' ht] at hh; cases hh
    · rintro ⟨-, hh⟩; cases hh
  · intro _ c hc; cases hc
  · exact h.nab
  · exact h.fresh

/-- The connection is closed. -/
theorem tidy_closed {s : Client} {m : Nat → Md} (h : Tidy s m) (t : Nat) (p : Prog Unit) (c : Nat)
    (hm : m t = .disc false) (hc : s.conn = some c) (hcn : c < s.nconn) (hp : tidy p (fun _ m => m = .out) (.disc true)) :
    Tidy { s with socks := upd s.socks c { s.socks c with closed := true }, prog := upd s.prog t p }
      (upd m t (.disc true)) := by
  have others : ∀ t', t' ≠ t → m t' = .out := fun t' ht => h.others ht (by simp [hm])
  have hst : s.status = .disconnecting := by have := h.agr t; rw [hm] at this; exact this
  have hl := h.live (Or.inr ⟨t, Or.inr hm⟩) c hc
  have hcl : ∀ c', c' ≠ c → (upd s.socks c { s.socks c with closed := true } c').closed = (s.socks c').closed := by
    intro c' hh; rw [upd_ne _ _ hh]
  have all : ∀ c', c' < s.nconn →
      (upd s.socks c { s.socks c with closed := true } c').closed = true ∨ Abandoned c' s.notes := by
    intro c' hc'
    by_cases hh : c' = c
    · subst hh; left; rw [upd_same]
    · rw [hcl c' hh]
      rcases h.all c' hc' with h1 | h1 | h1
      · exact Or.inl h1
      · exact Or.inr h1
      · rw [hc] at h1; injection h1 with h1; exact absurd h1.symm hh
  constructor
  · intro t'
    by_cases ht : t' = t
    · subst ht; simp only [upd_same]; exact hp
    · simp only [upd_ne _ _ ht]; exact h.progs t'
  · intro t'
    by_cases ht : t' = t
    · subst ht; simp only [upd_same]; exact hst
    · rw [upd_ne _ _ ht, others t' ht]; trivial
  · intro t1 t2 h1 h2
    have : ∀ t', upd m t (.disc true) t' ≠ .out → t' = t := by
      intro t' hh
      by_cases ht : t' = t
      · exact ht
      · rw [upd_ne _ _ ht] at hh; exact absurd (others t' ht) hh
    rw [this t1 h1, this t2 h2]
  · intro c' hc'
    exact or_assoc.1 (Or.inl (all c' hc'))
  · intro _
    exact all
  · intro t' c'
    simp only [h.pend]
    rw [upd_out others _ _ (by simp)]
    constructor
    · rintro ⟨hh, -⟩
      by_cases ht : t' = t
      · rw [ht, hm] at hh; cases hh
      · rw [others t' ht] at hh; cases hh
    · rintro ⟨⟨-, hh⟩, -⟩; cases hh
  · intro hh
    simp [upd_out others, hst] at hh
  · intro c' hh
    have : c' ≠ c := by rintro rfl; exact hl.2 hh
    simp only [hcl c' this]
    exact h.nab c' hh
  · intro c' hc'
    have : c' ≠ c := by simp only at hc'; omega
    simp only [hcl c' this]
    exact h.fresh c' hc'

theorem step_tidy (s s' : Client) (ch : Choice) (g : Nat → Ghost) (m : Nat → Md) (hi : Inv s g) (h : Tidy s m)
    (hs : step s ch = some s') (hi' : ∃ g', Inv s' g') : ∃ m', Tidy s' m' := by
  unfold step at hs
  split at hs
  · cases hs
  cases ch with
  | deliver c b =>
    simp only at hs
    split at hs
    · cases hs
    · injection hs with hs; subst hs
      refine ⟨_, tidy_local h 0 (s.prog 0) (m 0) (h.progs 0) (Or.inl rfl) ?_ rfl rfl rfl ?_ (Or.inl rfl)⟩
      · funext t'
        by_cases ht : t' = 0
        · subst ht; rw [upd_same]
        · rw [upd_ne _ _ ht]
      · intro c'
        by_cases hh : c' = c
        · subst hh; simp only [upd_same]
        · simp only [upd_ne _ _ hh]
  | call t op =>
    simp only at hs
    split at hs
    · rename_i hpure
      injection hs with hs; subst hs
      have hout : m t = .out := by
        have := h.progs t
        cases hp : s.prog t with
        | pure a => rw [hp] at this; exact this
        | act a k => rw [hp] at hpure; cases hpure
      refine ⟨_, tidy_local h t op.prog (m t) ?_ (Or.inl rfl) rfl rfl rfl rfl (fun _ => rfl)
        (Or.inr ⟨_, rfl, by simp, by simp⟩)⟩
      rw [hout]; exact op_tidy op
    · cases hs
  | run t ok b =>
    simp only at hs
    have ht := h.progs t
    cases hp : s.prog t with
    | pure a => rw [hp] at hs; cases hs
    | act a k =>
      have crash : ∀ x : Client, x = { s with crashed := true } → ∃ m', Tidy x m' := by
        rintro x rfl
        refine ⟨_, tidy_local h t (s.prog t) (m t) (h.progs t) (Or.inl rfl) ?_ rfl rfl rfl (fun _ => rfl) (Or.inl rfl)⟩
        funext t'
        by_cases hh : t' = t
        · subst hh; rw [upd_same]
        · rw [upd_ne _ _ hh]
      have loc : ∀ (x : Client) (p : Prog Unit), tidy p (fun _ m => m = .out) (m t) →
          x.prog = upd s.prog t p → x.status = s.status → x.conn = s.conn → x.nconn = s.nconn →
          (∀ c, (x.socks c).closed = (s.socks c).closed) → x.notes = s.notes → ∃ m', Tidy x m' :=
        fun x p h1 h2 h3 h4 h5 h6 h7 => ⟨_, tidy_local h t p (m t) h1 (Or.inl rfl) h2 h3 h4 h5 h6 (Or.inl h7)⟩
      rw [hp] at hs ht
      cases a <;> simp only [exec] at hs <;> simp only [tidy] at ht
      case lock =>
        split at hs
        · injection hs with hs; subst hs; exact loc _ _ ht rfl rfl rfl rfl (fun _ => rfl) rfl
        · cases hs
      case unlock => injection hs with hs; subst hs; exact loc _ _ ht rfl rfl rfl rfl (fun _ => rfl) rfl
      case getStatus =>
        injection hs with hs; subst hs
        exact loc _ _ (ht _ (h.agr t)) rfl rfl rfl rfl (fun _ => rfl) rfl
      case setStatus st =>
        injection hs with hs; subst hs
        obtain ⟨m', h1, h2⟩ := ht
        obtain ⟨g', hi'⟩ := hi'
        refine ⟨_, tidy_status h t _ st m' h1 h2 ?_⟩
        have := hi'.notes s.notes (.status t st) [] rfl
        rw [← hi.stat]; exact this
      case dial =>
        injection hs with hs; subst hs
        refine ⟨_, tidy_local h t _ .dialing ?_ (Or.inr ⟨ht.1, rfl⟩) rfl rfl rfl rfl (fun _ => rfl)
          (Or.inr ⟨_, rfl, by simp, by simp⟩)⟩
        simp only [tidy]; exact ⟨trivial, ht.2⟩
      case dialing =>
        split at hs
        · injection hs with hs; subst hs; exact ⟨_, tidy_opened h t _ ht.1 (ht.2 _)⟩
        · injection hs with hs; subst hs; exact ⟨_, tidy_undialled h t _ ht.1 (ht.2 _)⟩
      case write d =>
        split at hs
        · injection hs with hs; exact crash _ hs.symm
        · injection hs with hs; subst hs
          refine loc _ _ ?_ rfl rfl rfl rfl (fun _ => rfl) rfl
          simp only [tidy]; exact ht
      case writing c d =>
        cases d with
        | nil =>
          simp only [exec] at hs
          injection hs with hs; subst hs; exact loc _ _ (ht _) rfl rfl rfl rfl (fun _ => rfl) rfl
        | cons y d =>
          simp only [exec] at hs
          split at hs
          · split at hs
            · cases hs
            · injection hs with hs; subst hs
              refine loc _ (.act (.writing c d) k) ?_ rfl rfl rfl rfl ?_ rfl
              · simp only [tidy]; exact ht
              · intro c'
                by_cases hh : c' = c
                · subst hh; simp only [upd_same]
                · simp only [upd_ne _ _ hh]
          · injection hs with hs; subst hs; exact loc _ _ (ht _) rfl rfl rfl rfl (fun _ => rfl) rfl
      case read n =>
        split at hs
        · injection hs with hs; exact crash _ hs.symm
        · injection hs with hs; subst hs
          refine loc _ _ ?_ rfl rfl rfl rfl (fun _ => rfl) rfl
          simp only [tidy]; exact ht
      case reading c n acc =>
        split at hs
        · injection hs with hs; subst hs; exact loc _ _ (ht _) rfl rfl rfl rfl (fun _ => rfl) rfl
        · split at hs
          · split at hs
            · split at hs
              · cases hs
              · injection hs with hs; subst hs
                rename_i x _ _; refine loc _ (.act (.reading c n (acc ++ [x])) k) ?_ rfl rfl rfl rfl ?_ rfl
                · simp only [tidy]; exact ht
                · intro c'
                  by_cases hh : c' = c
                  · subst hh; simp only [upd_same]
                  · simp only [upd_ne _ _ hh]
            · cases hs
          · injection hs with hs; subst hs; exact loc _ _ (ht _) rfl rfl rfl rfl (fun _ => rfl) rfl
      case close =>
        split at hs
        · injection hs with hs; exact crash _ hs.symm
        · rename_i c hc
          injection hs with hs; subst hs
          have := hi.conn c hc
          exact ⟨_, tidy_closed h t _ c ht.1 hc (by omega) ht.2⟩
      case handed => injection hs with hs; subst hs; exact loc _ _ ht rfl rfl rfl rfl (fun _ => rfl) rfl
      case result =>
        injection hs with hs; subst hs
        exact ⟨_, tidy_local h t _ (m t) ht (Or.inl rfl) rfl rfl rfl rfl (fun _ => rfl)
          (Or.inr ⟨_, rfl, by simp, by simp⟩)⟩
      case choose => injection hs with hs; subst hs; exact loc _ _ (ht _) rfl rfl rfl rfl (fun _ => rfl) rfl
      case pick => injection hs with hs; subst hs; exact loc _ _ (ht _) rfl rfl rfl rfl (fun _ => rfl) rfl
      case kaStart => injection hs with hs; subst hs; exact loc _ _ ht rfl rfl rfl rfl (fun _ => rfl) rfl
      case kaEnd => injection hs with hs; subst hs; exact loc _ _ ht rfl rfl rfl rfl (fun _ => rfl) rfl
      case kaClose =>
        split at hs
        · split at hs
          · injection hs with hs; subst hs; exact loc _ _ ht rfl rfl rfl rfl (fun _ => rfl) rfl
          · injection hs with hs; exact crash _ hs.symm
        · injection hs with hs; subst hs; exact loc _ _ ht rfl rfl rfl rfl (fun _ => rfl) rfl
      case kaWait =>
        split at hs
        · injection hs with hs; subst hs; exact loc _ _ (ht _) rfl rfl rfl rfl (fun _ => rfl) rfl
        · split at hs
          · cases hs
          · injection hs with hs; subst hs; exact loc _ _ (ht _) rfl rfl rfl rfl (fun _ => rfl) rfl
      case abort => injection hs with hs; exact crash _ hs.symm

theorem reach_tidy {s : Client} (h : Reach s) : ∃ m, Tidy s m := by
  obtain ⟨cs, h⟩ := h
  suffices ∀ (cs : List Choice) (s0 : Client), (∃ g, Inv s0 g) → (∃ m, Tidy s0 m) → runs s0 cs = some s → ∃ m, Tidy s m from
    this cs .init ⟨_, inv_init⟩ ⟨_, tidy_init⟩ h
  intro cs
  induction cs with
  | nil =>
    intro s0 _ h2 h3
    injection h3 with h3
    exact h3 ▸ h2
  | cons ch cs ih =>
    rintro s0 ⟨g, h1⟩ ⟨m, h2⟩ h3
    simp only [runs] at h3
    cases hs : step s0 ch with
    | none => rw [hs] at h3; cases h3
    | some s1 =>
      rw [hs] at h3
      have hi' := step_inv s0 s1 ch g h1 hs
      exact ih s1 hi' (step_tidy s0 s1 ch g m h1 h2 hs hi') h3

end Gologix.Conc
