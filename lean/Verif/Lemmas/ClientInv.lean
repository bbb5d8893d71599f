import Verif.Lemmas.Client
set_option linter.unusedSimpArgs false
/-
The invariant of the system of goroutines, and that every step preserves it.
-/
namespace Gologix.Conc
open Spec

@[simp] theorem upd_same {α : Type} (f : Nat → α) (i : Nat) (x : α) : upd f i x i = x := by simp [upd]
theorem hdrLen_announced (h : Bytes) : hdrLen h = announced h := by
  rcases h with _ | ⟨a, _ | ⟨b, _ | ⟨c, _ | ⟨d, r⟩⟩⟩⟩ <;> simp [hdrLen, announced, unle]

theorem upd_ne {α : Type} (f : Nat → α) {i j : Nat} (x : α) (h : j ≠ i) : upd f i x j = f j := by simp [upd, h]

/-- Events of the lock holder's unfinished exchange. -/
def cur (t : Nat) (io : Io) (evs : List Wire) : Prop :=
  match io with
  | .idle => evs = []
  | .writing c req sent => sent <+: req ∧ evs = sent.map (.out t c)
  | .wrote c req recv => evs = req.map (.out t c) ++ recv.map (.inp t c)
  | .reading c req recv c' acc => (c' = c ∨ acc = []) ∧ evs = req.map (.out t c) ++ (recv ++ acc).map (.inp t c)
  | .dead | .done => ∃ e : Exchange, e.Proper ∧ e.t = t ∧ evs = e.events

theorem cur_proper {t : Nat} {io : Io} {evs : List Wire} (h : cur t io evs) :
    ∃ e : Exchange, e.Proper ∧ e.t = t ∧ evs = e.events := by
  cases io with
  | idle => exact ⟨⟨t, 0, [], [], [], none⟩, ⟨List.prefix_refl _, by simp, by simp⟩, rfl, h⟩
  | writing c req sent =>
    exact ⟨⟨t, c, req, sent, [], none⟩, ⟨h.1, by simp, by simp⟩, rfl, by rw [h.2]; simp [Exchange.events]⟩
  | wrote c req recv =>
    exact ⟨⟨t, c, req, req, recv, none⟩, ⟨List.prefix_refl _, by simp, by simp⟩, rfl, by
      rw [show evs = _ from h]; simp [Exchange.events]⟩
  | reading c req recv c' acc =>
    exact ⟨⟨t, c, req, req, recv ++ acc, none⟩, ⟨List.prefix_refl _, by simp, by simp⟩, rfl, by
      rw [h.2]; simp [Exchange.events]⟩
  | dead => exact h
  | done => exact h

/-- The connection an unfinished exchange is on. -/
def ioConn : Io → Option Nat
  | .writing c _ _ | .wrote c _ _ | .reading c _ _ _ _ => some c
  | _ => none

structure Inv (s : Client) (g : Nat → Ghost) : Prop where
  progs : ∀ t, wp (s.prog t) (fun _ g => outside g) (g t)
  lock1 : ∀ t st io, (g t).lk = some (st, io) → s.lock = some t ∧ s.status = st
  lock2 : ∀ t, s.lock = some t → (g t).lk ≠ none
  modeC : ∀ t d, (g t).mode = .conn d → s.status = .connecting ∧ (d = true → s.conn ≠ none)
  modeD : ∀ t, (g t).mode = .disc → s.status = .disconnecting
  uniq  : ∀ t t', (g t).mode ≠ .out → (g t').mode ≠ .out → t = t'
  ownC  : s.status = .connecting → ∃ t d, (g t).mode = .conn d
  ownD  : s.status = .disconnecting → ∃ t, (g t).mode = .disc
  hasC  : s.status = .connected ∨ s.status = .disconnecting → s.conn ≠ none
  last  : ∀ t, lastSet t s.notes = (g t).last
  wire  : ∃ w c, s.wire = w ++ c ∧ Exchanges w ∧ (s.lock = none → c = []) ∧
            ∀ t st io, (g t).lk = some (st, io) → cur t io c
  sent  : ∀ c, (s.socks c).sent = sentOn c s.wire
  recv  : ∀ c, recvOn c s.wire = (s.socks c).delivered.take (s.socks c).taken ∧
            (s.socks c).taken ≤ (s.socks c).delivered.length
  quiet : ∀ c, (s.socks c).sent = [] → (s.socks c).delivered = []
  fresh : ∀ c, s.nconn ≤ c → (s.socks c).sent = []
  conn  : ∀ c, s.conn = some c → c + 1 = s.nconn
  hold  : ∀ t st io c, (g t).lk = some (st, io) → ioConn io = some c →
            c < s.nconn ∧ ∀ c', c < c' → (s.socks c').sent = []
  rdng  : ∀ t st c req r c' acc, (g t).lk = some (st, .reading c req r c' acc) → c ≤ c'
  notes : ∀ pre n post, s.notes = pre ++ n :: post → NoteOK pre n
  stat  : statusOf s.notes = s.status
  mlast : ∀ t d, (g t).mode = .conn d → (g t).last = some .connecting

theorem consistent_of {s : Client} {g : Nat → Ghost} (h : Inv s g) (t : Nat) : consistent (g t).mode s.status := by
  cases hm : (g t).mode with
  | out => trivial
  | conn d => exact (h.modeC t d hm).1
  | disc => exact h.modeD t hm

/-- A step that changes only the program of a goroutine (and fields the invariant does not mention). -/
theorem inv_note {s s' : Client} {g : Nat → Ghost} (h : Inv s g) (t : Nat) (p : Prog Unit)
    (hp : wp p (fun _ g => outside g) (g t))
    (e1 : s'.prog = upd s.prog t p) (e2 : s'.status = s.status) (e3 : s'.lock = s.lock) (e4 : s'.conn = s.conn)
    (e5 : s'.socks = s.socks) (e6 : s'.nconn = s.nconn) (e7 : s'.wire = s.wire)
    (e8 : ∀ t, lastSet t s'.notes = lastSet t s.notes)
    (e9 : ∀ pre n post, s'.notes = pre ++ n :: post → NoteOK pre n) (e10 : statusOf s'.notes = statusOf s.notes) :
    Inv s' g := by
  constructor
  · intro t'
    rw [e1]
    by_cases ht : t' = t
    · subst ht; rw [upd_same]; exact hp
    · rw [upd_ne _ _ ht]; exact h.progs t'
  all_goals try simp only [e2, e3, e4, e5, e6, e7, e8, e10]
  · exact h.lock1
  · exact h.lock2
  · exact h.modeC
  · exact h.modeD
  · exact h.uniq
  · exact h.ownC
  · exact h.ownD
  · exact h.hasC
  · exact h.last
  · exact h.wire
  · exact h.sent
  · exact h.recv
  · exact h.quiet
  · exact h.fresh
  · exact h.conn
  · exact h.hold
  · exact h.rdng
  · exact e9
  · exact h.stat
  · exact h.mlast

theorem inv_local {s s' : Client} {g : Nat → Ghost} (h : Inv s g) (t : Nat) (p : Prog Unit)
    (hp : wp p (fun _ g => outside g) (g t))
    (e1 : s'.prog = upd s.prog t p) (e2 : s'.status = s.status) (e3 : s'.lock = s.lock) (e4 : s'.conn = s.conn)
    (e5 : s'.socks = s.socks) (e6 : s'.nconn = s.nconn) (e7 : s'.wire = s.wire) (e8 : s'.notes = s.notes) :
    Inv s' g :=
  inv_note h t p hp e1 e2 e3 e4 e5 e6 e7 (fun _ => by rw [e8]) (by rw [e8]; exact h.notes) (by rw [e8])

theorem inv_crash {s : Client} {g : Nat → Ghost} (h : Inv s g) : Inv { s with crashed := true } g :=
  ⟨h.progs, h.lock1, h.lock2, h.modeC, h.modeD, h.uniq, h.ownC, h.ownD, h.hasC, h.last, h.wire, h.sent, h.recv,
    h.quiet, h.fresh, h.conn, h.hold, h.rdng, h.notes, h.stat, h.mlast⟩

/-- A step that changes the program of a goroutine and what it knows as lock holder. -/
theorem inv_io {s s' : Client} {g : Nat → Ghost} (h : Inv s g) (t : Nat) (p : Prog Unit) (st : Status) (io io' : Io)
    (hl : (g t).lk = some (st, io))
    (hp : wp p (fun _ g => outside g) { g t with lk := some (st, io') })
    (e1 : s'.prog = upd s.prog t p) (e2 : s'.status = s.status) (e3 : s'.lock = s.lock) (e4 : s'.conn = s.conn)
    (e6 : s'.nconn = s.nconn) (e8 : s'.notes = s.notes)
    (hw : ∃ w c, s'.wire = w ++ c ∧ Exchanges w ∧ cur t io' c)
    (hsent : ∀ c, (s'.socks c).sent = sentOn c s'.wire)
    (hrecv : ∀ c, recvOn c s'.wire = (s'.socks c).delivered.take (s'.socks c).taken ∧
            (s'.socks c).taken ≤ (s'.socks c).delivered.length)
    (hquiet : ∀ c, (s'.socks c).sent = [] → (s'.socks c).delivered = [])
    (hfresh : ∀ c, s.nconn ≤ c → (s'.socks c).sent = [])
    (hhold : ∀ c, ioConn io' = some c → c < s.nconn ∧ ∀ c', c < c' → (s'.socks c').sent = [])
    (hrd : ∀ c req r c' acc, io' = .reading c req r c' acc → c ≤ c') :
    Inv s' (upd g t { g t with lk := some (st, io') }) := by
  have hlk := h.lock1 t st io hl
  have only : ∀ t' st' io', t' ≠ t → (g t').lk = some (st', io') → False := by
    intro t' st' io'' hne hh
    have := (h.lock1 t' _ _ hh).1
    rw [hlk.1] at this
    exact hne (Option.some.inj this).symm
  have hmode : ∀ t', (upd g t { g t with lk := some (st, io') } t').mode = (g t').mode := by
    intro t'
    by_cases ht : t' = t
    · subst ht; rw [upd_same]
    · rw [upd_ne _ _ ht]
  have hlast : ∀ t', (upd g t { g t with lk := some (st, io') } t').last = (g t').last := by
    intro t'
    by_cases ht : t' = t
    · subst ht; rw [upd_same]
    · rw [upd_ne _ _ ht]
  have hlk' : ∀ t' st' io'', (upd g t { g t with lk := some (st, io') } t').lk = some (st', io'') →
      t' = t ∧ st' = st ∧ io'' = io' := by
    intro t' st' io'' hh
    by_cases ht : t' = t
    · subst ht
      rw [upd_same] at hh
      simp only [Option.some.injEq, Prod.mk.injEq] at hh
      exact ⟨rfl, hh.1.symm, hh.2.symm⟩
    · rw [upd_ne _ _ ht] at hh
      exact (only _ _ _ ht hh).elim
  constructor
  · intro t'
    rw [e1]
    by_cases ht : t' = t
    · subst ht; rw [upd_same, upd_same]; exact hp
    · rw [upd_ne _ _ ht, upd_ne _ _ ht]; exact h.progs t'
  all_goals try simp only [hmode, hlast, e2, e3, e4, e6, e8]
  · intro t' st' io'' hh
    obtain ⟨rfl, rfl, rfl⟩ := hlk' _ _ _ hh
    exact hlk
  · intro t' ht'
    by_cases ht : t' = t
    · subst ht; rw [upd_same]; simp
    · rw [upd_ne _ _ ht]; exact h.lock2 t' ht'
  · exact h.modeC
  · exact h.modeD
  · exact h.uniq
  · exact h.ownC
  · exact h.ownD
  · exact h.hasC
  · exact h.last
  · obtain ⟨w, c, h1, h2, h3⟩ := hw
    refine ⟨w, c, h1, h2, ?_, ?_⟩
    · intro hn; rw [hlk.1] at hn; cases hn
    · intro t' st' io'' hh
      obtain ⟨rfl, rfl, rfl⟩ := hlk' _ _ _ hh
      exact h3
  · exact hsent
  · exact hrecv
  · exact hquiet
  · exact hfresh
  · exact h.conn
  · intro t' st' io'' c hh hc
    obtain ⟨rfl, rfl, rfl⟩ := hlk' _ _ _ hh
    exact hhold c hc
  · intro t' st' c req r c' acc hh
    obtain ⟨rfl, rfl, hio⟩ := hlk' _ _ _ hh
    exact hrd c req r c' acc hio.symm
  · exact h.notes
  · exact h.stat
  · exact h.mlast

@[simp] theorem sentOn_append (c : Nat) (a b : List Wire) : sentOn c (a ++ b) = sentOn c a ++ sentOn c b := by
  simp [sentOn]
@[simp] theorem recvOn_append (c : Nat) (a b : List Wire) : recvOn c (a ++ b) = recvOn c a ++ recvOn c b := by
  simp [recvOn]

theorem lastSet_snoc (t : Nat) (ns : List Note) (n : Note) :
    lastSet t (ns ++ [n]) = match n with
      | .called t' _ => if t' = t then none else lastSet t ns
      | .status t' s => if t' = t then some s else lastSet t ns
      | _ => lastSet t ns := by
  simp only [lastSet, List.foldl_append, List.foldl_cons, List.foldl_nil]
  cases n <;> rfl

theorem statusOf_snoc (ns : List Note) (n : Note) :
    statusOf (ns ++ [n]) = match n with
      | .status _ s => s
      | _ => statusOf ns := by
  simp only [statusOf, List.foldl_append, List.foldl_cons, List.foldl_nil]
  cases n <;> rfl

/-- Events in an extended log. -/
theorem notes_snoc {ns : List Note} {n : Note}
    (h : ∀ pre n post, ns = pre ++ n :: post → NoteOK pre n) (hn : NoteOK ns n) :
    ∀ pre n' post, ns ++ [n] = pre ++ n' :: post → NoteOK pre n' := by
  intro pre n' post e
  rcases List.eq_nil_or_concat post with rfl | ⟨post', x, rfl⟩
  · obtain ⟨e1, e2⟩ := List.append_inj' e rfl
    injection e2 with e2
    subst e1 e2
    exact hn
  · have : ns ++ [n] = (pre ++ n' :: post') ++ [x] := by rw [e]; simp
    obtain ⟨e1, -⟩ := List.append_inj' this rfl
    exact h pre n' post' e1

/-- A change of status by the lock holder. -/
theorem inv_status {s : Client} {g : Nat → Ghost} (h : Inv s g) (t : Nat) (p : Prog Unit) (st st' : Status) (io : Io)
    (m : Mode) (hl : (g t).lk = some (st, io)) (ht : trans (g t).mode st st' = some m)
    (hp : wp p (fun _ g => outside g) ⟨m, some st', some (st', io)⟩) :
    Inv { s with status := st', prog := upd s.prog t p, notes := s.notes ++ [.status t st'] }
      (upd g t ⟨m, some st', some (st', io)⟩) := by
  have hlk := h.lock1 t st io hl
  have others : ∀ t', t' ≠ t → (g t').mode = .out := by
    intro t' hne
    cases hm : (g t').mode with
    | out => rfl
    | conn d =>
      have h1 := (h.modeC t' d hm).1
      rw [hlk.2] at h1
      cases hm2 : (g t).mode with
      | out => rw [hm2, h1] at ht; cases st' <;> cases ht
      | conn d' => exact absurd (h.uniq t' t (by simp [hm]) (by simp [hm2])) hne
      | disc => exact absurd (h.uniq t' t (by simp [hm]) (by simp [hm2])) hne
    | disc =>
      have h1 := h.modeD t' hm
      rw [hlk.2] at h1
      cases hm2 : (g t).mode with
      | out => rw [hm2, h1] at ht; cases st' <;> cases ht
      | conn d' => exact absurd (h.uniq t' t (by simp [hm]) (by simp [hm2])) hne
      | disc => exact absurd (h.uniq t' t (by simp [hm]) (by simp [hm2])) hne
  have nolk : ∀ t' x, t' ≠ t → (g t').lk = some x → False := by
    intro t' x hne hh
    have := (h.lock1 t' x.1 x.2 hh).1
    rw [hlk.1] at this
    exact hne (Option.some.inj this).symm
  -- what the possible changes are
  have facts : (∀ d, m = .conn d → st' = .connecting ∧ d = false) ∧ (m = .disc → st' = .disconnecting) ∧
      (st' = .connecting → m = .conn false) ∧ (st' = .disconnecting → m = .disc) ∧
      (st' = .connected ∨ st' = .disconnecting → s.conn ≠ none) ∧ Move st st' := by
    have hcon := consistent_of h t
    rw [hlk.2] at hcon
    cases hm : (g t).mode with
    | out =>
      rw [hm] at ht
      cases st <;> cases st' <;> simp [trans] at ht
      · subst ht; simp; exact .start
      · subst ht; simp; exact ⟨h.hasC (Or.inl hlk.2), .leave⟩
    | conn d =>
      rw [hm] at ht
      have := h.modeC t d hm
      rw [hm] at hcon
      have hcon : st = .connecting := hcon
      subst hcon
      cases d <;> cases st' <;> simp [trans] at ht <;> subst ht <;> simp
      · exact .failed
      · exact .failed
      · exact ⟨this.2 rfl, .opened⟩
    | disc =>
      rw [hm] at ht hcon
      have hcon : st = .disconnecting := hcon
      subst hcon
      cases st' <;> simp [trans] at ht
      subst ht; simp; exact .left
  obtain ⟨f1, f2, f3, f4, f5, f6⟩ := facts
  have hg : ∀ t', t' ≠ t → upd g t ⟨m, some st', some (st', io)⟩ t' = g t' := fun t' hne => upd_ne _ _ hne
  have hlk' : ∀ t' x, (upd g t ⟨m, some st', some (st', io)⟩ t').lk = some x → t' = t ∧ x = (st', io) := by
    intro t' x hh
    by_cases hne : t' = t
    · subst hne; rw [upd_same] at hh; exact ⟨rfl, (Option.some.inj hh).symm⟩
    · rw [hg t' hne] at hh; exact (nolk _ _ hne hh).elim
  have hmd : ∀ t', (upd g t ⟨m, some st', some (st', io)⟩ t').mode ≠ .out → t' = t := by
    intro t' hh
    by_cases hne : t' = t
    · exact hne
    · rw [hg t' hne] at hh; exact absurd (others t' hne) hh
  constructor
  · intro t'
    by_cases hne : t' = t
    · subst hne; simp only [upd_same]; exact hp
    · simp only [upd_ne _ _ hne]; exact h.progs t'
  · intro t' st'' io'' hh
    obtain ⟨rfl, hx⟩ := hlk' _ _ hh
    injection hx with hx
    exact ⟨hlk.1, hx.symm⟩
  · intro t' hh
    have : t = t' := by
      have := hlk.1.symm.trans hh
      exact Option.some.inj this
    subst this
    rw [upd_same]; simp
  · intro t' d hh
    have := hmd t' (by rw [hh]; simp)
    subst this
    rw [upd_same] at hh
    obtain ⟨a, b⟩ := f1 d hh
    exact ⟨a, by simp [b]⟩
  · intro t' hh
    have := hmd t' (by rw [hh]; simp)
    subst this
    rw [upd_same] at hh
    exact f2 hh
  · intro t1 t2 h1 h2
    rw [hmd t1 h1, hmd t2 h2]
  · intro hh
    exact ⟨t, false, by rw [upd_same]; exact f3 hh⟩
  · intro hh
    exact ⟨t, by rw [upd_same]; exact f4 hh⟩
  · exact f5
  · intro t'
    simp only
    rw [lastSet_snoc]
    by_cases hne : t' = t
    · subst hne; simp
    · simp only [upd_ne _ _ hne]; rw [if_neg (fun h => hne h.symm)]; exact h.last t'
  · obtain ⟨w, c, h1, h2, h3, h4⟩ := h.wire
    refine ⟨w, c, h1, h2, h3, ?_⟩
    intro t' st'' io'' hh
    obtain ⟨rfl, hx⟩ := hlk' _ _ hh
    injection hx with _ hx
    subst hx
    exact h4 t' st _ hl
  · exact h.sent
  · exact h.recv
  · exact h.quiet
  · exact h.fresh
  · exact h.conn
  · intro t' st'' io'' c hh hc
    obtain ⟨rfl, hx⟩ := hlk' _ _ hh
    injection hx with _ hx
    subst hx
    exact h.hold t' st _ c hl hc
  · intro t' st'' c req r c' acc hh
    obtain ⟨rfl, hx⟩ := hlk' _ _ hh
    injection hx with _ hx
    exact h.rdng t' st c req r c' acc (by rw [hl, ← hx])
  · refine notes_snoc h.notes ?_
    show Move (statusOf s.notes) st'
    rw [h.stat, hlk.2]
    exact f6
  · exact statusOf_snoc _ _
  · intro t' d hh
    have := hmd t' (by rw [hh]; simp)
    subst this
    rw [upd_same] at hh ⊢
    simp only [(f1 d hh).1]

/-- A dial ends. -/
theorem inv_dial {s : Client} {g : Nat → Ghost} (h : Inv s g) (t : Nat) (p : Prog Unit) (d r : Bool)
    (cn : Option Nat) (n : Nat) (hm : (g t).mode = .conn d) (hl : (g t).lk = none)
    (hp : wp p (fun _ g => outside g) { g t with mode := .conn r })
    (hr : r = true → cn ≠ none) (hn : s.nconn ≤ n) (hcn : ∀ c, cn = some c → c + 1 = n) :
    Inv { s with conn := cn, nconn := n, prog := upd s.prog t p } (upd g t { g t with mode := .conn r }) := by
  have hst := (h.modeC t d hm).1
  have others : ∀ t', t' ≠ t → (g t').mode = .out := by
    intro t' hne
    cases hm2 : (g t').mode with
    | out => rfl
    | conn d => exact absurd (h.uniq t' t (by simp [hm2]) (by simp [hm])) hne
    | disc => exact absurd (h.uniq t' t (by simp [hm2]) (by simp [hm])) hne
  have hlk : ∀ t', (upd g t { g t with mode := .conn r } t').lk = (g t').lk := by
    intro t'
    by_cases ht : t' = t
    · subst ht; rw [upd_same]
    · rw [upd_ne _ _ ht]
  have hlast : ∀ t', (upd g t { g t with mode := .conn r } t').last = (g t').last := by
    intro t'
    by_cases ht : t' = t
    · subst ht; rw [upd_same]
    · rw [upd_ne _ _ ht]
  have hmd : ∀ t', (upd g t { g t with mode := .conn r } t').mode ≠ .out → t' = t := by
    intro t' hh
    by_cases hne : t' = t
    · exact hne
    · rw [upd_ne _ _ hne] at hh; exact absurd (others t' hne) hh
  constructor
  · intro t'
    by_cases ht : t' = t
    · subst ht; simp only [upd_same]; exact hp
    · simp only [upd_ne _ _ ht]; exact h.progs t'
  all_goals try simp only [hlk, hlast]
  · exact h.lock1
  · exact h.lock2
  · intro t' d' hh
    have := hmd t' (by rw [hh]; simp)
    subst this
    rw [upd_same] at hh
    simp only [Mode.conn.injEq] at hh
    subst hh
    exact ⟨hst, hr⟩
  · intro t' hh
    have := hmd t' (by rw [hh]; simp)
    subst this
    rw [upd_same] at hh
    cases hh
  · intro t1 t2 h1 h2
    rw [hmd t1 h1, hmd t2 h2]
  · intro _
    exact ⟨t, r, by rw [upd_same]⟩
  · intro hh; rw [hst] at hh; cases hh
  · intro hh; rw [hst] at hh; rcases hh with hh | hh <;> cases hh
  · exact h.last
  · exact h.wire
  · exact h.sent
  · exact h.recv
  · exact h.quiet
  · intro c hc; exact h.fresh c (Nat.le_trans hn hc)
  · exact hcn
  · intro t' st io c h1 h2
    obtain ⟨h3, h4⟩ := h.hold t' st io c h1 h2
    exact ⟨by omega, h4⟩
  · exact h.rdng
  · exact h.notes
  · exact h.stat
  · intro t' d' hh
    have := hmd t' (by rw [hh]; simp)
    subst this
    exact h.mlast t' d hm

theorem step_inv (s s' : Client) (ch : Choice) (g : Nat → Ghost) (h : Inv s g) (hs : step s ch = some s') :
    ∃ g', Inv s' g' := by
  unfold step at hs
  split at hs
  · cases hs
  cases ch with
  | deliver c b =>
    simp only at hs
    split at hs
    · cases hs
    · rename_i hne
      injection hs with hs
      subst hs
      refine ⟨g, ⟨h.progs, h.lock1, h.lock2, h.modeC, h.modeD, h.uniq, h.ownC, h.ownD, h.hasC, h.last, h.wire,
        ?_, ?_, ?_, ?_, h.conn, ?_, h.rdng, h.notes, h.stat, h.mlast⟩⟩
      · intro c'
        by_cases hc : c' = c
        · subst hc; simp only [upd_same]; exact h.sent c'
        · simp only [upd_ne _ _ hc]; exact h.sent c'
      · intro c'
        by_cases hc : c' = c
        · subst hc
          simp only [upd_same]
          have := h.recv c'
          rw [List.take_append_of_le_length this.2]
          exact ⟨this.1, by simp; omega⟩
        · simp only [upd_ne _ _ hc]; exact h.recv c'
      · intro c'
        by_cases hc : c' = c
        · subst hc; simp only [upd_same]; exact fun h => absurd h hne
        · simp only [upd_ne _ _ hc]; exact h.quiet c'
      · intro c'
        by_cases hc : c' = c
        · subst hc; simp only [upd_same]; exact h.fresh c'
        · simp only [upd_ne _ _ hc]; exact h.fresh c'
      · intro t st io c0 h1 h2
        refine ⟨(h.hold t st io c0 h1 h2).1, fun c' hc' => ?_⟩
        by_cases hc : c' = c
        · subst hc; simp only [upd_same]; exact (h.hold t st io c0 h1 h2).2 c' hc'
        · simp only [upd_ne _ _ hc]; exact (h.hold t st io c0 h1 h2).2 c' hc'
  | call t op =>
    simp only at hs
    split at hs
    · rename_i hpure
      injection hs with hs
      subst hs
      have hout : outside (g t) := by
        have := h.progs t
        cases hp : s.prog t with
        | pure a => rw [hp] at this; exact this
        | act a k => rw [hp] at hpure; cases hpure
      have hg : (⟨.out, none, none⟩ : Ghost) = { g t with last := none } := by
        rcases hg' : g t with ⟨m, l, k⟩
        rw [hg'] at hout
        obtain ⟨h1, h2⟩ := hout
        simp only at h1 h2
        subst h1 h2
        rfl
      have hmode : ∀ t', (upd g t { g t with last := none } t').mode = (g t').mode := by
        intro t'
        by_cases ht : t' = t
        · subst ht; rw [upd_same]
        · rw [upd_ne _ _ ht]
      have hlk : ∀ t', (upd g t { g t with last := none } t').lk = (g t').lk := by
        intro t'
        by_cases ht : t' = t
        · subst ht; rw [upd_same]
        · rw [upd_ne _ _ ht]
      refine ⟨upd g t { g t with last := none }, ?_⟩
      constructor
      · intro t'
        by_cases ht : t' = t
        · subst ht; simp only [upd_same]; rw [← hg]; exact op_wp op
        · simp only [upd_ne _ _ ht]; exact h.progs t'
      all_goals try simp only [hmode, hlk]
      · exact h.lock1
      · exact h.lock2
      · exact h.modeC
      · exact h.modeD
      · exact h.uniq
      · exact h.ownC
      · exact h.ownD
      · exact h.hasC
      · intro t'
        rw [lastSet_snoc]
        by_cases ht : t' = t
        · subst ht; simp
        · simp only [upd_ne _ _ ht]; rw [if_neg (fun h => ht h.symm)]; exact h.last t'
      · exact h.wire
      · exact h.sent
      · exact h.recv
      · exact h.quiet
      · exact h.fresh
      · exact h.conn
      · exact h.hold
      · exact h.rdng
      · exact notes_snoc h.notes trivial
      · rw [statusOf_snoc]; exact h.stat
      · intro t' d hh
        by_cases ht : t' = t
        · subst ht; rw [hout.1] at hh; cases hh
        · simp only [upd_ne _ _ ht]; exact h.mlast t' d hh
    · cases hs
  | run t ok b =>
    simp only at hs
    have hwp := h.progs t
    cases hp : s.prog t with
    | pure a => rw [hp] at hs; cases hs
    | act a k =>
      rw [hp] at hs hwp
      cases a <;> simp only [exec] at hs <;> simp only [wp] at hwp
      case choose => injection hs with hs; subst hs; exact ⟨g, inv_local h t _ (hwp ok) rfl rfl rfl rfl rfl rfl rfl rfl⟩
      case pick => injection hs with hs; subst hs; exact ⟨g, inv_local h t _ (hwp b) rfl rfl rfl rfl rfl rfl rfl rfl⟩
      case kaStart => injection hs with hs; subst hs; exact ⟨g, inv_local h t _ hwp rfl rfl rfl rfl rfl rfl rfl rfl⟩
      case kaEnd => injection hs with hs; subst hs; exact ⟨g, inv_local h t _ hwp rfl rfl rfl rfl rfl rfl rfl rfl⟩
      case kaClose =>
        split at hs
        · split at hs
          · injection hs with hs; subst hs; exact ⟨g, inv_local h t _ hwp rfl rfl rfl rfl rfl rfl rfl rfl⟩
          · injection hs with hs; subst hs; exact ⟨g, inv_crash h⟩
        · injection hs with hs; subst hs; exact ⟨g, inv_local h t _ hwp rfl rfl rfl rfl rfl rfl rfl rfl⟩
      case kaWait =>
        split at hs
        · injection hs with hs; subst hs; exact ⟨g, inv_local h t _ (hwp true) rfl rfl rfl rfl rfl rfl rfl rfl⟩
        · split at hs
          · cases hs
          · injection hs with hs; subst hs; exact ⟨g, inv_local h t _ (hwp false) rfl rfl rfl rfl rfl rfl rfl rfl⟩
      case getStatus =>
        obtain ⟨st, io, h1, h2⟩ := hwp
        injection hs with hs; subst hs
        refine ⟨g, inv_local h t (k s.status) ?_ rfl rfl rfl rfl rfl rfl rfl rfl⟩
        rw [(h.lock1 t st io h1).2]; exact h2
      case lock =>
        split at hs
        · rename_i hnone
          injection hs with hs; subst hs
          have nolk : ∀ t', (g t').lk = none := by
            intro t'
            cases hh : (g t').lk with
            | none => rfl
            | some x => have := (h.lock1 t' x.1 x.2 hh).1; rw [hnone] at this; cases this
          have hmode : ∀ t', (upd g t { g t with lk := some (s.status, .idle) } t').mode = (g t').mode := by
            intro t'
            by_cases ht : t' = t
            · subst ht; rw [upd_same]
            · rw [upd_ne _ _ ht]
          have hlast : ∀ t', (upd g t { g t with lk := some (s.status, .idle) } t').last = (g t').last := by
            intro t'
            by_cases ht : t' = t
            · subst ht; rw [upd_same]
            · rw [upd_ne _ _ ht]
          have hlk : ∀ t' x, (upd g t { g t with lk := some (s.status, .idle) } t').lk = some x →
              t' = t ∧ x = (s.status, .idle) := by
            intro t' x hh
            by_cases ht : t' = t
            · subst ht; rw [upd_same] at hh; exact ⟨rfl, (Option.some.inj hh).symm⟩
            · rw [upd_ne _ _ ht, nolk] at hh; cases hh
          refine ⟨upd g t { g t with lk := some (s.status, .idle) }, ?_⟩
          constructor
          · intro t'
            by_cases ht : t' = t
            · subst ht; simp only [upd_same]; exact hwp.2 _ (consistent_of h t')
            · simp only [upd_ne _ _ ht]; exact h.progs t'
          all_goals try simp only [hmode, hlast]
          · intro t' st io hh
            obtain ⟨rfl, hx⟩ := hlk _ _ hh
            injection hx with hx
            exact ⟨rfl, hx.symm⟩
          · intro t' hh
            have : t = t' := Option.some.inj hh
            subst this
            rw [upd_same]; simp
          · exact h.modeC
          · exact h.modeD
          · exact h.uniq
          · exact h.ownC
          · exact h.ownD
          · exact h.hasC
          · exact h.last
          · obtain ⟨w, c, h1, h2, h3, -⟩ := h.wire
            refine ⟨w, c, h1, h2, by simp, ?_⟩
            intro t' st io hh
            obtain ⟨rfl, hx⟩ := hlk _ _ hh
            injection hx with _ hx
            subst hx
            exact h3 hnone
          · exact h.sent
          · exact h.recv
          · exact h.quiet
          · exact h.fresh
          · exact h.conn
          · intro t' st io c hh hc
            obtain ⟨-, hx⟩ := hlk _ _ hh
            injection hx with _ hx
            subst hx
            cases hc
          · intro t' st c req r c' acc hh
            obtain ⟨-, hx⟩ := hlk _ _ hh
            injection hx with _ hx
            cases hx
          · exact h.notes
          · exact h.stat
          · exact h.mlast
        · cases hs
      case unlock =>
        obtain ⟨⟨st, io, h1⟩, h2⟩ := hwp
        injection hs with hs; subst hs
        have hl := h.lock1 t st io h1
        have hmode : ∀ t', (upd g t { g t with lk := none } t').mode = (g t').mode := by
          intro t'
          by_cases ht : t' = t
          · subst ht; rw [upd_same]
          · rw [upd_ne _ _ ht]
        have hlast : ∀ t', (upd g t { g t with lk := none } t').last = (g t').last := by
          intro t'
          by_cases ht : t' = t
          · subst ht; rw [upd_same]
          · rw [upd_ne _ _ ht]
        have hlk : ∀ t', (upd g t { g t with lk := none } t').lk = none := by
          intro t'
          by_cases ht : t' = t
          · subst ht; rw [upd_same]
          · rw [upd_ne _ _ ht]
            cases hh : (g t').lk with
            | none => rfl
            | some x =>
              have := (h.lock1 t' x.1 x.2 hh).1
              rw [hl.1] at this
              exact absurd (Option.some.inj this).symm ht
        refine ⟨upd g t { g t with lk := none }, ?_⟩
        constructor
        · intro t'
          by_cases ht : t' = t
          · subst ht; simp only [upd_same]; exact h2
          · simp only [upd_ne _ _ ht]; exact h.progs t'
        all_goals try simp only [hmode, hlast, hlk]
        · simp
        · simp
        · exact h.modeC
        · exact h.modeD
        · exact h.uniq
        · exact h.ownC
        · exact h.ownD
        · exact h.hasC
        · exact h.last
        · obtain ⟨w, c, h3, h4, -, h5⟩ := h.wire
          obtain ⟨e, he, -, rfl⟩ := cur_proper (h5 t st io h1)
          exact ⟨w ++ e.events, [], by simp [h3], .snoc w e h4 he, by simp, by simp⟩
        · exact h.sent
        · exact h.recv
        · exact h.quiet
        · exact h.fresh
        · exact h.conn
        · simp
        · simp
        · exact h.notes
        · exact h.stat
        · exact h.mlast
      case setStatus st' =>
        obtain ⟨st, io, m, h1, h2, h3⟩ := hwp
        injection hs with hs; subst hs
        exact ⟨_, inv_status h t _ st st' io m h1 h2 h3⟩
      case dial =>
        injection hs with hs; subst hs
        obtain ⟨⟨d, hd⟩, h2, h3⟩ := hwp
        refine ⟨g, inv_note h t _ ?_ rfl rfl rfl rfl rfl rfl rfl ?_ ?_ ?_⟩
        · simp only [wp]; exact ⟨⟨d, hd⟩, h2, h3⟩
        · intro t'; simp only; rw [lastSet_snoc]
        · refine notes_snoc h.notes ?_
          show lastSet t s.notes = _
          rw [h.last t]
          exact h.mlast t d hd
        · exact statusOf_snoc _ _
      case dialing =>
        obtain ⟨⟨d, hd⟩, h2, h3⟩ := hwp
        split at hs
        · injection hs with hs; subst hs
          have hi := inv_dial h t _ d true (some s.nconn) (s.nconn + 1) hd h2 (h3 true) (by simp) (by omega) (by simp)
          refine ⟨_, inv_note hi t _ (hi.progs t) ?_ rfl rfl rfl rfl rfl rfl ?_ ?_ ?_⟩
          · funext t'
            by_cases ht : t' = t
            · subst ht; simp only [upd_same]
            · simp only [upd_ne _ _ ht]
          · intro t'; simp only; rw [lastSet_snoc]
          · refine notes_snoc h.notes ?_
            show lastSet t s.notes = _
            rw [h.last t]
            exact h.mlast t d hd
          · exact statusOf_snoc _ _
        · injection hs with hs; subst hs
          exact ⟨_, inv_dial h t _ d false none s.nconn hd h2 (h3 false) (by simp) (by omega) (by simp)⟩
      case write d =>
        obtain ⟨st, h1, h2, h3⟩ := hwp
        split at hs
        · injection hs with hs; subst hs; exact ⟨g, inv_crash h⟩
        · rename_i c hc
          injection hs with hs; subst hs
          have hcn := h.conn c hc
          refine ⟨_, inv_io h t _ st .idle (.writing c d []) h1 ?_ rfl rfl rfl rfl rfl rfl ?_ h.sent h.recv h.quiet
            h.fresh ?_ (by intros; contradiction)⟩
          · simp only [wp]
            exact ⟨st, d, [], rfl, rfl, h2 c, h3⟩
          · obtain ⟨w, x, e1, e2, -, e4⟩ := h.wire
            refine ⟨w, x, e1, e2, List.nil_prefix, ?_⟩
            exact e4 t st _ h1
          · intro c' hc'
            have : c = c' := Option.some.inj hc'
            subst this
            exact ⟨by omega, fun c' hlt => h.fresh c' (by omega)⟩
      case writing c d =>
        obtain ⟨st, req, sent, h1, h2, h3, h4⟩ := hwp
        obtain ⟨w, x, e1, e2, -, e4⟩ := h.wire
        have hcur := e4 t st _ h1
        have hhold := h.hold t st _ c h1 rfl
        cases d with
        | nil =>
          simp only [exec] at hs
          injection hs with hs; subst hs
          rw [List.append_nil] at h2
          subst h2
          refine ⟨_, inv_io h t _ st _ (.wrote c sent []) h1 h3 rfl rfl rfl rfl rfl rfl ?_ h.sent h.recv h.quiet
            h.fresh ?_ (by intros; contradiction)⟩
          · exact ⟨w, x, e1, e2, by rw [cur, hcur.2]; simp⟩
          · intro c' hc'
            have : c = c' := Option.some.inj hc'
            subst this
            exact hhold
        | cons y d =>
          simp only [exec] at hs
          split at hs
          · split at hs
            · cases hs
            · injection hs with hs; subst hs
              refine ⟨_, inv_io h t _ st _ (.writing c req (sent ++ [y])) h1 ?_ rfl rfl rfl rfl rfl rfl ?_ ?_ ?_ ?_ ?_ ?_
                (by intros; contradiction)⟩
              · simp only [wp]
                exact ⟨st, req, sent ++ [y], rfl, by rw [← h2]; simp, h3, h4⟩
              · refine ⟨w, x ++ [.out t c y], by simp [e1], e2, ?_⟩
                exact ⟨⟨d, by rw [← h2]; simp⟩, by rw [hcur.2]; simp⟩
              · intro c'
                simp only
                rw [sentOn_append]
                by_cases hc : c' = c
                · subst hc; rw [upd_same]; simp [sentOn, h.sent c']
                · rw [upd_ne _ _ hc, h.sent c']; simp [sentOn]; exact fun h => hc h.symm
              · intro c'
                simp only
                rw [recvOn_append, show recvOn c' [.out t c y] = [] from rfl, List.append_nil]
                by_cases hc : c' = c
                · subst hc; rw [upd_same]; exact h.recv c'
                · rw [upd_ne _ _ hc]; exact h.recv c'
              · intro c'
                simp only
                by_cases hc : c' = c
                · subst hc; rw [upd_same]; simp
                · rw [upd_ne _ _ hc]; exact h.quiet c'
              · intro c' hc'
                have hc : c' ≠ c := by omega
                simp only
                rw [upd_ne _ _ hc]; exact h.fresh c' hc'
              · intro c0 hc0
                have : c = c0 := Option.some.inj hc0
                subst this
                refine ⟨hhold.1, fun c' hc' => ?_⟩
                simp only
                rw [upd_ne _ _ (by omega)]; exact hhold.2 c' hc'
          · injection hs with hs; subst hs
            refine ⟨_, inv_io h t _ st _ .dead h1 h4 rfl rfl rfl rfl rfl rfl ?_ h.sent h.recv h.quiet
              h.fresh (by intros; contradiction) (by intros; contradiction)⟩
            exact ⟨w, x, e1, e2, cur_proper hcur⟩
      case read n =>
        obtain ⟨st, c, req, r, h1, h2, h3⟩ := hwp
        split at hs
        · injection hs with hs; subst hs; exact ⟨g, inv_crash h⟩
        · rename_i c' hc'
          injection hs with hs; subst hs
          have hcn := h.conn c' hc'
          have hhold := h.hold t st _ c h1 rfl
          refine ⟨_, inv_io h t _ st _ (.reading c req r c' []) h1 ?_ rfl rfl rfl rfl rfl rfl ?_ h.sent h.recv h.quiet
            h.fresh ?_ ?_⟩
          · simp only [wp]
            exact ⟨st, c, req, r, rfl, h2, h3⟩
          · obtain ⟨w, x, e1, e2, -, e4⟩ := h.wire
            refine ⟨w, x, e1, e2, Or.inr rfl, ?_⟩
            rw [List.append_nil]
            exact e4 t st _ h1
          · intro c0 hc0
            have : c = c0 := Option.some.inj hc0
            subst this
            exact hhold
          · intro c0 req0 r0 c1 acc0 he
            injection he with a1 _ _ a2 _
            omega
      case reading c' n acc =>
        obtain ⟨st, c, req, r, h1, h2, h3⟩ := hwp
        obtain ⟨w, x, e1, e2, -, e4⟩ := h.wire
        have hcur := e4 t st _ h1
        have hhold := h.hold t st _ c h1 rfl
        have hle := h.rdng t st c req r c' acc h1
        split at hs
        · rename_i hlen
          injection hs with hs; subst hs
          refine ⟨_, inv_io h t _ st _ (.wrote c req (r ++ acc)) h1 (h2 acc hlen) rfl rfl rfl rfl rfl rfl ?_ h.sent
            h.recv h.quiet h.fresh ?_ (by intros; contradiction)⟩
          · exact ⟨w, x, e1, e2, hcur.2⟩
          · intro c0 hc0
            have : c = c0 := Option.some.inj hc0
            subst this
            exact hhold
        · split at hs
          · split at hs
            · rename_i y hy
              split at hs
              · cases hs
              · injection hs with hs; subst hs
                -- a byte was delivered, so this is the connection written to
                have hcc : c' = c := by
                  rcases Nat.lt_or_eq_of_le hle with hlt | heq
                  · have := h.quiet c' (hhold.2 c' hlt)
                    rw [this] at hy
                    simp at hy
                  · exact heq.symm
                subst hcc
                have hlt : (s.socks c').taken < (s.socks c').delivered.length := (List.getElem?_eq_some_iff.mp hy).1
                refine ⟨_, inv_io h t _ st _ (.reading c' req r c' (acc ++ [y])) h1 ?_ rfl rfl rfl rfl rfl rfl ?_ ?_ ?_ ?_
                  ?_ ?_ ?_⟩
                · simp only [wp]
                  exact ⟨st, c', req, r, rfl, h2, h3⟩
                · refine ⟨w, x ++ [.inp t c' y], by simp [e1], e2, Or.inl rfl, ?_⟩
                  rw [hcur.2]; simp
                · intro c1
                  simp only
                  rw [sentOn_append, show sentOn c1 [.inp t c' y] = [] from rfl, List.append_nil]
                  by_cases hc : c1 = c'
                  · subst hc; rw [upd_same]; exact h.sent c1
                  · rw [upd_ne _ _ hc]; exact h.sent c1
                · intro c1
                  simp only
                  rw [recvOn_append]
                  by_cases hc : c1 = c'
                  · subst hc
                    rw [upd_same, (h.recv c1).1, List.take_add_one, hy]
                    simp [recvOn]; omega
                  · rw [upd_ne _ _ hc]
                    have : recvOn c1 [.inp t c' y] = [] := by simp [recvOn]; exact fun h => hc h.symm
                    rw [this, List.append_nil]; exact h.recv c1
                · intro c1
                  simp only
                  by_cases hc : c1 = c'
                  · subst hc; rw [upd_same]; exact h.quiet c1
                  · rw [upd_ne _ _ hc]; exact h.quiet c1
                · intro c1 hc1
                  simp only
                  rw [upd_ne _ _ (by omega)]; exact h.fresh c1 hc1
                · intro c0 hc0
                  have : c' = c0 := Option.some.inj hc0
                  subst this
                  refine ⟨hhold.1, fun c1 hc1 => ?_⟩
                  simp only
                  rw [upd_ne _ _ (by omega)]; exact hhold.2 c1 hc1
                · intro c0 req0 r0 c1 acc0 he
                  injection he with a1 _ _ a2 _
                  omega
            · cases hs
          · injection hs with hs; subst hs
            refine ⟨_, inv_io h t _ st _ .dead h1 h3 rfl rfl rfl rfl rfl rfl ?_ h.sent h.recv h.quiet
              h.fresh (by intros; contradiction) (by intros; contradiction)⟩
            exact ⟨w, x, e1, e2, cur_proper hcur⟩
      case close =>
        obtain ⟨hm, hl, hk⟩ := hwp
        split at hs
        · injection hs with hs; subst hs; exact ⟨g, inv_crash h⟩
        · rename_i c hc
          injection hs with hs; subst hs
          have hk' := inv_local (s' := { s with prog := upd s.prog t (k ()) }) h t _ hk rfl rfl rfl rfl rfl rfl rfl rfl
          have hsent : ∀ c', (upd s.socks c { s.socks c with closed := true } c').sent = (s.socks c').sent := by
            intro c'
            by_cases hc : c' = c
            · subst hc; rw [upd_same]
            · rw [upd_ne _ _ hc]
          have hdel : ∀ c', (upd s.socks c { s.socks c with closed := true } c').delivered = (s.socks c').delivered := by
            intro c'
            by_cases hc : c' = c
            · subst hc; rw [upd_same]
            · rw [upd_ne _ _ hc]
          have htak : ∀ c', (upd s.socks c { s.socks c with closed := true } c').taken = (s.socks c').taken := by
            intro c'
            by_cases hc : c' = c
            · subst hc; rw [upd_same]
            · rw [upd_ne _ _ hc]
          refine ⟨g, ⟨hk'.progs, h.lock1, h.lock2, h.modeC, h.modeD, h.uniq, h.ownC, h.ownD, h.hasC, h.last, h.wire,
            ?_, ?_, ?_, ?_, h.conn, ?_, h.rdng, h.notes, h.stat, h.mlast⟩⟩
          · intro c'; simp only [hsent]; exact h.sent c'
          · intro c'; simp only [hdel, htak]; exact h.recv c'
          · intro c'; simp only [hdel, hsent]; exact h.quiet c'
          · intro c'; simp only [hsent]; exact h.fresh c'
          · intro t' st io c0 h1 h2; simp only [hsent]; exact h.hold t' st io c0 h1 h2
      case handed req hh p =>
        obtain ⟨st, c, h1, h2, h3, h4⟩ := hwp
        injection hs with hs; subst hs
        obtain ⟨w, x, e1, e2, -, e4⟩ := h.wire
        have hcur := e4 t st _ h1
        refine ⟨_, inv_io h t _ st _ .done h1 h4 rfl rfl rfl rfl rfl rfl ?_ ?_ ?_ h.quiet
          h.fresh (by intros; contradiction) (by intros; contradiction)⟩
        · refine ⟨w, x ++ [.handed t req hh p], by simp [e1], e2, ⟨t, c, req, req, hh ++ p, some (hh, p)⟩, ?_, rfl, ?_⟩
          · refine ⟨List.prefix_refl _, fun _ => rfl, ?_⟩
            intro h' p' he
            have := Option.some.inj he
            injection this with a b
            subst a b
            exact ⟨rfl, rfl, h2, h3.trans (hdrLen_announced hh)⟩
          · rw [show x = _ from hcur]; simp [Exchange.events]
        · intro c'; simp only; rw [sentOn_append, h.sent c']; simp [sentOn]
        · intro c'; simp only; rw [recvOn_append, show recvOn c' [.handed t req hh p] = [] from rfl, List.append_nil]; exact h.recv c'
      case result cn ac r =>
        injection hs with hs; subst hs
        refine ⟨g, inv_note h t _ hwp.2 rfl rfl rfl rfl rfl rfl rfl ?_ ?_ ?_⟩
        · intro t'; simp only; rw [lastSet_snoc]
        · refine notes_snoc h.notes ?_
          have := hwp.1
          rw [← h.last t] at this
          cases ac
          · exact this
          · exact this
        · exact statusOf_snoc _ _

theorem inv_init : Inv .init (fun _ => ⟨.out, none, none⟩) := by
  constructor
  case progs => intro t; exact ⟨rfl, rfl⟩
  case wire => exact ⟨[], [], rfl, .nil, fun _ => rfl, by intros; contradiction⟩
  all_goals (try simp [Client.init, lastSet, sentOn, recvOn, statusOf])

theorem runs_inv (cs : List Choice) : ∀ (s s' : Client) (g : Nat → Ghost), Inv s g → runs s cs = some s' → ∃ g', Inv s' g' := by
  induction cs with
  | nil => intro s s' g h e; injection e with e; subst e; exact ⟨g, h⟩
  | cons c cs ih =>
    intro s s' g h e
    simp only [runs] at e
    cases hs : step s c with
    | none => rw [hs] at e; cases e
    | some s1 =>
      rw [hs] at e
      obtain ⟨g1, h1⟩ := step_inv s s1 c g h hs
      exact ih s1 s' g1 h1 e

theorem reach_inv {s : Client} (h : Reach s) : ∃ g, Inv s g := by
  obtain ⟨cs, h⟩ := h
  exact runs_inv cs _ _ _ inv_init h

end Gologix.Conc
