import Verif.Spec.ServerTables
import Verif.Lemmas.Str
/-
C31 to C34: connection table, tag store and routing table of the server.
-/
set_option linter.unusedSimpArgs false
namespace Gologix.Server
open Gologix.Server.Spec

/-! ### C31 connection table -/

/-- One operation applied to the table (the outcome of a failing close is dropped: it changes
nothing). -/
def ConnTable.apply (t : ConnTable) : ConnOp → ConnTable
  | .add c => t.add c
  | .closeID k => (t.closeByID k).2
  | .closeOT k => (t.closeByOT k).2
  | .closeTO k => (t.closeByTO k).2

/-- The table after a history, starting from the initialised one. -/
def connRun (h : List ConnOp) : ConnTable := h.foldl ConnTable.apply ConnTable.init

theorem connRun_snoc (h : List ConnOp) (op : ConnOp) : connRun (h ++ [op]) = (connRun h).apply op := by
  simp [connRun]

/-- What `closeBy` leaves of the entries before and after the match. -/
def joinLast (as bs : List Conn) : List Conn :=
  match bs.getLast? with
  | none => as
  | some x => as ++ x :: bs.dropLast

theorem mem_joinLast (as bs : List Conn) (c : Conn) : c ∈ joinLast as bs ↔ c ∈ as ∨ c ∈ bs := by
  unfold joinLast
  cases hb : bs.getLast? with
  | none => simp [List.getLast?_eq_none_iff.mp hb]
  | some x =>
    obtain ⟨ys, rfl⟩ := List.getLast?_eq_some_iff.mp hb
    simp
    constructor
    · rintro (h | h | h) <;> simp [h]
    · rintro (h | h | h) <;> simp [h]

theorem find_split {p : Conn → Bool} {l : List Conn} {c : Conn} (h : l.find? p = some c) :
    ∃ as bs, l = as ++ c :: bs ∧ p c = true ∧ ∀ a ∈ as, p a = false := by
  obtain ⟨hp, as, bs, rfl, ha⟩ := List.find?_eq_some_iff_append.mp h
  exact ⟨as, bs, rfl, hp, fun a h => by simpa using ha a h⟩

theorem closeBy_split {t : ConnTable} {p : Conn → Bool} {as bs : List Conn} {c : Conn}
    (hl : t.conns = as ++ c :: bs) (hc : p c = true) (ha : ∀ a ∈ as, p a = false) :
    t.closeBy p = (.ok (), { conns := joinLast as bs,
                             isOpen := fun r => if r = c.ref then false else t.isOpen r }) := by
  have hi : t.conns.findIdx? p = some as.length := by
    rw [hl, List.findIdx?_append]
    have : as.findIdx? p = none := by
      rw [List.findIdx?_eq_none_iff]
      intro x hx; simp [ha x hx]
    simp [this, List.findIdx?_cons, hc]
  have hf : t.conns.find? p = some c := by
    rw [hl, List.find?_append]
    have : as.find? p = none := by
      rw [List.find?_eq_none]
      intro x hx; simp [ha x hx]
    simp [this, List.find?_cons, hc]
  unfold ConnTable.closeBy
  rw [hi, hf]
  simp only
  by_cases h1 : t.conns.length = 1
  · rw [if_pos h1]
    rw [hl] at h1
    simp at h1
    have : as = [] := List.eq_nil_of_length_eq_zero (by omega)
    have : bs = [] := List.eq_nil_of_length_eq_zero (by omega)
    subst as; subst bs
    simp [joinLast]
  · rw [if_neg h1]
    rcases List.eq_nil_or_concat bs with rfl | ⟨ys, y, rfl⟩
    · have : t.conns.getLast? = some c := by rw [hl]; simp
      rw [this]
      simp only [hl, joinLast]
      simp
    · have : t.conns.getLast? = some y := by rw [hl]; simp [List.getLast?_append, List.getLast?_cons]
      rw [this]
      simp only [hl, joinLast]
      simp
      rw [← List.cons_append, List.dropLast_concat]

theorem closeBy_none {t : ConnTable} {p : Conn → Bool} (h : t.conns.find? p = none) :
    t.closeBy p = (.err .fail, t) := by
  unfold ConnTable.closeBy
  rw [h]
  cases t.conns.findIdx? p <;> rfl

/-- What the table holds after a history, in terms of the history alone. -/
structure TableOk (h : List ConnOp) (t : ConnTable) : Prop where
  mem    : ∀ c, c ∈ t.conns ↔ OpenAfter h c
  keys   : ∀ c ∈ t.conns, ∀ d ∈ t.conns, (c.id = d.id ∨ c.ot = d.ot ∨ c.to = d.to) → c = d
  nodup  : t.conns.Nodup
  refs   : ∀ c d, ConnOp.add c ∈ h → ConnOp.add d ∈ h → c.ref = d.ref → c = d
  flag   : ∀ r, t.isOpen r = true ↔ ∃ c ∈ t.conns, c.ref = r

theorem openAfter_nil (c : Conn) : ¬ OpenAfter [] c := by
  rintro ⟨pre, post, h, _⟩; simp at h

theorem openAfter_mem {h : List ConnOp} {c : Conn} (ho : OpenAfter h c) : ConnOp.add c ∈ h := by
  obtain ⟨pre, post, rfl, _⟩ := ho; simp

theorem openAfter_snoc_add {h : List ConnOp} {c d : Conn} :
    OpenAfter (h ++ [.add d]) c ↔ OpenAfter h c ∨ c = d := by
  constructor
  · rintro ⟨pre, post, he, hp⟩
    rcases List.eq_nil_or_concat post with rfl | ⟨ys, y, rfl⟩
    · right
      have := List.append_inj_right' he (by simp)
      simp at this; exact this.symm
    · left
      rw [List.concat_eq_append, ← List.cons_append, ← List.append_assoc] at he
      have h1 := List.append_inj' he (by simp)
      refine ⟨pre, ys, h1.1, fun op ho => hp op (by simp [ho])⟩
  · rintro (⟨pre, post, rfl, hp⟩ | rfl)
    · refine ⟨pre, post ++ [.add d], by simp, ?_⟩
      intro op ho
      simp at ho
      rcases ho with ho | rfl
      · exact hp op ho
      · exact fun h => h
    · exact ⟨h, [], by simp, by simp⟩

theorem openAfter_snoc_close {h : List ConnOp} {c : Conn} {op : ConnOp} (hop : ∀ d, op ≠ .add d) :
    OpenAfter (h ++ [op]) c ↔ OpenAfter h c ∧ ¬ op.closes c := by
  constructor
  · rintro ⟨pre, post, he, hp⟩
    rcases List.eq_nil_or_concat post with rfl | ⟨ys, y, rfl⟩
    · have := List.append_inj_right' he (by simp)
      simp at this; exact absurd this (hop c)
    · rw [List.concat_eq_append, ← List.cons_append, ← List.append_assoc] at he
      have h1 := List.append_inj' he (by simp)
      have hy : op = y := by simpa using h1.2
      subst hy
      exact ⟨⟨pre, ys, h1.1, fun op' ho => hp op' (by simp [ho])⟩, hp op (by simp)⟩
  · rintro ⟨⟨pre, post, rfl, hp⟩, hn⟩
    refine ⟨pre, post ++ [op], by simp, ?_⟩
    intro op' ho
    simp at ho
    rcases ho with ho | rfl
    · exact hp op' ho
    · exact hn

theorem distinct_init {h : List ConnOp} {op : ConnOp} (hd : Distinct (h ++ [op])) : Distinct h := by
  intro pre c post he
  exact hd pre c (post ++ [op]) (by rw [he]; simp)

/-- One close step preserves the description of the table; `p` is the comparison the operation makes. -/
theorem tableOk_close {h : List ConnOp} {t : ConnTable} {op : ConnOp} {p : Conn → Bool}
    (hop : ∀ d, op ≠ .add d) (hp : ∀ c, p c = true ↔ op.closes c)
    (huniq : ∀ c ∈ t.conns, ∀ d ∈ t.conns, op.closes c → op.closes d → c = d)
    (ok : TableOk h t) : TableOk (h ++ [op]) (t.closeBy p).2 := by
  have hrefs : ∀ c d, ConnOp.add c ∈ h ++ [op] → ConnOp.add d ∈ h ++ [op] → c.ref = d.ref → c = d := by
    intro c d hc hd
    simp at hc hd
    refine ok.refs c d (hc.resolve_right fun e => hop c e.symm) (hd.resolve_right fun e => hop d e.symm)
  cases hf : t.conns.find? p with
  | none =>
    rw [closeBy_none hf]
    have hn := List.find?_eq_none.mp hf
    refine ⟨?_, ok.keys, ok.nodup, hrefs, ok.flag⟩
    intro c
    rw [openAfter_snoc_close hop, ← ok.mem]
    refine ⟨fun hc => ⟨hc, fun hcl => hn c hc ((hp c).mpr hcl)⟩, fun hc => hc.1⟩
  | some c =>
    obtain ⟨as, bs, hl, hc, ha⟩ := find_split hf
    rw [closeBy_split hl hc ha]
    have hcc := (hp c).mp hc
    have hnd := ok.nodup
    rw [hl] at hnd
    have hmem : ∀ d, d ∈ joinLast as bs ↔ d ∈ t.conns ∧ d ≠ c := by
      intro d
      rw [mem_joinLast, hl]
      simp only [List.mem_append, List.mem_cons]
      have h1 := List.nodup_append.mp hnd
      constructor
      · rintro (hd | hd)
        · exact ⟨Or.inl hd, fun e => h1.2.2 d hd c (by simp) e⟩
        · exact ⟨Or.inr (Or.inr hd), fun e => by
            subst e; exact (List.nodup_cons.mp h1.2.1).1 hd⟩
      · rintro ⟨hd | hd | hd, hne⟩
        · exact Or.inl hd
        · exact absurd hd hne
        · exact Or.inr hd
    have hcm : c ∈ t.conns := by rw [hl]; simp
    refine ⟨?_, ?_, ?_, hrefs, ?_⟩
    · intro d
      rw [openAfter_snoc_close hop, ← ok.mem, hmem]
      constructor
      · rintro ⟨hd, hne⟩
        exact ⟨hd, fun hdc => hne (huniq d hd c hcm hdc hcc)⟩
      · rintro ⟨hd, hn⟩
        exact ⟨hd, fun e => hn (e ▸ hcc)⟩
    · intro a hA b hB hk
      exact ok.keys a ((hmem a).mp hA).1 b ((hmem b).mp hB).1 hk
    · show (joinLast as bs).Nodup
      unfold joinLast
      have h1 := List.nodup_append.mp hnd
      have h2 := List.nodup_cons.mp h1.2.1
      cases hb : bs.getLast? with
      | none => exact h1.1
      | some x =>
        obtain ⟨ys, rfl⟩ := List.getLast?_eq_some_iff.mp hb
        have h3 := List.nodup_append.mp h2.2
        simp only [List.dropLast_concat]
        rw [List.nodup_append]
        refine ⟨h1.1, ?_, ?_⟩
        · rw [List.nodup_cons]
          exact ⟨fun hx => h3.2.2 x hx x (by simp) rfl, h3.1⟩
        · intro a hA b hB
          simp at hB
          refine h1.2.2 a hA b ?_
          rcases hB with rfl | hB <;> simp [*]
    · intro r
      show (if r = c.ref then false else t.isOpen r) = true ↔ _
      by_cases hr : r = c.ref
      · simp only [hr, if_true]
        simp
        intro d hd hrf
        have := (hmem d).mp hd
        exact this.2 (ok.refs d c (openAfter_mem ((ok.mem d).mp this.1))
          (openAfter_mem ((ok.mem c).mp hcm)) hrf)
      · rw [if_neg hr, ok.flag]
        constructor
        · rintro ⟨d, hd, rfl⟩
          exact ⟨d, (hmem d).mpr ⟨hd, fun e => hr (by rw [e])⟩, rfl⟩
        · rintro ⟨d, hd, rfl⟩
          exact ⟨d, ((hmem d).mp hd).1, rfl⟩

theorem tableOk (h : List ConnOp) (hd : Distinct h) : TableOk h (connRun h) := by
  induction hn : h.length generalizing h with
  | zero =>
    have : h = [] := List.eq_nil_of_length_eq_zero hn
    subst this
    refine ⟨?_, ?_, ?_, ?_, ?_⟩ <;> simp [connRun, ConnTable.init, openAfter_nil]
  | succ n ih =>
    rcases List.eq_nil_or_concat h with rfl | ⟨h, op, rfl⟩
    · simp at hn
    rw [List.concat_eq_append] at hd hn ⊢
    have ok := ih h (distinct_init hd) (by simpa using hn)
    rw [connRun_snoc]
    cases op with
    | add c =>
      obtain ⟨hk, hr⟩ := hd h c [] (by simp)
      refine ⟨?_, ?_, ?_, ?_, ?_⟩
      · intro d
        rw [openAfter_snoc_add, ← ok.mem]
        simp [ConnTable.apply, ConnTable.add]
      · intro a hA b hB hab
        simp only [ConnTable.apply, ConnTable.add, List.mem_append, List.mem_singleton] at hA hB
        rcases hA with hA | rfl <;> rcases hB with hB | rfl
        · exact ok.keys a hA b hB hab
        · have := hk a ((ok.mem a).mp hA)
          rcases hab with h | h | h
          · exact absurd h this.1
          · exact absurd h this.2.1
          · exact absurd h this.2.2
        · have := hk b ((ok.mem b).mp hB)
          rcases hab with h | h | h
          · exact absurd h.symm this.1
          · exact absurd h.symm this.2.1
          · exact absurd h.symm this.2.2
        · rfl
      · show (_ ++ [c]).Nodup
        rw [List.nodup_append]
        refine ⟨ok.nodup, by simp, ?_⟩
        intro a hA b hB e
        simp at hB
        subst hB; subst e
        exact (hk a ((ok.mem a).mp hA)).1 rfl
      · intro a b hA hB hab
        simp at hA hB
        rcases hA with hA | rfl <;> rcases hB with hB | rfl
        · exact ok.refs a b hA hB hab
        · exact absurd hab (hr a hA)
        · exact absurd hab.symm (hr b hB)
        · rfl
      · intro r
        show (if r = c.ref then true else (connRun h).isOpen r) = true ↔ ∃ d ∈ _ ++ [c], d.ref = r
        by_cases hrc : r = c.ref
        · simp [hrc]
        · rw [if_neg hrc, ok.flag]
          simp
          intro e; exact absurd e.symm hrc
    | closeID k =>
      refine tableOk_close (by simp) (fun c => ?_) ?_ ok
      · simp [ConnOp.closes]
      · intro c hc d hd h1 h2
        exact ok.keys c hc d hd (Or.inl (Eq.trans h1 (Eq.symm h2)))
    | closeOT k =>
      refine tableOk_close (by simp) (fun c => ?_) ?_ ok
      · simp [ConnOp.closes]
      · intro c hc d hd h1 h2
        exact ok.keys c hc d hd (Or.inr (Or.inl (Eq.trans h1 (Eq.symm h2))))
    | closeTO k =>
      refine tableOk_close (by simp) (fun c => ?_) ?_ ok
      · simp [ConnOp.closes]
      · intro c hc d hd h1 h2
        exact ok.keys c hc d hd (Or.inr (Or.inr (Eq.trans h1 (Eq.symm h2))))

theorem getBy_iff {h : List ConnOp} {t : ConnTable} {p : Conn → Bool} (ok : TableOk h t)
    (huniq : ∀ c ∈ t.conns, ∀ d ∈ t.conns, p c = true → p d = true → c = d) (c : Conn) :
    t.getBy p = .ok c ↔ OpenAfter h c ∧ p c = true := by
  unfold ConnTable.getBy
  cases hf : t.conns.find? p with
  | none =>
    have := List.find?_eq_none.mp hf
    simp
    intro ho
    simpa using this c ((ok.mem c).mpr ho)
  | some d =>
    have hm := List.mem_of_find?_eq_some hf
    have hp := List.find?_some hf
    simp
    constructor
    · rintro rfl; exact ⟨(ok.mem d).mp hm, hp⟩
    · rintro ⟨ho, hc⟩; exact huniq d hm c ((ok.mem c).mpr ho) hp hc

theorem getBy_err {h : List ConnOp} {t : ConnTable} {p : Conn → Bool} (ok : TableOk h t) :
    t.getBy p = .err .fail ↔ ∀ c, OpenAfter h c → p c = false := by
  unfold ConnTable.getBy
  cases hf : t.conns.find? p with
  | none =>
    have := List.find?_eq_none.mp hf
    simp
    intro c ho
    simpa using this c ((ok.mem c).mpr ho)
  | some d =>
    have hm := List.mem_of_find?_eq_some hf
    have hp := List.find?_some hf
    simp
    exact ⟨d, (ok.mem d).mp hm, hp⟩

/-- C31: after any history of opens and closes with distinct identifiers, each of the three lookups
finds exactly the connections that were added and not closed since. -/
theorem C31_lookup (h : List ConnOp) (hd : Distinct h) (c : Conn) :
    (∀ k, (connRun h).getByID k = .ok c ↔ OpenAfter h c ∧ c.id = k) ∧
    (∀ k, (connRun h).getByOT k = .ok c ↔ OpenAfter h c ∧ c.ot = k) ∧
    (∀ k, (connRun h).getByTO k = .ok c ↔ OpenAfter h c ∧ c.to = k) := by
  have ok := tableOk h hd
  refine ⟨fun k => ?_, fun k => ?_, fun k => ?_⟩
  · rw [ConnTable.getByID, getBy_iff ok]
    · simp
    · intro a hA b hB h1 h2
      simp at h1 h2
      exact ok.keys a hA b hB (Or.inl (h1.trans h2.symm))
  · rw [ConnTable.getByOT, getBy_iff ok]
    · simp
    · intro a hA b hB h1 h2
      simp at h1 h2
      exact ok.keys a hA b hB (Or.inr (Or.inl (h1.trans h2.symm)))
  · rw [ConnTable.getByTO, getBy_iff ok]
    · simp
    · intro a hA b hB h1 h2
      simp at h1 h2
      exact ok.keys a hA b hB (Or.inr (Or.inr (h1.trans h2.symm)))

/-- C31: a lookup fails exactly if no open connection has the identifier. -/
theorem C31_missing (h : List ConnOp) (hd : Distinct h) :
    (∀ k, (connRun h).getByID k = .err .fail ↔ ∀ c, OpenAfter h c → c.id ≠ k) ∧
    (∀ k, (connRun h).getByOT k = .err .fail ↔ ∀ c, OpenAfter h c → c.ot ≠ k) ∧
    (∀ k, (connRun h).getByTO k = .err .fail ↔ ∀ c, OpenAfter h c → c.to ≠ k) := by
  have ok := tableOk h hd
  refine ⟨fun k => ?_, fun k => ?_, fun k => ?_⟩ <;>
    simp only [ConnTable.getByID, ConnTable.getByOT, ConnTable.getByTO, getBy_err ok] <;> simp

/-- C31: the shared `Open` flag of a connection that was ever added tells whether it is still open, so
a goroutine that holds the object sees the close. -/
theorem C31_flag (h : List ConnOp) (hd : Distinct h) (c : Conn) (hc : ConnOp.add c ∈ h) :
    (connRun h).isOpen c.ref = true ↔ OpenAfter h c := by
  have ok := tableOk h hd
  rw [ok.flag]
  constructor
  · rintro ⟨d, hd, e⟩
    have ho := (ok.mem d).mp hd
    have := ok.refs d c (openAfter_mem ho) hc e
    exact this ▸ ho
  · intro ho; exact ⟨c, (ok.mem c).mpr ho, rfl⟩

/-- C31: a close succeeds exactly if some open connection has the identifier; then that connection is
gone and every other open connection is still found by all three of its identifiers. -/
theorem C31_close_local (h : List ConnOp) (hd : Distinct h) (k : BitVec 16) :
    (((connRun h).closeByID k).1 = .ok () ↔ ∃ c, OpenAfter h c ∧ c.id = k) ∧
    ((connRun h).closeByID k).2.getByID k = .err .fail ∧
    (∀ c, OpenAfter h c → c.id ≠ k →
      ((connRun h).closeByID k).2.getByID c.id = .ok c ∧
      ((connRun h).closeByID k).2.getByOT c.ot = .ok c ∧
      ((connRun h).closeByID k).2.getByTO c.to = .ok c ∧
      ((connRun h).closeByID k).2.isOpen c.ref = true) := by
  have ok := tableOk h hd
  have hd' : Distinct (h ++ [.closeID k]) := by
    intro pre c post he
    rcases List.eq_nil_or_concat post with rfl | ⟨ys, y, rfl⟩
    · have := List.append_inj_right' he (by simp)
      simp at this
    · rw [List.concat_eq_append, ← List.cons_append, ← List.append_assoc] at he
      exact hd pre c ys (List.append_inj' he (by simp)).1
  have hrun : ((connRun h).closeByID k).2 = connRun (h ++ [.closeID k]) := by
    rw [connRun_snoc]; rfl
  refine ⟨?_, ?_, ?_⟩
  · unfold ConnTable.closeByID
    cases hf : (connRun h).conns.find? (·.id == k) with
    | none =>
      rw [closeBy_none hf]
      have hn := List.find?_eq_none.mp hf
      simp
      intro c ho
      simpa using hn c ((ok.mem c).mpr ho)
    | some c =>
      obtain ⟨as, bs, hl, hc, ha⟩ := find_split hf
      rw [closeBy_split hl hc ha]
      simp
      refine ⟨c, (ok.mem c).mp ?_, by simpa using hc⟩
      rw [hl]; simp
  · rw [hrun, (C31_missing _ hd').1]
    intro d ho
    rw [openAfter_snoc_close (by simp)] at ho
    exact ho.2
  · intro c ho hk
    have ho' : OpenAfter (h ++ [.closeID k]) c := by
      rw [openAfter_snoc_close (by simp)]; exact ⟨ho, hk⟩
    rw [hrun]
    obtain ⟨h1, h2, h3⟩ := C31_lookup _ hd' c
    refine ⟨(h1 _).mpr ⟨ho', rfl⟩, (h2 _).mpr ⟨ho', rfl⟩, (h3 _).mpr ⟨ho', rfl⟩, ?_⟩
    exact (C31_flag _ hd' c (openAfter_mem ho')).mpr ho'

/-- Three connections, the first closed: the last one moves into its place, both others are found. -/
example :
    let c1 : Conn := ⟨1, 10, 100, 1000, 0, [1, 0]⟩
    let c2 : Conn := ⟨2, 20, 200, 2000, 0, [1, 0]⟩
    let c3 : Conn := ⟨3, 30, 300, 3000, 0, [1, 1]⟩
    let t := connRun [.add c1, .add c2, .add c3, .closeID 10]
    t.conns = [c3, c2] ∧ t.getByID 10 = .err .fail ∧ t.getByOT 200 = .ok c2 ∧ t.getByTO 3000 = .ok c3 ∧
      t.isOpen 1 = false ∧ t.isOpen 3 = true := by
  decide

/-! ### C34 routing -/

theorem lookup_filter {α : Type} (l : List (Bytes × α)) (p q : Bytes) (h : q ≠ p) :
    (l.filter (fun e => e.1 ≠ p)).lookup q = l.lookup q := by
  induction l with
  | nil => rfl
  | cons e l ih =>
    obtain ⟨k, v⟩ := e
    by_cases hk : k = p
    · have hq : (q == k) = false := by simp [hk, h]
      rw [List.filter_cons_of_neg (by simp [hk]), ih, List.lookup_cons, hq]
    · rw [List.filter_cons_of_pos (by simp [hk]), List.lookup_cons, List.lookup_cons, ih]

/-- The router after a sequence of registrations. -/
def routerRun {α : Type} (regs : List (Bytes × α)) : Router α :=
  regs.foldl (fun r e => r.handle e.1 e.2) Router.new

theorem handle_lookup {α : Type} (r : Router α) (p q : Bytes) (a : α) :
    (r.handle p a).entries.lookup q = if q = p then some a else r.entries.lookup q := by
  unfold Router.handle
  by_cases h : q = p
  · simp [h, List.lookup_cons]
  · have hq : (q == p) = false := by simp [h]
    rw [List.lookup_cons, hq, if_neg h]
    exact lookup_filter r.entries p q h

theorem foldl_lookup {α : Type} (regs : List (Bytes × α)) (r : Router α) (path : Bytes) :
    ((regs.foldl (fun r e => r.handle e.1 e.2) r).entries.lookup path) =
      (lastRegistered path regs).or (r.entries.lookup path) := by
  induction regs generalizing r with
  | nil => simp [lastRegistered]
  | cons e regs ih =>
    obtain ⟨p, a⟩ := e
    rw [List.foldl_cons, ih, handle_lookup]
    simp only [lastRegistered]
    cases lastRegistered path regs with
    | some b => simp
    | none =>
      by_cases h : path = p
      · simp [h]
      · simp [h, Ne.symm h]

/-- C34: the request is delivered to the endpoint registered last for exactly the bytes of its path; an
unregistered path is an error. -/
theorem C34_route {α : Type} (regs : List (Bytes × α)) (path : Bytes) :
    (routerRun regs).resolve path =
      match lastRegistered path regs with
      | some p => .ok p
      | none => .err .fail := by
  unfold Router.resolve routerRun
  rw [foldl_lookup]
  cases lastRegistered path regs <;> simp [Router.new]

/-- C34: registrations for other paths make no difference. -/
theorem C34_other_paths {α : Type} (regs : List (Bytes × α)) (path : Bytes) :
    (routerRun regs).resolve path = (routerRun (regs.filter (fun e => e.1 = path))).resolve path := by
  rw [C34_route, C34_route]
  have : lastRegistered path regs = lastRegistered path (regs.filter (fun e => e.1 = path)) := by
    induction regs with
    | nil => rfl
    | cons e regs ih =>
      obtain ⟨p, a⟩ := e
      by_cases h : p = path
      · simp [List.filter_cons, h, lastRegistered, ih]
      · simp [List.filter_cons, h, lastRegistered, ih]
        split <;> simp_all
  rw [this]

/-- `[1]`, `[1, 0]` and `[1, 0, 0]` are three different routes. -/
example :
    let r := routerRun [([1#8, 0#8], "a"), ([1#8, 1#8], "b"), ([1#8, 0#8], "c")]
    r.resolve [1#8, 0#8] = .ok "c" ∧ r.resolve [1#8, 1#8] = .ok "b" ∧
      r.resolve [1#8] = .err .fail ∧ r.resolve [1#8, 0#8, 0#8] = .err .fail := by
  decide

end Gologix.Server
