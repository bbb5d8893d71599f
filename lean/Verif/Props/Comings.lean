import Verif.Props.Session
/-
C109: clients of one server come and go.
-/
set_option linter.unusedSimpArgs false

namespace Gologix.Session
open Gologix Gologix.Spec Gologix.Server Gologix.Server.Spec Gologix.Connect Gologix.Connect.Spec Gologix.Session.Spec

/-! ### The connection table -/

theorem joinLast_perm (as bs : List Conn) : (joinLast as bs).Perm (as ++ bs) := by
  unfold joinLast
  cases hb : bs.getLast? with
  | none => simp [List.getLast?_eq_none_iff.mp hb]
  | some x =>
    obtain ⟨ys, rfl⟩ := List.getLast?_eq_some_iff.mp hb
    simp only [List.dropLast_concat]
    exact (List.perm_append_left_iff as).mpr (List.perm_append_singleton x ys).symm

/-- The entries are distinct, and so are their serial numbers and their identifiers. -/
structure Apart (t : ConnTable) : Prop where
  nodup : t.conns.Nodup
  ids   : ∀ c ∈ t.conns, ∀ d ∈ t.conns, c.id = d.id → c = d
  ots   : ∀ c ∈ t.conns, ∀ d ∈ t.conns, c.ot = d.ot → c = d

theorem found_of_mem {t : ConnTable} {k : Conn} (h : ∀ c ∈ t.conns, ∀ d ∈ t.conns, c.ot = d.ot → c = d)
    (hk : k ∈ t.conns) : t.getByOT k.ot = .ok k := by
  unfold ConnTable.getByOT ConnTable.getBy
  cases hf : t.conns.find? (fun x => x.ot == k.ot) with
  | none => have := List.find?_eq_none.mp hf k hk; simp at this
  | some d =>
    have h1 := List.mem_of_find?_eq_some hf
    have h2 := List.find?_some hf
    rw [h d h1 k hk (by simpa using h2)]

theorem mem_of_found {t : ConnTable} {k : Conn} {ot : BitVec 32} (h : t.getByOT ot = .ok k) : k ∈ t.conns ∧ k.ot = ot := by
  unfold ConnTable.getByOT ConnTable.getBy at h
  cases hf : t.conns.find? (fun x => x.ot == ot) with
  | none => rw [hf] at h; cases h
  | some d =>
    rw [hf] at h
    cases h
    have h2 := List.find?_some hf
    exact ⟨List.mem_of_find?_eq_some hf, by simpa using h2⟩

theorem not_found {t : ConnTable} {ot : BitVec 32} (h : ∀ d ∈ t.conns, d.ot ≠ ot) : t.getByOT ot = .err .fail := by
  unfold ConnTable.getByOT ConnTable.getBy
  have : t.conns.find? (fun x => x.ot == ot) = none := by
    rw [List.find?_eq_none]; intro d hd; simpa using h d hd
  rw [this]

/-- What closing does to the table: the first entry with the serial number is gone. -/
theorem closed_first {t : ConnTable} {as bs : List Conn} {k : Conn} (hl : t.conns = as ++ k :: bs)
    (ha : ∀ a ∈ as, a.id ≠ k.id) : (t.closeByID k.id).2.conns.Perm (as ++ bs) := by
  unfold ConnTable.closeByID
  rw [closeBy_split hl (by simp) (fun a h => by simpa using ha a h)]
  exact joinLast_perm as bs

theorem closed_apart {t : ConnTable} {k : Conn} (h : Apart t) (hk : k ∈ t.conns) :
    Apart (t.closeByID k.id).2 ∧ ∀ c, c ∈ (t.closeByID k.id).2.conns ↔ c ∈ t.conns ∧ c ≠ k := by
  obtain ⟨as, bs, hl⟩ := List.append_of_mem hk
  have hn := h.nodup
  rw [hl, List.nodup_append] at hn
  obtain ⟨n1, n2, n3⟩ := hn
  rw [List.nodup_cons] at n2
  have ha : ∀ a ∈ as, a.id ≠ k.id := fun a hm he =>
    n3 a hm k (by simp) (h.ids a (by rw [hl]; simp [hm]) k hk he)
  have hp := closed_first hl ha
  have hm : ∀ c, c ∈ (t.closeByID k.id).2.conns ↔ c ∈ t.conns ∧ c ≠ k := by
    intro c
    rw [hp.mem_iff, hl]
    constructor
    · intro hc
      rw [List.mem_append] at hc
      rcases hc with hc | hc
      · exact ⟨by simp [hc], n3 c hc k (by simp)⟩
      · exact ⟨by simp [hc], fun he => n2.1 (he ▸ hc)⟩
    · rintro ⟨hc, hne⟩
      simpa [hne] using hc
  refine ⟨⟨?_, ?_, ?_⟩, hm⟩
  · rw [hp.nodup_iff, List.nodup_append]
    exact ⟨n1, n2.2, fun a h1 b h2 => n3 a h1 b (by simp [h2])⟩
  · intro c hc d hd he
    exact h.ids c ((hm c).mp hc).1 d ((hm d).mp hd).1 he
  · intro c hc d hd he
    exact h.ots c ((hm c).mp hc).1 d ((hm d).mp hd).1 he

theorem added_apart {t : ConnTable} {k : Conn} (h : Apart t) (hid : ∀ d ∈ t.conns, d.id ≠ k.id)
    (hot : ∀ d ∈ t.conns, d.ot ≠ k.ot) : Apart (t.add k) := by
  unfold ConnTable.add
  refine ⟨?_, ?_, ?_⟩
  · simp only [List.nodup_append]
    refine ⟨h.nodup, by simp, ?_⟩
    intro a ha b hb he
    simp only [List.mem_singleton] at hb
    subst hb
    exact hid a ha (by rw [he])
  · intro c hc d hd he
    simp only [List.mem_append, List.mem_singleton] at hc hd
    rcases hc with hc | rfl <;> rcases hd with hd | rfl
    · exact h.ids c hc d hd he
    · exact absurd he (hid c hc)
    · exact absurd he.symm (hid d hd)
    · rfl
  · intro c hc d hd he
    simp only [List.mem_append, List.mem_singleton] at hc hd
    rcases hc with hc | rfl <;> rcases hd with hd | rfl
    · exact h.ots c hc d hd he
    · exact absurd he (hot c hc)
    · exact absurd he.symm (hot d hd)
    · rfl

theorem mem_added {t : ConnTable} {k c : Conn} : c ∈ (t.add k).conns ↔ c ∈ t.conns ∨ c = k := by
  simp [ConnTable.add]

/-! ### Leaving -/

theorem forwardClose_keeps (d : Bytes) (st : St) :
    (forwardClose d st).2.srv.router = st.srv.router ∧ (forwardClose d st).2.srv.eps = st.srv.eps := by
  unfold forwardClose
  cases h1 : readN 17 d with
  | ok a =>
    rw [lift_ok_bind]
    simp only
    cases h2 : readBV 16 (a.1.drop 8) with
    | ok b =>
      rw [lift_ok_bind]
      rw [bind_def]
      simp only [closeConn]
      cases (st.srv.conns.closeByID b.1).1 with
      | ok u =>
        simp only
        rw [bind_def]
        simp only [lift_def]
        cases readN (a.1.getD 1 0#8 * 2#8).toNat a.2 <;> exact ⟨rfl, rfl⟩
      | err e => exact ⟨rfl, rfl⟩
      | panic => exact ⟨rfl, rfl⟩
    | err e => exact ⟨rfl, rfl⟩
    | panic => exact ⟨rfl, rfl⟩
  | err e => exact ⟨rfl, rfl⟩
  | panic => exact ⟨rfl, rfl⟩

theorem exchange_server (C : Conv) {y : Sys} (f : Bytes) (h : y.up = true) :
    (exchange C y f).2.server = (serveStep C { y.server with inp := y.server.inp ++ f }).2 := by
  unfold exchange
  rw [h]
  simp only [Bool.not_true, Bool.false_eq_true, if_false]
  cases recvData (y.socket ++ ((serveStep C { y.server with inp := y.server.inp ++ f }).2.sent.drop
    y.server.sent.length).flatten) <;> rfl

/-- What a client that disconnects does to the server: an entry with its serial number is taken from the table. -/
theorem disconnected (C : Conv) (s : Settings) (y : Sys) (hq : Quiet y) (hr : Routable (s.path.getD [])) :
    (disconnect C s y).server.srv.conns = (y.server.srv.conns.closeByID s.serial).2 ∧
    (disconnect C s y).server.srv.router = y.server.srv.router ∧ (disconnect C s y).server.srv.eps = y.server.srv.eps := by
  obtain ⟨q1, q2, q3⟩ := hq
  have hs : (disconnect C s y).server =
      (serveStep C { y.server with inp := unconnectedFrame s.cfg (closeMsg s.cfg) }).2 := by
    unfold disconnect
    simp only
    rw [exchange_server C _ q1, q3, List.nil_append]
  have hr' : Routable s.cfg.path := hr
  obtain ⟨q, h1, h2, h3⟩ := C71_request_partial s.cfg hr'
  have hu : Unconnected (unconnectedFrame s.cfg (closeMsg s.cfg)) q.bytes := by
    rw [← h1]
    have := frame_unconnected s.cfg (closeMsg s.cfg) [] (close_length s.cfg hr')
    simpa using this
  obtain ⟨st0, e1, e2, -⟩ := serveStep_unconnected C { y.server with inp := unconnectedFrame s.cfg (closeMsg s.cfg) } _ hu
  rw [unconnectedData_close] at e1
  rw [hs, e1]
  have e3 : st0.srv = y.server.srv := e2
  refine ⟨?_, ?_, ?_⟩
  · rw [(forwardClose_run q h2 st0).1, e3, h3.serial]; rfl
  · rw [(forwardClose_keeps _ _).1, e3]
  · rw [(forwardClose_keeps _ _).2, e3]

/-- The connection table has the connections of the clients in `who`, one for each, those in `gone`, which are of nobody who is
there, and nothing else. -/
structure World.Enrolled (who : Nat → Prop) (ks : Nat → Conn) (gone : Conn → Prop) (w : World) : Prop where
  apart : Apart w.srv.conns
  all   : ∀ k, k ∈ w.srv.conns.conns ↔ (∃ i, who i ∧ ks i = k) ∨ gone k
  left  : ∀ i, who i → ¬ gone (ks i)
  own   : ∀ i j, who i → who j → ks i = ks j → i = j
  known : ∀ i, who i → (w.clients i).1.serial = (ks i).id ∧ Routable ((w.clients i).1.path.getD [])

/-- C109, leaving: when a client disconnects, its connection is taken from the server's table and no other; the other clients go
on with their connections and the memory they share.  Missing: clients with equal serial numbers (`C109_closes_another`),
clients that leave without a word (`C109_vanishes`). -/
theorem C109_leaves_partial (C : Conv) (who : Nat → Prop) (ks : Nat → Conn) (gone : Conn → Prop) (ep : Nat) (w : World)
    (m : Memory) (i : Nat) (hj : w.Joined who ks ep m) (he : w.Enrolled who ks gone) (hi : who i) :
    (w.leave C i).Joined (fun j => who j ∧ j ≠ i) ks ep m ∧ (w.leave C i).Enrolled (fun j => who j ∧ j ≠ i) ks gone := by
  obtain ⟨tags, hh, ⟨keys, hk⟩, hall⟩ := hj
  obtain ⟨hq, hsv, hres, -⟩ := hall i hi
  obtain ⟨e1, e2⟩ := he.known i hi
  obtain ⟨d1, d2, d3⟩ := disconnected C (w.clients i).1
    { (w.clients i).2 with server := { (w.clients i).2.server with srv := w.srv } } hq e2
  have hw : w.leave C i = ⟨(disconnect C (w.clients i).1
      { (w.clients i).2 with server := { (w.clients i).2.server with srv := w.srv } }).server.srv,
      fun j => if j = i then ((w.clients i).1, disconnect C (w.clients i).1
        { (w.clients i).2 with server := { (w.clients i).2.server with srv := w.srv } }) else w.clients j⟩ := rfl
  have hm := (mem_of_found hsv).1
  rw [e1] at d1
  obtain ⟨c1, c2⟩ := closed_apart he.apart hm
  simp only at d1 d2 d3
  rw [hw]
  generalize disconnect C (w.clients i).1 { (w.clients i).2 with server := { (w.clients i).2.server with srv := w.srv } } = y
    at d1 d2 d3
  rw [← d1] at c1 c2
  refine ⟨⟨tags, hh, ⟨keys, by simp only [d3]; exact hk⟩, ?_⟩, c1, ?_, fun j hj => he.left j hj.1, ?_, ?_⟩
  · rintro j ⟨hj, hji⟩
    obtain ⟨g1, g2, g3, keys', g4⟩ := hall j hj
    simp only [if_neg hji]
    refine ⟨g1, ?_, by rw [d2]; exact g3, keys', by rw [d3]; exact g4⟩
    obtain ⟨m1, m2⟩ := mem_of_found g2
    rw [← m2]
    refine found_of_mem c1.ots ((c2 _).mpr ⟨m1, fun h => hji (he.own j i hj hi h)⟩)
  · intro k
    simp only
    rw [c2, he.all]
    constructor
    · rintro ⟨⟨j, hj, rfl⟩ | hg, hne⟩
      · exact .inl ⟨j, ⟨hj, fun h => hne (by rw [h])⟩, rfl⟩
      · exact .inr hg
    · rintro (⟨j, ⟨hj, hji⟩, rfl⟩ | hg)
      · exact ⟨.inl ⟨j, hj, rfl⟩, fun h => hji (he.own j i hj hi h)⟩
      · exact ⟨.inr hg, fun h => he.left i hi (h ▸ hg)⟩
  · rintro a b ⟨ha, -⟩ ⟨hb, -⟩ h
    exact he.own a b ha hb h
  · rintro j ⟨hj, hji⟩
    simp only [if_neg hji]
    exact he.known j hj

/-! ### Arriving -/

/-- What a client that connects does to the server. -/
theorem arrived (C : Conv) (w : World) (i : Nat) (ms : BitVec 32) (addr : Bytes) (port : BitVec 16) (route : Bytes)
    (hl : (w.clients i).1.logger = true)
    (hp : (∀ r, (w.clients i).1.path = some r → route = r) ∧ ((w.clients i).1.path = none → route = [1#8, 0#8]))
    (hr : Routable route) :
    ∃ y2 k after, w.arrive C i ms addr port = (.ok (), ⟨y2.server.srv, fun j => if j = i then (after, y2) else w.clients j⟩) ∧
      after.ot = k.ot ∧ Quiet y2 ∧ y2.server.srv.conns = w.srv.conns.add k ∧
      ((w.clients i).1.seq + ms + 2#32 ≠ 0#32 → k.ot = (w.clients i).1.seq + ms + 2#32) ∧
      (route.length = 2 → k.path = route) ∧ y2.server.srv.router = w.srv.router ∧
      (∀ ep, y2.server.srv.eps ep = w.srv.eps ep) ∧ after.serial = k.id ∧
      k.id = ((w.clients i).1.seq + ms + 1#32).setWidth 16 ∧ after.path = some route := by
  obtain ⟨y2, k, after, a1, a2, a3, a4, a5, a6, a7, a8, a9, a10, a11, a12⟩ := connected C (w.clients i).1 ms
    (dialed w.srv addr port) route ⟨rfl, rfl, rfl⟩ hl hp hr
  refine ⟨y2, k, after, ?_, a2, a4, a5, a6, a7, a8, a9, a10, a11, a12⟩
  unfold World.arrive World.connect
  simp only [if_pos]
  have : connect C (w.clients i).1 ms { dialed w.srv addr port with server :=
      { (dialed w.srv addr port).server with srv := w.srv } } = (.ok (), after, y2) := a1
  rw [this]
  simp only
  congr 2
  funext j
  by_cases hji : j = i
  · rw [if_pos hji, if_pos hji]
  · rw [if_neg hji, if_neg hji, if_neg hji]

/-- C109, coming: a client that is not connected, was connected before or was not, connects to the server and joins the others:
its connection is added to the table.  It must draw a serial number and an identifier that no connection has. -/
theorem C109_arrives_partial (C : Conv) (who : Nat → Prop) (ks : Nat → Conn) (gone : Conn → Prop) (ep : Nat) (w : World)
    (m : Memory) (i : Nat) (ms : BitVec 32) (addr : Bytes) (port : BitVec 16) (route : Bytes) (hj : w.Joined who ks ep m)
    (he : w.Enrolled who ks gone)
    (hi : ¬ who i) (hl : (w.clients i).1.logger = true)
    (hp : (∀ r, (w.clients i).1.path = some r → route = r) ∧ ((w.clients i).1.path = none → route = [1#8, 0#8]))
    (h2 : route.length = 2) (hres : w.srv.router.resolve route = .ok ep) (h0 : (w.clients i).1.seq + ms + 2#32 ≠ 0#32)
    (hot : ∀ d ∈ w.srv.conns.conns, d.ot ≠ (w.clients i).1.seq + ms + 2#32)
    (hid : ∀ d ∈ w.srv.conns.conns, d.id ≠ ((w.clients i).1.seq + ms + 1#32).setWidth 16) :
    ∃ w' k, w.arrive C i ms addr port = (.ok (), w') ∧ k ∉ w.srv.conns.conns ∧
      w'.Joined (fun j => who j ∨ j = i) (fun j => if j = i then k else ks j) ep m ∧
      w'.Enrolled (fun j => who j ∨ j = i) (fun j => if j = i then k else ks j) gone := by
  obtain ⟨tags, hh, ⟨keys, hk⟩, hall⟩ := hj
  have hr : Routable route := ⟨by omega, by omega⟩
  obtain ⟨y2, k, after, a1, a2, a4, a5, a6, a7, a8, a9, a10, a11, a12⟩ := arrived C w i ms addr port route hl hp hr
  have hid' : ∀ d ∈ w.srv.conns.conns, d.id ≠ k.id := by rw [a11]; exact hid
  have hot' : ∀ d ∈ w.srv.conns.conns, d.ot ≠ k.ot := by rw [a6 h0]; exact hot
  have hnk : k ∉ w.srv.conns.conns := fun h => hid' k h rfl
  have hw : ∀ j, who j → j ≠ i := fun j hj h => hi (h ▸ hj)
  refine ⟨⟨y2.server.srv, fun j => if j = i then (after, y2) else w.clients j⟩, k, a1, hnk,
    ⟨tags, hh, ⟨keys, by rw [a9]; exact hk⟩, ?_⟩, ?_, ?_, ?_, ?_, ?_⟩
  · intro j hj
    by_cases hji : j = i
    · subst hji
      simp only [if_pos]
      refine ⟨a4, ?_, ?_, keys, by rw [a9]; exact hk⟩
      · rw [a2, a5]
        exact added_found hot'
      · rw [a8, a7 h2]
        exact hres
    · simp only [if_neg hji]
      obtain ⟨g1, g2, g3, keys', g4⟩ := hall j (hj.resolve_right hji)
      refine ⟨g1, ?_, by rw [a8]; exact g3, keys', by rw [a9]; exact g4⟩
      rw [a5]
      exact added_keeps g2
  · rw [a5]
    exact added_apart he.apart hid' hot'
  · intro c
    simp only
    rw [a5, mem_added, he.all]
    constructor
    · rintro ((⟨j, hj, rfl⟩ | hg) | rfl)
      · exact .inl ⟨j, .inl hj, by rw [if_neg (hw j hj)]⟩
      · exact .inr hg
      · exact .inl ⟨i, .inr rfl, by rw [if_pos rfl]⟩
    · rintro (⟨j, hj, rfl⟩ | hg)
      · by_cases hji : j = i
        · rw [if_pos hji]; exact .inr rfl
        · rw [if_neg hji]; exact .inl (.inl ⟨j, hj.resolve_right hji, rfl⟩)
      · exact .inl (.inr hg)
  · intro j hj
    by_cases hji : j = i
    · rw [if_pos hji]
      exact fun hg => hnk ((he.all k).mpr (.inr hg))
    · rw [if_neg hji]
      exact he.left j (hj.resolve_right hji)
  · intro a b ha hb h
    have hin : ∀ j, who j → ks j ∈ w.srv.conns.conns := fun j hj => (he.all _).mpr (.inl ⟨j, hj, rfl⟩)
    by_cases hai : a = i <;> by_cases hbi : b = i
    · rw [hai, hbi]
    · rw [if_pos hai, if_neg hbi] at h
      exact absurd (hin b (hb.resolve_right hbi)) (h ▸ hnk)
    · rw [if_neg hai, if_pos hbi] at h
      exact absurd (hin a (ha.resolve_right hai)) (h ▸ hnk)
    · rw [if_neg hai, if_neg hbi] at h
      exact he.own a b (ha.resolve_right hai) (hb.resolve_right hbi) h
  · intro j hj
    by_cases hji : j = i
    · simp only [if_pos hji]
      exact ⟨a10, by rw [a12]; exact hr⟩
    · simp only [if_neg hji]
      exact he.known j (hj.resolve_right hji)

/-! ### Going without a word -/

/-- Disagreement: the connection of a client that is gone without a word stays in the table; the server ends serving the socket and
does nothing else. -/
theorem C109_vanished (C : Conv) (w : World) (i : Nat) (hq : Quiet (w.clients i).2) :
    (w.vanish C i).srv = w.srv ∧ ((w.vanish C i).clients i).2.up = false := by
  obtain ⟨q1, q2, q3⟩ := hq
  refine ⟨?_, ?_⟩
  · unfold World.vanish hangUp
    simp only
    have : ({ (w.clients i).2.server with srv := w.srv } : St) = ⟨(w.clients i).2.server.h, w.srv, [], (w.clients i).2.server.sent⟩ := by
      rw [← q3]
    rw [this]
    rfl
  · unfold World.vanish hangUp
    simp only [if_pos]

/-- C109: a client that is gone gets an error from every call until it comes again, and nothing reaches the server. -/
theorem C109_gone (C : Conv) (w : World) (i : Nat) (c : Call) :
    (∃ e, ((w.leave C i).perform C i c).1 = .err e) ∧ ((w.leave C i).perform C i c).2.srv = (w.leave C i).srv ∧
    (∃ e, ((w.vanish C i).perform C i c).1 = .err e) ∧ ((w.vanish C i).perform C i c).2.srv = (w.vanish C i).srv := by
  have key : ∀ v : World, (v.clients i).2.up = false →
      (∃ e, (v.perform C i c).1 = .err e) ∧ (v.perform C i c).2.srv = v.srv := by
    intro v hv
    obtain ⟨h1, h2, h3⟩ := performAll_down C (v.clients i).1
      { (v.clients i).2 with server := { (v.clients i).2.server with srv := v.srv } } hv [c]
    simp only [performAll, List.mem_singleton, forall_eq] at h1 h3
    refine ⟨h3, ?_⟩
    simp only [World.perform]
    rw [h1]
  have hl : ((w.leave C i).clients i).2.up = false := by simp [World.leave, disconnect]
  have hg : ((w.vanish C i).clients i).2.up = false := by simp [World.vanish, hangUp]
  exact ⟨(key _ hl).1, (key _ hl).2, (key _ hg).1, (key _ hg).2⟩

/-- C109, going without a word: the others go on with their connections and the memory they share, but the connection of the one
that is gone stays in the table. -/
theorem C109_vanishes (C : Conv) (who : Nat → Prop) (ks : Nat → Conn) (gone : Conn → Prop) (ep : Nat) (w : World) (m : Memory)
    (i : Nat) (hj : w.Joined who ks ep m) (he : w.Enrolled who ks gone) (hi : who i) :
    (w.vanish C i).Joined (fun j => who j ∧ j ≠ i) ks ep m ∧
      (w.vanish C i).Enrolled (fun j => who j ∧ j ≠ i) ks (fun k => gone k ∨ k = ks i) := by
  obtain ⟨tags, hh, hk, hall⟩ := hj
  have hs := (C109_vanished C w i (hall i hi).1).1
  have hc : ∀ j, j ≠ i → (w.vanish C i).clients j = w.clients j := by
    intro j hji
    unfold World.vanish
    simp only [if_neg hji]
  refine ⟨⟨tags, hh, by rw [hs]; exact hk, ?_⟩, by rw [hs]; exact he.apart, ?_, ?_, ?_, ?_⟩
  · rintro j ⟨hj, hji⟩
    rw [hs, hc j hji]
    exact hall j hj
  · intro k
    rw [hs, he.all]
    constructor
    · rintro (⟨j, hj, rfl⟩ | hg)
      · by_cases hji : j = i
        · exact .inr (.inr (by rw [hji]))
        · exact .inl ⟨j, ⟨hj, hji⟩, rfl⟩
      · exact .inr (.inl hg)
    · rintro (⟨j, ⟨hj, -⟩, rfl⟩ | hg | rfl)
      · exact .inl ⟨j, hj, rfl⟩
      · exact .inr hg
      · exact .inl ⟨i, hi, rfl⟩
  · rintro j ⟨hj, hji⟩ (hg | h)
    · exact he.left j hj hg
    · exact hji (he.own j i hj hi h)
  · rintro a b ⟨ha, -⟩ ⟨hb, -⟩ h
    exact he.own a b ha hb h
  · rintro j ⟨hj, hji⟩
    rw [hc j hji]
    exact he.known j hj

/-! ### A life -/

/-- What the clients in `who` that share the memory `m` may do next, what it returns, and who is there and what the memory is
afterwards: a connected client makes a call, leaves or is gone without a word, and one that is not there arrives, on the endpoint's route, with a serial
number and an identifier that no connection has. -/
inductive Proper (ep : Nat) (w : World) (who : Nat → Prop) (m : Memory) : Deed → Outcome → (Nat → Prop) → Memory → Prop
  | call {i : Nat} {op : Op} {c : Call} {o : Outcome} {m' : Memory} (hi : who i) (hm : Makes op c) (hd : Does m op o m') :
      Proper ep w who m (.call i c) o who m'
  | arrive {i : Nat} {ms : BitVec 32} {addr : Bytes} {port : BitVec 16} {route : Bytes} (hi : ¬ who i)
      (hl : (w.clients i).1.logger = true)
      (hp : (∀ r, (w.clients i).1.path = some r → route = r) ∧ ((w.clients i).1.path = none → route = [1#8, 0#8]))
      (h2 : route.length = 2) (hres : w.srv.router.resolve route = .ok ep) (h0 : (w.clients i).1.seq + ms + 2#32 ≠ 0#32)
      (hot : ∀ d ∈ w.srv.conns.conns, d.ot ≠ (w.clients i).1.seq + ms + 2#32)
      (hid : ∀ d ∈ w.srv.conns.conns, d.id ≠ ((w.clients i).1.seq + ms + 1#32).setWidth 16) :
      Proper ep w who m (.arrive i ms addr port) .done (fun j => who j ∨ j = i) m
  | leave {i : Nat} (hi : who i) : Proper ep w who m (.leave i) .done (fun j => who j ∧ j ≠ i) m
  | vanish {i : Nat} (hi : who i) : Proper ep w who m (.vanish i) .done (fun j => who j ∧ j ≠ i) m

/-- The same for one deed after the other. -/
def Orderly (C : Conv) (ep : Nat) : World → (Nat → Prop) → Memory → List Deed → List Outcome → (Nat → Prop) → Memory → Prop
  | _, who, m, [], os, who', m' => os = [] ∧ who' = who ∧ m' = m
  | w, who, m, d :: ds, os, who', m' => ∃ o os1 who1 m1, os = o :: os1 ∧ Proper ep w who m d o who1 m1 ∧
      Orderly C ep (w.deed C d).2 who1 m1 ds os1 who' m'

theorem call_joined (C : Conv) (who : Nat → Prop) (ks : Nat → Conn) (ep : Nat) (w : World) (m m' : Memory) (i : Nat) (op : Op)
    (c : Call) (o : Outcome) (gone : Conn → Prop) (hj : w.Joined who ks ep m) (he : w.Enrolled who ks gone) (hi : who i)
    (hm : Makes op c) (hd : Does m op o m') :
    ∃ w', w.perform C i c = (.ok o, w') ∧ w'.Joined who ks ep m' ∧ w'.Enrolled who ks gone := by
  obtain ⟨tags, hh, -, hall⟩ := hj
  obtain ⟨hq, hsv⟩ := hall i hi
  obtain ⟨y1, tags1, e1, q1, c1, r1, s1, h1⟩ := call_does C
    (y := { (w.clients i).2 with server := { (w.clients i).2.server with srv := w.srv } }) hq hsv hh hm hd
  have c1 : y1.server.srv.conns = w.srv.conns := c1
  have r1 : y1.server.srv.router = w.srv.router := r1
  refine ⟨⟨y1.server.srv, fun j => if j = i then ((w.clients i).1, y1) else w.clients j⟩, ?_,
    ⟨tags1, h1, s1.2.2, ?_⟩, ?_, ?_, he.left, he.own, ?_⟩
  · unfold World.perform
    simp only [e1]
  · intro j hjw
    obtain ⟨hqj, g1, g2, -⟩ := hall j hjw
    have g3 := s1.2.2
    simp only
    by_cases hji : j = i
    · subst hji
      rw [if_pos rfl]
      exact ⟨q1, s1⟩
    · rw [if_neg hji]
      exact ⟨hqj, by rw [c1]; exact g1, by rw [r1]; exact g2, g3⟩
  · simp only; rw [c1]; exact he.apart
  · simp only; rw [c1]; exact he.all
  · intro j hj
    by_cases hji : j = i
    · subst hji
      simp only [if_pos]
      exact he.known j hj
    · simp only [if_neg hji]
      exact he.known j hj

/-- C109: however clients come, read and write tags, and go, with or without a word: every call succeeds, all that are there share
one memory, which outlasts them, and the server's connection table has the connections of those that are there and of as many
others as have gone without a word. -/
theorem C109_lives_partial (C : Conv) (ep : Nat) (deeds : List Deed) : ∀ (w : World) (who : Nat → Prop) (ks : Nat → Conn)
    (gone : List Conn) (m : Memory) (os : List Outcome) (who' : Nat → Prop) (m' : Memory), w.Joined who ks ep m →
    w.Enrolled who ks (· ∈ gone) → gone.Nodup → Orderly C ep w who m deeds os who' m' →
    ∃ (w' : World) (ks' : Nat → Conn) (gone' : List Conn), w.live C deeds = (os.map .ok, w') ∧ w'.Joined who' ks' ep m' ∧
      w'.Enrolled who' ks' (· ∈ gone') ∧ gone'.Nodup ∧
      gone'.length = gone.length + (deeds.filter fun d => match d with | .vanish _ => true | _ => false).length := by
  induction deeds with
  | nil =>
    intro w who ks gone m os who' m' hj he hg ho
    obtain ⟨rfl, rfl, rfl⟩ := ho
    exact ⟨w, ks, gone, rfl, hj, he, hg, rfl⟩
  | cons d ds ih =>
    intro w who ks gone m os who' m' hj he hg ho
    obtain ⟨o, os1, who1, m1, rfl, hp, ho⟩ := ho
    have key : ∃ (w1 : World) (ks1 : Nat → Conn) (gone1 : List Conn), w.deed C d = (.ok o, w1) ∧ w1.Joined who1 ks1 ep m1 ∧
        w1.Enrolled who1 ks1 (· ∈ gone1) ∧ gone1.Nodup ∧
        gone1.length = gone.length + ([d].filter fun d => match d with | .vanish _ => true | _ => false).length := by
      cases hp with
      | call hi hm hd =>
        obtain ⟨w1, e1, j1, n1⟩ := call_joined C who ks ep w m m1 _ _ _ o _ hj he hi hm hd
        exact ⟨w1, ks, gone, e1, j1, n1, hg, rfl⟩
      | @arrive i ms addr port route hi hl hp h2 hres h0 hot hid =>
        obtain ⟨w1, k, e1, -, j1, n1⟩ :=
          C109_arrives_partial C who ks _ ep w m i ms addr port route hj he hi hl hp h2 hres h0 hot hid
        refine ⟨w1, _, gone, ?_, j1, n1, hg, rfl⟩
        simp only [World.deed, e1]
        rfl
      | leave hi =>
        obtain ⟨j1, n1⟩ := C109_leaves_partial C who ks _ ep w m _ hj he hi
        exact ⟨_, ks, gone, rfl, j1, n1, hg, rfl⟩
      | @vanish i hi =>
        obtain ⟨j1, n1⟩ := C109_vanishes C who ks _ ep w m _ hj he hi
        refine ⟨_, ks, ks i :: gone, rfl, j1, ?_, List.nodup_cons.mpr ⟨he.left i hi, hg⟩, rfl⟩
        have : (fun k => k ∈ gone ∨ k = ks i) = (· ∈ ks i :: gone) := by
          funext k
          simp [or_comm]
        rw [← this]
        exact n1
    obtain ⟨w1, ks1, gone1, e1, j1, n1, g1, l1⟩ := key
    rw [e1] at ho
    obtain ⟨w2, ks2, gone2, e2, j2, n2, g2, l2⟩ := ih w1 who1 ks1 gone1 m1 os1 who' m' j1 n1 g1 ho
    refine ⟨w2, ks2, gone2, ?_, j2, n2, g2, ?_⟩
    · simp only [World.live, e1, e2, List.map_cons]
    · rw [l2, l1, show d :: ds = [d] ++ ds from rfl, List.filter_append, List.length_append]
      omega

/-! ### What goes wrong -/

/-- Disagreement: a connection's serial number is the low half of the time of day in milliseconds (`serial_repeats`), and the
server closes the first connection with the number it is told, whoever asks.  If two clients have connected with one serial number,
and the second disconnects, then it is the first whose connection is gone, while that of the second stays. -/
theorem C109_closes_another (C : Conv) (w : World) (i j : Nat) (hij : i ≠ j) (ms ms' : BitVec 32) (addr : Bytes)
    (port : BitVec 16) (ri rj : Bytes) (hli : (w.clients i).1.logger = true) (hlj : (w.clients j).1.logger = true)
    (hpi : (∀ r, (w.clients i).1.path = some r → ri = r) ∧ ((w.clients i).1.path = none → ri = [1#8, 0#8]))
    (hpj : (∀ r, (w.clients j).1.path = some r → rj = r) ∧ ((w.clients j).1.path = none → rj = [1#8, 0#8]))
    (hri : Routable ri) (hrj : Routable rj)
    (h0 : (w.clients i).1.seq + ms + 2#32 ≠ 0#32) (h0' : (w.clients j).1.seq + ms' + 2#32 ≠ 0#32)
    (hoti : ∀ d ∈ w.srv.conns.conns, d.ot ≠ (w.clients i).1.seq + ms + 2#32)
    (hotj : ∀ d ∈ w.srv.conns.conns, d.ot ≠ (w.clients j).1.seq + ms' + 2#32)
    (hid : ∀ d ∈ w.srv.conns.conns, d.id ≠ ((w.clients i).1.seq + ms + 1#32).setWidth 16)
    (hot : (w.clients i).1.seq + ms + 2#32 ≠ (w.clients j).1.seq + ms' + 2#32)
    (hsame : ((w.clients j).1.seq + ms' + 1#32).setWidth 16 = ((w.clients i).1.seq + ms + 1#32).setWidth 16) :
    ∃ w1 w2 ki kj, w.arrive C i ms addr port = (.ok (), w1) ∧ w1.arrive C j ms' addr port = (.ok (), w2) ∧
      w2.srv.conns.getByOT (w2.clients i).1.ot = .ok ki ∧ w2.srv.conns.getByOT (w2.clients j).1.ot = .ok kj ∧
      (∀ c, c ∈ w2.srv.conns.conns ↔ c ∈ w.srv.conns.conns ∨ c = ki ∨ c = kj) ∧
      (∀ c, c ∈ (w2.leave C j).srv.conns.conns ↔ c ∈ w.srv.conns.conns ∨ c = kj) ∧
      (w2.leave C j).srv.conns.getByOT ((w2.leave C j).clients i).1.ot = .err .fail := by
  obtain ⟨y1, ki, si, a1, a2, a4, a5, a6, a7, a8, a9, a10, a11, a12⟩ := arrived C w i ms addr port ri hli hpi hri
  have hji : j ≠ i := fun h => hij h.symm
  generalize hw1 : (⟨y1.server.srv, fun l => if l = i then (si, y1) else w.clients l⟩ : World) = w1 at a1
  have hsrv1 : w1.srv = y1.server.srv := by rw [← hw1]
  have hci : w1.clients i = (si, y1) := by rw [← hw1]; simp only [if_pos]
  have hcj : w1.clients j = w.clients j := by rw [← hw1]; simp only [if_neg hji]
  rw [← hcj] at hlj hpj h0' hotj hot hsame
  obtain ⟨y2, kj, sj, b1, b2, b4, b5, b6, b7, b8, b9, b10, b11, b12⟩ := arrived C w1 j ms' addr port rj hlj hpj hrj
  generalize hw2 : (⟨y2.server.srv, fun l => if l = j then (sj, y2) else w1.clients l⟩ : World) = w2 at b1
  have hsrv2 : w2.srv = y2.server.srv := by rw [← hw2]
  have hdi : w2.clients i = (si, y1) := by rw [← hw2]; simp only [if_neg hij]; exact hci
  have hdj : w2.clients j = (sj, y2) := by rw [← hw2]; simp only [if_pos]
  have ht : w2.srv.conns.conns = w.srv.conns.conns ++ ki :: [kj] := by
    rw [hsrv2, b5, hsrv1, a5]
    simp [ConnTable.add]
  have hiot := a6 h0
  have hjot := b6 h0'
  have hki : w1.srv.conns.getByOT ki.ot = .ok ki := by
    rw [hsrv1, a5]
    exact added_found (fun d hd => by rw [hiot]; exact hoti d hd)
  obtain ⟨d1, -, -⟩ := disconnected C (w2.clients j).1
    { (w2.clients j).2 with server := { (w2.clients j).2.server with srv := w2.srv } } (by rw [hdj]; exact b4)
    (by rw [hdj]; simp only [b12]; exact hrj)
  have hleave : (w2.leave C j).srv.conns = (w2.srv.conns.closeByID ki.id).2 := by
    have : (w2.clients j).1.serial = ki.id := by rw [hdj]; simp only [b10, b11, hsame, a11]
    rw [← this]
    exact d1
  have hperm : ∀ c, c ∈ (w2.leave C j).srv.conns.conns ↔ c ∈ w.srv.conns.conns ∨ c = kj := by
    intro c
    rw [hleave, (closed_first ht (fun a ha => by rw [a11]; exact hid a ha)).mem_iff]
    simp
  refine ⟨w1, w2, ki, kj, a1, b1, ?_, ?_, ?_, hperm, ?_⟩
  · rw [hdi, hsrv2, b5]
    simp only [a2]
    exact added_keeps hki
  · rw [hdj, hsrv2, b5]
    simp only [b2]
    refine added_found (fun d hd => ?_)
    rw [hsrv1, a5, mem_added] at hd
    rcases hd with hd | rfl
    · rw [hjot]; exact hotj d hd
    · rw [hiot, hjot]; exact hot
  · intro c
    rw [ht]
    simp
  · have hli : ((w2.leave C j).clients i).1.ot = ki.ot := by
      have : (w2.leave C j).clients i = w2.clients i := if_neg hij
      rw [this, hdi]
      exact a2
    rw [hli]
    refine not_found (fun d hd => ?_)
    rcases (hperm d).mp hd with hd | rfl
    · rw [hiot]; exact hoti d hd
    · rw [hiot, hjot]; exact fun h => hot h.symm

/-- Serial numbers repeat after 65536 milliseconds. -/
theorem serial_repeats (seq ms : BitVec 32) :
    (seq + (ms + 65536#32) + 1#32).setWidth 16 = (seq + ms + 1#32).setWidth 16 := by
  apply BitVec.eq_of_toNat_eq
  simp
  omega

/-! ### An example -/

/-- A server of which nobody knows yet. -/
def demoEmpty : World := ⟨{ demoSrv with conns := ⟨[], fun _ => false⟩ }, fun _ => (bare, demoSys)⟩

/-- The hypotheses of `C109_lives_partial` hold for it, with any memory that the tags hold. -/
example : demoEmpty.Enrolled (fun _ => False) (fun _ => ⟨0, 0#16, 0#32, 0#32, 0#32, []⟩) (· ∈ ([] : List Conn)) :=
  ⟨⟨by simp [demoEmpty], by simp [demoEmpty], by simp [demoEmpty]⟩, by simp [demoEmpty], by simp, by simp, by simp⟩

/-- A client may arrive there. -/
example (m : Memory) : Proper 0 demoEmpty (fun _ => False) m (.arrive 0 5#32 [] 0#16) .done (fun j => False ∨ j = 0) m :=
  .arrive (route := [1#8, 0#8]) (by simp) rfl ⟨by simp [demoEmpty, bare], fun _ => rfl⟩ rfl rfl (by decide)
    (by simp [demoEmpty]) (by simp [demoEmpty])

/-- One writes and leaves, another finds what was written, and the first comes back. -/
example : (demoEmpty.live demoConv [.arrive 0 5#32 [] 0#16, .call 0 (.write 1#16 (demoIoi "Count" tDINT) (.one (.i32 7#32))),
    .leave 0, .arrive 1 9#32 [] 0#16, .call 1 (.read 1#16 (demoIoi "count" tDINT) .i32), .arrive 0 20#32 [] 0#16,
    .call 0 (.read 1#16 (demoIoi "count" tDINT) .i32)]).1 =
    [.ok .done, .ok .done, .ok .done, .ok .done, .ok (.value (.i32 7#32)), .ok .done, .ok (.value (.i32 7#32))] := by
  decide +kernel

/-- The table afterwards has the connections of those that are there. -/
example : ((demoEmpty.live demoConv [.arrive 0 5#32 [] 0#16, .arrive 1 9#32 [] 0#16, .leave 0]).2.srv.conns.conns.map
    (fun k => (k.id, k.ot))) = [(10#16, 11#32)] := by
  decide +kernel

/-- Two that come 65536 milliseconds apart: when the second has left, the first fails. -/
example : (demoEmpty.live demoConv [.arrive 0 5#32 [] 0#16, .arrive 1 65541#32 [] 0#16,
    .call 0 (.read 1#16 (demoIoi "count" tDINT) .i32), .leave 1, .call 0 (.read 2#16 (demoIoi "count" tDINT) .i32)]).1 =
    [.ok .done, .ok .done, .ok (.value (.i32 5#32)), .ok .done, .err .unexpectedEof] := by
  decide +kernel

/-- One that has left and reads. -/
example : (demoEmpty.live demoConv [.arrive 0 5#32 [] 0#16, .leave 0, .call 0 (.read 1#16 (demoIoi "count" tDINT) .i32)]).1 =
    [.ok .done, .ok .done, .err .eof] := by
  decide +kernel

/-- One that vanishes and comes back has two entries. -/
example : ((demoEmpty.live demoConv [.arrive 0 5#32 [] 0#16, .vanish 0, .arrive 0 20#32 [] 0#16]).2.srv.conns.conns.map
    (fun k => k.id)) = [6#16, 29#16] := by
  decide +kernel

end Gologix.Session
