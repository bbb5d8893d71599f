import Verif.Props.SessionAbsent
import Verif.Props.SessionGroup
set_option linter.unusedSimpArgs false
/-
C104, C114, C117: what becomes of `ReadList`, `ReadMap`, `ReadMulti` and `ReadTagGroup` if the server does not have all of the tags.
-/
namespace Gologix.Session
open Gologix Gologix.Spec Gologix.Server Gologix.Server.Spec Gologix.Connect Gologix.Connect.Spec Gologix.Session.Spec

/-- What is there under each. -/
theorem seen_list {m : Memory} : ∀ asks : List Ask, (∀ a ∈ asks, ∃ v, Sees m a v) →
    ∃ vs : List RV, vs.length = asks.length ∧ ∀ (i : Nat) a v, asks[i]? = some a → vs[i]? = some v → Sees m a v
  | [], _ => ⟨[], rfl, fun i a v h => by simp at h⟩
  | a :: asks, h => by
    obtain ⟨v, hv⟩ := h a List.mem_cons_self
    obtain ⟨vs, h1, h2⟩ := seen_list asks fun b hb => h b (List.mem_cons_of_mem _ hb)
    refine ⟨v :: vs, by simp [h1], fun i b w hb hw => ?_⟩
    cases i with
    | zero => cases hb; cases hw; exact hv
    | succ i => exact h2 i b w (by simpa using hb) (by simpa using hw)

/-- The tags `ts` are asked for by `asks`. -/
def Posed (asks : List Ask) (ts : List MTag) : Prop :=
  ts.length = asks.length ∧ ∀ (i : Nat) a t, asks[i]? = some a → ts[i]? = some t → AsksFor a t

theorem posed_take {asks : List Ask} {ts : List MTag} (h : Posed asks ts) (i : Nat) : Posed (asks.take i) (ts.take i) := by
  refine ⟨by simp [h.1], fun k a t ha ht => ?_⟩
  rw [List.getElem?_take] at ha ht
  by_cases hk : k < i
  · rw [if_pos hk] at ha ht
    exact h.2 k a t ha ht
  · rw [if_neg hk] at ha
    cases ha

theorem posed_drop {asks : List Ask} {ts : List MTag} (h : Posed asks ts) (i : Nat) : Posed (asks.drop i) (ts.drop i) := by
  refine ⟨by simp [h.1], fun k a t ha ht => ?_⟩
  rw [List.getElem?_drop] at ha ht
  exact h.2 _ a t ha ht

/-- How a request ends: all was there and the session goes on with the same tags, or something was not and it does not. -/
def Ends (C : Conv) (s : Settings) (k : Conn) (ep : Nat) (tags : Store) (m : Memory) (asks : List Ask)
    (r : Option (Res (List RV) × Nat × Sys)) : Prop :=
  ((¬ ∃ a ∈ asks, Lacks tags a) ∧ ∃ vs i y, r = some (.ok vs, i, y) ∧ Quiet y ∧ Serves y.server.srv s.ot k ep tags) ∨
  ∃ i y, r = some (.err .eof, i, y) ∧ Cut C s k ep y m

theorem list_ends (C : Conv) (s : Settings) (k : Conn) (ep conn : Nat) (seq : Nat → BitVec 16) (tags : Store) (m : Memory)
    (hh : Holds tags m) : ∀ (fuel i : Nat) (y : Sys) (asks : List Ask) (ts : List MTag), Quiet y →
      Serves y.server.srv s.ot k ep tags → Posed asks ts → (∀ a ∈ asks, (∃ v, Sees m a v) ∨ Lacks tags a) →
      (∀ t ∈ ts, t.entry.length + 6 ≤ conn) → ts ≠ [] → ts.length ≤ fuel →
      10 + 2 * ts.length + (ts.map fun t => t.entry.length).sum ≤ 32768 →
      (asks.map fun a => 10 + goSize a.T * a.n).sum ≤ 65500 →
      Ends C s k ep tags m asks (listOver C s conn seq fuel i y ts)
  | 0, i, y, asks, ts, hq, hsv, ha, hk, hfit, hne, hf, hl, hl' => by
    exact absurd (List.eq_nil_of_length_eq_zero (by omega)) hne
  | fuel + 1, i, y, asks, ts, hq, hsv, ha, hk, hfit, hne, hf, hl, hl' => by
    unfold listOver
    cases hsp : splitIndex conn 0 0 ts with
    | none =>
      have hlen : (readListBytes (seq i) ts).length ≤ 32768 := by
        rw [readListBytes_length, List.length_flatten, List.map_map]; exact hl
      by_cases hx : ∃ a ∈ asks, Lacks tags a
      · obtain ⟨y', e1, e2⟩ := C104_several_absent_ends C s k ep y tags m asks ts (seq i) hq hsv hh ha.1 ha.2 hlen hk hx
        refine .inr ⟨i + 1, y', ?_, e2⟩
        simp only [perform] at e1 ⊢
        generalize exchange C y (connectedFrame s (readListBytes (seq i) ts)) = R at e1 ⊢
        obtain ⟨r, y1⟩ := R
        obtain ⟨e1a, e1b⟩ := Prod.mk.inj e1
        simp only at e1a e1b ⊢
        subst e1b
        cases r with
        | err e => cases e1a; rfl
        | panic => cases e1a
        | ok a =>
          simp only [Res.bind_ok] at e1a ⊢
          cases hr : multiReply ts ⟨a.1.status, a.2⟩ with
          | err e => rw [hr] at e1a; cases e1a; rfl
          | panic => rw [hr] at e1a; cases e1a
          | ok v => rw [hr] at e1a; cases e1a
      · refine .inl ⟨hx, ?_⟩
        obtain ⟨vs, hvl, hvs⟩ := seen_list asks fun a h => (hk a h).elim id fun h' => absurd ⟨a, h, h'⟩ hx
        obtain ⟨es, xs, rs, h1, h2, h3, rfl, rfl, h6, h7, h8, h9⟩ := all_shown C hh asks ts vs ha.1 hvl ha.2 hvs
        obtain ⟨hd, y', g1, g2, g3, g4, g5, g6⟩ := packet_exchanged C (seq i) hq hsv hlen h1 h2 h3 (by omega)
        refine ⟨xs.map fun x => x.2.2.2, i + 1, y', ?_, g3, g6⟩
        simp only [readListBytes]
        rw [g1]
        simp only [Res.bind_ok]
        rw [g2, packet_read k.to (seq i) xs rs h7 (by omega) h8 h6]
    | some j =>
      have hpos := splitIndex_pos hfit hsp
      have hlt := (splitIndex_bound hsp).2
      have hn0 : ts.take j ≠ [] := by
        intro h; have := congrArg List.length h; simp at this
        rcases this with h | h
        · omega
        · exact hne h
      have hn1 : ts.drop j ≠ [] := by
        intro h; have := congrArg List.length h; simp at this; omega
      have b1 := sum_take_le (ts.map fun t => t.entry.length) j
      have b2 := sum_drop_le (ts.map fun t => t.entry.length) j
      have b3 := sum_take_le (asks.map fun a => 10 + goSize a.T * a.n) j
      have b4 := sum_drop_le (asks.map fun a => 10 + goSize a.T * a.n) j
      rw [← List.map_take] at b1 b3
      rw [← List.map_drop] at b2 b4
      rcases list_ends C s k ep conn seq tags m hh fuel i y _ _ hq hsv (posed_take ha j) (fun a h => hk a (List.mem_of_mem_take h))
        (fun t ht => hfit t (List.mem_of_mem_take ht)) hn0 (by simp; omega) (by simp only [List.length_take]; omega) (by omega)
        with ⟨n1, v1, i1, y1, e1, q1, s1⟩ | ⟨i1, y1, e1, c1⟩
      · simp only [e1]
        rcases list_ends C s k ep conn seq tags m hh fuel i1 y1 _ _ q1 s1 (posed_drop ha j) (fun a h => hk a (List.mem_of_mem_drop h))
          (fun t ht => hfit t (List.mem_of_mem_drop ht)) hn1 (by simp; omega) (by simp only [List.length_drop]; omega) (by omega)
          with ⟨n2, v2, i2, y2, e2, q2, s2⟩ | ⟨i2, y2, e2, c2⟩
        · refine .inl ⟨?_, v1 ++ v2, i2, y2, by simp only [e2], q2, s2⟩
          rintro ⟨a, h, hx⟩
          rw [← List.take_append_drop j asks] at h
          rcases List.mem_append.1 h with h | h
          · exact n1 ⟨a, h, hx⟩
          · exact n2 ⟨a, h, hx⟩
        · exact .inr ⟨i2, y2, by simp only [e2], c2⟩
      · exact .inr ⟨i1, y1, by simp only [e1], c1⟩

theorem batches_end (C : Conv) (s : Settings) (k : Conn) (ep conn : Nat) (hconn : conn ≤ 4002) (seq : Nat → BitVec 16)
    (tags : Store) (m : Memory) (hh : Holds tags m) : ∀ (fuel i : Nat) (y : Sys) (asks : List Ask) (ts : List MTag), Quiet y →
      Serves y.server.srv s.ot k ep tags → Posed asks ts → (∀ a ∈ asks, (∃ v, Sees m a v) ∨ Lacks tags a) →
      (∀ t ∈ ts, t.entry.length + 6 ≤ conn) → (∀ a ∈ asks, goSize a.T * a.n ≤ 65000) → ts.length + 1 ≤ fuel →
      Ends C s k ep tags m asks (batchesOver C s conn seq fuel i y ts)
  | 0, i, y, asks, ts, hq, hsv, ha, hk, hfit, hsz, hf => by omega
  | fuel + 1, i, y, asks, ts, hq, hsv, ha, hk, hfit, hsz, hf => by
    unfold batchesOver
    by_cases hne : ts = []
    · subst hne
      have : asks = [] := List.eq_nil_of_length_eq_zero (by rw [← ha.1]; rfl)
      subst this
      exact .inl ⟨by simp, [], i, y, by rw [if_pos rfl], hq, hsv⟩
    · rw [if_neg hne]
      obtain ⟨hb1, hb2⟩ := countFit_bounds conn ts hne
      have hsize := countFit_size conn ts hne
      generalize countFit conn ts = n at hb1 hb2 hsize
      have hta := posed_take ha n
      have hn0 : ts.take n ≠ [] := by
        intro h; have := congrArg List.length h; simp at this
        rcases this with h | h
        · omega
        · exact hne h
      have hlen : (ts.take n).length = n := by simp; omega
      have hrb := reply_bound _ _ hta.1 hta.2
      rw [hlen] at hrb
      have hfl : ((ts.take n).map fun t => t.entry.length).sum = (((ts.take n).map MTag.entry).flatten).length := by
        rw [List.length_flatten, List.map_map]
        rfl
      have hb : 10 + 2 * (ts.take n).length + ((ts.take n).map fun t => t.entry.length).sum ≤ 32768 ∧
          ((asks.take n).map fun a => 10 + goSize a.T * a.n).sum ≤ 65500 := by
        rcases hsize with h1 | ⟨h1, h2⟩
        · subst h1
          obtain ⟨t, ts', rfl⟩ := List.exists_cons_of_ne_nil hne
          match asks, ha.1 with
          | a :: asks', _ =>
            have := hfit t (by simp)
            have := hsz a (by simp)
            simp
            omega
        · have hn6 : 6 * n ≤ ((ts.take n).map fun t => t.entry.length).sum := by
            have := entries_bound _ _ hta.1 hta.2
            rwa [hlen] at this
          rw [← hfl] at h1
          rw [hlen]
          exact ⟨by omega, by omega⟩
      rcases list_ends C s k ep conn seq tags m hh fuel i y _ _ hq hsv hta (fun a h => hk a (List.mem_of_mem_take h))
        (fun t ht => hfit t (List.mem_of_mem_take ht)) hn0 (by omega) hb.1 hb.2
        with ⟨n1, v1, i1, y1, e1, q1, s1⟩ | ⟨i1, y1, e1, c1⟩
      · simp only [e1]
        rcases batches_end C s k ep conn hconn seq tags m hh fuel i1 y1 _ _ q1 s1 (posed_drop ha n)
          (fun a h => hk a (List.mem_of_mem_drop h)) (fun t ht => hfit t (List.mem_of_mem_drop ht))
          (fun a h => hsz a (List.mem_of_mem_drop h)) (by simp; omega)
          with ⟨n2, v2, i2, y2, e2, q2, s2⟩ | ⟨i2, y2, e2, c2⟩
        · refine .inl ⟨?_, v1 ++ v2, i2, y2, by simp only [e2], q2, s2⟩
          rintro ⟨a, h, hx⟩
          rw [← List.take_append_drop n asks] at h
          rcases List.mem_append.1 h with h | h
          · exact n1 ⟨a, h, hx⟩
          · exact n2 ⟨a, h, hx⟩
        · exact .inr ⟨i2, y2, by simp only [e2], c2⟩
      · exact .inr ⟨i1, y1, by simp only [e1], c1⟩

/-- C104 is false for `ReadList` if the server does not have all of the tags, however many there are and in whatever requests they
are sent: the call is an error, also for the values that had been received, and every later call fails.  The tags are what they
were. -/
theorem C104_list_absent_ends (C : Conv) (s : Settings) (k : Conn) (ep conn : Nat) (hconn : conn ≤ 4002) (seq : Nat → BitVec 16)
    (tags : Store) (m : Memory) (fuel i : Nat) (y : Sys) (asks : List Ask) (ts : List MTag) (hq : Quiet y)
    (hsv : Serves y.server.srv s.ot k ep tags) (hh : Holds tags m) (ha : Posed asks ts)
    (hk : ∀ a ∈ asks, (∃ v, Sees m a v) ∨ Lacks tags a) (hfit : ∀ t ∈ ts, t.entry.length + 6 ≤ conn)
    (hsz : ∀ a ∈ asks, goSize a.T * a.n ≤ 65000) (hf : ts.length + 1 ≤ fuel) (he : ∃ a ∈ asks, Lacks tags a) :
    ∃ i' y', batchesOver C s conn seq fuel i y ts = some (.err .eof, i', y') ∧ Cut C s k ep y' m := by
  rcases batches_end C s k ep conn hconn seq tags m hh fuel i y asks ts hq hsv ha hk hfit hsz hf with ⟨h, -⟩ | h
  · exact absurd he h
  · exact h

theorem posed_map {α : Type} (ask : α → Ask) (req : α → MTag) (l : List α) (h : ∀ e ∈ l, AsksFor (ask e) (req e)) :
    Posed (l.map ask) (l.map req) := by
  refine ⟨by simp, fun i a t ha ht => ?_⟩
  rw [List.getElem?_map] at ha ht
  cases hi : l[i]? with
  | none => rw [hi] at ha; cases ha
  | some e =>
    rw [hi] at ha ht
    cases ha
    cases ht
    exact h e (List.mem_of_getElem? hi)

theorem map_missing {α : Type} (C : Conv) (s : Settings) (k : Conn) (ep conn : Nat) (hconn : conn ≤ 4002) (seq : Nat → BitVec 16)
    (tags : Store) (m : Memory) (fuel i : Nat) (y : Sys) (ioi : Str → Byte → Res Ioi) (l : List α) (entry : α → Str × MVal)
    (ask : α → Ask) (req : α → MTag) (hq : Quiet y) (hsv : Serves y.server.srv s.ot k ep tags) (hh : Holds tags m)
    (hv : ∀ e ∈ l, Asked (entry e).2 (req e) ∧ ioi (entry e).1 (req e).typ = .ok (req e).ioi ∧
      AsksFor (ask e) (req e) ∧ ((∃ v, Sees m (ask e) v) ∨ Lacks tags (ask e)))
    (hfit : ∀ e ∈ l, (req e).entry.length + 6 ≤ conn) (hsz : ∀ e ∈ l, goSize (ask e).T * (ask e).n ≤ 65000)
    (hf : l.length + 1 ≤ fuel) (he : ∃ e ∈ l, Lacks tags (ask e)) :
    ∃ i' y', mapOver C s conn seq fuel i y ioi (l.map entry) = some (.err .eof, i', y') ∧ Cut C s k ep y' m := by
  have h2 : multiDescs ioi (l.map entry) = .ok (l.map req) := by
    clear hf he
    induction l with
    | nil => rfl
    | cons x l ih =>
      obtain ⟨h1, h2, -⟩ := hv x List.mem_cons_self
      have ht := asked_request h1
      have h3 : ioi (entry x).1 (entry x).2.cipType.1 = .ok (req x).ioi := by
        rw [ht] at h2
        exact h2
      rw [List.map_cons, show entry x = ((entry x).1, (entry x).2) from rfl, multiDescs, h3]
      simp only [ih (fun e he => hv e (List.mem_cons_of_mem _ he)) (fun e he => hfit e (List.mem_cons_of_mem _ he))
        (fun e he => hsz e (List.mem_cons_of_mem _ he)), List.map_cons]
      rw [ht]
      rfl
  obtain ⟨e, hem, hel⟩ := he
  obtain ⟨i', y', h, hc⟩ := C104_list_absent_ends C s k ep conn hconn seq tags m fuel i y (l.map ask) (l.map req) hq hsv hh
    (posed_map ask req l fun e he => (hv e he).2.2.1)
    (by
      intro a ha
      obtain ⟨x, hx, rfl⟩ := List.mem_map.mp ha
      exact (hv x hx).2.2.2)
    (by
      intro t ht
      obtain ⟨x, hx, rfl⟩ := List.mem_map.mp ht
      exact hfit x hx)
    (by
      intro a ha
      obtain ⟨x, hx, rfl⟩ := List.mem_map.mp ha
      exact hsz x hx)
    (by simpa using hf) ⟨ask e, List.mem_map_of_mem hem, hel⟩
  refine ⟨i', y', ?_, hc⟩
  unfold mapOver
  simp only [h2, h]

/-- **C114, what fails.**  A key of a map the server does not have, or that is of more elements than the server has, makes `ReadMap`
an error, whatever else is in the map and however many keys it has, and the session does not go on. -/
theorem C114_map_missing_ends (C : Conv) (s : Settings) (k : Conn) (ep conn : Nat) (hconn : conn ≤ 4002) (seq : Nat → BitVec 16)
    (tags : Store) (m : Memory) (fuel i : Nat) (y : Sys) (ioi : Str → Byte → Res Ioi) (es : List (Str × MVal))
    (ask : Str × MVal → Ask) (req : Str × MVal → MTag) (hq : Quiet y) (hsv : Serves y.server.srv s.ot k ep tags)
    (hh : Holds tags m)
    (hv : ∀ e ∈ es, render (ask e).tag = e.1 ∧ Asked e.2 (req e) ∧ ioi e.1 (req e).typ = .ok (req e).ioi ∧
      AsksFor (ask e) (req e) ∧ ((∃ v, Sees m (ask e) v) ∨ Lacks tags (ask e)))
    (hfit : ∀ e ∈ es, (req e).entry.length + 6 ≤ conn) (hsz : ∀ e ∈ es, goSize (ask e).T * (ask e).n ≤ 65000)
    (hf : es.length + 1 ≤ fuel) (he : ∃ e ∈ es, Lacks tags (ask e)) :
    ∃ i' y', mapOver C s conn seq fuel i y ioi es = some (.err .eof, i', y') ∧ Cut C s k ep y' m := by
  have := map_missing C s k ep conn hconn seq tags m fuel i y ioi es id ask req hq hsv hh (fun e he => (hv e he).2) hfit hsz hf he
  simpa using this

/-- **C114, what fails.**  So does a tagged field of a structure make `ReadMulti` an error. -/
theorem C114_fields_missing_ends (C : Conv) (s : Settings) (k : Conn) (ep conn : Nat) (seq : Nat → BitVec 16) (tags : Store) (m : Memory)
    (fuel i : Nat) (y : Sys) (ioi : Str → Byte → Res Ioi) (fs : List (Option Str × MVal)) (args : List Str)
    (ask : Str × Nat × MVal → Ask) (req : Str × MVal → MTag) (hq : Quiet y) (hsv : Serves y.server.srv s.ot k ep tags)
    (hm : Holds tags m) (hh : ∀ f ∈ fs, (∃ c cs, f.1 = some (c :: cs)) → f.2 ≠ .hidden)
    (hv : ∀ x ∈ taggedOf args 0 fs, render (ask x).tag = x.1 ∧ Asked x.2.2 (req (x.1, x.2.2)) ∧
      ioi x.1 (req (x.1, x.2.2)).typ = .ok (req (x.1, x.2.2)).ioi ∧ AsksFor (ask x) (req (x.1, x.2.2)) ∧
      ((∃ v, Sees m (ask x) v) ∨ Lacks tags (ask x)))
    (hfit : ∀ x ∈ taggedOf args 0 fs, (req (x.1, x.2.2)).entry.length + 6 ≤ conn)
    (hf : (taggedOf args 0 fs).length ≤ fuel)
    (hl : 10 + 2 * (taggedOf args 0 fs).length + ((taggedOf args 0 fs).map fun x => (req (x.1, x.2.2)).entry.length).sum ≤ 32768)
    (hl' : ((taggedOf args 0 fs).map fun x => 10 + goSize (ask x).T * (ask x).n).sum ≤ 65500)
    (he : ∃ x ∈ taggedOf args 0 fs, Lacks tags (ask x)) :
    ∃ i' y', multiOver C s conn seq fuel i y ioi (fs.map Prod.fst) (fs.map Prod.snd) args = some (.err .eof, i', y') ∧
      Cut C s k ep y' m := by
  have h1 := multiFields_plain args (fs.map Prod.snd) fs [] (by simp) hh
  simp only [List.length_nil] at h1
  generalize taggedOf args 0 fs = xs at *
  have h2 := multiDescs_all (ioi := ioi) req (xs.map fun f => (f.1, f.2.2)) (by
    intro e he
    obtain ⟨x, hx, rfl⟩ := List.mem_map.mp he
    exact ⟨(hv x hx).2.1, (hv x hx).2.2.1⟩)
  rw [List.map_map] at h2
  obtain ⟨x, hxm, hxl⟩ := he
  rcases list_ends C s k ep conn seq tags m hm fuel i y (xs.map ask) (xs.map (req ∘ fun f => (f.1, f.2.2))) hq hsv
    (posed_map ask (req ∘ fun f => (f.1, f.2.2)) xs fun x hx => (hv x hx).2.2.2.1)
    (by
      intro a ha
      obtain ⟨x, hx, rfl⟩ := List.mem_map.mp ha
      exact (hv x hx).2.2.2.2)
    (by
      intro t ht
      obtain ⟨x, hx, rfl⟩ := List.mem_map.mp ht
      exact hfit x hx)
    (by intro h; rw [List.map_eq_nil_iff] at h; rw [h] at hxm; cases hxm) (by simpa using hf)
    (by rw [List.length_map, List.map_map]; exact hl) (by rw [List.map_map]; exact hl')
    with ⟨h, -⟩ | ⟨i', y', e, hc⟩
  · exact absurd ⟨ask x, List.mem_map_of_mem hxm, hxl⟩ h
  · refine ⟨i', y', ?_, hc⟩
    unfold multiOver
    rw [h1]
    simp only [h2, e]

/-- **C117, what fails.**  A definition of a tag the server does not have, or of more elements than it has, leaves the whole group
unread and ends the session. -/
theorem C117_missing_ends (C : Conv) (s : Settings) (k : Conn) (ep conn : Nat) (hconn : conn ≤ 4002) (seq : Nat → BitVec 16)
    (tags : Store) (m : Memory) (fuel i : Nat) (y : Sys) (ioi : Str → Byte → Res Ioi)
    (ord : List (Str × MVal) → List (Str × MVal)) (hord : ∀ l, (ord l).Perm l) (defs : List TagDef) (args : List Str)
    (ask : TagDef → Ask) (req : TagDef → MTag) (hq : Quiet y) (hsv : Serves y.server.srv s.ot k ep tags) (hh : Holds tags m)
    (hn : (defs.map fun d => formatName d.name args).Nodup)
    (hd : ∀ d ∈ defs, DefAsked d (ask d).T (req d) ∧ (1 < d.elements → d.typ ≠ tBOOL ∧ d.typ ≠ tWORD) ∧
      render (ask d).tag = formatName d.name args ∧ ioi (formatName d.name args) (req d).typ = .ok (req d).ioi ∧
      AsksFor (ask d) (req d) ∧ ((∃ v, Sees m (ask d) v) ∨ Lacks tags (ask d)))
    (hfit : ∀ d ∈ defs, (req d).entry.length + 6 ≤ conn) (hsz : ∀ d ∈ defs, goSize (ask d).T * (ask d).n ≤ 65000)
    (hf : defs.length + 1 ≤ fuel) (he : ∃ d ∈ defs, Lacks tags (ask d)) :
    ∃ i' y', groupOver C s conn seq fuel i y ioi ord defs args = some (.err .eof, i', y') ∧ Cut C s k ep y' m := by
  have h1 : groupMap args defs = defs.map fun d => (formatName d.name args, zeroValue d) := by
    rw [groupMap_puts, puts_fresh (by rw [List.nil_append, List.map_map]; exact hn)]
    rfl
  obtain ⟨ds, e1, hp⟩ := perm_of_map (fun d : TagDef => (formatName d.name args, zeroValue d)) (hord (groupMap args defs)) defs h1
  have hm : ∀ d, d ∈ ds ↔ d ∈ defs := fun d => hp.mem_iff
  obtain ⟨d, hdm, hdl⟩ := he
  obtain ⟨i', y', e2, hc⟩ := map_missing C s k ep conn hconn seq tags m fuel i y ioi ds
    (fun d => (formatName d.name args, zeroValue d)) ask req hq hsv hh (by
      intro d h
      obtain ⟨a1, a2, a3, a4, a5, a6⟩ := hd d ((hm d).1 h)
      exact ⟨zero_asked a1 a2, a4, a5, a6⟩)
    (fun d h => hfit d ((hm d).1 h)) (fun d h => hsz d ((hm d).1 h)) (by rw [hp.length_eq]; exact hf) ⟨d, (hm d).2 hdm, hdl⟩
  exact ⟨i', y', by rw [groupOver, e1, e2], hc⟩

/-- Two requests: the first is answered, the tag of the second is not there. -/
example : ((batchesOver demoConv demoJoined.1 26 (BitVec.ofNat 16) 5 1 demoJoined.2
      [⟨demoIoi "Count" tDINT, tDINT, 1, .untyped⟩, ⟨demoIoi "gone" tDINT, tDINT, 1, .untyped⟩]).map fun r =>
        (r.1, r.2.1, r.2.2.up)) = some (.err .eof, 3, false) ∧
    ((batchesOver demoConv demoJoined.1 26 (BitVec.ofNat 16) 5 1 demoJoined.2
      [⟨demoIoi "Count" tDINT, tDINT, 1, .untyped⟩, ⟨demoIoi "arr[1]" tDINT, tDINT, 1, .untyped⟩]).map fun r =>
        (r.1, r.2.1, r.2.2.up)) = some (.ok [.one (.i32 5#32), .one (.i32 2#32)], 3, true) := by
  decide +kernel

end Gologix.Session
