import Verif.Spec.ServeLoop
import Verif.Props.Udp
/-
C90 The server takes every connection and ends when its listeners do
-/
set_option linter.unusedSimpArgs false
namespace Gologix.ServeLoop
open Gologix.ServerIo Gologix.Server
open Spec (came arrived Delivered)

/-- What a datagram is for, if it is for an open connection. -/
def target (x : Bytes × ConnTable × Router Nat) : List (Nat × List Item) :=
  match udpTarget x.2.1 x.2.2 x.1 with
  | .ok t => [t]
  | _ => []

theorem udpRound_eq (dg : Bytes) (failed : Bool) (conns : ConnTable) (router : Router Nat) :
    udpRound dg failed conns router = (none, if failed then [] else target (dg, conns, router)) := by
  simp only [udpRound, target]
  by_cases h0 : dg.length = 0
  · rw [if_pos h0]
    have : udpTarget conns router dg = .err .fail := by simp [udpTarget, h0]
    rw [this]
    simp
  · rw [if_neg h0]
    by_cases h1 : dg.length = 4096
    · rw [if_pos h1]
      have : udpTarget conns router dg = .err .fail := by simp [udpTarget, h1]
      rw [this]
      simp
    · rw [if_neg h1]
      cases failed with
      | true => simp
      | false =>
        simp only [Bool.false_eq_true, if_false]
        cases udpTarget conns router dg <;> rfl

theorem steps (evs : List SEv) (s : SrvRun) :
    evs.foldl serveStep s = { s with
      handlers := s.handlers ++ came evs
      delivered := s.delivered ++ (arrived evs).flatMap target } := by
  induction evs generalizing s with
  | nil => simp [came, arrived]
  | cons e r ih =>
    rw [List.foldl_cons, ih]
    cases e with
    | accept c =>
      cases c <;> simp [serveStep, tcpRound, SrvRun.after, came, arrived]
    | datagram dg failed conns router =>
      rw [serveStep, udpRound_eq]
      cases failed <;> simp [SrvRun.after, came, arrived]

/-- What an endpoint is given: its number and the second item. -/
def given (x : Nat × List Item) : Nat × BitVec 16 × Bytes :=
  match x.2 with
  | [_, i1] => (x.1, i1.id, i1.data)
  | _ => (x.1, 0#16, [])

theorem delivered_targets (xs : List (Bytes × ConnTable × Router Nat)) : Delivered xs ((xs.flatMap target).map given) := by
  induction xs with
  | nil => exact .nil
  | cons x xs ih =>
    obtain ⟨dg, conns, router⟩ := x
    rw [List.flatMap_cons, List.map_append]
    cases ht : udpTarget conns router dg with
    | ok t =>
      obtain ⟨e, items⟩ := t
      obtain ⟨i0, id, data, ha, rfl⟩ := (C100_delivered conns router dg e).1 items ht
      simp only [target, ht, given, List.map_cons, List.map_nil, List.cons_append, List.nil_append]
      exact .hit ha ih
    | err y =>
      simp only [target, ht, List.map_nil, List.nil_append]
      exact .miss ((C100_dropped conns router dg).mp ⟨y, ht⟩) ih
    | panic => have := (C100_safe conns router dg).1; rw [ht] at this; exact absurd this (by simp)

/-- C90: with both listeners open, every connection that comes gets one handler, in order, whatever else happens, and
every datagram is delivered, in order, to the endpoint it is addressed to, if there is one, and to no other. -/
theorem C90_served (evs : List SEv) :
    (serve none none evs).handlers = came evs ∧
    Delivered (arrived evs) ((serve none none evs).delivered.map given) ∧
    ∀ x ∈ (serve none none evs).delivered, ∃ i0 i1, x.2 = [i0, i1] ∧ i1.pos = 0 := by
  rw [serve, steps]
  refine ⟨by simp, by simpa using delivered_targets (arrived evs), ?_⟩
  intro x hx
  simp only [List.nil_append, List.mem_flatMap] at hx
  obtain ⟨⟨dg, conns, router⟩, -, hx⟩ := hx
  unfold target at hx
  split at hx
  · rename_i t ht
    rw [List.mem_singleton.mp hx]
    obtain ⟨i0, id, data, -, h⟩ := (C100_delivered conns router dg t.1).1 t.2 ht
    exact ⟨i0, _, h, rfl⟩
  · cases hx

/-- C90, opening: if the TCP listener cannot be opened, `Serve` returns the error, and nothing is open. -/
theorem C90_no_tcp (e : Err) (udp : Option Err) (evs : List SEv) :
    (serve (some e) udp evs).returned = some e ∧ (serve (some e) udp evs).tcpOpen = false ∧
    (serve (some e) udp evs).udpOpen = false ∧ (serve (some e) udp evs).handlers = [] ∧
    (serve (some e) udp evs).delivered = [] :=
  ⟨rfl, rfl, rfl, rfl, rfl⟩

/-- C90 is false when the UDP listener cannot be opened: `Serve` returns the error, and the TCP listener stays open
although nobody accepts from it. -/
theorem C90_tcp_left_open (e : Err) (evs : List SEv) :
    (serve none (some e) evs).returned = some e ∧ (serve none (some e) evs).tcpOpen = true ∧
    (serve none (some e) evs).udpOpen = false ∧ (serve none (some e) evs).handlers = [] ∧
    (serve none (some e) evs).delivered = [] :=
  ⟨rfl, rfl, rfl, rfl, rfl⟩

/-- C90 is false in the end: once both listeners are open, `Serve` returns never, and closes nothing, whatever errors
the listeners give, and however often. -/
theorem C90_never_returns (evs : List SEv) :
    (serve none none evs).returned = none ∧ (serve none none evs).failed = none ∧
    (serve none none evs).tcpOpen = true ∧ (serve none none evs).udpOpen = true := by
  rw [serve, steps]
  exact ⟨rfl, rfl, rfl, rfl⟩

/-- C90: a listener that has been closed gives an error at once, again and again; the loops go round for ever. -/
theorem C90_spins (evs : List SEv) (n : Nat) (conns : ConnTable) (router : Router Nat) :
    serve none none (evs ++ List.replicate n (.accept none)) = serve none none evs ∧
    serve none none (evs ++ List.replicate n (.datagram [] true conns router)) = serve none none evs := by
  have hc : ∀ (e : SEv), came [e] = [] → arrived [e] = [] →
      serve none none (evs ++ List.replicate n e) = serve none none evs := by
    intro e h1 h2
    have h1' : ∀ k, came (List.replicate k e) = [] ∧ arrived (List.replicate k e) = [] := by
      intro k
      induction k with
      | zero => simp [came, arrived]
      | succ k ih =>
        rw [List.replicate_succ]
        cases e with
        | accept c => cases c <;> simp_all [came, arrived]
        | datagram d f a b => cases f <;> simp_all [came, arrived]
    simp only [serve, List.foldl_append]
    rw [steps (List.replicate n e), (h1' n).1, (h1' n).2]
    simp
  exact ⟨hc _ rfl rfl, hc _ rfl rfl⟩

/-- Two connections, with errors between. -/
example : (serve none none [.accept (some 1), .accept none, .datagram [] true .init .new, .accept (some 2)]).handlers =
    [1, 2] := (C90_served _).1

end Gologix.ServeLoop
