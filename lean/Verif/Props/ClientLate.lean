import Verif.Props.Client
set_option linter.unusedSimpArgs false
/-
C61: what a failed exchange spoils, and what it does not.
-/
namespace Gologix.Conc
open Spec
open Prog (one)

/-- **C61, what fails.**  One goroutine is enough: the Disconnect that follows the timeout sends its own request, 2, on the connection, and is
handed the late reply to request 1, although the device answers every request in order. -/
theorem C61_late_reply_alone :
    ∃ s, Reach s ∧ (∀ t op, .called t op ∈ s.notes → t = 0) ∧ (s.socks 0).delivered <+: (s.socks 0).sent.flatMap dev ∧
      .handed 0 [2] (dev 1) [] ∈ s.wire ∧ dev 1 ≠ dev 2 := by
  let tr := goConnect 0 0 ++ [.call 0 .request] ++ go 0 3 ++ [.run 0 true [1]] ++ go 0 5 ++ [.run 0 false []] ++ go 0 6 ++
    [.run 0 false [], .run 0 true [2]] ++ go 0 4 ++ [.deliver 0 (dev 1)] ++ go 0 28
  obtain ⟨s, hs, h1⟩ := run_facts tr (fun s => (s.notes.all fun | .called t _ => t == 0 | _ => true,
    (s.socks 0).delivered.isPrefixOf ((s.socks 0).sent.flatMap dev), s.wire.getLast?))
    (true, true, some (.handed 0 [2] (dev 1) [])) (by decide +kernel)
  simp only [Prod.mk.injEq] at h1
  refine ⟨s, ⟨tr, hs⟩, fun t op h => ?_, List.isPrefixOf_iff_prefix.mp h1.2.1, List.mem_of_getLast? h1.2.2, by decide⟩
  simpa using List.all_eq_true.1 h1.1 _ h

/-- **C61, as far as it holds.**  A failed exchange spoils no connection but its own.  Whatever fails on a connection, by whichever goroutine, the
requests on any other connection of the client, such as the one of the next Connect, get the replies the device sends on that
connection, in order: none of them the late reply of the failed exchange. -/
theorem C61_connections_apart_partial {s : Client} (h : Reach s) :
    ∃ es : List Exchange, s.wire = es.flatMap Exchange.events ∧ (∀ e ∈ es, e.Proper) ∧
      ∀ (c : Nat) (answers : List (Bytes × Bytes)), (∀ a ∈ answers, Framed a) →
        (s.socks c).delivered <+: answers.flatMap (fun a => a.1 ++ a.2) →
        (∀ e ∈ es, e.reply = none → e.c ≠ c) →
        (onConn c es).map (·.reply) <+: answers.map some := by
  obtain ⟨es, h1, h2, h3⟩ := C60_replies_in_order h
  refine ⟨es, h1, h2, fun c answers ha hd hf => ?_⟩
  refine h3 c answers ha hd es [] (by simp) fun e he hn => ?_
  have he' := List.mem_filter.1 he
  exact hf e he'.1 hn (by simpa using he'.2)

/-- A request that times out, the Disconnect after it, and a Connect and a request on a new connection, which gets the answer of the
device. -/
example :
    let tr := goConnect 0 0 ++ [.call 0 .request] ++ go 0 3 ++ [.run 0 true [1]] ++ go 0 5 ++ [.run 0 false []] ++ go 0 6 ++
      [.run 0 false [], .run 0 true [2]] ++ go 0 4 ++ [.deliver 0 (dev 1)] ++ go 0 32 ++ goConnect 0 1
    (runs .init tr).map (fun s => (s.wire.filter fun | .inp _ _ _ => false | _ => true).drop 4) =
      some [.out 0 0 1, .out 0 0 2, .handed 0 [2] (dev 1) [], .out 0 1 7, .handed 0 [7] (dev 7) [], .out 0 1 7,
        .handed 0 [7] (dev 7) []] := by
  decide +kernel

end Gologix.Conc
