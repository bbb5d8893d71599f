import Verif.Props.ServerConn
set_option linter.unusedSimpArgs false
/-
C65: what removes a connection from the table of a server.
-/
namespace Gologix.Server
open Gologix Gologix.Server.Spec

theorem closeByID_keeps (t : ConnTable) (k : BitVec 16) (c : Conn) (hc : c ∈ t.conns) (hk : c.id ≠ k) :
    c ∈ (t.closeByID k).2.conns := by
  rw [ConnTable.closeByID]
  cases hf : t.conns.find? (·.id == k) with
  | none => rw [closeBy_none hf]; exact hc
  | some x =>
    obtain ⟨as, bs, hl, hx, ha⟩ := find_split hf
    rw [closeBy_split hl hx ha]
    simp only [mem_joinLast]
    rw [hl, List.mem_append, List.mem_cons] at hc
    rcases hc with h | rfl | h
    · exact .inl h
    · exact absurd (by simpa using hx) hk
    · exact .inr h

theorem closeByID_count (t : ConnTable) (k : BitVec 16) : t.conns.length ≤ (t.closeByID k).2.conns.length + 1 := by
  rw [ConnTable.closeByID]
  cases hf : t.conns.find? (·.id == k) with
  | none => rw [closeBy_none hf]; exact Nat.le_succ _
  | some x =>
    obtain ⟨as, bs, hl, hx, ha⟩ := find_split hf
    rw [closeBy_split hl hx ha]
    simp only [joinLast]
    rw [hl]
    cases hb : bs.getLast? with
    | none => simp [List.getLast?_eq_none_iff.mp hb]
    | some y =>
      obtain ⟨ys, rfl⟩ := List.getLast?_eq_some_iff.mp hb
      simp
      omega

/-- **C65, as far as it holds.**  Whatever bytes a peer sends, a request removes a connection only if it is a close request that names
the serial number of this connection; and it removes at most one. -/
theorem C65_serial_partial (C : Conv) (st : St) :
    (∀ c ∈ st.srv.conns.conns, c ∉ (serveStep C st).2.srv.conns.conns → Asks st.inp (.closeID c.id)) ∧
    st.srv.conns.conns.length ≤ (serveStep C st).2.srv.conns.conns.length + 1 := by
  rcases C39_step C st with h | ⟨c', -, -, h⟩ | ⟨k, hk, h⟩
  · simp only [tab, Prod.mk.injEq] at h
    rw [h.1]
    exact ⟨fun c hc hn => absurd hc hn, Nat.le_succ _⟩
  · simp only [tab, Prod.mk.injEq] at h
    rw [h.1]
    refine ⟨fun c hc hn => absurd ?_ hn, ?_⟩
    · simp [ConnTable.add, hc]
    · simp [ConnTable.add]; omega
  · simp only [tab, Prod.mk.injEq] at h
    rw [h.1]
    refine ⟨fun c hc hn => ?_, closeByID_count _ _⟩
    by_cases hi : c.id = k
    · rw [hi]; exact hk
    · exact absurd (closeByID_keeps _ _ _ hc hi) hn

/-- **C65, as far as it holds, any number of requests of any number of peers.**  A connection that is gone was named, by its serial number, by
one of the requests. -/
theorem C65_named_partial (C : Conv) : ∀ (evs : List (Handler × Bytes)) (srv : Srv) (c : Conn), c ∈ srv.conns.conns →
    c ∉ (serveAll C srv evs).conns.conns → ∃ e ∈ evs, Asks e.2 (.closeID c.id)
  | [], _, _, hc, hn => absurd hc hn
  | (h, inp) :: evs, srv, c, hc, hn => by
    by_cases hm : c ∈ (serveStep C { h, srv, inp, sent := [] }).2.srv.conns.conns
    · obtain ⟨e, he, ha⟩ := C65_named_partial C evs _ c hm hn
      exact ⟨e, List.mem_cons_of_mem _ he, ha⟩
    · exact ⟨(h, inp), List.mem_cons_self, (C65_serial_partial C { h, srv, inp, sent := [] }).1 c hc hm⟩

/-- Two connections of different serial numbers, one of which is closed: the other is still there. -/
example : ((serveAll demoConv { demoSrv with conns := ConnTable.init }
    [((demoSt []).h, (demoRR (openDemo 7#16).bytes).bytes), ((demoSt []).h, (demoRR (openDemo 8#16).bytes).bytes),
     ((demoSt []).h, (demoRR (closeDemo 7#16).bytes).bytes)]).conns.conns.map Conn.id) = [8#16] := by
  decide +kernel

end Gologix.Server
