import Verif.Props.ServerSenders
/-
C96: the identifiers the server chooses for connections and sessions.
-/
set_option linter.unusedSimpArgs false

namespace Gologix.Server
open Gologix.Server.Spec M

/-- C96, one request: an identifier that the request leaves to the server is the next random number, first the
one of the messages to the client; what is used is not used again. -/
theorem C96_next (C : Conv) (st : St) (o : OpenReq) (ho : o.wf) (hi : Unconnected st.inp o.bytes) :
    ∃ c, (serveStep C st).2.srv.conns = st.srv.conns.add c ∧ c.id = o.serial ∧
      (o.to = 0#32 → c.to = st.srv.rnd 0) ∧ (o.to ≠ 0#32 → c.to = o.to) ∧
      (o.ot = 0#32 → c.ot = st.srv.rnd (if o.to = 0#32 then 1 else 0)) ∧ (o.ot ≠ 0#32 → c.ot = o.ot) ∧
      ∀ n, (serveStep C st).2.srv.rnd n =
        st.srv.rnd (n + (if o.to = 0#32 then 1 else 0) + (if o.ot = 0#32 then 1 else 0)) := by
  obtain ⟨st0, hs, hsrv, -⟩ := serveStep_unconnected C st _ hi
  have hp : readN ((fwdOf o).psize * 2#8).toNat (o.path ++ o.more) = .ok (o.path, o.more) := by
    apply readN_exact
    rw [ho.2.1]
    exact (words_small o.words ho.2.2.2).symm
  have hl : 2 ≤ o.path.length := by have := ho.2; omega
  obtain ⟨st1, h1, h2⟩ := forwardOpen_run o.large o.bytes _ _ _ _ (readFwdOpen_bytes o ho.1) hp hl st0
  rw [unconnectedData_open, h1] at hs
  have hfin : ∀ m : M Unit, (m = (if (fwdOf o).trigger = 1#8 ∧ o.large = false
      then startIO (fwdOf o) st0.srv.nextRef (o.path.take 2) else pure ())) →
      (m st1).2.srv.conns = st1.srv.conns ∧ (m st1).2.srv.rnd = st1.srv.rnd := by
    intro m hm
    rw [hm]
    split
    · exact ⟨startIO_conns _ _ _ _, keeps_startIO (g := fun st => st.srv.rnd) (fun _ _ => rfl) _ _ _ st1⟩
    · exact ⟨rfl, rfl⟩
  obtain ⟨h3, h4⟩ := hfin _ rfl
  rw [hs, h3, h4, h2, hsrv]
  refine ⟨_, rfl, rfl, ?_, ?_, ?_, ?_, ?_⟩
  · intro h; show usedId o.to _ = _; simp [usedId, h]
  · intro h; show usedId o.to _ = _; simp [usedId, h]
  · intro h
    show usedId o.ot (restRnd o.to st.srv.rnd 0) = _
    rw [usedId, if_pos h]
    by_cases ht : o.to = 0#32 <;> simp [restRnd, ht]
  · intro h; show usedId o.ot _ = _; simp [usedId, h]
  · intro n
    show restRnd o.ot (restRnd o.to st.srv.rnd) n = _
    by_cases ht : o.to = 0#32 <;> by_cases hot : o.ot = 0#32 <;> simp [restRnd, ht, hot]

/-- C96, sessions: the number of a session that the request leaves to the server is the next random number, and
it is not used again. -/
theorem C96_session (C : Conv) (st : St) (h : WantsSession st.inp) :
    (serveStep C st).2.h.handle = st.srv.rnd 0 ∧ ∀ n, (serveStep C st).2.srv.rnd n = st.srv.rnd (n + 1) := by
  obtain ⟨len, status, options, context, four, rest, h4, hi⟩ := h
  let hdr : EipHeader := ⟨0x65#16, len, 0#32, status, context, options⟩
  have hc : hdr.command = 0x65#16 := rfl
  have hz : hdr.session = 0#32 := rfl
  replace hi : st.inp = hdr.encode ++ (four ++ rest) := by
    rw [hi]
    have e2 : putBV 0x65#16 = [0x65#8, 0#8] := by decide
    have e4 : putBV 0#32 = [0#8, 0#8, 0#8, 0#8] := by decide
    simp only [hdr, EipHeader.encode, e2, e4]
    rfl
  have hs : serveStep C st = registerSession hdr
      { st with inp := four ++ rest, h := { st.h with context := hdr.context } } := by
    unfold serveStep
    rw [bind_def]
    simp only [recvHeader, hi, readEIPHeader_encode]
    simp only [dispatch, hc]
    rfl
  have hr : recv 4 { st with inp := four ++ rest, h := { st.h with context := hdr.context } } =
      (.ok four, { st with inp := rest, h := { st.h with context := hdr.context } }) := by
    simp [recv, readN_append' h4]
  rw [hs]
  unfold registerSession
  rw [bind_ok hr, bind_def]
  simp only [chooseId, hz, if_true]
  rw [bind_def]
  exact ⟨rfl, fun _ => rfl⟩

/-! ### Random numbers are used in order -/

/-- `m` uses random numbers from the front. -/
def Draws {α : Type} (m : M α) : Prop := ∀ st, ∃ k, ∀ n, (m st).2.srv.rnd n = st.srv.rnd (n + k)

theorem draws_keeps {α : Type} {m : M α} (h : Keeps (fun st => st.srv.rnd) m) : Draws m :=
  fun st => ⟨0, fun n => congrFun (h st) n⟩

theorem draws_bind {α β : Type} {m : M α} {f : α → M β} (hm : Draws m) (hf : ∀ a, Draws (f a)) :
    Draws (m >>= f) := by
  intro st
  rw [bind_def]
  obtain ⟨k, hk⟩ := hm st
  cases h1 : m st with
  | mk r st' =>
    rw [h1] at hk
    cases r with
    | ok a =>
      obtain ⟨j, hj⟩ := hf a st'
      refine ⟨j + k, fun n => ?_⟩
      simp only
      rw [hj, hk, Nat.add_assoc]
    | err e => exact ⟨k, hk⟩
    | panic => exact ⟨k, hk⟩

theorem draws_ite {α : Type} {c : Prop} [Decidable c] {a b : M α} (ha : Draws a) (hb : Draws b) :
    Draws (if c then a else b) := by
  split
  · exact ha
  · exact hb

theorem draws_chooseId (k : BitVec 32) : Draws (chooseId k) := by
  intro st
  unfold chooseId
  split
  · exact ⟨1, fun _ => rfl⟩
  · exact ⟨0, fun _ => rfl⟩

theorem stable_rnd : Stable (fun st => st.srv.rnd) := ⟨fun _ _ => rfl, fun _ _ => rfl, fun _ _ => rfl⟩

theorem draws_forwardOpen (large : Bool) (d : Bytes) : Draws (forwardOpen large d) := by
  unfold forwardOpen
  refine draws_bind (draws_keeps (keeps_lift _)) fun ⟨f, r⟩ => draws_bind (draws_keeps (keeps_lift _)) fun ⟨fpath, _⟩ => ?_
  refine draws_ite (draws_keeps keeps_crash) (draws_bind (draws_chooseId _) fun _ => draws_bind (draws_chooseId _) fun _ => ?_)
  refine draws_keeps (keeps_bind (fun _ => rfl) fun _ => keeps_bind (keeps_send stable_rnd _ _) fun _ => ?_)
  exact keeps_bind (fun _ => rfl) fun ref => keeps_ite (keeps_startIO (fun _ _ => rfl) _ _ _) (keeps_pure _)

theorem draws_unconnected (C : Conv) (d : Bytes) : Draws (unconnectedData C d) := by
  unfold unconnectedData
  refine draws_bind (draws_keeps (keeps_lift _)) fun ⟨svc, r⟩ => ?_
  refine draws_ite (draws_forwardOpen _ _) (draws_ite (draws_forwardOpen _ _) (draws_ite ?_ (draws_keeps ?_)))
  · unfold forwardClose
    refine draws_keeps (keeps_bind (keeps_lift _) fun ⟨b, r⟩ => keeps_bind (keeps_lift _) fun ⟨serial, _⟩ => ?_)
    exact keeps_bind (fun _ => rfl) fun _ => keeps_bind (keeps_lift _) fun _ => keeps_pure _
  · exact keeps_ite (keeps_uGetAttributeAll stable_rnd _) (keeps_ite (keeps_uGetAttr stable_rnd _) (keeps_ite
      (keeps_uSetAttr stable_rnd _ _) (keeps_ite (keeps_uSend stable_rnd _ _) (keeps_sendUnconn stable_rnd _ _ _))))

theorem keeps_rnd_recv (n : Nat) : Keeps (fun st => st.srv.rnd) (recv n) := by
  intro st; unfold recv; split <;> rfl

theorem keeps_rnd_recvItems : Keeps (fun st => st.srv.rnd) recvItems := by
  intro st; unfold recvItems; split <;> rfl

theorem keeps_rnd_recvHeader : Keeps (fun st => st.srv.rnd) recvHeader := by
  intro st; unfold recvHeader; split <;> rfl

/-- Whatever arrives, random numbers are used from the front. -/
theorem draws_step (C : Conv) : Draws (serveStep C) := by
  unfold serveStep
  refine draws_bind (draws_keeps keeps_rnd_recvHeader) fun hdr => draws_bind (draws_keeps fun _ => rfl) fun _ => ?_
  unfold dispatch
  refine draws_ite ?_ (draws_ite ?_ (draws_ite ?_ (draws_keeps ?_)))
  · unfold registerSession
    exact draws_bind (draws_keeps (keeps_rnd_recv _)) fun _ => draws_bind (draws_chooseId _) fun _ =>
      draws_keeps (keeps_bind (fun _ => rfl) fun _ => keeps_send stable_rnd _ _)
  · unfold handleRRData
    refine draws_bind (draws_keeps (keeps_rnd_recv _)) fun _ => draws_bind (draws_keeps (keeps_rnd_recv _)) fun _ =>
      draws_bind (draws_keeps keeps_rnd_recvItems) fun its => ?_
    unfold rrItems
    split
    · refine draws_ite (draws_keeps (keeps_bind (keeps_lift _) fun ⟨svc, _⟩ => keeps_connectedRead stable_rnd _ _ _)) ?_
      exact draws_ite (draws_unconnected _ _) (draws_keeps (keeps_pure _))
    · exact draws_keeps keeps_fail
  · unfold handleUnitData
    exact draws_keeps (keeps_bind (keeps_rnd_recv _) fun _ => keeps_bind (keeps_rnd_recv _) fun _ =>
      keeps_bind keeps_rnd_recvItems fun its => keeps_unitItems stable_rnd C its)
  · refine keeps_ite (keeps_send stable_rnd _ _) (keeps_ite ?_ (keeps_pure _))
    unfold sendListIdentity
    exact keeps_bind (keeps_look _) fun _ => keeps_send stable_rnd _ _

theorem draws_all (C : Conv) (srv : Srv) (evs : List (Handler × Bytes)) :
    ∃ k, ∀ n, (serveAll C srv evs).rnd n = srv.rnd (n + k) := by
  induction evs generalizing srv with
  | nil => exact ⟨0, fun _ => rfl⟩
  | cons e es ih =>
    obtain ⟨k, hk⟩ := draws_step C { h := e.1, srv, inp := e.2, sent := [] }
    obtain ⟨j, hj⟩ := ih (serveStep C { h := e.1, srv, inp := e.2, sent := [] }).2.srv
    refine ⟨j + k, fun n => ?_⟩
    show (serveAll C _ es).rnd n = _
    rw [hj, hk, Nat.add_assoc]

theorem serveAll_append (C : Conv) (srv : Srv) (as bs : List (Handler × Bytes)) :
    serveAll C srv (as ++ bs) = serveAll C (serveAll C srv as) bs := by
  induction as generalizing srv with
  | nil => rfl
  | cons e es ih => exact ih _

/-- The server's choice `v`: the number of the session or one of the two identifiers of the connection that the
request `e`, served after `pre`, leaves to the server. -/
def Chosen (C : Conv) (srv : Srv) (pre : List (Handler × Bytes)) (e : Handler × Bytes) (v : BitVec 32) : Prop :=
  let after := (serveStep C { h := e.1, srv := serveAll C srv pre, inp := e.2, sent := [] }).2
  (WantsSession e.2 ∧ v = after.h.handle) ∨
    ∃ (o : OpenReq) (c : Conn), o.wf ∧ Unconnected e.2 o.bytes ∧
      after.srv.conns = (serveAll C srv pre).conns.add c ∧
      ((o.ot = 0#32 ∧ v = c.ot) ∨ (o.to = 0#32 ∧ v = c.to))

theorem add_inj {t : ConnTable} {c d : Conn} (h : t.add c = t.add d) : c = d := by
  have := congrArg ConnTable.conns h
  simpa [ConnTable.add] using this

/-- A choice is one of the random numbers the request has used. -/
theorem chosen_drawn (C : Conv) (srv : Srv) (pre : List (Handler × Bytes)) (e : Handler × Bytes) (v : BitVec 32)
    (h : Chosen C srv pre e v) :
    ∃ i k, i < k ∧ v = (serveAll C srv pre).rnd i ∧
      ∀ n, (serveAll C srv (pre ++ [e])).rnd n = (serveAll C srv pre).rnd (n + k) := by
  rw [serveAll_snoc]
  rcases h with ⟨hw, rfl⟩ | ⟨o, c, ho, hi, hc, hv⟩
  · obtain ⟨h1, h2⟩ := C96_session C { h := e.1, srv := serveAll C srv pre, inp := e.2, sent := [] } hw
    exact ⟨0, 1, by omega, h1, h2⟩
  · obtain ⟨c', h1, -, h2, -, h3, -, h4⟩ :=
      C96_next C { h := e.1, srv := serveAll C srv pre, inp := e.2, sent := [] } o ho hi
    have hcc : c = c' := add_inj (hc.symm.trans h1)
    subst hcc
    simp only at h2 h3 h4
    rcases hv with ⟨hz, rfl⟩ | ⟨hz, rfl⟩
    · refine ⟨if o.to = 0#32 then 1 else 0, (if o.to = 0#32 then 1 else 0) + 1, by omega, h3 hz, fun n => ?_⟩
      rw [h4 n, if_pos hz, Nat.add_assoc]
    · refine ⟨0, 1 + (if o.ot = 0#32 then 1 else 0), by omega, h2 hz, fun n => ?_⟩
      rw [h4 n, if_pos hz, Nat.add_assoc]

/-- C96, histories: if the random source does not repeat itself, the server never chooses the same number twice,
for whichever sessions and connections, and whatever else it is asked in between. -/
theorem C96_distinct_partial (C : Conv) (srv : Srv) (hr : Function.Injective srv.rnd)
    (pre mid : List (Handler × Bytes)) (e1 e2 : Handler × Bytes) (v1 v2 : BitVec 32)
    (h1 : Chosen C srv pre e1 v1) (h2 : Chosen C srv (pre ++ e1 :: mid) e2 v2) : v1 ≠ v2 := by
  obtain ⟨i, k, hik, rfl, hk⟩ := chosen_drawn C srv pre e1 v1 h1
  obtain ⟨j, -, -, rfl, -⟩ := chosen_drawn C srv _ e2 v2 h2
  obtain ⟨a, ha⟩ := draws_all C srv pre
  obtain ⟨b, hb⟩ := draws_all C (serveAll C srv (pre ++ [e1])) mid
  have he : serveAll C srv (pre ++ e1 :: mid) = serveAll C (serveAll C srv (pre ++ [e1])) mid := by
    rw [← serveAll_append]; simp
  rw [he, hb, hk, ha, ha]
  intro h
  have := hr h
  omega

/-- C96, the two identifiers of one connection. -/
theorem C96_pair_partial (C : Conv) (st : St) (hr : Function.Injective st.srv.rnd) (o : OpenReq) (ho : o.wf)
    (hi : Unconnected st.inp o.bytes) (h1 : o.ot = 0#32) (h2 : o.to = 0#32) :
    ∃ c, (serveStep C st).2.srv.conns = st.srv.conns.add c ∧ c.ot ≠ c.to := by
  obtain ⟨c, hc, -, ht, -, hot, -⟩ := C96_next C st o ho hi
  refine ⟨c, hc, ?_⟩
  rw [ht h2, hot h1, if_pos h2]
  intro h
  exact absurd (hr h) (by decide)

/-- C96 is false when a client chooses: the server takes the identifier of another open connection without
complaint. -/
theorem C96_taken_accepted (C : Conv) (st : St) (o : OpenReq) (ho : o.wf) (hi : Unconnected st.inp o.bytes)
    (c0 : Conn) (h0 : st.srv.conns.getByOT o.ot = .ok c0) (hz : o.ot ≠ 0#32) :
    ∃ c, (serveStep C st).2.srv.conns = st.srv.conns.add c ∧ c.ot = o.ot ∧
      (∃ f, newFrames st (serveStep C st).2 = [f] ∧ rrData f = o.reply o.ot c.to) ∧
      (serveStep C st).2.srv.conns.getByOT o.ot = .ok c0 := by
  obtain ⟨c, ha, -, hc, f, hf, hd⟩ := C39_open C st o ho hi
  obtain ⟨c', h1, -, -, -, -, h2, -⟩ := C96_next C st o ho hi
  have : c = c' := add_inj (hc.symm.trans h1)
  subst this
  refine ⟨c, hc, h2 hz, ⟨f, hf, by rw [hd, h2 hz]⟩, ?_⟩
  rw [hc]
  unfold ConnTable.getByOT ConnTable.getBy at h0 ⊢
  simp only [ConnTable.add, List.find?_append]
  cases hfi : st.srv.conns.conns.find? (·.ot == o.ot) with
  | none => rw [hfi] at h0; simp at h0
  | some d => rw [hfi] at h0; simpa using h0

/-! ### Concrete requests -/

/-- A request that leaves both identifiers to the server. -/
def freeDemo (serial : BitVec 16) : OpenReq := ⟨false, [2, 0x20, 6, 0x24, 1, 7, 0xE9], 0#32, 0#32, serial, 0x1234#16,
  0x01020304#32, [3, 0, 0, 0], 0x1000#32, [0xF4, 0x43], 0x2000#32, [0xF4, 0x43], 0xA3#8, 1#8, [1, 0], []⟩

/-- A request that asks for the identifier of the demo connection, along another path. -/
def takenDemo : OpenReq := { freeDemo 8#16 with ot := 0x11#32, path := [1, 5] }

theorem freeDemo_chosen (srv : Srv) (pre : List (Handler × Bytes)) (h : Handler) (serial : BitVec 16) :
    ∃ v, Chosen demoConv srv pre (h, (demoRR (freeDemo serial).bytes).bytes) v := by
  have hw : (freeDemo serial).wf := by refine ⟨⟨rfl, rfl, rfl, rfl⟩, rfl, ?_, ?_⟩ <;> simp [freeDemo]
  have hi := demo_unconnected (freeDemo serial).bytes (by simp [OpenReq.bytes, freeDemo, le_length])
  obtain ⟨c, hc, -⟩ := C96_next demoConv { h, srv := serveAll demoConv srv pre, inp := _, sent := [] } _ hw hi
  exact ⟨c.ot, .inr ⟨_, c, hw, hi, hc, .inl ⟨rfl, rfl⟩⟩⟩

/-- A session and two connections get five different numbers. -/
example :
    let evs := [((demoSt []).h, [0x65#8, 0#8, 4#8, 0#8] ++ List.replicate 20 0#8 ++ [1#8, 0#8, 0#8, 0#8]),
      ((demoSt []).h, (demoRR (freeDemo 8#16).bytes).bytes), ((demoSt []).h, (demoRR (freeDemo 9#16).bytes).bytes)]
    (serveAll demoConv demoSrv evs).conns.conns.map (fun c => (c.ot, c.to)) =
      [(0x11#32, 0x22#32), (0x1002#32, 0x1001#32), (0x1004#32, 0x1003#32)] := by
  decide +kernel

/-- What is sent on the second connection goes to the endpoint of the first. -/
example : takenDemo.wf ∧ ∃ c0, demoSrv.conns.getByOT 0x11#32 = .ok c0 ∧ c0.path = [1, 0] ∧
    (serveStep demoConv (demoSt (demoRR takenDemo.bytes).bytes)).2.srv.conns.getByOT 0x11#32 = .ok c0 := by
  refine ⟨by decide, _, rfl, rfl, ?_⟩
  obtain ⟨c, -, -, -, h⟩ := C96_taken_accepted demoConv (demoSt (demoRR takenDemo.bytes).bytes) takenDemo (by decide)
    (demo_unconnected _ (by decide)) _ rfl (by decide)
  exact h

end Gologix.Server
