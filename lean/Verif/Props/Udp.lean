import Verif.Spec.ServerIoRun
import Verif.Props.ReplyCrash
import Verif.Props.ServerIo
/-
C100 No datagram stops the server, and each reaches only the endpoint it is addressed to
-/
set_option linter.unusedSimpArgs false
namespace Gologix.ServerIo
open Gologix.Server
open Spec (Addressed)

theorem read8_ok {i0 i0' : Item} {b : Bytes} (hp : i0.pos = 0) (h : i0.read 8 = (.ok b, i0')) :
    ∃ a rest, i0.data = a ++ rest ∧ b = a ∧ a.length = 8 := by
  unfold Item.read at h
  rw [hp, List.drop_zero] at h
  cases hr : readN 8 i0.data with
  | err e => rw [hr] at h; cases h
  | panic => rw [hr] at h; cases h
  | ok x =>
    obtain ⟨x, r⟩ := x
    rw [hr] at h
    simp only [Prod.mk.injEq, Res.ok.injEq] at h
    obtain ⟨h2, h1⟩ := readN_ok hr
    exact ⟨x, r, h1, h.1.symm, h2⟩

/-- C100: a datagram reaches an endpoint exactly if it is addressed to it, with the data of its second item. -/
theorem C100_delivered (conns : ConnTable) (router : Router Nat) (dg : Bytes) (e : Nat) :
    (∀ items, udpTarget conns router dg = .ok (e, items) →
      ∃ i0 id data, Addressed conns router dg e id data ∧ items = [i0, ⟨id, BitVec.ofNat 16 data.length, data, 0⟩]) ∧
    ∀ id data, Addressed conns router dg e id data →
      ∃ i0, udpTarget conns router dg = .ok (e, [i0, ⟨id, BitVec.ofNat 16 data.length, data, 0⟩]) := by
  refine ⟨?_, ?_⟩
  · intro items h
    unfold udpTarget at h
    by_cases hl : dg.length = 0 ∨ 4096 ≤ dg.length
    · rw [if_pos hl] at h; cases h
    rw [if_neg hl] at h
    obtain ⟨⟨its, tail⟩, h1, h2⟩ := Res.bind_eq_ok.mp h
    obtain ⟨hcpf, hlen⟩ := readItems_inv h1
    have hpos : ∀ it ∈ its, it.pos = 0 ∧ it.length.toNat = it.data.length := by
      unfold readItems at h1
      obtain ⟨⟨n, src⟩, -, h3⟩ := Res.bind_eq_ok.mp h1
      exact (readItemsN_ok h3).2.1
    simp only at h2
    match its, h2, hcpf, hlen, hpos with
    | [i0, i1], h2, hcpf, hlen, hpos =>
      simp only at h2
      by_cases hid : i0.id ≠ 0x8002#16
      · rw [if_pos hid] at h2; cases h2
      rw [if_neg hid] at h2
      have hid : i0.id = 0x8002#16 := Classical.byContradiction hid
      cases hr : i0.read 8 with
      | mk r i0' =>
        rw [hr] at h2
        simp only at h2
        obtain ⟨b, rfl, h3⟩ := Res.bind_eq_ok.mp h2
        obtain ⟨c, hc, h4⟩ := Res.bind_eq_ok.mp h3
        obtain ⟨e', he, h5⟩ := Res.bind_eq_ok.mp h4
        cases h5
        obtain ⟨a, rest, hd, rfl, ha⟩ := read8_ok (hpos i0 (by simp)).1 hr
        obtain ⟨p1, l1⟩ := hpos i1 (by simp)
        have hn : BitVec.ofNat 16 i1.data.length = i1.length := by rw [← l1]; simp
        have h0l := hlen (i0.id, i0.data) (by simp)
        simp only [hd, List.length_append] at h0l
        have htake : le 4 (BitVec.ofNat 32 (unle (b.take 4))).toNat = b.take 4 := by
          have hu := unle_lt (b.take 4)
          rw [List.length_take, ha] at hu
          rw [BitVec.toNat_ofNat, Nat.mod_eq_of_lt (by simpa using hu)]
          have := le_unle (b.take 4)
          rwa [List.length_take, ha] at this
        refine ⟨i0', i1.id, i1.data, ⟨by omega, by omega, hlen (i1.id, i1.data) (by simp),
          BitVec.ofNat 32 (unle (b.take 4)), b.drop 4 ++ rest, tail, c, by simp; omega, by simp; omega, ?_, hc, he⟩, ?_⟩
        · rw [hcpf, htake, ← List.append_assoc, List.take_append_drop, ← hd, ← hid]
          rfl
        · rw [hn, ← p1]
  · rintro id data ⟨h0, h1, hdl, conn, more, tail, c, hm, hm', hb, hc, hr⟩
    unfold udpTarget
    rw [if_neg (by omega), hb]
    rw [readItems_cpf _ _ (by simp) (by
      intro x hx
      simp at hx
      rcases hx with rfl | rfl
      · simp; omega
      · exact hdl)]
    have hsplit : le 4 conn.toNat ++ more = (le 4 conn.toNat ++ more.take 4) ++ more.drop 4 := by
      rw [List.append_assoc, List.take_append_drop]
    have r1 := read_at (it := ⟨0x8002#16, BitVec.ofNat 16 (le 4 conn.toNat ++ more).length,
      le 4 conn.toNat ++ more, 0⟩) (a := []) (b := le 4 conn.toNat ++ more.take 4) (c := more.drop 4) (n := 8)
      (by rw [List.nil_append]; exact hsplit) rfl (by simp; omega)
    have e1 : BitVec.ofNat 32 (unle ((le 4 conn.toNat ++ more.take 4).take 4)) = conn := by
      rw [List.take_left' (by simp), unle_le_of_lt (by have := conn.isLt; omega)]
      simp
    simp only [Res.bind_ok, List.map_cons, List.map_nil, ne_eq, not_true, if_false, r1, Res.bind, e1, hc, hr]
    exact ⟨_, rfl⟩

theorem read_safe (it : Item) (n : Nat) : (it.read n).1.safe := by
  unfold Item.read
  have := readN_safe n (it.data.drop it.pos)
  cases h : readN n (it.data.drop it.pos) with
  | panic => rw [h] at this; exact absurd this (by simp)
  | ok x => trivial
  | err e => trivial

theorem ioPayload_safe (items : List Item) : (ioPayload items).safe := by
  unfold ioPayload
  split
  · rename_i it
    split
    · trivial
    · simp only
      refine Res.safe_bind (read_safe _ _) fun _ _ => ?_
      refine Res.safe_bind (read_safe _ _) fun _ _ => ?_
      exact read_safe _ _
  · trivial

/-- C100, crashes: no datagram crashes the server, no item list a provider. -/
theorem C100_safe (conns : ConnTable) (router : Router Nat) (dg : Bytes) :
    (udpTarget conns router dg).safe ∧
    ∀ (tin tout : Ty) (items : List Item), (∀ p : Provider tin tout, (p.ioWrite items).2.safe) ∧
      ∀ ready, (chanWrite tout ready items).safe := by
  refine ⟨?_, ?_⟩
  · unfold udpTarget
    split
    · trivial
    refine Res.safe_bind (readItems_safe _) fun x _ => ?_
    obtain ⟨items, tail⟩ := x
    simp only
    split
    · rename_i i0 i1
      split
      · trivial
      refine Res.safe_bind (read_safe _ _) fun b _ => ?_
      refine Res.safe_bind ?_ fun c _ => Res.safe_bind ?_ fun e _ => trivial
      · unfold ConnTable.getByOT ConnTable.getBy
        split <;> trivial
      · unfold Router.resolve
        split <;> trivial
    · trivial
  · intro tin tout items
    have hp := ioPayload_safe items
    refine ⟨?_, ?_⟩
    · intro p
      unfold Provider.ioWrite
      cases h : ioPayload items with
      | panic => rw [h] at hp; exact absurd hp (by simp)
      | err e => trivial
      | ok b => exact Res.safe_bind (unpackInto_safe tout p.out _) fun _ _ => trivial
    · intro ready
      unfold chanWrite
      refine Res.safe_bind hp fun b _ => ?_
      unfold unpack
      refine Res.safe_bind (Res.safe_bind (unpackFields_safe tout _) fun _ _ => trivial) fun _ _ => trivial

/-- C100, dropped: a datagram that is addressed to no endpoint is dropped. -/
theorem C100_dropped (conns : ConnTable) (router : Router Nat) (dg : Bytes) :
    (∃ x, udpTarget conns router dg = .err x) ↔ ∀ e id data, ¬ Addressed conns router dg e id data := by
  refine ⟨?_, ?_⟩
  · rintro ⟨x, hx⟩ e id data h
    obtain ⟨i0, h⟩ := (C100_delivered conns router dg e).2 id data h
    rw [hx] at h; cases h
  · intro h
    cases ht : udpTarget conns router dg with
    | err x => exact ⟨x, rfl⟩
    | panic => have := (C100_safe conns router dg).1; rw [ht] at this; exact absurd this (by simp)
    | ok x =>
      obtain ⟨e, items⟩ := x
      obtain ⟨i0, id, data, ha, -⟩ := (C100_delivered conns router dg e).1 items ht
      exact absurd ha (h e id data)

/-- A datagram has at most one addressee. -/
theorem addressed_unique {conns : ConnTable} {router : Router Nat} {dg data data' : Bytes} {e e' : Nat} {id id' : BitVec 16}
    (h : Addressed conns router dg e id data) (h' : Addressed conns router dg e' id' data') : e = e' := by
  obtain ⟨i0, h⟩ := (C100_delivered conns router dg e).2 id data h
  obtain ⟨i0', h'⟩ := (C100_delivered conns router dg e').2 id' data' h'
  rw [h] at h'
  simp only [Res.ok.injEq, Prod.mk.injEq] at h'
  exact h'.1

/-- An output message of the demonstration is addressed to endpoint 5; the same message for another connection is
dropped. -/
example : (∃ id data, Addressed demoConns demoRouter (Spec.ioOutput 0x11223344#32 1#32 1#16 1#32 [7#8]) 5 id data) ∧
    ∃ x, udpTarget demoConns demoRouter (Spec.ioOutput 0x55#32 1#32 1#16 1#32 [7#8]) = .err x := by
  refine ⟨?_, ⟨.fail, by decide +kernel⟩⟩
  obtain ⟨items, h, -⟩ := C52_output_reaches demoConns demoRouter 0x11223344#32 1#32 1#32 1#16 [7#8]
    ⟨0, 1#16, 0x11223344#32, 9#32, 0#32, [1#8, 0#8]⟩ 5 (by decide) (by decide +kernel) (by decide +kernel)
  obtain ⟨i0, id, data, ha, -⟩ := (C100_delivered _ _ _ _).1 items h
  exact ⟨id, data, ha⟩

end Gologix.ServerIo
