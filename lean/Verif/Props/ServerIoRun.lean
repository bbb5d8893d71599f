import Verif.Spec.ServerIoRun
import Verif.Props.Udp
/-
C98: the outputs are those of the newest message.  C99: every receiver gets the output messages.
-/
set_option linter.unusedSimpArgs false
namespace Gologix.ServerIo
open Gologix.Server
open Gologix.Spec (OutputFor NotFor Carries Gets)

theorem udpServe_for {tin tout : Nat → Ty} {router : Router Nat} {conns : ConnTable} {dg : Bytes} {e : Nat}
    {seq hdr : BitVec 32} {output : Bytes} (h : OutputFor router conns dg e seq hdr output)
    (provs : (e : Nat) → Provider (tin e) (tout e)) :
    ∃ items, ioPayload items = .ok output ∧
      udpServe conns router provs dg = fun i => if i = e then ((provs i).ioWrite items).1 else provs i := by
  obtain ⟨conn, count, c, rfl, hl, hc, hr⟩ := h
  obtain ⟨items, h1, h2⟩ := C52_output_reaches conns router conn seq hdr count output c e hl hc hr
  refine ⟨items, h2, ?_⟩
  unfold udpServe
  rw [h1]

/-- A datagram that is not for an endpoint leaves it alone. -/
theorem udpServe_notFor {tin tout : Nat → Ty} {router : Router Nat} {conns : ConnTable} {dg : Bytes} {e : Nat}
    (h : NotFor router conns dg e) (provs : (e : Nat) → Provider (tin e) (tout e)) :
    udpServe conns router provs dg e = provs e := by
  unfold udpServe
  cases ht : udpTarget conns router dg with
  | err x => rfl
  | panic => rfl
  | ok q =>
    obtain ⟨e', items⟩ := q
    obtain ⟨i0, id, data, ha, -⟩ := (C100_delivered conns router dg e').1 items ht
    simp only
    by_cases he : e = e'
    · subst he; exact absurd ha (h id data)
    · rw [if_neg he]

/-- C98, the last message counts: after any datagrams, the outputs of an endpoint are those of the last message for it, and
its inputs are untouched, whatever comes for others afterwards. -/
theorem C98_last {tin tout : Nat → Ty} (router : Router Nat) (provs : (e : Nat) → Provider (tin e) (tout e)) (e : Nat)
    (hs : (tout e).isStruct = true) (hw : (tout e).wf = true) (pre post : List (ConnTable × Bytes)) (conns : ConnTable)
    (dg : Bytes) (seq hdr : BitVec 32) (v : (tout e).Val) (rest : Bytes)
    (h : OutputFor router conns dg e seq hdr ((pack (tout e) v).1 ++ rest))
    (hp : ∀ d ∈ post, NotFor router d.1 d.2 e) :
    (udpRun router provs (pre ++ (conns, dg) :: post) e).out = v := by
  unfold udpRun
  rw [List.foldl_append, List.foldl_cons]
  generalize List.foldl (fun p d => udpServe d.1 router p d.2) provs pre = p1
  obtain ⟨items, h1, h2⟩ := udpServe_for h p1
  have h3 : (udpServe conns router p1 dg e).out = v := by
    rw [h2]
    simp only [if_true]
    rw [C52_output_unpacked hs hw (p1 e) items v rest h1]
  generalize udpServe conns router p1 dg = p2 at h3
  induction post generalizing p2 with
  | nil => exact h3
  | cons d post ih =>
    rw [List.foldl_cons]
    apply ih (fun d hd => hp d (by simp [hd]))
    rw [udpServe_notFor (hp d (by simp))]
    exact h3

/-- C98, inputs: no datagram changes what is sent. -/
theorem C98_inputs {tin tout : Nat → Ty} (router : Router Nat) (provs : (e : Nat) → Provider (tin e) (tout e)) (e : Nat)
    (dgs : List (ConnTable × Bytes)) : (udpRun router provs dgs e).inp = (provs e).inp := by
  have step : ∀ (conns : ConnTable) (dg : Bytes) (p : (e : Nat) → Provider (tin e) (tout e)),
      (udpServe conns router p dg e).inp = (p e).inp := by
    intro conns dg p
    unfold udpServe
    cases ht : udpTarget conns router dg with
    | err x => rfl
    | panic => rfl
    | ok q =>
      obtain ⟨e', items⟩ := q
      simp only
      by_cases he : e = e'
      · rw [if_pos he]
        unfold Provider.ioWrite
        cases ioPayload items <;> rfl
      · rw [if_neg he]
  unfold udpRun
  induction dgs generalizing provs with
  | nil => rfl
  | cons d dgs ih => rw [List.foldl_cons, ih, step]

/-- C98, an endpoint that gets no message keeps its outputs. -/
theorem C98_untouched {tin tout : Nat → Ty} (router : Router Nat) (provs : (e : Nat) → Provider (tin e) (tout e)) (e : Nat)
    (dgs : List (ConnTable × Bytes)) (h : ∀ d ∈ dgs, NotFor router d.1 d.2 e) : udpRun router provs dgs e = provs e := by
  unfold udpRun
  induction dgs generalizing provs with
  | nil => rfl
  | cons d dgs ih =>
    rw [List.foldl_cons, ih _ (fun d hd => h d (by simp [hd])), udpServe_notFor (h d (by simp))]

/-- C98 for messages that arrive in the order of their numbers: the outputs are those of the message with the greatest
number. -/
theorem C98_newest_partial {tin tout : Nat → Ty} (router : Router Nat) (provs : (e : Nat) → Provider (tin e) (tout e)) (e : Nat)
    (hs : (tout e).isStruct = true) (hw : (tout e).wf = true)
    (msgs : List (ConnTable × Bytes × BitVec 32 × BitVec 32 × (tout e).Val × Bytes))
    (hm : ∀ m ∈ msgs, OutputFor router m.1 m.2.1 e m.2.2.1 m.2.2.2.1 ((pack (tout e) m.2.2.2.2.1).1 ++ m.2.2.2.2.2))
    (ho : (msgs.map fun m => m.2.2.1.toNat).Pairwise (· < ·)) (m : _) (hmem : m ∈ msgs)
    (hmax : ∀ m' ∈ msgs, m'.2.2.1.toNat ≤ m.2.2.1.toNat) :
    (udpRun router provs (msgs.map fun m => (m.1, m.2.1)) e).out = m.2.2.2.2.1 := by
  obtain ⟨pre, post, rfl⟩ := List.append_of_mem hmem
  have hpost : post = [] := by
    cases post with
    | nil => rfl
    | cons x post =>
      exfalso
      rw [List.map_append, List.map_cons, List.map_cons, List.pairwise_append] at ho
      have h1 := List.rel_of_pairwise_cons ho.2.1 (List.mem_cons_self ..)
      have h2 := hmax x (by simp)
      omega
  subst hpost
  rw [List.map_append, List.map_cons, List.map_nil]
  exact C98_last router provs e hs hw _ [] m.1 m.2.1 m.2.2.1 m.2.2.2.1 m.2.2.2.2.1 m.2.2.2.2.2 (hm m (by simp)) (by simp)

/-- C98 is false when a datagram is overtaken, or sent again, by whomever: the older message replaces the newer one. -/
theorem C98_older_replaces {tin tout : Nat → Ty} (router : Router Nat) (provs : (e : Nat) → Provider (tin e) (tout e)) (e : Nat)
    (hs : (tout e).isStruct = true) (hw : (tout e).wf = true) (conns : ConnTable) (dg dg' : Bytes) (seq seq' hdr hdr' : BitVec 32)
    (v v' : (tout e).Val) (hv : v ≠ v') (_hnew : seq'.toNat < seq.toNat)
    (_h : OutputFor router conns dg e seq hdr (pack (tout e) v).1)
    (h' : OutputFor router conns dg' e seq' hdr' (pack (tout e) v').1) :
    (udpRun router provs [(conns, dg), (conns, dg')] e).out = v' ∧
    (udpRun router provs [(conns, dg), (conns, dg')] e).out ≠ v := by
  have := C98_last router provs e hs hw [(conns, dg)] [] conns dg' seq' hdr' v' [] (by simpa using h') (by simp)
  simp only [List.cons_append, List.nil_append] at this
  rw [this]
  exact ⟨rfl, Ne.symm hv⟩

/-- The outputs of a controller that is not in run (bit 0 of the header) are taken like all others. -/
theorem C98_idle_taken {tin tout : Nat → Ty} (router : Router Nat) (provs : (e : Nat) → Provider (tin e) (tout e)) (e : Nat)
    (hs : (tout e).isStruct = true) (hw : (tout e).wf = true) (conns : ConnTable) (dg : Bytes) (seq hdr : BitVec 32)
    (_hidle : hdr.toNat % 2 = 0) (v : (tout e).Val) (h : OutputFor router conns dg e seq hdr (pack (tout e) v).1) :
    (udpRun router provs [(conns, dg)] e).out = v :=
  C98_last router provs e hs hw [] [] conns dg seq hdr v [] (by simpa using h) (by simp)

/-! ### Channels -/

theorem payload_carries {t : Ty} {items : List Item} {v : t.Val} (h : Carries t items v) :
    ∃ rest, ioPayload items = .ok ((pack t v).1 ++ rest) := by
  obtain ⟨i0, hdr, rest, hh, hl, rfl⟩ := h
  exact ⟨rest, payload_of i0 hdr _ hh hl⟩

theorem findIdx_ready (ready : Nat → Bool) (n i : Nat) (hi : i < n) :
    i < ((List.range n).map ready).findIdx (· == false) ↔ ∀ j ≤ i, ready j = true := by
  constructor
  · intro h j hj
    have := List.not_of_lt_findIdx (p := (· == false)) (xs := (List.range n).map ready) (i := j) (by omega)
    simpa using this
  · intro h
    apply Classical.byContradiction; intro hk
    have hlt : ((List.range n).map ready).findIdx (· == false) < ((List.range n).map ready).length := by
      simp only [List.length_map, List.length_range]
      omega
    have := List.findIdx_getElem (w := hlt)
    simp only [List.getElem_map, List.getElem_range, beq_iff_eq] at this
    have h2 := h _ (Nat.le_of_not_lt hk)
    rw [h2] at this
    cases this

/-- What a message does to the channels. -/
theorem chan_message {tin tout : Ty} (hs : tout.isStruct = true) (hw : tout.wf = true) (p : ChanProv tin tout)
    (ready : Nat → Bool) (items : List Item) (v : tout.Val) (h : Carries tout items v) :
    (p.ioWrite ready items).chans.length = p.chans.length ∧
    ∀ i, ((p.ioWrite ready items).chans[i]?).getD [] =
      (p.chans[i]?).getD [] ++ if i < p.chans.length ∧ ∀ j ≤ i, ready j = true then [v] else [] := by
  obtain ⟨rest, hp⟩ := payload_carries h
  have h2 := C16_roundtrip tout hs hw v rest
  unfold ChanProv.ioWrite chanWrite
  rw [hp, Res.bind_ok, h2, Res.bind_ok]
  simp only [List.length_zipWith, List.length_map, List.length_range, Nat.min_self, true_and]
  intro i
  by_cases hi : i < p.chans.length
  · rw [List.getElem?_eq_getElem (by simpa using hi), List.getElem?_eq_getElem hi]
    simp only [List.getElem_zipWith, List.getElem_map, List.getElem_range, Option.getD_some]
    congr 1
    simp only [findIdx_ready ready _ i hi, hi, true_and]
    split <;> rfl
  · rw [List.getElem?_eq_none (by simpa using Nat.le_of_not_lt hi), List.getElem?_eq_none (Nat.le_of_not_lt hi),
      if_neg (fun x => hi x.1)]
    rfl

/-- C99: what is received from a channel is, in order, exactly the messages at which somebody waited at it and at every
channel opened before it. -/
theorem C99_received_partial {tin tout : Ty} (hs : tout.isStruct = true) (hw : tout.wf = true) (p : ChanProv tin tout)
    (i : Nat) (evs : List (ChanEv tin)) (vs : List tout.Val) (h : Gets tout i p.chans.length evs vs) :
    ((p.run evs).chans[i]?).getD [] = (p.chans[i]?).getD [] ++ vs := by
  unfold ChanProv.run
  induction evs generalizing p vs with
  | nil => cases h; simp
  | cons e evs ih =>
    rw [List.foldl_cons]
    cases h with
    | set h => exact ih (p.setInput _) vs h
    | chan h =>
      have hl : (p.open).chans.length = p.chans.length + 1 := by simp [ChanProv.open]
      have := ih p.open vs (hl ▸ h)
      show (List.foldl ChanProv.step p.open evs).chans[i]?.getD [] = _
      rw [this]
      congr 1
      simp only [ChanProv.open]
      by_cases hi : i < p.chans.length
      · rw [List.getElem?_append_left hi]
      · rw [List.getElem?_append_right (Nat.le_of_not_lt hi), List.getElem?_eq_none (Nat.le_of_not_lt hi)]
        cases hk : i - p.chans.length <;> simp
    | got hc hi hr h =>
      rename_i ready items v vs
      obtain ⟨h1, h2⟩ := chan_message hs hw p ready items v hc
      have := ih (p.ioWrite ready items) vs (h1.symm ▸ h)
      show (List.foldl ChanProv.step (p.ioWrite ready items) evs).chans[i]?.getD [] = _
      rw [this, h2 i, if_pos ⟨hi, hr⟩]
      simp
    | missed hc hn h =>
      rename_i ready items v
      obtain ⟨h1, h2⟩ := chan_message hs hw p ready items v hc
      have := ih (p.ioWrite ready items) vs (h1.symm ▸ h)
      show (List.foldl ChanProv.step (p.ioWrite ready items) evs).chans[i]?.getD [] = _
      rw [this, h2 i, if_neg hn]
      simp

/-- C99, a message that cannot be read goes to nobody. -/
theorem C99_unreadable {tin tout : Ty} (p : ChanProv tin tout) (ready : Nat → Bool) (items : List Item)
    (h : ∀ b v n rest, ioPayload items = .ok b → unpack tout b ≠ .ok (v, n, rest)) : p.ioWrite ready items = p := by
  unfold ChanProv.ioWrite chanWrite
  cases hp : ioPayload items with
  | err e => rfl
  | panic => rfl
  | ok b =>
    rw [Res.bind_ok]
    cases hu : unpack tout b with
    | err e => rfl
    | panic => rfl
    | ok q =>
      obtain ⟨v, n, rest⟩ := q
      exact absurd hu (h b v n rest hp)

/-- C99, inputs: what is sent is the image of the value set last. -/
theorem C99_input {tin tout : Ty} (p : ChanProv tin tout) (pre post : List (ChanEv tin)) (v : tin.Val)
    (h : ∀ w, .set w ∉ post) : (p.run (pre ++ .set v :: post)).ioRead = (pack tin v).1 := by
  unfold ChanProv.run
  rw [List.foldl_append, List.foldl_cons]
  have h0 : ((List.foldl ChanProv.step p pre).step (.set v)).inp = v := rfl
  generalize (List.foldl ChanProv.step p pre).step (.set v) = q at h0
  have : (List.foldl ChanProv.step q post).inp = v := by
    induction post generalizing q with
    | nil => exact h0
    | cons e post ih =>
      rw [List.foldl_cons]
      apply ih (fun w hw => h w (by simp [hw]))
      cases e with
      | set w => exact absurd (List.mem_cons_self ..) (h w)
      | chan => exact h0
      | recv ready items =>
        show (q.ioWrite ready items).inp = v
        unfold ChanProv.ioWrite
        split <;> exact h0
  unfold ChanProv.ioRead
  rw [this]

/-- C99 is false: as long as nobody waits at the first channel, nothing is received from any channel, whoever waits
there. -/
theorem C99_first_blocks {tin tout : Ty} (p : ChanProv tin tout) (hp : p.chans ≠ []) (evs : List (ChanEv tin))
    (h : ∀ ready items, .recv ready items ∈ evs → ready 0 = false) (i : Nat) :
    ((p.run evs).chans[i]?).getD [] = (p.chans[i]?).getD [] := by
  unfold ChanProv.run
  induction evs generalizing p with
  | nil => rfl
  | cons e evs ih =>
    rw [List.foldl_cons]
    have h' : ∀ ready items, .recv ready items ∈ evs → ready 0 = false := fun r it hm => h r it (by simp [hm])
    cases e with
    | set w => exact ih (p.setInput w) hp h'
    | chan =>
      show (List.foldl ChanProv.step p.open evs).chans[i]?.getD [] = _
      rw [ih p.open (by simp [ChanProv.open]) h']
      simp only [ChanProv.open]
      by_cases hi : i < p.chans.length
      · rw [List.getElem?_append_left hi]
      · rw [List.getElem?_append_right (Nat.le_of_not_lt hi), List.getElem?_eq_none (Nat.le_of_not_lt hi)]
        cases hk : i - p.chans.length <;> simp
    | recv ready items =>
      have hr := h ready items (by simp)
      have hsame : p.ioWrite ready items = p := by
        unfold ChanProv.ioWrite chanWrite
        cases hpl : ioPayload items with
        | err e => rfl
        | panic => rfl
        | ok b =>
          rw [Res.bind_ok]
          cases hu : unpack tout b with
          | err e => rfl
          | panic => rfl
          | ok q =>
            obtain ⟨v, n, rest⟩ := q
            rw [Res.bind_ok]
            obtain ⟨c, cs, hc⟩ := List.exists_cons_of_ne_nil hp
            have hk : ((List.range p.chans.length).map ready).findIdx (· == false) = 0 := by
              rw [hc, List.length_cons, List.range_succ_eq_map, List.map_cons, List.findIdx_cons, hr]
              rfl
            simp only [hk, Nat.not_lt_zero, if_false, List.length_map, List.length_range]
            have : List.zipWith (fun (c : List tout.Val) (g : Option tout.Val) => c ++ g.toList) p.chans
                ((List.range p.chans.length).map fun _ => none) = p.chans := by
              apply List.ext_getElem
              · simp
              · intro j h1 h2
                simp
            rw [this]
      show (List.foldl ChanProv.step (p.ioWrite ready items) evs).chans[i]?.getD [] = _
      rw [hsame]
      exact ih p hp h'

/-! ### Examples -/

/-- Shapes of the demonstration: one byte in, one number out, at every endpoint. -/
abbrev byteTy : Ty := .cons false (.num 1) .nil

theorem pack_byte (x : BitVec 8) : (pack byteTy (x, ())).1 = [x] := by
  revert x
  decide +kernel

theorem demo_for (seq hdr : BitVec 32) (x : BitVec 8) :
    OutputFor demoRouter demoConns (Spec.ioOutput 0x11223344#32 seq 3#16 hdr (pack byteTy (x, ())).1) 5 seq hdr
      (pack byteTy (x, ())).1 :=
  ⟨_, _, ⟨0, 1#16, 0x11223344#32, 9#32, 0#32, [1#8, 0#8]⟩, rfl, by rw [pack_byte]; simp,
    by decide +kernel, by decide +kernel⟩

/-- Two messages, and a third one that belongs to no connection: the outputs are those of the second, whatever its
number. -/
example (p : (e : Nat) → Provider byteTy byteTy) (seq seq' : BitVec 32) :
    (udpRun (tin := fun _ => byteTy) (tout := fun _ => byteTy) demoRouter p
      [(demoConns, Spec.ioOutput 0x11223344#32 seq 3#16 1#32 (pack byteTy (7#8, ())).1),
       (demoConns, Spec.ioOutput 0x11223344#32 seq' 3#16 1#32 (pack byteTy (8#8, ())).1),
       (demoConns, Spec.ioOutput 0x55#32 9#32 3#16 1#32 [1#8])] 5).out = (8#8, ()) :=
  C98_last (tin := fun _ => byteTy) (tout := fun _ => byteTy) demoRouter p 5 rfl rfl
    [(demoConns, Spec.ioOutput 0x11223344#32 seq 3#16 1#32 (pack byteTy (7#8, ())).1)]
    [(demoConns, Spec.ioOutput 0x55#32 9#32 3#16 1#32 [1#8])] demoConns _ seq' 1#32 (8#8, ()) []
    (by simpa using demo_for seq' 1#32 8#8)
    (by
      intro d hd
      rw [List.mem_singleton.mp hd]
      exact fun id data => (C100_dropped _ _ _).mp ⟨.fail, by decide +kernel⟩ 5 id data)

/-- A message of the value `x`. -/
def demoItems (x : BitVec 8) : List Item :=
  [Item.new 0x8002#16, ⟨0xB1#16, 7#16, [3#8, 0#8, 1#8, 0#8, 0#8, 0#8, x], 0⟩]

theorem demo_carries (x : BitVec 8) : Carries byteTy (demoItems x) (x, ()) :=
  ⟨Item.new 0x8002#16, [3#8, 0#8, 1#8, 0#8, 0#8, 0#8], [], rfl, by rw [pack_byte]; simp, by
    rw [pack_byte]; rfl⟩

/-- Two channels, at the second of which somebody always waits: it gets the messages at which somebody waits at the first
one, too. -/
example (p : ChanProv byteTy byteTy) (h : p.chans = []) :
    ((p.run [.chan, .recv (fun _ => true) (demoItems 1#8), .chan, .recv (fun _ => true) (demoItems 2#8),
      .recv (fun i => i != 0) (demoItems 3#8), .recv (fun _ => true) (demoItems 4#8)]).chans[1]?).getD [] =
      [(2#8, ()), (4#8, ())] := by
  have hg : Gets (tin := byteTy) byteTy 1 0 [.chan, .recv (fun _ => true) (demoItems 1#8), .chan,
      .recv (fun _ => true) (demoItems 2#8), .recv (fun i => i != 0) (demoItems 3#8),
      .recv (fun _ => true) (demoItems 4#8)] [(2#8, ()), (4#8, ())] :=
    .chan (.missed (demo_carries 1#8) (by simp) (.chan (.got (demo_carries 2#8) (by simp) (by simp)
      (.missed (demo_carries 3#8) (fun x => by have := x.2 0 (by simp); simp at this)
        (.got (demo_carries 4#8) (by simp) (by simp) .nil)))))
  have := C99_received_partial (tin := byteTy) (tout := byteTy) rfl rfl p 1 _ _ (by rw [h]; exact hg)
  exact this.trans (by rw [h]; rfl)

end Gologix.ServerIo
