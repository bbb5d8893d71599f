import Verif.Props.PackLayout
set_option linter.unusedSimpArgs false
namespace Gologix
open Spec

/-! ### Where `Unpack` takes the values from -/

/-- The reader of `full` is at bit `c`. -/
structure ReadAt (full : Bytes) (st : UnpackSt) (c : Nat) : Prop where
  src  : st.src = full.drop st.n
  bit  : st.bitpos < 8
  cur  : c + (if st.bitpos = 0 then 0 else 8 - st.bitpos) = 8 * st.n
  part : st.bitpos ≠ 0 → st.bitpack = full.getD (st.n - 1) 0#8 ∧ st.n ≤ full.length

theorem found_append {src : Bytes} {a b : List Leaf} : Found src (a ++ b) ↔ Found src a ∧ Found src b := by
  constructor
  · intro h
    exact ⟨fun l hl => h l (List.mem_append_left _ hl), fun l hl => h l (List.mem_append_right _ hl)⟩
  · rintro ⟨h1, h2⟩ l hl
    rcases List.mem_append.mp hl with hl | hl
    · exact h1 l hl
    · exact h2 l hl

theorem readAt_bit {full : Bytes} {st st' : UnpackSt} {c : Nat} {b : Bool} (h : ReadAt full st c) (hb : st.bit = .ok (b, st')) :
    ReadAt full st' (c + 1) ∧ c < 8 * full.length ∧ b = bitAt full c := by
  obtain ⟨src, n, p, q⟩ := st
  obtain ⟨h1, h2, h3, h4⟩ := h
  simp only at h1 h2 h3 h4
  by_cases hp : p = 0
  · subst hp
    cases src with
    | nil => simp [UnpackSt.bit] at hb
    | cons x xs =>
      rw [unbit_fresh] at hb
      simp only [Res.ok.injEq, Prod.mk.injEq] at hb
      obtain ⟨rfl, rfl⟩ := hb
      simp only [if_true, Nat.add_zero] at h3
      have hn : n < full.length := by
        apply Classical.byContradiction
        intro hn
        rw [List.drop_of_length_le (by omega)] at h1
        simp at h1
      have hx : full[n]? = some x := by
        have := congrArg List.head? h1
        simpa [List.head?_drop] using this.symm
      have hxs : xs = full.drop (n + 1) := by
        have := congrArg List.tail h1
        simpa [List.tail_drop] using this
      refine ⟨⟨hxs, by simp, by simp; omega, fun _ => ⟨?_, by simp; omega⟩⟩, by omega, ?_⟩
      · simp [List.getD_eq_getElem?_getD, hx]
      · unfold bitAt
        rw [show c / 8 = n by omega, show c % 8 = 0 by omega, List.getD_eq_getElem?_getD, hx]
        rfl
  · rw [unbit_open _ _ _ _ (by omega) h2] at hb
    simp only [Res.ok.injEq, Prod.mk.injEq] at hb
    obtain ⟨rfl, rfl⟩ := hb
    simp only [hp, if_false] at h3
    obtain ⟨h5, h6⟩ := h4 hp
    refine ⟨⟨h1, ?_, ?_, fun _ => ⟨h5, h6⟩⟩, by omega, ?_⟩
    · simp only; split <;> omega
    · simp only; split <;> split <;> omega
    · unfold bitAt
      rw [show c / 8 = n - 1 by omega, show c % 8 = p by omega, ← h5]

theorem readAt_bits {full : Bytes} (n : Nat) {st st' : UnpackSt} {c : Nat} {v : Rep n Bool} (h : ReadAt full st c)
    (hb : unpackBits n st = .ok (v, st')) :
    ReadAt full st' (c + n) ∧ Found full (run c ((Rep.toList n v).map fun b => (1, b.toNat))) := by
  induction n generalizing st c with
  | zero =>
    simp only [unpackBits, Res.ok.injEq] at hb
    have e : st = st' := congrArg Prod.snd hb
    rw [← e]
    exact ⟨h, by intro l hl; simp [Rep.toList, run] at hl⟩
  | succ n ih =>
    simp only [unpackBits, Res.bind_eq_ok] at hb
    obtain ⟨⟨b, s1⟩, h1, ⟨bs, s2⟩, h2, h3⟩ := hb
    simp only [Res.ok.injEq, Prod.mk.injEq] at h3
    obtain ⟨rfl, rfl⟩ := h3
    obtain ⟨a1, a2, a3⟩ := readAt_bit h h1
    obtain ⟨a4, a5⟩ := ih a1 h2
    refine ⟨by rw [show c + (n + 1) = c + 1 + n by omega]; exact a4, ?_⟩
    simp only [Rep.toList, List.map_cons, run]
    intro l hl
    rcases List.mem_cons.mp hl with rfl | hl
    · refine ⟨by simp, by simp only; omega, fun j hj => ?_⟩
      have : j = 0 := by simp only at hj; omega
      subst this
      simp only [Nat.add_zero, ← a3]
      cases b <;> rfl
    · exact a5 l hl

theorem readAt_flush {full : Bytes} {st : UnpackSt} {c : Nat} (h : ReadAt full st c) :
    ReadAt full { st with bitpos := 0 } (roundUp c 8) := by
  refine ⟨h.src, by simp, ?_, by simp⟩
  have h2 := h.bit
  have h3 := h.cur
  simp only [if_true, Nat.add_zero]
  unfold roundUp
  split at h3 <;> omega

theorem readAt_pad {full : Bytes} {st st' : UnpackSt} {c : Nat} (h : ReadAt full st c) (h0 : st.bitpos = 0) (a : Nat)
    (ha : 0 < a) (hp : st.pad a = .ok st') : ReadAt full st' (roundUp c (8 * a)) ∧ st'.bitpos = 0 := by
  have h3 := h.cur
  rw [if_pos h0, Nat.add_zero] at h3
  have hm := Nat.mod_lt st.n ha
  have hd := Nat.div_add_mod st.n a
  have key : roundUp c (8 * a) = 8 * roundUp st.n a := by
    unfold roundUp
    have : (c + (8 * a - 1)) / (8 * a) = (st.n + (a - 1)) / a := by
      rw [← Nat.div_div_eq_div_mul]
      congr 1
      omega
    rw [this]
    simp [Nat.mul_comm, Nat.mul_left_comm, Nat.mul_assoc]
  have hru : roundUp st.n a = if st.n % a = 0 then st.n else st.n + (a - st.n % a) := by
    unfold roundUp
    split
    · rename_i hz
      have : (st.n + (a - 1)) / a = st.n / a := by
        rw [Nat.div_eq_iff ha, Nat.mul_comm]
        omega
      rw [this, Nat.mul_comm]; omega
    · rename_i hz
      have : (st.n + (a - 1)) / a = st.n / a + 1 := by
        rw [Nat.div_eq_iff ha, Nat.add_mul, Nat.mul_comm]
        omega
      rw [this, Nat.add_mul, Nat.mul_comm]; omega
  unfold UnpackSt.pad at hp
  simp only at hp
  by_cases hz : st.n % a = 0
  · rw [if_neg (by omega)] at hp
    simp only [Res.ok.injEq] at hp
    subst hp
    rw [key, hru, if_pos hz]
    exact ⟨⟨h.src, h.bit, by rw [if_pos h0]; omega, h.part⟩, h0⟩
  · rw [if_pos (by omega)] at hp
    by_cases hs : st.src = []
    · rw [if_pos hs] at hp; simp at hp
    · rw [if_neg hs] at hp
      simp only [Res.ok.injEq] at hp
      subst hp
      rw [key, hru, if_neg hz]
      exact ⟨⟨by simp only [h.src, List.drop_drop], h.bit, by simp only [h0, if_true]; omega, by simp [h0]⟩, h0⟩

theorem decRep_numbers {α : Type} (e : α → Bytes) (d : Bytes → α × Bytes) (k : Nat)
    (h : ∀ b : Bytes, k ≤ b.length → e (d b).1 = b.take k ∧ (d b).2 = b.drop k) (n : Nat) (b : Bytes)
    (hl : n * k ≤ b.length) : encRep e n (decRep d n b).1 = b.take (n * k) ∧ (decRep d n b).2 = b.drop (n * k) := by
  induction n generalizing b with
  | zero => simp [encRep, decRep]
  | succ n ih =>
    rw [Nat.add_mul, Nat.one_mul] at hl
    obtain ⟨h1, h2⟩ := h b (by omega)
    obtain ⟨h3, h4⟩ := ih (d b).2 (by rw [h2, List.length_drop]; omega)
    simp only [decRep, encRep]
    rw [h1, h3, h4, h2, Nat.add_mul, Nat.one_mul, Nat.add_comm (n * k) k, List.take_add, List.drop_drop]
    exact ⟨rfl, rfl⟩

theorem dec_boolFree (t : Ty) (hn : boolFree t = true) (b : Bytes) (hl : t.flat ≤ b.length) :
    t.enc (t.dec b).1 = b.take t.flat ∧ (t.dec b).2 = b.drop t.flat := by
  induction t generalizing b with
  | num k =>
    simp only [Ty.flat] at hl
    refine ⟨?_, rfl⟩
    simp only [Ty.enc, Ty.dec, Ty.flat]
    have hk : (b.take k).length = k := by simp; omega
    have := le_unle (b.take k)
    rw [hk] at this
    rw [BitVec.toNat_ofNat, Nat.mod_eq_of_lt (by have := unle_lt (b.take k); rw [hk] at this; rwa [Nat.pow_mul]), this]
  | bool => simp [boolFree] at hn
  | arr n t ih =>
    simp only [Ty.enc, Ty.dec, Ty.flat]
    exact decRep_numbers t.enc t.dec t.flat (fun b hb => ih hn b hb) n b hl
  | nil => exact ⟨by simp [Ty.enc, Ty.flat], by simp [Ty.dec, Ty.flat]⟩
  | cons np f rest ihf ihr =>
    simp only [boolFree, Bool.and_eq_true] at hn
    simp only [Ty.flat] at hl
    obtain ⟨h1, h2⟩ := ihf hn.1 b (by omega)
    obtain ⟨h3, h4⟩ := ihr hn.2 (f.dec b).2 (by rw [h2, List.length_drop]; omega)
    simp only [Ty.enc, Ty.dec, Ty.flat]
    rw [h1, h3, h4, h2, List.take_add, List.drop_drop]
    exact ⟨rfl, rfl⟩

theorem numbers_boolFree {t : Ty} (h : numbers t = true) : boolFree t = true := by
  induction t with
  | num k => rfl
  | arr n t ih => exact ih h
  | _ => simp [numbers] at h

theorem dense_boolFree {t : Ty} {o : Nat} (h : dense t o = true) : boolFree t = true := by
  induction t generalizing o with
  | num k => rfl
  | bool => simp [dense] at h
  | arr n t ih =>
    simp only [dense, Bool.and_eq_true] at h
    exact ih h.2
  | nil => rfl
  | cons np f rest ihf ihr =>
    simp only [dense, Bool.and_eq_true] at h
    simp only [boolFree, Bool.and_eq_true]
    exact ⟨ihf h.1.2, ihr h.2⟩

/-- No scalar of a shape of the packer takes no bytes. -/
theorem scalars_pos (t : Ty) (hw : t.wf = true) (v : t.Val) : ∀ x ∈ scalars t v, 0 < x.1 := by
  induction t with
  | num k =>
    intro x hx
    simp only [scalars, List.mem_singleton] at hx
    simp only [Ty.wf, decide_eq_true_eq] at hw
    rw [hx]; simp only; omega
  | bool => intro x hx; simp only [scalars, List.mem_singleton] at hx; rw [hx]; simp
  | arr n t ih =>
    intro x hx
    simp only [scalars, List.mem_flatMap] at hx
    obtain ⟨y, -, hy⟩ := hx
    exact ih hw y x hy
  | nil => intro x hx; simp [scalars] at hx
  | cons np f rest ihf ihr =>
    simp only [Ty.wf, Bool.and_eq_true] at hw
    intro x hx
    simp only [scalars, List.mem_append] at hx
    rcases hx with hx | hx
    · exact ihf hw.1.1 v.1 x hx
    · exact ihr hw.1.2 v.2 x hx

theorem found_run {full : Bytes} (n : Nat) (xs : List (Nat × Nat)) (hp : ∀ x ∈ xs, 0 < x.1)
    (h : (full.drop n).take (xs.map (·.1)).sum = xs.flatMap fun x => le x.1 x.2) :
    Found full (run (8 * n) (xs.map fun x => (8 * x.1, x.2))) := by
  induction xs generalizing n with
  | nil => intro l hl; simp [run] at hl
  | cons x xs ih =>
    simp only [List.map_cons, List.sum_cons, List.flatMap_cons] at h
    have hn : n + x.1 ≤ full.length := by
      have h0 := hp x (by simp)
      have := congrArg List.length h
      simp only [List.length_take, List.length_drop, List.length_append, le_length] at this
      omega
    have h1 : (full.drop n).take x.1 = le x.1 x.2 := by
      have := congrArg (List.take x.1) h
      rw [List.take_take, Nat.min_eq_left (by omega), List.take_append_of_le_length (by simp)] at this
      rw [this, List.take_of_length_le (by simp)]
    have h2 : (full.drop (n + x.1)).take (xs.map (·.1)).sum = xs.flatMap fun x => le x.1 x.2 := by
      have := congrArg (List.drop x.1) h
      rw [List.drop_take, List.drop_drop, show x.1 + (xs.map (·.1)).sum - x.1 = (xs.map (·.1)).sum by omega,
        List.drop_append_of_le_length (by simp)] at this
      rw [this, List.drop_of_length_le (l := le x.1 x.2) (by simp), List.nil_append]
    have h3 := ih (n + x.1) (fun y hy => hp y (List.mem_cons_of_mem _ hy)) h2
    simp only [List.map_cons, run]
    intro l hl
    rcases List.mem_cons.mp hl with rfl | hl
    · refine ⟨by have := hp x (by simp); simp only; omega, by simp only; omega, fun j hj => ?_⟩
      simp only at hj ⊢
      have e : full = full.take n ++ (le x.1 x.2 ++ (full.drop n).drop x.1) := by
        rw [← h1, List.take_append_drop, List.take_append_drop]
      rw [e, bitAt_append, if_neg (by simp; omega), bitAt_append]
      have hl : (full.take n).length = n := by simp; omega
      rw [hl, show 8 * n + j - 8 * n = j by omega, if_pos (by simp; omega), bitAt_le]
      simp [hj]
    · rw [show 8 * n + 8 * x.1 = 8 * (n + x.1) by omega] at hl
      exact h3 l hl

theorem found_shift {full : Bytes} {ls : List Leaf} (n : Nat) (h : Found (full.drop n) ls) :
    Found full (ls.map (Leaf.shift (8 * n))) := by
  intro l hl
  obtain ⟨m, hm, rfl⟩ := List.mem_map.mp hl
  obtain ⟨h0, h1, h2⟩ := h m hm
  rw [List.length_drop] at h1
  refine ⟨h0, by simp only [Leaf.shift]; omega, fun j hj => ?_⟩
  simp only [Leaf.shift] at hj ⊢
  rw [← h2 j hj]
  unfold bitAt
  rw [show (m.off + 8 * n + j) / 8 = n + (m.off + j) / 8 by omega, show (m.off + 8 * n + j) % 8 = (m.off + j) % 8 by omega]
  simp [List.getD_eq_getElem?_getD]

theorem unpackBools_packed {f : Ty} {g : UnpackSt → Res (f.Val × UnpackSt)} (h : f.unpackBools = some g) {full : Bytes}
    {st st' : UnpackSt} {c : Nat} {v : f.Val} (ha : ReadAt full st c) (hg : g st = .ok (v, st')) :
    ∃ bs, packedBools false f v = some bs ∧ ReadAt full st' (c + bs.length) ∧
      Found full (run c (bs.map fun b => (1, b.toNat))) := by
  cases f with
  | bool =>
    have h : UnpackSt.bit = g := Option.some.inj h
    subst h
    obtain ⟨a1, a2, a3⟩ := readAt_bit ha hg
    refine ⟨[v], rfl, a1, ?_⟩
    intro l hl
    have hl : l ∈ [(⟨0, c, 1, Bool.toNat v⟩ : Leaf)] := hl
    rw [List.mem_singleton] at hl
    subst hl
    refine ⟨by simp, by simp only; omega, fun j hj => ?_⟩
    have : j = 0 := by simp only at hj; omega
    subst this
    show bitAt full c = (Bool.toNat v).testBit 0
    rw [← a3]
    cases (show Bool from v) <;> rfl
  | arr n t =>
    cases t with
    | bool =>
      have h : unpackBits n = g := Option.some.inj h
      subst h
      obtain ⟨a1, a2⟩ := readAt_bits n ha hg
      refine ⟨Rep.toList n v, rfl, ?_, a2⟩
      have e : (Rep.toList n (show Rep n Bool from v)).length = n := toList_length n _
      show ReadAt full st' (c + (Rep.toList n (show Rep n Bool from v)).length)
      rw [e]; exact a1
    | _ => simp [Ty.unpackBools] at h
  | _ => simp [Ty.unpackBools] at h

theorem packedBools_none {np : Bool} {f : Ty} (h : (if np then none else f.unpackBools) = none) (v : f.Val) :
    packedBools np f v = none := by
  cases np with
  | true => cases f <;> rfl
  | false =>
    simp only [Bool.false_eq_true, if_false] at h
    cases f with
    | bool => simp [Ty.unpackBools] at h
    | arr n t => cases t <;> first | rfl | simp [Ty.unpackBools] at h
    | _ => rfl

theorem unpackFields_place (t : Ty) (hw : t.wf = true) (hpl : plain t = true) (hbb : bitBools t = true) {full : Bytes}
    {st st' : UnpackSt} {c : Nat} {v : t.Val} (h : ReadAt full st c) (hu : unpackFields t st = .ok (v, st'))
    (hs : t.isStruct = true) : ReadAt full st' (place t v c).2 ∧ Found full (place t v c).1 := by
  induction t generalizing full st st' c with
  | num k => simp [Ty.isStruct] at hs
  | bool => simp [Ty.isStruct] at hs
  | arr n t ih => simp [Ty.isStruct] at hs
  | nil =>
    simp only [unpackFields, Res.ok.injEq] at hu
    have e : st = st' := congrArg Prod.snd hu
    rw [← e]
    exact ⟨h, by intro l hl; simp [place] at hl⟩
  | cons np f rest ihf ihr =>
    simp only [Ty.wf, Bool.and_eq_true] at hw
    simp only [plain, Bool.and_eq_true] at hpl
    simp only [bitBools, Bool.and_eq_true] at hbb
    obtain ⟨⟨hwf, hwr⟩, hsr⟩ := hw
    simp only [unpackFields, Res.bind_eq_ok] at hu
    obtain ⟨⟨x, s1⟩, h1, ⟨xs, s2⟩, h2, h3⟩ := hu
    simp only [Res.ok.injEq, Prod.mk.injEq] at h3
    obtain ⟨rfl, rfl⟩ := h3
    simp only [place]
    cases hb : (if np then none else f.unpackBools) with
    | some g =>
      rw [hb] at h1
      have hnp : np = false := by cases np <;> simp_all
      subst hnp
      obtain ⟨bs, e, a1, a2⟩ := unpackBools_packed hb h h1
      rw [e]
      obtain ⟨a3, a4⟩ := ihr hwr hpl.2 hbb.2 a1 h2 hsr
      exact ⟨a3, found_append.mpr ⟨a2, a4⟩⟩
    | none =>
      rw [hb] at h1
      rw [packedBools_none hb]
      simp only [Res.bind_eq_ok] at h1
      obtain ⟨s0, hp, h1⟩ := h1
      have hpos := natAlign_pos f hwf
      obtain ⟨a1, a0⟩ := readAt_pad (readAt_flush h) rfl f.align (by rw [(align_eq f).1]; exact hpos) hp
      rw [(align_eq f).1, roundUp_8 _ _ hpos] at a1
      have hc := a1.cur
      rw [if_pos a0, Nat.add_zero] at hc
      cases hst : f.isStruct with
      | true =>
        simp only [hst, if_true, Res.bind_eq_ok] at h1 ⊢
        obtain ⟨⟨y, r⟩, h4, h5⟩ := h1
        simp only [Res.ok.injEq, Prod.mk.injEq] at h5
        obtain ⟨rfl, rfl⟩ := h5
        have b0 : ReadAt s0.src ⟨s0.src, 0, 0, 0#8⟩ 0 := ⟨rfl, by simp, by simp, by simp⟩
        obtain ⟨b1, b2⟩ := ihf hwf hpl.1 hbb.1.2 b0 h4 hst
        rw [a1.src] at b2
        have b3 := found_shift s0.n b2
        rw [← hc] at b3
        have b4 : ReadAt full { s0 with src := r.src, n := s0.n + r.n }
            (roundUp c (8 * natAlign f) + roundUp (place f y 0).2 8) := by
          have e1 := (readAt_flush b1).cur
          simp only [if_true, Nat.add_zero] at e1
          refine ⟨by simp only [b1.src, a1.src, List.drop_drop], a1.bit, ?_, by simp [a0]⟩
          simp only [a0, if_true]
          omega
        obtain ⟨a3, a4⟩ := ihr hwr hpl.2 hbb.2 b4 h2 hsr
        exact ⟨a3, found_append.mpr ⟨b3, a4⟩⟩
      | false =>
        simp only [hst, Bool.false_eq_true, if_false, Res.bind_eq_ok] at h1 ⊢
        obtain ⟨⟨b, src⟩, h4, h5⟩ := h1
        simp only [Res.ok.injEq, Prod.mk.injEq] at h5
        obtain ⟨rfl, rfl⟩ := h5
        have hnum : boolFree f = true := by
          cases f with
          | num k => rfl
          | bool =>
            cases np <;> simp [Ty.unpackBools, boolFree, Ty.isStruct] at hb hbb
          | arr n t =>
            have := hpl.1
            simp only [plain, Bool.or_eq_true, beq_iff_eq] at this
            rcases this with (rfl | this) | this
            · cases np <;> simp [Ty.unpackBools, boolFree, Ty.isStruct] at hb hbb
            · exact numbers_boolFree (t := .arr n t) this
            · exact dense_boolFree (t := .arr n t) this
          | nil => simp [Ty.isStruct] at hst
          | cons _ _ _ => simp [Ty.isStruct] at hst
        obtain ⟨e2, e1⟩ := readN_ok h4
        have hl : f.flat ≤ b.length := by omega
        have he : f.enc (f.dec b).1 = b := by
          rw [(dec_boolFree f hnum b hl).1, List.take_of_length_le (by omega)]
        have hsum := sum_flat f (f.dec b).1
        have b3 : Found full (run (8 * s0.n) ((scalars f (f.dec b).1).map fun x => (8 * x.1, x.2))) := by
          apply found_run
          · exact scalars_pos f hwf _
          · rw [hsum, ← scalars_enc, he, ← a1.src, e1, List.take_append_of_le_length (by omega), List.take_of_length_le (by omega)]
        rw [← hc] at b3
        have b4 : ReadAt full { s0 with src := src, n := s0.n + f.goSize }
            (roundUp c (8 * natAlign f) + 8 * ((scalars f (f.dec b).1).map (·.1)).sum) := by
          rw [hsum, goSize_plain hwf hpl.1 hst]
          refine ⟨?_, a1.bit, by simp only [a0, if_true]; omega, by simp [a0]⟩
          simp only
          rw [← List.drop_drop, ← a1.src, e1, List.drop_append_of_le_length (by omega), List.drop_of_length_le (by omega),
            List.nil_append]
        obtain ⟨a3, a4⟩ := ihr hwr hpl.2 hbb.2 b4 h2 hsr
        exact ⟨a3, found_append.mpr ⟨b3, a4⟩⟩

/-- What `Unpack` returns was in the bytes, every scalar at its place in the controller's layout (`Spec.place`), whatever
the bytes between the scalars are. -/
theorem unpack_found (t : Ty) (hs : t.isStruct = true) (hw : t.wf = true) (hpl : plain t = true) (hbb : bitBools t = true)
    {b : Bytes} {v : t.Val} {s : UnpackSt} (h : unpackFields t ⟨b, 0, 0, 0#8⟩ = .ok (v, s)) : Found b (place t v 0).1 :=
  (unpackFields_place t hw hpl hbb ⟨rfl, by simp, by simp, by simp⟩ h hs).2

/-! ### The other direction -/

theorem bytes_ext {a b : Bytes} (hl : a.length = b.length) (h : ∀ i, i < 8 * a.length → bitAt a i = bitAt b i) : a = b := by
  apply List.ext_getElem hl
  intro i h1 h2
  apply BitVec.eq_of_getLsbD_eq
  intro j hj
  have := h (8 * i + j) (by omega)
  unfold bitAt at this
  rw [show (8 * i + j) / 8 = i by omega, show (8 * i + j) % 8 = j by omega] at this
  simpa [List.getD_eq_getElem?_getD, h1, h2] using this

theorem bitAt_drop (b : Bytes) (n i : Nat) : bitAt (b.drop n) i = bitAt b (8 * n + i) := by
  unfold bitAt
  rw [show (8 * n + i) / 8 = n + i / 8 by omega, show (8 * n + i) % 8 = i % 8 by omega]
  simp [List.getD_eq_getElem?_getD]

theorem bitAt_take (b : Bytes) (n i : Nat) (h : i < 8 * n) : bitAt (b.take n) i = bitAt b i := by
  unfold bitAt
  simp only [List.getD_eq_getElem?_getD, List.getElem?_take]
  rw [if_pos (by omega)]

theorem run_found {full : Bytes} (n : Nat) (xs : List (Nat × Nat)) (hn : xs ≠ [] → n + (xs.map (·.1)).sum ≤ full.length)
    (h : Found full (run (8 * n) (xs.map fun x => (8 * x.1, x.2)))) :
    (full.drop n).take (xs.map (·.1)).sum = xs.flatMap fun x => le x.1 x.2 := by
  induction xs generalizing n with
  | nil => simp
  | cons x xs ih =>
    have hn := hn (by simp)
    simp only [List.map_cons, List.sum_cons] at hn
    simp only [List.map_cons, run] at h
    obtain ⟨h0, h1, h2⟩ := h _ (List.mem_cons_self ..)
    simp only at h0 h1 h2
    have e1 : (full.drop n).take x.1 = le x.1 x.2 := by
      apply bytes_ext
      · simp; omega
      · intro i hi
        simp only [List.length_take, List.length_drop] at hi
        rw [bitAt_take _ _ _ (by omega), bitAt_drop, h2 i (by omega), bitAt_le]
        simp; omega
    have e2 := ih (n + x.1) (fun _ => by omega) (by
      rw [show 8 * (n + x.1) = 8 * n + 8 * x.1 by omega]
      exact fun l hl => h l (List.mem_cons_of_mem _ hl))
    simp only [List.map_cons, List.sum_cons, List.flatMap_cons, List.take_add, e1, List.drop_drop, e2]

theorem found_unshift {full : Bytes} {ls : List Leaf} (n : Nat) (h : Found full (ls.map (Leaf.shift (8 * n)))) :
    Found (full.drop n) ls := by
  intro l hl
  obtain ⟨h0, h1, h2⟩ := h _ (List.mem_map_of_mem hl)
  simp only [Leaf.shift] at h0 h1 h2
  refine ⟨h0, by rw [List.length_drop]; omega, fun j hj => ?_⟩
  rw [bitAt_drop, ← h2 j hj]
  congr 1
  omega

theorem toNat_testBit (b : Bool) : b.toNat.testBit 0 = b := by cases b <;> rfl

theorem bit_found {full : Bytes} {st : UnpackSt} {c : Nat} {b : Bool} (h : ReadAt full st c) (hc : c < 8 * full.length)
    (hb : bitAt full c = b) : ∃ st', st.bit = .ok (b, st') ∧ ReadAt full st' (c + 1) := by
  have : ∃ b' st', st.bit = .ok (b', st') := by
    obtain ⟨src, n, p, q⟩ := st
    by_cases hp : p = 0
    · subst hp
      cases src with
      | nil =>
        have h1 := h.src
        have h3 := h.cur
        simp only [if_true, Nat.add_zero] at h1 h3
        have := congrArg List.length h1
        simp only [List.length_nil, List.length_drop] at this
        omega
      | cons x xs => exact ⟨_, _, unbit_fresh ..⟩
    · exact ⟨_, _, unbit_open _ _ _ _ (by omega) h.bit⟩
  obtain ⟨b', st', h1⟩ := this
  obtain ⟨h2, -, h4⟩ := readAt_bit h h1
  rw [hb] at h4
  subst h4
  exact ⟨st', h1, h2⟩

theorem bits_found {full : Bytes} (n : Nat) {st : UnpackSt} {c : Nat} {v : Rep n Bool} (h : ReadAt full st c)
    (hf : Found full (run c ((Rep.toList n v).map fun b => (1, b.toNat)))) :
    ∃ st', unpackBits n st = .ok (v, st') ∧ ReadAt full st' (c + n) := by
  induction n generalizing st c with
  | zero => exact ⟨st, rfl, h⟩
  | succ n ih =>
    simp only [Rep.toList, List.map_cons, run] at hf
    obtain ⟨-, h1, h2⟩ := hf _ (List.mem_cons_self ..)
    have h3 := h2 0 (by simp)
    simp only [Nat.add_zero] at h1 h3
    obtain ⟨s1, a1, a2⟩ := bit_found (b := v.1) h (by omega) (by rw [h3]; cases v.1 <;> rfl)
    obtain ⟨s2, a3, a4⟩ := ih (v := v.2) a2 (fun l hl => hf l (List.mem_cons_of_mem _ hl))
    refine ⟨s2, ?_, by rw [show c + (n + 1) = c + 1 + n by omega]; exact a4⟩
    simp only [unpackBits, a1, Res.bind_ok, a3]
    rfl

theorem pad_found {full : Bytes} {st : UnpackSt} {c : Nat} (h : ReadAt full st c) (h0 : st.bitpos = 0) (a : Nat) (ha : 0 < a)
    (he : roundUp c (8 * a) ≤ 8 * full.length) : ∃ st', st.pad a = .ok st' := by
  have h3 := h.cur
  rw [if_pos h0, Nat.add_zero] at h3
  unfold UnpackSt.pad
  simp only
  by_cases hz : st.n % a = 0
  · exact ⟨st, by rw [if_neg (by omega)]⟩
  · have hm := Nat.mod_lt st.n ha
    rw [if_pos (by omega)]
    have : st.src ≠ [] := by
      intro e
      have h1 := h.src
      rw [e] at h1
      have hl := congrArg List.length h1
      simp only [List.length_nil, List.length_drop] at hl
      have : c ≤ roundUp c (8 * a) := le_roundUp c (by omega)
      have hd : 8 * a ∣ roundUp c (8 * a) := dvd_roundUp c (8 * a)
      have he2 : roundUp c (8 * a) = c := by omega
      rw [he2, h3] at hd
      have := Nat.dvd_of_mul_dvd_mul_left (by decide) hd
      exact hz (Nat.mod_eq_zero_of_dvd this)
    rw [if_neg this]
    exact ⟨_, rfl⟩

theorem unpackFields_found (t : Ty) (hw : t.wf = true) (hpl : plain t = true) {full : Bytes} {st : UnpackSt} {c : Nat}
    (v : t.Val) (h : ReadAt full st c) (hs : t.isStruct = true) (he : (place t v c).2 ≤ 8 * full.length)
    (hf : Found full (place t v c).1) :
    ∃ st', unpackFields t st = .ok (v, st') ∧ ReadAt full st' (place t v c).2 := by
  induction t generalizing full st c with
  | num k => simp [Ty.isStruct] at hs
  | bool => simp [Ty.isStruct] at hs
  | arr n t ih => simp [Ty.isStruct] at hs
  | nil => exact ⟨st, rfl, h⟩
  | cons np f rest ihf ihr =>
    simp only [Ty.wf, Bool.and_eq_true] at hw
    simp only [plain, Bool.and_eq_true] at hpl
    obtain ⟨⟨hwf, hwr⟩, hsr⟩ := hw
    simp only [place] at he hf ⊢
    cases hb : (if np then none else f.unpackBools) with
    | some g =>
      have hnp : np = false := by cases np <;> simp_all
      subst hnp
      have key : ∃ bs st', packedBools false f v.1 = some bs ∧
          (Found full (run c (bs.map fun b => (1, b.toNat))) →
            g st = .ok (v.1, st') ∧ ReadAt full st' (c + bs.length)) := by
        simp only [Bool.false_eq_true, if_false] at hb
        cases f with
        | bool =>
          have hb : UnpackSt.bit = g := Option.some.inj hb
          subst hb
          by_cases hf : Found full (run c ([(show Bool from v.1)].map fun b => (1, b.toNat)))
          · obtain ⟨-, h1, h2⟩ := hf _ (List.mem_cons_self ..)
            have h3 := h2 0 (by simp)
            simp only [Nat.add_zero] at h1 h3
            obtain ⟨s1, a1, a2⟩ := bit_found (b := v.1) h (by omega) (h3.trans (toNat_testBit _))
            exact ⟨_, s1, rfl, fun _ => ⟨a1, a2⟩⟩
          · exact ⟨_, st, rfl, fun h => absurd h hf⟩
        | arr n t =>
          cases t with
          | bool =>
            have hb : unpackBits n = g := Option.some.inj hb
            subst hb
            by_cases hf : Found full (run c ((Rep.toList n (show Rep n Bool from v.1)).map fun b => (1, b.toNat)))
            · obtain ⟨s1, a1, a2⟩ := bits_found n h hf
              refine ⟨_, s1, rfl, fun _ => ⟨a1, ?_⟩⟩
              have e : (Rep.toList n (show Rep n Bool from v.1)).length = n := toList_length n _
              show ReadAt full s1 (c + (Rep.toList n (show Rep n Bool from v.1)).length)
              rw [e]; exact a2
            · exact ⟨_, st, rfl, fun h => absurd h hf⟩
          | _ => simp [Ty.unpackBools] at hb
        | _ => simp [Ty.unpackBools] at hb
      obtain ⟨bs, s1, e, a1⟩ := key
      rw [e] at he hf ⊢
      obtain ⟨f1, f2⟩ := found_append.mp hf
      obtain ⟨a1, a2⟩ := a1 f1
      obtain ⟨s2, a3, a4⟩ := ihr hwr hpl.2 v.2 a2 hsr he f2
      refine ⟨s2, ?_, a4⟩
      simp only [unpackFields, hb, a1, Res.bind_ok, a3]
      rfl
    | none =>
      rw [packedBools_none hb] at he hf ⊢
      simp only at he hf ⊢
      have hpos := natAlign_pos f hwf
      have mono : ∀ e, e ≤ (place rest v.2 e).2 := fun e => (sound_place rest hwr hpl.2 v.2 e).mono
      have hc0 : roundUp c (8 * natAlign f) ≤ 8 * full.length := by
        cases hst : f.isStruct with
        | true =>
          simp only [hst, if_true] at he
          exact Nat.le_trans (Nat.le_trans (Nat.le_add_right ..) (mono _)) he
        | false =>
          simp only [hst, Bool.false_eq_true, if_false] at he
          exact Nat.le_trans (Nat.le_trans (Nat.le_add_right ..) (mono _)) he
      obtain ⟨s0, hp⟩ := pad_found (readAt_flush h) rfl f.align (by rw [(align_eq f).1]; exact hpos)
        (by rw [(align_eq f).1, roundUp_8 _ _ hpos]; exact hc0)
      obtain ⟨a1, a0⟩ := readAt_pad (readAt_flush h) rfl f.align (by rw [(align_eq f).1]; exact hpos) hp
      rw [(align_eq f).1, roundUp_8 _ _ hpos] at a1
      have hc := a1.cur
      rw [if_pos a0, Nat.add_zero] at hc
      cases hst : f.isStruct with
      | true =>
        simp only [hst, if_true] at he hf ⊢
        obtain ⟨f1, f2⟩ := found_append.mp hf
        rw [hc] at f1
        have f1 := found_unshift s0.n f1
        rw [← a1.src] at f1
        have b0 : ReadAt s0.src ⟨s0.src, 0, 0, 0#8⟩ 0 := ⟨rfl, by simp, by simp, by simp⟩
        have hle : (place f v.1 0).2 ≤ 8 * s0.src.length := by
          have := Nat.le_trans (mono _) he
          have h8 : (place f v.1 0).2 ≤ roundUp (place f v.1 0).2 8 := le_roundUp _ (by decide)
          rw [a1.src, List.length_drop]
          omega
        obtain ⟨r, b1, b2⟩ := ihf hwf hpl.1 v.1 b0 hst hle f1
        have b4 : ReadAt full { s0 with src := r.src, n := s0.n + r.n }
            (roundUp c (8 * natAlign f) + roundUp (place f v.1 0).2 8) := by
          have e1 := (readAt_flush b2).cur
          simp only [if_true, Nat.add_zero] at e1
          refine ⟨by simp only [b2.src, a1.src, List.drop_drop], a1.bit, ?_, by simp [a0]⟩
          simp only [a0, if_true]
          omega
        obtain ⟨s2, a3, a4⟩ := ihr hwr hpl.2 v.2 b4 hsr he f2
        refine ⟨s2, ?_, a4⟩
        simp only [unpackFields, hb, hp, hst, if_true, b1, Res.bind_ok, a3]
        rfl
      | false =>
        simp only [hst, Bool.false_eq_true, if_false] at he hf ⊢
        obtain ⟨f1, f2⟩ := found_append.mp hf
        have hsum := sum_flat f v.1
        have hlen : s0.n + f.flat ≤ full.length := by
          have := Nat.le_trans (mono _) he
          rw [hsum] at this
          omega
        rw [hc] at f1
        have e1 := run_found s0.n _ (fun _ => by rw [hsum]; exact hlen) f1
        rw [hsum, ← scalars_enc, ← a1.src] at e1
        have e2 : readN f.flat s0.src = .ok (f.enc v.1, s0.src.drop f.flat) := by
          have : s0.src = f.enc v.1 ++ s0.src.drop f.flat := by rw [← e1, List.take_append_drop]
          conv => lhs; rw [this]
          exact readN_append' (enc_length f v.1)
        have e3 : (f.dec (f.enc v.1)).1 = v.1 := by
          have := dec_enc f v.1 []
          rw [List.append_nil] at this
          rw [this]
        have b4 : ReadAt full { s0 with src := s0.src.drop f.flat, n := s0.n + f.goSize }
            (roundUp c (8 * natAlign f) + 8 * ((scalars f v.1).map (·.1)).sum) := by
          rw [hsum, goSize_plain hwf hpl.1 hst]
          refine ⟨?_, a1.bit, by simp only [a0, if_true]; omega, by simp [a0]⟩
          simp only [a1.src, List.drop_drop]
        obtain ⟨s2, a3, a4⟩ := ihr hwr hpl.2 v.2 b4 hsr he f2
        refine ⟨s2, ?_, a4⟩
        simp only [unpackFields, hb, hp, hst, Bool.false_eq_true, if_false, e2, e3, Res.bind_ok, a3]
        rfl

end Gologix
