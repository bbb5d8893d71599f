import Verif.Model.Pack
import Verif.Props.Values
/-
C16 Structures survive pack and unpack
C17 Packed fields are naturally aligned
C18 Booleans share a byte correctly
-/
set_option linter.unusedSimpArgs false

namespace Gologix

/-! ### C16 -/

theorem encRep_length {α : Type} (f : α → Bytes) (k : Nat) (h : ∀ v, (f v).length = k) (n : Nat) (v : Rep n α) :
    (encRep f n v).length = n * k := by
  induction n with
  | zero => simp [encRep]
  | succ n ih => simp only [encRep, List.length_append, h, ih, Nat.succ_mul]; omega

theorem enc_length (t : Ty) (v : t.Val) : (t.enc v).length = t.flat := by
  induction t with
  | num k => simp [Ty.enc, Ty.flat]
  | bool => simp [Ty.enc, Ty.flat]
  | arr n t ih => exact encRep_length _ _ ih n v
  | nil => rfl
  | cons np f rest ihf ihr => simp [Ty.enc, Ty.flat, ihf, ihr]

theorem decRep_enc {α : Type} (e : α → Bytes) (d : Bytes → α × Bytes)
    (h : ∀ v rest, d (e v ++ rest) = (v, rest)) (n : Nat) (v : Rep n α) (rest : Bytes) :
    decRep d n (encRep e n v ++ rest) = (v, rest) := by
  induction n generalizing rest with
  | zero => rfl
  | succ n ih => simp only [decRep, encRep, List.append_assoc, h, ih]; rfl

theorem dec_enc (t : Ty) (v : t.Val) (rest : Bytes) : t.dec (t.enc v ++ rest) = (v, rest) := by
  induction t generalizing rest with
  | num k =>
    simp only [Ty.dec, Ty.enc]
    rw [List.take_left' (by simp), List.drop_left' (by simp), unle_le]
    congr 1
    apply BitVec.eq_of_toNat_eq
    rw [BitVec.toNat_ofNat]
    have : (256 : Nat) ^ k = 2 ^ (8 * k) := by rw [Nat.pow_mul]
    rw [this, Nat.mod_mod]
    exact Nat.mod_eq_of_lt (BitVec.isLt (w := 8 * k) v)
  | bool =>
    simp only [Ty.dec, Ty.enc, List.cons_append, List.nil_append, List.headD_cons, List.drop_succ_cons, List.drop_zero]
    congr 1
    cases (show Bool from v) <;> rfl
  | arr n t ih => exact decRep_enc _ _ ih n v rest
  | nil => rfl
  | cons np f rest' ihf ihr => simp only [Ty.dec, Ty.enc, List.append_assoc, ihf, ihr]; rfl

/-- Unpacker `U` reads back as `v` what packer `K` writes, from any state of the bit buffer: with pending
bits the unpacker has already taken the byte the packer will write. -/
def Inverse {α : Type} (K : PackSt → PackSt) (U : UnpackSt → Res (α × UnpackSt)) (v : α) : Prop :=
  ∀ st : PackSt, st.bitpos < 8 → (∀ j, st.bitpos ≤ j → st.bitpack.getLsbD j = false) →
    ∃ W, (K st).out = st.out ++ W ∧
      (st.bitpos = 0 → ∀ c rest, ∃ s', U ⟨W ++ rest, st.pos, 0, c⟩ = .ok (v, s') ∧ s'.src = rest ∧
        s'.n = (K st).pos) ∧
      (0 < st.bitpos → ∃ b W', W = b :: W' ∧ (∀ j < st.bitpos, b.getLsbD j = st.bitpack.getLsbD j) ∧
        ∀ rest, ∃ s', U ⟨W' ++ rest, st.pos + 1, st.bitpos, b⟩ = .ok (v, s') ∧ s'.src = rest ∧
          s'.n = (K st).pos)

theorem boolByte_bit (b : Bool) (j : Nat) : (boolByte b).getLsbD j = (b && decide (j = 0)) := by
  cases b
  · simp [boolByte]
  · simp [boolByte, BitVec.getLsbD_one]

theorem or_bit (c : Byte) (b : Bool) (p j : Nat) (hp : p < 8) :
    (c ||| (boolByte b <<< p)).getLsbD j = (c.getLsbD j || (b && decide (j = p))) := by
  rw [BitVec.getLsbD_or, BitVec.getLsbD_shiftLeft, boolByte_bit]
  congr 1
  by_cases h : j = p
  · subst h; simp [hp]
  · by_cases h2 : j < p
    · simp [h, h2]
    · have : j - p ≠ 0 := by omega
      simp [h, this]

theorem mask_bit (x : Byte) (p : Nat) (hp : p < 8) : ((x &&& (1#8 <<< p)) != 0#8) = x.getLsbD p :=
  maskTest_eq x hp

theorem unbit_open (src : Bytes) (n p : Nat) (b : Byte) (h0 : 0 < p) (h8 : p < 8) :
    (⟨src, n, p, b⟩ : UnpackSt).bit = .ok (b.getLsbD p, ⟨src, n, if 8 ≤ p + 1 then 0 else p + 1, b⟩) := by
  simp only [UnpackSt.bit]
  rw [if_neg (by omega), Res.bind_ok]
  simp only [mask_bit b p h8]

theorem unbit_fresh (src : Bytes) (n : Nat) (b c : Byte) :
    (⟨b :: src, n, 0, c⟩ : UnpackSt).bit = .ok (b.getLsbD 0, ⟨src, n + 1, 1, b⟩) := by
  simp only [UnpackSt.bit]
  rw [if_pos trivial, Res.bind_ok]
  have := mask_bit b 0 (by decide)
  simp only [this]
  rfl

theorem inverse_bit {α β : Type} {K : PackSt → PackSt} {U : UnpackSt → Res (α × UnpackSt)} {w : α}
    (h : Inverse K U w) (b : Bool) (f : Bool → α → β) :
    Inverse (fun st => K (st.bit b))
      (fun u => do let (x, u) ← u.bit; let (y, u) ← U u; .ok (f x y, u)) (f b w) := by
  intro st hp hc
  by_cases h7 : st.bitpos = 7
  · have e : st.bit b = ⟨st.out ++ [st.bitpack ||| (boolByte b <<< st.bitpos)], st.pos + 1, 0, 0#8⟩ := by
      simp [PackSt.bit, h7]
    obtain ⟨W, h1, h2, -⟩ := h (st.bit b) (by rw [e]; exact Nat.zero_lt_succ 7) (by rw [e]; simp)
    rw [e] at h1 h2
    refine ⟨(st.bitpack ||| (boolByte b <<< st.bitpos)) :: W, ?_, by omega, fun _ => ⟨_, _, rfl, ?_, ?_⟩⟩
    · simp only [e, h1]; simp
    · intro j hj
      rw [or_bit _ _ _ _ hp]
      simp [show j ≠ st.bitpos by omega]
    · intro rest
      obtain ⟨s', h3, h4, h5⟩ := h2 rfl (st.bitpack ||| (boolByte b <<< st.bitpos)) rest
      refine ⟨s', ?_, h4, by simp only [e]; exact h5⟩
      have hb : (st.bitpack ||| (boolByte b <<< st.bitpos)).getLsbD st.bitpos = b := by
        rw [or_bit _ _ _ _ hp, hc _ (Nat.le_refl _)]; simp
      simp only [unbit_open _ _ _ _ (by omega : 0 < st.bitpos) hp, hb, Res.bind_ok]
      rw [if_pos (by omega)]
      simp only [h3, Res.bind_ok]
  · have e : st.bit b = ⟨st.out, st.pos, st.bitpos + 1, st.bitpack ||| (boolByte b <<< st.bitpos)⟩ := by
      have : ¬ 7 ≤ st.bitpos := by omega
      simp [PackSt.bit, this]
    obtain ⟨W, h1, -, h2⟩ := h (st.bit b) (by rw [e]; show st.bitpos + 1 < 8; omega) (by
      rw [e]
      intro j hj
      simp only at hj ⊢
      rw [or_bit _ _ _ _ hp, hc j (by omega)]
      simp [show j ≠ st.bitpos by omega])
    rw [e] at h1 h2
    obtain ⟨b', W', rfl, hb, h2⟩ := h2 (by simp)
    simp only at hb h2
    have hbit : b'.getLsbD st.bitpos = b := by
      rw [hb _ (by omega), or_bit _ _ _ _ hp, hc _ (Nat.le_refl _)]
      simp
    refine ⟨b' :: W', by simp only [e, h1], ?_, fun h0 => ⟨b', W', rfl, ?_, ?_⟩⟩
    · intro h0 c rest
      obtain ⟨s', h3, h4, h5⟩ := h2 rest
      refine ⟨s', ?_, h4, by simp only [e]; exact h5⟩
      simp only [h0] at h3 hbit
      simp only [List.cons_append, unbit_fresh, Res.bind_ok, hbit]
      simp only [Nat.zero_add] at h3
      simp only [h3, Res.bind_ok]
    · intro j hj
      rw [hb j (by omega), or_bit _ _ _ _ hp]
      simp [show j ≠ st.bitpos by omega]
    · intro rest
      obtain ⟨s', h3, h4, h5⟩ := h2 rest
      refine ⟨s', ?_, h4, by simp only [e]; exact h5⟩
      simp only [unbit_open _ _ _ _ h0 hp, hbit, Res.bind_ok]
      rw [if_neg (by omega)]
      simp only [h3, Res.bind_ok]

theorem inverse_congr {α : Type} {K K' : PackSt → PackSt} {U U' : UnpackSt → Res (α × UnpackSt)} {w : α}
    (h : Inverse K U w) (hk : ∀ s, K' s = K s) (hu : ∀ u, U' u = U u) : Inverse K' U' w := by
  have e1 : K' = K := funext hk
  have e2 : U' = U := funext hu
  rw [e1, e2]; exact h

theorem inverse_bits {α β : Type} {K : PackSt → PackSt} {U : UnpackSt → Res (α × UnpackSt)} {w : α}
    (h : Inverse K U w) (n : Nat) (bs : Rep n Bool) (f : Rep n Bool → α → β) :
    Inverse (fun st => K ((Rep.toList n bs).foldl PackSt.bit st))
      (fun u => do let (x, u) ← unpackBits n u; let (y, u) ← U u; .ok (f x y, u)) (f bs w) := by
  induction n generalizing β with
  | zero =>
    intro st hp hc
    obtain ⟨W, h1, h2, h3⟩ := h st hp hc
    refine ⟨W, h1, ?_, ?_⟩
    · intro h0 c rest
      obtain ⟨s', h4, h5⟩ := h2 h0 c rest
      exact ⟨s', by simp only [unpackBits, Res.bind_ok, h4]; rfl, h5⟩
    · intro h0
      obtain ⟨b, W', h4, h5, h6⟩ := h3 h0
      refine ⟨b, W', h4, h5, fun rest => ?_⟩
      obtain ⟨s', h7, h8⟩ := h6 rest
      exact ⟨s', by simp only [unpackBits, Res.bind_ok, h7]; rfl, h8⟩
  | succ n ih =>
    have h1 := inverse_bit (ih bs.2 (fun x y => (x, y))) bs.1 (fun x p => f (x, p.1) p.2)
    refine inverse_congr h1 (fun s => rfl) (fun u => ?_)
    simp only [unpackBits]
    cases u.bit with
    | err e => rfl
    | panic => rfl
    | ok a =>
      simp only [Res.bind_ok]
      cases unpackBits n a.2 with
      | err e => rfl
      | panic => rfl
      | ok c =>
        simp only [Res.bind_ok]
        cases U c.2 <;> rfl

/-- A field that is not packed bit by bit: pending bits are flushed, padding is skipped. -/
theorem inverse_field {α β γ : Type} {K : PackSt → PackSt} {U : UnpackSt → Res (α × UnpackSt)} {w : α}
    (h : Inverse K U w) (a : Nat) (X : Bytes) (s : Nat) (R : Bytes → Res (γ × Bytes × Nat)) (v : γ)
    (hR : ∀ rest, R (X ++ rest) = .ok (v, rest, s)) (f : γ → α → β) :
    Inverse (fun st => K { st.flush.pad a with out := (st.flush.pad a).out ++ X, pos := (st.flush.pad a).pos + s })
      (fun u => do
        let (x, u) ← (do
          let u ← ({ u with bitpos := 0 } : UnpackSt).pad a
          let (v, src, m) ← R u.src
          .ok (v, ({ u with src := src, n := u.n + m } : UnpackSt)))
        let (y, u) ← U u
        .ok (f x y, u)) (f v w) := by
  intro st hp hc
  -- the bytes of the flush
  obtain ⟨F, hF⟩ : ∃ F, st.flush = ⟨st.out ++ F, st.pos + F.length, 0, 0#8⟩ ∧
      (st.bitpos = 0 → F = []) ∧ (0 < st.bitpos → F = [st.bitpack]) := by
    by_cases h0 : st.bitpos = 0
    · refine ⟨[], ?_, fun _ => rfl, by omega⟩
      have : st.bitpack = 0#8 := by
        apply BitVec.eq_of_getLsbD_eq
        intro i hi
        rw [hc i (by omega)]; simp
      cases st
      simp_all [PackSt.flush]
    · refine ⟨[st.bitpack], ?_, by omega, fun _ => rfl⟩
      simp [PackSt.flush, Nat.pos_of_ne_zero h0]
  obtain ⟨hfl, hF0, hF1⟩ := hF
  -- the padding
  obtain ⟨P, hpad, hskip⟩ : ∃ P : Bytes, st.flush.pad a = ⟨st.out ++ F ++ P, st.pos + F.length + P.length, 0, 0#8⟩ ∧
      ∀ c rest, (⟨P ++ rest, st.pos + F.length, 0, c⟩ : UnpackSt).pad a =
        .ok ⟨rest, st.pos + F.length + P.length, 0, c⟩ := by
    rw [hfl]
    by_cases hr : a - (st.pos + F.length) % a < a ∧ 0 < a - (st.pos + F.length) % a
    · refine ⟨List.replicate (a - (st.pos + F.length) % a) 0#8, ?_, ?_⟩
      · simp only [PackSt.pad]; rw [if_pos hr]; simp
      · intro c rest
        simp only [UnpackSt.pad]
        rw [if_pos hr, if_neg]
        · rw [List.drop_left' (by simp)]; simp
        · intro h
          have := congrArg List.length h
          simp at this
          omega
    · refine ⟨[], ?_, ?_⟩
      · simp only [PackSt.pad]; rw [if_neg hr]; simp
      · intro c rest
        simp only [UnpackSt.pad]; rw [if_neg hr]; simp
  obtain ⟨W, h1, h2, -⟩ := h { st.flush.pad a with out := (st.flush.pad a).out ++ X, pos := (st.flush.pad a).pos + s }
    (by rw [hpad]; exact Nat.zero_lt_succ 7) (by rw [hpad]; simp)
  rw [hpad] at h1 h2
  simp only at h1 h2
  have main : ∀ c p rest, ∃ s', (do
        let (x, u) ← (do
          let u ← ({ (⟨P ++ X ++ W ++ rest, st.pos + F.length, p, c⟩ : UnpackSt) with bitpos := 0 } : UnpackSt).pad a
          let (v, src, m) ← R u.src
          .ok (v, ({ u with src := src, n := u.n + m } : UnpackSt)))
        let (y, u) ← U u
        .ok (f x y, u)) = .ok (f v w, s') ∧ s'.src = rest ∧
          s'.n = (K ⟨st.out ++ F ++ P ++ X, st.pos + F.length + P.length + s, 0, 0#8⟩).pos := by
    intro c p rest
    obtain ⟨s', h3, h4, h5⟩ := h2 trivial c rest
    refine ⟨s', ?_, h4, h5⟩
    have e : P ++ X ++ W ++ rest = P ++ (X ++ (W ++ rest)) := by simp
    simp only [e, hskip, Res.bind_ok, hR, h3]
  refine ⟨F ++ P ++ X ++ W, ?_, ?_, ?_⟩
  · simp only [hpad, h1]; simp
  · intro h0 c rest
    have := main c 0 rest
    rw [hF0 h0] at this ⊢
    simpa [hpad, hF0 h0] using this
  · intro h0
    refine ⟨st.bitpack, P ++ X ++ W, by rw [hF1 h0]; simp, fun _ _ => rfl, fun rest => ?_⟩
    have := main st.bitpack st.bitpos rest
    simp only [hF1 h0, List.length_cons, List.length_nil, Nat.zero_add] at this
    simpa [hpad, hF1 h0] using this

theorem unpackBools_none {f : Ty} (h : f ≠ .bool) (h2 : ∀ n, f ≠ .arr n .bool) :
    f.unpackBools = none ∧ ∀ v, f.bools v = none := by
  cases f with
  | bool => exact absurd rfl h
  | arr n t =>
    cases t with
    | bool => exact absurd rfl (h2 n)
    | _ => exact ⟨rfl, fun _ => rfl⟩
  | _ => exact ⟨rfl, fun _ => rfl⟩

theorem inverse_pack (t : Ty) (hs : t.isStruct = true) (hw : t.wf = true) (v : t.Val) :
    Inverse (fun st => (packFields t v st).flush) (unpackFields t) v := by
  induction t with
  | num k => simp [Ty.isStruct] at hs
  | bool => simp [Ty.isStruct] at hs
  | arr n t ih => simp [Ty.isStruct] at hs
  | nil =>
    intro st hp hc
    by_cases h0 : st.bitpos = 0
    · refine ⟨[], by simp [packFields, PackSt.flush, h0], fun _ c rest => ?_, by omega⟩
      exact ⟨⟨rest, st.pos, 0, c⟩, rfl, rfl, by simp [packFields, PackSt.flush, h0]⟩
    · have h1 : 0 < st.bitpos := by omega
      refine ⟨[st.bitpack], by simp [packFields, PackSt.flush, h1], by omega, fun _ => ⟨_, [], rfl, fun _ _ => rfl, ?_⟩⟩
      intro rest
      exact ⟨⟨rest, st.pos + 1, st.bitpos, st.bitpack⟩, rfl, rfl, by simp [packFields, PackSt.flush, h1]⟩
  | cons np f rest ihf ihr =>
    simp only [Ty.wf, Bool.and_eq_true] at hw
    obtain ⟨⟨hwf, hwr⟩, hsr⟩ := hw
    have hr := ihr hsr hwr v.2
    have hfield : (np = true ∨ (f ≠ .bool ∧ ∀ n, f ≠ .arr n .bool)) →
        Inverse (fun st => (packFields (.cons np f rest) v st).flush) (unpackFields (.cons np f rest)) v := by
      intro hn
      have hb : (if np then none else f.unpackBools) = none ∧ (if np then none else f.bools v.1) = none := by
        rcases hn with rfl | ⟨h1, h2⟩
        · simp
        · obtain ⟨h3, h4⟩ := unpackBools_none h1 h2
          simp [h3, h4]
      by_cases hst : f.isStruct = true
      · have hin := ihf hst hwf v.1
        obtain ⟨W, h1, h2, -⟩ := hin .init (by decide) (by simp [PackSt.init])
        have hout : ((packFields f v.1 .init).flush).out = W := by simpa [PackSt.init] using h1
        refine inverse_congr (inverse_field hr f.align ((packFields f v.1 .init).flush).out
          ((packFields f v.1 .init).flush).pos
          (fun src => do let (x, r) ← unpackFields f ⟨src, 0, 0, 0#8⟩; .ok (x, r.src, r.n)) v.1 ?_
          (fun x y => ((x, y) : (Ty.cons np f rest).Val))) (fun s => ?_) (fun u => ?_)
        · intro rest'
          obtain ⟨s', h3, h4, h5⟩ := h2 rfl 0#8 rest'
          rw [hout]
          simp only [PackSt.init] at h3 h5
          simp only [h3, Res.bind_ok, h4, h5]
          rfl
        · simp only [packFields, hb.2, hst, if_true]
        · simp only [unpackFields, hb.1, hst, if_true]
          cases ({ u with bitpos := 0 } : UnpackSt).pad f.align with
          | err e => rfl
          | panic => rfl
          | ok u' =>
            simp only [Res.bind_ok]
            cases unpackFields f ⟨u'.src, 0, 0, 0#8⟩ <;> rfl
      · simp only [Bool.not_eq_true] at hst
        refine inverse_congr (inverse_field hr f.align (f.enc v.1) f.goSize
          (fun src => do let (b, src) ← readN f.flat src; .ok ((f.dec b).1, src, f.goSize)) v.1 ?_
          (fun x y => ((x, y) : (Ty.cons np f rest).Val))) (fun s => ?_) (fun u => ?_)
        · intro rest'
          rw [readN_append' (enc_length f v.1), Res.bind_ok]
          have := dec_enc f v.1 []
          rw [List.append_nil] at this
          simp only [this]
        · simp only [packFields, hb.2, hst]; rfl
        · simp only [unpackFields, hb.1, hst]
          cases ({ u with bitpos := 0 } : UnpackSt).pad f.align with
          | err e => rfl
          | panic => rfl
          | ok u' =>
            simp only [Res.bind_ok]
            cases readN f.flat u'.src <;> rfl
    cases np with
    | true => exact hfield (Or.inl rfl)
    | false =>
      by_cases h1 : f = .bool
      · subst h1
        exact inverse_congr (inverse_bit hr v.1 (fun x y => ((x, y) : (Ty.cons false .bool rest).Val)))
          (fun s => rfl) (fun u => by simp only [unpackFields, Ty.unpackBools]; rfl)
      · by_cases h2 : ∃ n, f = .arr n .bool
        · obtain ⟨n, rfl⟩ := h2
          exact inverse_congr (inverse_bits hr n v.1 (fun x y => ((x, y) : (Ty.cons false (.arr n .bool) rest).Val)))
            (fun s => rfl) (fun u => by simp only [unpackFields, Ty.unpackBools]; rfl)
        · exact hfield (Or.inr ⟨h1, fun n hn => h2 ⟨n, hn⟩⟩)

/-- C16: unpacking the packed image into the same shape gives the value back, consumes exactly the image
and returns the same size, whatever follows. -/
theorem C16_roundtrip (t : Ty) (hs : t.isStruct = true) (hw : t.wf = true) (v : t.Val) (rest : Bytes) :
    unpack t ((pack t v).1 ++ rest) = .ok (v, (pack t v).2, rest) := by
  obtain ⟨W, h1, h2, -⟩ := inverse_pack t hs hw v .init (by decide) (by simp [PackSt.init])
  obtain ⟨s', h3, h4, h5⟩ := h2 rfl 0#8 rest
  have hout : (pack t v).1 = W := by simpa [pack, PackSt.init] using h1
  simp only [PackSt.init] at h3
  rw [hout]
  simp only [unpack, h3, Res.bind_ok, h4, h5]
  rfl

end Gologix
