import Verif.Spec.ServerIo
import Verif.Props.Pack
import Verif.Lemmas.Read
/-
Class 1 connections (C52, C69).
-/
set_option linter.unusedSimpArgs false
namespace Gologix.ServerIo
open Gologix.Server

/-! ### Unpacking in place -/

/-- A step in place and a step that makes a new value agree. -/
def Agree {α : Type} (r : Res (α × UnpackSt)) (i : α × Res UnpackSt) : Prop :=
  match r with
  | .ok (v, s) => i = (v, .ok s)
  | .err e => i.2 = .err e
  | .panic => False

theorem agree_bit (st : UnpackSt) (old : Bool) : Agree st.bit (unpackBitInto old st) := by
  unfold unpackBitInto UnpackSt.bit
  split
  · cases st.src <;> simp [bind, Res.bind, Agree]
  · simp [bind, Res.bind, Agree]

theorem agree_bits (n : Nat) (old : Rep n Bool) (st : UnpackSt) :
    Agree (unpackBits n st) (unpackBitsInto n old st) := by
  induction n generalizing st with
  | zero => rfl
  | succ n ih =>
    have hb := agree_bit st false
    simp only [unpackBits, unpackBitsInto]
    cases h : st.bit with
    | panic => rw [h] at hb; exact hb
    | err e => rfl
    | ok p =>
      have := ih old.2 p.2
      simp only [Res.bind_ok]
      cases hr : unpackBits n p.2 with
      | panic => rw [hr] at this; exact this
      | err e => rw [hr] at this; exact this
      | ok q =>
        rw [hr] at this
        have e : unpackBitsInto n old.2 p.2 = (q.1, .ok q.2) := this
        show (_, _) = (_, _)
        rw [e]

/-- The common shape of the fields. -/
theorem agree_seq {f rest : Ty} {r : Res (f.Val × UnpackSt)} {i : f.Val × Res UnpackSt} (old : rest.Val)
    (h : Agree r i) (hr : ∀ st, Agree (unpackFields rest st) (unpackInto rest old st)) :
    Agree (α := f.Val × rest.Val) (do let (v, st) ← r; let (vs, st) ← unpackFields rest st; .ok ((v, vs), st))
      (match i.2 with
        | .ok st => ((i.1, (unpackInto rest old st).1), (unpackInto rest old st).2)
        | .err e => ((i.1, old), .err e)
        | .panic => ((i.1, old), .panic)) := by
  cases r with
  | panic => exact h
  | err e =>
    have : i.2 = .err e := h
    rw [this]; rfl
  | ok p =>
    have : i = (p.1, .ok p.2) := h
    subst this
    have := hr p.2
    simp only [Res.bind_ok]
    cases h2 : unpackFields rest p.2 with
    | panic => rw [h2] at this; exact this
    | err e => rw [h2] at this; exact this
    | ok q =>
      rw [h2] at this
      have e : unpackInto rest old p.2 = (q.1, .ok q.2) := this
      show (_, _) = (_, _)
      rw [e]

/-- Unpacking in place succeeds when unpacking does, with the same value, and fails when it does. -/
theorem agree_into (t : Ty) (hs : t.isStruct = true) (hw : t.wf = true) (old : t.Val) (st : UnpackSt) :
    Agree (unpackFields t st) (unpackInto t old st) := by
  induction t generalizing st with
  | num k => simp [Ty.isStruct] at hs
  | bool => simp [Ty.isStruct] at hs
  | arr n t ih => simp [Ty.isStruct] at hs
  | nil => rfl
  | cons np f rest ihf ihr =>
    simp only [Ty.wf, Bool.and_eq_true] at hw
    obtain ⟨⟨hwf, hwr⟩, hsr⟩ := hw
    have hrest := fun st => ihr hsr hwr old.2 st
    have hpad : ∀ (u : UnpackSt) a, u.pad a ≠ .panic := by
      intro u a
      simp only [UnpackSt.pad]
      split
      · split <;> simp
      · simp
    have hrd : ∀ n s, readN n s ≠ .panic := by
      intro n s
      unfold readN
      split
      · simp
      · split
        · simp
        · split <;> simp
    have key : Agree (match (if np then none else f.unpackBools) with
        | some g => g st
        | none => do
          let st ← ({ st with bitpos := 0 } : UnpackSt).pad f.align
          if f.isStruct then
            let (v, r) ← unpackFields f ⟨st.src, 0, 0, 0#8⟩
            .ok (v, { st with src := r.src, n := st.n + r.n })
          else
            let (b, src) ← readN f.flat st.src
            .ok ((f.dec b).1, { st with src := src, n := st.n + f.goSize }))
        (match (if np then none else boolsInto f) with
        | some g => g old.1 st
        | none =>
          match ({ st with bitpos := 0 } : UnpackSt).pad f.align with
          | .err e => (old.1, .err e)
          | .panic => (old.1, .panic)
          | .ok st =>
            if f.isStruct then
              (((unpackInto f old.1 ⟨st.src, 0, 0, 0#8⟩).1, (unpackInto f old.1 ⟨st.src, 0, 0, 0#8⟩).2.bind
                fun s => .ok { st with src := s.src, n := st.n + s.n }) : f.Val × Res UnpackSt)
            else match readN f.flat st.src with
              | .ok (b, src) => ((f.dec b).1, .ok { st with src := src, n := st.n + f.goSize })
              | .err e => (old.1, .err e)
              | .panic => (old.1, .panic)) := by
      have hfield : Agree (do
          let st ← ({ st with bitpos := 0 } : UnpackSt).pad f.align
          if f.isStruct then
            let (v, r) ← unpackFields f ⟨st.src, 0, 0, 0#8⟩
            .ok (v, { st with src := r.src, n := st.n + r.n })
          else
            let (b, src) ← readN f.flat st.src
            .ok ((f.dec b).1, { st with src := src, n := st.n + f.goSize }))
          (match ({ st with bitpos := 0 } : UnpackSt).pad f.align with
          | .err e => (old.1, .err e)
          | .panic => (old.1, .panic)
          | .ok st =>
            if f.isStruct then
              (((unpackInto f old.1 ⟨st.src, 0, 0, 0#8⟩).1, (unpackInto f old.1 ⟨st.src, 0, 0, 0#8⟩).2.bind
                fun s => .ok { st with src := s.src, n := st.n + s.n }) : f.Val × Res UnpackSt)
            else match readN f.flat st.src with
              | .ok (b, src) => ((f.dec b).1, .ok { st with src := src, n := st.n + f.goSize })
              | .err e => (old.1, .err e)
              | .panic => (old.1, .panic)) := by
        cases hp : ({ st with bitpos := 0 } : UnpackSt).pad f.align with
        | panic => exact absurd hp (hpad _ _)
        | err e => rfl
        | ok u =>
          simp only [Res.bind_ok]
          by_cases hst : f.isStruct = true
          · simp only [hst, if_true]
            have := ihf hst hwf old.1 ⟨u.src, 0, 0, 0#8⟩
            cases h : unpackFields f ⟨u.src, 0, 0, 0#8⟩ with
            | panic => rw [h] at this; exact this
            | err e =>
              rw [h] at this
              have e : (unpackInto f old.1 ⟨u.src, 0, 0, 0#8⟩).2 = .err e := this
              show Res.bind _ _ = _
              rw [e]; rfl
            | ok q =>
              rw [h] at this
              have e : unpackInto f old.1 ⟨u.src, 0, 0, 0#8⟩ = (q.1, .ok q.2) := this
              show (_, _) = (_, _)
              rw [e]; rfl
          · rw [if_neg hst, if_neg hst]
            cases h : readN f.flat u.src with
            | panic => exact absurd h (hrd _ _)
            | err e => rfl
            | ok q => rfl
      cases np with
      | true => exact hfield
      | false =>
        cases f with
        | bool => exact agree_bit st old.1
        | arr n t =>
          cases t with
          | bool => exact agree_bits n old.1 st
          | _ => exact hfield
        | _ => exact hfield
    exact agree_seq old.2 key hrest

/-! ### Messages that are too short -/

/-- Nothing is unpacked from nothing. -/
theorem solid_empty (t : Ty) (hs : t.isStruct = true) (hw : t.wf = true) (hso : Spec.solid t = true) (hf : 0 < t.flat)
    (n : Nat) (c : Byte) (v : t.Val) (s : UnpackSt) : unpackFields t ⟨[], n, 0, c⟩ ≠ .ok (v, s) := by
  induction t generalizing n c s with
  | num k => simp [Ty.isStruct] at hs
  | bool => simp [Ty.isStruct] at hs
  | arr n t ih => simp [Ty.isStruct] at hs
  | nil => simp [Ty.flat] at hf
  | cons np f rest ihf ihr =>
    simp only [Ty.wf, Bool.and_eq_true] at hw
    obtain ⟨⟨hwf, hwr⟩, hsr⟩ := hw
    simp only [Spec.solid, Bool.and_eq_true, decide_eq_true_eq] at hso
    obtain ⟨⟨hff, hsf⟩, hsor⟩ := hso
    intro h
    simp only [unpackFields] at h
    obtain ⟨⟨x, u⟩, h1, -⟩ := Res.bind_eq_ok.mp h
    clear h
    have hfield : ¬ ∃ (x : f.Val) (u : UnpackSt), (do
        let st ← ({ (⟨[], n, 0, c⟩ : UnpackSt) with bitpos := 0 } : UnpackSt).pad f.align
        if f.isStruct then
          let (v, r) ← unpackFields f ⟨st.src, 0, 0, 0#8⟩
          .ok (v, { st with src := r.src, n := st.n + r.n })
        else
          let (b, src) ← readN f.flat st.src
          .ok ((f.dec b).1, { st with src := src, n := st.n + f.goSize })) = Res.ok (x, u) := by
      rintro ⟨x, u, h1⟩
      obtain ⟨w, h2, h3⟩ := Res.bind_eq_ok.mp h1
      have hw : w.src = [] := by
        simp only [UnpackSt.pad] at h2
        split at h2
        · simp at h2
        · cases h2; rfl
      by_cases hst : f.isStruct = true
      · rw [if_pos hst] at h3
        obtain ⟨⟨y, r⟩, h4, -⟩ := Res.bind_eq_ok.mp h3
        rw [hw] at h4
        exact ihf hst hwf hsf hff _ _ _ _ h4
      · rw [if_neg hst] at h3
        obtain ⟨⟨y, r⟩, h4, -⟩ := Res.bind_eq_ok.mp h3
        rw [hw] at h4
        obtain ⟨h5, h6⟩ := readN_ok h4
        have := congrArg List.length h6
        simp at this
        omega
    have hbit : ∀ b s, (⟨[], n, 0, c⟩ : UnpackSt).bit ≠ .ok (b, s) := by
      intro b s h; cases h
    cases np with
    | true => exact hfield ⟨x, u, h1⟩
    | false =>
      cases f with
      | bool => exact hbit _ _ h1
      | arr m t =>
        cases t with
        | bool =>
          cases m with
          | zero => simp [Ty.flat] at hff
          | succ m =>
            have h1' : unpackBits (m + 1) ⟨[], n, 0, c⟩ = .ok (x, u) := h1
            simp only [unpackBits] at h1'
            obtain ⟨⟨b, s⟩, h2, -⟩ := Res.bind_eq_ok.mp h1'
            exact hbit _ _ h2
        | _ => exact hfield ⟨x, u, h1⟩
      | _ => exact hfield ⟨x, u, h1⟩

/-- Two states at the same place of the layout. -/
def SameAt (s u : UnpackSt) : Prop := s.n = u.n ∧ s.bitpos = u.bitpos

theorem same_bit {s u s' u' : UnpackSt} {a b : Bool} (h : SameAt s u) (h1 : s.bit = .ok (a, s')) (h2 : u.bit = .ok (b, u')) :
    SameAt s' u' ∧ s.src.length + u'.src.length = u.src.length + s'.src.length := by
  obtain ⟨hn, hb⟩ := h
  unfold UnpackSt.bit at h1 h2
  by_cases h0 : s.bitpos = 0
  · have h0' : u.bitpos = 0 := by omega
    rw [if_pos h0] at h1
    rw [if_pos h0'] at h2
    cases hs : s.src with
    | nil => rw [hs] at h1; cases h1
    | cons x xs =>
      cases hu : u.src with
      | nil => rw [hu] at h2; cases h2
      | cons y ys =>
        rw [hs] at h1
        rw [hu] at h2
        cases h1
        cases h2
        simp only [SameAt, hn, hb, List.length_cons]
        exact ⟨⟨trivial, trivial⟩, by omega⟩
  · have h0' : ¬ u.bitpos = 0 := by omega
    rw [if_neg h0] at h1
    rw [if_neg h0'] at h2
    cases h1
    cases h2
    simp only [SameAt, hn, hb]
    exact ⟨⟨trivial, trivial⟩, by omega⟩

theorem same_bits (n : Nat) {s u s' u' : UnpackSt} {a b : Rep n Bool} (h : SameAt s u)
    (h1 : unpackBits n s = .ok (a, s')) (h2 : unpackBits n u = .ok (b, u')) :
    SameAt s' u' ∧ s.src.length + u'.src.length = u.src.length + s'.src.length := by
  induction n generalizing s u with
  | zero => cases h1; cases h2; exact ⟨h, by omega⟩
  | succ n ih =>
    simp only [unpackBits] at h1 h2
    obtain ⟨⟨a1, s1⟩, h3, h4⟩ := Res.bind_eq_ok.mp h1
    obtain ⟨⟨a2, s2⟩, h5, h6⟩ := Res.bind_eq_ok.mp h4
    obtain ⟨⟨b1, u1⟩, h7, h8⟩ := Res.bind_eq_ok.mp h2
    obtain ⟨⟨b2, u2⟩, h9, h10⟩ := Res.bind_eq_ok.mp h8
    cases h6
    cases h10
    obtain ⟨e1, e2⟩ := same_bit h h3 h7
    obtain ⟨e3, e4⟩ := ih e1 h5 h9
    exact ⟨e3, by omega⟩

/-- How much is consumed depends on the shape only. -/
theorem same_unpack (t : Ty) (hs : t.isStruct = true) (hw : t.wf = true) (hso : Spec.solid t = true)
    {s u s' u' : UnpackSt} {a b : t.Val} (h : SameAt s u) (h1 : unpackFields t s = .ok (a, s')) (h2 : unpackFields t u = .ok (b, u')) :
    SameAt s' u' ∧ s.src.length + u'.src.length = u.src.length + s'.src.length := by
  induction t generalizing s u s' u' with
  | num k => simp [Ty.isStruct] at hs
  | bool => simp [Ty.isStruct] at hs
  | arr n t ih => simp [Ty.isStruct] at hs
  | nil => cases h1; cases h2; exact ⟨h, by omega⟩
  | cons np f rest ihf ihr =>
    simp only [Ty.wf, Bool.and_eq_true] at hw
    obtain ⟨⟨hwf, hwr⟩, hsr⟩ := hw
    simp only [Spec.solid, Bool.and_eq_true, decide_eq_true_eq] at hso
    obtain ⟨⟨hff, hsf⟩, hsor⟩ := hso
    simp only [unpackFields] at h1 h2
    obtain ⟨⟨x, s1⟩, h3, h4⟩ := Res.bind_eq_ok.mp h1
    obtain ⟨⟨x2, s2⟩, h5, h6⟩ := Res.bind_eq_ok.mp h4
    obtain ⟨⟨y, u1⟩, h7, h8⟩ := Res.bind_eq_ok.mp h2
    obtain ⟨⟨y2, u2⟩, h9, h10⟩ := Res.bind_eq_ok.mp h8
    cases h6
    cases h10
    clear h1 h2 h4 h8
    suffices hk : SameAt s1 u1 ∧ s.src.length + u1.src.length = u.src.length + s1.src.length by
      obtain ⟨e3, e4⟩ := ihr hsr hwr hsor hk.1 h5 h9
      have := hk.2
      exact ⟨e3, by simp only; omega⟩
    clear h5 h9 ihr
    have hfield : ∀ {s u : UnpackSt}, SameAt s u → (do
        let st ← ({ s with bitpos := 0 } : UnpackSt).pad f.align
        if f.isStruct then
          let (v, r) ← unpackFields f ⟨st.src, 0, 0, 0#8⟩
          .ok (v, { st with src := r.src, n := st.n + r.n })
        else
          let (b, src) ← readN f.flat st.src
          .ok ((f.dec b).1, { st with src := src, n := st.n + f.goSize })) = Res.ok (x, s1) → (do
        let st ← ({ u with bitpos := 0 } : UnpackSt).pad f.align
        if f.isStruct then
          let (v, r) ← unpackFields f ⟨st.src, 0, 0, 0#8⟩
          .ok (v, { st with src := r.src, n := st.n + r.n })
        else
          let (b, src) ← readN f.flat st.src
          .ok ((f.dec b).1, { st with src := src, n := st.n + f.goSize })) = Res.ok (y, u1) →
        SameAt s1 u1 ∧ s.src.length + u1.src.length = u.src.length + s1.src.length := by
      intro s u hsu h1 h2
      obtain ⟨p, h3, h4⟩ := Res.bind_eq_ok.mp h1
      obtain ⟨q, h5, h6⟩ := Res.bind_eq_ok.mp h2
      -- what follows the padding is not empty, so the padding was complete
      have padding : ∀ {w p : UnpackSt}, ({ w with bitpos := 0 } : UnpackSt).pad f.align = .ok p → p.src ≠ [] →
          p.bitpos = 0 ∧ ∃ k, p.n = w.n + k ∧ w.src.length = p.src.length + k ∧
            k = if f.align - w.n % f.align < f.align ∧ 0 < f.align - w.n % f.align then f.align - w.n % f.align else 0 := by
        intro w p hp hne
        simp only [UnpackSt.pad] at hp
        split at hp
        · rename_i hc
          split at hp
          · cases hp
          · cases hp
            refine ⟨rfl, _, rfl, ?_, by rw [if_pos hc]⟩
            have : 0 < (w.src.drop (f.align - w.n % f.align)).length := List.length_pos_iff.mpr hne
            simp only [List.length_drop] at this ⊢
            omega
        · rename_i hc
          cases hp
          exact ⟨rfl, 0, rfl, rfl, by rw [if_neg hc]⟩
      by_cases hst : f.isStruct = true
      · rw [if_pos hst] at h4 h6
        obtain ⟨⟨v, r⟩, h7, h8⟩ := Res.bind_eq_ok.mp h4
        obtain ⟨⟨v', r'⟩, h9, h10⟩ := Res.bind_eq_ok.mp h6
        have n1 : p.src ≠ [] := by
          intro he; rw [he] at h7; exact solid_empty f hst hwf hsf hff _ _ _ _ h7
        have n2 : q.src ≠ [] := by
          intro he; rw [he] at h9; exact solid_empty f hst hwf hsf hff _ _ _ _ h9
        obtain ⟨e1, k, e2, e3, e4⟩ := padding h3 n1
        obtain ⟨e1', k', e2', e3', e4'⟩ := padding h5 n2
        obtain ⟨⟨e5, -⟩, e6⟩ := ihf hst hwf hsf (s := ⟨p.src, 0, 0, 0#8⟩) (u := ⟨q.src, 0, 0, 0#8⟩) ⟨rfl, rfl⟩ h7 h9
        cases h8
        cases h10
        have hk : k = k' := by rw [e4, e4', hsu.1]
        have := hsu.1
        simp only at e6
        refine ⟨⟨?_, ?_⟩, ?_⟩ <;> simp only
        · omega
        · omega
        · omega
      · rw [if_neg hst] at h4 h6
        obtain ⟨⟨v, r⟩, h7, h8⟩ := Res.bind_eq_ok.mp h4
        obtain ⟨⟨v', r'⟩, h9, h10⟩ := Res.bind_eq_ok.mp h6
        obtain ⟨g1, g2⟩ := readN_ok h7
        obtain ⟨g3, g4⟩ := readN_ok h9
        have g2' := congrArg List.length g2
        have g4' := congrArg List.length g4
        simp only [List.length_append] at g2' g4'
        have n1 : p.src ≠ [] := by
          intro he; rw [he] at g2'; simp at g2'; omega
        have n2 : q.src ≠ [] := by
          intro he; rw [he] at g4'; simp at g4'; omega
        obtain ⟨e1, k, e2, e3, e4⟩ := padding h3 n1
        obtain ⟨e1', k', e2', e3', e4'⟩ := padding h5 n2
        cases h8
        cases h10
        have hk : k = k' := by rw [e4, e4', hsu.1]
        have := hsu.1
        refine ⟨⟨?_, ?_⟩, ?_⟩ <;> simp only
        · omega
        · omega
        · omega
    cases np with
    | true => exact hfield h h3 h7
    | false =>
      cases f with
      | bool => exact same_bit h h3 h7
      | arr m t =>
        cases t with
        | bool => exact same_bits m h h3 h7
        | _ => exact hfield h h3 h7
      | _ => exact hfield h h3 h7

/-- A source shorter than the packed size is refused. -/
theorem unpack_short (t : Ty) (hs : t.isStruct = true) (hw : t.wf = true) (hso : Spec.solid t = true) (v0 : t.Val) (b : Bytes)
    (hb : b.length < (pack t v0).1.length) : ∀ v s, unpackFields t ⟨b, 0, 0, 0#8⟩ ≠ .ok (v, s) := by
  intro v s h
  have h2 := C16_roundtrip t hs hw v0 []
  unfold unpack at h2
  obtain ⟨⟨w, u⟩, h3, h4⟩ := Res.bind_eq_ok.mp h2
  simp only [Res.ok.injEq, Prod.mk.injEq] at h4
  obtain ⟨-, -, h5⟩ := h4
  obtain ⟨-, e⟩ := same_unpack t hs hw hso (s := ⟨b, 0, 0, 0#8⟩)
    (u := ⟨(pack t v0).1 ++ [], 0, 0, 0#8⟩) ⟨rfl, rfl⟩ h h3
  simp only [List.length_append, List.length_nil, h5] at e
  omega

/-! ### Output messages -/

theorem read_at {it : Item} {a b c : Bytes} {n : Nat} (hd : it.data = a ++ (b ++ c)) (hp : it.pos = a.length)
    (hn : b.length = n) : it.read n = (.ok b, { it with pos := it.pos + n }) := by
  have e : readN n (it.data.drop it.pos) = .ok (b, c) := by
    rw [hd, hp, List.drop_left, readN_append' hn]
  simp [Item.read, e]

/-- The payload is what follows the six bytes of sequence count and header. -/
theorem payload_of (i0 : Item) (hdr out : Bytes) (hh : hdr.length = 6) (hl : out.length + 6 < 65536) :
    ioPayload [i0, ⟨0xB1#16, BitVec.ofNat 16 (hdr ++ out).length, hdr ++ out, 0⟩] = .ok out := by
  have h1 : hdr = hdr.take 4 ++ hdr.drop 4 := (List.take_append_drop 4 hdr).symm
  have r1 := read_at (it := ⟨0xB1#16, BitVec.ofNat 16 (hdr ++ out).length, hdr ++ out, 0⟩) (a := []) (b := hdr.take 4)
    (c := hdr.drop 4 ++ out) (n := 4) (by simp [← List.append_assoc]) rfl (by simp; omega)
  have r2 := read_at (it := ⟨0xB1#16, BitVec.ofNat 16 (hdr ++ out).length, hdr ++ out, 0 + 4⟩) (a := hdr.take 4)
    (b := hdr.drop 4) (c := out) (n := 2) (by simp [← List.append_assoc]) (by simp; omega) (by simp; omega)
  have hlen : (BitVec.ofNat 16 (hdr ++ out).length - 6#16).toNat = out.length := by
    simp only [List.length_append, hh, BitVec.toNat_sub, BitVec.toNat_ofNat]
    omega
  have r3 := read_at (it := ⟨0xB1#16, BitVec.ofNat 16 (hdr ++ out).length, hdr ++ out, 0 + 4 + 2⟩) (a := hdr)
    (b := out) (c := []) (n := out.length) (by simp) (by simp [hh]) rfl
  simp only [ioPayload, ne_eq, not_true, if_false, r1, r2, Res.bind, hlen, r3]

/-- What a whole buffer with a message in front is taken for. -/
theorem target_of (conns : ConnTable) (router : Router Nat) (conn seq : BitVec 32) (data dg rest : Bytes) (c : Conn) (e : Nat)
    (h0 : 0 < dg.length) (h1 : dg.length < 4096)
    (hb : dg ++ List.replicate (4096 - dg.length) 0#8 = Spec.ioMessage conn seq data ++ rest)
    (hl : data.length < 65536) (hc : conns.getByOT conn = .ok c) (hr : router.resolve c.path = .ok e) :
    ∃ i0, udpTarget conns router dg = .ok (e, [i0, ⟨0xB1#16, BitVec.ofNat 16 data.length, data, 0⟩]) := by
  unfold udpTarget
  rw [if_neg (show ¬ (dg.length = 0 ∨ 4096 ≤ dg.length) by omega), hb]
  unfold Spec.ioMessage
  rw [readItems_cpf _ _ (by simp) (by intro x hx; simp at hx; rcases hx with rfl | rfl <;> simp <;> omega)]
  have r1 := read_at (it := ⟨0x8002#16, BitVec.ofNat 16 (le 4 conn.toNat ++ le 4 seq.toNat).length,
    le 4 conn.toNat ++ le 4 seq.toNat, 0⟩) (a := []) (b := le 4 conn.toNat ++ le 4 seq.toNat) (c := []) (n := 8)
    (by simp) rfl (by simp)
  have e1 : BitVec.ofNat 32 (unle ((le 4 conn.toNat ++ le 4 seq.toNat).take 4)) = conn := by
    rw [List.take_left' (by simp), unle_le_of_lt (by have := conn.isLt; omega)]
    simp
  simp only [Res.bind_ok, List.map_cons, List.map_nil, ne_eq, not_true, if_false, r1, Res.bind, e1, hc, hr]
  exact ⟨_, rfl⟩

/-- C52, outputs: a datagram of an open connection reaches the provider of its path, and what the provider
unpacks is the output data that follow the sequence count and the header. -/
theorem C52_output_reaches (conns : ConnTable) (router : Router Nat) (conn seq hdr : BitVec 32) (count : BitVec 16)
    (output : Bytes) (c : Conn) (e : Nat) (hl : output.length + 24 < 4096)
    (hc : conns.getByOT conn = .ok c) (hr : router.resolve c.path = .ok e) :
    ∃ items, udpTarget conns router (Spec.ioOutput conn seq count hdr output) = .ok (e, items) ∧
      ioPayload items = .ok output := by
  have hlen : (Spec.ioOutput conn seq count hdr output).length = 24 + output.length := by
    simp [Spec.ioOutput, Spec.ioMessage, Spec.cpf, Spec.item]; omega
  obtain ⟨i0, h⟩ := target_of conns router conn seq (le 2 count.toNat ++ (le 4 hdr.toNat ++ output))
    (Spec.ioOutput conn seq count hdr output) _ c e (by omega) (by omega) rfl (by simp; omega) hc hr
  refine ⟨_, h, ?_⟩
  have := payload_of i0 (le 2 count.toNat ++ le 4 hdr.toNat) output (by simp) (by omega)
  rw [List.append_assoc] at this
  exact this

/-- C52, outputs: when the payload begins with the packed image of a value, the outputs become this value. -/
theorem C52_output_unpacked {tin tout : Ty} (hs : tout.isStruct = true) (hw : tout.wf = true) (p : Provider tin tout)
    (items : List Item) (v : tout.Val) (rest : Bytes) (h : ioPayload items = .ok ((pack tout v).1 ++ rest)) :
    p.ioWrite items = ({ p with out := v }, .ok ()) := by
  have h2 := C16_roundtrip tout hs hw v rest
  unfold unpack at h2
  obtain ⟨⟨w, u⟩, h3, h4⟩ := Res.bind_eq_ok.mp h2
  simp only [Res.ok.injEq, Prod.mk.injEq] at h4
  have ha := agree_into tout hs hw p.out ⟨(pack tout v).1 ++ rest, 0, 0, 0#8⟩
  rw [h3] at ha
  have ha' : unpackInto tout p.out ⟨(pack tout v).1 ++ rest, 0, 0, 0#8⟩ = (w, .ok u) := ha
  unfold Provider.ioWrite
  rw [h]
  simp only [ha', Res.bind, h4.1]

/-- C52, outputs: whatever the payload is, the outputs become what it unpacks to. -/
theorem C52_output_any {tin tout : Ty} (hs : tout.isStruct = true) (hw : tout.wf = true) (p : Provider tin tout)
    (items : List Item) (b : Bytes) (v : tout.Val) (n : Nat) (rest : Bytes) (h : ioPayload items = .ok b)
    (hu : unpack tout b = .ok (v, n, rest)) : p.ioWrite items = ({ p with out := v }, .ok ()) := by
  unfold unpack at hu
  obtain ⟨⟨w, u⟩, h3, h4⟩ := Res.bind_eq_ok.mp hu
  simp only [Res.ok.injEq, Prod.mk.injEq] at h4
  have ha := agree_into tout hs hw p.out ⟨b, 0, 0, 0#8⟩
  rw [h3] at ha
  have ha' : unpackInto tout p.out ⟨b, 0, 0, 0#8⟩ = (w, .ok u) := ha
  unfold Provider.ioWrite
  rw [h]
  simp only [ha', Res.bind, h4.1]

/-- C52: a message whose payload is shorter than the packed output structure is an error, for shapes all of
whose fields have a size. -/
theorem C52_short_error {tin tout : Ty} (hs : tout.isStruct = true) (hw : tout.wf = true) (hso : Spec.solid tout = true)
    (p : Provider tin tout) (items : List Item) (b : Bytes) (v : tout.Val) (h : ioPayload items = .ok b)
    (hb : b.length < (pack tout v).1.length) : ∃ e, (p.ioWrite items).2 = .err e := by
  have hu := unpack_short tout hs hw hso v b hb
  have ha := agree_into tout hs hw p.out ⟨b, 0, 0, 0#8⟩
  unfold Provider.ioWrite
  rw [h]
  cases hr : unpackFields tout ⟨b, 0, 0, 0#8⟩ with
  | ok q => exact absurd hr (hu _ _)
  | panic => rw [hr] at ha; exact absurd ha id
  | err e =>
    rw [hr] at ha
    have ha' : (unpackInto tout p.out ⟨b, 0, 0, 0#8⟩).2 = .err e := ha
    exact ⟨e, by simp only [ha', Res.bind]⟩

/-- C52 is false for a shape with a field of size zero: part of the padding in front of it is enough. -/
theorem C52_empty_field_accepted {tin : Ty} (i : tin.Val) (a x y : BitVec 8) (items : List Item)
    (h : ioPayload items = .ok [x, y]) :
    (pack (.cons false (.num 1) (.cons false (.arr 0 (.num 4)) .nil)) (x, ((), ()))).1.length = 4 ∧
    (Provider.ioWrite (tin := tin) (tout := .cons false (.num 1) (.cons false (.arr 0 (.num 4)) .nil)) ⟨i, (a, ((), ()))⟩ items) =
      (⟨i, (x, ((), ()))⟩, .ok ()) := by
  refine ⟨rfl, ?_⟩
  unfold Provider.ioWrite
  rw [h]
  have hx : BitVec.ofNat 8 (unle [x]) = x := by simp [unle]
  simp [unpackInto, boolsInto, UnpackSt.pad, Ty.align, Ty.goAlign, Ty.isStruct, readN, Ty.flat, Ty.goSize, Ty.goSizeEnd,
    Ty.dec, decRep, hx, Res.bind]

/-- C52: a data item without room for the sequence count and the header is an error, and changes nothing. -/
theorem C52_short_item_error {tin tout : Ty} (p : Provider tin tout) (i0 : Item) (len : BitVec 16) (data : Bytes)
    (h : data.length < 6) : ∃ e, p.ioWrite [i0, ⟨0xB1#16, len, data, 0⟩] = (p, .err e) := by
  suffices h : ∃ e, ioPayload [i0, ⟨0xB1#16, len, data, 0⟩] = .err e by
    obtain ⟨e, h⟩ := h
    exact ⟨e, by unfold Provider.ioWrite; rw [h]⟩
  have short : ∀ n (s : Bytes), s.length < n → ∃ e, readN n s = .err e := by
    intro n s hn
    unfold readN
    rw [if_neg (by omega)]
    split
    · exact ⟨_, rfl⟩
    · exact ⟨_, rfl⟩
  simp only [ioPayload, ne_eq, not_true, if_false]
  by_cases h4 : data.length < 4
  · obtain ⟨e, he⟩ := short 4 data h4
    exact ⟨e, by simp only [Item.read, List.drop_zero, he, Res.bind]⟩
  · have r1 := read_at (it := ⟨0xB1#16, len, data, 0⟩) (a := []) (b := data.take 4) (c := data.drop 4) (n := 4)
      (by simp) rfl (by simp; omega)
    obtain ⟨e, he⟩ := short 2 (data.drop 4) (by simp; omega)
    refine ⟨e, ?_⟩
    simp only [r1, Res.bind, Nat.zero_add]
    simp only [Item.read, he]

/-- C52 is false for a datagram that is cut: the missing end of the payload is taken to be zeros, and no error
is noticed. -/
theorem C52_cut_datagram_accepted (conns : ConnTable) (router : Router Nat) (conn seq hdr : BitVec 32) (count : BitVec 16)
    (a b : Bytes) (c : Conn) (e : Nat) (hl : (a ++ b).length + 24 < 4096)
    (hc : conns.getByOT conn = .ok c) (hr : router.resolve c.path = .ok e) :
    ∃ items, udpTarget conns router ((Spec.ioOutput conn seq count hdr (a ++ b)).take (24 + a.length)) = .ok (e, items) ∧
      ioPayload items = .ok (a ++ List.replicate b.length 0#8) := by
  have hlen : ∀ x, (Spec.ioOutput conn seq count hdr x).length = 24 + x.length := by
    intro x; simp [Spec.ioOutput, Spec.ioMessage, Spec.cpf, Spec.item]; omega
  -- the front of the message, which does not depend on what the payload is
  have hfront : ∀ x : Bytes, Spec.ioOutput conn seq count hdr x =
      (le 2 2 ++ (Spec.item 0x8002#16 (le 4 conn.toNat ++ le 4 seq.toNat) ++ (le 2 0xB1 ++ (le 2 (6 + x.length) ++
        (le 2 count.toNat ++ le 4 hdr.toNat))))) ++ x := by
    intro x
    simp only [Spec.ioOutput, Spec.ioMessage, Spec.cpf, Spec.item]
    simp
    congr 1
    omega
  have hz : (a ++ List.replicate b.length 0#8).length = (a ++ b).length := by simp
  simp only [List.length_append] at hl
  have htake : (Spec.ioOutput conn seq count hdr (a ++ b)).take (24 + a.length) ++
      List.replicate (4096 - (24 + a.length)) 0#8 =
      Spec.ioOutput conn seq count hdr (a ++ List.replicate b.length 0#8) ++ List.replicate (4096 - (24 + a.length + b.length)) 0#8 := by
    rw [hfront, hfront, hz, ← List.append_assoc, List.take_left' (by simp [Spec.item]; omega)]
    rw [show 4096 - (24 + a.length) = b.length + (4096 - (24 + a.length + b.length)) by omega, ← List.replicate_append_replicate]
    simp
  have hl2 : ((Spec.ioOutput conn seq count hdr (a ++ b)).take (24 + a.length)).length = 24 + a.length := by
    rw [List.length_take, hlen]; simp
  obtain ⟨i0, h⟩ := target_of conns router conn seq (le 2 count.toNat ++ (le 4 hdr.toNat ++ (a ++ List.replicate b.length 0#8)))
    _ _ c e (by rw [hl2]; omega) (by rw [hl2]; omega) (by rw [hl2]; exact htake) (by simp; omega) hc hr
  refine ⟨_, h, ?_⟩
  have := payload_of i0 (le 2 count.toNat ++ le 4 hdr.toNat) (a ++ List.replicate b.length 0#8) (by simp) (by simp; omega)
  rw [List.append_assoc] at this
  exact this

/-! ### Input messages -/

theorem datagram_eq (to seq : BitVec 32) (dat : Bytes) (h : dat.length + 2 < 65536) :
    ioDatagram to seq dat = Spec.ioInput to seq dat := by
  simp only [ioDatagram, serializeItems, Spec.ioInput, Spec.ioMessage, Spec.cpf, Spec.item, List.foldl, Item.write,
    Item.new, Item.bytes, putBV]
  simp
  rw [Nat.mod_eq_of_lt (show 2 + dat.length < 65536 by omega), ← List.append_assoc, List.drop_left' (by simp)]

/-- C52, inputs: whatever the application and the network do, the datagrams of a connection are numbered
from 1 and carry, each, the packed inputs set last before its tick. -/
theorem C52_input_sent {tin tout : Ty} (to : BitVec 32) (p : Provider tin tout) (evs : List (Ev tin tout))
    (hl : ∀ v : tin.Val, (pack tin v).1.length + 2 < 65536) :
    (ioRun to (IoSt.start p) evs).sent =
      (Spec.inputsAt p.inp evs).mapIdx fun k v => Spec.ioInput to (BitVec.ofNat 32 (k + 1)) (pack tin v).1 := by
  suffices h : ∀ evs (st : IoSt tin tout) (k : Nat), st.seq = BitVec.ofNat 32 (k + 1) →
      (ioRun to st evs).sent = st.sent ++ if st.running ∧ st.isOpen then
        (Spec.inputsAt st.prov.inp evs).mapIdx fun i v => Spec.ioInput to (BitVec.ofNat 32 (k + i + 1)) (pack tin v).1
        else [] by
    have := h evs (IoSt.start p) 0 rfl
    simpa [IoSt.start] using this
  intro evs
  induction evs with
  | nil => intro st k _; simp [ioRun, Spec.inputsAt]
  | cons ev evs ih =>
    intro st k hk
    have hrun : ioRun to st (ev :: evs) = ioRun to (ioStep to st ev) evs := rfl
    rw [hrun]
    cases ev with
    | set v =>
      rw [ih _ k (by exact hk)]
      rfl
    | recv items =>
      rw [ih _ k (by exact hk)]
      have : ((st.prov.ioWrite items).1).inp = st.prov.inp := by
        unfold Provider.ioWrite
        split <;> rfl
      simp only [ioStep, this, Spec.inputsAt]
    | close =>
      rw [ih _ k (by exact hk)]
      simp [ioStep, Spec.inputsAt]
    | tick =>
      by_cases hr : st.running = true
      · by_cases ho : st.isOpen = true
        · have e : ioStep to st .tick = { st with
              sent := st.sent ++ [ioDatagram to st.seq st.prov.ioRead], seq := st.seq + 1 } := by
            simp [ioStep, hr, ho]
          rw [e, ih _ (k + 1) (by simp only [hk]; simp [BitVec.ofNat_add])]
          simp only [hr, ho, Spec.inputsAt]
          rw [show st.prov.ioRead = (pack tin st.prov.inp).1 from rfl, datagram_eq _ _ _ (hl _), hk]
          simp [List.mapIdx_cons, Provider.ioRead, Nat.add_assoc, Nat.add_comm, Nat.add_left_comm]
        · have e : ioStep to st .tick = { st with running := false } := by simp [ioStep, hr, ho]
          rw [e, ih _ k (by exact hk)]
          simp [ho]
      · have e : ioStep to st .tick = st := by simp [ioStep, hr]
        rw [e, ih _ k hk]
        simp [hr]

/-- C52, inputs: a scanner that parses the datagram and unpacks what follows the sequence count gets the inputs
back. -/
theorem C52_input_received {tin : Ty} (hs : tin.isStruct = true) (hw : tin.wf = true) (to seq : BitVec 32) (v : tin.Val)
    (hl : (pack tin v).1.length + 2 < 65536) :
    ∃ i0 i1, readItems (Spec.ioInput to seq (pack tin v).1) = .ok ([i0, i1], []) ∧
      i0.data = le 4 to.toNat ++ le 4 seq.toNat ∧ i1.id = 0xB1#16 ∧
      i1.data.take 2 = le 2 (seq.toNat % 65536) ∧ unpack tin (i1.data.drop 2) = .ok (v, (pack tin v).2, []) := by
  have h := readItems_cpf [(0x8002#16, le 4 to.toNat ++ le 4 seq.toNat), (0xB1#16, le 2 (seq.toNat % 65536) ++ (pack tin v).1)] []
    (by simp) (by intro x hx; simp at hx; rcases hx with rfl | rfl <;> simp <;> omega)
  rw [List.append_nil] at h
  refine ⟨_, _, h, rfl, rfl, List.take_left' (by simp), ?_⟩
  have := C16_roundtrip tin hs hw v []
  rw [List.append_nil] at this
  simp only
  rw [List.drop_left' (by simp)]
  exact this

/-! ### Channels -/

/-- The channel provider gives an output message to every channel if somebody waits at each of them. -/
theorem C52_channels_partial (t : Ty) (hs : t.isStruct = true) (hw : t.wf = true) (n : Nat) (items : List Item) (v : t.Val)
    (rest : Bytes) (h : ioPayload items = .ok ((pack t v).1 ++ rest)) :
    chanWrite t (List.replicate n true) items = .ok (List.replicate n (some v), true) := by
  have h2 := C16_roundtrip t hs hw v rest
  unfold chanWrite
  rw [h, Res.bind_ok, h2, Res.bind_ok]
  have e : (List.replicate n true).findIdx (· == false) = n := by
    have := List.findIdx_eq_length_of_false (p := (· == false)) (xs := List.replicate n true) (by
      intro x hx; rw [List.eq_of_mem_replicate hx]; rfl)
    simpa using this
  simp only [e, List.length_replicate, decide_true]
  congr 2
  rw [List.eq_replicate_iff]
  refine ⟨by simp, fun x hx => ?_⟩
  simp only [List.mem_map, List.mem_range] at hx
  obtain ⟨i, hi, rfl⟩ := hx
  rw [if_pos hi]

/-- C52 is false for the channel provider: when nobody waits at a channel at that moment, neither this channel
nor any channel after it gets the message, even if somebody waits there. -/
theorem C52_channel_skipped (t : Ty) (hs : t.isStruct = true) (hw : t.wf = true) (k : Nat) (ready : List Bool)
    (items : List Item) (v : t.Val) (rest : Bytes) (h : ioPayload items = .ok ((pack t v).1 ++ rest)) :
    chanWrite t (List.replicate k true ++ false :: ready) items =
      .ok (List.replicate k (some v) ++ List.replicate (1 + ready.length) none, false) := by
  have h2 := C16_roundtrip t hs hw v rest
  unfold chanWrite
  rw [h, Res.bind_ok, h2, Res.bind_ok]
  have e : (List.replicate k true ++ false :: ready).findIdx (· == false) = k := by
    induction k with
    | zero => simp [List.findIdx_cons]
    | succ k ih => simp [List.replicate_succ, List.findIdx_cons] at ih ⊢; exact ih
  simp only [e]
  congr 2
  · apply List.ext_getElem
    · simp; omega
    · intro i h3 h4
      simp only [List.getElem_map, List.getElem_range]
      by_cases hi : i < k
      · rw [if_pos hi, List.getElem_append_left (by simpa using hi)]; simp
      · rw [if_neg hi, List.getElem_append_right (by simpa using hi)]; simp
  · simp

/-! ### Refused messages -/

/-- C69, for messages that are refused before the payload is unpacked. -/
theorem C69_refused_items_partial {tin tout : Ty} (p : Provider tin tout) (items : List Item)
    (h : ∀ b, ioPayload items ≠ .ok b) : (p.ioWrite items).1 = p := by
  unfold Provider.ioWrite
  cases hp : ioPayload items with
  | ok b => exact absurd hp (h b)
  | err e => rfl
  | panic => rfl

/-- C69 is false: a message that ends in the second number of a structure is refused, and has changed the
first. -/
theorem C69_partly_written {tin : Ty} (i : tin.Val) (a b x : BitVec 32) (items : List Item) (cut : Bytes)
    (hcut : cut.length < 4) (h : ioPayload items = .ok (le 4 x.toNat ++ cut)) :
    ∃ e, (Provider.ioWrite (tin := tin) (tout := .cons false (.num 4) (.cons false (.num 4) .nil)) ⟨i, (a, (b, ()))⟩ items) =
      (⟨i, (x, (b, ()))⟩, .err e) := by
  have short : ∃ e, readN 4 cut = .err e := by
    unfold readN
    rw [if_neg (by omega)]
    split
    · exact ⟨_, rfl⟩
    · exact ⟨_, rfl⟩
  obtain ⟨e, he⟩ := short
  refine ⟨e, ?_⟩
  have hx : BitVec.ofNat 32 (unle ((le 4 x.toNat).take 4)) = x := by
    rw [List.take_of_length_le (by simp), unle_le_of_lt (by have := x.isLt; omega)]; simp
  have r1 : readN (Ty.num 4).flat (le 4 x.toNat ++ cut) = .ok (le 4 x.toNat, cut) := readN_append' (by simp [Ty.flat])
  have r2 : readN (Ty.num 4).flat cut = .err e := he
  unfold Provider.ioWrite
  rw [h]
  simp [unpackInto, boolsInto, UnpackSt.pad, Ty.align, Ty.isStruct, r1, r2, Ty.goSize, Ty.goSizeEnd, Ty.dec, hx, Res.bind]

/-! ### Examples -/

/-- A structure of three bits, a 32-bit and a 16-bit number. -/
def demoTy : Ty := .cons false (.arr 3 .bool) (.cons false (.num 4) (.cons false (.num 2) .nil))

def demoVal (a b c : Bool) (x : BitVec 32) (y : BitVec 16) : demoTy.Val := ((a, (b, (c, ()))), (x, (y, ())))

example : demoTy.isStruct = true ∧ demoTy.wf = true ∧ Spec.solid demoTy = true := by decide

example : (pack demoTy (demoVal true false true 0x01020304#32 7#16)).1 =
    [5#8, 0#8, 0#8, 0#8, 4#8, 3#8, 2#8, 1#8, 7#8, 0#8] := by decide +kernel

def demoConns : ConnTable := ConnTable.init.add ⟨0, 1#16, 0x11223344#32, 9#32, 0#32, [1#8, 0#8]⟩
def demoRouter : Router Nat := Router.new.handle [1#8, 0#8] 5

/-- The hypotheses of `C52_output_reaches` hold for a server with one connection. -/
example : demoConns.getByOT 0x11223344#32 = .ok ⟨0, 1#16, 0x11223344#32, 9#32, 0#32, [1#8, 0#8]⟩ ∧
    demoRouter.resolve [1#8, 0#8] = .ok 5 := by decide +kernel

/-- Two ticks, with inputs set before each, and a close. -/
example : (ioRun 9#32 (IoSt.start (tin := .cons false (.num 1) .nil) (tout := .nil) ⟨(1#8, ()), ()⟩)
      [.tick, .set (2#8, ()), .tick, .close, .tick]).sent =
    [[2#8, 0#8, 2#8, 0x80#8, 8#8, 0#8, 9#8, 0#8, 0#8, 0#8, 1#8, 0#8, 0#8, 0#8, 0xB1#8, 0#8, 3#8, 0#8, 1#8, 0#8, 1#8],
     [2#8, 0#8, 2#8, 0x80#8, 8#8, 0#8, 9#8, 0#8, 0#8, 0#8, 2#8, 0#8, 0#8, 0#8, 0xB1#8, 0#8, 3#8, 0#8, 2#8, 0#8, 2#8]] := by
  decide +kernel

end Gologix.ServerIo
