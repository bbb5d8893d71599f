import Verif.Spec.DataTable
import Verif.Props.TagList
/-
Properties of the data table buffers: C43 positions, C44 reading.
-/
set_option linter.unusedSimpArgs false

namespace Gologix

open Gologix.Spec (Slot)

/-! ### C43: positions -/

/-- Tag `i` of the list (from 0) has position `i + 1`. -/
def Numbered (ts : List DTag) : Prop := ∀ i t, ts[i]? = some t → t.index = BitVec.ofNat 16 (i + 1)

/-- What happens to a buffer, as the application sees it. -/
inductive DOp where
  | add (name : Str) (t : Byte)
  | adds (tags : List (Str × Byte))
  | group (ord : List (Str × Byte) → List (Str × Byte)) (defs : List TagDef) (args : List Str)
  | ref (name : Str) (data : Option VRef)
  | tagged (ord : List (Str × Byte) → List (Str × Byte)) (addr : Bool) (tags : List (Option Str)) (direct : List FVal)
      (args : List Str)
  | remove (name : Str) (net : Bytes → Res Reply) (seq : BitVec 16)
  | sync (net : Bytes → Res Reply) (seq : BitVec 16)
  | read (W : DWorld)
  | readV (W : DWorld) (mem : Mem)
  | readRaw (W : DWorld)

def DOp.run (E : DEnv) (b : DBuf) : DOp → DBuf
  | .add n t => (addTag E b n t).2
  | .adds ts => (addTags E b ts).2
  | .remove n net seq => (removeTag net seq b n).2
  | .sync net seq => (syncTags net seq b).2
  | .read W => (readAll W b).2
  | .readV W mem => (readAllV W b mem).2.1
  | .readRaw W => (readAllRaw W b).2
  | .group ord defs args => (addTagGroup E ord b defs args).2
  | .ref n data => (addTagRef E b n data).2
  | .tagged ord addr tags direct args => (addTaggedStruct E ord b addr tags direct args).2

def DOp.isRemove : DOp → Bool
  | .remove .. => true
  | _ => false

theorem prepareTags_spec (E : DEnv) (l : List (Str × Byte)) (k : Nat) (ts : List DTag)
    (h : prepareTags E (BitVec.ofNat 16 k) l = .ok ts) :
    ts.map (fun t => (t.name, t.typ)) = l ∧ (∀ i t, ts[i]? = some t → t.index = BitVec.ofNat 16 (k + i)) ∧
    ∀ t ∈ ts, t.synched = false ∧ t.batch = 0 ∧ E.ioi t.name t.typ = .ok t.ioi ∧
      resolveTypeSize E t.name t.typ = .ok t.size := by
  induction l generalizing k ts with
  | nil =>
    simp [prepareTags] at h
    subst h
    simp
  | cons e l ih =>
    obtain ⟨n, t⟩ := e
    rw [prepareTags] at h
    cases hi : E.ioi n t with
    | err e => rw [hi] at h; cases h
    | panic => rw [hi] at h; cases h
    | ok ioi =>
      rw [hi] at h
      cases hs : resolveTypeSize E n t with
      | err e => rw [hs] at h; cases h
      | panic => rw [hs] at h; cases h
      | ok size =>
        rw [hs] at h
        have hk : BitVec.ofNat 16 k + 1 = BitVec.ofNat 16 (k + 1) := by
          apply BitVec.eq_of_toNat_eq
          simp
        rw [hk] at h
        cases hp : prepareTags E (BitVec.ofNat 16 (k + 1)) l with
        | err e => rw [hp] at h; cases h
        | panic => rw [hp] at h; cases h
        | ok rest =>
          rw [hp] at h
          simp only [Res.ok.injEq] at h
          subst h
          obtain ⟨h1, h2, h3⟩ := ih (k + 1) rest hp
          refine ⟨by simp [h1], ?_, ?_⟩
          · intro i u hu
            cases i with
            | zero => simp at hu; subst hu; rfl
            | succ i =>
              rw [List.getElem?_cons_succ] at hu
              rw [h2 i u hu]
              congr 1
              omega
          · intro u hu
            rcases List.mem_cons.mp hu with rfl | hu
            · exact ⟨rfl, rfl, hi, hs⟩
            · exact h3 u hu

theorem numbered_append {a b : List DTag} (ha : Numbered a)
    (hb : ∀ i t, b[i]? = some t → t.index = BitVec.ofNat 16 (a.length + 1 + i)) : Numbered (a ++ b) := by
  intro i t h
  by_cases hi : i < a.length
  · rw [List.getElem?_append_left hi] at h
    exact ha i t h
  · rw [List.getElem?_append_right (by omega)] at h
    rw [hb _ t h]
    congr 1
    omega

theorem markSynched_index (id : BitVec 16) (t : DTag) : (markSynched id t).index = t.index := by
  unfold markSynched; split <;> rfl

theorem numbered_map {f : DTag → DTag} (hf : ∀ t, (f t).index = t.index) {a : List DTag} (ha : Numbered a) :
    Numbered (a.map f) := by
  intro i t h
  rw [List.getElem?_map] at h
  cases hg : a[i]? with
  | none => rw [hg] at h; cases h
  | some u =>
    rw [hg] at h
    simp at h
    subst h
    rw [hf, ha i u hg]

theorem syncTags_tags (net : Bytes → Res Reply) (seq : BitVec 16) (b : DBuf) :
    (syncTags net seq b).2.tags = b.tags ∨
      ∃ id, (syncTags net seq b).2.tags = b.tags.map (markSynched id) := by
  unfold syncTags
  split
  · exact Or.inr ⟨_, rfl⟩
  · exact Or.inl rfl
  · exact Or.inl rfl

theorem readAll_tags (W : DWorld) (b : DBuf) :
    (readAll W b).2 = b ∨ (readAll W b).2 = (syncTags W.addNet W.seq1 b).2 := by
  unfold readAll
  split
  · exact Or.inl rfl
  · split
    · exact Or.inl rfl
    · by_cases hs : b.synched
      · rw [if_pos hs]; exact Or.inl rfl
      · rw [if_neg hs]
        generalize syncTags W.addNet W.seq1 b = x
        obtain ⟨r, b'⟩ := x
        cases r <;> exact Or.inr rfl

theorem numbered_run (E : DEnv) (b : DBuf) (h : Numbered b.tags) (o : DOp) (ho : o.isRemove = false) :
    Numbered (o.run E b).tags := by
  have hsync : ∀ net seq, Numbered (syncTags net seq b).2.tags := by
    intro net seq
    rcases syncTags_tags net seq b with hs | ⟨id, hs⟩
    · rw [hs]; exact h
    · rw [hs]; exact numbered_map (markSynched_index id) h
  have hadds : ∀ ex ts, Numbered (addTags E { b with expansions := ex } ts).2.tags := by
    intro ex ts
    unfold addTags
    split
    · exact h
    · cases hp : prepareTags E (BitVec.ofNat 16 (b.tags.length + 1)) ts with
      | ok l => exact numbered_append h fun i t ht => (prepareTags_spec E ts _ l hp).2.1 i t ht
      | err e => exact h
      | panic => exact h
  cases o with
  | add n t =>
    show Numbered (addTag E b n t).2.tags
    unfold addTag
    split
    · exact h
    · split
      · split
        · refine numbered_append h fun i u hu => ?_
          cases i with
          | zero => simp at hu; subst hu; rfl
          | succ i => simp at hu
        · exact h
        · exact h
      · exact h
      · exact h
  | adds ts => exact hadds b.expansions ts
  | group ord defs args =>
    show Numbered (addTagGroup E ord b defs args).2.tags
    unfold addTagGroup
    split
    · exact h
    · exact hadds _ _
  | tagged ord addr tags direct args =>
    show Numbered (addTaggedStruct E ord b addr tags direct args).2.tags
    unfold addTaggedStruct
    split
    · exact h
    · split
      · rename_i ex m ps hp
        have := hadds ex (ord m)
        split
        · rename_i b' hb'
          rw [hb'] at this
          refine numbered_map (fun t => ?_) this
          unfold bindVars
          split <;> rfl
        · rename_i b' hb'
          rw [hb'] at this
          exact this
        · rename_i b' hb'
          rw [hb'] at this
          exact this
      · exact h
      · exact h
  | ref n data =>
    show Numbered (addTagRef E b n data).2.tags
    unfold addTagRef
    split
    · exact h
    · simp only
      split
      · split
        · refine numbered_append h fun i u hu => ?_
          cases i with
          | zero => simp at hu; subst hu; rfl
          | succ i => simp at hu
        · exact h
        · exact h
      · exact h
      · exact h
  | remove n net seq => simp [DOp.isRemove] at ho
  | sync net seq => exact hsync net seq
  | read W =>
    show Numbered (readAll W b).2.tags
    rcases readAll_tags W b with hr | hr
    · rw [hr]; exact h
    · rw [hr]; exact hsync _ _
  | readV W mem =>
    show Numbered (readAllV W b mem).2.1.tags
    unfold readAllV
    split
    · exact h
    · split
      · exact h
      · have : Numbered (if b.synched then (.ok (), b) else syncTags W.addNet W.seq1 b : Res Unit × DBuf).2.tags := by
          split
          · exact h
          · exact hsync _ _
        generalize (if b.synched then (.ok (), b) else syncTags W.addNet W.seq1 b : Res Unit × DBuf) = x at this
        obtain ⟨r, b'⟩ := x
        cases r with
        | ok u => simp only; split <;> exact this
        | err e => exact this
        | panic => exact this
  | readRaw W =>
    show Numbered (readAllRaw W b).2.tags
    unfold readAllRaw
    split
    · exact h
    · split
      · exact h
      · have : Numbered (if b.synched then (.ok (), b) else syncTags W.addNet W.seq1 b : Res Unit × DBuf).2.tags := by
          split
          · exact h
          · exact hsync _ _
        generalize (if b.synched then (.ok (), b) else syncTags W.addNet W.seq1 b : Res Unit × DBuf) = x at this
        obtain ⟨r, b'⟩ := x
        cases r <;> exact this

theorem numbered_runs (E : DEnv) (b : DBuf) (h : Numbered b.tags) (os : List DOp)
    (ho : ∀ o ∈ os, o.isRemove = false) : Numbered (os.foldl (DOp.run E) b).tags := by
  induction os generalizing b with
  | nil => exact h
  | cons o os ih =>
    exact ih _ (numbered_run E b h o (ho o (by simp))) (fun o' h' => ho o' (by simp [h']))

theorem numbered_distinct {ts : List DTag} (h : Numbered ts) (hl : ts.length ≤ 65536) :
    ts.Pairwise fun a b => a.index ≠ b.index := by
  rw [List.pairwise_iff_getElem]
  intro i j hi hj hij he
  rw [h i _ (List.getElem?_eq_getElem hi), h j _ (List.getElem?_eq_getElem hj)] at he
  have := congrArg BitVec.toNat he
  simp at this
  omega

/-- Whatever is removed, the positions of the others stay. -/
theorem removeTag_sublist (net : Bytes → Res Reply) (seq : BitVec 16) (b : DBuf) (name : Str) :
    (removeTag net seq b name).2.tags.Sublist b.tags := by
  unfold removeTag
  split
  · exact List.Sublist.refl _
  · split
    · exact List.Sublist.refl _
    · simp only
      split
      · exact List.eraseIdx_sublist ..
      · exact List.Sublist.refl _
      · exact List.Sublist.refl _

/-- C43 for up to 65536 tags, as long as nothing is added after a removal. -/
theorem C43_distinct_partial (E : DEnv) (inst : BitVec 16) (os rs : List DOp) (ho : ∀ o ∈ os, o.isRemove = false)
    (hr : ∀ o ∈ rs, o.isRemove = true) (hl : (os.foldl (DOp.run E) (DBuf.new inst)).tags.length ≤ 65536) :
    ((os ++ rs).foldl (DOp.run E) (DBuf.new inst)).tags.Pairwise fun a b => a.index ≠ b.index := by
  rw [List.foldl_append]
  have hd := numbered_distinct (numbered_runs E (DBuf.new inst) (by intro i t h; simp [DBuf.new] at h) os ho) hl
  generalize os.foldl (DOp.run E) (DBuf.new inst) = b at hd
  clear hl
  induction rs generalizing b with
  | nil => exact hd
  | cons o rs ih =>
    refine ih (fun o' h' => hr o' (by simp [h'])) _ ?_
    cases o with
    | remove n net seq => exact hd.sublist (removeTag_sublist net seq b n)
    | _ => simp [DOp.isRemove] at hr

/-- C43 is false: in a buffer that only had tags added, removing any tag but the last and adding one gives
two tags the same position. -/
theorem C43_remove_add_duplicates (E : DEnv) (b : DBuf) (h : Numbered b.tags) (hl : b.tags.length ≤ 65536)
    (net : Bytes → Res Reply) (seq : BitVec 16) (gone new : Str) (t : Byte)
    (hrem : (removeTag net seq b gone).1 = .ok ()) (hlast : ∀ i, b.find gone = some i → i + 1 < b.tags.length)
    (hadd : (addTag E (removeTag net seq b gone).2 new t).1 = .ok ()) :
    ¬ (addTag E (removeTag net seq b gone).2 new t).2.tags.Pairwise fun a b => a.index ≠ b.index := by
  intro hp
  unfold removeTag at hrem hadd hp
  by_cases hc : b.created = true
  · simp only [hc, Bool.not_true, Bool.false_eq_true, if_false] at hrem hadd hp
    cases hf : b.find gone with
    | none => rw [hf] at hrem; cases hrem
    | some i =>
      rw [hf] at hrem hadd hp
      simp only at hrem hadd hp
      have hi := hlast i hf
      generalize (net _).bind _ = x at hrem hadd hp
      cases x with
      | err e => cases hrem
      | panic => cases hrem
      | ok d =>
        simp only at hadd hp
        unfold addTag at hadd hp
        simp only [hc, Bool.not_true, Bool.false_eq_true, if_false] at hadd hp
        cases hio : E.ioi new t with
        | err e => rw [hio] at hadd; cases hadd
        | panic => rw [hio] at hadd; cases hadd
        | ok ioi =>
          rw [hio] at hadd hp
          cases hs : resolveTypeSize E new t with
          | err e => rw [hs] at hadd; cases hadd
          | panic => rw [hs] at hadd; cases hadd
          | ok size =>
            rw [hs] at hadd hp
            simp only at hp
            have hlen : (b.tags.eraseIdx i).length = b.tags.length - 1 := List.length_eraseIdx_of_lt (by omega)
            have hl2 : b.tags.length - 1 < b.tags.length := by omega
            have hmem : b.tags[b.tags.length - 1] ∈ b.tags.eraseIdx i := by
              have : (b.tags.eraseIdx i)[b.tags.length - 2]? = some b.tags[b.tags.length - 1] := by
                rw [List.getElem?_eraseIdx, if_neg (by omega), show b.tags.length - 2 + 1 = b.tags.length - 1 by omega,
                  List.getElem?_eq_getElem hl2]
              exact List.mem_of_getElem? this
            have hidx := h _ _ (List.getElem?_eq_getElem hl2)
            have := (List.pairwise_append.mp hp).2.2 _ hmem _ (List.mem_singleton.mpr rfl)
            apply this
            rw [hidx, hlen]
  · simp [hc] at hrem

/-- C43 is false for every buffer built by adding: see `C43_remove_add_duplicates`. -/
theorem C43_duplicates_after_history (E : DEnv) (inst : BitVec 16) (os : List DOp)
    (ho : ∀ o ∈ os, o.isRemove = false) (hl : (os.foldl (DOp.run E) (DBuf.new inst)).tags.length ≤ 65536)
    (net : Bytes → Res Reply) (seq : BitVec 16) (gone new : Str) (t : Byte) :
    let b := os.foldl (DOp.run E) (DBuf.new inst)
    (removeTag net seq b gone).1 = .ok () → (∀ i, b.find gone = some i → i + 1 < b.tags.length) →
    (addTag E (removeTag net seq b gone).2 new t).1 = .ok () →
    ¬ (addTag E (removeTag net seq b gone).2 new t).2.tags.Pairwise fun a b => a.index ≠ b.index :=
  C43_remove_add_duplicates E _ (numbered_runs E (DBuf.new inst) (by intro i t h; simp [DBuf.new] at h) os ho) hl
    net seq gone new t

/-- C43 is false for more than 65536 tags: the position is a 16 bit number. -/
theorem C43_wraps (E : DEnv) (inst : BitVec 16) (os : List DOp) (ho : ∀ o ∈ os, o.isRemove = false)
    (hl : 65536 < (os.foldl (DOp.run E) (DBuf.new inst)).tags.length) :
    ¬ (os.foldl (DOp.run E) (DBuf.new inst)).tags.Pairwise fun a b => a.index ≠ b.index := by
  have h := numbered_runs E (DBuf.new inst) (by intro i t h; simp [DBuf.new] at h) os ho
  generalize os.foldl (DOp.run E) (DBuf.new inst) = b at hl h
  intro hp
  rw [List.pairwise_iff_getElem] at hp
  refine hp 0 65536 (by omega) hl (by omega) ?_
  rw [h 0 _ (List.getElem?_eq_getElem (by omega)), h 65536 _ (List.getElem?_eq_getElem hl)]
  rfl

/-- A client that knows no tags, all paths one byte pair. -/
def demoEnv : DEnv := { ioi := fun n _ => .ok [0x91#8, BitVec.ofNat 8 n.length], udtSize := fun _ => none }

/-- A controller that removes what it is told to. -/
def okNet (svc : Byte) (body : Bytes) (_ : Bytes) : Res Reply :=
  .ok ⟨0, (⟨0, 0, (0xA1, [1, 2, 3, 4]), 0xB1, 7, []⟩ : Spec.CForm).payload ([svc ||| 0x80#8, 0#8, 0#8, 0#8] ++ body)⟩

/-- Two tags, the first one removed, a third one added: both remaining have position 2. -/
example : ((addTag demoEnv (removeTag (okNet 0x4F#8 []) 1
      (addTag demoEnv (addTag demoEnv (DBuf.new 7) (str "A") tDINT).2 (str "B") tREAL).2 (str "A")).2
      (str "C") tINT).2.tags.map fun t => (t.name, t.index)) = [(str "B", 2#16), (str "C", 2#16)] := by
  decide +kernel

example : ((addTags demoEnv (DBuf.new 7) [(str "A", tDINT), (str "B", tSTRING)]).2.tags.map fun t => (t.index, t.size)) =
    [(1#16, 4#16), (2#16, 88#16)] := by decide +kernel

/-! ### C44: values -/

theorem readBV_whole {w : Nat} (hw : w % 8 = 0) (raw : Bytes) (h : raw.length = w / 8) :
    readBV w raw = .ok (BitVec.ofNat w (unle raw), []) := by
  unfold readBV readLE
  have : readN (w / 8) raw = .ok (raw, []) := by
    have := readN_append' (n := w / 8) (a := raw) (rest := []) h
    simpa using this
  rw [this]
  rfl

theorem unle_lt' {raw : Bytes} {w : Nat} (hw : w % 8 = 0) (h : raw.length = w / 8) : unle raw < 2 ^ w := by
  have := unle_lt raw
  rw [h, show (256 : Nat) = 2 ^ 8 from rfl, ← Nat.pow_mul, show 8 * (w / 8) = w by omega] at this
  exact this

theorem bv_of_signed {w : Nat} (x : BitVec w) (n : Nat) (hw : 0 < w) (hn : n < 2 ^ w)
    (h : x.toInt = Spec.signed w n) : x = BitVec.ofNat w n := by
  apply BitVec.eq_of_toInt_eq
  rw [h, BitVec.toInt_eq_toNat_cond, BitVec.toNat_ofNat, Nat.mod_eq_of_lt hn]
  have h2 : 2 ^ w = 2 * 2 ^ (w - 1) := by
    rw [← Nat.pow_succ']
    congr 1
    omega
  unfold Spec.signed
  by_cases hlt : n < 2 ^ (w - 1)
  · rw [if_pos hlt, if_pos (by omega)]
  · rw [if_neg hlt, if_neg (by omega)]
    simp

theorem bv_of_unsigned {w : Nat} (x : BitVec w) (n : Nat) (hn : n < 2 ^ w)
    (h : (x.toNat : Int) = n) : x = BitVec.ofNat w n := by
  apply BitVec.eq_of_toNat_eq
  rw [BitVec.toNat_ofNat, Nat.mod_eq_of_lt hn]
  omega

/-- The value decoded from a slot is what the bytes mean. -/
theorem decode_means {t : Byte} {raw : Bytes} {v : Scal} (h : Spec.SlotMeans t raw v) (hs : Spec.ShortText v) :
    decodeDataTable t raw = .ok v := by
  have hstr : (t = tSTRING ∨ t = tStruct) → (∃ s pad, v = .str s ∧ s.length < 2 ^ 32 ∧
      raw = le 4 s.length ++ (s ++ pad)) → decodeDataTable t raw = .ok v := by
    rintro ht ⟨s, pad, rfl, h1, rfl⟩
    have h82 : s.length ≤ 82 := hs
    unfold decodeDataTable
    rw [if_pos ht, if_neg (by simp)]
    simp only
    rw [List.take_left' (le_length 4 _), List.drop_left' (le_length 4 _), unle_le_of_lt (by omega),
      if_neg (show ¬ (le 4 s.length ++ (s ++ pad)).length - 4 < s.length by simp), if_neg (by omega), List.take_left]
  have hval : ¬ (t = tSTRING ∨ t = tStruct) → readValue t raw = .ok (v, []) → decodeDataTable t raw = .ok v := by
    intro ht hr
    unfold decodeDataTable
    rw [if_neg ht, hr]
    rfl
  have ht : t = BitVec.ofNat 8 t.toNat := by simp
  unfold Spec.SlotMeans at h
  split at h
  · rename_i e
    rw [e] at ht
    obtain ⟨hl, rfl⟩ := h
    subst ht
    apply hval (by decide)
    show (do let (v, r) ← readBool raw; Res.ok (Scal.bool v, r)) = _
    unfold readBool
    rw [readBV_whole (by decide) raw hl]
    have hlt := unle_lt' (w := 8) (by decide) hl
    show Res.ok (Scal.bool (BitVec.ofNat 8 (unle raw) != 0#8), []) = _
    congr 3
    by_cases h0 : unle raw = 0
    · simp [h0]
    · have : BitVec.ofNat 8 (unle raw) ≠ 0#8 := by
        intro hb
        have := congrArg BitVec.toNat hb
        simp at this
        omega
      simp [h0, this]
  · rename_i e
    rw [e] at ht
    obtain ⟨hl, hty, hv⟩ := h
    subst ht
    apply hval (by decide)
    have hr : readValue 0xC2#8 raw = .ok (.i8 (BitVec.ofNat 8 (unle raw)), []) := by
      show (do let (v, r) ← readBV 8 raw; Res.ok (Scal.i8 v, r)) = _
      rw [readBV_whole (by decide) raw hl]; rfl
    cases v <;> simp [Scal.ty] at hty
    rename_i x
    rw [bv_of_signed x _ (by decide) (unle_lt' (by decide) hl) (by simpa [Spec.intVal] using hv)]
    exact hr
  · rename_i e
    rw [e] at ht
    obtain ⟨hl, hty, hv⟩ := h
    subst ht
    apply hval (by decide)
    have hr : readValue 0xC3#8 raw = .ok (.i16 (BitVec.ofNat 16 (unle raw)), []) := by
      show (do let (v, r) ← readBV 16 raw; Res.ok (Scal.i16 v, r)) = _
      rw [readBV_whole (by decide) raw hl]; rfl
    cases v <;> simp [Scal.ty] at hty
    rename_i x
    rw [bv_of_signed x _ (by decide) (unle_lt' (by decide) hl) (by simpa [Spec.intVal] using hv)]
    exact hr
  · rename_i e
    rw [e] at ht
    obtain ⟨hl, hty, hv⟩ := h
    subst ht
    apply hval (by decide)
    have hr : readValue 0xC4#8 raw = .ok (.i32 (BitVec.ofNat 32 (unle raw)), []) := by
      show (do let (v, r) ← readBV 32 raw; Res.ok (Scal.i32 v, r)) = _
      rw [readBV_whole (by decide) raw hl]; rfl
    cases v <;> simp [Scal.ty] at hty
    rename_i x
    rw [bv_of_signed x _ (by decide) (unle_lt' (by decide) hl) (by simpa [Spec.intVal] using hv)]
    exact hr
  · rename_i e
    rw [e] at ht
    obtain ⟨hl, hty, hv⟩ := h
    subst ht
    apply hval (by decide)
    have hr : readValue 0xC5#8 raw = .ok (.i64 (BitVec.ofNat 64 (unle raw)), []) := by
      show (do let (v, r) ← readBV 64 raw; Res.ok (Scal.i64 v, r)) = _
      rw [readBV_whole (by decide) raw hl]; rfl
    cases v <;> simp [Scal.ty] at hty
    rename_i x
    rw [bv_of_signed x _ (by decide) (unle_lt' (by decide) hl) (by simpa [Spec.intVal] using hv)]
    exact hr
  · rename_i e
    rw [e] at ht
    obtain ⟨hl, hty, hv⟩ := h
    subst ht
    apply hval (by decide)
    have hr : readValue 0xC6#8 raw = .ok (.u8 (BitVec.ofNat 8 (unle raw)), []) := by
      show (do let (v, r) ← readBV 8 raw; Res.ok (Scal.u8 v, r)) = _
      rw [readBV_whole (by decide) raw hl]; rfl
    cases v <;> simp [Scal.ty] at hty
    rename_i x
    rw [bv_of_unsigned x _ (unle_lt' (by decide) hl) (by simpa [Spec.intVal] using hv)]
    exact hr
  · rename_i e
    rw [e] at ht
    obtain ⟨hl, hty, hv⟩ := h
    subst ht
    apply hval (by decide)
    have hr : readValue 0xC7#8 raw = .ok (.u16 (BitVec.ofNat 16 (unle raw)), []) := by
      show (do let (v, r) ← readBV 16 raw; Res.ok (Scal.u16 v, r)) = _
      rw [readBV_whole (by decide) raw hl]; rfl
    cases v <;> simp [Scal.ty] at hty
    rename_i x
    rw [bv_of_unsigned x _ (unle_lt' (by decide) hl) (by simpa [Spec.intVal] using hv)]
    exact hr
  · rename_i e
    rw [e] at ht
    obtain ⟨hl, hty, hv⟩ := h
    subst ht
    apply hval (by decide)
    have hr : readValue 0xC8#8 raw = .ok (.u32 (BitVec.ofNat 32 (unle raw)), []) := by
      show (do let (v, r) ← readBV 32 raw; Res.ok (Scal.u32 v, r)) = _
      rw [readBV_whole (by decide) raw hl]; rfl
    cases v <;> simp [Scal.ty] at hty
    rename_i x
    rw [bv_of_unsigned x _ (unle_lt' (by decide) hl) (by simpa [Spec.intVal] using hv)]
    exact hr
  · rename_i e
    rw [e] at ht
    obtain ⟨hl, x, rfl, hv⟩ := h
    subst ht
    apply hval (by decide)
    show (do let (v, r) ← readBV 32 raw; Res.ok (Scal.f32 v, r)) = _
    rw [readBV_whole (by decide) raw hl, ← hv, BitVec.ofNat_toNat]; rfl
  · rename_i e
    rw [e] at ht
    obtain ⟨hl, x, rfl, hv⟩ := h
    subst ht
    apply hval (by decide)
    show (do let (v, r) ← readBV 64 raw; Res.ok (Scal.f64 v, r)) = _
    rw [readBV_whole (by decide) raw hl, ← hv, BitVec.ofNat_toNat]; rfl
  · rename_i e
    rw [e] at ht
    obtain ⟨hl, hty, hv⟩ := h
    subst ht
    apply hval (by decide)
    have hr : readValue 0xD1#8 raw = .ok (.u8 (BitVec.ofNat 8 (unle raw)), []) := by
      show (do let (v, r) ← readBV 8 raw; Res.ok (Scal.u8 v, r)) = _
      rw [readBV_whole (by decide) raw hl]; rfl
    cases v <;> simp [Scal.ty] at hty
    rename_i x
    rw [bv_of_unsigned x _ (unle_lt' (by decide) hl) (by simpa [Spec.intVal] using hv)]
    exact hr
  · rename_i e
    rw [e] at ht
    obtain ⟨hl, hty, hv⟩ := h
    subst ht
    apply hval (by decide)
    have hr : readValue 0xD2#8 raw = .ok (.u16 (BitVec.ofNat 16 (unle raw)), []) := by
      show (do let (v, r) ← readBV 16 raw; Res.ok (Scal.u16 v, r)) = _
      rw [readBV_whole (by decide) raw hl]; rfl
    cases v <;> simp [Scal.ty] at hty
    rename_i x
    rw [bv_of_unsigned x _ (unle_lt' (by decide) hl) (by simpa [Spec.intVal] using hv)]
    exact hr
  · rename_i e
    rw [e] at ht
    obtain ⟨hl, hty, hv⟩ := h
    subst ht
    apply hval (by decide)
    have hr : readValue 0xD3#8 raw = .ok (.u32 (BitVec.ofNat 32 (unle raw)), []) := by
      show (do let (v, r) ← readBV 32 raw; Res.ok (Scal.u32 v, r)) = _
      rw [readBV_whole (by decide) raw hl]; rfl
    cases v <;> simp [Scal.ty] at hty
    rename_i x
    rw [bv_of_unsigned x _ (unle_lt' (by decide) hl) (by simpa [Spec.intVal] using hv)]
    exact hr
  · rename_i e
    rw [e] at ht
    obtain ⟨hl, hty, hv⟩ := h
    subst ht
    apply hval (by decide)
    have hr : readValue 0xD4#8 raw = .ok (.u64 (BitVec.ofNat 64 (unle raw)), []) := by
      show (do let (v, r) ← readBV 64 raw; Res.ok (Scal.u64 v, r)) = _
      rw [readBV_whole (by decide) raw hl]; rfl
    cases v <;> simp [Scal.ty] at hty
    rename_i x
    rw [bv_of_unsigned x _ (unle_lt' (by decide) hl) (by simpa [Spec.intVal] using hv)]
    exact hr
  · rename_i e
    rw [e] at ht
    subst ht
    exact hstr (by decide) h
  · rename_i e
    rw [e] at ht
    subst ht
    exact hstr (by decide) h
  · exact h.elim

/-! ### C44: the whole buffer -/

/-- The slot a registered tag asks for. -/
def DTag.slot (t : DTag) : Slot := (t.size.toNat, t.ioi)

/-- A history of a buffer together with the batches its controller took.  Removals are left out, and so is
adding an empty set of tags. -/
inductive DHistory (E : DEnv) (inst : BitVec 16) : DBuf → List (List Slot) → Prop where
  | new : DHistory E inst (DBuf.new inst) []
  | add (b c name t) : DHistory E inst b c → DHistory E inst (addTag E b name t).2 c
  | adds (b c ts) : DHistory E inst b c → ts ≠ [] → DHistory E inst (addTags E b ts).2 c
  | group (b c defs args ord) : DHistory E inst b c → defs ≠ [] → (∀ l, (ord l).Perm l) →
      DHistory E inst (addTagGroup E ord b defs args).2 c
  | ref (b c name data) : DHistory E inst b c → DHistory E inst (addTagRef E b name data).2 c
  | tagged (b c ord addr tags direct args) : DHistory E inst b c → (∃ x xs, some (x :: xs) ∈ tags) →
      (∀ l, (ord l).Perm l) → DHistory E inst (addTaggedStruct E ord b addr tags direct args).2 c
  | sync (b c net seq slots) : DHistory E inst b c → b.pending ≠ [] → b.pending.length < 256 →
      (∀ t ∈ b.pending, t.ioi.length % 2 = 0 ∧ t.ioi.length < 512) → Spec.AddRequest (addData b.pending) slots →
      Spec.TakesAdd net inst c → DHistory E inst (syncTags net seq b).2 (c ++ [slots])
  | syncFails (b c net seq) : DHistory E inst b c → (syncTags net seq b).1 ≠ .ok () →
      DHistory E inst (syncTags net seq b).2 c
  | read (b c W) : DHistory E inst b c → b.synched = true → DHistory E inst (readAll W b).2 c
  | readV (b c W mem) : DHistory E inst b c → b.synched = true → DHistory E inst (readAllV W b mem).2.1 c
  | readRaw (b c W) : DHistory E inst b c → b.synched = true → DHistory E inst (readAllRaw W b).2 c

/-- The registered tags grouped as the controller has them, batches numbered from `k`. -/
inductive Grouped : Nat → List (List DTag) → List (List Slot) → Prop where
  | nil (k) : Grouped k [] []
  | cons (k g gs c cs) : g ≠ [] → g.map DTag.slot = c → (∀ t ∈ g, t.batch = BitVec.ofNat 16 k ∧ t.synched = true) →
      Grouped (k + 1) gs cs → Grouped k (g :: gs) (c :: cs)

theorem Grouped.snoc {k : Nat} {gs : List (List DTag)} {cs : List (List Slot)} (h : Grouped k gs cs) (g : List DTag)
    (hne : g ≠ []) (hb : ∀ t ∈ g, t.batch = BitVec.ofNat 16 (k + cs.length) ∧ t.synched = true) :
    Grouped k (gs ++ [g]) (cs ++ [g.map DTag.slot]) := by
  induction h with
  | nil k => exact .cons _ _ _ _ _ hne rfl (by simpa using hb) (.nil _)
  | cons k g' gs c cs h1 h2 h3 _ ih =>
    refine .cons _ _ _ _ _ h1 h2 h3 (ih ?_)
    intro t ht
    have := hb t ht
    rw [List.length_cons, show k + (cs.length + 1) = k + 1 + cs.length by omega] at this
    exact this

theorem Grouped.synched {k : Nat} {gs : List (List DTag)} {cs : List (List Slot)} (h : Grouped k gs cs) :
    ∀ t ∈ gs.flatten, t.synched = true := by
  induction h with
  | nil k => simp
  | cons k g gs c cs h1 h2 h3 _ ih =>
    intro t ht
    rw [List.flatten_cons, List.mem_append] at ht
    rcases ht with ht | ht
    · exact (h3 t ht).2
    · exact ih t ht

theorem Grouped.slots {k : Nat} {gs : List (List DTag)} {cs : List (List Slot)} (h : Grouped k gs cs) :
    gs.flatten.map DTag.slot = cs.flatten := by
  induction h with
  | nil k => rfl
  | cons k g gs c cs h1 h2 h3 _ ih => simp [ih, h2]

/-- What holds of a buffer and its controller. -/
structure DInv (inst : BitVec 16) (b : DBuf) (c : List (List Slot)) : Prop where
  inst    : b.inst = inst
  created : b.created = true
  numbers : Numbered b.tags
  groups  : ∃ gs pend, b.tags = gs.flatten ++ pend ∧ Grouped 1 gs c ∧ (∀ t ∈ pend, t.synched = false) ∧
    (b.synched = true ↔ pend = [] ∧ b.tags ≠ [])

theorem pending_split {b : DBuf} {gs : List (List DTag)} {pend : List DTag} {k : Nat} {c : List (List Slot)}
    (h : b.tags = gs.flatten ++ pend) (hg : Grouped k gs c) (hp : ∀ t ∈ pend, t.synched = false) :
    b.pending = pend := by
  unfold DBuf.pending
  rw [h, List.filter_append]
  have h1 : gs.flatten.filter (fun t => !t.synched) = [] := by
    rw [List.filter_eq_nil_iff]
    intro t ht
    simp [hg.synched t ht]
  have h2 : pend.filter (fun t => !t.synched) = pend := by
    rw [List.filter_eq_self]
    intro t ht
    simp [hp t ht]
  rw [h1, h2, List.nil_append]

theorem request_form (seq : BitVec 16) (svc : Byte) (inst : BitVec 16) (data : Bytes) :
    Spec.BufferRequest (genericRequest seq svc (dataTablePath inst) data) svc inst data := by
  refine ⟨seq, ?_⟩
  have h1 : putBV seq = le 2 seq.toNat := rfl
  have h2 : putBV inst = le 2 inst.toNat := rfl
  have h3 : pathLengthOf (dataTablePath inst) = 3#8 := by
    unfold pathLengthOf dataTablePath
    rw [List.length_append, h2, le_length]
    rfl
  unfold genericRequest
  rw [h3]
  simp [dataTablePath, h1, h2]

theorem reply_data {svc : Byte} (hs : svc.toNat < 128) {body : Bytes} {r : Reply} (h : Spec.BufferReply svc body r) :
    genericReply svc r = .ok body := by
  obtain ⟨st, f, hf, rfl⟩ := h
  exact generic_form f svc hs body st hf

/-- Two lists of slots with the same bytes are the same. -/
theorem slots_bytes_inj {a b : List Slot} (hl : a.length = b.length)
    (ha : ∀ s ∈ a, s.1 < 65536 ∧ s.2.length % 2 = 0 ∧ s.2.length < 512)
    (hb : ∀ s ∈ b, s.1 < 65536 ∧ s.2.length / 2 < 256 ∧ s.2.length % 2 = 0)
    (h : (a.map fun s => le 2 s.1 ++ ([BitVec.ofNat 8 (s.2.length / 2)] ++ s.2)).flatten =
      (b.map fun s => le 2 s.1 ++ ([BitVec.ofNat 8 (s.2.length / 2)] ++ s.2)).flatten) : a = b := by
  induction a generalizing b with
  | nil =>
    cases b with
    | nil => rfl
    | cons y b => simp at hl
  | cons x a ih =>
    cases b with
    | nil => simp at hl
    | cons y b =>
      obtain ⟨x1, x2⟩ := x
      obtain ⟨y1, y2⟩ := y
      obtain ⟨hx1, hx2, hx3⟩ := ha (x1, x2) (by simp)
      obtain ⟨hy1, hy2, hy3⟩ := hb (y1, y2) (by simp)
      simp only [List.map_cons, List.flatten_cons, List.append_assoc] at h
      obtain ⟨h1, h2⟩ := List.append_inj h (by simp)
      have e1 : x1 = y1 := le_inj (by omega) (by omega) h1
      simp only [List.cons_append, List.nil_append, List.cons.injEq] at h2
      have hlen : x2.length = y2.length := by
        have := congrArg BitVec.toNat h2.1
        simp only [BitVec.toNat_ofNat] at this
        simp only at hx2 hx3 hy2 hy3
        omega
      obtain ⟨e2, h3⟩ := List.append_inj h2.2 hlen
      rw [e1, e2, ih (by simpa using hl) (fun s hs => ha s (by simp [hs])) (fun s hs => hb s (by simp [hs])) h3]

theorem addData_bytes (ts : List DTag) : addData ts = [2#8, 0#8, 1#8, 1#8, BitVec.ofNat 8 (ts.map DTag.slot).length] ++
    ((ts.map DTag.slot).map fun s => le 2 s.1 ++ ([BitVec.ofNat 8 (s.2.length / 2)] ++ s.2)).flatten := by
  unfold addData
  rw [List.map_map, List.length_map]
  have : (ts.map addEntry) = ts.map ((fun s : Slot => le 2 s.1 ++ ([BitVec.ofNat 8 (s.2.length / 2)] ++ s.2)) ∘ DTag.slot) := by
    apply List.map_congr_left
    intro t _
    show addEntry t = le 2 t.size.toNat ++ ([BitVec.ofNat 8 (t.ioi.length / 2)] ++ t.ioi)
    unfold addEntry
    rw [List.append_assoc]
    rfl
  rw [this]
  rfl

/-- The request of up to 255 tags is well-formed and lists exactly the tags. -/
theorem addData_slots (ts : List DTag) (hl : ts.length < 256)
    (hi : ∀ t ∈ ts, t.ioi.length % 2 = 0 ∧ t.ioi.length < 512) (slots : List Slot) :
    Spec.AddRequest (addData ts) slots ↔ slots = ts.map DTag.slot := by
  have hts : ∀ s ∈ ts.map DTag.slot, s.1 < 65536 ∧ s.2.length % 2 = 0 ∧ s.2.length < 512 := by
    intro s hs
    obtain ⟨t, ht, rfl⟩ := List.mem_map.mp hs
    exact ⟨t.size.isLt, hi t ht⟩
  constructor
  · rintro ⟨h1, h2, h3⟩
    rw [addData_bytes] at h3
    obtain ⟨h4, h5⟩ := List.append_inj h3 (by simp)
    refine slots_bytes_inj ?_ h2 (fun s hs => ?_) h5.symm
    · simp only [List.cons.injEq, true_and, and_true] at h4
      have := congrArg BitVec.toNat h4
      simp only [BitVec.toNat_ofNat, List.length_map] at this
      rw [List.length_map]
      omega
    · obtain ⟨a, b, c⟩ := hts s hs
      exact ⟨a, by omega, b⟩
  · rintro rfl
    exact ⟨by simpa using hl, hts, addData_bytes ts⟩

theorem prepareTags_ne {E : DEnv} {i : BitVec 16} {l : List (Str × Byte)} {ts : List DTag}
    (h : prepareTags E i l = .ok ts) (hl : l ≠ []) : ts ≠ [] := by
  cases l with
  | nil => exact absurd rfl hl
  | cons e l =>
    obtain ⟨n, t⟩ := e
    rw [prepareTags] at h
    split at h
    · split at h
      · split at h
        · cases h; simp
        · cases h
        · cases h
      · cases h
      · cases h
    · cases h
    · cases h

theorem mapPut_ne {α : Type} (m : List (Str × α)) (k : Str) (v : α) : mapPut m k v ≠ [] := by
  unfold mapPut; simp

theorem foldl_mapPut_ne {names : List Str} {t : Byte} {m : List (Str × Byte)} (h : m ≠ [] ∨ names ≠ []) :
    names.foldl (fun m n => mapPut m n t) m ≠ [] := by
  induction names generalizing m with
  | nil => simpa using h
  | cons n names ih => exact ih (Or.inl (mapPut_ne _ _ _))

theorem expandArrayTag_ne (base : Str) (n : Int) : expandArrayTag base n ≠ [] := by
  unfold expandArrayTag
  split
  · simp
  · rename_i h
    have : n.toNat ≠ 0 := by omega
    simp only
    split
    · simp [this]
    · simp [this]

theorem expandDefs_ne {args : List Str} {defs : List TagDef} {ex : List (Str × List Str)} {m : List (Str × Byte)}
    (h : m ≠ [] ∨ defs ≠ []) : (expandDefs args defs ex m).2 ≠ [] := by
  induction defs generalizing ex m with
  | nil => simpa [expandDefs] using h
  | cons d ds ih =>
    rw [expandDefs]
    refine ih (Or.inl (foldl_mapPut_ne (Or.inr ?_)))
    split
    · exact expandArrayTag_ne _ _
    · simp

theorem dinv_addTags {inst : BitVec 16} {E : DEnv} {b : DBuf} {c : List (List Slot)} (h : DInv inst b c)
    (ts : List (Str × Byte)) (hne : ts ≠ []) : DInv inst (addTags E b ts).2 c := by
  unfold addTags
  split
  · exact h
  · cases hp : prepareTags E (BitVec.ofNat 16 (b.tags.length + 1)) ts with
    | err e => exact h
    | panic => exact h
    | ok l =>
      obtain ⟨h1, h2, h3⟩ := prepareTags_spec E ts _ l hp
      obtain ⟨gs, pend, hg1, hg2, hg3, hg4⟩ := h.groups
      refine ⟨h.inst, h.created, numbered_append h.numbers h2, gs, pend ++ l, ?_, hg2, ?_, ?_⟩
      · show b.tags ++ l = _
        rw [hg1, List.append_assoc]
      · intro t ht
        rcases List.mem_append.mp ht with ht | ht
        · exact hg3 t ht
        · exact (h3 t ht).1
      · simp [prepareTags_ne hp hne]

theorem dinv_sync {inst : BitVec 16} {b : DBuf} {c : List (List Slot)} (h : DInv inst b c) (net : Bytes → Res Reply)
    (seq : BitVec 16) (slots : List Slot) (hne : b.pending ≠ []) (hl : b.pending.length < 256)
    (hi : ∀ t ∈ b.pending, t.ioi.length % 2 = 0 ∧ t.ioi.length < 512)
    (hr : Spec.AddRequest (addData b.pending) slots) (hn : Spec.TakesAdd net inst c) :
    (syncTags net seq b).1 = .ok () ∧ DInv inst (syncTags net seq b).2 (c ++ [slots]) ∧
      (syncTags net seq b).2.synched = true ∧ (syncTags net seq b).2.tags.map DTag.slot = b.tags.map DTag.slot := by
  have hslots := (addData_slots _ hl hi slots).mp hr
  obtain ⟨r, hr1, hr2⟩ := hn (genericRequest seq 0x4E#8 (dataTablePath b.inst) (addData b.pending)) _ _ (h.inst ▸ request_form seq 0x4E#8 b.inst (addData b.pending)) hr
  have hsync : syncTags net seq b = (.ok (), { b with
      tags := b.tags.map (markSynched (BitVec.ofNat 16 (c.length + 1))), synched := true }) := by
    unfold syncTags
    rw [hr1]
    simp only [Res.bind]
    rw [reply_data (by decide) hr2]
    have hu : getU 2 (le 2 (c.length + 1)) = .ok ((c.length + 1) % 256 ^ 2, []) := by
      have := getU_le (k := 2) (c.length + 1) []
      rwa [List.append_nil] at this
    show (match (getU 2 (le 2 (c.length + 1))) with
      | .ok (id, _) => ((.ok (), { b with tags := b.tags.map (markSynched (BitVec.ofNat 16 id)), synched := true }) :
          Res Unit × DBuf)
      | .err _ => (.err .fail, b)
      | .panic => (.panic, b)) = _
    rw [hu]
    have : BitVec.ofNat 16 ((c.length + 1) % 256 ^ 2) = BitVec.ofNat 16 (c.length + 1) := by
      apply BitVec.eq_of_toNat_eq
      simp
    simp only [this]
  rw [hsync]
  obtain ⟨gs, pend, hg1, hg2, hg3, hg4⟩ := h.groups
  have hpend := pending_split hg1 hg2 hg3
  rw [hpend] at hslots hne
  have hmark : b.tags.map (markSynched (BitVec.ofNat 16 (c.length + 1))) =
      (gs ++ [pend.map (markSynched (BitVec.ofNat 16 (c.length + 1)))]).flatten := by
    rw [hg1, List.map_append, List.flatten_append]
    congr 1
    · conv => rhs; rw [← List.map_id gs.flatten]
      apply List.map_congr_left
      intro t ht
      unfold markSynched
      rw [if_pos (hg2.synched t ht)]
      rfl
    · simp
  have hms : ∀ t, DTag.slot (markSynched (BitVec.ofNat 16 (c.length + 1)) t) = DTag.slot t := by
    intro t; unfold markSynched; split <;> rfl
  refine ⟨rfl, ⟨h.inst, h.created, numbered_map (markSynched_index _) h.numbers,
    gs ++ [pend.map (markSynched (BitVec.ofNat 16 (c.length + 1)))], [], ?_, ?_, by simp, ?_⟩, rfl, ?_⟩
  · show b.tags.map _ = _
    rw [hmark, List.append_nil]
  · have := hg2.snoc (pend.map (markSynched (BitVec.ofNat 16 (c.length + 1)))) (by simpa using hne) (by
      intro t ht
      obtain ⟨u, hu, rfl⟩ := List.mem_map.mp ht
      unfold markSynched
      rw [if_neg (by simp [hg3 u hu])]
      exact ⟨by rw [Nat.add_comm], rfl⟩)
    rw [List.map_map] at this
    rw [hslots]
    rw [show (DTag.slot ∘ markSynched (BitVec.ofNat 16 (c.length + 1))) = DTag.slot from funext hms] at this
    exact this
  · refine ⟨fun _ => ⟨rfl, ?_⟩, fun _ => rfl⟩
    show b.tags.map _ ≠ []
    rw [hg1]
    simp [hne]
  · show (b.tags.map _).map _ = _
    rw [List.map_map, show (DTag.slot ∘ markSynched (BitVec.ofNat 16 (c.length + 1))) = DTag.slot from funext hms]

theorem taggedFields_ne {addr : Bool} {direct : List FVal} {args : List Str} {tags : List (Option Str)} {i : Nat}
    {ex ex' : List (Str × List Str)} {m m' : List (Str × Byte)} {ps ps' : List (Str × VRef)}
    (h : taggedFields addr direct args i tags ex m ps = .ok (ex', m', ps'))
    (hne : m ≠ [] ∨ ∃ x xs, some (x :: xs) ∈ tags) : m' ≠ [] := by
  induction tags generalizing i ex m ps with
  | nil =>
    cases h
    rcases hne with h | ⟨_, _, h⟩
    · exact h
    · simp at h
  | cons tag rest ih =>
    cases tag with
    | none => exact ih h (by simpa using hne)
    | some tag =>
      cases tag with
      | nil => exact ih h (by simpa using hne)
      | cons x xs =>
        simp only [taggedFields] at h
        cases hd : direct[i]? with
        | none => rw [hd] at h; cases h
        | some f =>
          rw [hd] at h
          cases f with
          | hidden => cases h
          | one ty id =>
            simp only at h
            split at h
            · cases h
            · exact ih h (Or.inl (mapPut_ne _ _ _))
          | slice T id elems =>
            simp only at h
            split at h
            · split at h
              · cases h
              · exact ih h (Or.inl (mapPut_ne _ _ _))
            · exact ih h (Or.inl (foldl_mapPut_ne (Or.inr (expandArrayTag_ne _ _))))

theorem Grouped.mapTags {f : DTag → DTag} (hf : ∀ t, (f t).slot = t.slot ∧ (f t).batch = t.batch ∧
    (f t).synched = t.synched) {k : Nat} {gs : List (List DTag)} {cs : List (List Slot)} (h : Grouped k gs cs) :
    Grouped k (gs.map (List.map f)) cs := by
  induction h with
  | nil k => exact .nil k
  | cons k g gs c cs h1 h2 h3 _ ih =>
    refine .cons _ _ _ _ _ (by simpa using h1) ?_ ?_ ih
    · rw [List.map_map, ← h2]
      exact List.map_congr_left fun t _ => (hf t).1
    · intro t ht
      obtain ⟨u, hu, rfl⟩ := List.mem_map.mp ht
      rw [(hf u).2.1, (hf u).2.2]
      exact h3 u hu

theorem dinv_mapTags {inst : BitVec 16} {b : DBuf} {c : List (List Slot)} (h : DInv inst b c) (f : DTag → DTag)
    (hf : ∀ t, (f t).slot = t.slot ∧ (f t).batch = t.batch ∧ (f t).synched = t.synched) (hi : ∀ t, (f t).index = t.index) :
    DInv inst { b with tags := b.tags.map f } c := by
  obtain ⟨gs, pend, hg1, hg2, hg3, hg4⟩ := h.groups
  refine ⟨h.inst, h.created, numbered_map hi h.numbers, gs.map (List.map f), pend.map f, ?_, hg2.mapTags hf, ?_, ?_⟩
  · show b.tags.map f = _
    rw [hg1, List.map_append, List.map_flatten]
  · intro t ht
    obtain ⟨u, hu, rfl⟩ := List.mem_map.mp ht
    rw [(hf u).2.2]
    exact hg3 u hu
  · show b.synched = true ↔ pend.map f = [] ∧ b.tags.map f ≠ []
    simpa using hg4

theorem bindVars_fields (ps : List (Str × VRef)) (t : DTag) : (bindVars ps t).slot = t.slot ∧
    (bindVars ps t).batch = t.batch ∧ (bindVars ps t).synched = t.synched ∧ (bindVars ps t).index = t.index ∧
    (bindVars ps t).name = t.name ∧ (bindVars ps t).typ = t.typ := by
  unfold bindVars
  split <;> exact ⟨rfl, rfl, rfl, rfl, rfl, rfl⟩

theorem dinv_history {E : DEnv} {inst : BitVec 16} {b : DBuf} {c : List (List Slot)} (h : DHistory E inst b c) :
    DInv inst b c := by
  induction h with
  | new => exact ⟨rfl, rfl, by intro i t h; simp [DBuf.new] at h, [], [], rfl, .nil _, by simp, by simp [DBuf.new]⟩
  | add b c name t _ ih =>
    unfold addTag
    split
    · exact ih
    · split
      · rename_i ioi _
        split
        · rename_i size _
          obtain ⟨gs, pend, hg1, hg2, hg3, hg4⟩ := ih.groups
          refine ⟨ih.inst, ih.created, numbered_append ih.numbers ?_, gs,
            pend ++ [⟨name, t, size, BitVec.ofNat 16 (b.tags.length + 1), ioi, 0, false, none⟩], ?_, hg2, ?_, ?_⟩
          · intro i u hu
            cases i with
            | zero => simp at hu; subst hu; rfl
            | succ i => simp at hu
          · show b.tags ++ [_] = _
            rw [hg1, List.append_assoc]
          · intro t ht
            rcases List.mem_append.mp ht with ht | ht
            · exact hg3 t ht
            · rw [List.mem_singleton.mp ht]
          · simp
        · exact ih
        · exact ih
      · exact ih
      · exact ih
  | ref b c name data _ ih =>
    unfold addTagRef
    split
    · exact ih
    · generalize refType data = t
      simp only
      split
      · rename_i ioi _
        split
        · rename_i size _
          obtain ⟨gs, pend, hg1, hg2, hg3, hg4⟩ := ih.groups
          refine ⟨ih.inst, ih.created, numbered_append ih.numbers ?_, gs,
            pend ++ [⟨name, t, size, BitVec.ofNat 16 (b.tags.length + 1), ioi, 0, false, data⟩], ?_, hg2, ?_, ?_⟩
          · intro i u hu
            cases i with
            | zero => simp at hu; subst hu; rfl
            | succ i => simp at hu
          · show b.tags ++ [_] = _
            rw [hg1, List.append_assoc]
          · intro t ht
            rcases List.mem_append.mp ht with ht | ht
            · exact hg3 t ht
            · rw [List.mem_singleton.mp ht]
          · simp
        · exact ih
        · exact ih
      · exact ih
      · exact ih
  | tagged b c ord addr tags direct args _ hne hord ih =>
    unfold addTaggedStruct
    split
    · exact ih
    · split
      · rename_i ex m ps hp
        have hi := dinv_addTags (E := E) (b := { b with expansions := ex }) ⟨ih.inst, ih.created, ih.numbers, ih.groups⟩
          (ord m) (by
            intro he
            have := hord m
            rw [he] at this
            exact taggedFields_ne hp (Or.inr hne) this.nil_eq.symm)
        split
        · rename_i b' hb'
          rw [hb'] at hi
          exact dinv_mapTags hi (bindVars ps) (fun t => ⟨(bindVars_fields ps t).1, (bindVars_fields ps t).2.1,
            (bindVars_fields ps t).2.2.1⟩) fun t => (bindVars_fields ps t).2.2.2.1
        · rename_i b' hb'
          rw [hb'] at hi
          exact hi
        · rename_i b' hb'
          rw [hb'] at hi
          exact hi
      · exact ih
      · exact ih
  | adds b c ts _ hne ih => exact dinv_addTags ih ts hne
  | group b c defs args ord _ hne hord ih =>
    unfold addTagGroup
    split
    · exact ih
    · refine dinv_addTags (b := { b with expansions := (expandDefs args defs b.expansions []).1 }) ⟨ih.inst, ih.created,
        ih.numbers, ih.groups⟩ _ ?_
      intro he
      have := hord (expandDefs args defs b.expansions []).2
      rw [he] at this
      exact expandDefs_ne (Or.inr hne) this.nil_eq.symm
  | sync b c net seq slots _ h1 h2 h3 h4 h5 ih => exact (dinv_sync ih net seq slots h1 h2 h3 h4 h5).2.1
  | syncFails b c net seq _ hf ih =>
    have : (syncTags net seq b).2 = b := by
      unfold syncTags at hf ⊢
      split
      · rename_i heq
        rw [heq] at hf
        simp at hf
      · rfl
      · rfl
    rw [this]; exact ih
  | read b c W _ hs ih =>
    have : (readAll W b).2 = b := by
      unfold readAll
      split
      · rfl
      · split
        · rfl
        · simp only [hs, if_true]
    rw [this]; exact ih
  | readV b c W mem _ hs ih =>
    have : (readAllV W b mem).2.1 = b := by
      unfold readAllV
      split
      · rfl
      · split
        · rfl
        · simp only [hs, if_true]
          split <;> rfl
    rw [this]; exact ih
  | readRaw b c W _ hs ih =>
    have : (readAllRaw W b).2 = b := by
      unfold readAllRaw
      split
      · rfl
      · split
        · rfl
        · simp only [hs, if_true]
    rw [this]; exact ih

/-- A run of tags of the current batch takes the contents of their slots, one after the other. -/
theorem readTags_run (v : Slot → Bytes) (val : DTag → Scal) (bt : BitVec 16) (g rest : List DTag) (d : Bytes)
    (m : List (Str × Scal)) (hb : ∀ t ∈ g, t.batch = bt) (hl : ∀ t ∈ g, (v t.slot).length = t.size.toNat)
    (hd : ∀ t ∈ g, decodeDataTable t.typ (v t.slot) = .ok (val t)) :
    readTags (g ++ rest) bt (((g.map DTag.slot).map v).flatten ++ d) m =
      readTags rest bt d (puts (g.map fun t => (t.name, val t)) m) := by
  induction g generalizing m with
  | nil => rfl
  | cons t g ih =>
    have hlen := hl t (by simp)
    show readTags (t :: (g ++ rest)) bt _ m = _
    rw [readTags, if_neg (by simp [hb t (by simp)])]
    simp only [List.map_cons, List.flatten_cons, List.append_assoc]
    show (if _ then _ else _) = _
    rw [if_neg (show ¬ (v t.slot ++ (((g.map DTag.slot).map v).flatten ++ d)).length < t.size.toNat by
      rw [List.length_append]; omega)]
    rw [← hlen, List.take_left, List.drop_left, hd t (by simp)]
    show readTags (g ++ rest) t.batch _ _ = _
    rw [hb t (by simp)]
    exact ih _ (fun t ht => hb t (by simp [ht])) (fun t ht => hl t (by simp [ht])) (fun t ht => hd t (by simp [ht]))

theorem readTags_new (t : DTag) (ts : List DTag) (cur : BitVec 16) (k : Nat) (d : Bytes) (m : List (Str × Scal))
    (h : t.batch ≠ cur) : readTags (t :: ts) cur (le 2 k ++ d) m = readTags (t :: ts) t.batch d m := by
  rw [readTags, readTags, if_pos h, if_neg (by simp), getU_le]
  rfl

/-- Reading the batches in order gives each tag the contents of its slot. -/
theorem readTags_batches (v : Slot → Bytes) (val : DTag → Scal) {k : Nat} {gs : List (List DTag)}
    {cs : List (List Slot)} (h : Grouped k gs cs) (cur : BitVec 16) (hk : cur ≠ BitVec.ofNat 16 k)
    (m : List (Str × Scal)) (hl : ∀ t ∈ gs.flatten, (v t.slot).length = t.size.toNat)
    (hd : ∀ t ∈ gs.flatten, decodeDataTable t.typ (v t.slot) = .ok (val t)) :
    readTags gs.flatten cur (Spec.content v k cs) m = .ok (puts (gs.flatten.map fun t => (t.name, val t)) m) := by
  induction h generalizing cur m with
  | nil k => rfl
  | cons k g gs c cs h1 h2 h3 _ ih =>
    cases g with
    | nil => exact absurd rfl h1
    | cons t g =>
      rw [List.flatten_cons]
      show readTags (t :: (g ++ gs.flatten)) cur (le 2 k ++ _) m = _
      have hbt := (h3 t (by simp)).1
      rw [readTags_new _ _ _ _ _ _ (by rw [hbt]; exact fun he => hk he.symm), hbt, ← h2]
      rw [← List.cons_append, readTags_run v val (BitVec.ofNat 16 k) (t :: g) gs.flatten _ _ (fun t ht => (h3 t ht).1)
        (fun t ht => hl t (by rw [List.flatten_cons]; exact List.mem_append_left _ ht))
        (fun t ht => hd t (by rw [List.flatten_cons]; exact List.mem_append_left _ ht))]
      rw [ih _ ?_ _ (fun t ht => hl t (by rw [List.flatten_cons]; exact List.mem_append_right _ ht))
        (fun t ht => hd t (by rw [List.flatten_cons]; exact List.mem_append_right _ ht))]
      · rw [List.map_append, puts_append]
      · intro he
        have := congrArg BitVec.toNat he
        simp only [BitVec.toNat_ofNat] at this
        omega

/-- What `sort.Slice` promises (datatable.go:531-533). -/
def SortsByIndex (sort : List DTag → List DTag) : Prop :=
  ∀ l, (sort l).Perm l ∧ (sort l).Pairwise fun a b => ¬ b.index.toNat < a.index.toNat

theorem sort_numbered {sort : List DTag → List DTag} (hs : SortsByIndex sort) {ts : List DTag} (h : Numbered ts)
    (hl : ts.length ≤ 65535) : sort ts = ts := by
  obtain ⟨hp, hw⟩ := hs ts
  refine List.Perm.eq_of_pairwise (le := fun a b => ¬ b.index.toNat < a.index.toNat) ?_ hw ?_ hp
  · intro a b ha hb h1 h2
    have ha := hp.mem_iff.mp ha
    have hd := numbered_distinct h (by omega)
    refine pairwise_eq hd (fun h => h.symm) ha hb (fun hne => hne (BitVec.eq_of_toNat_eq (by omega)))
  · rw [List.pairwise_iff_getElem]
    intro i j hi hj hij
    rw [h i _ (List.getElem?_eq_getElem hi), h j _ (List.getElem?_eq_getElem hj)]
    simp only [BitVec.toNat_ofNat]
    omega

/-- C44, the tags of a buffer whose slots all mean something: after any history of adding tags singly,
in lists and in groups, of batches taken and refused, and of reads, with no removal, a read of the buffer
gives every tag the value in its own slot, and nothing else. -/
theorem C44_read_all_partial (E : DEnv) (inst : BitVec 16) (b : DBuf) (c : List (List Slot)) (slots : List Slot)
    (W : DWorld) (v : Slot → Bytes) (hist : DHistory E inst b c) (hne : b.tags ≠ []) (hn : b.tags.length ≤ 65535)
    (hsort : SortsByIndex W.sort)
    (hsync : b.pending ≠ [] → b.pending.length < 256 ∧
      (∀ t ∈ b.pending, t.ioi.length % 2 = 0 ∧ t.ioi.length < 512) ∧ Spec.AddRequest (addData b.pending) slots ∧
      Spec.TakesAdd W.addNet inst c)
    (hread : Spec.Shows W.readNet inst (if b.pending = [] then c else c ++ [slots]) v)
    (hslot : ∀ t ∈ b.tags, (v t.slot).length = t.size.toNat ∧
      ∃ w, Spec.SlotMeans t.typ (v t.slot) w ∧ Spec.ShortText w) :
    ∃ m, (readAll W b).1 = .ok m ∧
      (∀ t ∈ b.tags, (∀ u ∈ b.tags, u.name = t.name → u.typ = t.typ ∧ u.slot = t.slot) →
        ∀ w, Spec.SlotMeans t.typ (v t.slot) w → Spec.ShortText w → m.lookup t.name = some w) ∧
      (∀ k, (∀ t ∈ b.tags, t.name ≠ k) → m.lookup k = none) := by
  have inv := dinv_history hist
  -- the buffer as it is when the read request goes out
  obtain ⟨b', hb', inv', hsy, hslots, hnames⟩ : ∃ b', (readAll W b).1 =
      (W.readNet (genericRequest W.seq2 0x4C#8 (dataTablePath b'.inst) [])).bind (fun r => do
        let d ← genericReply 0x4C#8 r
        readTags (W.sort b'.tags) 0 d []) ∧
      DInv inst b' (if b.pending = [] then c else c ++ [slots]) ∧ b'.synched = true ∧
      b'.tags.map DTag.slot = b.tags.map DTag.slot ∧
      b'.tags.map (fun t => (t.name, t.typ, t.slot)) = b.tags.map (fun t => (t.name, t.typ, t.slot)) := by
    obtain ⟨gs, pend, hg1, hg2, hg3, hg4⟩ := inv.groups
    have hpend := pending_split hg1 hg2 hg3
    have hcr : (!b.created) = false := by simp [inv.created]
    by_cases hp : b.pending = []
    · have hs : b.synched = true := hg4.mpr ⟨hpend ▸ hp, hne⟩
      refine ⟨b, ?_, by rw [if_pos hp]; exact inv, hs, rfl, rfl⟩
      unfold readAll
      simp only [hcr, Bool.false_eq_true, if_false, if_neg hne, hs, if_true]
    · obtain ⟨h1, h2, h3, h4⟩ := hsync hp
      have hs : b.synched = false := by
        cases hb : b.synched with
        | false => rfl
        | true => exact absurd (hpend.trans (hg4.mp hb).1) hp
      obtain ⟨k1, k2, k3, k4⟩ := dinv_sync inv W.addNet W.seq1 slots hp h1 h2 h3 h4
      refine ⟨(syncTags W.addNet W.seq1 b).2, ?_, by rw [if_neg hp]; exact k2, k3, k4, ?_⟩
      · unfold readAll
        simp only [hcr, Bool.false_eq_true, if_false, if_neg hne, hs]
        rw [show syncTags W.addNet W.seq1 b = ((syncTags W.addNet W.seq1 b).1, (syncTags W.addNet W.seq1 b).2) from rfl]
        rw [k1]
      · rcases syncTags_tags W.addNet W.seq1 b with hs | ⟨id, hs⟩
        · rw [hs]
        · rw [hs, List.map_map]
          apply List.map_congr_left
          intro t _
          show (_, _, _) = _
          unfold markSynched
          split <;> rfl
  obtain ⟨gs, pend, hg1, hg2, hg3, hg4⟩ := inv'.groups
  have hp : pend = [] := (hg4.mp hsy).1
  rw [hp, List.append_nil] at hg1
  have hlen : b'.tags.length = b.tags.length := by
    have := congrArg List.length hslots
    simpa using this
  have hback : ∀ t ∈ b'.tags, ∃ u ∈ b.tags, u.name = t.name ∧ u.typ = t.typ ∧ u.slot = t.slot := by
    intro t ht
    have : (t.name, t.typ, t.slot) ∈ b.tags.map (fun t => (t.name, t.typ, t.slot)) := by
      rw [← hnames]; exact List.mem_map_of_mem (f := fun t : DTag => (t.name, t.typ, t.slot)) ht
    obtain ⟨u, hu, he⟩ := List.mem_map.mp this
    simp only [Prod.mk.injEq] at he
    exact ⟨u, hu, he⟩
  have hfwd : ∀ t ∈ b.tags, ∃ u ∈ b'.tags, u.name = t.name ∧ u.typ = t.typ ∧ u.slot = t.slot := by
    intro t ht
    have : (t.name, t.typ, t.slot) ∈ b'.tags.map (fun t => (t.name, t.typ, t.slot)) := by
      rw [hnames]; exact List.mem_map_of_mem (f := fun t : DTag => (t.name, t.typ, t.slot)) ht
    obtain ⟨u, hu, he⟩ := List.mem_map.mp this
    simp only [Prod.mk.injEq] at he
    exact ⟨u, hu, he⟩
  have hsz : ∀ u t : DTag, u.slot = t.slot → u.size.toNat = t.size.toNat := by
    intro u t h
    exact congrArg Prod.fst h
  let val : DTag → Scal := fun t => match decodeDataTable t.typ (v t.slot) with
    | .ok w => w
    | _ => .bool false
  have hdec : ∀ t ∈ b'.tags, decodeDataTable t.typ (v t.slot) = .ok (val t) := by
    intro t ht
    obtain ⟨u, hu, _, h2, h3⟩ := hback t ht
    obtain ⟨w, hw1, hw2⟩ := (hslot u hu).2
    have := decode_means hw1 hw2
    rw [h2, h3] at this
    show _ = Res.ok (match decodeDataTable t.typ (v t.slot) with
      | .ok w => w
      | _ => .bool false)
    rw [this]
  obtain ⟨r, hr1, hr2⟩ := hread (genericRequest W.seq2 0x4C#8 (dataTablePath b'.inst) []) (inv'.inst ▸ request_form _ _ _ _)
  refine ⟨puts (b'.tags.map fun t => (t.name, val t)) [], ?_, ?_, ?_⟩
  · rw [hb', hr1, Res.bind]
    have hgr := reply_data (by decide) hr2
    rw [hgr]
    show readTags (W.sort b'.tags) 0 _ [] = _
    rw [sort_numbered hsort inv'.numbers (by omega), hg1]
    refine readTags_batches v val hg2 0 (by decide) [] (fun t ht => ?_) (fun t ht => hdec t (hg1 ▸ ht))
    obtain ⟨u, hu, _, _, h3⟩ := hback t (hg1 ▸ ht)
    rw [← h3, (hslot u hu).1]
    exact hsz _ _ h3
  · intro t ht huniq w hw1 hw2
    obtain ⟨u, hu, h1, h2, h3⟩ := hfwd t ht
    have hvu : ∀ x ∈ b'.tags, x.name = t.name → val x = w := by
      intro x hx hxn
      obtain ⟨y, hy, k1, k2, k3⟩ := hback x hx
      obtain ⟨j1, j2⟩ := huniq y hy (k1.trans hxn)
      have := hdec x hx
      rw [← k2, ← k3, j1, j2, decode_means hw1 hw2] at this
      cases this
      rfl
    refine puts_lookup_some _ _ _ _ (List.mem_map.mpr ⟨u, hu, ?_⟩) ?_
    · rw [h1, hvu u hu h1]
    · intro e he hen
      obtain ⟨x, hx, rfl⟩ := List.mem_map.mp he
      exact hvu x hx hen
  · intro k hk
    rw [puts_lookup_none _ _ _ (fun e he => ?_)]
    · rfl
    · obtain ⟨x, hx, rfl⟩ := List.mem_map.mp he
      obtain ⟨y, hy, k1, _⟩ := hback x hx
      rw [← k1]
      exact hk y hy

theorem readTags_types {ts : List DTag} {cur : BitVec 16} {d : Bytes} {m m' : List (Str × Scal)}
    (h : readTags ts cur d m = .ok m') : ∀ t ∈ ts, ∃ raw w, decodeDataTable t.typ raw = .ok w := by
  induction ts generalizing cur d m with
  | nil => simp
  | cons t ts ih =>
    have h : ((if t.batch ≠ cur then (getU 2 d).bind (fun x => Res.ok x.2) else Res.ok d).bind fun d =>
        if d.length < t.size.toNat then .err .fail
        else (decodeDataTable t.typ (d.take t.size.toNat)).bind fun v =>
          readTags ts t.batch (d.drop t.size.toNat) (mapPut m t.name v)) = .ok m' := by
      rw [← h, readTags]
      split
      · cases getU 2 d <;> rfl
      · rfl
    obtain ⟨d', _, h⟩ := Res.bind_eq_ok.mp h
    split at h
    · cases h
    · obtain ⟨w, hw, h⟩ := Res.bind_eq_ok.mp h
      intro u hu
      rcases List.mem_cons.mp hu with rfl | hu
      · exact ⟨_, _, hw⟩
      · exact ih h u hu

/-- C44 is false for tags of type ULINT (0xC9), which are accepted: with one of them registered, no read of
the buffer gives any value, whatever the controller sends. -/
theorem C44_ulint_unreadable (W : DWorld) (b : DBuf) (hsort : ∀ l, (W.sort l).Perm l)
    (h : ∃ t ∈ b.tags, t.typ = 0xC9#8) : ∀ m, (readAll W b).1 ≠ .ok m := by
  intro m hm
  have key : ∀ (b' : DBuf), (∃ t ∈ b'.tags, t.typ = 0xC9#8) →
      (W.readNet (genericRequest W.seq2 0x4C#8 (dataTablePath b'.inst) [])).bind (fun r => do
        let d ← genericReply 0x4C#8 r
        readTags (W.sort b'.tags) 0 d []) ≠ .ok m := by
    rintro b' ⟨t, ht, htt⟩ he
    obtain ⟨r, _, he⟩ := Res.bind_eq_ok.mp he
    obtain ⟨d, _, he⟩ := Res.bind_eq_ok.mp he
    obtain ⟨raw, w, hw⟩ := readTags_types he t ((hsort _).mem_iff.mpr ht)
    rw [htt] at hw
    unfold decodeDataTable at hw
    rw [if_neg (by decide)] at hw
    obtain ⟨x, hx, _⟩ := Res.bind_eq_ok.mp hw
    have : readValue 0xC9#8 raw = .err .fail := rfl
    rw [this] at hx
    cases hx
  unfold readAll at hm
  split at hm
  · cases hm
  · split at hm
    · cases hm
    · by_cases hs : b.synched = true
      · simp only [hs, if_true] at hm
        exact key b h hm
      · simp only [hs, if_false] at hm
        rcases syncTags_tags W.addNet W.seq1 b with ht | ⟨id, ht⟩
        · cases hr : syncTags W.addNet W.seq1 b with
          | mk x b' =>
            rw [hr] at hm ht
            cases x with
            | ok u => exact key b' (by rw [show b'.tags = b.tags from ht]; exact h) hm
            | err e => cases hm
            | panic => cases hm
        · cases hr : syncTags W.addNet W.seq1 b with
          | mk x b' =>
            rw [hr] at hm ht
            cases x with
            | ok u =>
              refine key b' ?_ hm
              obtain ⟨t, h1, h2⟩ := h
              refine ⟨markSynched id t, ?_, ?_⟩
              · rw [show b'.tags = _ from ht]; exact List.mem_map_of_mem h1
              · unfold markSynched; split <;> exact h2
            | err e => cases hm
            | panic => cases hm

/-- A ULINT tag is accepted. -/
example : (addTag demoEnv (DBuf.new 7) (str "U") 0xC9#8).1 = .ok () := by decide +kernel

/-- C44 is false for texts of more than 82 bytes (known tags of a string type with a larger capacity): they
are cut, without an error. -/
theorem C44_long_text_cut (s pad : Bytes) (h : 82 < s.length) (h2 : s.length < 2 ^ 32) :
    decodeDataTable tSTRING (le 4 s.length ++ (s ++ pad)) = .ok (.str (s.take 82)) := by
  unfold decodeDataTable
  rw [if_pos (Or.inl rfl), if_neg (show ¬ (le 4 s.length ++ (s ++ pad)).length < 4 by simp)]
  have ht : (le 4 s.length ++ (s ++ pad)).take 4 = le 4 s.length := by
    rw [List.take_append_of_le_length (by simp)]
    exact List.take_of_length_le (by simp)
  have hdr : (le 4 s.length ++ (s ++ pad)).drop 4 = s ++ pad := List.drop_left' (by simp)
  rw [ht, hdr, unle_le_of_lt (by simpa using h2)]
  simp only
  rw [if_neg (show ¬ (le 4 s.length ++ (s ++ pad)).length - 4 < s.length by simp), if_pos h,
    List.take_append_of_le_length (by omega)]

/-- C44 is false for more than 255 tags added between two reads: the number of entries the add request
announces is not the number it carries. -/
theorem C44_many_tags_miscounted (ts : List DTag) (h : 256 ≤ ts.length) :
    ∀ n : Byte, (addData ts)[4]? = some n → n.toNat ≠ ts.length := by
  intro n hn he
  have := n.isLt
  omega

/-- 256 tags: the request announces none. -/
example (t : DTag) : (addData (List.replicate 256 t))[4]? = some 0#8 := by
  show some (BitVec.ofNat 8 (List.replicate 256 t).length) = _
  rw [List.length_replicate]
  rfl

/-- What the demonstration controller holds: two batches, of two slots and one. -/
def demoContent : Slot → Bytes
  | (2, _) => [0xFE#8, 0xFF#8]
  | (1, _) => [7#8]
  | _ => [1#8, 2#8, 0#8, 0#8]

/-- The demonstration history: two tags in one batch, then a third one. -/
def demoBuf : DBuf :=
  (addTag demoEnv (syncTags (okNet 0x4E#8 (le 2 1)) 5 (addTags demoEnv (DBuf.new 7)
    [(str "A", tDINT), (str "Bee", tINT)]).2).2 (str "C") tSINT).2

def demoSlots : List (List Slot) := [[(4, [0x91#8, 1#8]), (2, [0x91#8, 3#8])]]

theorem demoBuf_history : DHistory demoEnv 7 demoBuf demoSlots := by
  have h1 : DHistory demoEnv 7 (addTags demoEnv (DBuf.new 7) [(str "A", tDINT), (str "Bee", tINT)]).2 [] :=
    .adds _ _ _ .new (by decide)
  refine .add _ _ _ _ (.sync _ [] _ _ [(4, [0x91#8, 1#8]), (2, [0x91#8, 3#8])] h1
    (by decide +kernel) (by decide +kernel) (by decide +kernel) ?_ ?_)
  · exact ⟨by decide, by decide, by decide +kernel⟩
  · intro req d slots _ _
    exact ⟨_, rfl, 0, _, by unfold Spec.CForm.fits; decide, rfl⟩

def demoDWorld : DWorld := {
  addNet := okNet 0x4E#8 (le 2 2)
  readNet := okNet 0x4C#8 (Spec.content demoContent 1 (demoSlots ++ [[(1, [0x91#8, 1#8])]]))
  seq1 := 8
  seq2 := 9
  sort := fun l => l.mergeSort fun a b => decide (a.index.toNat ≤ b.index.toNat) }

example : (readAll { demoDWorld with sort := fun l => l } demoBuf).1 =
    .ok [(str "A", .i32 0x201#32), (str "Bee", .i16 0xFFFE#16), (str "C", .i8 7#8)] := by decide +kernel

/-- The theorem applies to it. -/
example : ∃ m, (readAll demoDWorld demoBuf).1 = .ok m ∧ m.lookup (str "Bee") = some (.i16 0xFFFE#16) ∧
    m.lookup (str "D") = none := by
  have hsort : SortsByIndex (fun l : List DTag => (l.mergeSort fun a b => decide (a.index.toNat ≤ b.index.toNat))) := by
    intro l
    refine ⟨List.mergeSort_perm _ _, ?_⟩
    have := List.pairwise_mergeSort (le := fun a b : DTag => decide (a.index.toNat ≤ b.index.toNat))
      (by intro a b c; simp; omega) (by intro a b; simp; omega) l
    exact this.imp (by intro a b h; simp at h; omega)
  have htags : demoBuf.tags = [⟨str "A", tDINT, 4, 1, [0x91#8, 1#8], 1, true, none⟩,
      ⟨str "Bee", tINT, 2, 2, [0x91#8, 3#8], 1, true, none⟩, ⟨str "C", tSINT, 1, 3, [0x91#8, 1#8], 0, false, none⟩] := by
    decide +kernel
  have hpend : demoBuf.pending = [⟨str "C", tSINT, 1, 3, [0x91#8, 1#8], 0, false, none⟩] := by decide +kernel
  obtain ⟨m, h1, h2, h3⟩ := C44_read_all_partial demoEnv 7 demoBuf demoSlots [(1, [0x91#8, 1#8])]
    demoDWorld
    demoContent demoBuf_history (by rw [htags]; simp) (by rw [htags]; simp) hsort
    (by
      intro _
      rw [hpend]
      refine ⟨by decide, by decide, ⟨by decide, by decide, by decide⟩, ?_⟩
      intro req d slots _ _
      exact ⟨_, rfl, 0, _, by unfold Spec.CForm.fits; decide, rfl⟩)
    (by
      rw [hpend, if_neg (by simp)]
      intro req _
      exact ⟨_, rfl, 0, _, by unfold Spec.CForm.fits; decide, rfl⟩)
    (by
      rw [htags]
      intro t ht
      rcases List.mem_cons.mp ht with rfl | ht
      · exact ⟨rfl, .i32 0x201#32, ⟨rfl, rfl, by decide⟩, trivial⟩
      rcases List.mem_cons.mp ht with rfl | ht
      · exact ⟨rfl, .i16 0xFFFE#16, ⟨rfl, rfl, by decide⟩, trivial⟩
      rw [List.mem_singleton.mp ht]
      exact ⟨rfl, .i8 7#8, ⟨rfl, rfl, by decide⟩, trivial⟩)
  refine ⟨m, h1, ?_, ?_⟩
  · exact h2 ⟨str "Bee", tINT, 2, 2, [0x91#8, 3#8], 1, true, none⟩ (by rw [htags]; simp) (by
      rw [htags]; decide) _ ⟨rfl, rfl, by decide⟩ trivial
  · exact h3 _ (by rw [htags]; decide)

end Gologix
