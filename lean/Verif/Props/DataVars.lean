import Verif.Props.DataTable
import Verif.Props.TagGroup
import Mathlib.Data.List.Nodup
/-
C74: variables bound to the tags of a data table.  C75: the life of a data table.  C44: raw reads.
-/
set_option linter.unusedSimpArgs false

namespace Gologix

open Gologix.Spec (Slot Expands renderIdx)

/-- The variables after values were assigned to those of the tags. -/
def assigned (ws : List (DTag × Scal)) (mem : Mem) : Mem :=
  ws.foldl (fun mem e => match e.1.var with
    | some r => mem.set r.id e.2
    | none => mem) mem

theorem setGoVar_ok {r : VRef} {v : Scal} {mem mem' : Mem} (h : setGoVar r v mem = .ok mem') :
    r.ptr = true ∧ r.ty.takes v = true ∧ mem' = mem.set r.id v := by
  unfold setGoVar at h
  split at h
  · cases h
  · rename_i h1
    split at h
    · cases h
    · split at h
      · cases h
      · rename_i h3
        cases h
        exact ⟨by simpa using h1, by simpa using h3, rfl⟩

theorem setGoVar_not_ok {r : VRef} {v : Scal} {mem mem' : Mem} (h : ¬ (r.ptr = true ∧ r.ty.takes v = true)) :
    setGoVar r v mem ≠ .ok mem' := fun he => h ⟨(setGoVar_ok he).1, (setGoVar_ok he).2.1⟩

/-- The number of a new batch is skipped. -/
def skipNumber (t : DTag) (cur : BitVec 16) (d : Bytes) : Res Bytes :=
  if t.batch ≠ cur then (getU 2 d).bind (fun x => Res.ok x.2) else Res.ok d

theorem readTags_step (t : DTag) (ts : List DTag) (cur : BitVec 16) (d : Bytes) (m : List (Str × Scal)) :
    readTags (t :: ts) cur d m = (skipNumber t cur d).bind fun d =>
      if d.length < t.size.toNat then .err .fail
      else (decodeDataTable t.typ (d.take t.size.toNat)).bind fun v =>
        readTags ts t.batch (d.drop t.size.toNat) (mapPut m t.name v) := by
  rw [readTags, skipNumber]
  split
  · cases getU 2 d <;> rfl
  · rfl

theorem readTagsRaw_step (t : DTag) (ts : List DTag) (cur : BitVec 16) (d : Bytes) (m : List (Str × Bytes)) :
    readTagsRaw (t :: ts) cur d m = (skipNumber t cur d).bind fun d =>
      if d.length < t.size.toNat then .err .fail
      else readTagsRaw ts t.batch (d.drop t.size.toNat) (mapPut m t.name (d.take t.size.toNat)) := by
  rw [readTagsRaw, skipNumber]
  split
  · cases getU 2 d <;> rfl
  · rfl

theorem readTagsV_step (t : DTag) (ts : List DTag) (cur : BitVec 16) (d : Bytes) (m : List (Str × Scal)) (mem : Mem) :
    readTagsV (t :: ts) cur d m mem = match skipNumber t cur d with
    | .err e => (.err e, mem)
    | .panic => (.panic, mem)
    | .ok d =>
      if d.length < t.size.toNat then (.err .fail, mem)
      else match decodeDataTable t.typ (d.take t.size.toNat) with
        | .err e => (.err e, mem)
        | .panic => (.panic, mem)
        | .ok v =>
          match t.var with
          | none => readTagsV ts t.batch (d.drop t.size.toNat) (mapPut m t.name v) mem
          | some r =>
            match setGoVar r v mem with
            | .ok mem => readTagsV ts t.batch (d.drop t.size.toNat) (mapPut m t.name v) mem
            | .err e => (.err e, mem)
            | .panic => (.panic, mem) := by
  rw [readTagsV]
  have : (if t.batch ≠ cur then do
        let (_, d) ← getU 2 d
        .ok d
      else .ok d : Res Bytes) = skipNumber t cur d := by
    rw [skipNumber]
    split
    · cases getU 2 d <;> rfl
    · rfl
  rw [this]
  cases skipNumber t cur d <;> rfl

/-- A read that succeeds, tag by tag. -/
theorem readTagsV_ok {ts : List DTag} {cur : BitVec 16} {d : Bytes} {m m' : List (Str × Scal)} {mem mem' : Mem}
    (h : readTagsV ts cur d m mem = (.ok m', mem')) :
    ∃ vs : List Scal, vs.length = ts.length ∧ m' = puts ((ts.map DTag.name).zip vs) m ∧
      mem' = assigned (ts.zip vs) mem ∧ readTags ts cur d m = .ok m' ∧
      (∀ e ∈ ts.zip vs, ∀ r, e.1.var = some r → r.ptr = true ∧ r.ty.takes e.2 = true) := by
  induction ts generalizing cur d m mem with
  | nil =>
    simp only [readTagsV, Prod.mk.injEq, Res.ok.injEq] at h
    obtain ⟨rfl, rfl⟩ := h
    exact ⟨[], rfl, rfl, rfl, rfl, by simp⟩
  | cons t ts ih =>
    rw [readTagsV_step] at h
    rw [readTags_step]
    cases hd : skipNumber t cur d with
    | err e => rw [hd] at h; simp at h
    | panic => rw [hd] at h; simp at h
    | ok d' =>
      rw [hd] at h
      simp only at h
      simp only [Res.bind]
      split at h
      · simp at h
      · rename_i hl
        rw [if_neg hl]
        cases hv : decodeDataTable t.typ (d'.take t.size.toNat) with
        | err e => rw [hv] at h; simp at h
        | panic => rw [hv] at h; simp at h
        | ok v =>
          rw [hv] at h
          simp only at h ⊢
          cases hr : t.var with
          | none =>
            rw [hr] at h
            obtain ⟨vs, h1, h2, h3, h4, h5⟩ := ih h
            refine ⟨v :: vs, by simp [h1], ?_, ?_, h4, ?_⟩
            · rw [h2]; rfl
            · rw [h3]; simp [assigned, hr]
            · intro e he r her
              simp only [List.zip_cons_cons, List.mem_cons] at he
              rcases he with rfl | he
              · rw [hr] at her; cases her
              · exact h5 e he r her
          | some r =>
            rw [hr] at h
            simp only at h
            cases hs : setGoVar r v mem with
            | err e => rw [hs] at h; simp at h
            | panic => rw [hs] at h; simp at h
            | ok mem1 =>
              rw [hs] at h
              obtain ⟨k1, k2, k3⟩ := setGoVar_ok hs
              obtain ⟨vs, h1, h2, h3, h4, h5⟩ := ih h
              refine ⟨v :: vs, by simp [h1], ?_, ?_, h4, ?_⟩
              · rw [h2]; rfl
              · rw [h3, k3]; simp [assigned, hr]
              · intro e he r' her
                simp only [List.zip_cons_cons, List.mem_cons] at he
                rcases he with rfl | he
                · rw [hr] at her; cases her; exact ⟨k1, k2⟩
                · exact h5 e he r' her

theorem assigned_other (ws : List (DTag × Scal)) (mem : Mem) (id : Nat)
    (h : ∀ e ∈ ws, ∀ r, e.1.var = some r → r.id ≠ id) : assigned ws mem id = mem id := by
  induction ws generalizing mem with
  | nil => rfl
  | cons e ws ih =>
    show assigned ws _ id = _
    rw [ih _ fun e he => h e (by simp [he])]
    cases hr : e.1.var with
    | none => simp only [hr]
    | some r =>
      have := h e (by simp) r hr
      simp only [hr, Mem.set]
      rw [if_neg (fun he => this he.symm)]

theorem assigned_mem (ws : List (DTag × Scal)) (mem : Mem) (t : DTag) (v : Scal) (r : VRef) (hm : (t, v) ∈ ws)
    (hr : t.var = some r)
    (hd : ws.Pairwise fun a b => ∀ r s, a.1.var = some r → b.1.var = some s → r.id ≠ s.id) :
    assigned ws mem r.id = v := by
  induction ws generalizing mem with
  | nil => simp at hm
  | cons e ws ih =>
    rw [List.pairwise_cons] at hd
    show assigned ws _ r.id = _
    rcases List.mem_cons.mp hm with rfl | hm
    · rw [assigned_other ws _ _ fun e he s hs => (hd.1 e he r s hr hs).symm]
      simp [hr, Mem.set]
    · exact ih _ hm hd.2

/-- The buffer that is read: unchanged, or with the tags sent. -/
theorem readAllV_tags {W : DWorld} {b b' : DBuf} {mem mem' : Mem} {m : List (Str × Scal)}
    (h : readAllV W b mem = (.ok m, b', mem')) :
    ∃ d, readTagsV (W.sort b'.tags) 0 d [] mem = (.ok m, mem') ∧
      (b'.tags = b.tags ∨ ∃ id, b'.tags = b.tags.map (markSynched id)) ∧ (readAll W b).1 = .ok m ∧
      b.created = true := by
  unfold readAllV at h
  unfold readAll
  split at h
  · simp at h
  · rename_i hc
    rw [if_neg hc]
    split at h
    · simp at h
    · rename_i hne
      rw [if_neg hne]
      have ht : ∀ x : Res Unit × DBuf, x = (if b.synched then (.ok (), b) else syncTags W.addNet W.seq1 b) →
          (x.2.tags = b.tags ∨ ∃ id, x.2.tags = b.tags.map (markSynched id)) := by
        rintro x rfl
        split
        · exact Or.inl rfl
        · rcases syncTags_tags W.addNet W.seq1 b with hs | ⟨id, hs⟩
          · exact Or.inl (by rw [hs])
          · exact Or.inr ⟨id, hs⟩
      generalize (if b.synched then (.ok (), b) else syncTags W.addNet W.seq1 b : Res Unit × DBuf) = x at h ht
      obtain ⟨r, b1⟩ := x
      have ht := ht _ rfl
      cases r with
      | err e => simp at h
      | panic => simp at h
      | ok u =>
        simp only at h ⊢
        cases hg : (W.readNet (genericRequest W.seq2 0x4C#8 (dataTablePath b1.inst) [])).bind fun r =>
            genericReply 0x4C#8 r with
        | err e => rw [hg] at h; simp at h
        | panic => rw [hg] at h; simp at h
        | ok d =>
          rw [hg] at h
          simp only at h
          obtain ⟨rp, hr1, hr2⟩ := Res.bind_eq_ok.mp hg
          generalize hz : readTagsV (W.sort b1.tags) 0 d [] mem = z at h
          obtain ⟨res, mem1⟩ := z
          simp only [Prod.mk.injEq] at h
          obtain ⟨rfl, rfl, rfl⟩ := h
          refine ⟨d, hz, ht, ?_, by simpa using hc⟩
          rw [hr1]
          show (do let d ← genericReply 0x4C#8 rp; readTags (W.sort b1.tags) 0 d [] : Res _) = _
          rw [hr2, Res.bind_ok]
          exact (readTagsV_ok hz).choose_spec.2.2.2.1

/-- C74: after a successful read, with tags of distinct names and variables bound once, every bound variable holds
the value reported for its tag, and all others are as before. -/
theorem C74_bound_partial (W : DWorld) (b b' : DBuf) (mem mem' : Mem) (m : List (Str × Scal))
    (hsort : ∀ l, (W.sort l).Perm l) (hn : (b.tags.map DTag.name).Nodup)
    (hv : b.tags.Pairwise fun t u => ∀ r s, t.var = some r → u.var = some s → r.id ≠ s.id)
    (h : readAllV W b mem = (.ok m, b', mem')) :
    (∀ t ∈ b.tags, ∀ r, t.var = some r → m.lookup t.name = some (mem' r.id)) ∧
    (∀ id, (∀ t ∈ b.tags, ∀ r, t.var = some r → r.id ≠ id) → mem' id = mem id) := by
  obtain ⟨d, hd, ht, -, -⟩ := readAllV_tags h
  obtain ⟨vs, h1, h2, h3, -, -⟩ := readTagsV_ok hd
  -- names and variables of the tags read
  have hnv : (b'.tags.map fun t => (t.name, t.var)) = b.tags.map fun t => (t.name, t.var) := by
    rcases ht with ht | ⟨id, ht⟩
    · rw [ht]
    · rw [ht, List.map_map]
      apply List.map_congr_left
      intro t _
      show (_, _) = _
      unfold markSynched
      split <;> rfl
  have hp := hsort b'.tags
  have hpnv : ((W.sort b'.tags).map fun t => (t.name, t.var)).Perm (b.tags.map fun t => (t.name, t.var)) :=
    hnv ▸ hp.map _
  have hnames : ((W.sort b'.tags).map DTag.name).Nodup := by
    have : ((W.sort b'.tags).map DTag.name).Perm (b.tags.map DTag.name) := by
      have := hpnv.map Prod.fst
      simpa [List.map_map, Function.comp_def] using this
    exact this.nodup_iff.mpr hn
  have hvars : (W.sort b'.tags).Pairwise fun t u => ∀ r s, t.var = some r → u.var = some s → r.id ≠ s.id := by
    have h0 : (b.tags.map fun t => (t.name, t.var)).Pairwise fun x y => ∀ r s, x.2 = some r → y.2 = some s → r.id ≠ s.id :=
      List.pairwise_map.mpr hv
    have := (hpnv.pairwise_iff (fun {x y} hxy r s hr hs => (hxy s r hs hr).symm)).mpr h0
    exact List.pairwise_map.mp this
  generalize W.sort b'.tags = ts at *
  constructor
  · intro t htm r hr
    have : (t.name, t.var) ∈ ts.map fun t => (t.name, t.var) :=
      hpnv.mem_iff.mpr (List.mem_map_of_mem (f := fun t : DTag => (t.name, t.var)) htm)
    obtain ⟨u, hu, he⟩ := List.mem_map.mp this
    simp only [Prod.mk.injEq] at he
    obtain ⟨i, hi, hiu⟩ := List.getElem_of_mem hu
    have hzu : (u, vs[i]'(by omega)) ∈ ts.zip vs := by
      rw [← hiu]
      exact List.mem_iff_getElem.mpr ⟨i, by simp; omega, by simp⟩
    have hz2 : (t.name, vs[i]'(by omega)) ∈ (ts.map DTag.name).zip vs := by
      rw [← he.1, ← hiu]
      exact List.mem_iff_getElem.mpr ⟨i, by simp; omega, by simp⟩
    rw [h2, h3, puts_lookup_some _ _ _ _ hz2, assigned_mem _ mem u _ r hzu (he.2.trans hr)]
    · have hl : (ts.zip vs).map Prod.fst = ts := List.map_fst_zip (by omega)
      rw [← hl] at hvars
      exact List.pairwise_map.mp hvars
    · intro e he' hk
      obtain ⟨j, hj, hje⟩ := List.getElem_of_mem he'
      simp only [List.getElem_zip, List.getElem_map] at hje
      simp only [List.length_zip, List.length_map] at hj
      subst hje
      simp only at hk ⊢
      have hji : j = i := by
        have := (List.Nodup.getElem_inj_iff hnames (i := j) (j := i) (hi := by simp; omega) (hj := by simpa using hi)).mp
          (by simp [hk, hiu, he.1])
        exact this
      subst hji
      rfl
  · intro id hid
    rw [h3]
    apply assigned_other
    intro e he r hr
    have hu := (List.of_mem_zip he).1
    have : (e.1.name, e.1.var) ∈ b.tags.map fun t => (t.name, t.var) :=
      hpnv.mem_iff.mp (List.mem_map_of_mem (f := fun t : DTag => (t.name, t.var)) hu)
    obtain ⟨t, ht', het⟩ := List.mem_map.mp this
    simp only [Prod.mk.injEq] at het
    exact hid t ht' r (het.2.trans hr)

theorem decode_type {T : GoTy} {raw : Bytes} {v : Scal} (h : decodeDataTable (cipOfGo T) raw = .ok v) :
    v.ty = some T := by
  cases T <;> simp [decodeDataTable, readValue, readBool, cipOfGo, tSINT, tINT, tDINT, tLINT, tUSINT, tUINT, tUDINT, tBYTE,
    tWORD, tDWORD, tLWORD, tUnknown, tStruct, tBOOL, tREAL, tLREAL, tSTRING, Res.bind_eq_ok] at h
  case str =>
    split at h
    · cases h
    · cases h
      rfl
  case bool =>
    obtain ⟨_, ⟨_, h⟩ | ⟨_, h⟩⟩ := h
    · subst h; rfl
    · subst h; rfl
  all_goals
    obtain ⟨_, x, h1, rfl, -⟩ := h
    rfl

/-- The variable of a tag is a pointer to a value of the type of the tag, or to an interface (the tag is then of such a
type or of the one interfaces are added as). -/
def Fits (t : DTag) : Prop := ∀ r, t.var = some r → (∃ T, r = ⟨true, r.id, .go T⟩ ∧ t.typ = cipOfGo T) ∨
  r = ⟨true, r.id, .any⟩ ∧ (t.typ = tStruct ∨ ∃ T, t.typ = cipOfGo T)

theorem readTagsV_of_readTags {ts : List DTag} {cur : BitVec 16} {d : Bytes} {m m' : List (Str × Scal)} (mem : Mem)
    (h : readTags ts cur d m = .ok m') (hf : ∀ t ∈ ts, Fits t) :
    ∃ mem', readTagsV ts cur d m mem = (.ok m', mem') := by
  induction ts generalizing cur d m mem with
  | nil => cases h; exact ⟨mem, rfl⟩
  | cons t ts ih =>
    rw [readTags_step] at h
    obtain ⟨d', h1, h⟩ := Res.bind_eq_ok.mp h
    rw [readTagsV_step, h1]
    simp only
    split at h
    · cases h
    · rename_i hl
      rw [if_neg hl]
      obtain ⟨v, hv, h⟩ := Res.bind_eq_ok.mp h
      rw [hv]
      simp only
      cases hr : t.var with
      | none => exact ih mem h fun t ht => hf t (by simp [ht])
      | some r =>
        have hs : setGoVar r v mem = .ok (mem.set r.id v) := by
          unfold setGoVar
          rcases hf t (by simp) r hr with ⟨T, he, hT⟩ | ⟨he, hT⟩
          · rw [hT] at hv
            have hty := decode_type hv
            rw [he]
            have hnil : v ≠ .nil := by rintro rfl; cases hty
            simp [VTy.takes, hty, hnil]
          · have hnil : v ≠ .nil := by
              rintro rfl
              rcases hT with hT | ⟨T, hT⟩
              · rw [hT] at hv
                simp only [decodeDataTable, or_true, if_true] at hv
                split at hv <;> cases hv
              · rw [hT] at hv
                cases decode_type hv
            rw [he]
            simp [VTy.takes, hnil]
        simp only [hs]
        exact ih _ h fun t ht => hf t (by simp [ht])

/-- C74, readability: variables of the types of their tags never make a read fail. -/
theorem C74_fitting_read (W : DWorld) (b : DBuf) (mem : Mem) (m : List (Str × Scal)) (hf : ∀ t ∈ b.tags, Fits t)
    (hsort : ∀ l, (W.sort l).Perm l) (h : (readAll W b).1 = .ok m) : (readAllV W b mem).1 = .ok m := by
  unfold readAll at h
  unfold readAllV
  split at h
  · cases h
  · rename_i hc
    rw [if_neg hc]
    split at h
    · cases h
    · rename_i hne
      rw [if_neg hne]
      have ht : ∀ t ∈ (if b.synched then (.ok (), b) else syncTags W.addNet W.seq1 b : Res Unit × DBuf).2.tags, Fits t := by
        intro t ht
        split at ht
        · exact hf t ht
        · rcases syncTags_tags W.addNet W.seq1 b with hs | ⟨id, hs⟩
          · rw [hs] at ht; exact hf t ht
          · rw [hs] at ht
            obtain ⟨u, hu, rfl⟩ := List.mem_map.mp ht
            have := hf u hu
            unfold markSynched
            split
            · exact this
            · exact this
      generalize (if b.synched then (.ok (), b) else syncTags W.addNet W.seq1 b : Res Unit × DBuf) = x at h ht ⊢
      obtain ⟨r, b1⟩ := x
      cases r with
      | err e => cases h
      | panic => cases h
      | ok u =>
        simp only at h ht ⊢
        obtain ⟨rp, h1, h2⟩ := Res.bind_eq_ok.mp h
        rw [Res.bind_eq_ok] at h2
        obtain ⟨d, h3, h4⟩ := h2
        rw [h1]
        show (match genericReply 0x4C#8 rp with
          | .ok d => _
          | .err e => _
          | .panic => _ : Res (List (Str × Scal)) × DBuf × Mem).1 = _
        rw [h3]
        obtain ⟨mem', hm⟩ := readTagsV_of_readTags mem h4 fun t ht' => ht t ((hsort _).mem_iff.mp ht')
        simp only [hm]

theorem addTagRef_added {E : DEnv} {b : DBuf} {name : Str} {data : Option VRef}
    (h : (addTagRef E b name data).1 = .ok ()) :
    ∃ t, (addTagRef E b name data).2.tags = b.tags ++ [t] ∧ t.name = name ∧ t.var = data ∧ t.typ = refType data := by
  unfold addTagRef at h ⊢
  split at h
  · cases h
  · rename_i hc
    rw [if_neg hc]
    simp only at h ⊢
    cases hi : E.ioi name (refType data) with
    | err e => rw [hi] at h; cases h
    | panic => rw [hi] at h; cases h
    | ok ioi =>
      rw [hi] at h
      simp only at h ⊢
      cases hs : resolveTypeSize E name (refType data) with
      | err e => rw [hs] at h; cases h
      | panic => rw [hs] at h; cases h
      | ok size => exact ⟨_, rfl, rfl, rfl, rfl⟩

/-- C74, adding: a pointer to a value of a supported type is bound to its tag, with the type of the tag fitting. -/
theorem C74_ref_added (E : DEnv) (b : DBuf) (name : Str) (id : Nat) (T : GoTy)
    (h : (addTagRef E b name (some ⟨true, id, .go T⟩)).1 = .ok ()) :
    ∃ t, (addTagRef E b name (some ⟨true, id, .go T⟩)).2.tags = b.tags ++ [t] ∧ t.name = name ∧
      t.var = some ⟨true, id, .go T⟩ ∧ t.typ = cipOfGo T ∧ Fits t := by
  obtain ⟨t, h1, h2, h3, h4⟩ := addTagRef_added h
  refine ⟨t, h1, h2, h3, h4, fun r hr => ?_⟩
  rw [h3] at hr
  cases hr
  exact .inl ⟨T, rfl, h4⟩

/-- C74, adding: a pointer to an interface is bound to its tag, which is taken for a string. -/
theorem C74_any_added (E : DEnv) (b : DBuf) (name : Str) (id : Nat)
    (h : (addTagRef E b name (some ⟨true, id, .any⟩)).1 = .ok ()) :
    ∃ t, (addTagRef E b name (some ⟨true, id, .any⟩)).2.tags = b.tags ++ [t] ∧ t.name = name ∧
      t.var = some ⟨true, id, .any⟩ ∧ t.typ = tStruct ∧ Fits t := by
  obtain ⟨t, h1, h2, h3, h4⟩ := addTagRef_added h
  refine ⟨t, h1, h2, h3, h4, fun r hr => ?_⟩
  rw [h3] at hr
  cases hr
  exact .inr ⟨rfl, .inl h4⟩

/-- A bound variable no value of its tag can be stored in makes every read fail. -/
theorem readAllV_unfit (W : DWorld) (b : DBuf) (mem : Mem) (hsort : ∀ l, (W.sort l).Perm l) (t : DTag) (ht : t ∈ b.tags)
    (r : VRef) (hr : t.var = some r)
    (hbad : ∀ raw v, decodeDataTable t.typ raw = .ok v → ¬ (r.ptr = true ∧ r.ty.takes v = true)) (m : List (Str × Scal)) :
    (readAllV W b mem).1 ≠ .ok m := by
  intro h
  generalize hz : readAllV W b mem = z at h
  obtain ⟨res, b', mem'⟩ := z
  simp only at h
  subst h
  obtain ⟨d, hd, htags, -, -⟩ := readAllV_tags hz
  obtain ⟨u, hu, hu1, hu2⟩ : ∃ u ∈ W.sort b'.tags, u.typ = t.typ ∧ u.var = some r := by
    rcases htags with hs | ⟨id, hs⟩
    · exact ⟨t, (hsort _).mem_iff.mpr (hs ▸ ht), rfl, hr⟩
    · refine ⟨markSynched id t, (hsort _).mem_iff.mpr (hs ▸ List.mem_map_of_mem ht), ?_, ?_⟩
      · unfold markSynched; split <;> rfl
      · unfold markSynched; split <;> exact hr
  clear htags ht hz
  generalize W.sort b'.tags = ts at hd hu
  generalize (0 : BitVec 16) = cur at hd
  generalize ([] : List (Str × Scal)) = m0 at hd
  induction ts generalizing cur d m0 mem with
  | nil => simp at hu
  | cons x ts ih =>
    rw [readTagsV_step] at hd
    split at hd
    · simp at hd
    · simp at hd
    · split at hd
      · simp at hd
      · split at hd
        · simp at hd
        · simp at hd
        · rename_i v hv
          split at hd
          · rename_i hx
            rcases List.mem_cons.mp hu with rfl | hu
            · rw [hu2] at hx; cases hx
            · exact ih _ _ hu _ _ hd
          · rename_i s hx
            split at hd
            · rename_i mem1 hs
              rcases List.mem_cons.mp hu with rfl | hu
              · rw [hu2] at hx
                cases hx
                exact setGoVar_not_ok (hbad _ v (hu1 ▸ hv)) hs
              · exact ih _ _ hu _ _ hd
            · simp at hd
            · simp at hd

/-- C74 fails, values that are no pointers: they are accepted, and afterwards no read of the buffer succeeds. -/
theorem C74_no_pointer (E : DEnv) (b : DBuf) (name : Str) (r : VRef) (hp : r.ptr = false)
    (h : (addTagRef E b name (some r)).1 = .ok ()) (W : DWorld) (hsort : ∀ l, (W.sort l).Perm l) (mem : Mem)
    (m : List (Str × Scal)) : (readAllV W (addTagRef E b name (some r)).2 mem).1 ≠ .ok m := by
  obtain ⟨t, h1, -, h3, -⟩ := addTagRef_added h
  exact readAllV_unfit W _ mem hsort t (by rw [h1]; simp) r h3
    (fun _ _ _ hc => by rw [hp] at hc; exact absurd hc.1 (by decide)) m

/-- C74 fails, pointers to slices, arrays and structures: they are accepted, and afterwards no read of the buffer
succeeds. -/
theorem C74_composite (E : DEnv) (b : DBuf) (name : Str) (id : Nat)
    (h : (addTagRef E b name (some ⟨true, id, .other⟩)).1 = .ok ()) (W : DWorld) (hsort : ∀ l, (W.sort l).Perm l)
    (mem : Mem) (m : List (Str × Scal)) : (readAllV W (addTagRef E b name (some ⟨true, id, .other⟩)).2 mem).1 ≠ .ok m := by
  obtain ⟨t, h1, -, h3, -⟩ := addTagRef_added h
  exact readAllV_unfit W _ mem hsort t (by rw [h1]; simp) _ h3 (fun _ _ _ hc => by simp [VTy.takes] at hc) m

/-! ### Structures -/

/-- The variables a field of a structure stands for, each with its tag: the field itself, or for a slice its
elements. -/
inductive FieldVars (args : List Str) : Option Str → FVal → List (Str × GoTy × Nat) → Prop where
  | untagged (f) : FieldVars args none f []
  | empty (f) : FieldVars args (some []) f []
  | one (tag T id) : tag ≠ [] → FieldVars args (some tag) (.one (.go T) id) [(formatName tag args, T, id)]
  | slice (tag T id elems names) : tag ≠ [] → T ≠ .bool → 2 ≤ elems.length →
      Expands (formatName tag args) elems.length names →
      FieldVars args (some tag) (.slice T id elems) ((names.zip elems).map fun e => (e.1, T, e.2))

theorem puts_fresh {α : Type} {ws m : List (Str × α)} (h : ((m ++ ws).map Prod.fst).Nodup) : puts ws m = m ++ ws := by
  induction ws generalizing m with
  | nil => simp [puts]
  | cons w ws ih =>
    show puts ws (mapPut m w.1 w.2) = _
    rw [mapPut_new, ih]
    · simp
    · simpa using h
    · intro e he hk
      simp only [List.map_append, List.map_cons, List.nodup_append] at h
      exact h.2.2 e.1 (List.mem_map_of_mem he) w.1 (by simp) hk

/-- The entry of a variable in the map of types. -/
def typeEntry (x : Str × GoTy × Nat) : Str × Byte := (x.1, cipOfGo x.2.1)
/-- The entry of a variable in the map of pointers. -/
def ptrEntry (x : Str × GoTy × Nat) : Str × VRef := (x.1, ⟨true, x.2.2, .go x.2.1⟩)

theorem foldl_names {α : Type} (names : List Str) (v : α) (m : List (Str × α)) :
    names.foldl (fun m n => mapPut m n v) m = puts (names.map fun n => (n, v)) m := by
  induction names generalizing m with
  | nil => rfl
  | cons n ns ih => exact ih _

theorem taggedFields_plain (args : List Str) (direct : List FVal)
    (fs : List (Option Str × FVal × List (Str × GoTy × Nat))) (pre : List FVal)
    (hd : direct = pre ++ fs.map fun f => f.2.1) (hf : ∀ f ∈ fs, FieldVars args f.1 f.2.1 f.2.2)
    (acc : List (Str × GoTy × Nat)) (hn : ((acc ++ (fs.map fun f => f.2.2).flatten).map Prod.fst).Nodup)
    (ex : List (Str × List Str)) :
    ∃ ex', taggedFields true direct args pre.length (fs.map Prod.fst) ex (acc.map typeEntry) (acc.map ptrEntry) =
      .ok (ex', (acc ++ (fs.map fun f => f.2.2).flatten).map typeEntry,
        (acc ++ (fs.map fun f => f.2.2).flatten).map ptrEntry) := by
  induction fs generalizing pre acc ex with
  | nil => exact ⟨ex, by simp [taggedFields]⟩
  | cons f fs ih =>
    obtain ⟨tag, fv, bs⟩ := f
    have hget : direct[pre.length]? = some fv := by rw [hd]; simp
    have hih := ih (pre ++ [fv]) (by rw [hd]; simp) (fun f hf' => hf f (by simp [hf'])) (acc ++ bs) (by simpa using hn)
    rw [show (pre ++ [fv]).length = pre.length + 1 by simp] at hih
    have h := hf (tag, fv, bs) (by simp)
    simp only at h
    have hfst : ∀ l : List (Str × GoTy × Nat), (l.map typeEntry).map Prod.fst = l.map Prod.fst := by
      intro l; rw [List.map_map]; rfl
    have hfst2 : ∀ l : List (Str × GoTy × Nat), (l.map ptrEntry).map Prod.fst = l.map Prod.fst := by
      intro l; rw [List.map_map]; rfl
    have hacc : ((acc ++ bs).map Prod.fst).Nodup := by
      refine hn.sublist (List.Sublist.map _ ?_)
      simp
    cases h with
    | untagged =>
      obtain ⟨ex', h⟩ := hih ex
      exact ⟨ex', by simpa [taggedFields] using h⟩
    | empty =>
      obtain ⟨ex', h⟩ := hih ex
      exact ⟨ex', by simpa [taggedFields] using h⟩
    | one tag T id hne =>
      obtain ⟨ex', h⟩ := hih (mapPut ex (formatName tag args) [formatName tag args])
      refine ⟨ex', ?_⟩
      cases tag with
      | nil => exact absurd rfl hne
      | cons c cs =>
        simp only [List.map_cons, taggedFields, hget, Bool.not_true, Bool.false_eq_true, if_false]
        have hk : formatName (c :: cs) args ∉ acc.map Prod.fst := by
          simp only [List.map_append, List.nodup_append] at hacc
          intro hm
          exact hacc.2.2 _ hm _ (by simp) rfl
        rw [mapPut_new (m := acc.map typeEntry), mapPut_new (m := acc.map ptrEntry)]
        · simpa [typeEntry, ptrEntry, VTy.cipType] using h
        · intro e he hke
          exact hk (hke ▸ hfst2 acc ▸ List.mem_map_of_mem he)
        · intro e he hke
          exact hk (hke ▸ hfst acc ▸ List.mem_map_of_mem he)
    | slice tag T id elems names hne hT h2 hx =>
      have hC := C45_expand_partial hx
      have hlen : names.length = elems.length := by have := hC.2.2.1; omega
      obtain ⟨ex', h⟩ := hih (mapPut ex (formatName tag args) names)
      refine ⟨ex', ?_⟩
      cases tag with
      | nil => exact absurd rfl hne
      | cons c cs =>
        simp only [List.map_cons, taggedFields, hget]
        rw [if_neg (show ¬ (T = .bool ∨ elems.length ≤ 1) by simp only [hT, false_or]; omega)]
        rw [hC.1, foldl_names]
        have e1 : names.map (fun n => (n, cipOfGo T)) = ((names.zip elems).map fun e => (e.1, T, e.2)).map typeEntry := by
          rw [List.map_map]
          conv => lhs; rw [show names = (names.zip elems).map Prod.fst from (List.map_fst_zip (by omega)).symm]
          rw [List.map_map]
          rfl
        have e2 : (names.zip elems).foldl (fun ps e => mapPut ps e.1 (⟨true, e.2, .go T⟩ : VRef)) (acc.map ptrEntry) =
            puts (((names.zip elems).map fun e => (e.1, T, e.2)).map ptrEntry) (acc.map ptrEntry) := by
          rw [List.map_map]
          unfold puts
          rw [List.foldl_map]
          rfl
        rw [e1, e2, puts_fresh, puts_fresh, ← List.map_append, ← List.map_append]
        · simpa using h
        · rw [← List.map_append, hfst2]; exact hacc
        · rw [← List.map_append, hfst]; exact hacc

/-- C74, structures: a pointer to a structure without embedded structures whose tagged fields are values of supported
types and slices of at least two of them, with distinct tags that are not in the buffer yet, adds one tag for each
value, of its type and bound to it. -/
theorem C74_struct_added_partial (E : DEnv) (ord : List (Str × Byte) → List (Str × Byte)) (hord : ∀ l, (ord l).Perm l)
    (b : DBuf) (hc : b.created = true) (args : List Str) (fs : List (Option Str × FVal × List (Str × GoTy × Nat)))
    (hf : ∀ f ∈ fs, FieldVars args f.1 f.2.1 f.2.2)
    (hn : (((fs.map fun f => f.2.2).flatten).map Prod.fst).Nodup)
    (hnew : ∀ x ∈ (fs.map fun f => f.2.2).flatten, ∀ t ∈ b.tags, t.name ≠ x.1)
    (h : (addTaggedStruct E ord b true (fs.map Prod.fst) (fs.map fun f => f.2.1) args).1 = .ok ()) :
    ∃ new, (addTaggedStruct E ord b true (fs.map Prod.fst) (fs.map fun f => f.2.1) args).2.tags = b.tags ++ new ∧
      (new.map fun t => (t.name, t.typ, t.var)).Perm
        ((fs.map fun f => f.2.2).flatten.map fun x => (x.1, cipOfGo x.2.1, some ⟨true, x.2.2, .go x.2.1⟩)) ∧
      ∀ t ∈ new, Fits t := by
  obtain ⟨ex', hx⟩ := taggedFields_plain args (fs.map fun f => f.2.1) fs [] (by simp) hf [] (by simpa using hn)
    b.expansions
  simp only [List.nil_append, List.map_nil, List.length_nil] at hx
  generalize hbs : (fs.map fun f => f.2.2).flatten = bs at hx hn hnew ⊢
  unfold addTaggedStruct at h ⊢
  simp only [hc, Bool.not_true, Bool.false_eq_true, if_false, hx] at h ⊢
  unfold addTags at h ⊢
  simp only [hc, Bool.not_true, Bool.false_eq_true, if_false] at h ⊢
  cases hp : prepareTags E (BitVec.ofNat 16 (b.tags.length + 1)) (ord (bs.map typeEntry)) with
  | err e => rw [hp] at h; cases h
  | panic => rw [hp] at h; cases h
  | ok ts =>
    simp only
    obtain ⟨h1, -, -⟩ := prepareTags_spec E _ _ ts hp
    have hold : b.tags.map (bindVars (bs.map ptrEntry)) = b.tags := by
      conv => rhs; rw [← List.map_id b.tags]
      apply List.map_congr_left
      intro t ht
      unfold bindVars
      have : (bs.map ptrEntry).lookup t.name = none := by
        rw [List.lookup_eq_none_iff]
        intro e he
        obtain ⟨x, hx', rfl⟩ := List.mem_map.mp he
        simpa [ptrEntry] using (hnew x hx' t ht)
      rw [this]
      rfl
    have hperm : (ts.map fun t => (t.name, t.typ)).Perm (bs.map typeEntry) := h1 ▸ hord _
    -- a tag of the list is bound to the variable of its name
    have hbind : ∀ t ∈ ts, ∃ x ∈ bs, t.name = x.1 ∧ t.typ = cipOfGo x.2.1 ∧
        (bindVars (bs.map ptrEntry) t).var = some ⟨true, x.2.2, .go x.2.1⟩ := by
      intro t ht
      have := hperm.mem_iff.mp (List.mem_map_of_mem (f := fun t : DTag => (t.name, t.typ)) ht)
      obtain ⟨x, hx', he⟩ := List.mem_map.mp this
      simp only [typeEntry, Prod.mk.injEq] at he
      refine ⟨x, hx', he.1.symm, he.2.symm, ?_⟩
      unfold bindVars
      have hl : (bs.map ptrEntry).lookup t.name = some ⟨true, x.2.2, .go x.2.1⟩ := by
        have := puts_lookup_some (bs.map ptrEntry) [] t.name ⟨true, x.2.2, .go x.2.1⟩
          (List.mem_map.mpr ⟨x, hx', by simp [ptrEntry, he.1]⟩) (by
            intro e he' hk
            obtain ⟨y, hy, rfl⟩ := List.mem_map.mp he'
            simp only [ptrEntry] at hk ⊢
            have hxy : y = x := by
              have hinj := List.inj_on_of_nodup_map hn hy hx' (hk.trans he.1.symm)
              exact hinj
            rw [hxy])
        rw [puts_fresh (by simpa [ptrEntry, Function.comp_def] using hn)] at this
        simpa using this
      rw [hl]
    refine ⟨ts.map (bindVars (bs.map ptrEntry)), by rw [List.map_append, hold], ?_, ?_⟩
    · -- each entry is determined by name and type
      have hgen : ∀ l : List (Str × Byte), ∀ us : List DTag, us.map (fun t => (t.name, t.typ)) = l → (∀ t ∈ us, t ∈ ts) →
          (us.map (bindVars (bs.map ptrEntry))).map (fun t => (t.name, t.typ, t.var)) =
            l.map fun e => (e.1, e.2, (bs.map ptrEntry).lookup e.1) := by
        intro l us hl hus
        subst hl
        rw [List.map_map, List.map_map]
        apply List.map_congr_left
        intro t ht
        obtain ⟨x, hx', k1, k2, k3⟩ := hbind t (hus t ht)
        obtain ⟨-, -, -, -, j1, j2⟩ := bindVars_fields (bs.map ptrEntry) t
        show (_, _, _) = (_, _, _)
        rw [j1, j2]
        congr 2
        unfold bindVars at k3 ⊢
        cases hl : (bs.map ptrEntry).lookup t.name with
        | none =>
          rw [List.lookup_eq_none_iff] at hl
          have := hl _ (List.mem_map_of_mem (f := ptrEntry) hx')
          simp [ptrEntry, k1] at this
        | some r => rfl
      rw [hgen _ ts rfl fun _ h => h]
      refine (hperm.map _).trans ?_
      rw [List.map_map]
      apply List.Perm.of_eq
      apply List.map_congr_left
      intro x hx'
      show (_, _, _) = (_, _, _)
      have hl : (bs.map ptrEntry).lookup x.1 = some ⟨true, x.2.2, .go x.2.1⟩ := by
        have := puts_lookup_some (bs.map ptrEntry) [] x.1 ⟨true, x.2.2, .go x.2.1⟩
          (List.mem_map.mpr ⟨x, hx', rfl⟩) (by
            intro e he' hk
            obtain ⟨y, hy, rfl⟩ := List.mem_map.mp he'
            simp only [ptrEntry] at hk ⊢
            have hxy : y = x := List.inj_on_of_nodup_map hn hy hx' hk
            rw [hxy])
        rw [puts_fresh (by simpa [ptrEntry, Function.comp_def] using hn)] at this
        simpa using this
      simp only [typeEntry, hl]
    · intro t ht
      obtain ⟨u, hu, rfl⟩ := List.mem_map.mp ht
      obtain ⟨x, hx', k1, k2, k3⟩ := hbind u hu
      intro r hr
      rw [k3] at hr
      cases hr
      exact .inl ⟨x.2.1, rfl, by rw [(bindVars_fields _ u).2.2.2.2.2, k2]⟩

/-- A structure with a number and a slice of three. -/
example : let fs : List (Option Str × FVal × List (Str × GoTy × Nat)) :=
      [(some (str "M{0}.N"), .one (.go .i16) 1, [(str "M4.N", .i16, 1)]), (none, .hidden, []),
       (some (str "S[{0},0]"), .slice .i32 9 [2, 3, 5], ((List.range 3).map fun j => str "S" ++ renderIdx ([4] ++ [0 + j])).zip
          [2, 3, 5] |>.map fun e => (e.1, .i32, e.2))]
    (∀ f ∈ fs, FieldVars [str "4"] f.1 f.2.1 f.2.2) ∧ (((fs.map fun f => f.2.2).flatten).map Prod.fst).Nodup ∧
    (addTaggedStruct demoEnv id (DBuf.new 7) true (fs.map Prod.fst) (fs.map fun f => f.2.1) [str "4"]).1 = .ok () ∧
    ((addTaggedStruct demoEnv id (DBuf.new 7) true (fs.map Prod.fst) (fs.map fun f => f.2.1) [str "4"]).2.tags.map
      fun t => (t.name, t.var.map VRef.id)) =
      [(str "M4.N", some 1), (str "S[4,0]", some 2), (str "S[4,1]", some 3), (str "S[4,2]", some 5)] := by
  intro fs
  refine ⟨?_, by decide +kernel, by decide +kernel, by decide +kernel⟩
  intro f hf
  rcases List.mem_cons.mp hf with rfl | hf
  · exact .one (str "M{0}.N") .i16 1 (by decide)
  rcases List.mem_cons.mp hf with rfl | hf
  · exact .untagged _
  · rw [List.mem_singleton.mp hf]
    exact .slice (str "S[{0},0]") .i32 9 [2, 3, 5] _ (by decide) (by decide) (by decide)
      (.array (str "S") [4] 0 3 (by decide) rfl (by decide +kernel) (by decide) (by decide))

/-- What one tagged field adds, whatever its tag was used for before: every tag of its name is bound to the field. -/
theorem addTaggedStruct_field {E : DEnv} {ord : List (Str × Byte) → List (Str × Byte)} (hord : ∀ l, (ord l).Perm l)
    {b : DBuf} {tag : Str} {f : FVal} {args : List Str} {ex : List (Str × List Str)} {t : Byte} {r : VRef}
    (hf : taggedFields true [f] args 0 [some tag] b.expansions [] [] =
      .ok (ex, [(formatName tag args, t)], [(formatName tag args, r)]))
    (h : (addTaggedStruct E ord b true [some tag] [f] args).1 = .ok ()) :
    ∃ new, (addTaggedStruct E ord b true [some tag] [f] args).2.tags =
      b.tags.map (bindVars [(formatName tag args, r)]) ++ [new] ∧ new.name = formatName tag args ∧ new.typ = t ∧
      new.var = some r := by
  unfold addTaggedStruct at h ⊢
  split at h
  · cases h
  · rename_i hc
    rw [if_neg hc]
    simp only [hf] at h ⊢
    unfold addTags at h ⊢
    simp only [if_neg hc] at h ⊢
    have ho : ord [(formatName tag args, t)] = [(formatName tag args, t)] := List.perm_singleton.mp (hord _)
    rw [ho] at h ⊢
    cases hp : prepareTags E (BitVec.ofNat 16 (b.tags.length + 1)) [(formatName tag args, t)] with
    | err e => rw [hp] at h; cases h
    | panic => rw [hp] at h; cases h
    | ok ts =>
      obtain ⟨h1, -, -⟩ := prepareTags_spec E _ _ ts hp
      have hl : ts.length = 1 := by have := congrArg List.length h1; simpa using this
      obtain ⟨x, rfl⟩ := List.length_eq_one_iff.mp hl
      · clear hl
        simp only [List.map_cons, List.map_nil, List.cons.injEq, and_true, Prod.mk.injEq] at h1
        refine ⟨bindVars [(formatName tag args, r)] x, by simp, ?_, ?_, ?_⟩
        · rw [(bindVars_fields _ x).2.2.2.2.1]; exact h1.1
        · rw [(bindVars_fields _ x).2.2.2.2.2]; exact h1.2
        · simp [bindVars, h1.1]

/-- C74 is false for a slice with no or one element, and for a slice of booleans: the tag is bound to the slice itself,
and from then on every read of the buffer fails. -/
theorem C74_short_slice (E : DEnv) (ord : List (Str × Byte) → List (Str × Byte)) (hord : ∀ l, (ord l).Perm l) (b : DBuf)
    (tag : Str) (hne : tag ≠ []) (T : GoTy) (id : Nat) (elems : List Nat) (args : List Str)
    (hs : T = .bool ∨ elems.length ≤ 1)
    (h : (addTaggedStruct E ord b true [some tag] [.slice T id elems] args).1 = .ok ()) (W : DWorld)
    (hsort : ∀ l, (W.sort l).Perm l) (mem : Mem) (m : List (Str × Scal)) :
    (readAllV W (addTaggedStruct E ord b true [some tag] [.slice T id elems] args).2 mem).1 ≠ .ok m := by
  obtain ⟨new, h1, -, -, h2⟩ := addTaggedStruct_field hord (r := ⟨true, id, .other⟩)
    (t := if T = .bool then tStruct else cipOfGo T)
    (ex := mapPut b.expansions (formatName tag args) [formatName tag args]) (by
      cases tag with
      | nil => exact absurd rfl hne
      | cons c cs => simp [taggedFields, hs, mapPut]) h
  exact readAllV_unfit W _ mem hsort new (by rw [h1]; simp) _ h2 (fun _ _ _ hc => by simp [VTy.takes] at hc) m

/-- The structure of the documentation with a slice that has not been given elements. -/
example : (addTaggedStruct demoEnv id (DBuf.new 7) true [some (str "T[2]")] [.slice .i32 0 []] []).1 = .ok () := by
  decide +kernel

theorem puts_replicate {α : Type} (p : Str) (vs : List α) (v : α) (m : List (Str × α)) (h : ∀ e ∈ m, e.1 ≠ p) :
    puts ((List.replicate (vs.length + 1) p).zip (vs ++ [v])) m = m ++ [(p, v)] := by
  induction vs generalizing m with
  | nil => simpa [puts] using mapPut_new _ h
  | cons w vs ih =>
    show puts ((List.replicate (vs.length + 1) p).zip (vs ++ [v])) (mapPut m p w) = _
    have key : ∀ m' : List (Str × α), (∀ e ∈ m', e.1 ≠ p) →
        puts ((List.replicate (vs.length + 1) p).zip (vs ++ [v])) (m' ++ [(p, w)]) = m' ++ [(p, v)] := by
      intro m' h'
      cases vs with
      | nil =>
        show mapPut (m' ++ [(p, w)]) p v = _
        unfold mapPut
        rw [List.filter_append, List.filter_eq_self.mpr]
        · simp
        · intro e he; simpa using h' e he
      | cons x xs =>
        show puts _ (mapPut (m' ++ [(p, w)]) p x) = _
        have : mapPut (m' ++ [(p, w)]) p x = mapPut m' p x := by
          unfold mapPut
          rw [List.filter_append]
          simp
        rw [this]
        exact ih m' h'
    rw [mapPut_new _ h]
    exact key m h

/-- C74 is false for a slice whose tag does not end in an index: only one tag is added, bound to the last element; the
others are never read. -/
theorem C74_unindexed_slice (E : DEnv) (ord : List (Str × Byte) → List (Str × Byte)) (hord : ∀ l, (ord l).Perm l)
    (b : DBuf) (tag : Str) (hne : tag ≠ []) (T : GoTy) (hT : T ≠ .bool) (id : Nat) (elems : List Nat) (last : Nat)
    (args : List Str) (hs : elems ≠ []) (hi : (parseTagName (formatName tag args)).1.arrayOrder = [])
    (h : (addTaggedStruct E ord b true [some tag] [.slice T id (elems ++ [last])] args).1 = .ok ()) :
    ∃ new, (addTaggedStruct E ord b true [some tag] [.slice T id (elems ++ [last])] args).2.tags =
      b.tags.map (bindVars [(formatName tag args, ⟨true, last, .go T⟩)]) ++ [new] ∧ new.name = formatName tag args ∧
      new.var = some ⟨true, last, .go T⟩ := by
  have hlen : 0 < elems.length := List.length_pos_iff.mpr hs
  obtain ⟨new, h1, h2, -, h3⟩ := addTaggedStruct_field hord (r := ⟨true, last, .go T⟩) (t := cipOfGo T)
    (ex := mapPut b.expansions (formatName tag args) (List.replicate (elems.length + 1) (formatName tag args))) (by
      cases tag with
      | nil => exact absurd rfl hne
      | cons c cs =>
        have hx := (C45_unindexed_repeats (formatName (c :: cs) args) (elems ++ [last]).length (by simp; omega) hi).1
        simp only [taggedFields, List.getElem?_cons_zero]
        rw [if_neg (show ¬ (T = .bool ∨ (elems ++ [last]).length ≤ 1) by simp [hT]; omega), hx]
        have hl : (elems ++ [last]).length = elems.length + 1 := by simp
        rw [hl, foldl_names]
        have e1 := puts_replicate (formatName (c :: cs) args) (List.replicate elems.length (cipOfGo T)) (cipOfGo T) []
          (by simp)
        have e2 := puts_replicate (formatName (c :: cs) args) (elems.map fun e => (⟨true, e, .go T⟩ : VRef))
          ⟨true, last, .go T⟩ [] (by simp)
        rw [List.length_replicate] at e1
        rw [List.length_map] at e2
        congr 1
        refine Prod.ext rfl (Prod.ext ?_ ?_)
        · show puts _ [] = _
          rw [← List.nil_append [(formatName (c :: cs) args, cipOfGo T)], ← e1]
          congr 1
          rw [List.map_replicate, ← List.replicate_succ', List.zip_replicate']
        · show List.foldl _ _ _ = _
          rw [← List.nil_append [(formatName (c :: cs) args, (⟨true, last, .go T⟩ : VRef))], ← e2]
          unfold puts
          rw [show (elems.map (fun e => (⟨true, e, .go T⟩ : VRef)) ++ [⟨true, last, .go T⟩]) =
            (elems ++ [last]).map (fun e => (⟨true, e, .go T⟩ : VRef)) by simp, List.zip_map_right, List.foldl_map]
          rfl) h
  exact ⟨new, h1, h2, h3⟩

example : (parseTagName (formatName (str "M{0}.Arr") [str "3"])).1.arrayOrder = [] ∧
    (addTaggedStruct demoEnv id (DBuf.new 7) true [some (str "M{0}.Arr")] [.slice .i32 0 [4, 5, 6]] [str "3"]).1 = .ok () ∧
    ((addTaggedStruct demoEnv id (DBuf.new 7) true [some (str "M{0}.Arr")] [.slice .i32 0 [4, 5, 6]]
      [str "3"]).2.tags.map fun t => (t.name, t.var)) = [(str "M3.Arr", some ⟨true, 6, .go .i32⟩)] := by decide +kernel

/-- C74 is false when a tag is bound a second time: the variable bound before loses the tag, and no read changes it any
more. -/
theorem C74_rebound (E : DEnv) (ord : List (Str × Byte) → List (Str × Byte)) (hord : ∀ l, (ord l).Perm l)
    (b : DBuf) (tag : Str) (hne : tag ≠ []) (T : GoTy) (id id' : Nat) (args : List Str) (hid : id' ≠ id)
    (hold : ∀ t ∈ b.tags, ∀ r, t.var = some r → r.id = id → t.name = formatName tag args)
    (h : (addTaggedStruct E ord b true [some tag] [.one (.go T) id'] args).1 = .ok ()) :
    ∀ t ∈ (addTaggedStruct E ord b true [some tag] [.one (.go T) id'] args).2.tags, ∀ r, t.var = some r → r.id ≠ id := by
  obtain ⟨new, h1, h2, -, h3⟩ := addTaggedStruct_field hord (r := ⟨true, id', .go T⟩) (t := cipOfGo T)
    (ex := mapPut b.expansions (formatName tag args) [formatName tag args]) (by
      cases tag with
      | nil => exact absurd rfl hne
      | cons c cs => simp [taggedFields, mapPut, VTy.cipType]) h
  intro t ht r hr
  rw [h1] at ht
  rcases List.mem_append.mp ht with ht | ht
  · obtain ⟨u, hu, rfl⟩ := List.mem_map.mp ht
    unfold bindVars at hr
    simp only [List.lookup_cons, List.lookup_nil] at hr
    by_cases hn : u.name = formatName tag args
    · rw [hn] at hr
      simp only [BEq.rfl] at hr
      cases hr
      exact hid
    · have hb : (u.name == formatName tag args) = false := by simpa using hn
      rw [hb] at hr
      exact fun he => hn (hold u hu r hr he)
  · rw [List.mem_singleton.mp ht, h3] at hr
    cases hr
    exact hid

example : let b1 := (addTaggedStruct demoEnv id (DBuf.new 7) true [some (str "A")] [.one (.go .i32) 0] []).2
    b1.tags.map DTag.var = [some ⟨true, 0, .go .i32⟩] ∧
    (addTaggedStruct demoEnv id b1 true [some (str "A")] [.one (.go .i32) 1] []).2.tags.map DTag.var =
      [some ⟨true, 1, .go .i32⟩, some ⟨true, 1, .go .i32⟩] := by decide +kernel

/-- C74 is false for a tagged field that is not exported, and for a structure given by value: `AddTaggedStruct`
panics. -/
theorem C74_hidden_panics (E : DEnv) (ord : List (Str × Byte) → List (Str × Byte)) (b : DBuf) (hc : b.created = true)
    (tag : Str) (hne : tag ≠ []) (args : List Str) (ty : VTy) (id : Nat) :
    (addTaggedStruct E ord b true [some tag] [.hidden] args).1 = .panic ∧
    (addTaggedStruct E ord b false [some tag] [.one ty id] args).1 = .panic := by
  cases tag with
  | nil => exact absurd rfl hne
  | cons c cs => constructor <;> simp [addTaggedStruct, hc, taggedFields]

/-- C74 is false for a structure with an embedded one before its other fields: the fields are numbered with those of
the embedded structure and looked up without them.  Here an embedded structure has one field `x` tagged "X", and is
followed by the field 8: the tag "X" is bound to that field. -/
theorem C74_embedded_misbound :
    ((addTaggedStruct demoEnv id (DBuf.new 7) true [none, some (str "X"), none] [.one .other 5, .one (.go .i32) 8] []).2.tags.map
      fun t => (t.name, t.var)) = [(str "X", some ⟨true, 8, .go .i32⟩)] ∧
    (addTaggedStruct demoEnv id (DBuf.new 7) true [none, some (str "X"), some (str "Y")]
      [.one .other 5, .one (.go .i32) 8] []).1 = .panic := by decide +kernel

/-- C74 is false for a read that fails: the variables of the tags before the one at fault are already changed. -/
theorem C74_partly_updated : ∃ (W : DWorld) (b : DBuf) (mem : Mem),
    (readAllV W b mem).1 = .err .fail ∧ (readAllV W b mem).2.2 0 ≠ mem 0 :=
  ⟨{ demoDWorld with sort := id, readNet := okNet 0x4C#8 ([1#8, 0#8, 5#8, 0#8, 0#8, 0#8, 9#8]), addNet := okNet 0x4E#8 (le 2 1) },
    (addTagRef demoEnv (addTagRef demoEnv (DBuf.new 7) (str "A") (some ⟨true, 0, .go .i32⟩)).2 (str "B")
      (some ⟨true, 1, .go .i32⟩)).2, fun _ => .i32 0, by decide +kernel, by decide +kernel⟩

/-- Two variables, read together. -/
example : let b := (addTagRef demoEnv (addTagRef demoEnv (DBuf.new 7) (str "A") (some ⟨true, 0, .go .i32⟩)).2 (str "B")
      (some ⟨true, 1, .go .i16⟩)).2
    let W : DWorld := { demoDWorld with
      sort := id, readNet := okNet 0x4C#8 ([1#8, 0#8, 5#8, 0#8, 0#8, 0#8, 9#8, 0#8]), addNet := okNet 0x4E#8 (le 2 1) }
    (readAllV W b fun _ => .nil).1 = .ok [(str "A", .i32 5), (str "B", .i16 9)] ∧
    (readAllV W b fun _ => .nil).2.2 0 = .i32 5 ∧ (readAllV W b fun _ => .nil).2.2 1 = .i16 9 ∧
    (readAllV W b fun _ => .nil).2.2 2 = .nil := by decide +kernel

/-! ### Raw reads -/

theorem readTagsRaw_run (v : Slot → Bytes) (bt : BitVec 16) (g rest : List DTag) (d : Bytes)
    (m : List (Str × Bytes)) (hb : ∀ t ∈ g, t.batch = bt) (hl : ∀ t ∈ g, (v t.slot).length = t.size.toNat) :
    readTagsRaw (g ++ rest) bt (((g.map DTag.slot).map v).flatten ++ d) m =
      readTagsRaw rest bt d (puts (g.map fun t => (t.name, v t.slot)) m) := by
  induction g generalizing m with
  | nil => rfl
  | cons t g ih =>
    have hlen := hl t (by simp)
    show readTagsRaw (t :: (g ++ rest)) bt _ m = _
    rw [readTagsRaw_step, skipNumber, if_neg (by simp [hb t (by simp)])]
    simp only [List.map_cons, List.flatten_cons, List.append_assoc]
    show (if _ then _ else _) = _
    rw [if_neg (show ¬ (v t.slot ++ (((g.map DTag.slot).map v).flatten ++ d)).length < t.size.toNat by
      rw [List.length_append]; omega)]
    rw [← hlen, List.take_left, List.drop_left, hb t (by simp)]
    exact ih _ (fun t ht => hb t (by simp [ht])) (fun t ht => hl t (by simp [ht]))

theorem readTagsRaw_batches (v : Slot → Bytes) {k : Nat} {gs : List (List DTag)}
    {cs : List (List Slot)} (h : Grouped k gs cs) (cur : BitVec 16) (hk : cur ≠ BitVec.ofNat 16 k)
    (m : List (Str × Bytes)) (hl : ∀ t ∈ gs.flatten, (v t.slot).length = t.size.toNat) :
    readTagsRaw gs.flatten cur (Spec.content v k cs) m =
      .ok (puts (gs.flatten.map fun t => (t.name, v t.slot)) m) := by
  induction h generalizing cur m with
  | nil k => rfl
  | cons k g gs c cs h1 h2 h3 _ ih =>
    cases g with
    | nil => exact absurd rfl h1
    | cons t g =>
      rw [List.flatten_cons]
      show readTagsRaw (t :: (g ++ gs.flatten)) cur (le 2 k ++ _) m = _
      have hbt := (h3 t (by simp)).1
      have hnew : ∀ d, readTagsRaw (t :: (g ++ gs.flatten)) cur (le 2 k ++ d) m =
          readTagsRaw (t :: (g ++ gs.flatten)) t.batch d m := by
        intro d
        rw [readTagsRaw_step, readTagsRaw_step, skipNumber, skipNumber,
          if_pos (by rw [hbt]; exact fun he => hk he.symm), if_neg (by simp), getU_le]
        rfl
      rw [hnew, hbt, ← h2]
      rw [← List.cons_append, readTagsRaw_run v (BitVec.ofNat 16 k) (t :: g) gs.flatten _ _ (fun t ht => (h3 t ht).1)
        (fun t ht => hl t (by rw [List.flatten_cons]; exact List.mem_append_left _ ht))]
      rw [ih _ ?_ _ (fun t ht => hl t (by rw [List.flatten_cons]; exact List.mem_append_right _ ht))]
      · rw [List.map_append, puts_append]
      · intro he
        have := congrArg BitVec.toNat he
        simp only [BitVec.toNat_ofNat] at this
        omega

/-- C44, raw reads: after any history without a removal, `ReadAllRaw` gives every tag the bytes in its own slot,
whatever they mean, and nothing else. -/
theorem C44_raw_partial (E : DEnv) (inst : BitVec 16) (b : DBuf) (c : List (List Slot)) (slots : List Slot)
    (W : DWorld) (v : Slot → Bytes) (hist : DHistory E inst b c) (hne : b.tags ≠ []) (hn : b.tags.length ≤ 65535)
    (hsort : SortsByIndex W.sort)
    (hsync : b.pending ≠ [] → b.pending.length < 256 ∧
      (∀ t ∈ b.pending, t.ioi.length % 2 = 0 ∧ t.ioi.length < 512) ∧ Spec.AddRequest (addData b.pending) slots ∧
      Spec.TakesAdd W.addNet inst c)
    (hread : Spec.Shows W.readNet inst (if b.pending = [] then c else c ++ [slots]) v)
    (hslot : ∀ t ∈ b.tags, (v t.slot).length = t.size.toNat) :
    ∃ m, (readAllRaw W b).1 = .ok m ∧
      (∀ t ∈ b.tags, (∀ u ∈ b.tags, u.name = t.name → u.slot = t.slot) → m.lookup t.name = some (v t.slot)) ∧
      (∀ k, (∀ t ∈ b.tags, t.name ≠ k) → m.lookup k = none) := by
  have inv := dinv_history hist
  obtain ⟨b', hb', inv', hsy, hslots, hnames⟩ : ∃ b', (readAllRaw W b).1 =
      (W.readNet (genericRequest W.seq2 0x4C#8 (dataTablePath b'.inst) [])).bind (fun r => do
        let d ← genericReply 0x4C#8 r
        readTagsRaw (W.sort b'.tags) 0 d []) ∧
      DInv inst b' (if b.pending = [] then c else c ++ [slots]) ∧ b'.synched = true ∧
      b'.tags.map DTag.slot = b.tags.map DTag.slot ∧
      b'.tags.map (fun t => (t.name, t.slot)) = b.tags.map (fun t => (t.name, t.slot)) := by
    obtain ⟨gs, pend, hg1, hg2, hg3, hg4⟩ := inv.groups
    have hpend := pending_split hg1 hg2 hg3
    have hcr : (!b.created) = false := by simp [inv.created]
    by_cases hp : b.pending = []
    · have hs : b.synched = true := hg4.mpr ⟨hpend ▸ hp, hne⟩
      refine ⟨b, ?_, by rw [if_pos hp]; exact inv, hs, rfl, rfl⟩
      unfold readAllRaw
      simp only [hcr, Bool.false_eq_true, if_false, if_neg hne, hs, if_true]
    · obtain ⟨h1, h2, h3, h4⟩ := hsync hp
      have hs : b.synched = false := by
        cases hb : b.synched with
        | false => rfl
        | true => exact absurd (hpend.trans (hg4.mp hb).1) hp
      obtain ⟨k1, k2, k3, k4⟩ := dinv_sync inv W.addNet W.seq1 slots hp h1 h2 h3 h4
      refine ⟨(syncTags W.addNet W.seq1 b).2, ?_, by rw [if_neg hp]; exact k2, k3, k4, ?_⟩
      · unfold readAllRaw
        simp only [hcr, Bool.false_eq_true, if_false, if_neg hne, hs]
        rw [show syncTags W.addNet W.seq1 b = ((syncTags W.addNet W.seq1 b).1, (syncTags W.addNet W.seq1 b).2) from rfl]
        rw [k1]
      · rcases syncTags_tags W.addNet W.seq1 b with hs | ⟨id, hs⟩
        · rw [hs]
        · rw [hs, List.map_map]
          apply List.map_congr_left
          intro t _
          show (_, _) = _
          unfold markSynched
          split <;> rfl
  obtain ⟨gs, pend, hg1, hg2, hg3, hg4⟩ := inv'.groups
  have hp : pend = [] := (hg4.mp hsy).1
  rw [hp, List.append_nil] at hg1
  have hlen : b'.tags.length = b.tags.length := by
    have := congrArg List.length hslots
    simpa using this
  have hback : ∀ t ∈ b'.tags, ∃ u ∈ b.tags, u.name = t.name ∧ u.slot = t.slot := by
    intro t ht
    have : (t.name, t.slot) ∈ b.tags.map (fun t => (t.name, t.slot)) := by
      rw [← hnames]; exact List.mem_map_of_mem (f := fun t : DTag => (t.name, t.slot)) ht
    obtain ⟨u, hu, he⟩ := List.mem_map.mp this
    simp only [Prod.mk.injEq] at he
    exact ⟨u, hu, he⟩
  have hfwd : ∀ t ∈ b.tags, ∃ u ∈ b'.tags, u.name = t.name ∧ u.slot = t.slot := by
    intro t ht
    have : (t.name, t.slot) ∈ b'.tags.map (fun t => (t.name, t.slot)) := by
      rw [hnames]; exact List.mem_map_of_mem (f := fun t : DTag => (t.name, t.slot)) ht
    obtain ⟨u, hu, he⟩ := List.mem_map.mp this
    simp only [Prod.mk.injEq] at he
    exact ⟨u, hu, he⟩
  obtain ⟨r, hr1, hr2⟩ := hread (genericRequest W.seq2 0x4C#8 (dataTablePath b'.inst) []) (inv'.inst ▸ request_form _ _ _ _)
  refine ⟨puts (b'.tags.map fun t => (t.name, v t.slot)) [], ?_, ?_, ?_⟩
  · rw [hb', hr1, Res.bind]
    have hgr := reply_data (by decide) hr2
    rw [hgr]
    show readTagsRaw (W.sort b'.tags) 0 _ [] = _
    rw [sort_numbered hsort inv'.numbers (by omega), hg1]
    refine readTagsRaw_batches v hg2 0 (by decide) [] (fun t ht => ?_)
    obtain ⟨u, hu, _, h3⟩ := hback t (hg1 ▸ ht)
    rw [← h3, hslot u hu]
    exact congrArg Prod.fst h3
  · intro t ht huniq
    obtain ⟨u, hu, h1, h3⟩ := hfwd t ht
    refine puts_lookup_some _ _ _ _ (List.mem_map.mpr ⟨u, hu, ?_⟩) ?_
    · rw [h1, h3]
    · intro e he hen
      obtain ⟨x, hx, rfl⟩ := List.mem_map.mp he
      obtain ⟨y, hy, k1, k2⟩ := hback x hx
      simp only at hen ⊢
      rw [← k2, huniq y hy (k1.trans hen)]
  · intro k hk
    rw [puts_lookup_none _ _ _ (fun e he => ?_)]
    · rfl
    · obtain ⟨x, hx, rfl⟩ := List.mem_map.mp he
      obtain ⟨y, hy, k1, _⟩ := hback x hx
      rw [← k1]
      exact hk y hy

/-! ### The life of a data table -/

/-- C75, creating: the request is a create at instance 0 of the class, and a reply with a number gives an empty buffer
of that number. -/
theorem C75_create (net : Bytes → Res Reply) (seq : BitVec 16) :
    (∃ req, Spec.BufferRequest req 0x08#8 0 [1#8, 0#8, 3#8, 0#8, 3#8, 0#8] ∧
      ∀ r id rest, net req = .ok r → id < 65536 → Spec.BufferReply 0x08#8 (le 2 id ++ rest) r →
        newDataTable net seq = .ok (DBuf.new (BitVec.ofNat 16 id))) ∧
    ∀ b, newDataTable net seq = .ok b → b.created = true ∧ b.tags = [] := by
  refine ⟨⟨_, request_form seq _ _ _, ?_⟩, ?_⟩
  · intro r id rest hr hid hb
    unfold newDataTable
    rw [show ([0x01#8, 0#8, 0x03#8, 0#8, 0x03#8, 0#8] : Bytes) = [1#8, 0#8, 3#8, 0#8, 3#8, 0#8] from rfl, hr, Res.bind,
      reply_data (by decide) hb]
    rw [Res.bind_ok, getU_le]
    show Res.ok _ = _
    congr 2
    apply BitVec.eq_of_toNat_eq
    simp
  · intro b h
    unfold newDataTable at h
    obtain ⟨r, -, h⟩ := Res.bind_eq_ok.mp h
    obtain ⟨d, -, h⟩ := Res.bind_eq_ok.mp h
    obtain ⟨x, -, h⟩ := Res.bind_eq_ok.mp h
    cases h
    exact ⟨rfl, rfl⟩

/-- C75, closing: a created buffer sends one delete request for its own instance. -/
theorem C75_close_request (net : Bytes → Res Reply) (seq : BitVec 16) (b : DBuf) (hc : b.created = true) :
    ∃ req, (closeDataTable net seq b).2.1 = [req] ∧ Spec.BufferRequest req 0x09#8 b.inst [] ∧
      ∀ r rest, net req = .ok r → Spec.BufferReply 0x09#8 rest r → (closeDataTable net seq b).1 = .ok () := by
  refine ⟨_, ?_, request_form seq _ _ _, ?_⟩
  · unfold closeDataTable
    simp only [hc, Bool.not_true, Bool.false_eq_true, if_false]
    split <;> rfl
  · intro r rest hr hb
    unfold closeDataTable
    simp only [hc, Bool.not_true, Bool.false_eq_true, if_false, hr, Res.bind, reply_data (by decide) hb]

/-- C75, after a close that returned: every operation that needs the buffer is refused without sending anything and
leaves it closed, and closing again sends nothing. -/
theorem C75_closed (net : Bytes → Res Reply) (seq : BitVec 16) (b : DBuf)
    (h : (closeDataTable net seq b).1 ≠ .panic) :
    let b' := (closeDataTable net seq b).2.2
    b'.created = false ∧
    (∀ net' seq', closeDataTable net' seq' b' = (.ok (), [], b')) ∧
    (∀ E name t, addTag E b' name t = (.err .fail, b')) ∧
    (∀ E name r, addTagRef E b' name r = (.err .fail, b')) ∧
    (∀ E l, addTags E b' l = (.err .fail, b')) ∧
    (∀ E ord g args, addTagGroup E ord b' g args = (.err .fail, b')) ∧
    (∀ E ord addr tags direct args, addTaggedStruct E ord b' addr tags direct args = (.err .fail, b')) ∧
    (∀ W, readAll W b' = (.err .fail, b')) ∧ (∀ W mem, readAllV W b' mem = (.err .fail, b', mem)) ∧
    (∀ W, readAllRaw W b' = (.err .fail, b')) ∧
    (∀ net' seq' name, removeTag net' seq' b' name = (.err .fail, b')) := by
  intro b'
  have hc : b'.created = false := by
    show (closeDataTable net seq b).2.2.created = false
    unfold closeDataTable at h ⊢
    split
    · rename_i hb; simpa using hb
    · rename_i hb
      rw [if_neg hb] at h
      simp only at h ⊢
      split
      · rfl
      · rfl
      · rename_i hx; rw [hx] at h; exact absurd rfl h
  refine ⟨hc, ?_, ?_, ?_, ?_, ?_, ?_, ?_, ?_, ?_, ?_⟩ <;> intros
  · simp [closeDataTable, hc]
  · simp [addTag, hc]
  · simp [addTagRef, hc]
  · simp [addTags, hc]
  · simp [addTagGroup, hc]
  · simp [addTaggedStruct, hc]
  · simp [readAll, hc]
  · simp [readAllV, hc]
  · simp [readAllRaw, hc]
  · simp [removeTag, hc]

/-- C75 is false when the delete request fails: the buffer still counts as closed, and closing again reports success
without asking the controller to delete it. -/
theorem C75_failed_close_forgets (net : Bytes → Res Reply) (seq : BitVec 16) (b : DBuf) (e : Err) (hc : b.created = true)
    (h : net (genericRequest seq 0x09#8 (dataTablePath b.inst) []) = .err e) :
    (closeDataTable net seq b).1 = .err .fail ∧
    ∀ net' seq', closeDataTable net' seq' (closeDataTable net seq b).2.2 =
      (.ok (), [], (closeDataTable net seq b).2.2) := by
  have : closeDataTable net seq b = (.err .fail, [genericRequest seq 0x09#8 (dataTablePath b.inst) []],
      { b with created := false }) := by
    unfold closeDataTable
    simp only [hc, Bool.not_true, Bool.false_eq_true, if_false, h, Res.bind]
  rw [this]
  exact ⟨rfl, fun _ _ => rfl⟩

/-- C75 is false for `SyncTags`, which is exported: it does not look whether the buffer is closed, and sends the tags
to the instance. -/
theorem C75_sync_after_close (net net' : Bytes → Res Reply) (seq seq' : BitVec 16) (b : DBuf)
    (r : Reply) (id : Nat) (rest : Bytes)
    (hr : net' (genericRequest seq' 0x4E#8 (dataTablePath b.inst) (addData b.pending)) = .ok r)
    (hb : Spec.BufferReply 0x4E#8 (le 2 id ++ rest) r) :
    (syncTags net' seq' (closeDataTable net seq b).2.2).1 = .ok () := by
  have hi : (closeDataTable net seq b).2.2.inst = b.inst ∧ (closeDataTable net seq b).2.2.pending = b.pending := by
    unfold closeDataTable
    split
    · exact ⟨rfl, rfl⟩
    · simp only
      split <;> exact ⟨rfl, rfl⟩
  unfold syncTags
  rw [hi.1, hi.2, hr, Res.bind, reply_data (by decide) hb]
  rw [Res.bind_ok, getU_le]

/-- The demonstration buffer read raw. -/
example : (readAllRaw { demoDWorld with sort := fun l => l } demoBuf).1 =
    .ok [(str "A", [1#8, 2#8, 0#8, 0#8]), (str "Bee", [0xFE#8, 0xFF#8]), (str "C", [7#8])] := by decide +kernel

/-- A buffer made and closed. -/
example : newDataTable (okNet 0x08#8 [0x2A#8, 0#8]) 3 = .ok (DBuf.new 42) ∧
    (closeDataTable (okNet 0x09#8 []) 4 demoBuf).1 = .ok () ∧ (closeDataTable (okNet 0x09#8 []) 4 demoBuf).2.1 =
      [[4#8, 0#8, 9#8, 3#8, 0x20#8, 0xB2#8, 0x25#8, 0#8, 7#8, 0#8]] := by decide +kernel

end Gologix
