import Verif.Spec.ReadMulti
import Verif.Props.Reply
import Mathlib.Data.List.Nodup
/-
C76: reading into structures and maps.  C26: crashes of `ReadMulti`.
-/
set_option linter.unusedSimpArgs false

namespace Gologix
open Spec (Stored Put Asked taggedOf afterRead)

theorem storeField_stored {old new : MVal} {v : RV} (h : Stored old v new) : storeField old v = .ok new := by
  cases h with
  | one x y T hx hy =>
    cases y <;> simp_all [storeField, Scal.ty]
  | list T xs ys hl hy =>
    have hall : (ys.take xs.length).all (fun y => decide (y.ty = some T)) = true := by
      rw [List.all_eq_true]
      intro y hm
      simpa using hy y (List.mem_of_mem_take hm)
    unfold storeField
    simp only
    rw [if_pos ⟨by omega, hall⟩, ← hl, List.take_length]
  | image a b _ => rfl

theorem multiFields_plain (args : List Str) (direct : List MVal) (fs : List (Option Str × MVal)) (pre : List MVal)
    (hd : direct = pre ++ fs.map Prod.snd) (hh : ∀ f ∈ fs, (∃ c cs, f.1 = some (c :: cs)) → f.2 ≠ .hidden) :
    multiFields direct args pre.length (fs.map Prod.fst) = .ok (taggedOf args pre.length fs) := by
  induction fs generalizing pre with
  | nil => rfl
  | cons f fs ih =>
    obtain ⟨tag, v⟩ := f
    have hget : direct[pre.length]? = some v := by rw [hd]; simp
    have hih := ih (pre ++ [v]) (by rw [hd]; simp) (fun f hf => hh f (by simp [hf]))
    rw [show (pre ++ [v]).length = pre.length + 1 by simp] at hih
    match tag with
    | none => simpa [multiFields, taggedOf] using hih
    | some [] => simpa [multiFields, taggedOf] using hih
    | some (c :: cs) =>
      have hv : v ≠ .hidden := hh (some (c :: cs), v) (by simp) ⟨c, cs, rfl⟩
      simp only [List.map_cons, multiFields, taggedOf, hget]
      cases v with
      | hidden => exact absurd rfl hv
      | _ => simp only [hih]

theorem taggedOf_ge (args : List Str) (i : Nat) (fs : List (Option Str × MVal)) :
    ∀ x ∈ taggedOf args i fs, i ≤ x.2.1 := by
  induction fs generalizing i with
  | nil => simp [taggedOf]
  | cons f fs ih =>
    obtain ⟨tag, v⟩ := f
    intro x hx
    unfold taggedOf at hx
    split at hx
    · rcases List.mem_cons.mp hx with rfl | hx
      · exact Nat.le_refl _
      · have := ih _ x hx; omega
    · have := ih _ x hx; omega

theorem fieldNo_distinct {all : List (Str × Nat × MVal)} (hn : (all.map Prod.fst).Nodup) {x : Str × Nat × MVal}
    (hx : x ∈ all) : fieldNo all x.1 = x.2.1 := by
  unfold fieldNo
  have hn' : (all.reverse.map Prod.fst).Nodup := by rw [List.map_reverse]; exact List.nodup_reverse.mpr hn
  have hx' : x ∈ all.reverse := List.mem_reverse.mpr hx
  generalize all.reverse = l at hn' hx'
  induction l with
  | nil => cases hx'
  | cons e l ih =>
    obtain ⟨k, w⟩ := e
    rw [List.lookup_cons]
    by_cases hk : x.1 = k
    · have : x = (k, w) := List.inj_on_of_nodup_map hn' hx' (by simp) hk
      subst this
      simp
    · have hb : (x.1 == k) = false := by simpa using hk
      rw [hb]
      rcases List.mem_cons.mp hx' with rfl | hm
      · exact absurd rfl hk
      · exact ih (List.nodup_cons.mp hn').2 hm

theorem storeFields_plain (args : List Str) (all : List (Str × Nat × MVal)) (hn : (all.map Prod.fst).Nodup)
    (fs : List (Option Str × MVal)) (pre : List MVal) (res : Str × Nat × MVal → RV) (val : Str → MVal)
    (hall : ∀ x ∈ taggedOf args pre.length fs, x ∈ all)
    (hv : ∀ x ∈ taggedOf args pre.length fs, Stored x.2.2 (res x) (val x.1)) :
    storeFields all (taggedOf args pre.length fs) ((taggedOf args pre.length fs).map res)
      (pre ++ fs.map Prod.snd) = .ok (pre ++ afterRead args val fs) := by
  induction fs generalizing pre with
  | nil => simp [taggedOf, storeFields, afterRead]
  | cons f fs ih =>
    obtain ⟨tag, v⟩ := f
    have hlen : ∀ w : MVal, (pre ++ [w]).length = pre.length + 1 := by simp
    have skip : taggedOf args pre.length ((tag, v) :: fs) = taggedOf args (pre.length + 1) fs →
        afterRead args val ((tag, v) :: fs) = v :: afterRead args val fs →
        storeFields all (taggedOf args pre.length ((tag, v) :: fs))
          ((taggedOf args pre.length ((tag, v) :: fs)).map res) (pre ++ ((tag, v) :: fs).map Prod.snd) =
          .ok (pre ++ afterRead args val ((tag, v) :: fs)) := by
      intro h1 h2
      have := ih (pre ++ [v]) (by rw [hlen, ← h1]; exact hall) (by rw [hlen, ← h1]; exact hv)
      rw [hlen] at this
      rw [h1, h2]
      simpa using this
    match tag, hall, hv, skip with
    | none, _, _, skip => exact skip rfl rfl
    | some [], _, _, skip => exact skip rfl rfl
    | some (c :: cs), hall, hv, _ =>
      have ht : taggedOf args pre.length ((some (c :: cs), v) :: fs) =
        (formatName (c :: cs) args, pre.length, v) :: taggedOf args (pre.length + 1) fs := rfl
      have hs := hv _ (ht ▸ List.mem_cons_self)
      have hno := fieldNo_distinct hn (hall _ (ht ▸ List.mem_cons_self))
      have hih := ih (pre ++ [val (formatName (c :: cs) args)])
        (by rw [hlen]; intro x hx; exact hall x (ht ▸ List.mem_cons_of_mem _ hx))
        (by rw [hlen]; intro x hx; exact hv x (ht ▸ List.mem_cons_of_mem _ hx))
      rw [hlen] at hih
      rw [ht, List.map_cons, List.map_cons, storeFields, hno]
      simp only [afterRead]
      have hget : (pre ++ v :: fs.map Prod.snd)[pre.length]? = some v := by simp
      rw [hget]
      simp only [storeField_stored hs]
      simpa using hih

theorem multiDescs_length {ioi : Str → Byte → Res Ioi} {l : List (Str × MVal)} {ds : List MTag}
    (h : multiDescs ioi l = .ok ds) : ds.length = l.length := by
  induction l generalizing ds with
  | nil => cases h; rfl
  | cons e l ih =>
    obtain ⟨p, v⟩ := e
    rw [multiDescs] at h
    cases hi : ioi p v.cipType.1 with
    | err e => rw [hi] at h; cases h
    | panic => rw [hi] at h; cases h
    | ok io =>
      rw [hi] at h
      cases hr : multiDescs ioi l with
      | err e => rw [hr] at h; cases h
      | panic => rw [hr] at h; cases h
      | ok ds' =>
        rw [hr] at h
        cases h
        simp [ih hr]

theorem multiDescs_get {ioi : Str → Byte → Res Ioi} {l : List (Str × MVal)} {ds : List MTag}
    (h : multiDescs ioi l = .ok ds) : ∀ (k : Nat) (t : MTag), ds[k]? = some t →
      ∃ p v, l[k]? = some (p, v) ∧ ioi p v.cipType.1 = .ok t.ioi ∧ t.typ = v.cipType.1 ∧ t.elements = v.cipType.2 ∧
        t.dest = v.dest := by
  induction l generalizing ds with
  | nil => cases h; intro k t hk; simp at hk
  | cons e l ih =>
    obtain ⟨p, v⟩ := e
    rw [multiDescs] at h
    cases hi : ioi p v.cipType.1 with
    | err e => rw [hi] at h; cases h
    | panic => rw [hi] at h; cases h
    | ok io =>
      rw [hi] at h
      cases hr : multiDescs ioi l with
      | err e => rw [hr] at h; cases h
      | panic => rw [hr] at h; cases h
      | ok ds' =>
        rw [hr] at h
        cases h
        intro k t hk
        cases k with
        | zero => simp at hk; subst hk; exact ⟨p, v, rfl, hi, rfl, rfl, rfl⟩
        | succ k => simpa using ih hr k t (by simpa using hk)

/-- What is requested for a field with a path. -/
def MVal.request (v : MVal) (io : Ioi) : MTag := ⟨io, v.cipType.1, v.cipType.2, v.dest⟩

theorem fields_core (fuel conn : Nat) (ioi : Str → Byte → Res Ioi) (fs : List (Option Str × MVal))
    (args : List Str) (replies : List Reply) (run : MultiRun (List MVal)) (world : MTag → Byte × Bytes)
    (res : MTag → RV) (val : Str → MVal)
    (hn : ((taggedOf args 0 fs).map Prod.fst).Nodup)
    (hh : ∀ f ∈ fs, (∃ c cs, f.1 = some (c :: cs)) → f.2 ≠ .hidden)
    (hv : ∀ x ∈ taggedOf args 0 fs, ∃ io, ioi x.1 x.2.2.cipType.1 = .ok io ∧
      Spec.Means (x.2.2.request io) (world (x.2.2.request io)).1 (world (x.2.2.request io)).2 (res (x.2.2.request io)) ∧
      Stored x.2.2 (res (x.2.2.request io)) (val x.1))
    (hrun : readMulti fuel conn ioi (fs.map Prod.fst) (fs.map Prod.snd) args replies = some run)
    (ha : Spec.AllMulti world run.log replies) :
    run.res = .ok (afterRead args val fs) := by
  have hf := multiFields_plain args (fs.map Prod.snd) fs [] (by simp) hh
  simp only [List.length_nil] at hf
  unfold readMulti at hrun
  rw [hf] at hrun
  simp only at hrun
  generalize htags : taggedOf args 0 fs = tags at *
  have hds : ∃ ds, multiDescs ioi (tags.map fun f => (f.1, f.2.2)) = .ok ds := by
    clear hrun hn hf htags
    induction tags with
    | nil => exact ⟨[], rfl⟩
    | cons x tags ih =>
      obtain ⟨ds, hds⟩ := ih fun y hy => hv y (by simp [hy])
      obtain ⟨io, hio, -⟩ := hv x (by simp)
      exact ⟨x.2.2.request io :: ds, by rw [List.map_cons, multiDescs, hio]; simp only [hds]; rfl⟩
  obtain ⟨ds, hds⟩ := hds
  rw [hds] at hrun
  simp only at hrun
  have hdl := multiDescs_length hds
  have hget := multiDescs_get hds
  let rv : Str × Nat × MVal → RV := fun x => match ioi x.1 x.2.2.cipType.1 with
    | .ok io => res (x.2.2.request io)
    | _ => .many []
  -- the tag of a request is the field's
  have hmem : ∀ (k : Nat) (t : MTag), ds[k]? = some t → ∃ x, tags[k]? = some x ∧ res t = rv x ∧
      Spec.Means t (world t).1 (world t).2 (res t) := by
    intro k t hk
    obtain ⟨p, v, h1, h2, h3, h4, h5⟩ := hget k t hk
    rw [List.getElem?_map] at h1
    cases hx : tags[k]? with
    | none => rw [hx] at h1; cases h1
    | some x =>
      rw [hx] at h1
      simp only [Option.map_some, Option.some.injEq, Prod.mk.injEq] at h1
      obtain ⟨rfl, rfl⟩ := h1
      have hxm := List.mem_of_getElem? hx
      obtain ⟨io, hio, hm, -⟩ := hv x hxm
      have hio' := hio
      rw [hio] at h2
      cases h2
      have ht : t = x.2.2.request t.ioi := by
        obtain ⟨a, b, c, d⟩ := t
        simp only at h3 h4 h5
        subst h3 h4 h5
        rfl
      refine ⟨x, rfl, ?_, ht ▸ hm⟩
      show _ = (match ioi x.1 x.2.2.cipType.1 with
        | .ok io => res (x.2.2.request io)
        | _ => .many [])
      rw [hio']
      show res t = res (x.2.2.request t.ioi)
      rw [← ht]
  cases hr : readList fuel conn ds replies with
  | none => rw [hr] at hrun; cases hrun
  | some lr =>
    have hlog : run.log = lr.log := by
      rw [hr] at hrun
      obtain ⟨r, log, rest⟩ := lr
      cases r <;> (cases hrun; rfl)
    have hc := C21_readList_partial fuel conn ds replies lr hr world res
      (by
        intro t ht
        obtain ⟨k, hk⟩ := List.getElem?_of_mem ht
        obtain ⟨x, -, -, h2⟩ := hmem k t hk
        exact h2) (hlog ▸ ha)
    have hvals : ds.map res = tags.map rv := by
      apply List.ext_getElem?
      intro k
      rw [List.getElem?_map, List.getElem?_map]
      cases hk : ds[k]? with
      | none =>
        have : tags[k]? = none := by
          rw [List.getElem?_eq_none_iff] at hk ⊢
          rw [hdl] at hk
          simpa using hk
        rw [this]; rfl
      | some t =>
        obtain ⟨x, h1, h2, -⟩ := hmem k t hk
        rw [h1]
        simp [h2]
    obtain ⟨r, log, rest⟩ := lr
    simp only at hc
    rw [hc, hvals] at hr
    rw [hr] at hrun
    cases hrun
    subst htags
    have := storeFields_plain args (taggedOf args 0 fs) hn fs [] rv val (by simp) (by
      intro x hx
      obtain ⟨io, hio, -, hs⟩ := hv x hx
      show Stored _ (match ioi x.1 x.2.2.cipType.1 with
        | .ok io => res (x.2.2.request io)
        | _ => .many []) _
      rw [hio]
      exact hs)
    simpa using this

/-! ### Maps -/

theorem storeEntries_all (m : List (Str × MVal)) (rv : Str × MVal → RV) :
    storeEntries m (m.map rv) = m.map fun e => (e.1, mapValue e.2 (rv e)) := by
  induction m with
  | nil => rfl
  | cons e m ih => obtain ⟨k, v⟩ := e; simp [storeEntries, ih]

theorem map_core (fuel conn : Nat) (ioi : Str → Byte → Res Ioi) (m : List (Str × MVal)) (replies : List Reply)
    (run : MultiRun (List (Str × MVal))) (world : MTag → Byte × Bytes) (res : MTag → RV) (path : Str × MVal → Ioi)
    (hv : ∀ e ∈ m, ioi e.1 e.2.cipType.1 = .ok (path e) ∧
      Spec.Means (e.2.request (path e)) (world (e.2.request (path e))).1 (world (e.2.request (path e))).2
        (res (e.2.request (path e))))
    (hrun : readMap fuel conn ioi m replies = some run) (ha : Spec.AllMulti world run.log replies) :
    run.res = .ok (m.map fun e => (e.1, mapValue e.2 (res (e.2.request (path e))))) := by
  have hds : multiDescs ioi m = .ok (m.map fun e => e.2.request (path e)) := by
    clear hrun ha
    induction m with
    | nil => rfl
    | cons e m ih =>
      obtain ⟨k, v⟩ := e
      have h := (hv (k, v) (by simp)).1
      simp only at h
      rw [multiDescs, h]
      simp only [ih fun e he => hv e (by simp [he])]
      rfl
  unfold readMap at hrun
  rw [hds] at hrun
  simp only at hrun
  cases hr : readBatches fuel conn (m.map fun e => e.2.request (path e)) replies with
  | none => rw [hr] at hrun; cases hrun
  | some lr =>
    have hlog : run.log = lr.log := by
      rw [hr] at hrun
      obtain ⟨r, log, rest⟩ := lr
      cases r <;> (cases hrun; rfl)
    have hc := C21_readBatches_partial fuel conn _ replies lr hr world res
      (by
        intro t ht
        obtain ⟨e, he, rfl⟩ := List.mem_map.mp ht
        exact (hv e he).2) (hlog ▸ ha)
    obtain ⟨r, log, rest⟩ := lr
    simp only at hc
    rw [hc, List.map_map] at hr
    rw [hr] at hrun
    cases hrun
    simp only
    rw [storeEntries_all]
    rfl

theorem encode_size {x : Scal} {T : GoTy} (h : x.ty = some T) (hs : T ≠ .str) : cipSize (cipOfGo T) = x.encode.length := by
  cases x <;> simp only [Scal.ty, Option.some.injEq, reduceCtorEq] at h <;> subst h <;>
    simp [Scal.encode, cipOfGo, cipSize, putBV_length] at hs ⊢ <;> decide

theorem asked_request {v : MVal} {t : MTag} (h : Asked v t) : t = v.request t.ioi := by
  cases h with
  | number x T io h hs => simp [MVal.request, MVal.cipType, MVal.dest, h, hs, encode_size h hs]
  | text s io => rfl
  | whatever io => rfl
  | numbers T xs io hb hs => simp [MVal.request, MVal.cipType, MVal.dest, hb, hs]
  | texts xs io => rfl
  | image b io => rfl

theorem mapValue_put {old new : MVal} {v : RV} (h : Put old v new) : mapValue old v = new := by
  cases h with
  | one _ y T hy => cases y <;> first | rfl | cases hy
  | many _ ys => rfl
  | image a b => rfl

/-- C76, structures: for a structure without embedded ones whose tagged fields have distinct tags, a `ReadMulti` whose
requests were all answered leaves in every tagged field the value of its own tag, and the other fields as they were.
`world` gives the type and the image of a tag, `res` its value as read, `val` as stored. -/
theorem C76_fields_partial (fuel conn : Nat) (ioi : Str → Byte → Res Ioi) (fs : List (Option Str × MVal))
    (args : List Str) (replies : List Reply) (run : MultiRun (List MVal)) (world : MTag → Byte × Bytes)
    (res : MTag → RV) (val : Str → MVal)
    (hn : ((taggedOf args 0 fs).map Prod.fst).Nodup)
    (hh : ∀ f ∈ fs, (∃ c cs, f.1 = some (c :: cs)) → f.2 ≠ .hidden)
    (hv : ∀ x ∈ taggedOf args 0 fs, ∃ t, Asked x.2.2 t ∧ ioi x.1 t.typ = .ok t.ioi ∧
      Spec.Means t (world t).1 (world t).2 (res t) ∧ Stored x.2.2 (res t) (val x.1))
    (hrun : readMulti fuel conn ioi (fs.map Prod.fst) (fs.map Prod.snd) args replies = some run)
    (ha : Spec.AllMulti world run.log replies) :
    run.res = .ok (afterRead args val fs) := by
  refine fields_core fuel conn ioi fs args replies run world res val hn hh ?_ hrun ha
  intro x hx
  obtain ⟨t, h1, h2, h3, h4⟩ := hv x hx
  have ht := asked_request h1
  refine ⟨t.ioi, ?_, ht ▸ h3, ht ▸ h4⟩
  rw [ht] at h2
  exact h2

/-- C76, maps: a `ReadMap` whose requests were all answered leaves under every key the value of its own tag, and adds no
key. -/
theorem C76_map_partial (fuel conn : Nat) (ioi : Str → Byte → Res Ioi) (m : List (Str × MVal)) (replies : List Reply)
    (run : MultiRun (List (Str × MVal))) (world : MTag → Byte × Bytes) (res : MTag → RV) (ask : Str × MVal → MTag)
    (new : Str × MVal → MVal)
    (hv : ∀ e ∈ m, Asked e.2 (ask e) ∧ ioi e.1 (ask e).typ = .ok (ask e).ioi ∧
      Spec.Means (ask e) (world (ask e)).1 (world (ask e)).2 (res (ask e)) ∧ Put e.2 (res (ask e)) (new e))
    (hrun : readMap fuel conn ioi m replies = some run) (ha : Spec.AllMulti world run.log replies) :
    run.res = .ok (m.map fun e => (e.1, new e)) := by
  rw [map_core fuel conn ioi m replies run world res (fun e => (ask e).ioi) (by
    intro e he
    obtain ⟨h1, h2, h3, -⟩ := hv e he
    have ht := asked_request h1
    refine ⟨?_, ht ▸ h3⟩
    rw [ht] at h2
    exact h2) hrun ha]
  congr 1
  apply List.map_congr_left
  intro e he
  obtain ⟨h1, -, -, h4⟩ := hv e he
  rw [← asked_request h1, mapValue_put h4]

/-- C76 is false for a tag that is a structure where a number is expected: no error is reported, the value is made of
the first bytes of the structure; in a field of a structure, too. -/
theorem C76_structure_as_number (x y : Scal) (T : GoTy) (hx : x.ty = some T) (hy : y.ty = some T) (hs : T ≠ .str) (hb : T ≠ .bool)
    (t : MTag) (ht : Asked (.one x) t) (handle : BitVec 16) (more : Bytes) :
    ∃ v, multiValue t tStruct (le 2 handle.toNat ++ (y.encode ++ more)) = .ok v ∧ mapValue (.one x) v = .one y ∧
      storeField (.one x) v = .ok (.one y) := by
  have hl : y.encode.length = x.encode.length := by rw [← encode_size hx hs, ← encode_size hy hs]
  have hr : readValue (cipOfGo T) y.encode = .ok (y, []) := by
    have := (C13_value_roundtrip y T hy hs []).1
    rwa [List.append_nil] at this
  cases ht with
  | number _ T' io h hs' =>
    rw [hx] at h
    cases h
    refine ⟨.one (.bytes y.encode), ?_, ?_, ?_⟩
    · unfold multiValue
      simp only [if_true]
      rw [if_neg (by rintro ⟨h, -⟩; cases T <;> first | exact hb rfl | exact absurd h (by decide)),
        if_neg (by intro h; cases T <;> first | exact hs rfl | exact absurd h (by decide)), readN_two, Res.bind_ok]
      simp only
      rw [readN_append' hl, Res.bind_ok]
    · simp only [mapValue, hx, hr]
    · simp only [storeField, hx, if_neg hs, hr]
  | text s io => simp [Scal.ty] at hx; exact absurd hx.symm hs
  | whatever io => cases hx

theorem multiDescs_crash {ioi : Str → Byte → Res Ioi} {m : List (Str × MVal)} (he : ∀ e ∈ m, ∀ x, ioi e.1 e.2.cipType.1 ≠ .err x)
    (hp : ∃ e ∈ m, ioi e.1 e.2.cipType.1 = .panic) : multiDescs ioi m = .panic := by
  induction m with
  | nil => obtain ⟨e, h, -⟩ := hp; cases h
  | cons e m ih =>
    obtain ⟨k, v⟩ := e
    rw [multiDescs]
    cases hx : ioi k v.cipType.1 with
    | err x => exact absurd hx (he (k, v) (by simp) x)
    | panic => rfl
    | ok io =>
      obtain ⟨e, h, h'⟩ := hp
      rcases List.mem_cons.mp h with rfl | h
      · rw [hx] at h'; cases h'
      · simp only [ih (fun e h => he e (by simp [h])) ⟨e, h, h'⟩]

/-- A name that crashes the path builder crashes `ReadMap` and `ReadMulti`, wherever it stands, if no other name is an
error. -/
theorem C76_crash (fuel conn : Nat) (ioi : Str → Byte → Res Ioi) (replies : List Reply) :
    (∀ m : List (Str × MVal), (∀ e ∈ m, ∀ t x, ioi e.1 t ≠ .err x) → (∃ e ∈ m, ∀ t, ioi e.1 t = .panic) →
      (readMap fuel conn ioi m replies).map MultiRun.res = some .panic) ∧
    ∀ (fs : List (Option Str × MVal)) (args : List Str),
      (∀ f ∈ fs, (∃ c cs, f.1 = some (c :: cs)) → f.2 ≠ .hidden) →
      (∀ x ∈ taggedOf args 0 fs, ∀ t e, ioi x.1 t ≠ .err e) → (∃ x ∈ taggedOf args 0 fs, ∀ t, ioi x.1 t = .panic) →
      (readMulti fuel conn ioi (fs.map Prod.fst) (fs.map Prod.snd) args replies).map MultiRun.res = some .panic := by
  refine ⟨?_, ?_⟩
  · intro m he hp
    obtain ⟨e, h, h'⟩ := hp
    unfold readMap
    rw [multiDescs_crash (fun e h => he e h _) ⟨e, h, h' _⟩]
    rfl
  · intro fs args hh he hp
    have hf := multiFields_plain args (fs.map Prod.snd) fs [] (by simp) hh
    simp only [List.length_nil] at hf
    obtain ⟨e, h, h'⟩ := hp
    unfold readMulti
    rw [hf]
    simp only
    rw [multiDescs_crash (m := (taggedOf args 0 fs).map fun f => (f.1, f.2.2))
      (by
        intro e h
        obtain ⟨x, hx, rfl⟩ := List.mem_map.mp h
        exact he x hx _)
      ⟨_, List.mem_map.mpr ⟨e, h, rfl⟩, h' _⟩]
    rfl

/-- C76 is false for slices in maps: what is left under the key is a `[]any`, and a second `ReadMap` with the same map
asks for one element of a structure instead of the elements asked for before. -/
theorem C76_map_slice_changes (T : GoTy) (xs ys : List Scal) (hT : T ≠ .bool) :
    (MVal.list T xs).cipType = (cipOfGo T, xs.length) ∧
    ∀ zs, mapValue (.list T xs) (.many ys) ≠ .list T zs ∧ (mapValue (.list T xs) (.many ys)).cipType = (tStruct, 1) := by
  refine ⟨by simp [MVal.cipType, hT], fun zs => ⟨by simp [mapValue], rfl⟩⟩

/-! ### Where it fails -/

theorem multiValue_one {t : MTag} {typ : Byte} {d : Bytes} {v : RV} (h1 : t.elements = 1)
    (h : multiValue t typ d = .ok v) : ∃ x, v = .one x := by
  unfold multiValue at h
  rw [if_pos h1] at h
  split at h
  · obtain ⟨⟨w, d'⟩, -, h⟩ := Res.bind_eq_ok.mp h
    simp only at h
    split at h
    · cases h; exact ⟨_, rfl⟩
    · cases h; exact ⟨_, rfl⟩
    · cases h
  · split at h
    · obtain ⟨⟨a, b⟩, -, h⟩ := Res.bind_eq_ok.mp h
      obtain ⟨⟨a', b'⟩, -, h⟩ := Res.bind_eq_ok.mp h
      cases h; exact ⟨_, rfl⟩
    · split at h
      · obtain ⟨⟨a, b⟩, -, h⟩ := Res.bind_eq_ok.mp h
        simp only at h
        split at h
        · cases h; exact ⟨_, rfl⟩
        · obtain ⟨⟨a', b'⟩, -, h⟩ := Res.bind_eq_ok.mp h
          cases h; exact ⟨_, rfl⟩
        · cases h
      · obtain ⟨⟨a, b⟩, -, h⟩ := Res.bind_eq_ok.mp h
        cases h; exact ⟨_, rfl⟩

theorem multiEntries_values {rb : Bytes} {tags : List MTag} {offs : List (BitVec 16)} {vs : List RV}
    (h : multiEntries rb tags offs = .ok vs) : ∀ v ∈ vs, ∃ t ∈ tags, ∃ typ d, multiValue t typ d = .ok v := by
  induction offs generalizing tags vs with
  | nil => cases h; simp
  | cons o offs ih =>
    rw [multiEntries] at h
    obtain ⟨v, h1, h⟩ := Res.bind_eq_ok.mp h
    obtain ⟨vs', h2, h⟩ := Res.bind_eq_ok.mp h
    cases h
    cases tags with
    | nil =>
      unfold multiEntry at h1
      simp only [List.head?_nil] at h1
      split at h1
      · cases h1
      · obtain ⟨a, -, h1⟩ := Res.bind_eq_ok.mp h1
        split at h1 <;> cases h1
    | cons t ts =>
      intro w hw
      rcases List.mem_cons.mp hw with rfl | hw
      · unfold multiEntry at h1
        simp only [List.head?_cons] at h1
        split at h1
        · cases h1
        · obtain ⟨⟨a, b⟩, -, h1⟩ := Res.bind_eq_ok.mp h1
          simp only at h1
          split at h1
          · cases h1
          · split at h1
            · cases h1
            · exact ⟨t, by simp, _, _, h1⟩
      · obtain ⟨u, hu, k⟩ := ih h2 w hw
        exact ⟨u, List.mem_of_mem_tail hu, k⟩

theorem multiReply_values {tags : List MTag} {r : Reply} {vs : List RV} (h : multiReply tags r = .ok vs) :
    ∀ v ∈ vs, ∃ t ∈ tags, ∃ typ d, multiValue t typ d = .ok v := by
  unfold multiReply at h
  split at h
  · cases h
  · obtain ⟨it, -, h⟩ := Res.bind_eq_ok.mp h
    obtain ⟨⟨a1, a2⟩, -, h⟩ := Res.bind_eq_ok.mp h
    obtain ⟨⟨b1, b2⟩, -, h⟩ := Res.bind_eq_ok.mp h
    obtain ⟨⟨c1, c2⟩, -, h⟩ := Res.bind_eq_ok.mp h
    obtain ⟨⟨d1, d2⟩, -, h⟩ := Res.bind_eq_ok.mp h
    by_cases hd : d1 ≠ 0
    · simp [hd] at h
    · simp only [hd, if_false] at h
      obtain ⟨⟨e1, e2⟩, -, h⟩ := Res.bind_eq_ok.mp h
      obtain ⟨⟨g1, g2⟩, -, h⟩ := Res.bind_eq_ok.mp h
      exact multiEntries_values h

/-- Every value of a multi-tag read was read for one of the tags. -/
theorem readList_values {fuel conn : Nat} {tags : List MTag} {replies : List Reply} {run : ListRun} {vs : List RV}
    (h : readList fuel conn tags replies = some run) (hr : run.res = .ok vs) :
    ∀ v ∈ vs, ∃ t ∈ tags, ∃ typ d, multiValue t typ d = .ok v := by
  induction fuel generalizing tags replies run vs with
  | zero => simp [readList] at h
  | succ fuel ih =>
    rw [readList] at h
    cases hs : splitIndex conn 0 0 tags with
    | none =>
      rw [hs] at h
      cases h
      cases replies with
      | nil => cases hr
      | cons r rs => exact multiReply_values hr
    | some i =>
      rw [hs] at h
      simp only at h
      cases h0 : readList fuel conn (tags.take i) replies with
      | none => rw [h0] at h; cases h
      | some r0 =>
        rw [h0] at h
        obtain ⟨res0, log0, rest0⟩ := r0
        cases res0 with
        | err e => cases h; cases hr
        | panic => cases h; cases hr
        | ok v0 =>
          simp only at h
          cases h1 : readList fuel conn (tags.drop i) rest0 with
          | none => rw [h1] at h; cases h
          | some r1 =>
            rw [h1] at h
            obtain ⟨res1, log1, rest1⟩ := r1
            cases res1 with
            | err e => cases h; cases hr
            | panic => cases h; cases hr
            | ok v1 =>
              cases h
              cases hr
              intro v hv
              rcases List.mem_append.mp hv with hv | hv
              · obtain ⟨t, ht, k⟩ := ih h0 rfl v hv
                exact ⟨t, List.mem_of_mem_take ht, k⟩
              · obtain ⟨t, ht, k⟩ := ih h1 rfl v hv
                exact ⟨t, List.mem_of_mem_drop ht, k⟩

/-- C76 is false for a slice of one element and for slices of booleans: whatever is answered, `ReadMulti` of a
structure with such a field never succeeds. -/
theorem C76_slice_unreadable (fuel conn : Nat) (ioi : Str → Byte → Res Ioi) (tag : Str) (hne : tag ≠ []) (T : GoTy)
    (xs : List Scal) (hx : xs ≠ []) (hT : T = .bool ∨ xs.length = 1) (args : List Str) (replies : List Reply)
    (run : MultiRun (List MVal)) (h : readMulti fuel conn ioi [some tag] [.list T xs] args replies = some run)
    (new : List MVal) : run.res ≠ .ok new := by
  intro hok
  have h1 : (MVal.list T xs).cipType.2 = 1 := by
    rcases hT with rfl | hT
    · rfl
    · show (if T = .bool then (tStruct, 1) else (cipOfGo T, xs.length)).2 = 1
      split <;> simp [hT]
  cases tag with
  | nil => exact hne rfl
  | cons c cs =>
    unfold readMulti at h
    simp only [multiFields, List.getElem?_cons_zero, List.map_cons, List.map_nil, multiDescs] at h
    cases hi : ioi (formatName (c :: cs) args) (MVal.list T xs).cipType.1 with
    | err e => rw [hi] at h; cases h; cases hok
    | panic => rw [hi] at h; cases h; cases hok
    | ok io =>
      rw [hi] at h
      simp only at h
      split at h
      · cases h
      · rename_i vs log rest hr
        cases h
        have hval := readList_values hr rfl
        cases vs with
        | nil => cases hok
        | cons v vs =>
          obtain ⟨t, ht, typ, d, hm⟩ := hval v (by simp)
          rw [List.mem_singleton.mp ht] at hm
          obtain ⟨x, rfl⟩ := multiValue_one h1 hm
          cases xs with
          | nil => exact hx rfl
          | cons y ys =>
            simp only [storeFields, fieldNo, List.reverse_cons, List.reverse_nil, List.nil_append, List.lookup_cons,
              BEq.rfl, Option.map_some, Option.getD_some, List.getElem?_cons_zero, storeField] at hok
            cases hok
      · cases h; cases hok
      · cases h; cases hok

/-- C26 fails for ReadMulti: a tag whose type is not the type of the field it is read into crashes, whatever its
value. -/
theorem C26_readMulti_type_crash (x y : Scal) (hb : ∀ b, y ≠ .bytes b) (h : y.ty ≠ x.ty) :
    storeField (.one x) (.one y) = .panic := by
  cases y <;> first
    | exact absurd rfl (hb _)
    | (unfold storeField; simp only; rw [if_neg]; rintro ⟨-, k⟩; exact h k.symm)

/-- C26 fails for ReadMulti: a slice with one element crashes, as its value is read as a single one. -/
theorem C26_readMulti_one_element_crash (T : GoTy) (x : Scal) (xs : List Scal) (y : Scal) :
    storeField (.list T (x :: xs)) (.one y) = .panic := rfl

/-- C26 fails for ReadMulti: a reply that answers fewer requests than were sent crashes, although it is a success for
`readList` (C57_missing_values_accepted). -/
theorem C26_readMulti_short_crash (all : List (Str × Nat × MVal)) (f : Str × Nat × MVal)
    (fs : List (Str × Nat × MVal)) (direct : List MVal) : storeFields all (f :: fs) [] direct = .panic := by
  obtain ⟨a, b⟩ := f
  rfl

/-- C76 is false when two fields have the same tag: the first one never changes. -/
theorem C76_same_tag_twice (fuel conn : Nat) (ioi : Str → Byte → Res Ioi) (tag : Str) (hne : tag ≠ [])
    (a b : MVal) (args : List Str) (replies : List Reply) (run : MultiRun (List MVal)) (new : List MVal)
    (h : readMulti fuel conn ioi [some tag, some tag] [a, b] args replies = some run) (hok : run.res = .ok new) :
    new[0]? = some a := by
  cases tag with
  | nil => exact absurd rfl hne
  | cons c cs =>
    unfold readMulti at h
    generalize hm : multiFields [a, b] args 0 [some (c :: cs), some (c :: cs)] = mf at h
    cases mf with
    | err e => cases h; cases hok
    | panic => cases h; cases hok
    | ok fields =>
      have hf : fields = [(formatName (c :: cs) args, 0, a), (formatName (c :: cs) args, 1, b)] := by
        simp only [multiFields, List.getElem?_cons_zero, List.getElem?_cons_succ] at hm
        cases a <;> cases b <;> simp at hm <;> exact hm.symm
      simp only at h
      cases hd : multiDescs ioi (fields.map fun f => (f.1, f.2.2)) with
      | err e => rw [hd] at h; cases h; cases hok
      | panic => rw [hd] at h; cases h; cases hok
      | ok ds =>
        rw [hd] at h
        simp only at h
        split at h
        · cases h
        · rename_i vs log rest hr
          cases h
          have hno : fieldNo fields (formatName (c :: cs) args) = 1 := by
            rw [hf]; simp [fieldNo]
          subst hf
          have key : ∀ (l : List (Str × Nat × MVal)) (vs : List RV) (fs fs' : List MVal),
              (∀ x ∈ l, x.1 = formatName (c :: cs) args) →
              storeFields [(formatName (c :: cs) args, 0, a), (formatName (c :: cs) args, 1, b)] l vs fs = .ok fs' →
              fs'[0]? = fs[0]? := by
            intro l
            induction l with
            | nil => intro vs fs fs' _ h; cases h; rfl
            | cons x l ih =>
              intro vs fs fs' hx h
              obtain ⟨p, q⟩ := x
              have hp : p = formatName (c :: cs) args := hx (p, q) (by simp)
              subst hp
              cases vs with
              | nil => cases h
              | cons v vs =>
                rw [storeFields, hno] at h
                split at h
                · cases h
                · split at h
                  · rw [ih vs _ fs' (fun x hx' => hx x (by simp [hx'])) h]
                    simp
                  · cases h
                  · cases h
          have := key _ vs [a, b] new (by simp) hok
          simpa using this
        · cases h; cases hok
        · cases h; cases hok

/-- A reply with the values of two DINT. -/
def exReply2 : Reply := ⟨0, (⟨0, 0, 0xA1, [], 0xB1, 7, 0x8A#8, 0#8⟩ : Spec.MultiForm).payload
  ([2#8, 0#8, 6#8, 0#8, 16#8, 0#8] ++ [0xCC#8, 0#8, 0#8, 0#8, 0xC4#8, 0#8, 5#8, 0#8, 0#8, 0#8] ++
    [0xCC#8, 0#8, 0#8, 0#8, 0xC4#8, 0#8, 9#8, 0#8, 0#8, 0#8])⟩

/-- A structure with two tagged fields around one without a tag. -/
example : (readMulti 3 504 (fun _ _ => .ok exIoi) [some (str "A{0}"), none, some (str "B")]
    [.one (.i32 0), .one (.i32 1), .one (.i32 2)] [str "1"] [exReply2]).map MultiRun.res =
    some (.ok [.one (.i32 5), .one (.i32 1), .one (.i32 9)]) := by decide +kernel

/-- The same tag twice. -/
example : (readMulti 3 504 (fun _ _ => .ok exIoi) [some (str "A"), some (str "A")]
    [.one (.i32 0), .one (.i32 1)] [] [exReply2]).map MultiRun.res = some (.ok [.one (.i32 0), .one (.i32 9)]) := by
  decide +kernel

/-- C76 is false for structures with an embedded one: the fields are numbered together with those of the embedded
structure but looked up without them.  Here the embedded structure has the fields tagged "X" and "Y" and is followed
by two fields without tags: these get the values. -/
theorem C76_embedded_misplaced :
    (readMulti 3 504 (fun _ _ => .ok exIoi) [none, some (str "X"), some (str "Y"), none, none]
      [.image [0#8, 0#8, 0#8, 0#8, 0#8, 0#8, 0#8, 0#8], .one (.i32 1), .one (.i32 2)] [] [exReply2]).map MultiRun.res =
    some (.ok [.image [0#8, 0#8, 0#8, 0#8, 0#8, 0#8, 0#8, 0#8], .one (.i32 5), .one (.i32 9)]) := by decide +kernel

/-- A structure whose first bytes are 5, read for a DINT. -/
example : multiValue ⟨exIoi, tDINT, 1, .sized 4⟩ tStruct [1#8, 2#8, 5#8, 0#8, 0#8, 0#8, 7#8] =
    .ok (.one (.bytes [5#8, 0#8, 0#8, 0#8])) ∧ mapValue (.one (.i32 0)) (.one (.bytes [5#8, 0#8, 0#8, 0#8])) = .one (.i32 5) := by
  decide +kernel

/-- A map. -/
example : (readMap 4 504 (fun _ _ => .ok exIoi) [(str "A", .one (.i32 0)), (str "B", .one (.i32 2))] [exReply2]).map
    MultiRun.res = some (.ok [(str "A", .one (.i32 5)), (str "B", .one (.i32 9))]) := by decide +kernel

end Gologix
