import Verif.Model.TagGroupRead
import Verif.Props.ReadMulti
import Verif.Props.TagGroup
/-
C86 A group read gives every tag its value, in its type
-/
set_option linter.unusedSimpArgs false
namespace Gologix
open Spec (Put Asked DefAsked)

theorem groupMap_puts (args : List Str) (defs : List TagDef) :
    groupMap args defs = puts (defs.map fun d => (formatName d.name args, zeroValue d)) [] := by
  unfold groupMap puts
  rw [List.foldl_map]

theorem lookup_of_mem {α : Type} {m : List (Str × α)} (hn : (m.map Prod.fst).Nodup) {k : Str} {v : α} (h : (k, v) ∈ m) :
    m.lookup k = some v := by
  induction m with
  | nil => cases h
  | cons e m ih =>
    obtain ⟨a, b⟩ := e
    rw [List.map_cons, List.nodup_cons] at hn
    rcases List.mem_cons.mp h with h' | h'
    · cases h'
      simp [List.lookup]
    · have hne : (k == a) = false := by
        rw [beq_eq_false_iff_ne]
        rintro rfl
        exact hn.1 (List.mem_map.mpr ⟨(k, v), h', rfl⟩)
      simp only [List.lookup, hne]
      exact ih hn.2 h'

/-- The request for a definition. -/
def TagDef.request (d : TagDef) (io : Ioi) : MTag := (zeroValue d).request io

theorem values_core (fuel conn : Nat) (ioi : Str → Byte → Res Ioi) (ord : List (Str × MVal) → List (Str × MVal))
    (hord : ∀ l, (ord l).Perm l) (defs : List TagDef) (args : List Str) (replies : List Reply)
    (run : MultiRun (List (Str × MVal))) (world : MTag → Byte × Bytes) (res : MTag → RV) (path : TagDef → Ioi)
    (hn : (defs.map fun d => formatName d.name args).Nodup)
    (hv : ∀ d ∈ defs, ioi (formatName d.name args) (zeroValue d).cipType.1 = .ok (path d) ∧
      Spec.Means (d.request (path d)) (world (d.request (path d))).1 (world (d.request (path d))).2 (res (d.request (path d))))
    (hrun : readTagGroup fuel conn ioi ord defs args replies = some run) (ha : Spec.AllMulti world run.log replies) :
    ∃ r : GroupResult, run.res = .ok r ∧
      (∀ d ∈ defs, r.value (formatName d.name args) = .ok (mapValue (zeroValue d) (res (d.request (path d))))) ∧
      ∀ name v, r.value name = .ok v → ∃ d ∈ defs, name = formatName d.name args := by
  -- the map holds the definitions
  have hmem : ∀ e ∈ groupMap args defs, ∃ d ∈ defs, e = (formatName d.name args, zeroValue d) := by
    intro e he
    rw [groupMap_puts] at he
    rcases puts_mem he with h | h
    · obtain ⟨d, hd, rfl⟩ := List.mem_map.mp h
      exact ⟨d, hd, rfl⟩
    · cases h
  have hin : ∀ d ∈ defs, (formatName d.name args, zeroValue d) ∈ groupMap args defs := by
    intro d hd
    rw [groupMap_puts]
    apply assoc_mem
    apply puts_lookup_some
    · exact List.mem_map.mpr ⟨d, hd, rfl⟩
    · intro e he hk
      obtain ⟨d', hd', rfl⟩ := List.mem_map.mp he
      simp only at hk ⊢
      rw [nodup_map_inj hn hd' hd hk]
  have hnd : ((groupMap args defs).map Prod.fst).Nodup := by
    rw [groupMap_puts]
    exact puts_nodup _ (by simp)
  have hp := hord (groupMap args defs)
  -- the definition of a name
  let defOf : Str → Option TagDef := fun n => defs.find? fun d => formatName d.name args = n
  have hdef : ∀ d ∈ defs, defOf (formatName d.name args) = some d := by
    intro d hd
    cases hf : defOf (formatName d.name args) with
    | none =>
      have := List.find?_eq_none.mp hf d hd
      simp at this
    | some d' =>
      have h1 := List.mem_of_find?_eq_some hf
      have h2 := List.find?_some hf
      simp only [decide_eq_true_eq] at h2
      rw [nodup_map_inj hn h1 hd h2]
  let pathOf : Str × MVal → Ioi := fun e => match defOf e.1 with
    | some d => path d
    | none => exIoi
  have hm := map_core fuel conn ioi (ord (groupMap args defs)) replies run world res pathOf (by
    intro e he
    obtain ⟨d, hd, rfl⟩ := hmem e (hp.mem_iff.mp he)
    have : pathOf (formatName d.name args, zeroValue d) = path d := by simp only [pathOf, hdef d hd]
    rw [this]
    exact hv d hd) hrun ha
  refine ⟨_, hm, ?_, ?_⟩
  · intro d hd
    have hpath : pathOf (formatName d.name args, zeroValue d) = path d := by simp only [pathOf, hdef d hd]
    have hl : (List.map (fun e => (e.1, mapValue e.2 (res (e.2.request (pathOf e))))) (ord (groupMap args defs))).lookup
        (formatName d.name args) = some (mapValue (zeroValue d) (res (d.request (path d)))) := by
      apply lookup_of_mem
      · rw [List.map_map]
        exact (List.Perm.nodup_iff (hp.map Prod.fst)).mpr hnd
      · refine List.mem_map.mpr ⟨_, hp.mem_iff.mpr (hin d hd), ?_⟩
        simp only [hpath]
        rfl
    unfold GroupResult.value
    rw [hl]
  · intro name v h
    unfold GroupResult.value at h
    split at h
    · rename_i x hx
      have := assoc_mem hx
      obtain ⟨e, he, heq⟩ := List.mem_map.mp this
      obtain ⟨d, hd, rfl⟩ := hmem e (hp.mem_iff.mp he)
      exact ⟨d, hd, (congrArg Prod.fst heq).symm⟩
    · cases h

/-- A tag with one of the types with a Go type, not an array of BOOL or WORD, is asked for as defined. -/
theorem defAsked_request {d : TagDef} {T : GoTy} {t : MTag} (h : DefAsked d T t)
    (ha : 1 < d.elements → d.typ ≠ tBOOL ∧ d.typ ≠ tWORD) : t = d.request t.ioi := by
  obtain ⟨io, typ, n, dest⟩ := t
  obtain ⟨ht, h1, h2, h3⟩ := h
  simp only at h1 h2 h3
  subst h1 h3
  unfold TagDef.request MVal.request zeroValue
  by_cases hn : 1 < d.elements
  · obtain ⟨hb, hw⟩ := ha hn
    have hz : zeroType d.typ true = T ∧ T ≠ .bool := by
      generalize d.typ = c at ht hb hw
      cases ht <;> first | exact absurd rfl hb | exact absurd rfl hw | exact ⟨rfl, by decide⟩
    simp only [if_pos hn, hz.1] at h2 ⊢
    simp only [MVal.cipType, MVal.dest, if_neg hz.2, List.length_replicate]
    have h2' : n = d.elements.toNat := by omega
    rw [h2']
  · have hz : zeroType d.typ false = T := by
      generalize d.typ = c at ht
      cases ht <;> rfl
    simp only [if_neg hn, hz] at h2 ⊢
    have h2' : n = 1 := by omega
    subst h2'
    cases T <;> rfl

/-- C86: when the requests of a group read were all answered and the names are distinct once the arguments are filled
in, each tag is asked for in its
type with the number of elements defined, and the result has for each definition the value of its tag, under the name, and nothing else.  `world` gives the type and
the image of a tag, `res` its value. -/
theorem C86_values_partial (fuel conn : Nat) (ioi : Str → Byte → Res Ioi) (ord : List (Str × MVal) → List (Str × MVal))
    (hord : ∀ l, (ord l).Perm l) (defs : List TagDef) (args : List Str) (replies : List Reply)
    (run : MultiRun (List (Str × MVal))) (world : MTag → Byte × Bytes) (res : MTag → RV) (ask : TagDef → MTag)
    (type : TagDef → GoTy) (val : TagDef → MVal)
    (hn : (defs.map fun d => formatName d.name args).Nodup)
    (hd : ∀ d ∈ defs, DefAsked d (type d) (ask d) ∧ (1 < d.elements → d.typ ≠ tBOOL ∧ d.typ ≠ tWORD))
    (hv : ∀ d ∈ defs, ioi (formatName d.name args) (ask d).typ = .ok (ask d).ioi ∧
      Spec.Means (ask d) (world (ask d)).1 (world (ask d)).2 (res (ask d)))
    (hval : ∀ d ∈ defs, (∃ y, res (ask d) = .one y ∧ val d = .one y) ∨ (∃ ys, res (ask d) = .many ys ∧ val d = .anys ys))
    (hrun : readTagGroup fuel conn ioi ord defs args replies = some run) (ha : Spec.AllMulti world run.log replies) :
    ∃ r : GroupResult, run.res = .ok r ∧
      (∀ d ∈ defs, r.value (formatName d.name args) = .ok (val d)) ∧
      ∀ name v, r.value name = .ok v → ∃ d ∈ defs, name = formatName d.name args := by
  have hr : ∀ d ∈ defs, ask d = d.request (ask d).ioi := fun d h => defAsked_request (hd d h).1 (hd d h).2
  obtain ⟨r, h1, h2, h3⟩ := values_core fuel conn ioi ord hord defs args replies run world res (fun d => (ask d).ioi) hn
    (by
      intro d h
      obtain ⟨h1, h2⟩ := hv d h
      have he := hr d h
      refine ⟨?_, he ▸ h2⟩
      rw [he] at h1
      exact h1) hrun ha
  refine ⟨r, h1, ?_, h3⟩
  intro d h
  rw [h2 d h, ← hr d h]
  have hm := (hv d h).2
  rcases hval d h with ⟨y, hy, hw⟩ | ⟨ys, hy, hw⟩
  · rw [hy] at hm ⊢
    rw [hw]
    have : ∀ b, y ≠ .bytes b := by
      rintro b rfl
      have hts : (ask d).typ ≠ tStruct := by
        rw [(hd d h).1.typ]
        cases type d <;> decide
      generalize ask d = t at hm hts
      generalize world t = w at hm
      obtain ⟨typ, image⟩ := w
      simp only at hm
      cases hm with
      | scalar _ _ _ _ h3 => cases h3
      | struct _ _ h2 h3 => exact hts h3
    cases y <;> first | rfl | exact absurd rfl (this _)
  · rw [hy, hw]; rfl

theorem value_lookup {r : GroupResult} {name : Str} {v : MVal} (h : r.value name = .ok v) : r.lookup name = some v := by
  unfold GroupResult.value at h
  split at h
  · rename_i x hx; cases h; exact hx
  · cases h

theorem elemsAs_map (f : Scal → Option (BitVec 32)) (g : BitVec 32 → Scal) (h : ∀ x, f (g x) = some x) (xs : List (BitVec 32)) :
    elemsAs f (xs.map g) = .ok xs := by
  induction xs with
  | nil => rfl
  | cons x xs ih => simp [elemsAs, h, ih]

/-- C86, accessors: a value of the type asked for is handed out as it was read. -/
theorem C86_accessors (r : GroupResult) (name : Str) (old w : MVal) (v : RV) (hw : Put old v w) (h : r.value name = .ok w) :
    (∀ s, v = .one (.str s) → r.string name = .ok s) ∧
    (∀ b, v = .one (.bool b) → r.bool name = .ok b) ∧
    (∀ x, v = .one (.i16 x) → r.int16 name = .ok x) ∧
    (∀ x, v = .one (.i32 x) → r.int32 name = .ok x) ∧
    (∀ x, v = .one (.u32 x) → r.uint32 name = .ok x) ∧
    (∀ x, v = .one (.f32 x) → r.float32 name = .ok x) ∧
    (∀ x, v = .one (.f64 x) → r.float64 name = .ok x) ∧
    (∀ xs, v = .many (xs.map .i32) → r.int32Slice name = .ok xs) ∧
    (∀ xs, v = .many (xs.map .f32) → r.float32Slice name = .ok xs) := by
  rw [← mapValue_put hw] at h
  have hl := value_lookup h
  refine ⟨?_, ?_, ?_, ?_, ?_, ?_, ?_, ?_, ?_⟩ <;> intro x hx <;> subst hx <;> simp only [mapValue] at hl
  · simp only [GroupResult.string, hl]
  · simp only [GroupResult.bool, hl]
  · simp only [GroupResult.int16, hl]
  · simp only [GroupResult.int32, hl]
  · simp only [GroupResult.uint32, hl]
  · simp only [GroupResult.float32, hl]
  · simp only [GroupResult.float64, hl]
  · simp only [GroupResult.int32Slice, hl]
    exact elemsAs_map asI32 .i32 (fun _ => rfl) x
  · simp only [GroupResult.float32Slice, hl]
    exact elemsAs_map asF32 .f32 (fun _ => rfl) x

theorem elemsAs_ok {f : Scal → Option (BitVec 32)} {g : BitVec 32 → Scal} (hg : ∀ v x, f v = some x → v = g x)
    {vs : List Scal} {xs : List (BitVec 32)} (h : elemsAs f vs = .ok xs) : vs = xs.map g := by
  induction vs generalizing xs with
  | nil => cases h; rfl
  | cons v vs ih =>
    simp only [elemsAs] at h
    cases hf : f v with
    | none => rw [hf] at h; cases h
    | some x =>
      rw [hf] at h
      cases he : elemsAs f vs with
      | ok ys => rw [he] at h; cases h; rw [ih he, hg v x hf]; rfl
      | err e => rw [he] at h; cases h
      | panic => rw [he] at h; cases h

/-- C86, accessors: a value of another type is an error, never another value; `Uint32` takes an `int32` for the unsigned
number with the same bits. -/
theorem C86_no_other_type (r : GroupResult) (name : Str) :
    (∀ s, r.string name = .ok s → r.value name = .ok (.one (.str s))) ∧
    (∀ b, r.bool name = .ok b → r.value name = .ok (.one (.bool b))) ∧
    (∀ x, r.int16 name = .ok x → r.value name = .ok (.one (.i16 x))) ∧
    (∀ x, r.int32 name = .ok x → r.value name = .ok (.one (.i32 x))) ∧
    (∀ x, r.uint32 name = .ok x → r.value name = .ok (.one (.u32 x)) ∨ r.value name = .ok (.one (.i32 x))) ∧
    (∀ x, r.float32 name = .ok x → r.value name = .ok (.one (.f32 x))) ∧
    (∀ x, r.float64 name = .ok x → r.value name = .ok (.one (.f64 x))) ∧
    (∀ xs, r.int32Slice name = .ok xs → r.value name = .ok (.anys (xs.map .i32)) ∨ r.value name = .ok (.list .i32 (xs.map .i32))) ∧
    (∀ xs, r.float32Slice name = .ok xs →
      r.value name = .ok (.anys (xs.map .f32)) ∨ r.value name = .ok (.list .f32 (xs.map .f32))) := by
  have hi : ∀ v x, asI32 v = some x → v = .i32 x := by
    intro v x h
    cases v <;> simp_all [asI32]
  have hf : ∀ v x, asF32 v = some x → v = .f32 x := by
    intro v x h
    cases v <;> simp_all [asF32]
  refine ⟨?_, ?_, ?_, ?_, ?_, ?_, ?_, ?_, ?_⟩ <;> intro x hx
  · simp only [GroupResult.string] at hx
    split at hx <;> cases hx
    simp only [GroupResult.value, *]
  · simp only [GroupResult.bool] at hx
    split at hx <;> cases hx
    simp only [GroupResult.value, *]
  · simp only [GroupResult.int16] at hx
    split at hx <;> cases hx
    simp only [GroupResult.value, *]
  · simp only [GroupResult.int32] at hx
    split at hx <;> cases hx
    simp only [GroupResult.value, *]
  · simp only [GroupResult.uint32] at hx
    split at hx <;> cases hx
    · left; simp only [GroupResult.value, *]
    · right; simp only [GroupResult.value, *]
  · simp only [GroupResult.float32] at hx
    split at hx <;> cases hx
    simp only [GroupResult.value, *]
  · simp only [GroupResult.float64] at hx
    split at hx <;> cases hx
    simp only [GroupResult.value, *]
  · simp only [GroupResult.int32Slice] at hx
    split at hx
    · right; rw [← elemsAs_ok hi hx]; simp only [GroupResult.value, *]
    · left; rw [← elemsAs_ok hi hx]; simp only [GroupResult.value, *]
    · cases hx
  · simp only [GroupResult.float32Slice] at hx
    split at hx
    · right; rw [← elemsAs_ok hf hx]; simp only [GroupResult.value, *]
    · left; rw [← elemsAs_ok hf hx]; simp only [GroupResult.value, *]
    · cases hx

/-- C86, accessors: none of them crashes, whatever was read; with C86_no_other_type, a name that is not there and a value
of another type are errors. -/
theorem C86_accessors_safe (r : GroupResult) (name : Str) :
    (r.value name).safe ∧ (r.string name).safe ∧ (r.bool name).safe ∧ (r.int16 name).safe ∧ (r.int32 name).safe ∧
    (r.uint32 name).safe ∧ (r.float32 name).safe ∧ (r.float64 name).safe ∧ (r.int32Slice name).safe ∧
    (r.float32Slice name).safe := by
  have he : ∀ f vs, (elemsAs f vs).safe := by
    intro f vs
    induction vs with
    | nil => trivial
    | cons v vs ih =>
      rw [elemsAs]
      cases f v with
      | none => trivial
      | some x =>
        simp only
        cases hx : elemsAs f vs with
        | ok xs => trivial
        | err e => trivial
        | panic => rw [hx] at ih; cases ih
  refine ⟨?_, ?_, ?_, ?_, ?_, ?_, ?_, ?_, ?_, ?_⟩ <;>
    simp only [GroupResult.value, GroupResult.string, GroupResult.bool, GroupResult.int16, GroupResult.int32,
      GroupResult.uint32, GroupResult.float32, GroupResult.float64, GroupResult.int32Slice, GroupResult.float32Slice] <;>
    split <;> first | trivial | exact he _ _

/-- The types asked for: for every declared type but arrays of BOOL and WORD and those that have no Go type, the number of
elements and a type of the same size are asked for. -/
theorem C86_asked_partial (d : TagDef) (io : Ioi)
    (ht : d.typ ∈ [tSINT, tBYTE, tUSINT, tINT, tUINT, tDINT, tUDINT, tDWORD, tLINT, tLWORD, tULINT, tREAL, tLREAL, tSTRING]) :
    (d.request io).elements = (if d.elements > 1 then d.elements.toNat else 1) ∧
      cipSize (d.request io).typ = cipSize d.typ ∧ ((d.request io).typ = tSTRING ↔ d.typ = tSTRING) := by
  unfold TagDef.request MVal.request zeroValue
  obtain ⟨nm, t, n⟩ := d
  simp only at ht ⊢
  have hb : zeroType t true ≠ .bool ∧ cipSize (cipOfGo (zeroType t true)) = cipSize t ∧
      cipSize (cipOfGo (zeroType t false)) = cipSize t ∧ (zeroType t false).zero.ty = some (zeroType t false) ∧
      (cipOfGo (zeroType t true) = tSTRING ↔ t = tSTRING) ∧ (cipOfGo (zeroType t false) = tSTRING ↔ t = tSTRING) := by
    simp only [List.mem_cons, List.not_mem_nil, or_false] at ht
    rcases ht with rfl | rfl | rfl | rfl | rfl | rfl | rfl | rfl | rfl | rfl | rfl | rfl | rfl | rfl <;> decide
  obtain ⟨h1, h2, h3, h4, h5, h6⟩ := hb
  by_cases hn : n > 1
  · simp only [if_pos hn, MVal.cipType, if_neg h1, List.length_replicate]
    exact ⟨trivial, h2, h5⟩
  · simp only [if_neg hn, MVal.cipType, h4]
    exact ⟨trivial, h3, h6⟩

/-- C86 is false for arrays of BOOL: one structure is asked for, and no reply gives as many values as declared, so that
there is no slice to get. -/
theorem C86_bool_array (d : TagDef) (h : d.typ = tBOOL) (hn : d.elements > 1) (io : Ioi) :
    (d.request io).elements = 1 ∧ (d.request io).typ = tStruct ∧
    ∀ typ image v, multiValue (d.request io) typ image = .ok v → ∀ vs, v ≠ .many vs := by
  have hz : zeroValue d = .list .bool (List.replicate d.elements.toNat (.bool false)) := by
    unfold zeroValue
    rw [if_pos hn, h]
    rfl
  have h1 : (d.request io).elements = 1 ∧ (d.request io).typ = tStruct := by
    unfold TagDef.request MVal.request
    rw [hz]
    exact ⟨rfl, rfl⟩
  refine ⟨h1.1, h1.2, ?_⟩
  intro typ image v hv vs hc
  obtain ⟨x, hx⟩ := multiValue_one h1.1 hv
  rw [hx] at hc
  cases hc

/-- C86 is false for arrays of WORD: they are asked for as DINT, twice the size. -/
theorem C86_word_array (d : TagDef) (h : d.typ = tWORD) (hn : d.elements > 1) (io : Ioi) :
    (d.request io).typ = tDINT ∧ cipSize (d.request io).typ = 2 * cipSize d.typ := by
  unfold TagDef.request MVal.request zeroValue
  rw [if_pos hn, h]
  exact ⟨rfl, (by decide : cipSize tDINT = 2 * cipSize tWORD)⟩

/-- C86 is false for two definitions that come to the same name: only the last is read. -/
theorem C86_same_name (args : List Str) (a b : TagDef) (h : formatName a.name args = formatName b.name args) :
    groupMap args [a, b] = [(formatName b.name args, zeroValue b)] := by
  simp [groupMap, mapPut, h]

/-- How an array of ten REAL is asked for. -/
example (io : Ioi) : DefAsked ⟨str "A", tREAL, 10⟩ .f32 ⟨io, tREAL, 10, .sized 0⟩ :=
  ⟨.real, rfl, rfl, rfl⟩

/-- A group of one tag with an argument, and the accessors. -/
example :
    let g := newTagGroup [⟨str "A[{0}]", tDINT, 0⟩, ⟨str "B", tDINT, 1⟩]
    ((readTagGroup 4 504 (fun _ _ => .ok exIoi) id g [str "7"] [exReply2]).map fun r => match r.res with
      | .ok r => (GroupResult.int32 r (str "A[7]"), GroupResult.uint32 r (str "B"), GroupResult.float32 r (str "B"))
      | _ => (.panic, .panic, .panic)) = some (.ok 5, .ok 9, .err .fail) := by decide +kernel

end Gologix
