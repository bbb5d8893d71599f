import Verif.Spec.TableAdd
import Verif.Props.DataVars
import Verif.Props.TagGroup
import Verif.Props.Ioi
/-
C97: adding tags to a data table is all or nothing.
-/
set_option linter.unusedSimpArgs false
namespace Gologix
open Spec (slotBytes isTime ShownBy CannotShow NewTag Added Slot)

/-- The sizes the client takes are those of the types. -/
theorem cipSize_atom : ∀ t : Byte, Spec.atomSize t.toNat = none ∨ Spec.atomSize t.toNat = some (cipSize t) := by
  decide +kernel

theorem cipSize_none : ∀ t : Byte, Spec.atomSize t.toNat = none → t ≠ tStruct → t ≠ tSTRING → ¬ isTime t →
    cipSize t = 0 := by
  decide +kernel

theorem cipSize_pos : ∀ t : Byte, Spec.atomSize t.toNat ≠ none → cipSize t ≠ 0 ∧ cipSize t < 65536 ∧ t ≠ tStruct ∧
    t ≠ tSTRING := by
  decide +kernel

theorem composite_iff : ∀ t : Byte, (t.toNat = 0xA0 ∨ t.toNat = 0xFF) ↔ (t = tSTRING ∨ t = tStruct) := by
  decide +kernel

theorem resolve_shown {E : DEnv} {name : Str} {t : Byte} {n : Nat}
    (h : slotBytes ((E.udtSize (toLower name)).map (·.toNat)) t = some n) (hn : n < 65536) :
    resolveTypeSize E name t = .ok (BitVec.ofNat 16 n) := by
  unfold slotBytes at h
  unfold resolveTypeSize
  have h88 : t = tSTRING ∨ t = tStruct → dataTableTypeSize t = .ok (BitVec.ofNat 16 88) := by
    rintro (rfl | rfl) <;> rfl
  by_cases hc : t = tSTRING ∨ t = tStruct
  · rw [if_pos ((composite_iff t).mpr hc)] at h
    rw [if_pos hc]
    cases hu : E.udtSize (toLower name) with
    | none =>
      rw [hu] at h
      cases h
      exact h88 hc
    | some z =>
      rw [hu] at h
      simp only [Option.map_some] at h
      cases hz : z.toNat with
      | zero =>
        rw [hz] at h
        cases h
        simp only [hz, Nat.lt_irrefl, if_false]
        exact h88 hc
      | succ m =>
        rw [hz] at h
        cases h
        simp only [hz, Nat.zero_lt_succ, if_true]
        congr 1
        apply BitVec.eq_of_toNat_eq
        simp [hz]
  · rw [if_neg (fun x => hc ((composite_iff t).mp x))] at h
    rw [if_neg hc]
    have hp := cipSize_pos t (by rw [h]; simp)
    rcases cipSize_atom t with h0 | h0
    · rw [h0] at h; cases h
    · rw [h0] at h
      cases h
      unfold dataTableTypeSize
      rw [if_neg hp.2.2.2, if_neg hp.2.2.1, if_neg hp.1]

theorem resolve_refused {E : DEnv} {name : Str} {t : Byte}
    (h : slotBytes ((E.udtSize (toLower name)).map (·.toNat)) t = none) (ht : ¬ isTime t) :
    resolveTypeSize E name t = .err .fail := by
  unfold slotBytes at h
  unfold resolveTypeSize
  by_cases hc : t = tSTRING ∨ t = tStruct
  · rw [if_pos ((composite_iff t).mpr hc)] at h
    split at h <;> cases h
  · rw [if_neg (fun x => hc ((composite_iff t).mp x))] at h
    rw [if_neg hc]
    unfold dataTableTypeSize
    rw [if_neg (fun x => hc (.inl x)), if_neg (fun x => hc (.inr x)),
      if_pos (cipSize_none t h (fun x => hc (.inr x)) (fun x => hc (.inl x)) ht)]

theorem resolve_safe (E : DEnv) (name : Str) (t : Byte) : (resolveTypeSize E name t).safe := by
  have hd : (dataTableTypeSize t).safe := by
    unfold dataTableTypeSize
    repeat' split
    all_goals trivial
  unfold resolveTypeSize
  repeat' split
  all_goals first | trivial | exact hd

/-- C97, one tag: it is added at the end with its type, its path and its size. -/
theorem C97_add_partial (E : DEnv) (b : DBuf) (hc : b.created = true) (name : Str) (t : Byte) (s : Slot)
    (h : ShownBy E name t s) :
    (addTag E b name t).1 = .ok () ∧ Added b (addTag E b name t).2 [⟨name, t, s, none⟩] := by
  obtain ⟨h1, h2, h3⟩ := h
  have hr := resolve_shown h2 h3
  unfold addTag
  simp only [hc, Bool.not_true, Bool.false_eq_true, if_false, h1, hr]
  refine ⟨trivial, rfl, hc.symm, rfl, rfl, [_], rfl, ?_, ?_, ?_⟩
  · simp only [List.map_cons, List.map_nil, BitVec.toNat_ofNat, Nat.mod_eq_of_lt h3]
  · intro u hu
    rw [List.mem_singleton.mp hu]
    exact ⟨rfl, rfl⟩
  · intro i u hu
    cases i with
    | zero => cases hu; simp
    | succ i => simp at hu

/-- C97, a tag with a variable: the same, with the type of the variable, and bound to it. -/
theorem C97_ref_partial (E : DEnv) (b : DBuf) (hc : b.created = true) (name : Str) (id : Nat) (T : GoTy) (s : Slot)
    (h : ShownBy E name (cipOfGo T) s) :
    (addTagRef E b name (some ⟨true, id, .go T⟩)).1 = .ok () ∧
    Added b (addTagRef E b name (some ⟨true, id, .go T⟩)).2 [⟨name, cipOfGo T, s, some ⟨true, id, .go T⟩⟩] := by
  obtain ⟨h1, h2, h3⟩ := h
  have hr := resolve_shown h2 h3
  have ht : refType (some ⟨true, id, .go T⟩) = cipOfGo T := rfl
  unfold addTagRef
  simp only [hc, Bool.not_true, Bool.false_eq_true, if_false, ht, h1, hr]
  refine ⟨trivial, rfl, hc.symm, rfl, rfl, [_], rfl, ?_, ?_, ?_⟩
  · simp only [List.map_cons, List.map_nil, BitVec.toNat_ofNat, Nat.mod_eq_of_lt h3]
  · intro u hu
    rw [List.mem_singleton.mp hu]
    exact ⟨rfl, rfl⟩
  · intro i u hu
    cases i with
    | zero => cases hu; simp
    | succ i => simp at hu

theorem prepareTags_shown (E : DEnv) (k : Nat) (new : List NewTag)
    (h : ∀ n ∈ new, ShownBy E n.name n.typ n.slot ∧ n.var = none) :
    ∃ ts, prepareTags E (BitVec.ofNat 16 k) (new.map fun n => (n.name, n.typ)) = .ok ts ∧
      (ts.map fun t => (⟨t.name, t.typ, (t.size.toNat, t.ioi), t.var⟩ : NewTag)) = new ∧
      (∀ t ∈ ts, t.synched = false ∧ t.batch = 0) ∧
      ∀ i t, ts[i]? = some t → t.index.toNat = (k + i) % 65536 := by
  induction new generalizing k with
  | nil => exact ⟨[], rfl, rfl, by simp, by simp⟩
  | cons n new ih =>
    obtain ⟨ts, e1, e2, e3, e4⟩ := ih (k + 1) (fun m hm => h m (by simp [hm]))
    obtain ⟨⟨h1, h2, h3⟩, hv⟩ := h n (by simp)
    have hr := resolve_shown h2 h3
    have hk : BitVec.ofNat 16 k + 1 = BitVec.ofNat 16 (k + 1) := by
      apply BitVec.eq_of_toNat_eq
      simp
    rw [List.map_cons, prepareTags, h1]
    simp only [hr, hk, e1]
    refine ⟨_, rfl, ?_, ?_, ?_⟩
    · rw [List.map_cons, e2]
      simp only [BitVec.toNat_ofNat, Nat.mod_eq_of_lt h3]
      congr 1
      cases n
      simp_all
    · intro u hu
      rcases List.mem_cons.mp hu with rfl | hu
      · exact ⟨rfl, rfl⟩
      · exact e3 u hu
    · intro i u hu
      cases i with
      | zero => cases hu; simp
      | succ i =>
        rw [List.getElem?_cons_succ] at hu
        rw [e4 i u hu]
        congr 1
        omega

/-- C97, many tags: they are added at the end, in the order in which the map gives them. -/
theorem C97_adds_partial (E : DEnv) (b : DBuf) (hc : b.created = true) (new : List NewTag)
    (h : ∀ n ∈ new, ShownBy E n.name n.typ n.slot ∧ n.var = none) :
    (addTags E b (new.map fun n => (n.name, n.typ))).1 = .ok () ∧
    Added b (addTags E b (new.map fun n => (n.name, n.typ))).2 new := by
  obtain ⟨ts, e1, e2, e3, e4⟩ := prepareTags_shown E (b.tags.length + 1) new h
  unfold addTags
  simp only [hc, Bool.not_true, Bool.false_eq_true, if_false, e1]
  exact ⟨trivial, rfl, hc.symm, rfl, rfl, ts, rfl, e2, e3, e4⟩

theorem prepareTags_refused (E : DEnv) (i : BitVec 16) (tags : List (Str × Byte))
    (hs : ∀ e ∈ tags, (E.ioi e.1 e.2).safe) (h : ∃ e ∈ tags, CannotShow E e.1 e.2) :
    ∃ x, prepareTags E i tags = .err x := by
  induction tags generalizing i with
  | nil => obtain ⟨e, he, -⟩ := h; cases he
  | cons e tags ih =>
    obtain ⟨n, t⟩ := e
    rw [prepareTags]
    have hsafe := hs (n, t) (by simp)
    cases hi : E.ioi n t with
    | panic => rw [hi] at hsafe; cases hsafe
    | err x => exact ⟨_, rfl⟩
    | ok p =>
      simp only
      cases hz : resolveTypeSize E n t with
      | panic => have := resolve_safe E n t; rw [hz] at this; cases this
      | err x => exact ⟨_, rfl⟩
      | ok z =>
        simp only
        obtain ⟨e, he, hcan⟩ := h
        rcases List.mem_cons.mp he with rfl | he
        · rcases hcan with ⟨x, hx⟩ | ⟨-, h1, h2⟩
          · rw [hi] at hx; cases hx
          · rw [resolve_refused h1 h2] at hz; cases hz
        · obtain ⟨x, hx⟩ := ih (i + 1) (fun e he => hs e (by simp [he])) ⟨e, he, hcan⟩
          exact ⟨x, by rw [hx]⟩

/-- C97, refusal: when one of the tags cannot be shown, none is added and the buffer is as before. -/
theorem C97_all_or_nothing (E : DEnv) (b : DBuf) (tags : List (Str × Byte)) (hs : ∀ e ∈ tags, (E.ioi e.1 e.2).safe)
    (h : ∃ e ∈ tags, CannotShow E e.1 e.2) :
    (∃ x, (addTags E b tags).1 = .err x) ∧ (addTags E b tags).2 = b := by
  unfold addTags
  split
  · exact ⟨⟨_, rfl⟩, rfl⟩
  · obtain ⟨x, hx⟩ := prepareTags_refused E (BitVec.ofNat 16 (b.tags.length + 1)) tags hs h
    simp only [hx]
    exact ⟨⟨_, rfl⟩, trivial⟩

/-- C97, refusal of one tag, with a variable or without. -/
theorem C97_refused (E : DEnv) (b : DBuf) (name : Str) :
    (∀ t, CannotShow E name t → (∃ x, (addTag E b name t).1 = .err x) ∧ (addTag E b name t).2 = b) ∧
    ∀ v : VRef, CannotShow E name v.ty.cipType →
      (∃ x, (addTagRef E b name (some v)).1 = .err x) ∧ (addTagRef E b name (some v)).2 = b := by
  constructor
  · intro t h
    unfold addTag
    split
    · exact ⟨⟨_, rfl⟩, rfl⟩
    · rcases h with ⟨x, hx⟩ | ⟨⟨p, hp⟩, h1, h2⟩
      · simp only [hx]; exact ⟨⟨_, rfl⟩, trivial⟩
      · simp only [hp, resolve_refused h1 h2]; exact ⟨⟨_, rfl⟩, trivial⟩
  · intro v h
    have ht : refType (some v) = v.ty.cipType := rfl
    unfold addTagRef
    split
    · exact ⟨⟨_, rfl⟩, rfl⟩
    · rw [ht]
      rcases h with ⟨x, hx⟩ | ⟨⟨p, hp⟩, h1, h2⟩
      · simp only [hx]; exact ⟨⟨_, rfl⟩, trivial⟩
      · simp only [hp, resolve_refused h1 h2]; exact ⟨⟨_, rfl⟩, trivial⟩

/-- C97, a buffer that is not there takes nothing. -/
theorem C97_not_created (E : DEnv) (b : DBuf) (hc : b.created = false) :
    (∀ name t, (∃ x, (addTag E b name t).1 = .err x) ∧ (addTag E b name t).2 = b) ∧
    (∀ name v, (∃ x, (addTagRef E b name v).1 = .err x) ∧ (addTagRef E b name v).2 = b) ∧
    (∀ tags, (∃ x, (addTags E b tags).1 = .err x) ∧ (addTags E b tags).2 = b) ∧
    (∀ ord g args, (∃ x, (addTagGroup E ord b g args).1 = .err x) ∧ (addTagGroup E ord b g args).2 = b) ∧
    (∀ ord addr tags direct args, (∃ x, (addTaggedStruct E ord b addr tags direct args).1 = .err x) ∧
      (addTaggedStruct E ord b addr tags direct args).2 = b) := by
  refine ⟨?_, ?_, ?_, ?_, ?_⟩ <;> intros <;>
    simp only [addTag, addTagRef, addTags, addTagGroup, addTaggedStruct, hc, Bool.not_false, if_true] <;>
    exact ⟨⟨_, rfl⟩, trivial⟩

/-- C97, structures: when every tagged field can be shown, all are added, each with its slot and bound to its field (the
fields as in C74). -/
theorem C97_struct_partial (E : DEnv) (ord : List (Str × Byte) → List (Str × Byte)) (hord : ∀ l, (ord l).Perm l)
    (b : DBuf) (hc : b.created = true) (args : List Str) (fs : List (Option Str × FVal × List (Str × GoTy × Nat)))
    (hf : ∀ f ∈ fs, FieldVars args f.1 f.2.1 f.2.2)
    (hn : (((fs.map fun f => f.2.2).flatten).map Prod.fst).Nodup)
    (hnew : ∀ x ∈ (fs.map fun f => f.2.2).flatten, ∀ t ∈ b.tags, t.name ≠ x.1) (slot : Str → Slot)
    (hs : ∀ x ∈ (fs.map fun f => f.2.2).flatten, ShownBy E x.1 (cipOfGo x.2.1) (slot x.1)) :
    (addTaggedStruct E ord b true (fs.map Prod.fst) (fs.map fun f => f.2.1) args).1 = .ok () ∧
    ∃ new, (addTaggedStruct E ord b true (fs.map Prod.fst) (fs.map fun f => f.2.1) args).2.tags = b.tags ++ new ∧
      (new.map fun t => (⟨t.name, t.typ, (t.size.toNat, t.ioi), t.var⟩ : NewTag)).Perm
        ((fs.map fun f => f.2.2).flatten.map fun x =>
          ⟨x.1, cipOfGo x.2.1, slot x.1, some ⟨true, x.2.2, .go x.2.1⟩⟩) := by
  have hok : (addTaggedStruct E ord b true (fs.map Prod.fst) (fs.map fun f => f.2.1) args).1 = .ok () ∧
      ∀ t ∈ (addTaggedStruct E ord b true (fs.map Prod.fst) (fs.map fun f => f.2.1) args).2.tags,
        (∃ u ∈ b.tags, u.name = t.name) ∨ (t.size.toNat, t.ioi) = slot t.name := by
    obtain ⟨ex', hx⟩ := taggedFields_plain args (fs.map fun f => f.2.1) fs [] (by simp) hf [] (by simpa using hn)
      b.expansions
    simp only [List.nil_append, List.map_nil, List.length_nil] at hx
    generalize hbs : (fs.map fun f => f.2.2).flatten = bs at hx hs
    unfold addTaggedStruct
    simp only [hc, Bool.not_true, Bool.false_eq_true, if_false, hx]
    unfold addTags
    simp only [hc, Bool.not_true, Bool.false_eq_true, if_false]
    have hmem : ∀ e ∈ ord (bs.map typeEntry), ∃ x ∈ bs, typeEntry x = e := fun e he =>
      List.mem_map.mp ((hord _).mem_iff.mp he)
    obtain ⟨ts, hts⟩ := prepareTags_total (E := E) (l := ord (bs.map typeEntry)) (BitVec.ofNat 16 (b.tags.length + 1))
      (by
        intro e he
        obtain ⟨x, hx', rfl⟩ := hmem e he
        obtain ⟨s1, s2, s3⟩ := hs x hx'
        exact ⟨⟨_, s1⟩, _, resolve_shown s2 s3⟩)
    obtain ⟨h1, -, h3⟩ := prepareTags_spec E _ _ ts hts
    simp only [hts]
    refine ⟨trivial, ?_⟩
    intro t ht
    obtain ⟨u, hu, rfl⟩ := List.mem_map.mp ht
    obtain ⟨j1, -, -, -, j5, j6⟩ := bindVars_fields (bs.map ptrEntry) u
    rcases List.mem_append.mp hu with hu | hu
    · exact .inl ⟨u, hu, j5.symm⟩
    · right
      obtain ⟨-, -, k1, k2⟩ := h3 u hu
      obtain ⟨x, hx', he⟩ := hmem (u.name, u.typ) (h1 ▸ List.mem_map_of_mem (f := fun t : DTag => (t.name, t.typ)) hu)
      simp only [typeEntry, Prod.mk.injEq] at he
      obtain ⟨s1, s2, s3⟩ := hs x hx'
      rw [he.1] at s1 s2 s3
      rw [he.2] at s1 s2
      rw [k1] at s1
      have hz := resolve_shown s2 s3
      rw [k2] at hz
      have e1 : ((bindVars (bs.map ptrEntry) u).size.toNat, (bindVars (bs.map ptrEntry) u).ioi) = (u.size.toNat, u.ioi) :=
        j1
      rw [e1, j5]
      have hz' : u.size.toNat = (slot u.name).1 := by
        rw [Res.ok.inj hz]
        simp only [BitVec.toNat_ofNat, Nat.mod_eq_of_lt s3]
      rw [hz', Res.ok.inj s1]
  refine ⟨hok.1, ?_⟩
  obtain ⟨new, e1, e2, -⟩ := C74_struct_added_partial E ord hord b hc args fs hf hn hnew hok.1
  refine ⟨new, e1, ?_⟩
  have hslot : ∀ t ∈ new, (t.size.toNat, t.ioi) = slot t.name := by
    intro t ht
    rcases hok.2 t (e1 ▸ List.mem_append_right _ ht) with ⟨u, hu, he⟩ | h
    · exfalso
      have := e2.mem_iff.mp (List.mem_map_of_mem (f := fun t : DTag => (t.name, t.typ, t.var)) ht)
      obtain ⟨x, hx, hx'⟩ := List.mem_map.mp this
      simp only [Prod.mk.injEq] at hx'
      exact hnew x hx u hu (he.trans hx'.1.symm)
    · exact h
  have h2 := e2.map fun e : Str × Byte × Option VRef => (⟨e.1, e.2.1, slot e.1, e.2.2⟩ : NewTag)
  rw [List.map_map, List.map_map] at h2
  refine (List.Perm.of_eq ?_).trans h2
  apply List.map_congr_left
  intro t ht
  simp only [Function.comp_def, hslot t ht]

/-- C97 is false for names for which building the path crashes (C55): so does adding them. -/
theorem C97_crash (E : DEnv) (b : DBuf) (hc : b.created = true) (name : Str) (t : Byte) (h : E.ioi name t = .panic)
    (pre : List NewTag) (hp : ∀ n ∈ pre, ShownBy E n.name n.typ n.slot ∧ n.var = none) (post : List (Str × Byte)) :
    (addTag E b name t).1 = .panic ∧
    (addTags E b ((pre.map fun n => (n.name, n.typ)) ++ (name, t) :: post)).1 = .panic := by
  have hprep : ∀ i : BitVec 16, prepareTags E i ((pre.map fun n => (n.name, n.typ)) ++ (name, t) :: post) = .panic := by
    induction pre with
    | nil =>
      intro i
      rw [List.map_nil, List.nil_append, prepareTags, h]
    | cons n pre ih =>
      intro i
      obtain ⟨⟨h1, h2, h3⟩, -⟩ := hp n (by simp)
      rw [List.map_cons, List.cons_append, prepareTags, h1]
      simp only [resolve_shown h2 h3, ih (fun m hm => hp m (by simp [hm])) (i + 1)]
  unfold addTag addTags
  simp only [hc, Bool.not_true, Bool.false_eq_true, if_false, h, hprep]
  exact ⟨trivial, trivial⟩

/-- C97 is false for structures of 65536 bytes and more: the slot gets the size without its upper bits. -/
theorem C97_large_structure (E : DEnv) (b : DBuf) (hc : b.created = true) (name : Str) (p : Bytes) (n : BitVec 32)
    (hp : E.ioi name tStruct = .ok p) (hu : E.udtSize (toLower name) = some n) (hn : 65536 ≤ n.toNat) :
    (addTag E b name tStruct).1 = .ok () ∧
    ∃ t, (addTag E b name tStruct).2.tags = b.tags ++ [t] ∧ t.size.toNat = n.toNat % 65536 ∧ t.size.toNat ≠ n.toNat := by
  have hr : resolveTypeSize E name tStruct = .ok (n.setWidth 16) := by
    unfold resolveTypeSize
    rw [if_pos (by decide), hu]
    simp only
    rw [if_pos (by omega)]
  unfold addTag
  simp only [hc, Bool.not_true, Bool.false_eq_true, if_false, hp, hr]
  refine ⟨trivial, _, rfl, ?_, ?_⟩
  · simp
  · simp only [BitVec.toNat_setWidth]
    omega

/-- C97 is false for the time of day (a number of 4 bytes), for which 6 bytes are asked, and for a date with time (6
bytes), which is refused. -/
theorem C97_times (E : DEnv) (b : DBuf) (hc : b.created = true) (name : Str) (p : Bytes)
    (hp : ∀ t, E.ioi name t = .ok p) :
    (∃ t, (addTag E b name 0xCE#8).2.tags = b.tags ++ [t] ∧ t.size = 6) ∧
    (∃ x, (addTag E b name 0xCF#8).1 = .err x) := by
  have h1 : resolveTypeSize E name 0xCE#8 = .ok 6 := rfl
  have h2 : resolveTypeSize E name 0xCF#8 = .err .fail := rfl
  unfold addTag
  simp only [hc, Bool.not_true, Bool.false_eq_true, if_false, hp, h1, h2]
  exact ⟨⟨_, rfl, rfl⟩, _, rfl⟩

/-- A client that knows two tags of its own string type. -/
def tableEnv : DEnv := {
  ioi := fun n t => match symbolicIOI (toLower n) t with
    | .ok i => .ok i.buffer
    | .err e => .err e
    | .panic => .panic
  udtSize := fun n => if n = str "name" then some 24 else none }

/-- Three tags are added in one go; the size of the string is the one the controller told. -/
example : ShownBy tableEnv (str "Name") tSTRING (24, [0x91#8, 4#8, 0x6E#8, 0x61#8, 0x6D#8, 0x65#8]) ∧
    ShownBy tableEnv (str "Text") tSTRING (88, [0x91#8, 4#8, 0x74#8, 0x65#8, 0x78#8, 0x74#8]) ∧
    ShownBy tableEnv (str "A[3]") tREAL (4, [0x91#8, 1#8, 0x61#8, 0#8, 0x28#8, 3#8]) ∧
    CannotShow tableEnv (str "A[3]") tUnknown ∧
    tableEnv.ioi (str "A]") tREAL = .panic := by
  refine ⟨by unfold ShownBy; decide +kernel, by unfold ShownBy; decide +kernel, by unfold ShownBy; decide +kernel, ?_,
    by decide +kernel⟩
  · exact .inr ⟨⟨_, rfl⟩, by decide +kernel, by decide⟩

example : ((addTags tableEnv (DBuf.new 7) [(str "Name", tSTRING), (str "A[3]", tREAL)]).2.tags.map
      fun t => (t.name, t.size, t.index)) = [(str "Name", 24#16, 1#16), (str "A[3]", 4#16, 2#16)] ∧
    (addTags tableEnv (DBuf.new 7) [(str "Name", tSTRING), (str "A[3]", tUnknown)]) = (.err .fail, DBuf.new 7) := by
  decide +kernel

end Gologix
