import Verif.Spec.TagGroup
import Verif.Props.DataTable
import Verif.Props.Ioi
/-
C45: tag groups.
-/
set_option linter.unusedSimpArgs false

namespace Gologix
open Spec

/-- The number a text of digits stands for. -/
def digitsVal (s : Str) : Nat := s.foldl (fun a b => 10 * a + (b.toNat - 48)) 0

theorem digitsVal_decAux {f n : Nat} (h : n < f) : digitsVal (decAux f n) = n := by
  induction f generalizing n with
  | zero => omega
  | succ f ih =>
    unfold decAux
    split
    · rename_i h1
      simp [digitsVal]
      omega
    · rename_i h1
      have := ih (n := n / 10) (by omega)
      unfold digitsVal at this ⊢
      rw [List.foldl_append, this]
      have hm := digit_toNat (Nat.mod_lt n (show 10 > 0 by decide))
      simp only [List.foldl_cons, List.foldl_nil, hm]
      omega

theorem dec_inj {a b : Nat} (h : dec a = dec b) : a = b := by
  have := congrArg digitsVal h
  unfold dec at this
  rwa [digitsVal_decAux (Nat.lt_succ_self _), digitsVal_decAux (Nat.lt_succ_self _)] at this

theorem renderIdx_ne {is : List Nat} (h : is ≠ []) :
    renderIdx is = [0x5B#8] ++ joinWith 0x2C#8 (is.map dec) ++ [0x5D#8] := by simp [renderIdx, h]

theorem map_dec_inj {a b : List Nat} (h : a.map dec = b.map dec) : a = b := by
  induction a generalizing b with
  | nil => cases b with
    | nil => rfl
    | cons _ _ => simp at h
  | cons x a ih => cases b with
    | nil => simp at h
    | cons y b =>
      simp only [List.map_cons, List.cons.injEq] at h
      rw [dec_inj h.1, ih h.2]

theorem renderIdx_inj {a b : List Nat} (ha : a ≠ []) (hb : b ≠ []) (h : renderIdx a = renderIdx b) : a = b := by
  rw [renderIdx_ne ha, renderIdx_ne hb] at h
  have h2 := List.append_cancel_right h
  have h3 := List.append_cancel_left h2
  have key : ∀ {x : List Nat}, x ≠ [] → splitOn 0x2C#8 (joinWith 0x2C#8 (x.map dec)) = x.map dec := by
    intro x hx
    refine splitOn_joinWith (by simpa using hx) ?_
    intro p hp
    obtain ⟨i, _, rfl⟩ := List.mem_map.mp hp
    exact comma_not_dec i
  have := congrArg (splitOn 0x2C#8) h3
  rw [key ha, key hb] at this
  exact map_dec_inj this

theorem parseTagName_indexed_ok {n : Str} {is : List Nat} (hne : is ≠ []) (h : ∀ i ∈ is, i < 2 ^ 63) :
    (parseTagName (n ++ renderIdx is)).2 = true := by
  have e : n ++ renderIdx is = n ++ [0x5B#8] ++ joinWith 0x2C#8 (is.map dec) ++ [0x5D#8] := by
    simp [renderIdx, hne]
  have hb : bitAccessText (n ++ renderIdx is) = none := by
    rw [e]; exact bitAccessText_none_of_last (by decide)
  have ha : arrayAccessText (n ++ renderIdx is) = some (joinWith 0x2C#8 (is.map dec)) := by
    rw [e]; exact arrayAccessText_indexed (idxText_chars is)
  have hs : splitOn 0x2C#8 (joinWith 0x2C#8 (is.map dec)) = is.map dec := by
    apply splitOn_joinWith (by simpa using hne)
    intro p hp; obtain ⟨i, _, rfl⟩ := List.mem_map.mp hp; exact comma_not_dec i
  simp only [parseTagName, hb, ha, hs, parseIndices_dec h]
  simp

theorem beforeBracket_split (n s : Str) (h : 0x5B#8 ∉ s) : beforeBracket (n ++ 0x5B#8 :: s) = some n := by
  unfold beforeBracket
  have : (n ++ 0x5B#8 :: s).reverse = s.reverse ++ 0x5B#8 :: n.reverse := by simp
  rw [this]
  have hd : ∀ (r t : Str), 0x5B#8 ∉ r → (r ++ 0x5B#8 :: t).dropWhile (· ≠ 0x5B#8) = 0x5B#8 :: t := by
    intro r t hr
    induction r with
    | nil => simp [List.dropWhile]
    | cons c r ih =>
      rw [List.cons_append, List.dropWhile_cons_of_pos]
      · exact ih (fun hm => hr (by simp [hm]))
      · simp only [ne_eq, decide_not, Bool.not_eq_eq_eq_not, Bool.not_true, decide_eq_false_iff_not]
        intro hc
        exact hr (by simp [hc])
  rw [hd _ _ (by simpa using h)]
  simp

theorem decInt_ofNat (i : Nat) : decInt (Int.ofNat i) = dec i := by
  unfold decInt
  rw [if_neg (by simp)]
  rfl

theorem bracket_not_idx (is : List Nat) : 0x5B#8 ∉ joinWith 0x2C#8 (is.map dec) ++ [0x5D#8] := by
  intro h
  rcases List.mem_append.mp h with h | h
  · exact absurd (idxText_chars is _ h) (by decide)
  · simp at h

/-- C45, expansion: an array member names each of its elements once, in order, with distinct names, and the
named element is the first. -/
theorem C45_expand_partial {base : Str} {count : Int} {names : List Str} (h : Expands base count names) :
    expandArrayTag base count = names ∧ names.Nodup ∧ (names.length : Int) = max 1 count ∧ names[0]? = some base := by
  cases h with
  | single hc =>
    refine ⟨?_, by simp, by simp; omega, rfl⟩
    unfold expandArrayTag
    rw [if_pos hc]
  | array n is k c h2 hc hb hi hk =>
    subst hb hc
    have hlt : ∀ i ∈ is ++ [k], i < 2 ^ 63 := by
      intro i hm
      rcases List.mem_append.mp hm with hm | hm
      · exact hi i hm
      · rw [List.mem_singleton.mp hm]; omega
    refine ⟨?_, ?_, by simp; omega, ?_⟩
    · unfold expandArrayTag
      rw [if_neg (show ¬ (c : Int) ≤ 1 by omega)]
      have h1 := parseTagName_indexed (n := n) (is := is ++ [k]) (by simp) hlt
      have h2 := parseTagName_indexed_ok (n := n) (is := is ++ [k]) (by simp) hlt
      generalize hg : parseTagName (n ++ renderIdx (is ++ [k])) = g at h1 h2
      obtain ⟨tag, ok⟩ := g
      simp only at h1 h2
      subst h2
      have hbb : beforeBracket (n ++ renderIdx (is ++ [k])) = some n := by
        rw [renderIdx_ne (by simp)]
        simp only [List.append_assoc]
        exact beforeBracket_split _ _ (bracket_not_idx _)
      have hl : tag.arrayOrder.getLast? = some (Int.ofNat k) := by rw [h1]; simp
      have hdl : tag.arrayOrder.dropLast = is.map Int.ofNat := by rw [h1]; simp
      simp only [hl, hdl, hbb, Int.toNat_natCast]
      apply List.map_congr_left
      intro j hj
      have hj := List.mem_range.mp hj
      have hw : wrapInt (Int.ofNat k + (j : Int)) = Int.ofNat (k + j) := by
        unfold wrapInt
        have : Int.ofNat k + (j : Int) = ((k + j : Nat) : Int) := by simp
        rw [this]
        have h3 : k + j < 2 ^ 63 := by omega
        show (((k + j : Nat) : Int) + 2 ^ 63) % 2 ^ 64 - 2 ^ 63 = ((k + j : Nat) : Int)
        omega
      rw [hw, decInt_ofNat, renderIdx_ne (by simp), List.map_map,
        show (decInt ∘ Int.ofNat) = dec from funext decInt_ofNat]
      simp [List.append_assoc]
    · rw [List.nodup_iff_pairwise_ne, List.pairwise_map]
      refine List.nodup_range.imp ?_
      intro a b hab he
      have := renderIdx_inj (by simp) (by simp) (List.append_cancel_left he)
      simp at this
      exact hab this
    · simp only [List.getElem?_map]
      rw [List.getElem?_range (by omega)]
      simp

example : expandArrayTag (str "STATS[1,0]") 3 = [str "STATS[1,0]", str "STATS[1,1]", str "STATS[1,2]"] := by
  decide +kernel

/-- The theorem's conditions hold for it. -/
example : Expands (str "STATS[1,0]") 3 ((List.range 3).map fun j => str "STATS" ++ renderIdx ([1] ++ [0 + j])) :=
  .array (str "STATS") [1] 0 3 (by decide) rfl (by decide +kernel) (by decide) (by decide)

/-- C45 is false for an array member whose name does not end in an index: all its elements are the tag
itself. -/
theorem C45_unindexed_repeats (base : Str) (c : Nat) (h2 : 2 ≤ c) (h : (parseTagName base).1.arrayOrder = []) :
    expandArrayTag base c = List.replicate c base ∧ ¬ (expandArrayTag base c).Nodup := by
  have : expandArrayTag base c = List.replicate c base := by
    unfold expandArrayTag
    rw [if_neg (show ¬ (c : Int) ≤ 1 by omega)]
    generalize parseTagName base = g at h
    obtain ⟨tag, ok⟩ := g
    simp only at h
    simp only [h, List.getLast?_nil, Int.toNat_natCast]
  refine ⟨this, ?_⟩
  rw [this]
  intro hn
  match c, h2 with
  | c + 2, _ =>
    rw [List.replicate_succ, List.replicate_succ] at hn
    simp at hn

example : expandArrayTag (str "STATS") 3 = List.replicate 3 (str "STATS") := by decide +kernel
example : expandArrayTag (str "LINE[2].SPEED") 2 = List.replicate 2 (str "LINE[2].SPEED") := by decide +kernel
example : expandArrayTag (str "STATS[1, 0]") 2 = List.replicate 2 (str "STATS[1, 0]") := by decide +kernel

/-! ### Groups -/

theorem mapPut_keys {α : Type} (m : List (Str × α)) (k : Str) (v : α) (x : Str) :
    x ∈ (mapPut m k v).map Prod.fst ↔ x = k ∨ x ∈ m.map Prod.fst := by
  unfold mapPut
  simp only [List.map_append, List.mem_append, List.mem_map, List.mem_filter, List.map_cons, List.map_nil,
    List.mem_singleton]
  constructor
  · rintro (⟨e, ⟨h1, _⟩, rfl⟩ | rfl)
    · exact Or.inr ⟨e, h1, rfl⟩
    · exact Or.inl rfl
  · rintro (rfl | ⟨e, h1, rfl⟩)
    · exact Or.inr rfl
    · by_cases hk : e.1 = k
      · exact Or.inr hk
      · exact Or.inl ⟨e, ⟨h1, by simpa using hk⟩, rfl⟩

theorem mapPut_nodup {α : Type} {m : List (Str × α)} (h : (m.map Prod.fst).Nodup) (k : Str) (v : α) :
    ((mapPut m k v).map Prod.fst).Nodup := by
  unfold mapPut
  rw [List.map_append, List.nodup_append]
  refine ⟨h.sublist (List.Sublist.map _ List.filter_sublist), by simp, ?_⟩
  intro a ha b hb he
  obtain ⟨e, h1, rfl⟩ := List.mem_map.mp ha
  have := (List.mem_filter.mp h1).2
  simp only [List.map_cons, List.map_nil, List.mem_singleton] at hb
  subst hb
  simp [he] at this

theorem puts_keys {α : Type} (ws m : List (Str × α)) (x : Str) :
    x ∈ (puts ws m).map Prod.fst ↔ x ∈ ws.map Prod.fst ∨ x ∈ m.map Prod.fst := by
  induction ws generalizing m with
  | nil => simp [puts]
  | cons w ws ih =>
    show x ∈ (puts ws (mapPut m w.1 w.2)).map Prod.fst ↔ _
    rw [ih, mapPut_keys, List.map_cons, List.mem_cons]
    constructor
    · rintro (h | h | h)
      · exact Or.inl (Or.inr h)
      · exact Or.inl (Or.inl h)
      · exact Or.inr h
    · rintro ((h | h) | h)
      · exact Or.inr (Or.inl h)
      · exact Or.inl h
      · exact Or.inr (Or.inr h)

theorem puts_nodup {α : Type} (ws : List (Str × α)) {m : List (Str × α)} (h : (m.map Prod.fst).Nodup) :
    ((puts ws m).map Prod.fst).Nodup := by
  induction ws generalizing m with
  | nil => exact h
  | cons w ws ih => exact ih (mapPut_nodup h _ _)

/-- With distinct keys, the entries stay as they are. -/
theorem puts_mem {α : Type} {ws m : List (Str × α)} {e : Str × α} (h : e ∈ puts ws m) : e ∈ ws ∨ e ∈ m := by
  induction ws generalizing m with
  | nil => exact Or.inr h
  | cons w ws ih =>
    rcases ih h with h | h
    · exact Or.inl (by simp [h])
    · unfold mapPut at h
      rcases List.mem_append.mp h with h | h
      · exact Or.inr (List.mem_filter.mp h).1
      · rw [List.mem_singleton.mp h]; exact Or.inl (by simp)

theorem nodup_map_inj {α β : Type} {f : α → β} {l : List α} (h : (l.map f).Nodup) {a b : α} (ha : a ∈ l) (hb : b ∈ l)
    (he : f a = f b) : a = b := by
  rw [List.nodup_iff_pairwise_ne, List.pairwise_map] at h
  exact pairwise_eq h (fun h => h.symm) ha hb (fun hne => hne he)

theorem assoc_mem {α : Type} {m : List (Str × α)} {k : Str} {v : α} (h : m.lookup k = some v) : (k, v) ∈ m := by
  induction m with
  | nil => cases h
  | cons e m ih =>
    obtain ⟨a, b⟩ := e
    rw [List.lookup_cons] at h
    cases hk : (k == a) with
    | true =>
      rw [hk] at h
      simp only [Option.some.injEq] at h
      rw [beq_iff_eq.mp hk, h]
      simp
    | false =>
      rw [hk] at h
      exact List.mem_cons_of_mem _ (ih h)

/-- The names of the tags of a definition, as the loop makes them. -/
def namesOf (args : List Str) (d : TagDef) : List Str :=
  if d.elements > 1 then expandArrayTag (formatName d.name args) d.elements else [formatName d.name args]

theorem namesOf_expands {args : List Str} {d : TagDef} {names : List Str}
    (h : Expands (formatName d.name args) d.elements names) : namesOf args d = names := by
  have := (C45_expand_partial h).1
  unfold namesOf
  split
  · exact this
  · unfold expandArrayTag at this
    rwa [if_pos (by omega)] at this

theorem expandDefs_puts (args : List Str) (defs : List TagDef) (ex : List (Str × List Str)) (m : List (Str × Byte)) :
    expandDefs args defs ex m = (puts (defs.map fun d => (formatName d.name args, namesOf args d)) ex,
      puts (defs.flatMap fun d => (namesOf args d).map fun n => (n, d.typ)) m) := by
  induction defs generalizing ex m with
  | nil => rfl
  | cons d ds ih =>
    have hf : ∀ (names : List Str) (m : List (Str × Byte)), names.foldl (fun m n => mapPut m n d.typ) m =
        puts (names.map fun n => (n, d.typ)) m := by
      intro names m
      unfold puts
      rw [List.foldl_map]
    rw [expandDefs, ih]
    rw [hf, List.map_cons, List.flatMap_cons, puts_append]
    rfl

theorem prepareTags_names {E : DEnv} {i : BitVec 16} {l : List (Str × Byte)} {ts : List DTag}
    (h : prepareTags E i l = .ok ts) : ts.map (fun t => (t.name, t.typ)) = l := by
  induction l generalizing i ts with
  | nil => cases h; rfl
  | cons e l ih =>
    obtain ⟨n, t⟩ := e
    rw [prepareTags] at h
    split at h
    · split at h
      · split at h
        · rename_i _ _ _ hr
          cases h
          simp only [List.map_cons]
          rw [ih hr]
        · cases h
        · cases h
      · cases h
      · cases h
    · cases h
    · cases h

theorem prepareTags_total {E : DEnv} {l : List (Str × Byte)} (i : BitVec 16)
    (h : ∀ e ∈ l, (∃ p, E.ioi e.1 e.2 = .ok p) ∧ ∃ z, resolveTypeSize E e.1 e.2 = .ok z) :
    ∃ ts, prepareTags E i l = .ok ts := by
  induction l generalizing i with
  | nil => exact ⟨_, rfl⟩
  | cons e l ih =>
    obtain ⟨⟨p, hp⟩, z, hz⟩ := h e (by simp)
    obtain ⟨ts, hts⟩ := ih (i + 1) (fun e he => h e (by simp [he]))
    obtain ⟨n, t⟩ := e
    rw [prepareTags, hp]
    simp only at hz ⊢
    rw [hz]
    simp only [hts]
    exact ⟨_, rfl⟩

/-- The value of a member: of the tag, or of all its elements in order. -/
def gathered (val : Str → Scal) (names : List Str) : GVal :=
  match names.map val with
  | [v] => .one v
  | vs => .many vs

theorem collapse_all (raw : List (Str × Scal)) (val : Str → Scal) (names : List Str)
    (h : ∀ n ∈ names, raw.lookup n = some (val n)) : collapse raw names = .ok (names.map val) := by
  induction names with
  | nil => rfl
  | cons n ns ih =>
    rw [collapse, h n (by simp)]
    simp only [ih (fun x hx => h x (by simp [hx])), List.map_cons]

theorem collapseAll_puts (raw : List (Str × Scal)) (val : Str → Scal) (ex : List (Str × List Str))
    (m : List (Str × GVal)) (hne : ∀ e ∈ ex, e.2 ≠ []) (h : ∀ e ∈ ex, ∀ n ∈ e.2, raw.lookup n = some (val n)) :
    collapseAll raw ex m = .ok (puts (ex.map fun e => (e.1, gathered val e.2)) m) := by
  induction ex generalizing m with
  | nil => rfl
  | cons e ex ih =>
    obtain ⟨base, names⟩ := e
    have ih' := fun m => ih m (fun e he => hne e (by simp [he])) (fun e he => h e (by simp [he]))
    rw [collapseAll, collapse_all raw val names (h (base, names) (by simp))]
    rw [List.map_cons]
    have hne' := hne (base, names) (by simp)
    match names, hne' with
    | [n], _ => exact ih' _
    | n :: n' :: ns, _ => exact ih' _

/-- C45: a group has the members it was made of, in order; members without a number of elements have one. -/
theorem C45_new_group (defs : List TagDef) :
    (newTagGroup defs).length = defs.length ∧
    ∀ (i : Nat) (d : TagDef), defs[i]? = some d → ∃ g, (newTagGroup defs)[i]? = some g ∧ g.name = d.name ∧ g.typ = d.typ ∧
      g.elements = max 1 d.elements := by
  unfold newTagGroup
  refine ⟨by simp, fun i d h => ?_⟩
  rw [List.getElem?_map, h]
  by_cases h0 : d.elements ≤ 0
  · exact ⟨{ d with elements := 1 }, by simp [h0], rfl, rfl, by simp; omega⟩
  · exact ⟨d, by simp [h0], rfl, rfl, by omega⟩

example : newTagGroup [⟨str "A", tDINT, 0⟩, ⟨str "B[0]", tINT, 4⟩] = [⟨str "A", tDINT, 1⟩, ⟨str "B[0]", tINT, 4⟩] := by decide

/-- C45, a group in a new buffer: every member is a tag, or an array member named by its first element; tags
named twice have one type.  Then the group is taken; exactly the tags the members stand for are registered,
each of them once; and from the values of the registered tags the result has for each member the value of
the tag, or of all elements in order. -/
theorem C45_group_partial (E : DEnv) (ord : List (Str × Byte) → List (Str × Byte)) (hord : ∀ l, (ord l).Perm l)
    (inst : BitVec 16) (args : List Str) (ms : List (TagDef × List Str))
    (hms : ∀ m ∈ ms, Expands (formatName m.1.name args) m.1.elements m.2)
    (hbase : (ms.map fun m => formatName m.1.name args).Nodup)
    (hE : ∀ m ∈ ms, ∀ n ∈ m.2, (∃ p, E.ioi n m.1.typ = .ok p) ∧ ∃ z, resolveTypeSize E n m.1.typ = .ok z) :
    ∃ b, addTagGroup E ord (DBuf.new inst) (ms.map Prod.fst) args = (.ok (), b) ∧
      (∀ n, n ∈ b.tags.map (·.name) ↔ ∃ m ∈ ms, n ∈ m.2) ∧ (b.tags.map (·.name)).Nodup ∧
      (∀ t ∈ b.tags, ∃ m ∈ ms, t.name ∈ m.2 ∧ t.typ = m.1.typ) ∧
      ∀ (raw : List (Str × Scal)) (val : Str → Scal), (∀ n ∈ b.tags.map (·.name), raw.lookup n = some (val n)) →
        ∃ r, typedResult raw b.expansions = .ok r ∧
          ∀ m ∈ ms, r.lookup (formatName m.1.name args) = some (gathered val m.2) := by
  have hn : ∀ m ∈ ms, namesOf args m.1 = m.2 := fun m hm => namesOf_expands (hms m hm)
  have hfm : (ms.map Prod.fst).flatMap (fun d => (namesOf args d).map fun n => (n, d.typ)) =
      ms.flatMap fun m => m.2.map fun n => (n, m.1.typ) := by
    rw [List.flatMap_map]
    clear hbase hE hms
    induction ms with
    | nil => rfl
    | cons m ms ih =>
      rw [List.flatMap_cons, List.flatMap_cons, ih (fun m hm => hn m (by simp [hm])), hn m (by simp)]
  have hex : (ms.map Prod.fst).map (fun d => (formatName d.name args, namesOf args d)) =
      ms.map fun m => (formatName m.1.name args, m.2) := by
    rw [List.map_map]
    exact List.map_congr_left fun m hm => by simp [hn m hm]
  let tm := puts (ms.flatMap fun m => m.2.map fun n => (n, m.1.typ)) ([] : List (Str × Byte))
  have htm : ∀ e ∈ tm, ∃ m ∈ ms, e.1 ∈ m.2 ∧ e.2 = m.1.typ := by
    intro e he
    rcases puts_mem he with he | he
    · obtain ⟨m, hm, he⟩ := List.mem_flatMap.mp he
      obtain ⟨n, hn, rfl⟩ := List.mem_map.mp he
      exact ⟨m, hm, hn, rfl⟩
    · cases he
  obtain ⟨ts, hts⟩ := prepareTags_total (E := E) (l := ord tm) (BitVec.ofNat 16 (0 + 1)) (by
    intro e he
    obtain ⟨m, hm, h1, h2⟩ := htm e ((hord tm).mem_iff.mp he)
    rw [h2]
    exact hE m hm e.1 h1)
  have hnames := prepareTags_names hts
  have hmap : ts.map (·.name) = (ord tm).map Prod.fst := by
    rw [← hnames, List.map_map]
    rfl
  refine ⟨⟨inst, ts, puts (ms.map fun m => (formatName m.1.name args, m.2)) [], true, false⟩, ?_, ?_, ?_, ?_, ?_⟩
  · unfold addTagGroup
    rw [expandDefs_puts, hfm, hex]
    simp only [DBuf.new, Bool.not_true, Bool.false_eq_true, if_false]
    unfold addTags
    simp only [Bool.not_true, Bool.false_eq_true, if_false, List.length_nil]
    rw [hts]
    rfl
  · intro n
    show n ∈ ts.map _ ↔ _
    rw [hmap, ((hord tm).map Prod.fst).mem_iff, puts_keys]
    simp only [List.map_nil, List.not_mem_nil, or_false, List.mem_map, List.mem_flatMap]
    constructor
    · rintro ⟨e, ⟨m, hm, x, hx, rfl⟩, rfl⟩
      exact ⟨m, hm, hx⟩
    · rintro ⟨m, hm, hx⟩
      exact ⟨(n, m.1.typ), ⟨m, hm, n, hx, rfl⟩, rfl⟩
  · show (ts.map _).Nodup
    rw [hmap, ((hord tm).map Prod.fst).nodup_iff]
    exact puts_nodup _ (by simp)
  · intro t ht
    have : (t.name, t.typ) ∈ ord tm := by
      rw [← hnames]
      exact List.mem_map_of_mem (f := fun t : DTag => (t.name, t.typ)) ht
    exact htm _ ((hord tm).mem_iff.mp this)
  · intro raw val hval
    have hval' : ∀ m ∈ ms, ∀ n ∈ m.2, raw.lookup n = some (val n) := by
      intro m hm n hx
      refine hval n ?_
      show n ∈ ts.map _
      rw [hmap, ((hord tm).map Prod.fst).mem_iff, puts_keys]
      refine Or.inl (List.mem_map.mpr ⟨(n, m.1.typ), ?_, rfl⟩)
      exact List.mem_flatMap.mpr ⟨m, hm, List.mem_map.mpr ⟨n, hx, rfl⟩⟩
    let ex := puts (ms.map fun m => (formatName m.1.name args, m.2)) ([] : List (Str × List Str))
    have hexm : ∀ e ∈ ex, ∃ m ∈ ms, e = (formatName m.1.name args, m.2) := by
      intro e he
      rcases puts_mem he with he | he
      · obtain ⟨m, hm, rfl⟩ := List.mem_map.mp he
        exact ⟨m, hm, rfl⟩
      · cases he
    have hcol := collapseAll_puts raw val ex [] (by
        intro e he
        obtain ⟨m, hm, rfl⟩ := hexm e he
        have := (C45_expand_partial (hms m hm)).2.2.2
        intro h0
        simp only at h0
        rw [h0] at this
        cases this) (by
        intro e he
        obtain ⟨m, hm, rfl⟩ := hexm e he
        exact hval' m hm)
    have hkey : ∀ m ∈ ms, (formatName m.1.name args, m.2) ∈ ex := by
      intro m hm
      have hl := puts_lookup_some (ms.map fun m => (formatName m.1.name args, m.2)) [] (formatName m.1.name args) m.2
        (List.mem_map.mpr ⟨m, hm, rfl⟩) (by
          intro e he hek
          obtain ⟨m', hm', rfl⟩ := List.mem_map.mp he
          have : m' = m := by
            exact nodup_map_inj hbase hm' hm hek
          rw [this])
      exact assoc_mem hl
    refine ⟨_, by unfold typedResult; rw [hcol], ?_⟩
    intro m hm
    have hfold : ∀ (l : List (Str × Scal)) (m : List (Str × GVal)), l.foldl (fun m e => mapPut m e.1 (.one e.2)) m =
        puts (l.map fun e => (e.1, GVal.one e.2)) m := by
      intro l m
      unfold puts
      rw [List.foldl_map]
    simp only
    rw [hfold, puts_lookup_none]
    · refine puts_lookup_some _ _ _ _ (List.mem_map.mpr ⟨_, hkey m hm, rfl⟩) ?_
      intro e he hek
      obtain ⟨x, hx, rfl⟩ := List.mem_map.mp he
      have : x = (formatName m.1.name args, m.2) :=
        nodup_map_inj (f := Prod.fst) (puts_nodup _ (by simp)) hx (hkey m hm) hek
      rw [this]
    · intro e he hek
      obtain ⟨x, hx, rfl⟩ := List.mem_map.mp he
      have hx2 := (List.mem_filter.mp hx).2
      have hany : (ex.any fun y => y.2.contains x.1) = true := by
        refine List.any_eq_true.mpr ⟨_, hkey m hm, ?_⟩
        simp only at hek
        rw [hek]
        have := (C45_expand_partial (hms m hm)).2.2.2
        exact List.contains_iff_mem.mpr (List.mem_of_getElem? this)
      rw [hany] at hx2
      cases hx2


/-- Two members, one of them an array, in a new buffer. -/
example : let ms : List (TagDef × List Str) := [(⟨str "RATE[{0}]", tREAL, 1⟩, [str "RATE[2]"]),
      (⟨str "STATS[{0},0]", tDINT, 3⟩, (List.range 3).map fun j => str "STATS" ++ renderIdx ([2] ++ [0 + j]))]
    (∀ m ∈ ms, Expands (formatName m.1.name [str "2"]) m.1.elements m.2) ∧
    (ms.map fun m => formatName m.1.name [str "2"]).Nodup := by
  intro ms
  refine ⟨?_, by decide +kernel⟩
  intro m hm
  rcases List.mem_cons.mp hm with rfl | hm
  · exact .single (by decide)
  · rw [List.mem_singleton.mp hm]
    exact .array (str "STATS") [2] 0 3 (by decide) rfl (by decide +kernel) (by decide) (by decide)

/-- The whole way with it. -/
example : typedResult [(str "RATE[2]", .f32 5#32), (str "STATS[2,0]", .i32 7#32), (str "STATS[2,1]", .i32 8#32),
      (str "STATS[2,2]", .i32 9#32)] (addTagGroup demoEnv (fun l => l) (DBuf.new 1)
      (newTagGroup [⟨str "RATE[{0}]", tREAL, 0⟩, ⟨str "STATS[{0},0]", tDINT, 3⟩]) [str "2"]).2.expansions =
    .ok [(str "RATE[2]", .one (.f32 5#32)), (str "STATS[2,0]", .many [.i32 7#32, .i32 8#32, .i32 9#32])] := by
  decide +kernel

/-! ### Names of groups -/

theorem placeholder_prefix {i j : Nat} {rest : Str} :
    (placeholder i).isPrefixOf ((Piece.place j).show ++ rest) = true ↔ i = j := by
  constructor
  · intro h
    obtain ⟨t, ht⟩ := List.isPrefixOf_iff_prefix.mp h
    unfold placeholder Piece.show at ht
    simp only [List.append_assoc, List.cons_append, List.nil_append, List.cons.injEq, true_and] at ht
    -- both texts of digits end at the brace
    have key : ∀ (a b x y : Str), (∀ c ∈ a, isDigit c = true) → (∀ c ∈ b, isDigit c = true) →
        a ++ 0x7D#8 :: x = b ++ 0x7D#8 :: y → a = b := by
      intro a
      induction a with
      | nil =>
        intro b x y _ hb he
        cases b with
        | nil => rfl
        | cons c b =>
          simp only [List.nil_append, List.cons_append, List.cons.injEq] at he
          exact absurd (hb c (by simp)) (by rw [← he.1]; decide)
      | cons d a ih =>
        intro b x y ha hb he
        cases b with
        | nil =>
          simp only [List.nil_append, List.cons_append, List.cons.injEq] at he
          exact absurd (ha d (by simp)) (by rw [he.1]; decide)
        | cons c b =>
          simp only [List.cons_append, List.cons.injEq] at he
          rw [he.1, ih b x y (fun c hc => ha c (by simp [hc])) (fun c hc => hb c (by simp [hc])) he.2]
    exact dec_inj (key _ _ _ _ (dec_digits i) (dec_digits j) ht)
  · rintro rfl
    exact List.isPrefixOf_iff_prefix.mpr ⟨rest, rfl⟩

/-- Replacing a placeholder in a text of pieces. -/
def Piece.put (i : Nat) (a : Str) : Piece → Piece
  | .place j => if j = i then .text a else .place j
  | .text s => .text s

theorem replaceAux_text (i : Nat) (a : Str) (s rest : Str) (h : 0x7B#8 ∉ s) (f : Nat) (hf : s.length ≤ f) :
    replaceAllAux (placeholder i) a f (s ++ rest) = s ++ replaceAllAux (placeholder i) a (f - s.length) rest := by
  induction s generalizing f with
  | nil => simp
  | cons c s ih =>
    obtain ⟨f, rfl⟩ : ∃ g, f = g + 1 := ⟨f - 1, by simp at hf; omega⟩
    rw [List.cons_append, replaceAllAux]
    have : (placeholder i).isPrefixOf (c :: (s ++ rest)) = false := by
      unfold placeholder
      simp only [List.append_assoc, List.cons_append, List.nil_append, List.isPrefixOf]
      have : (0x7B#8 == c) = false := beq_false_of_ne (fun hc => h (by simp [hc]))
      rw [this]; rfl
    rw [this]
    simp only [Bool.false_eq_true, if_false]
    rw [ih (fun hm => h (by simp [hm])) f (by simp at hf; omega)]
    simp

theorem replaceAux_pieces (i : Nat) (a : Str) (ps : List Piece) (hp : ∀ p ∈ ps, p.plain) (f : Nat)
    (hf : (ps.map Piece.show).flatten.length < f) :
    replaceAllAux (placeholder i) a f (ps.map Piece.show).flatten = ((ps.map (Piece.put i a)).map Piece.show).flatten := by
  induction ps generalizing f with
  | nil =>
    obtain ⟨f, rfl⟩ : ∃ g, f = g + 1 := ⟨f - 1, by omega⟩
    rfl
  | cons p ps ih =>
    have ih' := ih (fun p hp' => hp p (by simp [hp']))
    simp only [List.map_cons, List.flatten_cons] at hf ⊢
    rw [List.length_append] at hf
    cases p with
    | text s =>
      have hs : 0x7B#8 ∉ s := hp (.text s) (by simp)
      show replaceAllAux _ _ _ (s ++ _) = s ++ _
      have hl : (Piece.text s).show.length = s.length := rfl
      rw [replaceAux_text i a s _ hs f (by omega), ih' _ (by omega)]
    | place j =>
      obtain ⟨f, rfl⟩ : ∃ g, f = g + 1 := ⟨f - 1, by omega⟩
      have hsh : (Piece.place j).show = 0x7B#8 :: (dec j ++ [0x7D#8]) := by simp [Piece.show]
      by_cases hij : j = i
      · subst hij
        have hpre := (placeholder_prefix (i := j) (j := j) (rest := (ps.map Piece.show).flatten)).mpr rfl
        rw [hsh, List.cons_append] at hpre ⊢
        rw [replaceAllAux, if_pos hpre]
        have hd : (0x7B#8 :: (dec j ++ [0x7D#8] ++ (ps.map Piece.show).flatten)).drop (placeholder j).length =
            (ps.map Piece.show).flatten := by
          have : 0x7B#8 :: (dec j ++ [0x7D#8] ++ (ps.map Piece.show).flatten) = placeholder j ++ (ps.map Piece.show).flatten := by
            simp [placeholder]
          rw [this, List.drop_left]
        rw [hd, ih' _ (by rw [hsh] at hf; simp only [List.length_cons] at hf; omega)]
        simp [Piece.put, Piece.show]
      · have hpre : (placeholder i).isPrefixOf ((Piece.place j).show ++ (ps.map Piece.show).flatten) = false := by
          cases hc : (placeholder i).isPrefixOf ((Piece.place j).show ++ (ps.map Piece.show).flatten) with
          | false => rfl
          | true => exact absurd (placeholder_prefix.mp hc).symm hij
        rw [hsh, List.cons_append] at hpre ⊢
        rw [replaceAllAux, hpre]
        simp only [Bool.false_eq_true, if_false]
        have hnb : 0x7B#8 ∉ dec j ++ [0x7D#8] := by
          intro hm
          rcases List.mem_append.mp hm with hm | hm
          · exact absurd (dec_digits j _ hm) (by decide)
          · simp at hm
        have hlen : (dec j ++ [0x7D#8]).length + (ps.map Piece.show).flatten.length < f := by
          rw [hsh, List.length_cons] at hf; omega
        rw [replaceAux_text i a _ _ hnb f (by omega), ih' _ (by omega)]
        simp only [Piece.put, if_neg hij]
        rw [hsh]
        simp

theorem put_plain {i : Nat} {a : Str} (ha : 0x7B#8 ∉ a) {p : Piece} (h : p.plain) : (Piece.put i a p).plain := by
  cases p with
  | text s => exact h
  | place j =>
    by_cases hj : j = i
    · simp only [Piece.put, if_pos hj]; exact ha
    · simp only [Piece.put, if_neg hj]; trivial

theorem formatFrom_pieces (args : List Str) (ha : ∀ a ∈ args, 0x7B#8 ∉ a) (k : Nat) (ps : List Piece)
    (hp : ∀ p ∈ ps, p.plain) :
    formatFrom k args (ps.map Piece.show).flatten = (ps.map fun p => match p with
      | .text s => s
      | .place j => if j < k then Piece.show (.place j) else (args[j - k]?).getD (Piece.show (.place j))).flatten := by
  induction args generalizing k ps with
  | nil =>
    rw [formatFrom]
    congr 1
    apply List.map_congr_left
    intro p _
    cases p with
    | text s => rfl
    | place j => simp
  | cons a args ih =>
    rw [formatFrom, replaceAll, replaceAux_pieces k a ps hp _ (by omega),
      ih (fun x hx => ha x (by simp [hx])) (k + 1) _ (by
        intro p hp'
        obtain ⟨q, hq, rfl⟩ := List.mem_map.mp hp'
        exact put_plain (ha a (by simp)) (hp q hq))]
    rw [List.map_map]
    congr 1
    apply List.map_congr_left
    intro p _
    cases p with
    | text s => rfl
    | place j =>
      simp only [Function.comp_apply, Piece.put]
      by_cases hj : j = k
      · subst hj; simp
      · rw [if_neg hj]
        simp only
        by_cases hlt : j < k
        · rw [if_pos hlt, if_pos (by omega)]
        · rw [if_neg hlt, if_neg (by omega), show j - k = (j - (k + 1)) + 1 by omega, List.getElem?_cons_succ]

/-- C45, the names: each place of a name takes its own argument, when no argument has an opening brace. -/
theorem C45_names_partial (args : List Str) (ha : ∀ a ∈ args, 0x7B#8 ∉ a) (ps : List Piece) (hp : ∀ p ∈ ps, p.plain) :
    formatName (ps.map Piece.show).flatten args = (ps.map (Piece.fill args)).flatten := by
  unfold formatName
  rw [formatFrom_pieces args ha 0 ps hp]
  congr 1

example : formatName (str "L{1}.S[{0},{0}]{2}") [str "4", str "9"] = str "L9.S[4,4]{2}" := by decide +kernel

/-- C45 is false when an argument has the form of a place: it is filled in in turn. -/
theorem C45_argument_filled : formatName (str "T{0}") [str "{1}", str "x"] = str "Tx" ∧
    ([Piece.text (str "T"), .place 0].map (Piece.fill [str "{1}", str "x"])).flatten = str "T{1}" := by
  decide +kernel

/-! ### Reading a group without a buffer -/

/-- C45 is false for array members of type WORD read with `ReadTagGroup`: they are read as 32 bit integers,
while single tags of the type are read as 16 bit words. -/
theorem C45_word_arrays_as_dint : zeroType tWORD true = .i32 ∧ zeroType tWORD false = .u16 := by decide

/-! ### Groups that are refused -/

theorem collapse_needs {raw : List (Str × Scal)} {names : List Str} {vs : List Scal} (h : collapse raw names = .ok vs) :
    ∀ n ∈ names, raw.lookup n ≠ none := by
  induction names generalizing vs with
  | nil => simp
  | cons n ns ih =>
    rw [collapse] at h
    cases hl : raw.lookup n with
    | none => rw [hl] at h; cases h
    | some v =>
      rw [hl] at h
      cases hc : collapse raw ns with
      | err e => rw [hc] at h; cases h
      | panic => rw [hc] at h; cases h
      | ok ws =>
        intro x hx
        rcases List.mem_cons.mp hx with rfl | hx
        · rw [hl]; simp
        · exact ih hc x hx

theorem collapseAll_needs {raw : List (Str × Scal)} {ex : List (Str × List Str)} {m r : List (Str × GVal)}
    (h : collapseAll raw ex m = .ok r) : ∀ e ∈ ex, ∀ n ∈ e.2, raw.lookup n ≠ none := by
  induction ex generalizing m with
  | nil => simp
  | cons e ex ih =>
    obtain ⟨base, names⟩ := e
    rw [collapseAll] at h
    cases hc : collapse raw names with
    | err e => rw [hc] at h; cases h
    | panic => rw [hc] at h; cases h
    | ok vs =>
      rw [hc] at h
      have : ∃ m', collapseAll raw ex m' = .ok r := by
        match vs with
        | [] => exact ⟨_, h⟩
        | [v] => exact ⟨_, h⟩
        | _ :: _ :: _ => exact ⟨_, h⟩
      obtain ⟨m', hm'⟩ := this
      intro x hx
      rcases List.mem_cons.mp hx with rfl | hx
      · exact collapse_needs hc
      · exact ih hm' x hx

/-- C45 is false after a group was refused: its members are remembered although none of their tags is
registered, and from then on no read of the buffer gives any values. -/
theorem C45_refused_group_blocks_reads (E : DEnv) (ord : List (Str × Byte) → List (Str × Byte)) (b : DBuf)
    (d : TagDef) (args : List Str) (hc : b.created = true)
    (hf : ∀ u, (addTagGroup E ord b [d] args).1 ≠ .ok u) :
    (addTagGroup E ord b [d] args).2.tags = b.tags ∧
    ∀ raw : List (Str × Scal), (∀ n, (∃ v, raw.lookup n = some v) → ∃ t ∈ b.tags, t.name = n) →
      (∃ n ∈ namesOf args d, ∀ t ∈ b.tags, t.name ≠ n) →
      ∀ r, typedResult raw (addTagGroup E ord b [d] args).2.expansions ≠ .ok r := by
  have hst : (addTagGroup E ord b [d] args).2 =
      { b with expansions := mapPut b.expansions (formatName d.name args) (namesOf args d) } := by
    unfold addTagGroup at hf ⊢
    rw [expandDefs_puts] at hf ⊢
    simp only [hc, Bool.not_true, Bool.false_eq_true, if_false] at hf ⊢
    unfold addTags at hf ⊢
    simp only [hc, Bool.not_true, Bool.false_eq_true, if_false] at hf ⊢
    generalize prepareTags E _ _ = p at hf
    cases p with
    | ok ts => exact absurd rfl (hf ())
    | err e => rfl
    | panic => rfl
  rw [hst]
  refine ⟨rfl, ?_⟩
  rintro raw hraw ⟨n, hn, hnt⟩ r hr
  unfold typedResult at hr
  cases hcol : collapseAll raw (mapPut b.expansions (formatName d.name args) (namesOf args d)) [] with
  | err e => rw [hcol] at hr; cases hr
  | panic => rw [hcol] at hr; cases hr
  | ok m =>
    have := collapseAll_needs hcol (formatName d.name args, namesOf args d) (by simp [mapPut]) n hn
    cases hl : raw.lookup n with
    | none => exact this hl
    | some v =>
      obtain ⟨t, ht, he⟩ := hraw n ⟨v, hl⟩
      exact hnt t ht he

/-- A group with a type of no size is refused. -/
example : (addTagGroup demoEnv (fun l => l) (DBuf.new 1) [⟨str "X", 0x17#8, 1⟩] []).1 = .err .fail := by decide +kernel

end Gologix
