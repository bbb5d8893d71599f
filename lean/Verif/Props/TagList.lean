import Verif.Spec.TagList
import Verif.Props.Listing
import Verif.Props.Segments
import Verif.Props.Ioi
/-
C46 Tag listing records every listed tag
-/
set_option linter.unusedSimpArgs false

namespace Gologix

/-! ### Maps -/

theorem mapPut_lookup {α : Type} (m : List (Str × α)) (k k' : Str) (v : α) :
    (mapPut m k v).lookup k' = if k' = k then some v else m.lookup k' := by
  unfold mapPut
  induction m with
  | nil =>
    by_cases h : k' = k
    · subst h; simp [List.lookup]
    · have : (k' == k) = false := by simpa using h
      simp [List.lookup, h, this]
  | cons e m ih =>
    obtain ⟨a, b⟩ := e
    by_cases ha : a = k
    · subst ha
      rw [List.filter_cons_of_neg (by simp), ih]
      by_cases h : k' = a
      · simp [h]
      · have : (k' == a) = false := by simpa using h
        simp [h, List.lookup, this]
    · rw [List.filter_cons_of_pos (by simpa using ha), List.cons_append]
      by_cases h : k' = a
      · subst h
        simp [List.lookup, ha]
      · have : (k' == a) = false := by simpa using h
        simp only [List.lookup, this]
        exact ih

/-- Successive assignments. -/
def puts {α : Type} (ws : List (Str × α)) (m : List (Str × α)) : List (Str × α) :=
  ws.foldl (fun m e => mapPut m e.1 e.2) m

theorem puts_append {α : Type} (a b m : List (Str × α)) : puts (a ++ b) m = puts b (puts a m) := by
  simp [puts]

theorem puts_lookup_none {α : Type} (ws m : List (Str × α)) (k : Str) (h : ∀ e ∈ ws, e.1 ≠ k) :
    (puts ws m).lookup k = m.lookup k := by
  induction ws generalizing m with
  | nil => rfl
  | cons e ws ih =>
    show (puts ws (mapPut m e.1 e.2)).lookup k = _
    rw [ih _ (fun x hx => h x (by simp [hx])), mapPut_lookup, if_neg (fun hk => h e (by simp) hk.symm)]

theorem puts_lookup_some {α : Type} (ws m : List (Str × α)) (k : Str) (v : α) (h : (k, v) ∈ ws)
    (hu : ∀ e ∈ ws, e.1 = k → e.2 = v) : (puts ws m).lookup k = some v := by
  induction ws generalizing m with
  | nil => simp at h
  | cons e ws ih =>
    show (puts ws (mapPut m e.1 e.2)).lookup k = _
    by_cases hin : (k, v) ∈ ws
    · exact ih _ hin (fun x hx => hu x (by simp [hx]))
    · have he : e = (k, v) := by
        rcases List.mem_cons.mp h with h | h
        · exact h.symm
        · exact absurd h hin
      rw [puts_lookup_none _ _ _ (fun x hx hk => hin (by
        have := hu x (by simp [hx]) hk
        have hx' : x = (k, v) := by rw [← hk, ← this]
        rw [← hx']; exact hx)), mapPut_lookup, he]
      simp

/-! ### Replies and requests -/

/-- A symbol as the client decodes it. -/
def symOf (s : Spec.Symbol) : Sym where
  inst := s.inst
  name := s.name
  info := { type := BitVec.ofNat 8 s.type.toNat, typeInfo := BitVec.ofNat 8 (s.type.toNat / 256),
            dim1 := s.d1, dim2 := s.d2, dim3 := s.d3 }

theorem ofNat_unle_le4 (v : BitVec 32) : BitVec.ofNat 32 (unle (le 4 v.toNat)) = v := by
  rw [unle_le]
  apply BitVec.eq_of_toNat_eq
  have := v.isLt
  simp only [BitVec.toNat_ofNat]
  omega

theorem readSym_bytes (s : Spec.Symbol) (r : Bytes) (h : s.name.length < 65536) :
    readSym (s.bytes ++ r) = .ok (symOf s, r) := by
  have e1 : s.bytes ++ r = (le 4 s.inst.toNat ++ le 2 s.name.length) ++ (s.name ++ ((le 2 s.type.toNat ++
    (le 4 s.d1.toNat ++ (le 4 s.d2.toNat ++ le 4 s.d3.toNat))) ++ r)) := by
    simp [Spec.Symbol.bytes]
  unfold readSym
  rw [e1, readN_append' (by simp), Res.bind_ok]
  simp only
  have hn : unle ((le 4 s.inst.toNat ++ le 2 s.name.length).drop 4) = s.name.length := by
    rw [List.drop_left' (by simp), unle_le]
    exact Nat.mod_eq_of_lt (by omega)
  have hi : BitVec.ofNat 32 (unle ((le 4 s.inst.toNat ++ le 2 s.name.length).take 4)) = s.inst := by
    rw [List.take_left' (by simp), ofNat_unle_le4]
  rw [hn, readN_append, Res.bind_ok]
  simp only
  rw [readN_append' (by simp), Res.bind_ok, hi]
  simp only
  have t2 : le 2 s.type.toNat = [BitVec.ofNat 8 s.type.toNat, BitVec.ofNat 8 (s.type.toNat / 256)] := rfl
  have q1 : (((le 2 s.type.toNat ++ (le 4 s.d1.toNat ++ (le 4 s.d2.toNat ++ le 4 s.d3.toNat))).drop 2).take 4) =
      le 4 s.d1.toNat := by
    rw [List.drop_left' (by simp), List.take_left' (by simp)]
  have q2 : (((le 2 s.type.toNat ++ (le 4 s.d1.toNat ++ (le 4 s.d2.toNat ++ le 4 s.d3.toNat))).drop 6).take 4) =
      le 4 s.d2.toNat := by
    rw [← List.append_assoc, List.drop_left' (by simp), List.take_left' (by simp)]
  have q3 : (((le 2 s.type.toNat ++ (le 4 s.d1.toNat ++ (le 4 s.d2.toNat ++ le 4 s.d3.toNat))).drop 10).take 4) =
      le 4 s.d3.toNat := by
    rw [← List.append_assoc, ← List.append_assoc, List.drop_left' (by simp), List.take_of_length_le (by simp)]
  rw [q1, q2, q3, ofNat_unle_le4, ofNat_unle_le4, ofNat_unle_le4]
  rw [t2]
  rfl

theorem readSyms_bytes (page : List Spec.Symbol) (f : Nat) (hf : page.length < f)
    (h : ∀ s ∈ page, s.name.length < 65536) :
    readSyms f (page.map Spec.Symbol.bytes).flatten = (page.map symOf, .ok ()) := by
  induction page generalizing f with
  | nil => cases f with
    | zero => rfl
    | succ f => simp [readSyms]
  | cons s page ih =>
    cases f with
    | zero => simp at hf
    | succ f =>
      rw [List.map_cons, List.flatten_cons, readSyms, if_neg (by simp [Spec.Symbol.bytes, le]),
        readSym_bytes s _ (h s (by simp))]
      simp only
      rw [ih f (by simpa using hf) (fun x hx => h x (by simp [hx]))]
      rfl

theorem page_length (page : List Spec.Symbol) : page.length ≤ (page.map Spec.Symbol.bytes).flatten.length := by
  induction page with
  | nil => simp
  | cons s page ih =>
    have : 1 ≤ s.bytes.length := by simp [Spec.Symbol.bytes]; omega
    rw [List.map_cons, List.flatten_cons, List.length_append, List.length_cons]
    omega

theorem symbolsPage_form (f : Spec.CForm) (st : BitVec 32) (status : Byte) (d : Bytes)
    (hf : f.fits ([0xD5#8, 0#8, status, 0#8] ++ d)) :
    symbolsPage ⟨st, f.payload ([0xD5#8, 0#8, status, 0#8] ++ d)⟩ = .ok (BitVec.ofNat 16 status.toNat, d) := by
  have hr := readItems_cpf _ [] hf.1 hf.2
  rw [List.append_nil] at hr
  have hd : (f.payload ([0xD5#8, 0#8, status, 0#8] ++ d)).drop 6 =
      Spec.cpf (f.items ([0xD5#8, 0#8, status, 0#8] ++ d)) := by
    unfold Spec.CForm.payload
    rw [← List.append_assoc, List.drop_left' (by simp)]
  have hne : f.payload ([0xD5#8, 0#8, status, 0#8] ++ d) ≠ [] := by
    simp [Spec.CForm.payload, le]
  have hi : item1 (Spec.cpf (f.items ([0xD5#8, 0#8, status, 0#8] ++ d))) =
      .ok (le 2 f.seq.toNat ++ ([0xD5#8, 0#8, status, 0#8] ++ d)) := by
    unfold item1
    rw [hr, Res.bind_ok]
    rfl
  unfold symbolsPage
  simp only
  rw [if_neg hne, hd, hi, Res.bind_ok, ← List.append_assoc, readN_append' (by simp), Res.bind_ok]
  simp only
  rw [show le 2 f.seq.toNat ++ [0xD5#8, 0#8, status, 0#8] = (le 2 f.seq.toNat ++ [0xD5#8, 0#8]) ++ [status, 0#8] by
    simp, List.drop_left' (by simp)]
  simp [unle]

theorem decodePath_cons (x : Byte) (xs rest : Bytes) (t : Spec.LogicalType) (v n : Nat)
    (h : Spec.decodeLogical (x :: xs) = some (t, v, rest)) :
    Spec.decodePath (n + 1) (x :: xs) = (Spec.decodePath n rest).map ((t, v) :: ·) := by
  rw [Spec.decodePath, h]

theorem decodePath_class (v : BitVec 16) (n : Nat) (rest : Bytes) :
    Spec.decodePath (n + 1) (classBytes v ++ rest) = (Spec.decodePath n rest).map ((.classId, v.toNat) :: ·) := by
  have h := (C05_class v rest).2
  cases hc : classBytes v ++ rest with
  | nil => rw [hc] at h; simp [Spec.decodeLogical] at h
  | cons x xs => rw [hc] at h; exact decodePath_cons x xs rest _ _ n h

theorem decodePath_instance (v : BitVec 32) (n : Nat) (rest : Bytes) :
    Spec.decodePath (n + 1) (instanceBytes v ++ rest) =
      (Spec.decodePath n rest).map ((.instanceId, v.toNat) :: ·) := by
  have h := (C05_instance v rest).2
  cases hc : instanceBytes v ++ rest with
  | nil => rw [hc] at h; simp [Spec.decodeLogical] at h
  | cons x xs => rw [hc] at h; exact decodePath_cons x xs rest _ _ n h

theorem decodePath_nil (n : Nat) : Spec.decodePath n [] = some [] := by cases n <;> rfl

theorem classBytes_length (v : BitVec 16) : 2 ≤ (classBytes v).length ∧ (classBytes v).length ≤ 4 ∧
    (classBytes v).length % 2 = 0 := by
  unfold classBytes; split <;> simp

theorem instanceBytes_length (v : BitVec 32) : 2 ≤ (instanceBytes v).length ∧ (instanceBytes v).length ≤ 6 ∧
    (instanceBytes v).length % 2 = 0 := by
  unfold instanceBytes
  split
  · simp
  · split <;> simp

theorem asks_main (seq : BitVec 16) (start : BitVec 32) :
    Spec.AsksFor (symbolsRequest seq [] start) [(.classId, 0x6B), (.instanceId, start.toNat)] [1, 2, 8] := by
  have hc := classBytes_length 0x6B#16
  have hi := instanceBytes_length start
  refine ⟨seq, classBytes 0x6B#16 ++ instanceBytes start, ?_, ?_, ?_, ?_⟩
  · simp only [List.length_append]; omega
  · simp only [List.length_append]; omega
  · obtain ⟨k, hk⟩ : ∃ k, (classBytes 0x6B#16 ++ instanceBytes start).length = k + 1 + 1 :=
      ⟨(classBytes 0x6B#16 ++ instanceBytes start).length - 2, by simp only [List.length_append]; omega⟩
    rw [hk, decodePath_class]
    have := decodePath_instance start k []
    rw [List.append_nil] at this
    rw [this, decodePath_nil]
    rfl
  · unfold symbolsRequest pathLengthOf
    simp only [List.nil_append, List.append_assoc]
    rfl

theorem asks_sub (seq : BitVec 16) (start : BitVec 32) (p : KnownProgram) (hp : p.id ≠ 0) :
    Spec.AsksFor (symbolsRequest seq p.bytes start) [(.classId, 0x68), (.instanceId, p.id.toNat),
      (.classId, 0x6B), (.instanceId, start.toNat)] [1, 2, 8] := by
  have hb : p.bytes = classBytes 0x68#16 ++ instanceBytes p.id := by
    unfold KnownProgram.bytes
    rw [if_neg hp]
  have hc := classBytes_length 0x6B#16
  have hi := instanceBytes_length start
  have hc' := classBytes_length 0x68#16
  have hi' := instanceBytes_length p.id
  refine ⟨seq, classBytes 0x68#16 ++ (instanceBytes p.id ++ (classBytes 0x6B#16 ++ instanceBytes start)), ?_, ?_, ?_, ?_⟩
  · simp only [List.length_append]; omega
  · simp only [List.length_append]; omega
  · obtain ⟨k, hk⟩ : ∃ k, (classBytes 0x68#16 ++ (instanceBytes p.id ++ (classBytes 0x6B#16 ++
        instanceBytes start))).length = k + 1 + 1 + 1 + 1 :=
      ⟨(classBytes 0x68#16 ++ (instanceBytes p.id ++ (classBytes 0x6B#16 ++ instanceBytes start))).length - 4, by
        simp only [List.length_append]; omega⟩
    rw [hk, decodePath_class, decodePath_instance, decodePath_class]
    have := decodePath_instance start k []
    rw [List.append_nil] at this
    rw [this, decodePath_nil]
    rfl
  · unfold symbolsRequest pathLengthOf
    rw [hb]
    simp only [List.append_assoc]
    rfl

theorem asks_programs (seq : BitVec 16) :
    Spec.AsksFor (programsRequest seq) [(.classId, 0x68), (.instanceId, 0)] [28] := by
  refine ⟨seq, [0x20#8, 0x68#8, 0x24#8, 0#8], by decide, by decide, by decide, ?_⟩
  unfold programsRequest
  simp only [List.append_assoc]
  rfl

/-! ### Which entries are recorded -/

theorem colon_contains (s : Str) : s.contains 0x3A#8 = true ↔ 0x3A#8 ∈ s := by simp

theorem valid_user {s : Spec.Symbol} (h : s.user) : isValidTag s.name = true := by
  obtain ⟨h1, h2, h3⟩ := h
  unfold isValidTag
  rw [if_neg h1, if_neg (by rw [List.isPrefixOf_iff_prefix]; exact h2), if_neg]
  rw [Bool.and_eq_true, colon_contains]
  exact fun h => h3 h.1

theorem invalid_system {s : Spec.Symbol} (h : s.system) : isValidTag s.name = false := by
  unfold isValidTag
  by_cases h1 : s.name = []
  · rw [if_pos h1]
  · rw [if_neg h1]
    by_cases h2 : str "__" <+: s.name
    · rw [if_pos (List.isPrefixOf_iff_prefix.mpr h2)]
    · rw [if_neg (by rw [List.isPrefixOf_iff_prefix]; exact h2)]
      rcases h with h | h | ⟨h, h'⟩
      · exact absurd h h1
      · exact absurd h h2
      · rw [if_pos]
        rw [Bool.and_eq_true, colon_contains]
        refine ⟨h, ?_⟩
        rw [Bool.not_eq_true', ← Bool.not_eq_true, List.isPrefixOf_iff_prefix]
        exact h'

theorem user_not_program {s : Spec.Symbol} (h : s.user) : (str "Program:").isPrefixOf s.name = false := by
  rw [← Bool.not_eq_true, List.isPrefixOf_iff_prefix]
  rintro ⟨t, ht⟩
  apply h.2.2
  rw [← ht]
  exact List.mem_append_left _ (by decide)

open Classical in
/-- The records of a part of a program's table. -/
noncomputable def subFacts (p : KnownProgram) (t : List Spec.Symbol) : List (Str × ListedTag) :=
  (t.filter fun s => decide s.user).map fun s => (toLower (subTag p (symOf s)).name, subTag p (symOf s))

open Classical in
/-- The records of a part of the controller's table. -/
noncomputable def mainFacts (t : List Spec.Symbol) : List (Str × ListedTag) :=
  (t.filter fun s => decide s.user).map fun s => (toLower s.name, mainTag (symOf s))

theorem subEach_page (p : KnownProgram) (page : List Spec.Symbol) (start : BitVec 32) (st : ListSt)
    (h : ∀ s ∈ page, s.user ∨ s.system) :
    ∃ kts start', subEach p (page.map symOf) start st =
        (kts, start', { st with tags := puts (subFacts p page) st.tags }) ∧
      ((start' = start ∧ ∀ s ∈ page, ¬ s.user) ∨
        ∃ a s b, page = a ++ s :: b ∧ s.user ∧ start' = s.inst ∧ ∀ x ∈ b, ¬ x.user) := by
  induction page generalizing start st with
  | nil => exact ⟨[], start, rfl, Or.inl ⟨rfl, by simp⟩⟩
  | cons s page ih =>
    rcases h s (by simp) with hu | hs
    · have hv : isValidTag (symOf s).name = true := valid_user hu
      obtain ⟨kts, start', h1, h2⟩ := ih s.inst
        { st with tags := mapPut st.tags (toLower (subTag p (symOf s)).name) (subTag p (symOf s)) }
        (fun x hx => h x (by simp [hx]))
      refine ⟨subTag p (symOf s) :: kts, start', ?_, Or.inr ?_⟩
      · rw [List.map_cons, subEach, if_pos hv]
        simp only
        rw [show (symOf s).inst = s.inst from rfl, h1]
        simp [subFacts, hu, puts]
      · rcases h2 with ⟨h2, h3⟩ | ⟨a, x, b, h2, h3, h4, h5⟩
        · exact ⟨[], s, page, rfl, hu, h2, h3⟩
        · exact ⟨s :: a, x, b, by rw [h2]; rfl, h3, h4, h5⟩
    · have hv : isValidTag (symOf s).name = false := invalid_system hs
      have hnu : ¬ s.user := by
        intro hu
        have : isValidTag (symOf s).name = true := valid_user hu
        rw [hv] at this
        exact absurd this (by decide)
      obtain ⟨kts, start', h1, h2⟩ := ih start st (fun x hx => h x (by simp [hx]))
      refine ⟨kts, start', ?_, ?_⟩
      · rw [List.map_cons, subEach, if_neg (by rw [hv]; decide), h1]
        simp [subFacts, hnu]
      · rcases h2 with ⟨h2, h3⟩ | ⟨a, x, b, h2, h3, h4, h5⟩
        · refine Or.inl ⟨h2, ?_⟩
          intro x hx
          rcases List.mem_cons.mp hx with hx | hx
          · rw [hx]; exact hnu
          · exact h3 x hx
        · exact Or.inr ⟨s :: a, x, b, by rw [h2]; rfl, h3, h4, h5⟩

theorem mainEach_page (W : ListWorld) (f : Nat) (page : List Spec.Symbol) (st : ListSt)
    (h : ∀ s ∈ page, s.user ∨ s.system ∨ s.program) :
    mainEach W f false (page.map symOf) st =
      some (.ok (), { st with tags := puts (mainFacts page) st.tags }) := by
  induction page generalizing st with
  | nil => rfl
  | cons s page ih =>
    have ih' := fun st => ih st (fun x hx => h x (by simp [hx]))
    rw [List.map_cons, mainEach]
    have hn : (symOf s).name = s.name := rfl
    rcases h s (by simp) with hu | hs | ⟨q, hq, hp⟩
    · rw [hn, if_neg (by rw [valid_user hu]; decide), if_neg (by rw [user_not_program hu]; simp), ih']
      simp [mainFacts, hu, puts, recordMain, hn]
    · have hnu : ¬ s.user := by
        intro hu
        have := valid_user hu
        rw [invalid_system hs] at this
        exact absurd this (by decide)
      rw [hn, if_pos (by rw [invalid_system hs]; rfl), ih']
      simp [mainFacts, hnu]
    · have hnu : ¬ s.user := by
        intro hu
        have := user_not_program hu
        rw [hp] at this
        have h2 : (str "Program:").isPrefixOf (str "Program:" ++ q) = true :=
          List.isPrefixOf_iff_prefix.mpr ⟨q, rfl⟩
        rw [h2] at this
        exact absurd this (by decide)
      have hl : 8 < s.name.length := by
        rw [hp, List.length_append, show (str "Program:").length = 8 from by decide]
        have : q.length ≠ 0 := by simpa using hq
        omega
      by_cases hv : isValidTag s.name = true
      · rw [hn, if_neg (by rw [hv]; decide), if_pos ⟨hl, by
          rw [hp]; exact List.isPrefixOf_iff_prefix.mpr ⟨q, rfl⟩⟩, if_pos (by decide), ih']
        simp [mainFacts, hnu]
      · rw [hn, if_pos (by simpa using hv), ih']
        simp [mainFacts, hnu]

theorem mem_subFacts {p : KnownProgram} {t : List Spec.Symbol} {e : Str × ListedTag} :
    e ∈ subFacts p t ↔ ∃ s ∈ t, s.user ∧ e = (toLower (subTag p (symOf s)).name, subTag p (symOf s)) := by
  unfold subFacts
  rw [List.mem_map]
  constructor
  · rintro ⟨s, h1, rfl⟩
    rw [List.mem_filter] at h1
    exact ⟨s, h1.1, by simpa using h1.2, rfl⟩
  · rintro ⟨s, h1, h2, rfl⟩
    exact ⟨s, List.mem_filter.mpr ⟨h1, by simpa using h2⟩, rfl⟩

theorem mem_mainFacts {t : List Spec.Symbol} {e : Str × ListedTag} :
    e ∈ mainFacts t ↔ ∃ s ∈ t, s.user ∧ e = (toLower s.name, mainTag (symOf s)) := by
  unfold mainFacts
  rw [List.mem_map]
  constructor
  · rintro ⟨s, h1, rfl⟩
    rw [List.mem_filter] at h1
    exact ⟨s, h1.1, by simpa using h1.2, rfl⟩
  · rintro ⟨s, h1, h2, rfl⟩
    exact ⟨s, List.mem_filter.mpr ⟨h1, by simpa using h2⟩, rfl⟩

/-! ### The pages -/

theorem mem_from {t : List Spec.Symbol} {k : Nat} {s : Spec.Symbol} :
    s ∈ Spec.from_ t k ↔ s ∈ t ∧ k ≤ s.inst.toNat := by
  simp [Spec.from_]

/-- After a page that reaches up to the instance of one of its entries, what is left is in the page or
comes from there on. -/
theorem page_cover {t page rest : List Spec.Symbol} {start : Nat} {s : Spec.Symbol}
    (ht : t.Pairwise fun a b => a.inst.toNat < b.inst.toNat) (hp : Spec.from_ t start = page ++ rest)
    (hs : s ∈ page) :
    start ≤ s.inst.toNat ∧ (∀ x ∈ page, x ∈ t) ∧
      ∀ x, x ∈ Spec.from_ t start ↔ x ∈ page ∨ x ∈ Spec.from_ t s.inst.toNat := by
  have hmem : ∀ x, x ∈ page ∨ x ∈ rest ↔ x ∈ t ∧ start ≤ x.inst.toNat := by
    intro x
    rw [← mem_from, hp, List.mem_append]
  have hst : start ≤ s.inst.toNat := ((hmem s).mp (Or.inl hs)).2
  have hpw : (page ++ rest).Pairwise fun a b => a.inst.toNat < b.inst.toNat := by
    rw [← hp]
    exact ht.filter _
  refine ⟨hst, fun x hx => ((hmem x).mp (Or.inl hx)).1, fun x => ?_⟩
  constructor
  · intro hx
    rw [hp, List.mem_append] at hx
    rcases hx with hx | hx
    · exact Or.inl hx
    · have := (List.pairwise_append.mp hpw).2.2 s hs x hx
      exact Or.inr (mem_from.mpr ⟨((hmem x).mp (Or.inr hx)).1, by omega⟩)
  · rintro (hx | hx)
    · rw [hp]; exact List.mem_append_left _ hx
    · obtain ⟨h1, h2⟩ := mem_from.mp hx
      exact mem_from.mpr ⟨h1, by omega⟩

theorem ask_page {W : ListWorld} {t : List Spec.Symbol} {start : BitVec 32} {st : ListSt} {pre : Bytes}
    {moved : List Spec.Symbol → Prop} {r : Reply} (hr : W.net st.n (symbolsRequest (W.seq st.n) pre start) = .ok r)
    (hp : Spec.Page t start.toNat moved r) (hl : ∀ s ∈ t, s.name.length < 65536) :
    ∃ page rest d, Spec.from_ t start.toNat = page ++ rest ∧ (rest ≠ [] → moved page) ∧
      askPage W pre start st = (.ok (if rest = [] then 0#16 else 6#16, d), { st with n := st.n + 1 }) ∧
      readSyms (d.length + 1) d = (page.map symOf, .ok ()) := by
  obtain ⟨f, page, rest, h1, h2, h3, h4⟩ := hp
  have hlen : ∀ s ∈ page, s.name.length < 65536 := by
    intro s hs
    have : s ∈ Spec.from_ t start.toNat := by rw [h1]; exact List.mem_append_left _ hs
    exact hl s (mem_from.mp this).1
  refine ⟨page, rest, (page.map Spec.Symbol.bytes).flatten, h1, h2, ?_, ?_⟩
  · unfold askPage
    rw [hr]
    have := symbolsPage_form f r.status (if rest = [] then 0#8 else 6#8) _ h3
    rw [← h4] at this
    show (symbolsPage r, _) = _
    rw [this]
    split <;> rfl
  · exact readSyms_bytes page _ (by have := page_length page; omega) hlen

/-- `ListSubTags` on a program of the controller. -/
theorem subTags_program (W : ListWorld) (c : Spec.Plc) (hc : c.ok) (hW : Spec.Serves W.net c)
    (p : Spec.Program) (hp : p ∈ c.programs) (f : Nat) (start : BitVec 32) (st : ListSt)
    (h1 : 1 ≤ start.toNat) (hf : 2 ^ 32 - start.toNat < f) :
    ∃ kts st' ws, subTags W f (progOf p.entry).2 start st = some (.ok kts, st') ∧
      st'.tags = puts ws st.tags ∧ st'.progs = st.progs ∧
      ∀ e, e ∈ ws ↔ e ∈ subFacts (progOf p.entry).2 (Spec.from_ p.table start.toNat) := by
  induction f generalizing start st with
  | zero => omega
  | succ f ih =>
    obtain ⟨-, -, hps, -⟩ := hc
    obtain ⟨⟨hpw, hsz, -⟩, hkind, hid, -⟩ := hps p hp
    have hid' : (progOf p.entry).2.id ≠ 0 := by
      intro h
      apply hid
      have := congrArg BitVec.toNat h
      apply BitVec.eq_of_toNat_eq
      have hlt := p.entry.id.isLt
      simp only [progOf, BitVec.toNat_ofNat] at this
      simp at this ⊢
      omega
    have hidn : (progOf p.entry).2.id.toNat = p.entry.id.toNat := by
      have hlt := p.entry.id.isLt
      simp only [progOf, BitVec.toNat_ofNat]
      omega
    have ha := asks_sub (W.seq st.n) start (progOf p.entry).2 hid'
    rw [hidn] at ha
    obtain ⟨r, hr, hpage⟩ := hW.tags p hp st.n _ _ ha
    obtain ⟨page, rest, d, hfrom, hmoved, hask, hread⟩ := ask_page hr hpage (fun s hs => (hsz s hs).2)
    have hmt : ∀ s ∈ page, s ∈ p.table := by
      intro s hs
      have : s ∈ Spec.from_ p.table start.toNat := by rw [hfrom]; exact List.mem_append_left _ hs
      exact (mem_from.mp this).1
    obtain ⟨kts, start', heach, hlast⟩ := subEach_page (progOf p.entry).2 page start { st with n := st.n + 1 }
      (fun s hs => hkind s (hmt s hs))
    have hne : start ≠ 0 := by
      intro h
      rw [h] at h1
      exact absurd h1 (by decide)
    rw [subTags, if_neg hne]
    simp only
    rw [hask]
    simp only
    rw [hread]
    simp only
    rw [heach]
    simp only
    by_cases hrest : rest = []
    · rw [if_pos hrest, if_neg (by decide)]
      refine ⟨kts, _, subFacts (progOf p.entry).2 page, rfl, rfl, rfl, fun e => ?_⟩
      rw [hfrom, hrest, List.append_nil]
    · rw [if_neg hrest, if_pos rfl]
      obtain ⟨x, hx, hxu, hxi⟩ := hmoved hrest
      rcases hlast with ⟨-, hnone⟩ | ⟨a, s, b, hsplit, hsu, hstart, hafter⟩
      · exact absurd hxu (hnone x hx)
      · have hs : s ∈ page := by rw [hsplit]; simp
        obtain ⟨-, -, hcover⟩ := page_cover hpw hfrom hs
        have hgt : start.toNat < s.inst.toNat := by
          have hpw' : page.Pairwise fun a b => a.inst.toNat < b.inst.toNat := by
            have : (page ++ rest).Pairwise fun a b => a.inst.toNat < b.inst.toNat := by
              rw [← hfrom]; exact hpw.filter _
            exact (List.pairwise_append.mp this).1
          rw [hsplit] at hpw' hx
          rcases List.mem_append.mp hx with hxa | hxb
          · have := (List.pairwise_append.mp hpw').2.2 x hxa s (by simp)
            omega
          · rcases List.mem_cons.mp hxb with hxs | hxb
            · rw [← hxs]; exact hxi
            · exact absurd hxu (hafter x hxb)
        rw [hstart]
        obtain ⟨kts', st', ws, hrun, htags, hprogs, hws⟩ := ih s.inst
          { st with n := st.n + 1, tags := puts (subFacts (progOf p.entry).2 page) st.tags } (by omega) (by omega)
        refine ⟨kts, st', subFacts (progOf p.entry).2 page ++ ws, ?_, ?_, hprogs, fun e => ?_⟩
        · rw [hrun]
        · rw [htags, puts_append]
        · rw [List.mem_append, hws e, mem_subFacts, mem_subFacts, mem_subFacts]
          constructor
          · rintro (⟨y, hy, h⟩ | ⟨y, hy, h⟩)
            · exact ⟨y, (hcover y).mpr (Or.inl hy), h⟩
            · exact ⟨y, (hcover y).mpr (Or.inr hy), h⟩
          · rintro ⟨y, hy, h⟩
            rcases (hcover y).mp hy with hy | hy
            · exact Or.inl ⟨y, hy, h⟩
            · exact Or.inr ⟨y, hy, h⟩

theorem from_one (t : List Spec.Symbol) (h : ∀ s ∈ t, 1 ≤ s.inst.toNat) : Spec.from_ t 1 = t := by
  unfold Spec.from_
  rw [List.filter_eq_self]
  intro s hs
  simpa using h s hs

/-- All programs, in any order. -/
theorem subEachProgram_all (W : ListWorld) (c : Spec.Plc) (hc : c.ok) (hW : Spec.Serves W.net c)
    (ps : List Spec.Program) (hps : ∀ p ∈ ps, p ∈ c.programs) (f : Nat) (hf : 2 ^ 32 ≤ f) (st : ListSt) :
    ∃ st' ws, subEachProgram W f (ps.map fun p => progOf p.entry) st = some (.ok (), st') ∧
      st'.tags = puts ws st.tags ∧ st'.progs = st.progs ∧
      ∀ e, e ∈ ws ↔ ∃ p ∈ ps, e ∈ subFacts (progOf p.entry).2 p.table := by
  induction ps generalizing st with
  | nil => exact ⟨st, [], rfl, rfl, rfl, by simp⟩
  | cons p ps ih =>
    have hp := hps p (by simp)
    obtain ⟨kts, st1, ws1, hr1, ht1, hp1, hw1⟩ := subTags_program W c hc hW p hp f 1 st (by decide) (by
      show 2 ^ 32 - 1 < f
      omega)
    obtain ⟨st2, ws2, hr2, ht2, hp2, hw2⟩ := ih (fun q hq => hps q (by simp [hq])) st1
    have hone : Spec.from_ p.table 1 = p.table :=
      from_one _ fun s hs => ((hc.2.2.1 p hp).1.2.1 s hs).1
    refine ⟨st2, ws1 ++ ws2, ?_, by rw [ht2, ht1, puts_append], by rw [hp2, hp1], fun e => ?_⟩
    · rw [List.map_cons]
      show (match subTags W f (progOf p.entry).2 1 st with
        | some (.ok _, st) => subEachProgram W f (ps.map fun p : Spec.Program => progOf p.entry) st
        | some (.err _, st) => some (.err .fail, st)
        | some (.panic, st) => some (.panic, st)
        | none => none) = _
      rw [hr1]
      exact hr2
    · rw [List.mem_append, hw1 e, hw2 e, show (1 : BitVec 32).toNat = 1 from rfl, hone]
      simp

theorem perm_map_exists {α β : Type} (g : α → β) {l : List β} {xs : List α} (h : l.Perm (xs.map g)) :
    ∃ ys : List α, l = ys.map g ∧ ys.Perm xs := by
  generalize hm : xs.map g = m at h
  induction h generalizing xs with
  | nil =>
    have : xs = [] := by simpa using hm
    exact ⟨[], rfl, by rw [this]⟩
  | cons x _ ih =>
    cases xs with
    | nil => simp at hm
    | cons a xs =>
      simp at hm
      obtain ⟨ys, h1, h2⟩ := ih hm.2
      exact ⟨a :: ys, by rw [h1, List.map_cons, hm.1], h2.cons a⟩
  | swap x y l =>
    match xs, hm with
    | a :: b :: xs, hm =>
      simp at hm
      exact ⟨b :: a :: xs, by simp [hm.1, hm.2.1, hm.2.2], List.Perm.swap a b xs⟩
  | trans _ _ ih1 ih2 =>
    obtain ⟨ys, h1, h2⟩ := ih2 hm
    obtain ⟨zs, h3, h4⟩ := ih1 h1.symm
    exact ⟨zs, h3, h4.trans h2⟩

theorem progNames_ok (c : Spec.Plc) (hc : c.ok) : Spec.ProgNames (c.programs.map (·.entry)) := by
  obtain ⟨-, -, hps, hpw⟩ := hc
  constructor
  · rw [List.map_map]
    rw [List.nodup_iff_pairwise_ne, List.pairwise_map]
    refine hpw.imp ?_
    intro a b h he
    exact h (congrArg toLower he)
  · intro e he
    obtain ⟨p, hp, rfl⟩ := List.mem_map.mp he
    obtain ⟨-, -, -, -, h1, h2⟩ := hps p hp
    exact ⟨h1, h2⟩

/-- The programs and their tags. -/
theorem listProgramTags_all (W : ListWorld) (c : Spec.Plc) (hc : c.ok) (hW : Spec.Serves W.net c)
    (hord : ∀ l, (W.ord l).Perm l) (f : Nat) (hf : 2 ^ 32 ≤ f) (st : ListSt) :
    ∃ st' ws, listProgramTags W f st = some (.ok false, st') ∧ st'.tags = puts ws st.tags ∧
      ∀ e, e ∈ ws ↔ ∃ p ∈ c.programs, e ∈ subFacts (progOf p.entry).2 p.table := by
  obtain ⟨s0, fm, hfit, hnet⟩ := hW.programs st.n _ (asks_programs (W.seq st.n))
  have hl := C53_complete fm s0 (c.programs.map (·.entry)) (progNames_ok c hc) hfit
  rw [List.map_map] at hl
  obtain ⟨ys, hy1, hy2⟩ := perm_map_exists (fun p : Spec.Program => progOf p.entry)
    (hord (c.programs.map fun p => progOf p.entry))
  obtain ⟨st', ws, hr, ht, -, hw⟩ := subEachProgram_all W c hc hW ys (fun p hp => hy2.mem_iff.mp hp) f hf
    { st with n := st.n + 1, progs := c.programs.map fun p => progOf p.entry }
  refine ⟨st', ws, ?_, ht, fun e => ?_⟩
  · unfold listProgramTags
    rw [hnet]
    simp only
    rw [List.map_map] 
    rw [hl]
    simp only
    rw [List.map_map, show (c.programs.map (progOf ∘ fun x => x.entry)) = c.programs.map fun p => progOf p.entry from rfl, hy1, hr]
  · rw [hw e]
    constructor
    · rintro ⟨p, hp, h⟩; exact ⟨p, hy2.mem_iff.mp hp, h⟩
    · rintro ⟨p, hp, h⟩; exact ⟨p, hy2.mem_iff.mpr hp, h⟩

/-- The pages of the controller's own table, from an instance after the first. -/
theorem allTags_pages (W : ListWorld) (c : Spec.Plc) (hc : c.ok) (hW : Spec.Serves W.net c) (f : Nat)
    (start : BitVec 32) (st st0 : ListSt) (pre : List (Str × ListedTag)) (hst : st.tags = puts pre st0.tags)
    (h1 : 1 ≤ start.toNat) (hf : 2 ^ 32 - start.toNat < f)
    (hgo : (if start = 1 then listProgramTags W (f - 1) st0 else some (.ok false, st0)) = some (.ok false, st)) :
    ∃ st' ws, allTags W f start st0 = some (.ok (), st') ∧ st'.tags = puts (pre ++ ws) st0.tags ∧
      ∀ e, e ∈ ws ↔ e ∈ mainFacts (Spec.from_ c.table start.toNat) := by
  induction f generalizing start st st0 pre with
  | zero => omega
  | succ f ih =>
    obtain ⟨⟨hpw, hsz, -⟩, hkind, -, -⟩ := hc
    obtain ⟨r, hr, hpage⟩ := hW.symbols st.n _ _ (asks_main (W.seq st.n) start)
    obtain ⟨page, rest, d, hfrom, hmoved, hask, hread⟩ := ask_page hr hpage (fun s hs => (hsz s hs).2)
    have hmt : ∀ s ∈ page, s ∈ c.table := by
      intro s hs
      have : s ∈ Spec.from_ c.table start.toNat := by rw [hfrom]; exact List.mem_append_left _ hs
      exact (mem_from.mp this).1
    have heach := mainEach_page W f page { st with n := st.n + 1 } (fun s hs => hkind s (hmt s hs))
    rw [allTags]
    simp only [if_neg (show ¬ start.toNat < 1 by omega)]
    rw [Nat.add_sub_cancel] at hgo
    rw [hgo]
    simp only
    rw [hask]
    simp only
    rw [hread]
    simp only
    rw [heach]
    simp only
    by_cases hrest : rest = []
    · rw [if_pos hrest, if_neg (by decide)]
      refine ⟨_, mainFacts page, rfl, ?_, fun e => ?_⟩
      · simp only
        rw [hst, puts_append]
      · rw [hfrom, hrest, List.append_nil]
    · rw [if_neg hrest, if_pos rfl]
      obtain ⟨x, hx, hxi⟩ := hmoved hrest
      have hpne : page ≠ [] := List.ne_nil_of_mem hx
      obtain ⟨init, s, hsplit⟩ : ∃ init s, page = init ++ [s] :=
        ⟨page.dropLast, page.getLast hpne, (List.dropLast_concat_getLast hpne).symm⟩
      have hs : s ∈ page := by rw [hsplit]; simp
      have hlast : lastInst start (page.map symOf) = s.inst := by
        rw [hsplit]
        simp [lastInst, symOf]
      obtain ⟨-, -, hcover⟩ := page_cover hpw hfrom hs
      have hgt : start.toNat < s.inst.toNat := by
        have hpw' : page.Pairwise fun a b => a.inst.toNat < b.inst.toNat := by
          have : (page ++ rest).Pairwise fun a b => a.inst.toNat < b.inst.toNat := by
            rw [← hfrom]; exact hpw.filter _
          exact (List.pairwise_append.mp this).1
        rw [hsplit] at hpw' hx
        rcases List.mem_append.mp hx with hxa | hxb
        · have := (List.pairwise_append.mp hpw').2.2 x hxa s (by simp)
          omega
        · rw [List.mem_singleton] at hxb
          rw [← hxb]; exact hxi
      rw [hlast]
      have hne1 : s.inst ≠ 1 := by
        intro h
        rw [h] at hgt
        have : (1#32).toNat = 1 := rfl
        have h' : (1 : BitVec 32).toNat = 1 := rfl
        omega
      obtain ⟨st', ws, hrun, htags, hws⟩ := ih s.inst
        { st with n := st.n + 1, tags := puts (mainFacts page) st.tags }
        { st with n := st.n + 1, tags := puts (mainFacts page) st.tags } [] rfl (by omega) (by omega)
        (by rw [if_neg hne1])
      refine ⟨st', mainFacts page ++ ws, hrun, ?_, fun e => ?_⟩
      · rw [htags]
        simp only
        rw [hst, List.nil_append, puts_append, puts_append]
      · rw [List.mem_append, hws e, mem_mainFacts, mem_mainFacts, mem_mainFacts]
        constructor
        · rintro (⟨y, hy, h⟩ | ⟨y, hy, h⟩)
          · exact ⟨y, (hcover y).mpr (Or.inl hy), h⟩
          · exact ⟨y, (hcover y).mpr (Or.inr hy), h⟩
        · rintro ⟨y, hy, h⟩
          rcases (hcover y).mp hy with hy | hy
          · exact Or.inl ⟨y, hy, h⟩
          · exact Or.inr ⟨y, hy, h⟩

/-! ### The whole listing -/

theorem cut_dot {a b c d : Str} (ha : 0x2E#8 ∉ a) (hb : 0x2E#8 ∉ b)
    (h : a ++ 0x2E#8 :: c = b ++ 0x2E#8 :: d) : a = b ∧ c = d := by
  induction a generalizing b with
  | nil =>
    cases b with
    | nil => simpa using h
    | cons y b =>
      simp at h
      simp [← h.1] at hb
  | cons x a ih =>
    cases b with
    | nil =>
      simp at h
      simp [h.1] at ha
    | cons y b =>
      simp at h ha hb
      obtain ⟨h1, h2⟩ := ih ha.2 hb.2 h.2
      exact ⟨by rw [h.1, h1], h2⟩

theorem pairwise_eq {α : Type} {R : α → α → Prop} {l : List α} (h : l.Pairwise R) (hsym : ∀ {a b}, R a b → R b a)
    {a b : α} (ha : a ∈ l) (hb : b ∈ l) (hn : ¬ R a b) : a = b := by
  induction h with
  | nil => simp at ha
  | cons hx _ ih =>
    rcases List.mem_cons.mp ha with rfl | ha
    · rcases List.mem_cons.mp hb with rfl | hb
      · rfl
      · exact absurd (hx _ hb) hn
    · rcases List.mem_cons.mp hb with hbe | hb
      · exact absurd (hsym (hbe ▸ hx _ ha)) hn
      · exact ih ha hb

theorem subTag_name (p : Spec.Program) (s : Spec.Symbol) :
    (subTag (progOf p.entry).2 (symOf s)).name = Spec.fullName p s := by
  simp [subTag, progOf, symOf, Spec.fullName]

theorem fullName_lower (p : Spec.Program) (s : Spec.Symbol) :
    toLower (Spec.fullName p s) = str "program:" ++ (toLower p.entry.name ++ 0x2E#8 :: toLower s.name) := by
  simp only [Spec.fullName, toLower_append]
  rfl

theorem fullName_inj {c : Spec.Plc} (hc : c.ok) {p q : Spec.Program} {s t : Spec.Symbol} (hp : p ∈ c.programs)
    (hq : q ∈ c.programs) (hs : s ∈ p.table) (ht : t ∈ q.table) (hsu : s.user) (htu : t.user)
    (h : toLower (Spec.fullName p s) = toLower (Spec.fullName q t)) : p = q ∧ s = t := by
  obtain ⟨-, -, hps, hpw⟩ := hc
  rw [fullName_lower, fullName_lower] at h
  have h := List.append_cancel_left h
  have hdot : ∀ p ∈ c.programs, 0x2E#8 ∉ toLower p.entry.name := by
    intro p hp
    rw [mem_toLower_iff (by decide) (by decide)]
    exact (hps p hp).2.2.2.1
  obtain ⟨h1, h2⟩ := cut_dot (hdot p hp) (hdot q hq) h
  have hpq : p = q := Classical.byContradiction fun hne => by
    exact hne (pairwise_eq hpw (fun h => h.symm) hp hq (fun h => h h1))
  subst hpq
  exact ⟨rfl, (hps p hp).1.2.2 s hs t ht hsu htu h2⟩

theorem arrayOrder_dims (s : Spec.Symbol) : Spec.Dims s (arrayOrder (symOf s).info) := by
  have hz : ∀ v : BitVec 32, v ≠ 0 → v.toNat ≠ 0 := fun v h h' => h (BitVec.eq_of_toNat_eq (by simpa using h'))
  unfold arrayOrder symOf Spec.Dims
  simp only
  split
  · rename_i h
    exact ⟨⟨0, rfl⟩, by simpa using hz _ h⟩
  · rename_i h3
    have h3 : s.d3 = 0 := Classical.byContradiction h3
    split
    · rename_i h
      exact ⟨⟨1, by rw [h3]; rfl⟩, by simpa using hz _ h⟩
    · rename_i h2
      have h2 : s.d2 = 0 := Classical.byContradiction h2
      split
      · rename_i h
        exact ⟨⟨2, by rw [h3, h2]; rfl⟩, by simpa using hz _ h⟩
      · rename_i h1
        have h1 : s.d1 = 0 := Classical.byContradiction h1
        exact ⟨⟨3, by rw [h3, h2, h1]; rfl⟩, by simp⟩

theorem symOf_word (s : Spec.Symbol) :
    Spec.symbolWord (symOf s).info.type (symOf s).info.typeInfo = s.type.toNat := by
  have := s.type.isLt
  simp only [Spec.symbolWord, symOf, BitVec.toNat_ofNat]
  omega

/-- After `ListAllTags` on a controller that answers from its tables, every user tag of the controller and
of its programs is recorded under its full name in lower case, with its instance, type, dimensions and program, and
nothing else is. -/
theorem C46_list_all_partial (W : ListWorld) (c : Spec.Plc) (hc : c.ok) (hW : Spec.Serves W.net c)
    (hord : ∀ l, (W.ord l).Perm l) (f : Nat) (hf : 2 ^ 32 < f) (st : ListSt) :
    ∃ st', allTags W f 0 st = some (.ok (), st') ∧
      (∀ s ∈ c.table, s.user → ∃ t, st'.tags.lookup (toLower s.name) = some t ∧ Spec.Records t s.name s ∧
        t.parent = none) ∧
      (∀ p ∈ c.programs, ∀ s ∈ p.table, s.user →
        ∃ t, st'.tags.lookup (toLower (Spec.fullName p s)) = some t ∧ Spec.Records t (Spec.fullName p s) s ∧
          ∃ q, t.parent = some q ∧ q.name = p.entry.name ∧ q.id.toNat = p.entry.id.toNat) ∧
      ∀ k, (¬ ∃ s ∈ c.table, s.user ∧ k = toLower s.name) →
        (¬ ∃ p ∈ c.programs, ∃ s ∈ p.table, s.user ∧ k = toLower (Spec.fullName p s)) →
        st'.tags.lookup k = st.tags.lookup k := by
  obtain ⟨g, rfl⟩ : ∃ g, f = g + 1 := ⟨f - 1, by omega⟩
  obtain ⟨st1, pre, hl, ht1, hpre⟩ := listProgramTags_all W c hc hW hord g (by omega) st
  obtain ⟨st', ws, hrun, htags, hws⟩ := allTags_pages W c hc hW (g + 1) 1 st1 st pre ht1 (by decide)
    (by show 2 ^ 32 - 1 < g + 1; omega) (by rw [if_pos rfl]; exact hl)
  rw [show (1 : BitVec 32).toNat = 1 from rfl, from_one _ fun s hs => (hc.1.2.1 s hs).1] at hws
  have hzero : allTags W (g + 1) 0 st = allTags W (g + 1) 1 st := by
    rw [allTags, allTags]
    rfl
  have hall : ∀ e, e ∈ pre ++ ws ↔
      (∃ p ∈ c.programs, ∃ s ∈ p.table, s.user ∧
        e = (toLower (Spec.fullName p s), subTag (progOf p.entry).2 (symOf s))) ∨
      ∃ s ∈ c.table, s.user ∧ e = (toLower s.name, mainTag (symOf s)) := by
    intro e
    rw [List.mem_append, hpre e, hws e, mem_mainFacts]
    simp only [mem_subFacts, subTag_name]
  have hcolon : ∀ p s, 0x3A#8 ∈ toLower (Spec.fullName p s) := by
    intro p s
    rw [fullName_lower]
    exact List.mem_append_left _ (by decide)
  have huser : ∀ s : Spec.Symbol, s.user → 0x3A#8 ∉ toLower s.name := by
    intro s hs
    rw [mem_toLower_iff (by decide) (by decide)]
    exact hs.2.2
  refine ⟨st', by rw [hzero, hrun], ?_, ?_, ?_⟩
  · intro s hs hsu
    refine ⟨mainTag (symOf s), ?_, ⟨rfl, rfl, symOf_word s, rfl, rfl, rfl, arrayOrder_dims s⟩, rfl⟩
    rw [htags]
    refine puts_lookup_some _ _ _ _ ((hall _).mpr (Or.inr ⟨s, hs, hsu, rfl⟩)) fun e he hk => ?_
    rcases (hall e).mp he with ⟨p, hp, t, ht, htu, rfl⟩ | ⟨t, ht, htu, rfl⟩
    · have h1 := hcolon p t
      rw [show toLower (Spec.fullName p t) = toLower s.name from hk] at h1
      exact absurd h1 (huser s hsu)
    · rw [hc.1.2.2 t ht s hs htu hsu hk]
  · intro p hp s hs hsu
    refine ⟨subTag (progOf p.entry).2 (symOf s), ?_, ⟨subTag_name p s, rfl, symOf_word s, rfl, rfl, rfl,
      arrayOrder_dims s⟩, _, rfl, rfl, by
        have := p.entry.id.isLt
        simp [progOf]; omega⟩
    rw [htags]
    refine puts_lookup_some _ _ _ _ ((hall _).mpr (Or.inl ⟨p, hp, s, hs, hsu, rfl⟩)) fun e he hk => ?_
    rcases (hall e).mp he with ⟨q, hq, t, ht, htu, rfl⟩ | ⟨t, ht, htu, rfl⟩
    · obtain ⟨rfl, rfl⟩ := fullName_inj hc hq hp ht hs htu hsu hk
      rfl
    · have h1 := hcolon p s
      rw [← show toLower t.name = toLower (Spec.fullName p s) from hk] at h1
      exact absurd h1 (huser t htu)
  · intro k h1 h2
    rw [htags]
    refine puts_lookup_none _ _ _ fun e he hk => ?_
    rcases (hall e).mp he with ⟨q, hq, t, ht, htu, rfl⟩ | ⟨t, ht, htu, rfl⟩
    · exact h2 ⟨q, hq, t, ht, htu, hk.symm⟩
    · exact h1 ⟨t, ht, htu, hk.symm⟩

/-! ### A controller -/

/-- Up to two entries per reply. -/
def twoPage (t : List Spec.Symbol) (start : Nat) : Reply :=
  let l := Spec.from_ t start
  ⟨0, (⟨0, 0, (0xA1, [1, 2, 3, 4]), 0xB1, 7, []⟩ : Spec.CForm).payload
    ([0xD5#8, 0#8, if l.drop 2 = [] then 0#8 else 6#8, 0#8] ++ ((l.take 2).map Spec.Symbol.bytes).flatten)⟩

theorem twoPage_page (t : List Spec.Symbol) (start : Nat) (ht : t.Pairwise fun a b => a.inst.toNat < b.inst.toNat)
    (hl : ∀ s ∈ t, s.name.length < 1000) (moved : List Spec.Symbol → Prop)
    (hm : ∀ a b, a ∈ t → b ∈ t → start ≤ a.inst.toNat → a.inst.toNat < b.inst.toNat → moved [a, b]) :
    Spec.Page t start moved (twoPage t start) := by
  refine ⟨⟨0, 0, (0xA1, [1, 2, 3, 4]), 0xB1, 7, []⟩, (Spec.from_ t start).take 2, (Spec.from_ t start).drop 2,
    (List.take_append_drop _ _).symm, ?_, ?_, rfl⟩
  · intro h
    have hmem : ∀ x ∈ Spec.from_ t start, x ∈ t ∧ start ≤ x.inst.toNat := fun x hx => mem_from.mp hx
    have hpw : (Spec.from_ t start).Pairwise fun a b => a.inst.toNat < b.inst.toNat := ht.filter _
    match hd : Spec.from_ t start with
    | [] => rw [hd] at h; exact absurd rfl h
    | [_] => rw [hd] at h; exact absurd rfl h
    | a :: b :: r =>
      rw [hd] at hmem hpw
      exact hm a b (hmem a (by simp)).1 (hmem b (by simp)).1 (hmem a (by simp)).2
        ((List.pairwise_cons.mp hpw).1 b (by simp))
  · have hb : (((Spec.from_ t start).take 2).map Spec.Symbol.bytes).flatten.length < 4000 := by
      have hmem : ∀ x ∈ Spec.from_ t start, x.name.length < 1000 := fun x hx => hl x (mem_from.mp hx).1
      match hd : Spec.from_ t start with
      | [] => simp
      | [a] =>
        rw [hd] at hmem
        have := hmem a (by simp)
        simp [Spec.Symbol.bytes]
        omega
      | a :: b :: r =>
        rw [hd] at hmem
        have := hmem a (by simp)
        have := hmem b (by simp)
        simp [Spec.Symbol.bytes]
        omega
    constructor
    · simp [Spec.CForm.items]
    · intro x hx
      simp only [Spec.CForm.items, List.mem_cons, List.not_mem_nil, or_false] at hx
      rcases hx with rfl | rfl
      · simp
      · simp only [List.length_append, le_length, List.length_cons, List.length_nil]
        omega

/-- The answers of a controller to the requests. -/
def answer (c : Spec.Plc) (_ : Nat) (req : Bytes) : Res Reply :=
  let path := (req.drop 4).take (2 * ((req.drop 3).headD 0).toNat)
  match Spec.decodePath path.length path with
  | some [(.classId, a), (.instanceId, b)] =>
    if a = 0x68 then
      .ok ⟨0, (⟨0, 0, (0xA1, [1, 2, 3, 4]), 0xB1, 7, []⟩ : Spec.CForm).payload
        ([0xD5#8, 0#8, 0#8, 0#8] ++ ((c.programs.map (·.entry)).map Spec.ProgEntry.bytes).flatten)⟩
    else .ok (twoPage c.table b)
  | some [_, (.instanceId, i), _, (.instanceId, b)] =>
    match c.programs.find? (fun p => p.entry.id.toNat == i) with
    | some p => .ok (twoPage p.table b)
    | none => .err .fail
  | _ => .err .fail

theorem answer_path {req : Bytes} {path : List (Spec.LogicalType × Nat)} {attrs : List Nat}
    (h : Spec.AsksFor req path attrs) :
    Spec.decodePath ((req.drop 4).take (2 * ((req.drop 3).headD 0).toNat)).length
      ((req.drop 4).take (2 * ((req.drop 3).headD 0).toNat)) = some path := by
  obtain ⟨seq, p, he, hl, hd, rfl⟩ := h
  have h3 : ((le 2 seq.toNat ++ ([0x55#8, BitVec.ofNat 8 (p.length / 2)] ++ (p ++
      (le 2 attrs.length ++ (attrs.map (le 2)).flatten)))).drop 3).headD 0 = BitVec.ofNat 8 (p.length / 2) := rfl
  have h4 : (le 2 seq.toNat ++ ([0x55#8, BitVec.ofNat 8 (p.length / 2)] ++ (p ++
      (le 2 attrs.length ++ (attrs.map (le 2)).flatten)))).drop 4 = p ++
      (le 2 attrs.length ++ (attrs.map (le 2)).flatten) := rfl
  rw [h3, h4, BitVec.toNat_ofNat, show 2 * (p.length / 2 % 2 ^ 8) = p.length by omega, List.take_left]
  exact hd

/-- The controller of the examples: a two-dimensional array, a system tag, a program and a scalar of its
own, three tags in the program. -/
def demoPlc : Spec.Plc where
  table := [⟨1, str "Grid", 0x40C3#16, 4, 5, 0⟩, ⟨3, str "__hidden", 0xC4#16, 0, 0, 0⟩,
    ⟨8, str "Program:Main", 0x68#16, 0, 0, 0⟩, ⟨0x10000, str "Speed", 0xCA#16, 0, 0, 0⟩]
  programs := [⟨⟨0x101, 0, str "Main"⟩, [⟨2, str "Count", 0xC4#16, 0, 0, 0⟩,
    ⟨5, str "Ready", 0xC1#16, 0, 0, 0⟩, ⟨6, str "Speed", 0xCA#16, 7, 0, 0⟩]⟩]

instance (s : Spec.Symbol) : Decidable s.user := by unfold Spec.Symbol.user; infer_instance

instance (s : Spec.Symbol) : Decidable s.system := by unfold Spec.Symbol.system; infer_instance

theorem demoPlc_ok : demoPlc.ok := by
  refine ⟨⟨by decide, by decide, by decide⟩, ?_, ?_, by decide⟩
  · intro s hs
    simp only [demoPlc, List.mem_cons, List.not_mem_nil, or_false] at hs
    rcases hs with rfl | rfl | rfl | rfl
    · exact Or.inl (by decide)
    · exact Or.inr (Or.inl (by decide))
    · exact Or.inr (Or.inr ⟨str "Main", by decide, by decide⟩)
    · exact Or.inl (by decide)
  · intro p hp
    simp only [demoPlc, List.mem_cons, List.not_mem_nil, or_false] at hp
    subst hp
    refine ⟨⟨by decide, by decide, by decide⟩, fun s hs => Or.inl ?_, by decide, by decide, ?_, by decide⟩
    · revert s; decide
    · unfold Spec.Trimmed Spec.Blank; decide

theorem demoPlc_serves : Spec.Serves (answer demoPlc) demoPlc where
  programs := by
    intro n req h
    refine ⟨0, ⟨0, 0, (0xA1, [1, 2, 3, 4]), 0xB1, 7, []⟩, ?_, ?_⟩
    · unfold Spec.CForm.fits
      decide +kernel
    · unfold answer
      simp only [answer_path h]
      rfl
  symbols := by
    intro n req start h
    refine ⟨twoPage demoPlc.table start, ?_, twoPage_page _ _ (by decide) (by decide) _ ?_⟩
    · unfold answer
      simp only [answer_path h]
      rfl
    · intro a b _ _ h1 h2
      exact ⟨b, by simp, by omega⟩
  tags := by
    intro p hp n req start h
    simp only [demoPlc, List.mem_cons, List.not_mem_nil, or_false] at hp
    refine ⟨twoPage p.table start, ?_, twoPage_page _ _ ?_ ?_ _ ?_⟩
    · unfold answer
      simp only [answer_path h]
      subst hp
      rfl
    · subst hp; decide
    · subst hp; decide
    · intro a b _ hb h1 h2
      refine ⟨b, by simp, ?_, by omega⟩
      subst hp
      clear h2
      revert b; decide

def demoListWorld : ListWorld := { net := answer demoPlc, seq := fun n => BitVec.ofNat 16 n, ord := id }

example : ∃ st', allTags demoListWorld (2 ^ 32 + 1) 0 ⟨[], [], 0⟩ = some (.ok (), st') ∧
    ∃ t, st'.tags.lookup (str "program:main.speed") = some t ∧ t.inst = 6 ∧ t.info.dim1 = 7 := by
  obtain ⟨st', h1, -, h3, -⟩ := C46_list_all_partial demoListWorld demoPlc demoPlc_ok demoPlc_serves
    (fun l => List.Perm.refl l) (2 ^ 32 + 1) (by omega) ⟨[], [], 0⟩
  obtain ⟨t, ht, ⟨-, hi, -, hd, -⟩, -⟩ := h3 ⟨⟨0x101, 0, str "Main"⟩, [⟨2, str "Count", 0xC4#16, 0, 0, 0⟩,
    ⟨5, str "Ready", 0xC1#16, 0, 0, 0⟩, ⟨6, str "Speed", 0xCA#16, 7, 0, 0⟩]⟩ (by decide)
    ⟨6, str "Speed", 0xCA#16, 7, 0, 0⟩ (by decide) (by decide)
  exact ⟨st', h1, t, ht, hi, hd⟩

example : (allTags demoListWorld 5 0 ⟨[], [], 0⟩).map (fun r => r.2.tags.map fun t => (t.1, t.2.inst, t.2.order)) =
    some [(str "program:main.count", 2#32, []), (str "program:main.ready", 5#32, []),
      (str "program:main.speed", 6#32, [7]), (str "grid", 1#32, [4, 5]), (str "speed", 0x10000#32, [])] := by
  decide +kernel

/-! ### Where the listing fails -/

/-- A reply with some entries and a status. -/
def pageReply (status : Byte) (page : List Spec.Symbol) : Reply :=
  ⟨0, (⟨0, 0, (0xA1, [1, 2, 3, 4]), 0xB1, 7, []⟩ : Spec.CForm).payload
    ([0xD5#8, 0#8, status, 0#8] ++ (page.map Spec.Symbol.bytes).flatten)⟩

/-- C46 is false of a controller whose replies have room for one entry: the next request starts at that
entry again, and `ListAllTags` does not return. -/
theorem C46_one_entry_pages_never_return (s : Spec.Symbol) (hs : s = ⟨1, str "Speed", 0xCA#16, 0, 0, 0⟩)
    (W : ListWorld) (hW : ∀ n req, W.net n req = .ok (pageReply 6 [s])) (f : Nat) (st : ListSt) :
    allTags W f 0 st = none := by
  suffices h : ∀ start : BitVec 32, start = 0 ∨ start = 1 → allTags W f start st = none from h 0 (Or.inl rfl)
  have hl : listPrograms (pageReply 6 [s]) = .err (.cipStatus 6) := by subst hs; decide +kernel
  have hp : symbolsPage (pageReply 6 [s]) = .ok (6#16, s.bytes) := by subst hs; decide +kernel
  have hr : readSyms (s.bytes.length + 1) s.bytes = ([symOf s], .ok ()) := by subst hs; decide +kernel
  have hv : isValidTag (symOf s).name = true := by subst hs; decide +kernel
  have hn : ¬ (8 < (symOf s).name.length ∧ (str "Program:").isPrefixOf (symOf s).name = true) := by
    subst hs; decide +kernel
  have hi : lastInst 1 [symOf s] = 1 := by subst hs; rfl
  induction f generalizing st with
  | zero => intro _ _; rfl
  | succ f ih =>
    intro start hstart
    have h1 : (if start.toNat < 1 then 1 else start) = 1 := by
      rcases hstart with rfl | rfl <;> rfl
    rw [allTags]
    simp only [h1, if_true]
    unfold listProgramTags
    rw [hW]
    simp only
    rw [hl]
    simp only
    unfold askPage
    rw [hW]
    simp only [Res.bind]
    rw [hp]
    simp only
    rw [hr]
    simp only
    rw [mainEach, hv, if_neg (by decide), if_neg hn, mainEach]
    simp only [if_true]
    rw [hi]
    exact ih _ 1 (Or.inr rfl)

/-- C46 is false of a program whose first reply has system tags only: `ListSubTags` asks for the same
entries again and does not return, even though the reply goes beyond the instance asked for. -/
theorem C46_system_page_never_returns (a b : Spec.Symbol) (ha : a = ⟨1, str "__a", 0xC4#16, 0, 0, 0⟩)
    (hb : b = ⟨2, str "__b", 0xC4#16, 0, 0, 0⟩) (p : KnownProgram)
    (W : ListWorld) (hW : ∀ n req, W.net n req = .ok (pageReply 6 [a, b])) (f : Nat) (st : ListSt) :
    subTags W f p 1 st = none := by
  have hp : symbolsPage (pageReply 6 [a, b]) = .ok (6#16, a.bytes ++ b.bytes) := by subst ha hb; decide +kernel
  have hr : readSyms ((a.bytes ++ b.bytes).length + 1) (a.bytes ++ b.bytes) = ([symOf a, symOf b], .ok ()) := by
    subst ha hb; decide +kernel
  have hva : isValidTag (symOf a).name = false := by subst ha; decide +kernel
  have hvb : isValidTag (symOf b).name = false := by subst hb; decide +kernel
  induction f generalizing st with
  | zero => rfl
  | succ f ih =>
    rw [subTags, if_neg (by decide)]
    unfold askPage
    rw [hW]
    simp only [Res.bind]
    rw [hp]
    simp only
    rw [hr]
    simp only
    have he : ∀ st, subEach p [symOf a, symOf b] 1 st = ([], 1, st) := by
      intro st
      simp [subEach, hva, hvb]
    rw [he]
    simp only [if_true]
    rw [ih]

/-- C46 is false of a controller that answers with an error: any status but 6 passes for a complete
list. -/
theorem C46_error_status_accepted (W : ListWorld) (status : Byte) (hs : status ≠ 6) (start : BitVec 32)
    (h1 : 2 ≤ start.toNat) (hW : ∀ n req, W.net n req = .ok (pageReply status [])) (f : Nat) (st : ListSt) :
    allTags W (f + 1) start st = some (.ok (), { st with n := st.n + 1 }) := by
  have hp := symbolsPage_form ⟨0, 0, (0xA1, [1, 2, 3, 4]), 0xB1, 7, []⟩ 0 status [] (by
    constructor
    · simp [Spec.CForm.items]
    · simp [Spec.CForm.items])
  have hp : symbolsPage (pageReply status []) = _ := hp
  have hs' : BitVec.ofNat 16 status.toNat ≠ 6#16 := by
    intro h
    apply hs
    have := congrArg BitVec.toNat h
    have hlt := status.isLt
    simp at this
    apply BitVec.eq_of_toNat_eq
    show status.toNat = 6
    omega
  have hs1 : start ≠ 1 := by
    intro h
    rw [h] at h1
    exact absurd h1 (by decide)
  rw [allTags]
  simp only [if_neg (show ¬ start.toNat < 1 by omega), if_neg hs1]
  unfold askPage
  rw [hW]
  simp only [Res.bind]
  rw [hp]
  simp only
  rw [show readSyms (([] : Bytes).length + 1) [] = ([], .ok ()) from rfl]
  simp only
  rw [mainEach]
  simp only
  rw [if_neg hs']

/-- The names that pass for tags of the user's although they are not: program and module entries. -/
theorem C46_not_user_recorded (n : Str) (h : str "Program" <+: n) : isValidTag n = true := by
  obtain ⟨t, rfl⟩ := h
  unfold isValidTag
  rw [if_neg (by simp [str]), show (str "__").isPrefixOf (str "Program" ++ t) = false from rfl,
    if_neg (by decide), if_neg]
  rw [show (str "Program").isPrefixOf (str "Program" ++ t) = true by simp]
  simp

/-- A controller that does not list its programs. -/
def fallbackNet (n : Nat) (_ : Bytes) : Res Reply :=
  match n with
  | 0 => .ok (pageReply 5 [])
  | 1 => .ok (pageReply 6 [⟨1, str "Program:Main", 0x68#16, 0, 0, 0⟩, ⟨2, str "Speed", 0xCA#16, 0, 0, 0⟩])
  | 2 => .ok (pageReply 0 [⟨1, str "Count", 0xC4#16, 0, 0, 0⟩])
  | _ => .ok (pageReply 0 [⟨2, str "Speed", 0xCA#16, 0, 0, 0⟩, ⟨3, str "Program:Aux", 0x68#16, 0, 0, 0⟩])

/-- C46 is false of a controller that refuses the program list: the programs are then taken from the symbol
list, recorded as tags, and those not on its first page are skipped. -/
theorem C46_fallback :
    (allTags ⟨fallbackNet, fun _ => 0, id⟩ 4 0 ⟨[], [], 0⟩).map (fun r => (r.2.progs.map (·.1), r.2.tags.map (·.1))) =
      some ([str "main"], [str "program:main.count", str "program:main", str "speed"]) := by
  decide +kernel

end Gologix
