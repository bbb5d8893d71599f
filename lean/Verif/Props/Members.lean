import Verif.Spec.Members
import Verif.Props.TagList
/-
C66 A structure description is parsed to its name and members
-/
set_option linter.unusedSimpArgs false

namespace Gologix

/-! ### Requests -/

theorem templatePath (inst : BitVec 32) :
    let p := classBytes 0x6C#16 ++ instanceBytes inst
    p.length % 2 = 0 ∧ p.length < 512 ∧
      Spec.decodePath p.length p = some [(.classId, 0x6C), (.instanceId, inst.toNat)] := by
  have hc := classBytes_length 0x6C#16
  have hi := instanceBytes_length inst
  refine ⟨by simp only [List.length_append]; omega, by simp only [List.length_append]; omega, ?_⟩
  obtain ⟨k, hk⟩ : ∃ k, (classBytes 0x6C#16 ++ instanceBytes inst).length = k + 1 + 1 :=
    ⟨(classBytes 0x6C#16 ++ instanceBytes inst).length - 2, by simp only [List.length_append]; omega⟩
  rw [hk, decodePath_class]
  have := decodePath_instance inst k []
  rw [List.append_nil] at this
  rw [this, decodePath_nil]
  rfl

theorem asks_attrs (seq : BitVec 16) (inst : BitVec 32) (h : inst ≠ 0#32) :
    Spec.AsksTemplate (templateAttrRequest seq inst) 0x03#8 inst.toNat
      (le 2 4 ++ (le 2 4 ++ (le 2 5 ++ (le 2 2 ++ le 2 1)))) := by
  obtain ⟨h1, h2, h3⟩ := templatePath inst
  refine ⟨seq, _, h1, h2, h3, ?_⟩
  unfold templateAttrRequest pathLengthOf
  rw [if_neg h]
  simp only [List.append_assoc]
  rfl

theorem asks_data (seq : BitVec 16) (inst : BitVec 32) (info : TemplateInfo) :
    Spec.AsksTemplate (templateReadRequest seq inst info) 0x4C#8 inst.toNat
      (le 4 0 ++ le 2 (templateReadLength info).toNat) := by
  obtain ⟨h1, h2, h3⟩ := templatePath inst
  refine ⟨seq, _, h1, h2, h3, ?_⟩
  unfold templateReadRequest pathLengthOf
  simp only [List.append_assoc]
  rfl

/-- The client asks for the whole definition. -/
theorem readLength_eq (info : TemplateInfo) (h : 23 ≤ 4 * info.words.toNat) (h2 : 4 * info.words.toNat < 65536 + 23) :
    (templateReadLength info).toNat = 4 * info.words.toNat - 23 := by
  unfold templateReadLength
  simp only [BitVec.toNat_setWidth, BitVec.toNat_sub, BitVec.toNat_mul, BitVec.toNat_ofNat]
  omega

/-! ### Replies -/

theorem item1_form (f : Spec.CForm) (body : Bytes) (hf : f.fits body) :
    f.payload body ≠ [] ∧ item1 ((f.payload body).drop 6) = .ok (le 2 f.seq.toNat ++ body) := by
  have hr := readItems_cpf _ [] hf.1 hf.2
  rw [List.append_nil] at hr
  have hd : (f.payload body).drop 6 = Spec.cpf (f.items body) := by
    unfold Spec.CForm.payload
    rw [← List.append_assoc, List.drop_left' (by simp)]
  refine ⟨by simp [Spec.CForm.payload, le], ?_⟩
  rw [hd]
  unfold item1
  rw [hr, Res.bind_ok]
  rfl

theorem ofNat_unle_le2 (v : BitVec 16) : BitVec.ofNat 16 (unle (le 2 v.toNat)) = v := by
  have := v.isLt
  rw [unle_le]
  apply BitVec.eq_of_toNat_eq
  simp
  omega

theorem attrReply_form (f : Spec.CForm) (st : BitVec 32) (t : Spec.Template)
    (hf : f.fits ([0x83#8, 0#8, 0#8, 0#8] ++ t.attrs)) :
    templateAttrReply ⟨st, f.payload ([0x83#8, 0#8, 0#8, 0#8] ++ t.attrs)⟩ =
      .ok ⟨t.words, t.bytes, BitVec.ofNat 16 t.fields.length, t.handle⟩ := by
  obtain ⟨h1, h2⟩ := item1_form f _ hf
  unfold templateAttrReply
  simp only
  rw [if_neg h1, h2, Res.bind_ok]
  have hl : (le 2 f.seq.toNat ++ ([0x83#8, 0#8, 0#8, 0#8] ++ t.attrs)).length = 36 := by
    simp [Spec.Template.attrs]
  have := readN_append' (rest := []) hl
  rw [List.append_nil] at this
  rw [this, Res.bind_ok]
  simp only
  have e1 : le 2 f.seq.toNat ++ ([0x83#8, 0#8, 0#8, 0#8] ++ t.attrs) =
      (le 2 f.seq.toNat ++ ([0x83#8, 0#8, 0#8, 0#8] ++ (le 2 4 ++ (le 2 4 ++ le 2 0)))) ++ (le 4 t.words.toNat ++
        ((le 2 5 ++ (le 2 0 ++ le 4 t.bytes.toNat)) ++
    ((le 2 2 ++ (le 2 0 ++ le 2 t.fields.length)) ++ (le 2 1 ++ (le 2 0 ++ le 2 t.handle.toNat))))) := by
    simp [Spec.Template.attrs]
  have e2 : le 2 f.seq.toNat ++ ([0x83#8, 0#8, 0#8, 0#8] ++ t.attrs) =
      (le 2 f.seq.toNat ++ ([0x83#8, 0#8, 0#8, 0#8] ++ (le 2 4 ++ (le 2 4 ++ (le 2 0 ++ (le 4 t.words.toNat ++
        (le 2 5 ++ le 2 0))))))) ++ (le 4 t.bytes.toNat ++
    ((le 2 2 ++ (le 2 0 ++ le 2 t.fields.length)) ++ (le 2 1 ++ (le 2 0 ++ le 2 t.handle.toNat)))) := by
    simp [Spec.Template.attrs]
  have e3 : le 2 f.seq.toNat ++ ([0x83#8, 0#8, 0#8, 0#8] ++ t.attrs) =
      (le 2 f.seq.toNat ++ ([0x83#8, 0#8, 0#8, 0#8] ++ (le 2 4 ++ (le 2 4 ++ (le 2 0 ++ (le 4 t.words.toNat ++
        (le 2 5 ++ (le 2 0 ++ (le 4 t.bytes.toNat ++ (le 2 2 ++ le 2 0)))))))))) ++ (le 2 t.fields.length ++
          (le 2 1 ++ (le 2 0 ++ le 2 t.handle.toNat))) := by
    simp [Spec.Template.attrs]
  have e4 : le 2 f.seq.toNat ++ ([0x83#8, 0#8, 0#8, 0#8] ++ t.attrs) =
      (le 2 f.seq.toNat ++ ([0x83#8, 0#8, 0#8, 0#8] ++ (le 2 4 ++ (le 2 4 ++ (le 2 0 ++ (le 4 t.words.toNat ++
        (le 2 5 ++ (le 2 0 ++ (le 4 t.bytes.toNat ++ (le 2 2 ++ (le 2 0 ++ (le 2 t.fields.length ++
          (le 2 1 ++ le 2 0))))))))))))) ++ le 2 t.handle.toNat := by
    simp [Spec.Template.attrs]
  have w1 : ((le 2 f.seq.toNat ++ ([0x83#8, 0#8, 0#8, 0#8] ++ t.attrs)).drop 12).take 4 = le 4 t.words.toNat := by
    rw [e1, List.drop_left' (by simp), List.take_left' (by simp)]
  have w2 : ((le 2 f.seq.toNat ++ ([0x83#8, 0#8, 0#8, 0#8] ++ t.attrs)).drop 20).take 4 = le 4 t.bytes.toNat := by
    rw [e2, List.drop_left' (by simp), List.take_left' (by simp)]
  have w3 : ((le 2 f.seq.toNat ++ ([0x83#8, 0#8, 0#8, 0#8] ++ t.attrs)).drop 28).take 2 = le 2 t.fields.length := by
    rw [e3, List.drop_left' (by simp), List.take_left' (by simp)]
  have w4 : ((le 2 f.seq.toNat ++ ([0x83#8, 0#8, 0#8, 0#8] ++ t.attrs)).drop 34).take 2 = le 2 t.handle.toNat := by
    rw [e4, List.drop_left' (by simp), List.take_of_length_le (by simp)]
  rw [w1, w2, w3, w4, ofNat_unle_le4, ofNat_unle_le4, ofNat_unle_le2]
  have : BitVec.ofNat 16 (unle (le 2 t.fields.length)) = BitVec.ofNat 16 t.fields.length := by
    rw [unle_le]
    apply BitVec.eq_of_toNat_eq
    simp
  rw [this]

theorem readReply_form (f : Spec.CForm) (st : BitVec 32) (status : Byte) (d : Bytes)
    (hf : f.fits ([0xCC#8, 0#8, status, 0#8] ++ d)) :
    templateReadReply ⟨st, f.payload ([0xCC#8, 0#8, status, 0#8] ++ d)⟩ = .ok d := by
  obtain ⟨h1, h2⟩ := item1_form f _ hf
  unfold templateReadReply
  simp only
  rw [if_neg h1, h2, Res.bind_ok, ← List.append_assoc, readN_append' (by simp), Res.bind_ok]

/-! ### The definition -/

theorem readInfos_bytes (fs : List Spec.Field) (r : Bytes) :
    readInfos fs.length ((fs.map Spec.Field.bytes).flatten ++ r) = fs.map fun f => ⟨f.info, f.type, f.offset⟩ := by
  induction fs with
  | nil => rfl
  | cons f fs ih =>
    rw [List.length_cons, readInfos, List.map_cons, List.flatten_cons, List.append_assoc]
    have e : f.bytes ++ ((fs.map Spec.Field.bytes).flatten ++ r) =
        le 2 f.info.toNat ++ (le 2 f.type.toNat ++ (le 4 f.offset.toNat ++ ((fs.map Spec.Field.bytes).flatten ++ r))) := by
      simp [Spec.Field.bytes]
    have d8 : (f.bytes ++ ((fs.map Spec.Field.bytes).flatten ++ r)).drop 8 = (fs.map Spec.Field.bytes).flatten ++ r :=
      List.drop_left' (by simp [Spec.Field.bytes])
    have t1 : (f.bytes ++ ((fs.map Spec.Field.bytes).flatten ++ r)).take 2 = le 2 f.info.toNat := by
      rw [e, List.take_left' (by simp)]
    have t2 : ((f.bytes ++ ((fs.map Spec.Field.bytes).flatten ++ r)).drop 2).take 2 = le 2 f.type.toNat := by
      rw [e, List.drop_left' (by simp), List.take_left' (by simp)]
    have t3 : ((f.bytes ++ ((fs.map Spec.Field.bytes).flatten ++ r)).drop 4).take 4 = le 4 f.offset.toNat := by
      rw [e, ← List.append_assoc, List.drop_left' (by simp), List.take_left' (by simp)]
    rw [d8, t1, t2, t3, ih, ofNat_unle_le2, ofNat_unle_le2, ofNat_unle_le4, List.map_cons]

theorem infos_length (fs : List Spec.Field) : (fs.map Spec.Field.bytes).flatten.length = 8 * fs.length := by
  induction fs with
  | nil => rfl
  | cons f fs ih =>
    have : f.bytes.length = 8 := by simp [Spec.Field.bytes]
    rw [List.map_cons, List.flatten_cons, List.length_append, ih, this, List.length_cons]
    omega

theorem readString0_nul (s r : Bytes) (h : 0#8 ∉ s) : readString0 (s ++ 0#8 :: r) = (s ++ [0#8], true, r) := by
  have hp : ∀ x ∈ s, (x != 0#8) = true := by
    intro x hx
    simp only [bne_iff_ne, ne_eq]
    intro e; subst e; exact h hx
  unfold readString0
  rw [List.dropWhile_append_of_pos hp, List.takeWhile_append_of_pos hp]
  simp

theorem readString0_end (s : Bytes) (h : 0#8 ∉ s) : readString0 s = (s, false, []) := by
  have hp : ∀ x ∈ s, (x != 0#8) = true := by
    intro x hx
    simp only [bne_iff_ne, ne_eq]
    intro e; subst e; exact h hx
  unfold readString0
  have := List.dropWhile_append_of_pos (l₂ := []) hp
  rw [List.append_nil] at this
  rw [this]
  simp

theorem structName_plain (s r : Bytes) (h0 : 0#8 ∉ s) (h1 : 0x3B#8 ∉ s) :
    structName (s ++ 0#8 :: r) = .ok (s, r) := by
  unfold structName
  rw [readString0_nul s r h0]
  simp only
  have : (s ++ [0#8]).contains 0x3B#8 = false := by simp [h1]
  rw [this]
  simp

theorem structName_tail (s x r : Bytes) (h0 : 0#8 ∉ s) (h1 : 0x3B#8 ∉ s) (h2 : 0#8 ∉ x) :
    structName (s ++ (0x3B#8 :: x ++ 0#8 :: r)) = if s = [] then .panic else .ok (s.dropLast, r) := by
  have e : s ++ (0x3B#8 :: x ++ 0#8 :: r) = (s ++ 0x3B#8 :: x) ++ 0#8 :: r := by simp
  unfold structName
  rw [e, readString0_nul _ r (by simp [h0, h2])]
  simp only
  have hc : (s ++ 0x3B#8 :: x ++ [0#8]).contains 0x3B#8 = true := by simp
  rw [hc, if_pos rfl]
  have hp : ∀ y ∈ s, (y != 0x3B#8) = true := by
    intro y hy
    simp only [bne_iff_ne, ne_eq]
    intro e; subst e; exact h1 hy
  have : (s ++ 0x3B#8 :: x ++ [0#8]).takeWhile (· != 0x3B#8) = s := by
    rw [List.append_assoc, List.takeWhile_append_of_pos hp]
    simp
  rw [this]

/-! ### The loop over the members -/

theorem templateId_sub (f : Spec.Field) :
    ((⟨f.info, f.type, f.offset⟩ : MemberInfo).templateId = 0#16 ↔ ∀ j, ¬ f.sub j) ∧
      ∀ j, f.sub j → ((⟨f.info, f.type, f.offset⟩ : MemberInfo).templateId.setWidth 32).toNat = j := by
  obtain ⟨h1, h2⟩ := C47_member ⟨f.info, f.type, f.offset⟩
  simp only at h1 h2
  refine ⟨⟨?_, ?_⟩, ?_⟩
  · rintro h0 j ⟨hs, hj, hne⟩
    have := h1 hs
    rw [h0] at this
    exact hne (by rw [← hj, ← this]; rfl)
  · intro hn
    by_cases hs : Spec.IsStructure f.type.toNat
    · apply BitVec.eq_of_toNat_eq
      rw [h1 hs]
      exact Classical.byContradiction fun hne => hn _ ⟨hs, rfl, hne⟩
    · exact h2 hs
  · rintro j ⟨hs, hj, hne⟩
    rw [BitVec.toNat_setWidth, h1 hs, hj]
    apply Nat.mod_eq_of_lt
    omega

/-- Every description the client has is right. -/
def KnownRight (T : Nat → Option Spec.Template) (nm : Spec.Template → Bytes) (st : TypeSt) : Prop :=
  ∀ i u, st.known i = some u → Spec.Described T nm i.toNat u

/-- `P` says that the calls for members may not return. -/
theorem eachMember_fields (P : Prop) {T : Nat → Option Spec.Template} {nm : Spec.Template → Bytes}
    {lm : BitVec 32 → TypeSt → Option (Res Udt × TypeSt)} (fs : List Spec.Field) (pad : Bytes) (st : TypeSt)
    (hn : ∀ f ∈ fs, 0#8 ∉ f.name) (hk : KnownRight T nm st)
    (hl : ∀ f ∈ fs, ∀ i : BitVec 32, f.sub i.toNat → ∀ st, KnownRight T nm st →
      (P ∧ lm i st = none) ∨
      ∃ u st', lm i st = some (.ok u, st') ∧ Spec.Described T nm i.toNat u ∧ KnownRight T nm st') :
    (P ∧ eachMember lm (fs.map fun f => ⟨f.info, f.type, f.offset⟩)
        ((fs.map fun f => f.name ++ [0#8]).flatten ++ pad) st = none) ∨
    ∃ ms st', eachMember lm (fs.map fun f => ⟨f.info, f.type, f.offset⟩)
        ((fs.map fun f => f.name ++ [0#8]).flatten ++ pad) st = some (.ok ms, st') ∧
      ms.map (fun m => (m.1, m.2.1)) = fs.map (fun f => (f.name, ⟨f.info, f.type, f.offset⟩)) ∧
      (∀ (k : Nat) (f : Spec.Field) (m : Str × MemberInfo × Option Udt), fs[k]? = some f → ms[k]? = some m →
        (m.2.2.isSome ↔ ∃ j, f.sub j)) ∧
      (∀ (k : Nat) (f : Spec.Field) (m : Str × MemberInfo × Option Udt) (u : Udt) (j : Nat), fs[k]? = some f →
        ms[k]? = some m → m.2.2 = some u → f.sub j → Spec.Described T nm j u) ∧
      KnownRight T nm st' := by
  induction fs generalizing st with
  | nil => exact .inr ⟨[], st, rfl, rfl, by simp, by simp, hk⟩
  | cons f fs ih =>
    have hs : readString0 (((f :: fs).map fun f => f.name ++ [0#8]).flatten ++ pad) =
        (f.name ++ [0#8], true, (fs.map fun f => f.name ++ [0#8]).flatten ++ pad) := by
      rw [List.map_cons, List.flatten_cons, List.append_assoc, List.append_assoc]
      exact readString0_nul f.name _ (hn f (by simp))
    obtain ⟨hz, hj⟩ := templateId_sub f
    rw [List.map_cons, eachMember, hs]
    simp only
    rw [if_neg (by simp)]
    have hdl : (f.name ++ [0#8]).dropLast = f.name := by simp
    by_cases h0 : (⟨f.info, f.type, f.offset⟩ : MemberInfo).templateId = 0#16
    · rw [if_pos h0]
      rcases ih st (fun g hg => hn g (by simp [hg])) hk (fun g hg => hl g (by simp [hg])) with
        ⟨hP, hnone⟩ | ⟨ms, st', h1, h2, h3, h4, h5⟩
      · exact .inl ⟨hP, by rw [hnone]⟩
      rw [h1]
      refine .inr ⟨_, st', rfl, by simp [h2], ?_, ?_, h5⟩
      · intro k g m hg hm
        cases k with
        | zero =>
          simp only [List.getElem?_cons_zero, Option.some.injEq] at hg hm
          subst hg hm
          have := hz.mp h0
          simp [this]
        | succ k => simp only [List.getElem?_cons_succ] at hg hm; exact h3 k g m hg hm
      · intro k g m u j hg hm hu hjj
        cases k with
        | zero =>
          simp only [List.getElem?_cons_zero, Option.some.injEq] at hg hm
          subst hg hm
          cases hu
        | succ k => simp only [List.getElem?_cons_succ] at hg hm; exact h4 k g m u j hg hm hu hjj
    · rw [if_neg h0]
      have hex : ∃ j, f.sub j := Classical.byContradiction fun hne => h0 (hz.mpr fun j hjj => hne ⟨j, hjj⟩)
      obtain ⟨j, hsub⟩ := hex
      have hji := hj j hsub
      rcases hl f (by simp) _ (hji ▸ hsub) st hk with ⟨hP, hnone⟩ | ⟨u, st1, hlm, hud, hk1⟩
      · exact .inl ⟨hP, by rw [hnone]⟩
      rw [hlm]
      simp only
      rcases ih st1 (fun g hg => hn g (by simp [hg])) hk1 (fun g hg => hl g (by simp [hg])) with
        ⟨hP, hnone⟩ | ⟨ms, st', h1, h2, h3, h4, h5⟩
      · exact .inl ⟨hP, by rw [hnone]⟩
      rw [h1]
      refine .inr ⟨_, st', rfl, by simp [h2], ?_, ?_, h5⟩
      · intro k g m hg hm
        cases k with
        | zero =>
          simp only [List.getElem?_cons_zero, Option.some.injEq] at hg hm
          subst hg hm
          simpa using ⟨j, hsub⟩
        | succ k => simp only [List.getElem?_cons_succ] at hg hm; exact h3 k g m hg hm
      · intro k g m u' j' hg hm hu hjj
        cases k with
        | zero =>
          simp only [List.getElem?_cons_zero, Option.some.injEq] at hg hm
          subst hg hm
          simp only [Option.some.injEq] at hu
          subst hu
          rw [← hj j' hjj]
          exact hud
        | succ k => simp only [List.getElem?_cons_succ] at hg hm; exact h4 k g m u' j' hg hm hu hjj

/-- The two exchanges: the client has the attributes and the whole definition. -/
theorem exchanges {W : TypeWorld} {T : Nat → Option Spec.Template} (hW : Spec.HasTemplates W.net T)
    {inst : BitVec 32} (h0 : inst ≠ 0#32) {t : Spec.Template} (ht : T inst.toNat = some t) (hok : t.ok) (n : Nat) :
    (W.net n (templateAttrRequest (W.seq n) inst)).bind templateAttrReply =
      .ok ⟨t.words, t.bytes, BitVec.ofNat 16 t.fields.length, t.handle⟩ ∧
    (W.net (n + 1) (templateReadRequest (W.seq (n + 1)) inst
      ⟨t.words, t.bytes, BitVec.ofNat 16 t.fields.length, t.handle⟩)).bind templateReadReply = .ok t.data := by
  constructor
  · obtain ⟨st, f, hf, hn⟩ := hW.attrs n _ _ t ht (asks_attrs (W.seq n) inst h0)
    rw [hn]
    exact attrReply_form f st t hf
  · obtain ⟨-, -, -, -, -, h6, h7⟩ := hok
    have hlen := readLength_eq ⟨t.words, t.bytes, BitVec.ofNat 16 t.fields.length, t.handle⟩ (by simp only; omega)
      (by simp only; omega)
    have ha := asks_data (W.seq (n + 1)) inst ⟨t.words, t.bytes, BitVec.ofNat 16 t.fields.length, t.handle⟩
    rw [hlen] at ha
    obtain ⟨st, f, hf, hn⟩ := hW.data (n + 1) _ _ t _ ht (by simp only; omega) ha
    rw [hn]
    simp only at hf ⊢
    rw [List.take_of_length_le (by omega)] at hf ⊢
    exact readReply_form f st 0#8 _ hf

/-- `ListMembers` on templates whose names are taken as `nm` says.  `P` says that it may not return. -/
theorem listMembers_named (P : Prop) (W : TypeWorld) (T : Nat → Option Spec.Template) (nm : Spec.Template → Bytes)
    (rank : Nat → Nat) (hW : Spec.HasTemplates W.net T) (hc : Spec.Closed T) (hok : ∀ i t, T i = some t → t.ok)
    (hnm : ∀ i t r, T i = some t → structName (t.name ++ (t.tail ++ 0#8 :: r)) = .ok (nm t, r))
    (f : Nat) (inst : BitVec 32) (st : TypeSt) (h0 : inst ≠ 0#32) (ht : (T inst.toNat).isSome)
    (hk : KnownRight T nm st) (hf : P ∨ (Spec.Layered T rank ∧ rank inst.toNat < f)) :
    (P ∧ listMembers W f inst st = none) ∨
    ∃ u st', listMembers W f inst st = some (.ok u, st') ∧ Spec.Described T nm inst.toNat u ∧ KnownRight T nm st' := by
  induction f generalizing inst st with
  | zero =>
    rcases hf with hP | hf
    · exact .inl ⟨hP, rfl⟩
    · omega
  | succ f ih =>
    rw [listMembers]
    cases hkn : st.known inst with
    | some u => exact .inr ⟨u, st, rfl, hk inst u hkn, hk⟩
    | none =>
      simp only
      obtain ⟨t, ht⟩ := Option.isSome_iff_exists.mp ht
      have hto := hok _ t ht
      obtain ⟨he1, he2⟩ := exchanges hW h0 ht hto st.n
      rw [he1]
      simp only
      rw [he2]
      obtain ⟨o1, o2, o3, o4, o5, o6, o7⟩ := hto
      have hml : (BitVec.ofNat 16 t.fields.length).toNat = t.fields.length := by
        rw [BitVec.toNat_ofNat]; exact Nat.mod_eq_of_lt o5
      simp only [Res.bind, hml]
      unfold Spec.Template.data
      rw [readN_append' (infos_length t.fields)]
      simp only
      rw [hnm _ t _ ht]
      simp only
      have hri : readInfos t.fields.length (t.fields.map Spec.Field.bytes).flatten =
          t.fields.map fun f => ⟨f.info, f.type, f.offset⟩ := by
        have := readInfos_bytes t.fields []
        rwa [List.append_nil] at this
      rw [hri]
      have hem := eachMember_fields P (T := T) (nm := nm) (lm := listMembers W f)
        t.fields t.pad { st with n := st.n + 2 } o4 hk (by
          intro g hg i hsub s hks
          refine ih i s ?_ (hc _ t ht g hg _ hsub) hks ?_
          · intro e
            subst e
            exact hsub.2.2 rfl
          · rcases hf with hP | ⟨hl, hlt⟩
            · exact .inl hP
            · have := hl _ t ht g hg _ hsub
              exact .inr ⟨hl, by omega⟩)
      rcases hem with ⟨hP, hnone⟩ | ⟨ms, st', h1, h2, h3, h4, h5⟩
      · exact .inl ⟨hP, by rw [hnone]⟩
      rw [h1]
      simp only
      have hd : Spec.Described T nm inst.toNat
          (.mk inst (nm t) ⟨t.words, t.bytes, BitVec.ofNat 16 t.fields.length, t.handle⟩ ms) := by
        have := Spec.Described.mk (nm := nm) inst.toNat t ht ms h2 h3 h4
        rwa [BitVec.ofNat_toNat, BitVec.setWidth_eq] at this
      refine .inr ⟨_, _, rfl, hd, ?_⟩
      intro i u hu
      simp only at hu
      split at hu
      · rename_i hi
        subst hi
        simp only [Option.some.injEq] at hu
        subst hu
        exact hd
      · exact h5 i u hu

/-- C66 where nothing follows the name of the structure: for every controller and every structure, however
nested, `ListMembers` returns its name, its sizes and all its members in order with name, type and offset,
and a description of the structure of every member that is one.  `rank inst + 1` nested calls are enough.
Missing: names with a semicolon (`C66_name_cut`), definitions of 64 KiB and more (`C66_length_wraps`), replies that carry a
part of the definition (`C66_cut_name_accepted`) and structures that contain themselves
(`C66_cycle_never_returns`). -/
theorem C66_described_partial (W : TypeWorld) (T : Nat → Option Spec.Template) (rank : Nat → Nat)
    (hW : Spec.HasTemplates W.net T) (hc : Spec.Closed T) (hl : Spec.Layered T rank)
    (hok : ∀ i t, T i = some t → t.ok ∧ t.tail = [])
    (f : Nat) (inst : BitVec 32) (st : TypeSt) (h0 : inst ≠ 0#32) (ht : (T inst.toNat).isSome)
    (hk : KnownRight T Spec.Template.name st) (hf : rank inst.toNat < f) :
    ∃ u st', listMembers W f inst st = some (.ok u, st') ∧ Spec.Described T Spec.Template.name inst.toNat u ∧
      KnownRight T Spec.Template.name st' := by
  refine (listMembers_named False W T _ rank hW hc (fun i t h => (hok i t h).1) ?_ f inst st h0 ht hk
    (.inr ⟨hl, hf⟩)).resolve_left (fun h => h.1)
  intro i t r h
  rw [(hok i t h).2, List.nil_append]
  exact structName_plain _ _ (hok i t h).1.1 (hok i t h).1.2.1

/-- C66 is false for the names of structures that are followed by a semicolon, as the controller sends those
of user-defined types: the last character of every such name is lost. -/
theorem C66_name_cut (W : TypeWorld) (T : Nat → Option Spec.Template) (rank : Nat → Nat)
    (hW : Spec.HasTemplates W.net T) (hc : Spec.Closed T) (hl : Spec.Layered T rank)
    (hok : ∀ i t, T i = some t → t.ok ∧ t.name ≠ [] ∧ ∃ x, t.tail = 0x3B#8 :: x)
    (f : Nat) (inst : BitVec 32) (st : TypeSt) (h0 : inst ≠ 0#32) (t : Spec.Template) (ht : T inst.toNat = some t)
    (hk : KnownRight T (fun t => t.name.dropLast) st) (hf : rank inst.toNat < f) :
    ∃ u st', listMembers W f inst st = some (.ok u, st') ∧ u.name = t.name.dropLast ∧ u.name ≠ t.name := by
  obtain ⟨u, st', h1, h2, -⟩ := (listMembers_named False W T (fun t => t.name.dropLast) rank hW hc
    (fun i t h => (hok i t h).1) (by
      intro i t r h
      obtain ⟨⟨o1, o2, o3, -⟩, h2, x, h3⟩ := hok i t h
      rw [h3, structName_tail _ _ _ o1 o2 (fun hx => o3 (by rw [h3]; simp [hx])), if_neg h2])
    f inst st h0 (by rw [ht]; rfl) hk (.inr ⟨hl, hf⟩)).resolve_left (fun h => h.1)
  refine ⟨u, st', h1, ?_⟩
  cases h2 with
  | mk i t' hT ms _ _ _ =>
    rw [ht] at hT
    cases hT
    refine ⟨rfl, ?_⟩
    intro e
    have hne := (hok _ t ht).2.1
    have := congrArg List.length e
    have hp := List.length_pos_iff.mpr hne
    simp only [Udt.name, List.length_dropLast] at this
    omega

/-- C66: a definition whose name starts with a semicolon crashes the client. -/
theorem C66_semicolon_panics (W : TypeWorld) (T : Nat → Option Spec.Template) (hW : Spec.HasTemplates W.net T)
    (f : Nat) (inst : BitVec 32) (st : TypeSt) (h0 : inst ≠ 0#32) (t : Spec.Template) (ht : T inst.toNat = some t)
    (hok : t.ok) (hn : t.name = []) (x : Bytes) (hx : t.tail = 0x3B#8 :: x) (hk : st.known inst = none) :
    ∃ st', listMembers W (f + 1) inst st = some (.panic, st') := by
  obtain ⟨he1, he2⟩ := exchanges hW h0 ht hok st.n
  obtain ⟨o1, o2, o3, o4, o5, o6, o7⟩ := hok
  have hml : (BitVec.ofNat 16 t.fields.length).toNat = t.fields.length := by
    rw [BitVec.toNat_ofNat]; exact Nat.mod_eq_of_lt o5
  rw [listMembers, hk]
  simp only
  rw [he1]
  simp only
  rw [he2]
  simp only [Res.bind, hml]
  unfold Spec.Template.data
  rw [readN_append' (infos_length t.fields)]
  simp only
  have := structName_tail t.name x ((t.fields.map fun f => f.name ++ [0#8]).flatten ++ t.pad) o1 o2
    (fun h => o3 (by rw [hx]; simp [h]))
  rw [if_pos hn] at this
  rw [hx, this]
  exact ⟨_, rfl⟩

/-- C66: the announced size of a larger definition is cut to 16 bits; only its beginning is asked for. -/
theorem C66_length_wraps (info : TemplateInfo) (h : 65536 + 23 ≤ 4 * info.words.toNat)
    (h2 : 4 * info.words.toNat < 2 ^ 32) :
    (templateReadLength info).toNat = (4 * info.words.toNat - 23) % 65536 ∧
      (templateReadLength info).toNat < 4 * info.words.toNat - 23 := by
  have e : (templateReadLength info).toNat = (4 * info.words.toNat - 23) % 65536 := by
    unfold templateReadLength
    simp only [BitVec.toNat_setWidth, BitVec.toNat_sub, BitVec.toNat_mul, BitVec.toNat_ofNat]
    omega
  rw [e]
  omega

theorem described_wf {T : Nat → Option Spec.Template} {nm : Spec.Template → Bytes} {S : Nat → Prop}
    (hS : ∀ i, S i → ∃ t, T i = some t ∧ ∃ f ∈ t.fields, ∃ j, f.sub j ∧ S j) {i : Nat} {u : Udt}
    (h : Spec.Described T nm i u) : ¬ S i := by
  induction h with
  | mk i t hT ms hm hs hd ih =>
    intro hi
    obtain ⟨t', ht', f, hf, j, hj, hSj⟩ := hS i hi
    rw [hT] at ht'
    cases ht'
    obtain ⟨k, hk⟩ := List.mem_iff_getElem?.mp hf
    have hlen : ms.length = t.fields.length := by
      have := congrArg List.length hm
      simpa using this
    have hkl := (List.getElem?_eq_some_iff.mp hk).1
    obtain ⟨m, hmk⟩ : ∃ m, ms[k]? = some m := ⟨_, List.getElem?_eq_getElem (by omega)⟩
    obtain ⟨u, hu⟩ := Option.isSome_iff_exists.mp ((hs k f m hk hmk).mpr ⟨j, hj⟩)
    exact ih k f m u j hk hmk hu hj hSj

/-- C66: on templates that lead back to themselves (each of `S` has a member in `S`) `ListMembers` calls
itself without end, whatever it has recorded before. -/
theorem C66_cycle_never_returns (W : TypeWorld) (T : Nat → Option Spec.Template)
    (hW : Spec.HasTemplates W.net T) (hc : Spec.Closed T) (hok : ∀ i t, T i = some t → t.ok ∧ t.tail = [])
    (S : Nat → Prop) (hS : ∀ i, S i → ∃ t, T i = some t ∧ ∃ f ∈ t.fields, ∃ j, f.sub j ∧ S j)
    (f : Nat) (inst : BitVec 32) (st : TypeSt) (h0 : inst ≠ 0#32) (hi : S inst.toNat)
    (hk : KnownRight T Spec.Template.name st) : listMembers W f inst st = none := by
  have hnm : ∀ i t r, T i = some t → structName (t.name ++ (t.tail ++ 0#8 :: r)) = .ok (t.name, r) := by
    intro i t r h
    rw [(hok i t h).2, List.nil_append]
    exact structName_plain _ _ (hok i t h).1.1 (hok i t h).1.2.1
  obtain ⟨t, ht, -⟩ := hS _ hi
  rcases listMembers_named True W T Spec.Template.name (fun _ => 0) hW hc (fun i t h => (hok i t h).1) hnm f inst st h0
    (by rw [ht]; rfl) hk (.inl trivial) with h | ⟨u, st', -, hd, -⟩
  · exact h.2
  · exact absurd hi (described_wf hS hd)

/-- The members before the last, when the definition ends inside the name of the last. -/
theorem eachMember_cut {lm : BitVec 32 → TypeSt → Option (Res Udt × TypeSt)} (fs : List Spec.Field)
    (last : Spec.Field) (cut : Bytes) (st : TypeSt) (hn : ∀ f ∈ fs, 0#8 ∉ f.name) (hc : 0#8 ∉ cut) (hne : cut ≠ [])
    (hsub : ∀ f ∈ fs ++ [last], ∀ j, ¬ f.sub j) :
    eachMember lm ((fs ++ [last]).map fun f => ⟨f.info, f.type, f.offset⟩)
      ((fs.map fun f => f.name ++ [0#8]).flatten ++ cut) st =
    some (.ok (fs.map (fun f => (f.name, ⟨f.info, f.type, f.offset⟩, none)) ++
      [(cut.dropLast, ⟨last.info, last.type, last.offset⟩, none)]), st) := by
  induction fs with
  | nil =>
    have h0 := (templateId_sub last).1.mpr (hsub last (by simp))
    simp only [List.nil_append, List.map_cons, List.map_nil, List.flatten_nil]
    rw [eachMember, readString0_end cut hc]
    simp only
    rw [if_neg (by simp [hne]), if_pos h0]
    rfl
  | cons f fs ih =>
    have h0 := (templateId_sub f).1.mpr (hsub f (by simp))
    have hs : readString0 (((f :: fs).map fun f => f.name ++ [0#8]).flatten ++ cut) =
        (f.name ++ [0#8], true, (fs.map fun f => f.name ++ [0#8]).flatten ++ cut) := by
      rw [List.map_cons, List.flatten_cons, List.append_assoc, List.append_assoc]
      exact readString0_nul f.name _ (hn f (by simp))
    rw [List.cons_append, List.map_cons, eachMember, hs]
    simp only
    rw [if_neg (by simp), if_pos h0, ih (fun g hg => hn g (by simp [hg])) (fun g hg => hsub g (by simp at hg ⊢; tauto))]
    simp

/-- C66: when the reply carries only a part of the definition (status 6) and ends inside the name of the
last member, the part of the name without its last character passes for the name, with no error. -/
theorem C66_cut_name_accepted (W : TypeWorld) (f : Nat) (inst : BitVec 32) (st : TypeSt) (t : Spec.Template)
    (fs : List Spec.Field) (last : Spec.Field) (cut more : Bytes) (hok : t.ok) (htl : t.tail = [])
    (hfs : t.fields = fs ++ [last]) (hname : last.name = cut ++ more) (hne : cut ≠ [])
    (hsub : ∀ f ∈ t.fields, ∀ j, ¬ f.sub j) (hk : st.known inst = none)
    (e1 e2 : BitVec 32) (f1 f2 : Spec.CForm) (hf1 : f1.fits ([0x83#8, 0#8, 0#8, 0#8] ++ t.attrs))
    (h1 : W.net st.n (templateAttrRequest (W.seq st.n) inst) =
      .ok ⟨e1, f1.payload ([0x83#8, 0#8, 0#8, 0#8] ++ t.attrs)⟩)
    (part : Bytes) (hpart : part = (t.fields.map Spec.Field.bytes).flatten ++ (t.name ++ 0#8 ::
      ((fs.map fun f => f.name ++ [0#8]).flatten ++ cut)))
    (hf2 : f2.fits ([0xCC#8, 0#8, 6#8, 0#8] ++ part))
    (h2 : ∀ req, W.net (st.n + 1) req = .ok ⟨e2, f2.payload ([0xCC#8, 0#8, 6#8, 0#8] ++ part)⟩) :
    part <+: t.data ∧ ∃ u st', listMembers W (f + 1) inst st = some (.ok u, st') ∧
      u.members.map (·.1) = fs.map (·.name) ++ [cut.dropLast] := by
  obtain ⟨o1, o2, o3, o4, o5, o6, o7⟩ := hok
  constructor
  · refine ⟨more ++ (0#8 :: t.pad), ?_⟩
    rw [hpart]
    unfold Spec.Template.data
    rw [htl, hfs]
    simp [hname]
  · have hml : (BitVec.ofNat 16 t.fields.length).toNat = t.fields.length := by
      rw [BitVec.toNat_ofNat]; exact Nat.mod_eq_of_lt o5
    rw [listMembers, hk]
    simp only
    rw [h1]
    simp only [Res.bind]
    rw [attrReply_form f1 e1 t hf1]
    simp only
    rw [h2]
    simp only
    rw [readReply_form f2 e2 6#8 _ hf2]
    simp only [hml]
    rw [hpart, readN_append' (infos_length t.fields)]
    simp only
    rw [structName_plain _ _ o1 o2]
    simp only
    have hri : readInfos t.fields.length (t.fields.map Spec.Field.bytes).flatten =
        t.fields.map fun f => ⟨f.info, f.type, f.offset⟩ := by
      have := readInfos_bytes t.fields []
      rwa [List.append_nil] at this
    have hcut : 0#8 ∉ cut := fun h => o4 last (by rw [hfs]; simp) (by rw [hname]; simp [h])
    rw [hri, hfs, eachMember_cut fs last cut _ (fun g hg => o4 g (by rw [hfs]; simp [hg])) hcut hne
      (by rw [← hfs]; exact hsub)]
    refine ⟨_, _, rfl, ?_⟩
    simp [Udt.members]

/-! ### A controller -/

/-- A controller that answers from the templates `T`. -/
def templatePlc (T : Nat → Option Spec.Template) (req : Bytes) : Res Reply :=
  let p := (req.drop 4).take (2 * (req.getD 3 0#8).toNat)
  let args := (req.drop 4).drop (2 * (req.getD 3 0#8).toNat)
  match Spec.decodePath p.length p with
  | some [(.classId, 0x6C), (.instanceId, i)] =>
    match T i with
    | none => .err .fail
    | some t => .ok ⟨0#32, (⟨0, 0, (0xA1, [1, 2, 3, 4]), 0xB1, 7, []⟩ : Spec.CForm).payload
        (if req.getD 2 0#8 = 0x03#8 then [0x83#8, 0#8, 0#8, 0#8] ++ t.attrs
         else [0xCC#8, 0#8, 0#8, 0#8] ++ t.data.take (unle (args.drop 4)))⟩
  | _ => .err .fail

theorem templatePlc_asks {T : Nat → Option Spec.Template} {req : Bytes} {svc : Byte} {i : Nat} {args : Bytes}
    {t : Spec.Template} (ht : T i = some t) (h : Spec.AsksTemplate req svc i args) :
    templatePlc T req = .ok ⟨0#32, (⟨0, 0, (0xA1, [1, 2, 3, 4]), 0xB1, 7, []⟩ : Spec.CForm).payload
        (if svc = 0x03#8 then [0x83#8, 0#8, 0#8, 0#8] ++ t.attrs
         else [0xCC#8, 0#8, 0#8, 0#8] ++ t.data.take (unle (args.drop 4)))⟩ := by
  obtain ⟨seq, p, h1, h2, h3, h4⟩ := h
  have e3 : (BitVec.ofNat 8 (p.length / 2)).toNat * 2 = p.length := by
    rw [BitVec.toNat_ofNat]; omega
  have g2 : req.getD 2 0#8 = svc := by rw [h4]; rfl
  have g3 : req.getD 3 0#8 = BitVec.ofNat 8 (p.length / 2) := by rw [h4]; rfl
  have g4 : req.drop 4 = p ++ args := by
    rw [h4, ← List.append_assoc, List.drop_left' (by simp)]
  unfold templatePlc
  rw [g2, g3, g4, Nat.mul_comm, e3, List.take_left' rfl, List.drop_left' rfl]
  simp only [h3, ht]

theorem templatePlc_has (T : Nat → Option Spec.Template) (hs : ∀ i t, T i = some t → t.data.length < 65000) :
    Spec.HasTemplates (fun _ => templatePlc T) T := by
  constructor
  · intro n req i t ht ha
    have h := templatePlc_asks ht ha
    rw [if_pos rfl] at h
    refine ⟨_, _, ?_, h⟩
    constructor
    · simp [Spec.CForm.items]
    · simp [Spec.CForm.items, Spec.Template.attrs]
  · intro n req i t len ht hl ha
    have := hs i t ht
    have e : unle ((le 4 0 ++ le 2 len).drop 4) = len := by
      rw [List.drop_left' (by simp), unle_le]; omega
    have h := templatePlc_asks ht ha
    rw [e, if_neg (by decide)] at h
    refine ⟨_, _, ?_, h⟩
    constructor
    · simp [Spec.CForm.items]
    · simp [Spec.CForm.items]; omega

/-- Structure 5 has a DINT, structure 7 a DINT and a structure 5. -/
def demoTemplates : Nat → Option Spec.Template := fun i =>
  if i = 5 then some ⟨str "Inner", [], [⟨str "x", 0, 0xC4, 0⟩], [], 12, 4, 0x1234⟩
  else if i = 7 then some ⟨str "Outer", [], [⟨str "count", 0, 0xC4, 0⟩, ⟨str "in", 0, 0x8005, 4⟩], [0, 0, 0], 20, 8, 0x5678⟩
  else none

instance (f : Spec.Field) (j : Nat) : Decidable (f.sub j) := by
  unfold Spec.Field.sub Spec.IsStructure Spec.bitSet; infer_instance

/-- The premises of `C66_described_partial` hold of the demo controller. -/
example : Spec.HasTemplates (fun _ => templatePlc demoTemplates) demoTemplates ∧ Spec.Closed demoTemplates ∧
    Spec.Layered demoTemplates id ∧ ∀ i t, demoTemplates i = some t → t.ok ∧ t.tail = [] := by
  have hall : ∀ (Q : Nat → Spec.Template → Prop),
      Q 5 ⟨str "Inner", [], [⟨str "x", 0, 0xC4, 0⟩], [], 12, 4, 0x1234⟩ →
      Q 7 ⟨str "Outer", [], [⟨str "count", 0, 0xC4, 0⟩, ⟨str "in", 0, 0x8005, 4⟩], [0, 0, 0], 20, 8, 0x5678⟩ →
      ∀ i t, demoTemplates i = some t → Q i t := by
    intro Q q5 q7 i t h
    unfold demoTemplates at h
    split at h
    · rename_i hi; subst hi; cases h; exact q5
    · split at h
      · rename_i hi; subst hi; cases h; exact q7
      · cases h
  have hsub : ∀ j, (⟨str "in", 0, 0x8005, 4⟩ : Spec.Field).sub j → j = 5 := fun j h => h.2.1.symm
  refine ⟨templatePlc_has _ (hall _ (by decide) (by decide)), hall _ ?_ ?_, hall _ ?_ ?_, hall _ ?_ ?_⟩
  · intro f hf j hj
    simp only [List.mem_cons, List.not_mem_nil, or_false] at hf
    subst hf
    exact absurd hj.1.1 (by unfold Spec.bitSet; decide)
  · intro f hf j hj
    simp only [List.mem_cons, List.not_mem_nil, or_false] at hf
    rcases hf with rfl | rfl
    · exact absurd hj.1.1 (by unfold Spec.bitSet; decide)
    · rw [hsub j hj]; rfl
  · intro f hf j hj
    simp only [List.mem_cons, List.not_mem_nil, or_false] at hf
    subst hf
    exact absurd hj.1.1 (by unfold Spec.bitSet; decide)
  · intro f hf j hj
    simp only [List.mem_cons, List.not_mem_nil, or_false] at hf
    rcases hf with rfl | rfl
    · exact absurd hj.1.1 (by unfold Spec.bitSet; decide)
    · rw [hsub j hj]; decide
  · unfold Spec.Template.ok; decide
  · unfold Spec.Template.ok; decide

def demoTypes (T : Nat → Option Spec.Template) : TypeWorld := ⟨fun _ => templatePlc T, fun n => BitVec.ofNat 16 n⟩

/-- Structure 7 of the demo controller; the description of structure 5 is inside and recorded. -/
example : ∃ st', listMembers (demoTypes demoTemplates) 3 7#32 ⟨fun _ => none, 0⟩ =
    some (.ok (.mk 7#32 (str "Outer") ⟨20, 8, 2, 0x5678⟩ [(str "count", ⟨0, 0xC4, 0⟩, none),
      (str "in", ⟨0, 0x8005, 4⟩, some (.mk 5#32 (str "Inner") ⟨12, 4, 1, 0x1234⟩
        [(str "x", ⟨0, 0xC4, 0⟩, none)]))]), st') ∧ st'.n = 4 ∧ (st'.known 5#32).isSome :=
  ⟨_, rfl, rfl, rfl⟩

/-- `C66_name_cut`: "MyUDT;n…" is listed as "MyUD". -/
example : ∃ u st', listMembers (demoTypes fun i => if i = 5 then some ⟨str "MyUDT", str ";nEBECAA",
    [⟨str "x", 0, 0xC4, 0⟩], [], 14, 4, 0x1234⟩ else none) 1 5#32 ⟨fun _ => none, 0⟩ = some (.ok u, st') ∧
    u.name = str "MyUD" := ⟨_, _, rfl, rfl⟩

/-- `C66_semicolon_panics` -/
example : ∃ st', listMembers (demoTypes fun i => if i = 5 then some ⟨[], str ";n",
    [⟨str "x", 0, 0xC4, 0⟩], [], 14, 4, 0x1234⟩ else none) 1 5#32 ⟨fun _ => none, 0⟩ = some (.panic, st') :=
  ⟨_, rfl⟩

/-- `C66_cycle_never_returns`: a structure with itself as member. -/
example : listMembers (demoTypes fun i => if i = 5 then some ⟨str "Loop", [],
    [⟨str "x", 0, 0x8005, 0⟩], [], 14, 4, 0x1234⟩ else none) 6 5#32 ⟨fun _ => none, 0⟩ = none := rfl

/-- `C66_cut_name_accepted`: the reply ends after "cou" of "count". -/
example : ∃ u st', listMembers ⟨fun n _ => .ok ⟨0#32, (⟨0, 0, (0xA1, [1, 2, 3, 4]), 0xB1, 7, []⟩ : Spec.CForm).payload
      (if n = 0 then [0x83#8, 0#8, 0#8, 0#8] ++
        (⟨str "S", [], [⟨str "count", 0, 0xC4, 0⟩], [], 14, 4, 0x1234⟩ : Spec.Template).attrs
       else [0xCC#8, 0#8, 6#8, 0#8] ++ ((⟨str "count", 0, 0xC4, 0⟩ : Spec.Field).bytes ++ (str "S" ++ 0#8 :: str "cou")))⟩,
      fun _ => 0#16⟩ 1 5#32 ⟨fun _ => none, 0⟩ = some (.ok u, st') ∧ u.members.map (·.1) = [str "co"] :=
  ⟨_, _, rfl, rfl⟩

end Gologix
