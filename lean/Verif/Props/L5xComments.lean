import Verif.Spec.L5xComments
import Verif.Props.Listing
import Verif.Props.TagList
import Verif.Props.TagGroup
/-
C87 The comments of a project export are found under the names they belong to
-/
set_option linter.unusedSimpArgs false
namespace Gologix

/-! ### Descriptions -/

theorem trimPrefix_append (p s : Str) : trimPrefix p (p ++ s) = s := by
  unfold trimPrefix
  rw [if_pos (by simp), List.drop_left]

theorem trimPrefix_not {p s : Str} (h : ¬ p <+: s) : trimPrefix p s = s := by
  unfold trimPrefix
  rw [if_neg (by simpa using h)]

theorem trimSuffix_append (p s : Str) : trimSuffix p (s ++ p) = s := by
  unfold trimSuffix
  rw [if_pos (by simp), List.length_append, Nat.add_sub_cancel, List.take_left]

theorem trimSuffix_not {p s : Str} (h : ¬ p <:+ s) : trimSuffix p s = s := by
  unfold trimSuffix
  rw [if_neg]
  rw [List.isPrefixOf_iff_prefix, List.reverse_prefix]
  exact h

/-- The core of the section. -/
theorem cdata_core {raw text : Bytes} (h : Spec.Cdata raw text) :
    trimSpace raw = str "<![CDATA[" ++ text ++ str "]]>" := by
  obtain ⟨a, b, rfl, ha, hb⟩ := h
  refine trimSpace_core ⟨a, b, rfl, ha, hb, ?_, ?_⟩
  · intro x hx
    have : x = 0x3C#8 := by simpa [str] using hx.symm
    subst this; unfold Spec.Blank; decide
  · intro x hx
    rw [List.getLast?_append] at hx
    have : x = 0x3E#8 := by simpa [str] using hx.symm
    subst this; unfold Spec.Blank; decide

theorem cdata_inner {raw text : Bytes} (h : Spec.Cdata raw text) :
    parseCData raw = trimSuffix (str "'") (trimPrefix (str "'") text) := by
  unfold parseCData
  rw [cdata_core h, List.append_assoc, trimPrefix_append, trimSuffix_append]

/-- C87: the text of a description is read, whatever blanks there are around the section, if it has no quote at either
end. -/
theorem C87_cdata_partial {raw text : Bytes} (h : Spec.Cdata raw text) (h1 : text.head? ≠ some 0x27#8)
    (h2 : text.getLast? ≠ some 0x27#8) : parseCData raw = text := by
  rw [cdata_inner h, trimPrefix_not, trimSuffix_not]
  · rintro ⟨t, rfl⟩
    exact h2 (by simp [str])
  · rintro ⟨t, rfl⟩
    exact h1 (by simp [str])

example : Spec.Cdata (str "\n<![CDATA[Motor's speed]]>\n") (str "Motor's speed") :=
  ⟨str "\n", str "\n", by decide, by simp [str, Spec.Blank], by simp [str, Spec.Blank]⟩

/-- C87 is false for texts with a quote at an end: it is lost. -/
theorem C87_quotes_lost {raw text : Bytes} (h : Spec.Cdata raw (str "'" ++ text ++ str "'")) : parseCData raw = text := by
  rw [cdata_inner h, List.append_assoc, trimPrefix_append, trimSuffix_append]

example : parseCData (str "<![CDATA['auto' or 'manual']]>") = str "auto' or 'manual" := by decide

/-! ### Maps that hold what is said -/

/-- `Spec.Holds` with entries. -/
def HoldsM (m : List (Str × Str)) (S : Str → Str → Prop) : Prop :=
  (∀ e ∈ m, S e.1 e.2) ∧ ∀ k v, S k v → ∃ v', (k, v') ∈ m

theorem mem_mapPut {m : List (Str × Str)} {k v : Str} {e : Str × Str} :
    e ∈ mapPut m k v ↔ (e ∈ m ∧ e.1 ≠ k) ∨ e = (k, v) := by
  unfold mapPut
  simp

theorem holds_nil : HoldsM [] fun _ _ => False := ⟨by simp, by simp⟩

theorem holds_put {m : List (Str × Str)} {S : Str → Str → Prop} (h : HoldsM m S) (k v : Str) :
    HoldsM (mapPut m k v) fun k' v' => S k' v' ∨ (k' = k ∧ v' = v) := by
  refine ⟨fun e he => ?_, fun k' v' hs => ?_⟩
  · rcases mem_mapPut.mp he with ⟨hm, -⟩ | rfl
    · exact Or.inl (h.1 e hm)
    · exact Or.inr ⟨rfl, rfl⟩
  · by_cases hk : k' = k
    · exact ⟨v, mem_mapPut.mpr (Or.inr (by rw [hk]))⟩
    · rcases hs with hs | ⟨h1, -⟩
      · obtain ⟨w, hw⟩ := h.2 k' v' hs
        exact ⟨w, mem_mapPut.mpr (Or.inl ⟨hw, hk⟩)⟩
      · exact absurd h1 hk

theorem holds_map {m : List (Str × Str)} {S T : Str → Str → Prop} (h : HoldsM m S) (h1 : ∀ k v, S k v → T k v)
    (h2 : ∀ k v, T k v → ∃ v', S k v') : HoldsM m T := by
  refine ⟨fun e he => h1 _ _ (h.1 e he), fun k v hs => ?_⟩
  obtain ⟨v', hv⟩ := h2 k v hs
  exact h.2 k v' hv

theorem holds_congr {m : List (Str × Str)} {S T : Str → Str → Prop} (h : HoldsM m S) (h1 : ∀ k v, S k v ↔ T k v) :
    HoldsM m T := holds_map h (fun k v => (h1 k v).mp) fun k v ht => ⟨v, (h1 k v).mpr ht⟩

theorem holds_foldl {α : Type} (f : List (Str × Str) → α → List (Str × Str)) (W : α → Str → Str → Prop)
    (h : ∀ a m S, HoldsM m S → HoldsM (f m a) fun k v => S k v ∨ W a k v) (xs : List α) :
    ∀ m S, HoldsM m S → HoldsM (xs.foldl f m) fun k v => S k v ∨ ∃ a ∈ xs, W a k v := by
  induction xs with
  | nil => intro m S hm; exact holds_congr hm (by simp)
  | cons x xs ih =>
    intro m S hm
    refine holds_congr (ih _ _ (h x m S hm)) fun k v => ?_
    simp only [List.mem_cons, exists_eq_or_imp, or_assoc]

theorem holds_lookup {m : List (Str × Str)} {S : Str → Str → Prop} (h : HoldsM m S) : Spec.Holds m S := by
  refine ⟨fun k v hl => h.1 (k, v) (assoc_mem hl), fun k v hs => ?_⟩
  obtain ⟨v', hm⟩ := h.2 k v hs
  cases hl : m.lookup k with
  | some w => exact ⟨w, rfl⟩
  | none =>
    have := List.lookup_eq_none_iff.mp hl _ hm
    simp at this

/-- Where only one thing is said, that is found. -/
theorem holds_unique {m : List (Str × Str)} {S : Str → Str → Prop} (h : Spec.Holds m S) {k v : Str} (hs : S k v)
    (hu : ∀ v', S k v' → v' = v) : m.lookup k = some v := by
  obtain ⟨v', hl⟩ := h.2 k v hs
  rw [hl, hu v' (h.1 k v' hl)]

/-! ### Types -/

theorem textAfter_joined (a b t : Str) : Spec.Joined a b t ↔ t = textAfter a b := by
  unfold Spec.Joined textAfter
  by_cases h : a = []
  · simp [h]
  · simp [h, str]

/-- The name a member is found under. -/
def keyOf (x : L5xTypeMember) : Option Str :=
  match memberKey x with
  | .ok k => k
  | _ => none

/-- C87: an ordinary member is found under its name. -/
theorem C87_key (x : L5xTypeMember) (h : x.typ ≠ str "BIT") : keyOf x = some x.name := by
  unfold keyOf memberKey
  rw [if_neg h]

theorem isTrimmed_iff : ∀ c : Byte, isTrimmed c = true ↔ Spec.NameChar c := by decide +kernel

/-- What remains of the name of a hidden member is its number. -/
theorem target_number (stem : Str) (c : Byte) (n : Nat) (hn : n < 100) :
    2 ≤ (stem ++ c :: dec n).length ∧
    (stem ++ c :: dec n).drop ((stem ++ c :: dec n).length - 2) = if n < 10 then c :: dec n else dec n := by
  have hl : (dec n).length = if n < 10 then 1 else 2 := by
    have : ∀ n < 100, (dec n).length = if n < 10 then 1 else 2 := by decide +kernel
    exact this n hn
  constructor
  · simp only [List.length_append, List.length_cons, hl]
    split <;> omega
  · split
    · rename_i h
      rw [if_pos h] at hl
      have : (stem ++ c :: dec n).length - 2 = stem.length := by
        simp only [List.length_append, List.length_cons, hl]
        omega
      rw [this, List.drop_left]
    · rename_i h
      rw [if_neg h] at hl
      have : (stem ++ c :: dec n).length - 2 = (stem ++ [c]).length := by
        simp only [List.length_append, List.length_cons, List.length_nil, hl]
        omega
      rw [this, show stem ++ c :: dec n = (stem ++ [c]) ++ dec n by simp, List.drop_left]

theorem trimmed_number {c : Byte} (h : Spec.NameChar c) : ∀ n < 100,
    ((if n < 10 then c :: dec n else dec n).dropWhile isTrimmed) = dec n := by
  have hd : ∀ n < 100, (dec n).dropWhile isTrimmed = dec n := by decide +kernel
  intro n hn
  split
  · rw [List.dropWhile_cons_of_pos ((isTrimmed_iff c).mpr h), hd n hn]
  · exact hd n hn

theorem bitName_hidden {x : L5xTypeMember} {n : Nat} (hn : n < 100) (h : Spec.HiddenMember x.target n) :
    bitName x = .ok (some (x.name ++ str "<" ++ decInt (x.bit + n -
      (if n % 9 = 0 ∧ n ≤ 63 then (n / 9 : Nat) else 0 : Nat)) ++ str ">")) := by
  obtain ⟨stem, c, ht, hc⟩ := h
  obtain ⟨h1, h2⟩ := target_number stem c n hn
  unfold bitName
  rw [ht, if_neg (by omega), h2, trimmed_number hc n hn, atoi_dec (by omega)]
  simp only
  have key : ∀ b : Int, (if (n : Int) = 9 then b + n - 1 else if (n : Int) = 18 then b + n - 2 else if (n : Int) = 27 then
      b + n - 3 else if (n : Int) = 36 then b + n - 4 else if (n : Int) = 45 then b + n - 5 else if (n : Int) = 54 then
      b + n - 6 else if (n : Int) = 63 then b + n - 7 else b + n) =
      b + n - (if n % 9 = 0 ∧ n ≤ 63 then (n / 9 : Nat) else 0 : Nat) := by
    intro b
    repeat' split
    all_goals omega
  rw [key]

/-- C87, bits: in a type whose members are bits from the start, 8 of them behind each hidden member, a bit is found under
its name and its position among the bits. -/
theorem C87_bits_partial (x : L5xTypeMember) (hx : x.typ = str "BIT") (k : Nat) (hk : k ≤ 7)
    (h : Spec.HiddenMember x.target (9 * k)) (b : Nat) (hb : x.bit = b) :
    keyOf x = some (Spec.bitKey x.name (8 * k + b)) := by
  unfold keyOf memberKey
  rw [if_pos hx, bitName_hidden (by omega) h]
  simp only
  have e : x.bit + ((9 * k : Nat) : Int) - ((if 9 * k % 9 = 0 ∧ 9 * k ≤ 63 then (9 * k / 9 : Nat) else 0 : Nat) : Int) =
      Int.ofNat (8 * k + b) := by
    rw [if_pos ⟨by omega, by omega⟩, hb]
    have : 9 * k / 9 = k := by omega
    rw [this]
    simp only [Int.ofNat_eq_natCast]
    omega
  rw [e, decInt_ofNat]
  rfl

example : Spec.HiddenMember (str "ZZZZZZZZZZMode18") 18 ∧
    keyOf ⟨str "Auto", str "BIT", str "ZZZZZZZZZZMode18", 3, none⟩ = some (str "Auto<19>") :=
  ⟨⟨str "ZZZZZZZZZZMod", 0x65#8, by decide +kernel, by decide⟩, by decide +kernel⟩

/-- C87 is false for bits behind other members, and beyond the 64th: the number of the hidden member is taken for the
position of its first bit. -/
theorem C87_bits_shifted (x : L5xTypeMember) (hx : x.typ = str "BIT") (n : Nat) (hn : n < 100)
    (h9 : ¬ (n % 9 = 0 ∧ n ≤ 63)) (h : Spec.HiddenMember x.target n) (b : Nat) (hb : x.bit = b) :
    keyOf x = some (Spec.bitKey x.name (n + b)) := by
  unfold keyOf memberKey
  rw [if_pos hx, bitName_hidden hn h]
  simp only
  have e : x.bit + (n : Int) - ((if n % 9 = 0 ∧ n ≤ 63 then (n / 9 : Nat) else 0 : Nat) : Int) = Int.ofNat (n + b) := by
    rw [if_neg h9, hb]
    simp only [Int.ofNat_eq_natCast]
    omega
  rw [e, decInt_ofNat]
  rfl

/-- A number, and behind it the bits of hidden member 1: the first of them is called bit 1. -/
example : keyOf ⟨str "Auto", str "BIT", str "ZZZZZZZZZZMode1", 0, none⟩ = some (str "Auto<1>") := by decide +kernel

/-- C87 is false for bits of a type whose name ends in a digit: the digit is taken for part of the number. -/
theorem C87_bits_type_digit (stem : Str) (c : Byte) (d k : Nat) (hd : 0 < d) (hd' : d ≤ 9) (hk : k ≤ 1) (name : Str)
    (b : Nat) (hc : Spec.NameChar c) :
    keyOf ⟨name, str "BIT", stem ++ c :: dec d ++ dec (9 * k), b, none⟩ ≠ some (Spec.bitKey name (8 * k + b)) := by
  have he : dec d ++ dec (9 * k) = dec (10 * d + 9 * k) := by
    have : ∀ d ≤ 9, 0 < d → ∀ k ≤ 1, dec d ++ dec (9 * k) = dec (10 * d + 9 * k) := by decide +kernel
    exact this d hd' hd k hk
  have ht : stem ++ c :: dec d ++ dec (9 * k) = stem ++ c :: dec (10 * d + 9 * k) := by
    rw [← he]; simp
  have hh : Spec.HiddenMember (stem ++ c :: dec d ++ dec (9 * k)) (10 * d + 9 * k) := ⟨stem, c, ht, hc⟩
  unfold keyOf memberKey
  rw [if_pos rfl, bitName_hidden (x := ⟨name, str "BIT", stem ++ c :: dec d ++ dec (9 * k), b, none⟩)
    (n := 10 * d + 9 * k) (by omega) hh]
  simp only
  intro hcon
  have hz : ∃ m : Nat, ((b : Int) + ((10 * d + 9 * k : Nat) : Int) - ((if (10 * d + 9 * k) % 9 = 0 ∧ 10 * d + 9 * k ≤ 63 then
      ((10 * d + 9 * k) / 9 : Nat) else 0 : Nat) : Int)) = Int.ofNat m ∧ m ≠ 8 * k + b := by
    refine ⟨b + (10 * d + 9 * k) - (if (10 * d + 9 * k) % 9 = 0 ∧ 10 * d + 9 * k ≤ 63 then (10 * d + 9 * k) / 9 else 0),
      ?_, ?_⟩
    · simp only [Int.ofNat_eq_natCast]
      split <;> omega
    · split <;> omega
  obtain ⟨m, hm, hne⟩ := hz
  rw [hm, decInt_ofNat] at hcon
  unfold Spec.bitKey at hcon
  simp only [Option.some.injEq, List.append_assoc, List.append_cancel_left_eq, List.append_cancel_right_eq] at hcon
  have : dec m = dec (8 * k + b) := by
    have h2 := congrArg List.reverse hcon
    simpa using h2
  exact hne (dec_inj this)

theorem typeNamed_iff (types : List L5xType) (n : Str) (t : L5xType) :
    typeNamed types n = some t ↔ Spec.TypeIs types n t := by
  unfold typeNamed Spec.TypeIs
  rw [List.find?_eq_some_iff_append]
  constructor
  · rintro ⟨h1, as, bs, h2, h3⟩
    refine ⟨bs.reverse, as.reverse, ?_, by simpa using h1, fun u hu => by simpa using h3 u (by simpa using hu)⟩
    rw [← List.reverse_reverse types, h2]
    simp
  · rintro ⟨pre, post, rfl, h1, h2⟩
    exact ⟨by simpa using h1, post.reverse, pre.reverse, by simp, fun u hu => by simpa using h2 u (by simpa using hu)⟩

theorem typeIs_unique {types : List L5xType} {n : Str} {t u : L5xType} (h : Spec.TypeIs types n t)
    (h' : Spec.TypeIs types n u) : u = t := by
  rw [← typeNamed_iff] at h h'
  rw [h] at h'
  exact (Option.some.inj h').symm

theorem described_iff (o : Option Str) (d : Str) : Spec.TextOf parseCData o d ↔ d = descText o := by
  unfold Spec.TextOf descText
  cases o <;> simp

theorem memberText_iff (d : Str) (o : Option Str) (e : Str) : Spec.MemberText parseCData d o e ↔ e = memberDesc d o := by
  unfold Spec.MemberText memberDesc
  cases o with
  | none => simp
  | some raw =>
    simp only [reduceCtorEq, false_and, Option.some.injEq, false_or, exists_eq_left']
    rw [textAfter_joined]
    rfl

/-- What a member adds. -/
def MemberW (TS : Str → Str → Str → Prop) (d : Str) (x : L5xTypeMember) (k v : Str) : Prop :=
  ∃ key, keyOf x = some key ∧ ((k = key ∧ v = memberDesc d x.desc) ∨
    ∃ k' e', TS x.typ k' e' ∧ k = x.name ++ str "." ++ k' ∧ v = textAfter (memberDesc d x.desc) e')

theorem memberComments_holds (TS : Str → Str → Str → Prop) (sub : Str → Option (Res (List (Str × Str))))
    (hsub : ∀ n subs, sub n = some (.ok subs) → HoldsM subs (TS n)) (d : Str) (ms : List L5xTypeMember) :
    ∀ m S m', HoldsM m S → memberComments sub d ms m = some (.ok m') →
      HoldsM m' fun k v => S k v ∨ ∃ x ∈ ms, MemberW TS d x k v := by
  induction ms with
  | nil =>
    intro m S m' hm h
    rw [memberComments] at h
    simp only [Option.some.injEq, Res.ok.injEq] at h
    subst h
    exact holds_congr hm (by simp)
  | cons x xs ih =>
    intro m S m' hm h
    rw [memberComments] at h
    cases hs : sub x.typ with
    | none => rw [hs] at h; cases h
    | some r =>
      rw [hs] at h
      cases r with
      | err e => cases h
      | panic => cases h
      | ok subs =>
        simp only at h
        cases hk : memberKey x with
        | err e => rw [hk] at h; cases h
        | panic => rw [hk] at h; cases h
        | ok o =>
          rw [hk] at h
          cases o with
          | none =>
            refine holds_congr (ih m S m' hm h) fun k v => ?_
            have : ¬ MemberW TS d x k v := by
              rintro ⟨key, hkey, -⟩
              simp [keyOf, hk] at hkey
            simp only [List.mem_cons, exists_eq_or_imp, this, false_or]
          | some key =>
            simp only at h
            have hkey : keyOf x = some key := by simp [keyOf, hk]
            have h1 := holds_foldl (fun m e => mapPut m (x.name ++ str "." ++ e.1) (textAfter (memberDesc d x.desc) e.2))
              (fun (e : Str × Str) k v => k = x.name ++ str "." ++ e.1 ∧ v = textAfter (memberDesc d x.desc) e.2)
              (fun e m S hm => holds_put hm _ _) subs _ _ (holds_put hm key (memberDesc d x.desc))
            refine holds_map (ih _ _ m' h1 h) (fun k v hkv => ?_) fun k v hkv => ?_
            · rcases hkv with ((hkv | ⟨rfl, rfl⟩) | ⟨e, he, rfl, rfl⟩) | ⟨y, hy, hw⟩
              · exact Or.inl hkv
              · exact Or.inr ⟨x, by simp, _, hkey, Or.inl ⟨rfl, rfl⟩⟩
              · exact Or.inr ⟨x, by simp, key, hkey, Or.inr ⟨_, _, (hsub _ _ hs).1 e he, rfl, rfl⟩⟩
              · exact Or.inr ⟨y, by simp [hy], hw⟩
            · rcases hkv with hkv | ⟨y, hy, hw⟩
              · exact ⟨v, Or.inl (Or.inl (Or.inl hkv))⟩
              · rcases List.mem_cons.mp hy with rfl | hy
                · obtain ⟨key', hkey', hw⟩ := hw
                  rw [hkey] at hkey'
                  cases hkey'
                  rcases hw with ⟨rfl, rfl⟩ | ⟨k', e', ht, rfl, rfl⟩
                  · exact ⟨_, Or.inl (Or.inl (Or.inr ⟨rfl, rfl⟩))⟩
                  · obtain ⟨v', hv'⟩ := (hsub _ _ hs).2 k' e' ht
                    exact ⟨_, Or.inl (Or.inr ⟨(k', v'), hv', rfl, rfl⟩)⟩
                · exact ⟨v, Or.inr ⟨y, hy, hw⟩⟩

/-- What is said about the parts of a type. -/
abbrev TypeSays (types : List L5xType) : Str → Str → Str → Prop := Spec.TypeSays parseCData keyOf types

theorem typeComments_holds (types : List L5xType) (f : Nat) :
    ∀ n m, typeComments types f n = some (.ok m) → HoldsM m (TypeSays types n) := by
  induction f with
  | zero => intro n m h; cases h
  | succ f ih =>
    intro n m h
    rw [typeComments] at h
    cases ht : typeNamed types n with
    | none =>
      rw [ht] at h
      simp only [Option.some.injEq, Res.ok.injEq] at h
      subst h
      have hno : ∀ t, ¬ Spec.TypeIs types n t := fun t hi => by
        rw [← typeNamed_iff, ht] at hi; cases hi
      refine ⟨by simp, fun k v hs => ?_⟩
      cases hs with
      | self h1 => exact absurd h1 (hno _)
      | member h1 => exact absurd h1 (hno _)
      | part h1 => exact absurd h1 (hno _)
    | some t =>
      rw [ht] at h
      simp only at h
      cases hm : t.members with
      | none => rw [hm] at h; cases h
      | some ms =>
        rw [hm] at h
        simp only at h
        have hti := (typeNamed_iff types n t).mp ht
        have hself : HoldsM [(n, descText t.desc)] fun k v => k = n ∧ v = descText t.desc :=
          ⟨by simp, fun k v hs => ⟨descText t.desc, by rw [hs.1]; simp⟩⟩
        refine holds_congr (memberComments_holds (TypeSays types) _ ih (descText t.desc) ms _ _ m hself h) fun k v => ?_
        constructor
        · rintro (⟨rfl, rfl⟩ | ⟨x, hx, key, hkey, ⟨rfl, rfl⟩ | ⟨k', e', hs, rfl, rfl⟩⟩)
          · exact .self hti hm ((described_iff _ _).mpr rfl)
          · exact .member hti hm ((described_iff _ _).mpr rfl) hx hkey ((memberText_iff _ _ _).mpr rfl)
          · have := Spec.TypeSays.part (read := parseCData) (key := keyOf) hti hm ((described_iff _ _).mpr rfl) hx hkey
              ((memberText_iff _ _ _).mpr rfl) hs ((textAfter_joined _ _ _).mpr rfl)
            simpa [str] using this
        · intro hs
          cases hs with
          | self h1 h2 h3 =>
            cases typeIs_unique hti h1
            exact Or.inl ⟨rfl, (described_iff _ _).mp h3⟩
          | member h1 h2 h3 h4 h5 h6 =>
            cases typeIs_unique hti h1
            rw [hm] at h2
            cases h2
            rw [(described_iff _ _).mp h3] at h6
            exact Or.inr ⟨_, h4, _, h5, Or.inl ⟨rfl, (memberText_iff _ _ _).mp h6⟩⟩
          | part h1 h2 h3 h4 h5 h6 h7 h8 =>
            cases typeIs_unique hti h1
            rw [hm] at h2
            cases h2
            rw [(described_iff _ _).mp h3] at h6
            rw [(memberText_iff _ _ _).mp h6] at h8
            exact Or.inr ⟨_, h4, _, h5, Or.inr ⟨_, _, h7, by simp [str], (textAfter_joined _ _ _).mp h8⟩⟩

/-- C87 for the parts of a type: what is collected is what is said, and nothing that is said is missing. -/
theorem C87_type {types : List L5xType} {f : Nat} {n : Str} {m : List (Str × Str)}
    (h : typeComments types f n = some (.ok m)) : Spec.Holds m (TypeSays types n) :=
  holds_lookup (typeComments_holds types f n m h)

/-! ### Projects -/

/-- What a tag adds. -/
def TagW (types : List L5xType) (t : L5xCTag) (k v : Str) : Prop :=
  (tagDesc t = some v ∧ k = t.name) ∨
    ∃ k' e', TypeSays types t.typ k' e' ∧ e' ≠ [] ∧ k = t.name ++ str "." ++ k' ∧ v = textAfter ((tagDesc t).getD []) e'

theorem tagComments_holds (types : List L5xType) (f : Nat) (ts : List L5xCTag)
    (hu : ∀ t ∈ ts, ∀ k e e', TypeSays types t.typ k e → TypeSays types t.typ k e' → e' = e) :
    ∀ m S m', HoldsM m S → tagComments types f ts m = some (.ok m') →
      HoldsM m' fun k v => S k v ∨ ∃ t ∈ ts, TagW types t k v := by
  induction ts with
  | nil =>
    intro m S m' hm h
    rw [tagComments] at h
    simp only [Option.some.injEq, Res.ok.injEq] at h
    subst h
    exact holds_congr hm (by simp)
  | cons t ts ih =>
    intro m S m' hm h
    rw [tagComments] at h
    have h0 : HoldsM (putDesc t m) fun k v => S k v ∨ (tagDesc t = some v ∧ k = t.name) := by
      unfold putDesc
      cases hd : tagDesc t with
      | none => exact holds_congr hm (by simp)
      | some d =>
        refine holds_congr (holds_put hm t.name d) fun k v => ?_
        constructor
        · rintro (h | ⟨rfl, rfl⟩)
          · exact Or.inl h
          · exact Or.inr ⟨rfl, rfl⟩
        · rintro (h | ⟨h1, rfl⟩)
          · exact Or.inl h
          · exact Or.inr ⟨rfl, (Option.some.inj h1).symm⟩
    cases hc : typeComments types f t.typ with
    | none => rw [hc] at h; cases h
    | some r =>
      rw [hc] at h
      cases r with
      | err e => cases h
      | panic => cases h
      | ok cs =>
        simp only at h
        have hcs := typeComments_holds types f _ _ hc
        have h1 := holds_foldl (fun m (e : Str × Str) => if e.2 = [] then m else
            mapPut m (t.name ++ str "." ++ e.1) (textAfter ((tagDesc t).getD []) e.2))
          (fun e k v => e.2 ≠ [] ∧ k = t.name ++ str "." ++ e.1 ∧ v = textAfter ((tagDesc t).getD []) e.2)
          (fun e m S hm => by
            by_cases he : e.2 = []
            · rw [if_pos he]
              exact holds_congr hm (by simp [he])
            · rw [if_neg he]
              exact holds_congr (holds_put hm _ _) (by simp [he])) cs _ _ h0
        refine holds_congr (ih (fun t' ht' => hu t' (by simp [ht'])) _ _ m' h1 h) fun k v => ?_
        have hW : TagW types t k v ↔ (tagDesc t = some v ∧ k = t.name) ∨
            ∃ e ∈ cs, e.2 ≠ [] ∧ k = t.name ++ str "." ++ e.1 ∧ v = textAfter ((tagDesc t).getD []) e.2 := by
          unfold TagW
          constructor
          · rintro (h | ⟨k', e', hs, hne, rfl, rfl⟩)
            · exact Or.inl h
            · obtain ⟨v', hv'⟩ := hcs.2 k' e' hs
              have : v' = e' := hu t (by simp) k' e' v' hs (hcs.1 _ hv')
              subst this
              exact Or.inr ⟨_, hv', hne, rfl, rfl⟩
          · rintro (h | ⟨e, he, hne, rfl, rfl⟩)
            · exact Or.inl h
            · exact Or.inr ⟨_, _, hcs.1 e he, hne, rfl, rfl⟩
        simp only [List.mem_cons, exists_eq_or_imp, hW, or_assoc]

theorem channelComments_holds (base : Str) (cs : List L5xComment) (m : List (Str × Str)) (S : Str → Str → Prop)
    (h : HoldsM m S) : HoldsM (channelComments base cs m) fun k v => S k v ∨
      ∃ c ∈ cs, parseCData c.inner ≠ [] ∧ k = base ++ c.operand ∧ v = parseCData c.inner := by
  unfold channelComments
  refine holds_foldl (fun m (c : L5xComment) => if parseCData c.inner = [] then m else
      mapPut m (base ++ c.operand) (parseCData c.inner))
    (fun c k v => parseCData c.inner ≠ [] ∧ k = base ++ c.operand ∧ v = parseCData c.inner)
    (fun c m S hm => ?_) cs m S h
  by_cases he : parseCData c.inner = []
  · rw [if_pos he]
    exact holds_congr hm (by simp [he])
  · rw [if_neg he]
    exact holds_congr (holds_put hm _ _) (by simp [he])

/-- What the connections of a module add. -/
def ConnW (x : L5xModule) (k v : Str) : Prop :=
  ∃ c ∈ x.conns,
    (∃ y ∈ c.1, parseCData y.inner ≠ [] ∧ k = x.name ++ str ":I" ++ y.operand ∧ v = parseCData y.inner) ∨
    ∃ y ∈ c.2, parseCData y.inner ≠ [] ∧ k = x.name ++ str ":O" ++ y.operand ∧ v = parseCData y.inner

theorem connComments_holds (x : L5xModule) (m : List (Str × Str)) (S : Str → Str → Prop) (h : HoldsM m S) :
    HoldsM (connComments x m) fun k v => S k v ∨ ConnW x k v := by
  unfold connComments ConnW
  refine holds_foldl (W := fun (c : List L5xComment × List L5xComment) k v =>
      (∃ y ∈ c.1, parseCData y.inner ≠ [] ∧ k = x.name ++ str ":I" ++ y.operand ∧ v = parseCData y.inner) ∨
      ∃ y ∈ c.2, parseCData y.inner ≠ [] ∧ k = x.name ++ str ":O" ++ y.operand ∧ v = parseCData y.inner)
    _ (fun c m S hm => ?_) x.conns m S h
  exact holds_congr (channelComments_holds (x.name ++ str ":O") c.2 _ _ (channelComments_holds (x.name ++ str ":I") c.1 m S hm))
    fun k v => by rw [or_assoc]

theorem moduleComments_holds (ms : List L5xModule) : HoldsM (moduleComments ms []) fun k v => ∃ x ∈ ms, ConnW x k v := by
  unfold moduleComments
  exact holds_congr (holds_foldl (fun m x => connComments x m) ConnW connComments_holds ms [] _ holds_nil) (by simp)

/-- What is said about the points of the modules and the tags of the controller. -/
abbrev ProjectSays (p : L5xProject) : Str → Str → Prop := Spec.ProjectSays parseCData keyOf p

theorem tagDesc_described (t : L5xCTag) (d : Str) :
    Spec.TextOf parseCData (if t.hasData then t.descs.head? else none) d ↔ d = (tagDesc t).getD [] := by
  rw [described_iff]
  unfold tagDesc descText
  cases t.hasData with
  | false => simp
  | true => cases t.descs <;> simp

/-- C87 for modules and controller tags, where no two different things are said about the same part of a type. -/
theorem C87_tags_partial {p : L5xProject} {f : Nat} {m : List (Str × Str)} (h : loadTagComments f p = some (.ok m))
    (hu : ∀ t ∈ p.tags, ∀ k e e', TypeSays p.types t.typ k e → TypeSays p.types t.typ k e' → e' = e) :
    Spec.Holds m (ProjectSays p) := by
  apply holds_lookup
  unfold loadTagComments at h
  refine holds_congr (tagComments_holds p.types f p.tags hu _ _ m (moduleComments_holds p.modules) h) fun k v => ?_
  constructor
  · rintro (⟨x, hx, c, hc, ⟨y, hy, hne, rfl, rfl⟩ | ⟨y, hy, hne, rfl, rfl⟩⟩ | ⟨t, ht, ⟨hd, rfl⟩ | ⟨k', e', hs, hne, rfl, rfl⟩⟩)
    · exact .input hx hc hy hne
    · exact .output hx hc hy hne
    · unfold tagDesc at hd
      cases hh : t.hasData with
      | false => simp [hh] at hd
      | true =>
        cases hl : t.descs with
        | nil => simp [hh, hl] at hd
        | cons raw more =>
          simp [hh, hl] at hd
          subst hd
          exact .tag ht hh hl
    · have := Spec.ProjectSays.part (read := parseCData) (key := keyOf) ht ((tagDesc_described t _).mpr rfl) hs hne
        ((textAfter_joined _ _ _).mpr rfl)
      simpa [str] using this
  · intro hs
    cases hs with
    | input h1 h2 h3 h4 => exact Or.inl ⟨_, h1, _, h2, Or.inl ⟨_, h3, h4, rfl, rfl⟩⟩
    | output h1 h2 h3 h4 => exact Or.inl ⟨_, h1, _, h2, Or.inr ⟨_, h3, h4, rfl, rfl⟩⟩
    | tag h1 h2 h3 => exact Or.inr ⟨_, h1, Or.inl ⟨by simp [tagDesc, h2, h3], rfl⟩⟩
    | part h1 h2 h3 h4 h5 =>
      rw [(tagDesc_described _ _).mp h2] at h5
      exact Or.inr ⟨_, h1, Or.inr ⟨_, _, h3, h4, by simp [str], (textAfter_joined _ _ _).mp h5⟩⟩

/-! ### Rungs -/

theorem taskLookup_holds (tasks : List (Str × List Str)) :
    HoldsM (taskLookup tasks) fun g task => ∃ t ∈ tasks, g ∈ t.2 ∧ task = t.1 := by
  unfold taskLookup
  refine holds_congr (holds_foldl _ (fun (t : Str × List Str) g task => g ∈ t.2 ∧ task = t.1)
    (fun t m S hm => ?_) tasks [] _ holds_nil) (by simp)
  refine holds_congr (holds_foldl _ (fun (p : Str) g task => g = p ∧ task = t.1)
    (fun p m S hm => holds_put hm _ _) t.2 m S hm) fun k v => ?_
  simp

/-- What the comments of a rung add. -/
def RungW (key : Str) (cs : List Str) (k v : Str) : Prop := ∃ c ∈ cs, parseCData c ≠ [] ∧ k = key ∧ v = parseCData c

theorem rungComments_holds (key : Str) (cs : List Str) (m : List (Str × Str)) (S : Str → Str → Prop) (h : HoldsM m S) :
    HoldsM (rungComments key cs m) fun k v => S k v ∨ RungW key cs k v := by
  unfold rungComments RungW
  refine holds_foldl (fun m (c : Str) => if parseCData c = [] then m else mapPut m key (parseCData c))
    (fun c k v => parseCData c ≠ [] ∧ k = key ∧ v = parseCData c) (fun c m S hm => ?_) cs m S h
  by_cases he : parseCData c = []
  · rw [if_pos he]
    exact holds_congr hm (by simp [he])
  · rw [if_neg he]
    exact holds_congr (holds_put hm _ _) (by simp [he])

/-- What the routines of a program add. -/
def ProgramW (task : Str) (g : L5xCProgram) (k v : Str) : Prop :=
  ∃ r ∈ g.routines, ∃ x ∈ r.rungs, RungW (rungKey task g.name r.name x.number) x.comments k v

theorem routineComments_holds (task g : Str) (r : L5xRoutine) (m : List (Str × Str)) (S : Str → Str → Prop)
    (h : HoldsM m S) : HoldsM (routineComments task g r m) fun k v => S k v ∨
      ∃ x ∈ r.rungs, RungW (rungKey task g r.name x.number) x.comments k v := by
  have step : ∀ (x : L5xRung) (m : List (Str × Str)) (S : Str → Str → Prop), HoldsM m S →
      HoldsM (rungComments (rungKey task g r.name x.number) x.comments m) fun k v => S k v ∨
        RungW (rungKey task g r.name x.number) x.comments k v := by
    intro x m S hm
    generalize rungKey task g r.name x.number = key
    exact rungComments_holds key x.comments m S hm
  have := holds_foldl _ _ step r.rungs m S h
  unfold routineComments
  exact this

theorem programComments_holds (task : Str) (g : L5xCProgram) (m : List (Str × Str)) (S : Str → Str → Prop)
    (h : HoldsM m S) : HoldsM (programComments task g m) fun k v => S k v ∨ ProgramW task g k v := by
  have := holds_foldl (fun m r => routineComments task g.name r m)
    (fun r k v => ∃ x ∈ r.rungs, RungW (rungKey task g.name r.name x.number) x.comments k v)
    (fun r m S hm => routineComments_holds task g.name r m S hm) g.routines m S h
  unfold programComments ProgramW
  exact this

/-- What is said about the rungs. -/
abbrev RungSays (p : L5xProject) : Str → Str → Prop := Spec.RungSays parseCData p

theorem taskOf_iff (tasks : List (Str × List Str))
    (hu : ∀ t ∈ tasks, ∀ u ∈ tasks, ∀ g, g ∈ t.2 → g ∈ u.2 → u.1 = t.1) :
    ∀ g task, Spec.TaskOf tasks g task ↔ task = ((taskLookup tasks).lookup g).getD [] := by
  have hl := holds_lookup (taskLookup_holds tasks)
  intro g task
  cases hg : (taskLookup tasks).lookup g with
  | none =>
    have hno : ∀ t ∈ tasks, g ∉ t.2 := by
      intro t ht hm
      obtain ⟨v', hv'⟩ := hl.2 g t.1 ⟨t, ht, hm, rfl⟩
      rw [hg] at hv'
      cases hv'
    constructor
    · rintro (⟨t, ht, hm, -⟩ | ⟨-, rfl⟩)
      · exact absurd hm (hno t ht)
      · rfl
    · rintro rfl
      exact Or.inr ⟨hno, rfl⟩
  | some w =>
    obtain ⟨t, ht, hm, rfl⟩ := hl.1 g w hg
    constructor
    · rintro (⟨u, hu', hm', rfl⟩ | ⟨hno, -⟩)
      · exact hu t ht u hu' g hm hm'
      · exact absurd hm (hno t ht)
    · rintro rfl
      exact Or.inl ⟨t, ht, hm, rfl⟩

/-- C87 for rungs, where no program is in two tasks. -/
theorem C87_rungs_partial (p : L5xProject)
    (hu : ∀ t ∈ p.tasks, ∀ u ∈ p.tasks, ∀ g, g ∈ t.2 → g ∈ u.2 → u.1 = t.1) :
    Spec.Holds (loadRungComments p) (RungSays p) := by
  have htask := taskOf_iff p.tasks hu
  apply holds_lookup
  have step : ∀ (g : L5xCProgram) (m : List (Str × Str)) (S : Str → Str → Prop), HoldsM m S →
      HoldsM (programComments (((taskLookup p.tasks).lookup g.name).getD []) g m) fun k v => S k v ∨
        ProgramW (((taskLookup p.tasks).lookup g.name).getD []) g k v := by
    intro g m S hm
    generalize ((taskLookup p.tasks).lookup g.name).getD [] = task
    exact programComments_holds task g m S hm
  have hall := holds_foldl _ _ step p.programs [] _ holds_nil
  unfold loadRungComments
  refine holds_congr hall fun k v => ?_
  constructor
  · rintro (h | ⟨g, hg, r, hr, x, hx, c, hc, hne, hk, hv⟩)
    · exact absurd h id
    · rw [hk, hv]
      have hg' := (htask g.name (((taskLookup p.tasks).lookup g.name).getD [])).mpr rfl
      generalize ((taskLookup p.tasks).lookup g.name).getD [] = task at hg'
      unfold rungKey
      exact Spec.RungSays.rung hg hr hx hc hne hg'
  · intro hs
    cases hs with
    | @rung g r x c task h1 h2 h3 h4 h5 h6 =>
      refine Or.inr ⟨g, h1, r, h2, x, h3, c, h4, h5, ?_, rfl⟩
      rw [← (htask _ _).mp h6]
      unfold rungKey
      rfl

/-! ### A project -/

def cdataOf (s : Str) : Str := str "<![CDATA[" ++ s ++ str "]]>"

/-- A type with a nested type, a module, a tag of the type, and a program with a routine. -/
def demoProject : L5xProject where
  modules := [⟨str "Local:1", [([⟨str ".DATA.0", cdataOf (str "Start")⟩], [⟨str ".DATA.3", cdataOf (str "Lamp")⟩])]⟩]
  types := [⟨str "Motor", some (cdataOf (str "Motor")), some [⟨str "Speed", str "Value", [], 0, some (cdataOf (str "speed"))⟩,
      ⟨str "On", str "BIT", str "ZZZZMotor1", 2, some (cdataOf (str "runs"))⟩]⟩,
    ⟨str "Value", none, some [⟨str "Raw", str "DINT", [], 0, some (cdataOf (str "raw"))⟩]⟩]
  tags := [⟨str "M1", str "Motor", true, [cdataOf (str "Pump")], []⟩]
  programs := [⟨str "Main", [⟨str "Step", str "DINT", true, [cdataOf (str "Current step")], []⟩],
    [⟨str "R1", [⟨str "0", [cdataOf (str "First rung")]⟩, ⟨str "1", []⟩]⟩]⟩]
  tasks := [(str "T", [str "Main"])]

example : loadTagComments 4 demoProject = some (.ok [(str "Local:1:I.DATA.0", str "Start"), (str "Local:1:O.DATA.3", str "Lamp"),
    (str "M1", str "Pump"), (str "M1.Motor", str "Pump Motor"), (str "M1.Speed", str "Pump Motor speed"),
    (str "M1.Speed.Value", str "Pump Motor speed "), (str "M1.Speed.Raw", str "Pump Motor speed raw"),
    (str "M1.On<3>", str "Pump Motor runs")]) := by decide +kernel

example : loadRungComments demoProject = [(str "T/Main/R1[0]", str "First rung")] := by decide +kernel

/-! ### What is not found -/

/-- C87 is false for the tags of programs: whatever is said about them, nothing of it is found. -/
theorem C87_program_tags_dropped (f : Nat) (p : L5xProject) (gs : List L5xCProgram) :
    loadTagComments f { p with programs := gs } = loadTagComments f p := rfl

/-- C87 is false for the comments on parts of a tag: they make no difference. -/
theorem C87_tag_parts_dropped (f : Nat) (p : L5xProject) (g : L5xCTag → List L5xComment) :
    loadTagComments f { p with tags := p.tags.map fun t => { t with comments := g t } } = loadTagComments f p := by
  unfold loadTagComments
  simp only
  generalize moduleComments p.modules [] = m
  generalize p.tags = ts
  induction ts generalizing m with
  | nil => rfl
  | cons t ts ih =>
    rw [List.map_cons, tagComments, tagComments]
    simp only
    cases typeComments p.types f t.typ with
    | none => rfl
    | some r =>
      cases r with
      | err e => rfl
      | panic => rfl
      | ok cs => exact ih _

/-- C87 is false for tags without data, as aliases are: their descriptions make no difference. -/
theorem C87_alias_dropped (f : Nat) (p : L5xProject) (g : L5xCTag → List Str) :
    loadTagComments f { p with tags := p.tags.map fun t => if t.hasData then t else { t with descs := g t } } =
      loadTagComments f p := by
  unfold loadTagComments
  simp only
  generalize moduleComments p.modules [] = m
  generalize p.tags = ts
  induction ts generalizing m with
  | nil => rfl
  | cons t ts ih =>
    rw [List.map_cons]
    by_cases hd : t.hasData = true
    · rw [if_pos hd, tagComments, tagComments]
      cases typeComments p.types f t.typ with
      | none => rfl
      | some r =>
        cases r with
        | err e => rfl
        | panic => rfl
        | ok cs => exact ih _
    · rw [if_neg hd, tagComments, tagComments]
      have hp : ∀ m, putDesc { t with descs := g t } m = putDesc t m := by
        intro m; simp [putDesc, tagDesc, hd]
      have ht : tagDesc { t with descs := g t } = tagDesc t := by simp [tagDesc, hd]
      simp only [hp, ht]
      cases typeComments p.types f t.typ with
      | none => rfl
      | some r =>
        cases r with
        | err e => rfl
        | panic => rfl
        | ok cs => exact ih _

/-- C87 is false for the description of a type: it is filed under a member of the tag with the name of the type, which
there need not be. -/
theorem C87_type_as_member (types : List L5xType) (n : Str) (t : L5xType) (ms : List L5xTypeMember)
    (h : Spec.TypeIs types n t) (hm : t.members = some ms) (f : Nat) (m : List (Str × Str))
    (hc : typeComments types f n = some (.ok m)) : ∃ v, m.lookup n = some v :=
  (C87_type hc).2 n _ (.self h hm ((described_iff _ _).mpr rfl))

/-- A type without members crashes. -/
theorem C87_no_members_panics (types : List L5xType) (n : Str) (t : L5xType) (h : Spec.TypeIs types n t)
    (hm : t.members = none) (f : Nat) : typeComments types (f + 1) n = some .panic := by
  rw [typeComments, (typeNamed_iff types n t).mpr h]
  simp only [hm]

/-- A bit of a member with a name of one letter crashes. -/
theorem C87_short_target_panics (x : L5xTypeMember) (hb : x.typ = str "BIT") (h : x.target.length < 2) :
    memberKey x = .panic := by
  unfold memberKey bitName
  rw [if_pos hb, if_pos h]

example : typeComments [⟨str "T", none, some [⟨str "On", str "BIT", str "W", 0, none⟩]⟩] 3 (str "T") = some .panic := by
  decide +kernel

/-- A type whose first member is of the type itself is never done with. -/
theorem C87_recursive_type (types : List L5xType) (n : Str) (t : L5xType) (h : Spec.TypeIs types n t) (x : L5xTypeMember)
    (ms : List L5xTypeMember) (hm : t.members = some (x :: ms)) (hx : x.typ = n) (f : Nat) : typeComments types f n = none := by
  induction f with
  | zero => rfl
  | succ f ih =>
    rw [typeComments, (typeNamed_iff types n t).mpr h]
    simp only [hm]
    rw [memberComments, hx, ih]

/-- C87 is false for rungs with the number of another rung of the routine, or several comments: the last one is kept. -/
theorem C87_last_comment_kept (key : Str) (cs : List Str) (c : Str) (m : List (Str × Str)) (h : parseCData c ≠ []) :
    (rungComments key (cs ++ [c]) m).lookup key = some (parseCData c) := by
  unfold rungComments
  rw [List.foldl_append, List.foldl_cons, List.foldl_nil, if_neg h, mapPut_lookup, if_pos rfl]

end Gologix
