import Verif.Spec.TypeDesc
import Verif.Props.TypeEncode
/-
C81 The type description names every member of a structure in order
-/
set_option linter.unusedSimpArgs false
namespace Gologix
open Spec

theorem logixTypeName_of (n l : Str) (h : (n, l) ∈ typeNames) : logixTypeName n = l := by
  simp only [typeNames, List.mem_cons, List.not_mem_nil, or_false, Prod.mk.injEq] at h
  rcases h with ⟨rfl, rfl⟩ | ⟨rfl, rfl⟩ | ⟨rfl, rfl⟩ | ⟨rfl, rfl⟩ | ⟨rfl, rfl⟩ | ⟨rfl, rfl⟩ | ⟨rfl, rfl⟩ | ⟨rfl, rfl⟩ |
    ⟨rfl, rfl⟩ | ⟨rfl, rfl⟩ <;> decide +kernel

/-- `fs` continues a byte of which `b` bits are used, and is then described by `ds`. -/
def Continues (b : Nat) (fs : List DTy) (ds : List Str) : Prop :=
  if b = 0 then Members fs ds
  else ∃ j rest, fs = List.replicate j .bool ++ rest ∧ j ≤ 8 - b ∧ (j = 8 - b ∨ rest.head? ≠ some .bool) ∧ Members rest ds

theorem continues_other {b : Nat} (hb : b < 8) {t : DTy} (ht : t ≠ .bool) {fs : List DTy} {ds : List Str}
    (h : Members (t :: fs) ds) : Continues b (t :: fs) ds := by
  unfold Continues
  split
  · exact h
  · exact ⟨0, t :: fs, rfl, by omega, .inr (by simpa using ht), h⟩

theorem continues_nil {b : Nat} : Continues b [] [] := by
  unfold Continues
  split
  · exact .nil
  · exact ⟨0, [], rfl, by omega, .inr (by simp), .nil⟩

/-- One more boolean. -/
theorem continues_bool {b : Nat} (hb : b < 8) {fs : List DTy} {ds : List Str}
    (h : Continues (if b + 1 ≥ 8 then 0 else b + 1) fs ds) :
    Continues b (.bool :: fs) (if b = 0 then str "SINT" :: ds else ds) := by
  by_cases hb0 : b = 0
  · subst hb0
    simp only [Continues, if_true, show ¬ (0 + 1 ≥ 8) by decide, if_false, show ¬ (0 + 1 = 0) by decide] at h ⊢
    obtain ⟨j, rest, rfl, h1, h2, h3⟩ := h
    exact .bools (k := j + 1) (by omega) (by omega) (h2.imp (fun e => by omega) id) h3
  · simp only [Continues, hb0, if_false] at h ⊢
    by_cases h7 : b + 1 ≥ 8
    · simp only [h7, if_true] at h
      exact ⟨1, fs, rfl, by omega, .inl (by omega), h⟩
    · simp only [h7, if_false, show ¬ (b + 1 = 0) by omega] at h
      obtain ⟨j, rest, rfl, h1, h2, h3⟩ := h
      exact ⟨j + 1, rest, rfl, by omega, h2.imp (fun e => by omega) id, h3⟩

mutual
theorem plain_elem (n : Nat) (hn : 0 < n) : ∀ (t : DTy), Plain t → ∃ d, arrayElemName n t = .ok d ∧ Describes t d
  | .basic nm, h => by
    cases h with
    | number h => exact ⟨_, by unfold arrayElemName; rw [logixTypeName_of _ _ h], .number h⟩
  | .known d i, _ => ⟨d, by unfold arrayElemName; rw [if_neg (by omega)], .known⟩
  | .struct name fs, h => by
    cases h with
    | struct h =>
      obtain ⟨ds, h1, h2⟩ := plain_fields fs false 0 (by omega) (fun _ => rfl) h name
      refine ⟨_, ?_, .struct (by simpa [Continues] using h2)⟩
      unfold arrayElemName
      rw [if_neg (by omega), h1]
  | .bool, h => by cases h
  | .arr _ _, h => by cases h

theorem plain_fields : ∀ (fs : List DTy) (p : Bool) (b : Nat), b < 8 → (p = false → b = 0) → PlainFields p fs →
    ∀ enc, ∃ ds, encodeFields fs enc b = .ok (enc ++ ds.flatMap (str "," ++ ·)) ∧ Continues b fs ds
  | [], _, b, _, _, _, enc => ⟨[], by simp [encodeFields], continues_nil⟩
  | .bool :: fs, p, b, hb, hp, h, enc => by
    have h' : PlainFields true fs := by
      cases h with
      | bool h => exact h
      | one h _ => cases h
    obtain ⟨ds, h1, h2⟩ := plain_fields fs true (if b + 1 ≥ 8 then 0 else b + 1) (by split <;> omega) (by simp) h'
      (if b = 0 then enc ++ str ",SINT" else enc)
    refine ⟨_, ?_, continues_bool hb h2⟩
    unfold encodeFields
    rw [h1]
    by_cases hb0 : b = 0
    · simp only [hb0, if_true, List.flatMap_cons, List.append_assoc]
      rfl
    · simp only [hb0, if_false]
  | .basic nm :: fs, p, b, hb, hp, h, enc => by
    cases h with
    | one ht h =>
      cases ht with
      | number hn =>
        obtain ⟨ds, h1, h2⟩ := plain_fields fs false 0 (by omega) (fun _ => rfl) h (enc ++ [0x2C#8] ++ logixTypeName nm)
        refine ⟨logixTypeName nm :: ds, ?_, continues_other hb (by simp) (.field (.number ?_) (by simpa [Continues] using h2))⟩
        · unfold encodeFields
          rw [h1, List.flatMap_cons]
          simp only [List.append_assoc]
          rfl
        · rw [logixTypeName_of _ _ hn]; exact hn
  | .known d i :: fs, p, b, hb, hp, h, enc => by
    cases h with
    | one ht h =>
      obtain ⟨ds, h1, h2⟩ := plain_fields fs false 0 (by omega) (fun _ => rfl) h (enc ++ [0x2C#8] ++ d)
      refine ⟨d :: ds, ?_, continues_other hb (by simp) (.field .known (by simpa [Continues] using h2))⟩
      unfold encodeFields
      rw [h1, List.flatMap_cons]
      simp only [List.append_assoc]
      rfl
  | .struct name sub :: fs, p, b, hb, hp, h, enc => by
    cases h with
    | one ht h =>
      cases ht with
      | struct ht =>
        obtain ⟨ds', h1', h2'⟩ := plain_fields sub false 0 (by omega) (fun _ => rfl) ht name
        obtain ⟨ds, h1, h2⟩ := plain_fields fs false 0 (by omega) (fun _ => rfl) h
          (enc ++ [0x2C#8] ++ (name ++ ds'.flatMap (str "," ++ ·)))
        refine ⟨(name ++ ds'.flatMap (str "," ++ ·)) :: ds, ?_, continues_other hb (by simp)
          (.field (.struct (by simpa [Continues] using h2')) (by simpa [Continues] using h2))⟩
        unfold encodeFields
        rw [h1', Res.bind_ok, h1, List.flatMap_cons]
        simp only [List.append_assoc]
        rfl
  | .arr n e :: fs, p, b, hb, hp, h, enc => by
    cases h with
    | one ht _ => cases ht
    | array hn he h =>
      obtain rfl := hp rfl
      obtain ⟨d, h1', h2'⟩ := plain_elem n hn e he
      obtain ⟨ds, h1, h2⟩ := plain_fields fs false 0 (by omega) (fun _ => rfl) h
        (enc ++ [0x2C#8] ++ d ++ [0x5B#8] ++ dec n ++ [0x5D#8])
      refine ⟨(d ++ str "[" ++ dec n ++ str "]") :: ds, ?_, continues_other hb (by simp)
        (.field (.array h2') (by simpa [Continues] using h2))⟩
      unfold encodeFields
      rw [h1', Res.bind_ok, h1, List.flatMap_cons]
      simp only [List.append_assoc]
      rfl
end

/-- C81 for structures without the cases below: the text is the description of the structure. -/
theorem C81_described_partial (name : Str) (fs : List DTy) (h : Plain (.struct name fs)) :
    ∃ s, typeEncode (.struct name fs) = .ok (s, checksum s) ∧ Describes (.struct name fs) s := by
  cases h with
  | struct h =>
    obtain ⟨ds, h1, h2⟩ := plain_fields fs false 0 (by omega) (fun _ => rfl) h name
    exact ⟨name ++ ds.flatMap (str "," ++ ·), by simp only [typeEncode, h1, Res.bind_ok], .struct (by simpa [Continues] using h2)⟩

/-- C81 is false for booleans with an array between them: the second one is not in the description. -/
theorem C81_bool_hidden (name : Str) (n : Nat) (e : DTy) :
    typeEncode (.struct name [.bool, .arr n e, .bool]) = typeEncode (.struct name [.bool, .arr n e]) := by
  simp only [typeEncode, encodeFields, if_true, show ¬ (0 + 1 ≥ 8) by decide, if_false]
  cases arrayElemName n e <;> rfl

/-- C81 is false for arrays of booleans and of arrays, and for types without a Logix name: they have no name in the
description, so that different members are described alike. -/
theorem C81_nameless (name : Str) (n m k : Nat) (e e' : DTy) :
    typeEncode (.struct name [.arr n .bool]) = .ok (name ++ str ",[" ++ dec n ++ str "]", checksum (name ++ str ",[" ++ dec n ++ str "]")) ∧
    typeEncode (.struct name [.arr n (.arr m e)]) = typeEncode (.struct name [.arr n (.arr k e')]) ∧
    typeEncode (.struct name [.basic (str "int")]) = typeEncode (.struct name [.basic (str "string")]) := by
  refine ⟨?_, rfl, rfl⟩
  simp only [typeEncode, encodeFields, arrayElemName, show logixTypeName (str "bool") = [] by decide +kernel, Res.bind_ok,
    List.append_nil, List.append_assoc]
  rfl

/-- Some field of the list has it. -/
def EmptyAmong (fs : List DTy) : Prop :=
  ∃ t ∈ fs, HasEmpty t ∨ (∃ e, t = .arr 0 e ∧ StructType e) ∨ ∃ n e, t = .arr n e ∧ HasEmpty e

theorem hasEmpty_struct {name : Str} {fs : List DTy} : HasEmpty (.struct name fs) ↔ EmptyAmong fs := by
  constructor
  · intro h
    cases h with
    | here h1 h2 => exact ⟨_, h1, .inr (.inl ⟨_, rfl, h2⟩)⟩
    | inner h1 h2 => exact ⟨_, h1, .inl h2⟩
    | element h1 h2 => exact ⟨_, h1, .inr (.inr ⟨_, _, rfl, h2⟩)⟩
  · rintro ⟨t, ht, h | ⟨e, rfl, h⟩ | ⟨n, e, rfl, h⟩⟩
    · exact .inner ht h
    · exact .here ht h
    · exact .element ht h

theorem emptyAmong_cons {t : DTy} {fs : List DTy} : EmptyAmong (t :: fs) ↔
    (HasEmpty t ∨ (∃ e, t = .arr 0 e ∧ StructType e) ∨ ∃ n e, t = .arr n e ∧ HasEmpty e) ∨ EmptyAmong fs := by
  unfold EmptyAmong
  simp only [List.mem_cons, exists_eq_or_imp]

/-- Succeeds, or panics when `P`. -/
def PanicsWhen {α : Type} (r : Res α) (P : Prop) : Prop := (P → r = .panic) ∧ (¬ P → ∃ x, r = .ok x)

theorem PanicsWhen.bind {α β : Type} {r : Res α} {P Q : Prop} {f : α → Res β} (h : PanicsWhen r P)
    (hf : ∀ a, PanicsWhen (f a) Q) : PanicsWhen (r >>= f) (P ∨ Q) := by
  by_cases hP : P
  · rw [h.1 hP]; exact ⟨fun _ => rfl, fun hn => absurd (.inl hP) hn⟩
  · obtain ⟨a, ha⟩ := h.2 hP
    rw [ha, Res.bind_ok]
    exact ⟨fun hq => (hf a).1 (hq.resolve_left hP), fun hn => (hf a).2 (fun hq => hn (.inr hq))⟩

theorem PanicsWhen.congr {α : Type} {r : Res α} {P Q : Prop} (h : PanicsWhen r P) (e : P ↔ Q) : PanicsWhen r Q :=
  ⟨fun q => h.1 (e.mpr q), fun q => h.2 (fun p => q (e.mp p))⟩

mutual
theorem elem_panics (n : Nat) : ∀ (t : DTy), PanicsWhen (arrayElemName n t) (n = 0 ∧ StructType t ∨ HasEmpty t)
  | .basic nm => ⟨fun h => (by rcases h with ⟨-, h⟩ | h <;> cases h), fun _ => ⟨_, by unfold arrayElemName; rfl⟩⟩
  | .bool => ⟨fun h => (by rcases h with ⟨-, h⟩ | h <;> cases h), fun _ => ⟨_, by unfold arrayElemName; rfl⟩⟩
  | .arr _ _ => ⟨fun h => (by rcases h with ⟨-, h⟩ | h <;> cases h), fun _ => ⟨_, by unfold arrayElemName; rfl⟩⟩
  | .known d i => by
    unfold arrayElemName
    by_cases hn : n = 0
    · exact ⟨fun _ => if_pos hn, fun h => absurd (.inl ⟨hn, trivial⟩) h⟩
    · exact ⟨fun h => (by rcases h with ⟨h, -⟩ | h; exact absurd h hn; cases h), fun _ => ⟨d, if_neg hn⟩⟩
  | .struct name fs => by
    unfold arrayElemName
    by_cases hn : n = 0
    · exact ⟨fun _ => if_pos hn, fun h => absurd (.inl ⟨hn, trivial⟩) h⟩
    · rw [if_neg hn]
      exact (fields_panic fs name 0).congr (by rw [hasEmpty_struct]; simp [hn])

theorem fields_panic : ∀ (fs : List DTy) (enc : Str) (b : Nat), PanicsWhen (encodeFields fs enc b) (EmptyAmong fs)
  | [], enc, b => ⟨fun ⟨_, h, _⟩ => by simp at h, fun _ => ⟨enc, by simp [encodeFields]⟩⟩
  | .bool :: fs, enc, b => by
    unfold encodeFields
    refine (fields_panic fs _ _).congr ?_
    rw [emptyAmong_cons]
    constructor
    · exact .inr
    · rintro ((h | ⟨e, h, -⟩ | ⟨n, e, h, -⟩) | h)
      · cases h
      · cases h
      · cases h
      · exact h
  | .basic nm :: fs, enc, b => by
    unfold encodeFields
    refine (fields_panic fs _ _).congr ?_
    rw [emptyAmong_cons]
    constructor
    · exact .inr
    · rintro ((h | ⟨e, h, -⟩ | ⟨n, e, h, -⟩) | h)
      · cases h
      · cases h
      · cases h
      · exact h
  | .known d i :: fs, enc, b => by
    unfold encodeFields
    refine (fields_panic fs _ _).congr ?_
    rw [emptyAmong_cons]
    constructor
    · exact .inr
    · rintro ((h | ⟨e, h, -⟩ | ⟨n, e, h, -⟩) | h)
      · cases h
      · cases h
      · cases h
      · exact h
  | .struct name sub :: fs, enc, b => by
    unfold encodeFields
    refine ((fields_panic sub name 0).bind (fun s => fields_panic fs _ _)).congr ?_
    rw [emptyAmong_cons, hasEmpty_struct]
    constructor
    · rintro (h | h)
      · exact .inl (.inl h)
      · exact .inr h
    · rintro ((h | ⟨e, h, -⟩ | ⟨n, e, h, -⟩) | h)
      · exact .inl h
      · cases h
      · cases h
      · exact .inr h
  | .arr n e :: fs, enc, b => by
    unfold encodeFields
    refine ((elem_panics n e).bind (fun s => fields_panic fs _ _)).congr ?_
    rw [emptyAmong_cons]
    constructor
    · rintro ((⟨rfl, h⟩ | h) | h)
      · exact .inl (.inr (.inl ⟨e, rfl, h⟩))
      · exact .inl (.inr (.inr ⟨n, e, rfl, h⟩))
      · exact .inr h
    · rintro ((h | ⟨e', h, h'⟩ | ⟨n', e', h, h'⟩) | h)
      · cases h
      · cases h; exact .inl (.inl ⟨rfl, h'⟩)
      · cases h; exact .inl (.inr h')
      · exact .inr h
end

/-- C81 is false for arrays of no structures and for what is no structure: the program crashes, for these and only for
these. -/
theorem C81_crash (t : DTy) : typeEncode t = .panic ↔ ¬ StructType t ∨ HasEmpty t := by
  cases t with
  | basic n => exact ⟨fun _ => .inl id, fun _ => by unfold typeEncode; rfl⟩
  | bool => exact ⟨fun _ => .inl id, fun _ => by unfold typeEncode; rfl⟩
  | arr n e => exact ⟨fun _ => .inl id, fun _ => by unfold typeEncode; rfl⟩
  | known d i =>
    unfold typeEncode
    refine ⟨fun h => (by cases h), fun h => ?_⟩
    rcases h with h | h
    · exact absurd trivial h
    · cases h
  | struct name fs =>
    have h := fields_panic fs name 0
    simp only [typeEncode]
    constructor
    · intro hp
      by_cases he : EmptyAmong fs
      · exact .inr (hasEmpty_struct.mpr he)
      · obtain ⟨x, hx⟩ := h.2 he
        rw [hx, Res.bind_ok] at hp
        cases hp
    · rintro (h' | h')
      · exact absurd trivial h'
      · rw [h.1 (hasEmpty_struct.mp h')]; rfl

/-- C81: there is no other failure. -/
theorem C81_no_error (t : DTy) : (typeEncode t).isErr = false := by
  cases t with
  | struct name fs =>
    have h := fields_panic fs name 0
    simp only [typeEncode]
    by_cases he : EmptyAmong fs
    · rw [h.1 he]; rfl
    · obtain ⟨x, hx⟩ := h.2 he
      rw [hx]; rfl
  | _ => unfold typeEncode; rfl

example : typeEncode (.struct (str "T") [.basic (str "int16"), .struct (str "U") [.arr 0 (.known (str "S") 1#16)]]) = .panic :=
  (C81_crash _).mpr (.inr (.inner (t := .struct (str "U") [.arr 0 (.known (str "S") 1#16)]) (by simp)
    (.here (e := .known (str "S") 1#16) (by simp) trivial)))

/-- Nine booleans, a nested structure and an array of structures. -/
example :
    Plain (.struct (str "T") (List.replicate 9 .bool ++ [.struct (str "S") [.basic (str "int16")],
      .arr 2 (.struct (str "S") [.basic (str "int16")])])) ∧
    typeEncode (.struct (str "T") (List.replicate 9 .bool ++ [.struct (str "S") [.basic (str "int16")],
      .arr 2 (.struct (str "S") [.basic (str "int16")])])) =
      .ok (str "T,SINT,SINT,S,INT,S,INT[2]", checksum (str "T,SINT,SINT,S,INT,S,INT[2]")) := by
  constructor
  · have hs : Plain (.struct (str "S") [.basic (str "int16")]) :=
      .struct (.one (.number (l := str "INT") (by simp [typeNames])) .nil)
    exact .struct (.bool (.bool (.bool (.bool (.bool (.bool (.bool (.bool (.bool (.one hs (.array (by decide) hs .nil)))))))))))
  · decide +kernel

end Gologix
