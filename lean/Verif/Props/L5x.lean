import Verif.Spec.L5x
import Verif.Lemmas.Str
import Verif.Props.TagList
/-
C51, C68: project exports.
-/
set_option linter.unusedSimpArgs false

namespace Gologix
open Spec

theorem parseUint_dec {n : Nat} (h : n < 2 ^ 64) : parseUint (dec n) = some (some n) := by
  unfold parseUint
  rw [if_neg (dec_ne_nil n)]
  exact parseUintLoop_decAux (by omega) h

theorem signSplit_dec (n : Nat) : signSplit (dec n) = (false, dec n) := by
  have hd := dec_digits n
  cases hc : dec n with
  | nil => rfl
  | cons b t => exact signSplit_digit (hd b (by simp [hc]))

theorem parseInt_decimal {bits : Nat} (hb : bits ≤ 64) (hb0 : 0 < bits) {z : Int} (h1 : -2 ^ (bits - 1) ≤ z)
    (h2 : z < 2 ^ (bits - 1)) : parseInt bits (decimalText z) = .ok z := by
  have hp : (2 : Nat) ^ (bits - 1) ≤ 2 ^ 63 := Nat.pow_le_pow_right (by omega) (by omega)
  have hpi : ((2 ^ (bits - 1) : Nat) : Int) = (2 : Int) ^ (bits - 1) := by simp
  unfold decimalText
  split
  · rename_i hz
    unfold parseInt
    have : signSplit (0x2D#8 :: dec z.natAbs) = (true, dec z.natAbs) := rfl
    rw [this]
    unfold parseSigned
    rw [parseUint_dec (by omega)]
    simp only [Option.getD_some, Bool.not_true, Bool.false_eq_true, false_and, if_false, true_and]
    rw [if_neg (by omega)]
    simp only [if_true]
    congr 1
    show -(z.natAbs : Int) = z
    omega
  · rename_i hz
    rw [parseInt_dec (by omega) (by omega)]
    congr 1
    omega

theorem parseInt_saturates {bits n : Nat} (h1 : 2 ^ (bits - 1) ≤ n) (h2 : n < 2 ^ 64) :
    parseInt bits (dec n) = .rangeErr (Int.ofNat (2 ^ (bits - 1)) - 1) := by
  unfold parseInt
  rw [signSplit_dec]
  unfold parseSigned
  rw [parseUint_dec h2]
  simp only [Option.getD_some, Bool.not_false, true_and]
  rw [if_pos h1]

/-- C51 for the signed types, for every value of their range, and for the bit string types for the lower half
of theirs. -/
theorem C51_converted_partial (pf : Str → BitVec 64) (ty : Str) (lo hi : Int) (g : GoTy)
    (ht : (ty, lo, hi, g) ∈ intTypes.take 8) (z : Int) (hz : lo ≤ z ∧ z < hi)
    (hhalf : lo = 0 → z < hi / 2) :
    (l5xValue pf ty (decimalText z)).ty = some g ∧ intVal (l5xValue pf ty (decimalText z)) = some z := by
  have key : ∀ (bits : Nat), bits ≤ 64 → 0 < bits → -2 ^ (bits - 1) ≤ z → z < 2 ^ (bits - 1) →
      (BitVec.ofInt bits (parseInt bits (decimalText z)).val).toInt = z ∧
      (0 ≤ z → ((BitVec.ofInt bits (parseInt bits (decimalText z)).val).toNat : Int) = z) := by
    intro bits h1 h2 h3 h4
    rw [parseInt_decimal h1 h2 h3 h4]
    have hp : (2 : Int) ^ bits = 2 * 2 ^ (bits - 1) := by
      rw [← Int.pow_succ']
      congr 1
      omega
    constructor
    · show (BitVec.ofInt bits z).toInt = z
      rw [BitVec.toInt_ofInt]
      have hn : ((2 ^ bits : Nat) : Int) = 2 * 2 ^ (bits - 1) := by rw [← hp]; simp
      apply Int.bmod_eq_of_le <;> omega
    · intro h0
      show ((BitVec.ofInt bits z).toNat : Int) = z
      rw [BitVec.toNat_ofInt]
      have hn : ((2 ^ bits : Nat) : Int) = 2 * 2 ^ (bits - 1) := by rw [← hp]; simp
      rw [hn, Int.emod_eq_of_lt h0 (by omega)]
      omega
  simp only [intTypes, List.take, List.mem_cons, Prod.mk.injEq, List.not_mem_nil, or_false] at ht
  rcases ht with ⟨rfl, rfl, rfl, rfl⟩ | ⟨rfl, rfl, rfl, rfl⟩ | ⟨rfl, rfl, rfl, rfl⟩ | ⟨rfl, rfl, rfl, rfl⟩ |
    ⟨rfl, rfl, rfl, rfl⟩ | ⟨rfl, rfl, rfl, rfl⟩ | ⟨rfl, rfl, rfl, rfl⟩ | ⟨rfl, rfl, rfl, rfl⟩
  · exact ⟨rfl, congrArg some (key 8 (by decide) (by decide) hz.1 hz.2).1⟩
  · exact ⟨rfl, congrArg some (key 16 (by decide) (by decide) hz.1 hz.2).1⟩
  · exact ⟨rfl, congrArg some (key 32 (by decide) (by decide) hz.1 hz.2).1⟩
  · exact ⟨rfl, congrArg some (key 64 (by decide) (by decide) hz.1 hz.2).1⟩
  · have := hhalf rfl
    exact ⟨rfl, congrArg some ((key 8 (by decide) (by decide) (by omega) (by omega)).2 hz.1)⟩
  · have := hhalf rfl
    exact ⟨rfl, congrArg some ((key 16 (by decide) (by decide) (by omega) (by omega)).2 hz.1)⟩
  · have := hhalf rfl
    exact ⟨rfl, congrArg some ((key 32 (by decide) (by decide) (by omega) (by omega)).2 hz.1)⟩
  · have := hhalf rfl
    exact ⟨rfl, congrArg some ((key 64 (by decide) (by decide) (by omega) (by omega)).2 hz.1)⟩

example : l5xValue (fun _ => 0) (str "INT") (str "-32768") = .i16 0x8000#16 := by decide +kernel

/-- C51 is false for the upper half of the range of the bit string types: all of its values become the
largest value of the lower half, without an error. -/
theorem C51_upper_half_saturates (pf : Str → BitVec 64) (n : Nat) :
    (2 ^ 7 ≤ n → n < 2 ^ 8 → l5xValue pf (str "BYTE") (decimalText n) = .u8 0x7F#8) ∧
    (2 ^ 15 ≤ n → n < 2 ^ 16 → l5xValue pf (str "WORD") (decimalText n) = .u16 0x7FFF#16) ∧
    (2 ^ 31 ≤ n → n < 2 ^ 32 → l5xValue pf (str "DWORD") (decimalText n) = .u32 0x7FFFFFFF#32) ∧
    (2 ^ 63 ≤ n → n < 2 ^ 64 → l5xValue pf (str "LWORD") (decimalText n) = .u64 0x7FFFFFFFFFFFFFFF#64) := by
  have hd : decimalText n = dec n := by
    unfold decimalText
    rw [if_neg (by omega)]
    rfl
  rw [hd]
  refine ⟨fun h1 h2 => ?_, fun h1 h2 => ?_, fun h1 h2 => ?_, fun h1 h2 => ?_⟩
  · show Scal.u8 (BitVec.ofInt 8 (parseInt 8 (dec n)).val) = _
    rw [parseInt_saturates h1 (by omega)]; rfl
  · show Scal.u16 (BitVec.ofInt 16 (parseInt 16 (dec n)).val) = _
    rw [parseInt_saturates h1 (by omega)]; rfl
  · show Scal.u32 (BitVec.ofInt 32 (parseInt 32 (dec n)).val) = _
    rw [parseInt_saturates h1 (by omega)]; rfl
  · show Scal.u64 (BitVec.ofInt 64 (parseInt 64 (dec n)).val) = _
    rw [parseInt_saturates h1 (by omega)]; rfl

/-- C51 is false for the unsigned types: whatever the value, the result is a text. -/
theorem C51_unsigned_unknown (pf : Str → BitVec 64) (v : Str) (ty : Str)
    (h : ty = str "USINT" ∨ ty = str "UINT" ∨ ty = str "UDINT" ∨ ty = str "ULINT") :
    l5xValue pf ty v = .str (str "Unknown type: " ++ ty) := by
  rcases h with rfl | rfl | rfl | rfl <;> rfl

/-- The bit types. -/
theorem C51_bits (pf : Str → BitVec 64) (ty : Str) (h : ty = str "BOOL" ∨ ty = str "BIT") :
    l5xValue pf ty (decimalText 0) = .bool false ∧ l5xValue pf ty (decimalText 1) = .bool true := by
  rcases h with rfl | rfl <;> exact ⟨rfl, rfl⟩

/-! ### C68: all tags of the export -/

/-- What is entered for the tags of the controller. -/
def controllerPuts (pf : Str → BitVec 64) (ts : List L5xTag) : List (Str × LTop) :=
  ts.filterMap fun t => match t.data with
    | _ :: d :: _ => d.value.map fun v => (t.name, .val (.scal (l5xValue pf t.typ v)))
    | _ => none

theorem loadController_puts (pf : Str → BitVec 64) (ts : List L5xTag) (m : List (Str × LTop)) :
    loadController pf ts m = puts (controllerPuts pf ts) m := by
  induction ts generalizing m with
  | nil => rfl
  | cons t ts ih =>
    rw [loadController]
    unfold controllerPuts at ih ⊢
    rw [List.filterMap_cons]
    split
    · rename_i a d rest hd
      simp only [hd]
      cases hv : d.value with
      | none => simp only [Option.map_none]; exact ih m
      | some v => simp only [Option.map_some]; exact ih _
    · rename_i hd
      have : (match t.data with
          | _ :: d :: _ => d.value.map fun v => (t.name, LTop.val (.scal (l5xValue pf t.typ v)))
          | _ => none) = none := by
        split
        · rename_i a d rest h; exact absurd h (hd a d rest)
        · rfl
      rw [this]
      exact ih m

theorem loadProgTags_puts {pf : Str → BitVec 64} {ts : List L5xTag} {m r : List (Str × LVal)}
    (h : loadProgTags pf ts m = .ok r) :
    ∃ ws : List (Str × LVal), r = puts ws m ∧ (∀ w ∈ ws, ∃ t ∈ ts, w.1 = t.name ∧ loadProgTag pf t = .ok (some w.2)) ∧
      ∀ t ∈ ts, ∀ v, loadProgTag pf t = .ok (some v) → (t.name, v) ∈ ws := by
  induction ts generalizing m with
  | nil => cases h; exact ⟨[], rfl, by simp, by simp⟩
  | cons t ts ih =>
    rw [loadProgTags] at h
    obtain ⟨v, hv, h⟩ := Res.bind_eq_ok.mp h
    obtain ⟨ws, h1, h2, h3⟩ := ih h
    cases v with
    | none =>
      refine ⟨ws, h1, fun w hw => ?_, fun u hu x hx => ?_⟩
      · obtain ⟨t', ht', h⟩ := h2 w hw
        exact ⟨t', by simp [ht'], h⟩
      · rcases List.mem_cons.mp hu with rfl | hu
        · rw [hv] at hx; cases hx
        · exact h3 u hu x hx
    | some v =>
      refine ⟨(t.name, v) :: ws, h1, fun w hw => ?_, fun u hu x hx => ?_⟩
      · rcases List.mem_cons.mp hw with rfl | hw
        · exact ⟨t, by simp, rfl, hv⟩
        · obtain ⟨t', ht', h⟩ := h2 w hw
          exact ⟨t', by simp [ht'], h⟩
      · rcases List.mem_cons.mp hu with rfl | hu
        · rw [hv] at hx; cases hx; simp
        · exact List.mem_cons_of_mem _ (h3 u hu x hx)

theorem loadPrograms_puts {pf : Str → BitVec 64} {ps : List L5xProgram} {m r : List (Str × LTop)}
    (h : loadPrograms pf ps m = .ok r) :
    ∃ ws : List (Str × LTop), r = puts ws m ∧
      (∀ w ∈ ws, ∃ p ∈ ps, w.1 = str "program:" ++ p.name ∧ ∃ ts, loadProgTags pf p.tags [] = .ok ts ∧ w.2 = .prog ts) ∧
      ∀ p ∈ ps, ∃ ts, loadProgTags pf p.tags [] = .ok ts ∧ (str "program:" ++ p.name, .prog ts) ∈ ws := by
  induction ps generalizing m with
  | nil => cases h; exact ⟨[], rfl, by simp, by simp⟩
  | cons p ps ih =>
    rw [loadPrograms] at h
    obtain ⟨ts, hts, h⟩ := Res.bind_eq_ok.mp h
    obtain ⟨ws, h1, h2, h3⟩ := ih h
    refine ⟨(str "program:" ++ p.name, .prog ts) :: ws, h1, fun w hw => ?_, fun q hq => ?_⟩
    · rcases List.mem_cons.mp hw with rfl | hw
      · exact ⟨p, by simp, rfl, ts, hts, rfl⟩
      · obtain ⟨p', hp', h⟩ := h2 w hw
        exact ⟨p', by simp [hp'], h⟩
    · rcases List.mem_cons.mp hq with rfl | hq
      · exact ⟨ts, hts, by simp⟩
      · obtain ⟨ts', h4, h5⟩ := h3 q hq
        exact ⟨ts', h4, List.mem_cons_of_mem _ h5⟩

theorem loadStruct_lookup (pf : Str → BitVec 64) (ms : List L5xMember) (e : L5xMember) (he : e ∈ ms)
    (hu : ∀ e' ∈ ms, e'.name = e.name → e' = e) : (loadStruct pf ms).lookup e.name = some (l5xValue pf e.typ e.value) := by
  have : loadStruct pf ms = puts (ms.map fun e => (e.name, l5xValue pf e.typ e.value)) [] := by
    unfold loadStruct puts
    rw [List.foldl_map]
  rw [this]
  refine puts_lookup_some _ _ _ _ (List.mem_map.mpr ⟨e, he, rfl⟩) ?_
  intro x hx hn
  obtain ⟨e', he', rfl⟩ := List.mem_map.mp hx
  rw [hu e' he' hn]

theorem loadElems_spec {pf : Str → BitVec 64} {typ : Str} {es : List L5xElem} {vs : List (Scal ⊕ List (Str × Scal))}
    (h : loadElems pf typ es = .ok vs) : vs.length = es.length ∧
      ∀ (i : Nat) e, es[i]? = some e → e.struct = none → vs[i]? = some (.inl (l5xValue pf typ e.value)) := by
  induction es generalizing vs with
  | nil => cases h; exact ⟨rfl, by simp⟩
  | cons x es ih =>
    unfold loadElems at h
    have h' : ∃ v ws, loadElems pf typ es = .ok ws ∧ vs = v :: ws ∧ (x.struct = none → v = .inl (l5xValue pf typ x.value)) := by
      split at h
      · cases h
      · obtain ⟨a, ha, h⟩ := Res.bind_eq_ok.mp h
        cases ha
        obtain ⟨ws, hw, h⟩ := Res.bind_eq_ok.mp h
        cases h
        exact ⟨_, ws, hw, rfl, by simp_all⟩
      · obtain ⟨a, ha, h⟩ := Res.bind_eq_ok.mp h
        cases ha
        obtain ⟨ws, hw, h⟩ := Res.bind_eq_ok.mp h
        cases h
        exact ⟨_, ws, hw, rfl, fun _ => rfl⟩
    obtain ⟨v, ws, hw, rfl, hv⟩ := h'
    obtain ⟨h1, h2⟩ := ih hw
    refine ⟨by simp [h1], ?_⟩
    intro i e hi he
    cases i with
    | zero => simp at hi; subst hi; simp [hv he]
    | succ i => simp at hi; simp; exact h2 i e hi he

theorem loadProgTag_value {pf : Str → BitVec 64} {t : L5xTag} {v : LVal} (h : loadProgTag pf t = .ok (some v)) :
    ProgValue (l5xValue pf) t v := by
  unfold loadProgTag at h
  split at h
  · rename_i a d rest hd
    refine ⟨a, d, rest, hd, ?_⟩
    cases hv : d.value with
    | some x =>
      rw [hv] at h; cases h
      exact Or.inl ⟨x, rfl, rfl⟩
    | none =>
      rw [hv] at h
      cases hs : d.struct with
      | some ms =>
        rw [hs] at h; cases h
        exact Or.inr (Or.inl ⟨rfl, ms, rfl, _, rfl, fun e he hu => loadStruct_lookup pf ms e he hu⟩)
      | none =>
        rw [hs] at h
        cases ha : d.array with
        | none => rw [ha] at h; cases h
        | some es =>
          rw [ha] at h
          simp only at h
          split at h
          · obtain ⟨_, _, h⟩ := Res.bind_eq_ok.mp h
            obtain ⟨vs, hvs, h⟩ := Res.bind_eq_ok.mp h
            cases h
            obtain ⟨h1, h2⟩ := loadElems_spec hvs
            exact Or.inr (Or.inr ⟨rfl, rfl, es, rfl, vs, rfl, h1, h2⟩)
          · cases h
  · cases h

/-- C68, when the export is loaded at all and names are distinct: each single value of the controller is in
the result, and each value, structure and array of a program is in the map of the program. -/
theorem C68_loaded_partial (pf : Str → BitVec 64) (cs : List L5xTag) (ps : List L5xProgram) (m : List (Str × LTop))
    (h : loadTags pf cs ps = .ok m) :
    (∀ t ∈ cs, (∀ t' ∈ cs, t'.name = t.name → t' = t) → (∀ p ∈ ps, str "program:" ++ p.name ≠ t.name) →
      ∀ a d rest v, t.data = a :: d :: rest → d.value = some v →
        m.lookup t.name = some (.val (.scal (l5xValue pf t.typ v)))) ∧
    (∀ p ∈ ps, (∀ p' ∈ ps, p'.name = p.name → p' = p) → ∃ pm, m.lookup (str "program:" ++ p.name) = some (.prog pm) ∧
      ∀ t ∈ p.tags, (∀ t' ∈ p.tags, t'.name = t.name → t' = t) →
        (∃ a d rest, t.data = a :: d :: rest ∧ (d.value ≠ none ∨ d.struct ≠ none ∨ d.array ≠ none)) →
        ∃ v, pm.lookup t.name = some v ∧ ProgValue (l5xValue pf) t v) := by
  unfold loadTags at h
  rw [loadController_puts] at h
  obtain ⟨ws, h1, h2, h3⟩ := loadPrograms_puts h
  constructor
  · intro t ht hu hnp a d rest v hd hv
    rw [h1, puts_lookup_none]
    · refine puts_lookup_some _ _ _ _ ?_ ?_
      · unfold controllerPuts
        refine List.mem_filterMap.mpr ⟨t, ht, ?_⟩
        rw [hd]
        simp [hv]
      · intro e he hn
        unfold controllerPuts at he
        obtain ⟨t', ht', he⟩ := List.mem_filterMap.mp he
        have htt : t' = t := by
          refine hu t' ht' ?_
          split at he
          · rename_i _ x _ _
            cases hx : x.value with
            | none => rw [hx] at he; cases he
            | some y => rw [hx] at he; cases he; exact hn
          · cases he
        subst htt
        rw [hd] at he
        simp only [hv, Option.map_some, Option.some.injEq] at he
        rw [← he]
    · intro e he hn
      obtain ⟨p, hp, h4, _⟩ := h2 e he
      exact hnp p hp (h4.symm.trans hn)
  · intro p hp hu
    obtain ⟨ts, h4, h5⟩ := h3 p hp
    refine ⟨ts, ?_, ?_⟩
    · rw [h1]
      refine puts_lookup_some _ _ _ _ h5 ?_
      intro e he hn
      obtain ⟨p', hp', h6, ts', h7, h8⟩ := h2 e he
      have : p' = p := hu p' hp' (List.append_cancel_left (h6.symm.trans hn))
      subst this
      rw [h4] at h7
      cases h7
      exact h8
    · intro t ht hut hdat
      obtain ⟨ws', h6, h7, h8⟩ := loadProgTags_puts h4
      -- the load of the tag succeeded, since the load of the program did
      have hok : ∃ v, loadProgTag pf t = .ok (some v) := by
        obtain ⟨a, d, rest, hd, hsome⟩ := hdat
        have hres : ∃ o, loadProgTag pf t = .ok o := by
          clear h6 h7 h8 hut hsome hd
          generalize ([] : List (Str × LVal)) = m0 at h4
          generalize p.tags = l at h4 ht
          induction l generalizing m0 with
          | nil => cases ht
          | cons u us ih =>
            rw [loadProgTags] at h4
            obtain ⟨o, ho, h4⟩ := Res.bind_eq_ok.mp h4
            rcases List.mem_cons.mp ht with rfl | ht
            · exact ⟨o, ho⟩
            · exact ih _ h4 ht
        obtain ⟨o, ho⟩ := hres
        cases o with
        | some v => exact ⟨v, ho⟩
        | none =>
          exfalso
          unfold loadProgTag at ho
          rw [hd] at ho
          simp only at ho
          cases hv : d.value with
          | some x => rw [hv] at ho; cases ho
          | none =>
            rw [hv] at ho
            cases hs : d.struct with
            | some x => rw [hs] at ho; cases ho
            | none =>
              rw [hs] at ho
              cases ha : d.array with
              | none => simp_all
              | some x =>
                rw [ha] at ho
                simp only at ho
                split at ho
                · obtain ⟨_, _, ho⟩ := Res.bind_eq_ok.mp ho
                  obtain ⟨_, _, ho⟩ := Res.bind_eq_ok.mp ho
                  cases ho
                · cases ho
      obtain ⟨v, hv⟩ := hok
      refine ⟨v, ?_, loadProgTag_value hv⟩
      rw [h6]
      refine puts_lookup_some _ _ _ _ (h8 t ht v hv) ?_
      intro e he hn
      obtain ⟨t', ht', h9, h10⟩ := h7 e he
      have := hut t' ht' (h9.symm.trans hn)
      subst this
      rw [hv] at h10
      cases h10
      rfl

/-- C68 is false: structures and arrays of the controller are left out. -/
theorem C68_controller_composites_dropped (pf : Str → BitVec 64) (cs : List L5xTag)
    (h : ∀ t ∈ cs, ∀ a d rest, t.data = a :: d :: rest → d.value = none) : loadTags pf cs [] = .ok [] := by
  unfold loadTags loadPrograms
  rw [loadController_puts]
  have : controllerPuts pf cs = [] := by
    unfold controllerPuts
    refine List.filterMap_eq_nil_iff.mpr fun t ht => ?_
    split
    · rename_i a d rest hd
      rw [h t ht a d rest hd]
      rfl
    · rfl
  rw [this]
  rfl

/-- C68 is false: a program tag of more than one dimension, its sizes separated by a blank, makes the whole
export unreadable. -/
theorem C68_two_dimensions_fail (pf : Str → BitVec 64) (cs : List L5xTag) (a b : Nat) (d0 d : L5xData) (es : List L5xElem)
    (hd : d = ⟨none, none, some es⟩) (prog name ty : Str) (rest : List L5xTag) (ps : List L5xProgram) :
    loadTags pf cs (⟨prog, ⟨name, ty, dec a ++ 0x20#8 :: dec b, [d0, d]⟩ :: rest⟩ :: ps) = .err .fail := by
  have hloop : ∀ (l : Str) (acc : Nat), (∀ c ∈ l, isDigit c = true) → ∀ v,
      parseUintLoop acc (l ++ 0x20#8 :: dec b) ≠ some (some v) := by
    intro l
    induction l with
    | nil => intro acc _ v hv; simp [parseUintLoop, isDigit] at hv
    | cons c l ih =>
      intro acc hl v hv
      rw [List.cons_append, parseUintLoop, if_pos (hl c (by simp))] at hv
      simp only at hv
      split at hv
      · exact ih _ (fun c hc => hl c (by simp [hc])) v hv
      · cases hv
  have hdims : (parseInt 64 (dec a ++ 0x20#8 :: dec b)).isOk = false := by
    unfold parseInt
    have hs : signSplit (dec a ++ 0x20#8 :: dec b) = (false, dec a ++ 0x20#8 :: dec b) := by
      cases hc : dec a with
      | nil => exact absurd hc (dec_ne_nil a)
      | cons c t => exact signSplit_digit (dec_digits a c (by simp [hc]))
    rw [hs]
    unfold parseSigned parseUint
    rw [if_neg (by simp)]
    cases hp : parseUintLoop 0 (dec a ++ 0x20#8 :: dec b) with
    | none => rfl
    | some u =>
      cases u with
      | none => rfl
      | some v => exact absurd hp (hloop _ 0 (dec_digits a) v)
  unfold loadTags
  rw [loadPrograms, loadProgTags]
  have : loadProgTag pf ⟨name, ty, dec a ++ 0x20#8 :: dec b, [d0, d]⟩ = .err .fail := by
    unfold loadProgTag
    subst hd
    simp only [hdims, Bool.false_eq_true, if_false]
  rw [this]
  rfl

/-- C68 is false: a text in a structure of its own is taken from the value attribute, while texts are
character data; only structures in arrays take it from there. -/
theorem C68_struct_texts (pf : Str → BitVec 64) (n v c : Str) :
    loadStruct pf [⟨n, str "STRING", v, c⟩] = [(n, .str v)] ∧
    loadElemStruct pf [⟨n, str "STRING", v, c⟩] = [(n, .str c)] := ⟨rfl, rfl⟩

theorem loadElems_total (pf : Str → BitVec 64) (typ : Str) (es : List L5xElem) (h : ∀ e ∈ es, e.struct ≠ some []) :
    ∃ vs, loadElems pf typ es = .ok vs := by
  induction es with
  | nil => exact ⟨_, rfl⟩
  | cons e es ih =>
    obtain ⟨vs, hvs⟩ := ih fun e he => h e (by simp [he])
    have he := h e (by simp)
    unfold loadElems
    rw [hvs]
    cases hs : e.struct with
    | none => exact ⟨_, rfl⟩
    | some l =>
      cases l with
      | nil => exact absurd hs he
      | cons s l => exact ⟨_, rfl⟩

theorem decimalText_ofNat (n : Nat) : decimalText n = dec n := by
  unfold decimalText
  rw [if_neg (by omega)]
  rfl

/-- The tag has the size of its array, if it is one, as one number (that memory can hold). -/
def SizedArray (t : L5xTag) : Prop :=
  ∀ a d rest es, t.data = a :: d :: rest → d.value = none → d.struct = none → d.array = some es →
    (∃ n : Nat, t.dims = decimalText n ∧ n ≤ 2 ^ 44) ∧ ∀ e ∈ es, e.struct ≠ some []

/-- C68, loading: an export whose arrays in programs have one dimension is loaded. -/
theorem C68_loads_partial (pf : Str → BitVec 64) (cs : List L5xTag) (ps : List L5xProgram)
    (h : ∀ p ∈ ps, ∀ t ∈ p.tags, SizedArray t) : ∃ m, loadTags pf cs ps = .ok m := by
  have htag : ∀ t, SizedArray t → ∃ v, loadProgTag pf t = .ok v := by
    intro t ht
    unfold loadProgTag
    split
    · rename_i a d rest hd
      cases hv : d.value with
      | some v => exact ⟨_, rfl⟩
      | none =>
        cases hs : d.struct with
        | some ms => exact ⟨_, rfl⟩
        | none =>
          cases ha : d.array with
          | none => exact ⟨_, rfl⟩
          | some es =>
            obtain ⟨⟨n, hn, hle⟩, hes⟩ := ht a d rest es hd hv hs ha
            obtain ⟨vs, hvs⟩ := loadElems_total pf t.typ es hes
            have hp : parseInt 64 t.dims = .ok (n : Int) := by
              rw [hn, decimalText_ofNat]
              exact parseInt_dec (by omega) (by omega)
            simp only [hp, Num.isOk, Num.val, if_true]
            unfold makeCap
            rw [if_neg (by omega), hvs]
            exact ⟨_, rfl⟩
    · exact ⟨_, rfl⟩
  have htags : ∀ ts : List L5xTag, (∀ t ∈ ts, SizedArray t) → ∀ m, ∃ m', loadProgTags pf ts m = .ok m' := by
    intro ts
    induction ts with
    | nil => intro _ m; exact ⟨_, rfl⟩
    | cons t ts ih =>
      intro ht m
      obtain ⟨v, hv⟩ := htag t (ht t (by simp))
      unfold loadProgTags
      rw [hv]
      exact ih (fun t h' => ht t (by simp [h'])) _
  unfold loadTags
  generalize loadController pf cs [] = m
  induction ps generalizing m with
  | nil => exact ⟨_, rfl⟩
  | cons p ps ih =>
    obtain ⟨tags, ht⟩ := htags p.tags (h p (by simp)) []
    unfold loadPrograms
    rw [ht]
    exact ih (fun p hp => h p (by simp [hp])) _

/-- C68 is false for arrays announced with a negative size or one beyond 2^44: loading the export crashes; from 2^63 on it
fails. -/
theorem C68_array_size (pf : Str → BitVec 64) (cs : List L5xTag) (z : Int) (d0 d : L5xData) (es : List L5xElem)
    (hd : d = ⟨none, none, some es⟩) (prog name ty : Str) (rest : List L5xTag) (ps : List L5xProgram) :
    ((-2 ^ 63 ≤ z ∧ z < 0) ∨ (2 ^ 44 < z ∧ z < 2 ^ 63) →
      loadTags pf cs (⟨prog, ⟨name, ty, decimalText z, [d0, d]⟩ :: rest⟩ :: ps) = .panic) ∧
    (2 ^ 63 ≤ z ∧ z < 2 ^ 64 →
      loadTags pf cs (⟨prog, ⟨name, ty, decimalText z, [d0, d]⟩ :: rest⟩ :: ps) = .err .fail) := by
  subst hd
  constructor
  · intro hz
    have hp : parseInt 64 (decimalText z) = .ok z := parseInt_decimal (by omega) (by omega) (by omega) (by omega)
    have : loadProgTag pf ⟨name, ty, decimalText z, [d0, ⟨none, none, some es⟩]⟩ = .panic := by
      unfold loadProgTag
      simp only [hp, Num.isOk, Num.val, if_true]
      unfold makeCap
      rw [if_pos (by omega)]
      rfl
    unfold loadTags
    rw [loadPrograms, loadProgTags, this]
    rfl
  · intro hz
    obtain ⟨n, rfl⟩ : ∃ n : Nat, z = n := ⟨z.toNat, by omega⟩
    have hp := parseInt_saturates (bits := 64) (n := n) (by omega) (by omega)
    have : loadProgTag pf ⟨name, ty, decimalText n, [d0, ⟨none, none, some es⟩]⟩ = .err .fail := by
      unfold loadProgTag
      simp only [decimalText_ofNat, hp, Num.isOk, Bool.false_eq_true, if_false]
    unfold loadTags
    rw [loadPrograms, loadProgTags, this]
    rfl

example : ∃ m, loadTags (fun _ => 0) [⟨str "A", str "DINT", [], [⟨none, none, none⟩, ⟨some (str "-7"), none, none⟩]⟩]
    [⟨str "Main", [⟨str "B", str "INT", str "2", [⟨none, none, none⟩,
      ⟨none, none, some [⟨str "5", none⟩, ⟨str "6", none⟩]⟩]⟩]⟩] = .ok m ∧
    m.lookup (str "A") = some (.val (.scal (.i32 0xFFFFFFF9#32))) ∧
    m.lookup (str "program:Main") = some (.prog [(str "B", .arr [.inl (.i16 5#16), .inl (.i16 6#16)])]) :=
  ⟨_, rfl, rfl, rfl⟩

end Gologix
