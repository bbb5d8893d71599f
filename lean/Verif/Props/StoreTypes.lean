import Verif.Props.ServerKeys
import Verif.Props.ServerConn
import Verif.Props.Store
/-
C101: arrays hold values of their element type.
-/
set_option linter.unusedSimpArgs false

namespace Gologix.Server
open Gologix.Server.Spec M

theorem takes_iff (T a : GoTy) : Takes T a ↔ convertible a T = true := by
  constructor
  · rintro (_ | ⟨h1, h2⟩ | h)
    · simp [convertible]
    · revert h1 h2; revert T a; intro T a; cases T <;> cases a <;> simp [numbers, integers, convertible, isIntTy, isFloatTy]
    · revert h; revert a; intro a; cases a <;> simp [integers, convertible, isIntTy, isFloatTy]
  · intro h
    cases T <;> cases a <;> first
      | exact .same _
      | exact absurd h (by decide)
      | exact .number (by decide) (by decide)
      | exact .text (by decide)

theorem ofInt_ty {T : GoTy} {n : Int} {w : Scal} (h : ofInt T n = some w) : w.ty = some T := by
  cases T <;> simp [ofInt] at h <;> subst h <;> rfl

/-- A value with a type, written to an element of type `T`. -/
theorem convert_typed (C : Conv) (v : Scal) (a T : GoTy) (ha : v.ty = some a) :
    (Takes T a ∧ ∃ w, convertToElement C (.scal v) (some T) = .ok (.scal w) ∧ HeldAs T v w) ∨
    (¬ Takes T a ∧ convertToElement C (.scal v) (some T) = .err .fail) := by
  have hnil : v ≠ .nil := by rintro rfl; cases ha
  have hbr : convertToElement C (.scal v) (some T) =
      (if a = T then .ok (.scal v)
      else if convertible a T then
        match (intVal v).bind (ofInt T) with
        | some w => .ok (.scal w)
        | none => .ok (.scal (C.fn (.scal v) T))
      else .err .fail) := by
    unfold convertToElement
    cases v <;> first | exact absurd rfl hnil | (simp only [ha]; rfl)
  have held : ∀ w, convertToElement C (.scal v) (some T) = .ok (.scal w) → w.ty = some T →
      HeldAs T v w := by
    intro w hw ht
    refine ⟨ht, fun hv => ?_, fun n u hv hu hut => ?_⟩
    · have := convert_same C (v := .scal v) ⟨v, rfl, hv⟩
      rw [hw] at this
      cases this; rfl
    · have := C33_write_converts C v u n T hv hu hut
      rw [hw] at this
      cases this; rfl
  by_cases hT : Takes T a
  · refine .inl ⟨hT, ?_⟩
    have hc := (takes_iff T a).1 hT
    by_cases haT : a = T
    · have : convertToElement C (.scal v) (some T) = .ok (.scal v) := by rw [hbr, if_pos haT]
      exact ⟨v, this, held v this (haT ▸ ha)⟩
    · cases hi : (intVal v).bind (ofInt T) with
      | some w =>
        have hw : convertToElement C (.scal v) (some T) = .ok (.scal w) := by
          rw [hbr, if_neg haT, if_pos hc, hi]
        refine ⟨w, hw, held w hw ?_⟩
        cases h1 : intVal v with
        | none => rw [h1] at hi; cases hi
        | some n => rw [h1] at hi; exact ofInt_ty hi
      | none =>
        have hw : convertToElement C (.scal v) (some T) = .ok (.scal (C.fn (.scal v) T)) := by
          rw [hbr, if_neg haT, if_pos hc, hi]
        exact ⟨_, hw, held _ hw (C.ty _ _)⟩
  · refine .inr ⟨hT, ?_⟩
    have hc : ¬ convertible a T = true := fun h => hT ((takes_iff T a).2 h)
    rw [hbr, if_neg (by rintro rfl; exact hT (.same _)), if_neg hc]

/-- A value of no element type (`[86]byte`, `[]byte`). -/
theorem convert_untyped (C : Conv) (v : Scal) (T : GoTy) (hn : v ≠ .nil) (ha : v.ty = none) :
    convertToElement C (.scal v) (some T) = .err .fail := by
  cases v <;> first | exact absurd rfl hn | (cases ha; done) | rfl

/-- C101, one element: a value an array of `T` takes is held by the element written, converted to `T`, and
nothing else changes; any other value is refused and nothing changes. -/
theorem C101_element (C : Conv) (s : Store) (base text : Str) (n : Int) (T a : GoTy) (vs : List TVal) (v : Scal)
    (hx : atoi text = .ok n) (hst : s (toLower base) = some (.slice (some T) vs)) (h0 : 0 ≤ n)
    (hn : n < vs.length) (ha : v.ty = some a) :
    (Takes T a → (tagWrite C s (elemText base text) (.scal v)).1 = .ok () ∧
      ∃ w vs', HeldAs T v w ∧
        (tagWrite C s (elemText base text) (.scal v)).2 (toLower base) = some (.slice (some T) vs') ∧
        vs'.length = vs.length ∧ vs'[n.toNat]? = some (.scal w) ∧ (∀ i, i ≠ n.toNat → vs'[i]? = vs[i]?) ∧
        ∀ k, k ≠ toLower base → (tagWrite C s (elemText base text) (.scal v)).2 k = s k) ∧
    (¬ Takes T a → tagWrite C s (elemText base text) (.scal v) = (.err .fail, s)) := by
  rcases convert_typed C v a T ha with ⟨hT, w, hw, hheld⟩ | ⟨hT, hw⟩
  · refine ⟨fun _ => ?_, fun h => absurd hT h⟩
    obtain ⟨h1, vs', h2, h3, h4, h5, h6⟩ := C33_write C s base text n (some T) vs (.scal v) (.scal w) hx hst h0 hn hw
    exact ⟨h1, w, vs', hheld, h2, h3, h4, h5, h6⟩
  · refine ⟨fun h => absurd h hT, fun _ => ?_⟩
    unfold tagWrite
    rw [parse_elem hx]
    simp only [hst]
    rw [if_neg (by omega), hw]

theorem convertAll_typed (C : Conv) (T : GoTy) (vs : List Scal) (ht : ∀ v ∈ vs, v.ty ≠ none) :
    ((∀ v ∈ vs, ∃ a, v.ty = some a ∧ Takes T a) →
      ∃ ws, convertAll C (some T) (vs.map TVal.scal) = .ok (ws.map TVal.scal) ∧ AllHeld T vs ws) ∧
    ((∃ v ∈ vs, ∃ a, v.ty = some a ∧ ¬ Takes T a) → convertAll C (some T) (vs.map TVal.scal) = .err .fail) := by
  induction vs with
  | nil => exact ⟨fun _ => ⟨[], rfl, .nil⟩, fun ⟨v, hv, _⟩ => by cases hv⟩
  | cons v vs ih =>
    obtain ⟨ih1, ih2⟩ := ih fun u hu => ht u (by simp [hu])
    obtain ⟨a, ha⟩ := Option.ne_none_iff_exists'.1 (ht v (by simp))
    simp only [List.map_cons, convertAll]
    rcases convert_typed C v a T ha with ⟨hT, w, hw, hheld⟩ | ⟨hT, hw⟩
    · rw [hw]
      constructor
      · intro h
        obtain ⟨ws, h1, h2⟩ := ih1 fun u hu => h u (by simp [hu])
        refine ⟨w :: ws, ?_, .cons hheld h2⟩
        rw [h1]; rfl
      · rintro ⟨u, hu, b, hb, hn⟩
        rcases List.mem_cons.1 hu with rfl | hu
        · rw [ha] at hb; cases hb; exact absurd hT hn
        · rw [ih2 ⟨u, hu, b, hb, hn⟩]; rfl
    · rw [hw]
      constructor
      · intro h
        obtain ⟨b, hb, hT'⟩ := h v (by simp)
        rw [ha] at hb; cases hb; exact absurd hT' hT
      · intro _; rfl

/-- C101, a whole array: several values written under the name of an array of `T` become an array of `T`, each
value converted, if `T` takes all of them; otherwise the write is refused and nothing changes. -/
theorem C101_array (C : Conv) (s : Store) (t : Str) (T : GoTy) (old : List TVal) (vs : List Scal)
    (hw : wholeName t) (hst : s (toLower t) = some (.slice (some T) old)) (ht : ∀ v ∈ vs, v.ty ≠ none) :
    ((∀ v ∈ vs, ∃ a, v.ty = some a ∧ Takes T a) →
      (tagWrite C s t (.slice none (vs.map TVal.scal))).1 = .ok () ∧
      ∃ ws, AllHeld T vs ws ∧
        (tagWrite C s t (.slice none (vs.map TVal.scal))).2 (toLower t) = some (.slice (some T) (ws.map TVal.scal)) ∧
        ∀ k, k ≠ toLower t → (tagWrite C s t (.slice none (vs.map TVal.scal))).2 k = s k) ∧
    ((∃ v ∈ vs, ∃ a, v.ty = some a ∧ ¬ Takes T a) →
      tagWrite C s t (.slice none (vs.map TVal.scal)) = (.err .fail, s)) := by
  obtain ⟨h1, h2⟩ := convertAll_typed C T vs ht
  have hrun : tagWrite C s t (.slice none (vs.map TVal.scal)) =
      match convertAll C (some T) (vs.map TVal.scal) with
      | .ok ws => (.ok (), s.set (toLower t) (.slice (some T) ws))
      | .err x => (.err x, s)
      | .panic => (.panic, s) := by
    unfold tagWrite
    rw [parse_whole hw]
    simp only [hst]
    rfl
  constructor
  · intro h
    obtain ⟨ws, hc, hf⟩ := h1 h
    rw [hrun, hc]
    exact ⟨rfl, ws, hf, set_self _ _ _, fun k hk => set_other _ _ hk⟩
  · intro h
    rw [hrun, h2 h]

/-- The code does not treat a single value written under the name of an array as its first element: the array is
gone. -/
theorem C101_replaced (C : Conv) (s : Store) (t : Str) (T : GoTy) (old : List TVal) (v : Scal) (hw : wholeName t)
    (_hst : s (toLower t) = some (.slice (some T) old)) :
    (tagWrite C s t (.scal v)).1 = .ok () ∧ (tagWrite C s t (.scal v)).2 (toLower t) = some (.scal v) := by
  unfold tagWrite
  rw [parse_whole hw]
  simp [Store.set]

theorem convert_result (C : Conv) (T : GoTy) (v w : TVal) (h : convertToElement C v (some T) = .ok w) :
    ∃ u, w = .scal u ∧ u.ty = some T := by
  cases v with
  | slice e vs =>
    unfold convertToElement at h
    split at h <;> first | (cases h; done) | contradiction | skip
    all_goals
      next heq =>
        simp only [Option.some.injEq] at *
        subst_vars
        cases h
        exact ⟨_, rfl, C.ty _ _⟩
  | scal x =>
    have hn : x ≠ .nil := by rintro rfl; cases h
    cases ha : x.ty with
    | none => rw [convert_untyped C x T hn ha] at h; cases h
    | some a =>
      rcases convert_typed C x a T ha with ⟨_, u, hu, hh⟩ | ⟨_, hu⟩
      · rw [hu] at h; cases h; exact ⟨u, rfl, hh.1⟩
      · rw [hu] at h; cases h

theorem convertAll_result (C : Conv) (T : GoTy) (vs ws : List TVal) (h : convertAll C (some T) vs = .ok ws) :
    allOfType T ws := by
  induction vs generalizing ws with
  | nil => cases h; intro v hv; cases hv
  | cons v vs ih =>
    simp only [convertAll] at h
    obtain ⟨w, hw, h⟩ := Res.bind_eq_ok.1 h
    obtain ⟨us, hu, h⟩ := Res.bind_eq_ok.1 h
    cases h
    intro x hx
    rcases List.mem_cons.1 hx with rfl | hx
    · exact convert_result C T v x hw
    · exact ih us hu x hx

theorem wellTyped_set {s : Store} (h : WellTyped s) (k : Str) (v : TVal)
    (hv : ∀ T vs, v = .slice (some T) vs → allOfType T vs) : WellTyped (s.set k v) := by
  intro name T vs hs
  by_cases e : name = k
  · subst e
    rw [set_self] at hs
    cases hs
    exact hv T vs rfl
  · rw [set_other _ _ e] at hs
    exact h name T vs hs

theorem wellTyped_write (C : Conv) (s : Store) (tag : Str) (v : TVal) (hv : FromWire v) (h : WellTyped s) :
    WellTyped (tagWrite C s tag v).2 := by
  unfold tagWrite
  cases parseElementTag (toLower tag) with
  | some p =>
    obtain ⟨base, idx⟩ := p
    simp only
    cases hb : s base with
    | none => exact h
    | some x =>
      cases x with
      | scal _ => exact h
      | slice e vs =>
        simp only
        by_cases hi : idx < 0 ∨ idx ≥ vs.length
        · rw [if_pos hi]; exact h
        · rw [if_neg hi]
          cases hc : convertToElement C v e with
          | err _ => exact h
          | panic => exact h
          | ok w =>
            refine wellTyped_set h _ _ fun T us hu => ?_
            cases hu
            intro x hx
            rcases List.mem_or_eq_of_mem_set hx with hx | rfl
            · exact h base T vs hb x hx
            · exact convert_result C T v x hc
  | none =>
    simp only
    split
    · next e _ vs hs =>
      cases hc : convertAll C e vs with
      | err _ => exact h
      | panic => exact h
      | ok ws =>
        refine wellTyped_set h _ _ fun T us hu => ?_
        cases hu
        exact convertAll_result C T _ _ hc
    · refine wellTyped_set h _ _ fun T us hu => ?_
      subst hu
      cases hv

/-- Every tag store of the server is well typed. -/
def Typed (st : St) : Prop := ∀ ep s keys, st.srv.eps ep = .tags s keys → WellTyped s

instance : Closed Typed where
  tags _ _ he hi ep s keys hk := hi ep s keys (he ▸ hk)
  write C ep tag v st hv hi := by
    unfold writeTag
    cases he : st.srv.eps ep with
    | other => exact hi
    | tags s keys =>
      intro ep' s' keys' h
      simp only at h
      by_cases e : ep' = ep
      · rw [if_pos e] at h
        cases h
        exact wellTyped_write C s tag v hv (hi ep s keys he)
      · rw [if_neg e] at h
        exact hi ep' s' keys' h

/-- C101, at all times: whatever requests arrive on whatever connections, an array with an element type holds
elements of this type only, if it did so to begin with. -/
theorem C101_always (C : Conv) (srv : Srv) (evs : List (Handler × Bytes))
    (h : ∀ ep s keys, srv.eps ep = .tags s keys → WellTyped s) (ep : Nat) (s : Store) (keys : List Str)
    (hs : (serveAll C srv evs).eps ep = .tags s keys) : WellTyped s := by
  induction evs generalizing srv with
  | nil => exact h ep s keys hs
  | cons e evs ih =>
    obtain ⟨hd, inp⟩ := e
    exact ih _ (lists_serveStep (J := Typed) C ⟨hd, srv, inp, []⟩ h).1 hs

example (C : Conv) :
    let s0 : Store := fun k => if k = str "a" then some (.slice (some .i16) [.scal (.i16 1#16), .scal (.i16 2#16)]) else none
    (tagWrite C s0 (str "a[1]") (.scal (.i32 7#32))).2 (str "a") =
      some (.slice (some .i16) [.scal (.i16 1#16), .scal (.i16 7#16)]) ∧
    (tagWrite C s0 (str "a[1]") (.scal (.bool true))).1 = .err .fail ∧
    (tagWrite C s0 (str "a") (.slice none [.scal (.u8 3#8), .scal (.str (str "x"))])).1 = .err .fail := by
  refine ⟨rfl, rfl, rfl⟩

example : ∀ ep s keys, demoSrv.eps ep = .tags s keys → WellTyped s := by
  intro ep s keys h name T vs hs
  simp only [demoSrv] at h
  by_cases he : ep = 0
  · rw [if_pos he] at h
    cases h
    unfold demoStore at hs
    split at hs
    · cases hs
    · split at hs
      · cases hs
        intro v hv
        simp at hv
        rcases hv with rfl | rfl | rfl <;> exact ⟨_, rfl, rfl⟩
      · cases hs
  · rw [if_neg he] at h
    cases h

end Gologix.Server
