import Verif.Model.StoreAlias
import Verif.Props.Store
/-
C64: the tag store hands out and takes in shared slices.
-/
set_option linter.unusedSimpArgs false
namespace Gologix.Server
open Gologix.Server.Spec

/-- The contents of the store, forgetting sharing. -/
def AStore.contents (s : AStore) : Store := fun k => (s.data k).map s.deref

/-- No two tags share a backing array, and slice headers are within bounds. -/
structure AStore.Unshared (s : AStore) : Prop where
  bound : ∀ k e a off len, s.data k = some (.ref e a off len) →
    a < s.next ∧ off + len ≤ (s.heap a).length
  apart : ∀ k k' e e' a off off' len len', s.data k = some (.ref e a off len) →
    s.data k' = some (.ref e' a off' len') → k = k'

/-- The outcome of a read, as contents. -/
def AStore.outcome (s : AStore) : Res (TVal ⊕ RVal) → Res TVal
  | .ok (.inl v) => .ok v
  | .ok (.inr r) => .ok (s.deref r)
  | .err e => .err e
  | .panic => .panic

theorem deref_length {s : AStore} {k : Str} {e : Option GoTy} {a off len : Nat} (hu : s.Unshared)
    (h : s.data k = some (.ref e a off len)) : (((s.heap a).drop off).take len).length = len := by
  have := (hu.bound k e a off len h).2
  simp; omega

/-- Reads see the contents. -/
theorem aread_contents (s : AStore) (hu : s.Unshared) (tag : Str) (qty : Int) :
    s.outcome (s.tagRead tag qty) = tagRead s.contents tag qty := by
  unfold AStore.tagRead tagRead AStore.contents
  split
  · rename_i base idx hp
    rw [hp]
    simp only
    cases hd : s.data base with
    | none => rfl
    | some r =>
      cases r with
      | scal v => rfl
      | ref e a off len =>
        have hl := deref_length hu hd
        simp only [Option.map_some, AStore.deref]
        rw [hl]
        by_cases h1 : idx < 0 ∨ idx ≥ len
        · rw [if_pos h1, if_pos h1]; rfl
        · rw [if_neg h1, if_neg h1]
          by_cases h2 : idx + qty > len
          · rw [if_pos h2, if_pos h2]; rfl
          · rw [if_neg h2, if_neg h2]
            by_cases h3 : qty = 1
            · rw [if_pos h3, if_pos h3]
              simp only [AStore.outcome, List.getD_eq_getElem?_getD]
              rw [List.getElem?_take_of_lt (by omega), List.getElem?_drop]
            · rw [if_neg h3, if_neg h3]
              by_cases h4 : qty < 0
              · rw [if_pos h4, if_pos h4]; rfl
              · rw [if_neg h4, if_neg h4]
                simp only [AStore.outcome, AStore.deref]
                rw [List.drop_take, List.take_take, List.drop_drop, Nat.min_eq_left (by omega)]
  · rename_i hp
    rw [hp]
    simp only
    cases hd : s.data (toLower tag) with
    | none => rfl
    | some r =>
      cases r with
      | scal v => rfl
      | ref e a off len =>
        have hl := deref_length hu hd
        simp only [Option.map_some, AStore.deref]
        rw [hl]
        by_cases h2 : qty ≤ len
        · rw [if_pos h2, if_pos h2]
          by_cases h4 : qty < 0
          · rw [if_pos h4, if_pos h4]; rfl
          · rw [if_neg h4, if_neg h4]
            simp only [AStore.outcome, AStore.deref]
            rw [List.take_take, Nat.min_eq_left (by omega)]
        · rw [if_neg h2, if_neg h2]; rfl

theorem alloc_unshared {s : AStore} (hu : s.Unshared) (e : Option GoTy) (vs : List TVal) :
    (s.alloc e vs).2.Unshared ∧ (s.alloc e vs).2.contents = s.contents ∧
    (s.alloc e vs).2.deref (s.alloc e vs).1 = .slice e vs := by
  refine ⟨⟨?_, ?_⟩, ?_, ?_⟩
  · intro k e' a off len h
    have := hu.bound k e' a off len h
    simp only [AStore.alloc]
    rw [if_neg (by omega)]
    omega
  · intro k k' e1 e2 a o1 o2 l1 l2 h1 h2
    exact hu.apart k k' e1 e2 a o1 o2 l1 l2 h1 h2
  · funext k
    unfold AStore.contents AStore.alloc
    simp only
    cases hd : s.data k with
    | none => rfl
    | some r =>
      cases r with
      | scal v => rfl
      | ref e' a off len =>
        have := (hu.bound k e' a off len hd).1
        simp only [Option.map_some, AStore.deref]
        rw [if_neg (by omega)]
  · simp [AStore.alloc, AStore.deref]

theorem put_scal {s : AStore} (hu : s.Unshared) (k : Str) (v : Scal) :
    (s.put k (.scal v)).Unshared ∧ (s.put k (.scal v)).contents = s.contents.set k (.scal v) := by
  refine ⟨⟨?_, ?_⟩, ?_⟩
  · intro k' e a off len h
    simp only [AStore.put] at h
    split at h
    · simp at h
    · exact hu.bound k' e a off len h
  · intro k1 k2 e1 e2 a o1 o2 l1 l2 h1 h2
    simp only [AStore.put] at h1 h2
    split at h1
    · simp at h1
    · split at h2
      · simp at h2
      · exact hu.apart k1 k2 e1 e2 a o1 o2 l1 l2 h1 h2
  · funext x
    simp only [AStore.contents, AStore.put, Store.set]
    split
    · rfl
    · cases s.data x with
      | none => rfl
      | some r => cases r <;> rfl

/-- Storing a header for a backing array no tag uses yet. -/
theorem put_fresh {s : AStore} (hu : s.Unshared) (k : Str) (e : Option GoTy) (vs : List TVal) :
    ((s.alloc e vs).2.put k (s.alloc e vs).1).Unshared ∧
    ((s.alloc e vs).2.put k (s.alloc e vs).1).contents = s.contents.set k (.slice e vs) := by
  obtain ⟨hu', hc, hd⟩ := alloc_unshared hu e vs
  refine ⟨⟨?_, ?_⟩, ?_⟩
  · intro k' e' a off len h
    simp only [AStore.put] at h ⊢
    split at h
    · simp [AStore.alloc] at h ⊢
      obtain ⟨rfl, rfl, rfl, rfl⟩ := h
      simp
    · exact hu'.bound k' e' a off len h
  · intro k1 k2 e1 e2 a o1 o2 l1 l2 h1 h2
    simp only [AStore.put] at h1 h2
    split at h1 <;> split at h2
    · simp_all
    · simp [AStore.alloc] at h1 h2
      have := (hu.bound _ _ _ _ _ h2).1
      omega
    · simp [AStore.alloc] at h1 h2
      have := (hu.bound _ _ _ _ _ h1).1
      omega
    · exact hu'.apart k1 k2 e1 e2 a o1 o2 l1 l2 h1 h2
  · funext x
    have hcx := congrFun hc x
    simp only [AStore.contents, AStore.put, Store.set] at hcx ⊢
    split
    · show some _ = _
      congr 1
    · rw [← hcx]
      cases (s.alloc e vs).2.data x with
      | none => rfl
      | some r => cases r <;> rfl

theorem poke_contents {s : AStore} (hu : s.Unshared) {k : Str} {e : Option GoTy} {a off len i : Nat}
    (w : TVal) (h : s.data k = some (.ref e a off len)) (hi : i < len) :
    (s.poke a (off + i) w).Unshared ∧
    (s.poke a (off + i) w).contents =
      s.contents.set k (.slice e ((((s.heap a).drop off).take len).set i w)) := by
  refine ⟨⟨?_, ?_⟩, ?_⟩
  · intro k' e' a' off' len' h'
    have := hu.bound k' e' a' off' len' h'
    simp only [AStore.poke]
    split
    · subst a'; simpa using this
    · exact this
  · intro k1 k2 e1 e2 a o1 o2 l1 l2 h1 h2
    exact hu.apart k1 k2 e1 e2 a o1 o2 l1 l2 h1 h2
  · funext x
    simp only [AStore.contents, AStore.poke, Store.set]
    by_cases hx : x = k
    · subst x
      rw [if_pos rfl, h]
      simp only [Option.map_some, AStore.deref, if_true]
      congr 2
      rw [List.drop_set, if_neg (by omega), List.take_set]
      congr 1; omega
    · rw [if_neg hx]
      cases hd : s.data x with
      | none => rfl
      | some r =>
        cases r with
        | scal v => rfl
        | ref e' a' off' len' =>
          have : a' ≠ a := by
            rintro rfl
            exact hx (hu.apart x k _ _ _ _ _ _ _ hd h)
          simp only [Option.map_some, AStore.deref, if_neg this]

/-- A write from the wire into an unshared store acts as on plain values, and leaves it unshared. -/
theorem wireWrite_contents (C : Conv) (s : AStore) (hu : s.Unshared) (tag : Str) (v : TVal) :
    (s.wireWrite C tag v).2.Unshared ∧
    (s.wireWrite C tag v).1 = (tagWrite C s.contents tag v).1 ∧
    (s.wireWrite C tag v).2.contents = (tagWrite C s.contents tag v).2 := by
  -- the state in which `tagWrite` runs, and the value as it sees it
  have main : ∀ (s' : AStore) (r : RVal), s'.Unshared → s'.contents = s.contents → s'.deref r = v →
      (r = .scal (match v with | .scal x => x | _ => .nil) ∧ (∃ x, v = .scal x) ∨
        ∃ e vs, v = .slice e vs ∧ s' = (s.alloc e vs).2 ∧ r = (s.alloc e vs).1) →
      (s'.tagWrite C tag r).2.Unshared ∧
      (s'.tagWrite C tag r).1 = (tagWrite C s.contents tag v).1 ∧
      (s'.tagWrite C tag r).2.contents = (tagWrite C s.contents tag v).2 := by
    intro s' r hu' hc hr hform
    unfold AStore.tagWrite tagWrite
    rw [← hc]
    split
    · rename_i base idx hp
      rw [hp]
      simp only
      have hcb : s'.contents base = (s'.data base).map s'.deref := rfl
      rw [hcb]
      cases hd : s'.data base with
      | none => exact ⟨hu', rfl, rfl⟩
      | some q =>
        cases q with
        | scal x => exact ⟨hu', rfl, rfl⟩
        | ref e a off len =>
          have hl := deref_length hu' hd
          simp only [Option.map_some, AStore.deref]
          rw [hl]
          by_cases h1 : idx < 0 ∨ idx ≥ len
          · rw [if_pos h1, if_pos h1]; exact ⟨hu', rfl, rfl⟩
          · rw [if_neg h1, if_neg h1]
            have hr' : s'.deref r = v := hr
            cases r with
            | scal x =>
              simp only [AStore.deref] at hr'
              subst hr'
              cases hcv : convertToElement C (.scal x) e with
              | ok w =>
                obtain ⟨p1, p2⟩ := poke_contents hu' w hd (i := idx.toNat) (by omega)
                exact ⟨p1, rfl, p2⟩
              | err x => exact ⟨hu', rfl, rfl⟩
              | panic => exact ⟨hu', rfl, rfl⟩
            | ref e2 a2 o2 l2 =>
              simp only [AStore.deref] at hr'
              subst hr'
              simp only
              cases hcv : convertToElement C (.slice e2 (((s'.heap a2).drop o2).take l2)) e with
              | ok w =>
                obtain ⟨p1, p2⟩ := poke_contents hu' w hd (i := idx.toNat) (by omega)
                exact ⟨p1, rfl, p2⟩
              | err x => exact ⟨hu', rfl, rfl⟩
              | panic => exact ⟨hu', rfl, rfl⟩
    · rename_i hp
      rw [hp]
      simp only
      rcases hform with ⟨h1, x, rfl⟩ | ⟨e, vs, rfl, rfl, rfl⟩
      · simp only at h1
        subst h1
        have hgen : ∀ (o : Option RVal) (o' : Option TVal),
            (match o, (RVal.scal x) with
              | some (.ref e _ _ _), .ref none a off len =>
                match convertAll C e (((s'.heap a).drop off).take len) with
                | .ok ws => (Res.ok (), (s'.alloc e ws).2.put (toLower tag) (s'.alloc e ws).1)
                | .err x => (.err x, s')
                | .panic => (.panic, s')
              | _, _ => (.ok (), s'.put (toLower tag) (.scal x))) =
              (.ok (), s'.put (toLower tag) (.scal x)) := by
          intro o _
          split
          · rename_i h; cases h
          · rfl
        have hgen2 : (match s'.contents (toLower tag), (TVal.scal x) with
              | some (.slice e _), .slice none vs =>
                match convertAll C e vs with
                | .ok ws => (Res.ok (), s'.contents.set (toLower tag) (.slice e ws))
                | .err x => (.err x, s'.contents)
                | .panic => (.panic, s'.contents)
              | _, _ => (.ok (), s'.contents.set (toLower tag) (.scal x))) =
              (.ok (), s'.contents.set (toLower tag) (.scal x)) := by
          split
          · rename_i h; cases h
          · rfl
        have := put_scal hu' (toLower tag) x
        have e1 := hgen (s'.data (toLower tag)) none
        refine ⟨?_, ?_, ?_⟩
        · exact (congrArg (fun p => p.2.Unshared) e1).mpr this.1
        · exact (congrArg (fun p => p.1) e1).trans (congrArg (fun p => p.1) hgen2).symm
        · exact (congrArg (fun p => p.2.contents) e1).trans
            (this.2.trans (congrArg (fun p => p.2) hgen2).symm)
      · have hcb : (s.alloc e vs).2.contents (toLower tag) =
            ((s.alloc e vs).2.data (toLower tag)).map (s.alloc e vs).2.deref := rfl
        rw [hcb]
        have hpf := put_fresh hu (toLower tag) e vs
        rw [hc]
        cases hd : (s.alloc e vs).2.data (toLower tag) with
        | none => exact ⟨hpf.1, rfl, hpf.2⟩
        | some q =>
          cases q with
          | scal x => exact ⟨hpf.1, rfl, hpf.2⟩
          | ref e1 a1 o1 l1 =>
            cases e with
            | some T => exact ⟨hpf.1, rfl, hpf.2⟩
            | none =>
              have hdr : List.take vs.length (List.drop 0 ((s.alloc none vs).2.heap s.next)) = vs := by
                simp [AStore.alloc]
              simp only [Option.map_some, AStore.deref]
              show (match convertAll C e1 (List.take vs.length (List.drop 0 ((s.alloc none vs).2.heap s.next))) with
                | .ok ws => (Res.ok (), ((s.alloc none vs).2.alloc e1 ws).2.put (toLower tag)
                    ((s.alloc none vs).2.alloc e1 ws).1)
                | .err x => (.err x, (s.alloc none vs).2)
                | .panic => (.panic, (s.alloc none vs).2)).2.Unshared ∧
                (match convertAll C e1 (List.take vs.length (List.drop 0 ((s.alloc none vs).2.heap s.next))) with
                | .ok ws => (Res.ok (), ((s.alloc none vs).2.alloc e1 ws).2.put (toLower tag)
                    ((s.alloc none vs).2.alloc e1 ws).1)
                | .err x => (.err x, (s.alloc none vs).2)
                | .panic => (.panic, (s.alloc none vs).2)).1 = _ ∧
                (match convertAll C e1 (List.take vs.length (List.drop 0 ((s.alloc none vs).2.heap s.next))) with
                | .ok ws => (Res.ok (), ((s.alloc none vs).2.alloc e1 ws).2.put (toLower tag)
                    ((s.alloc none vs).2.alloc e1 ws).1)
                | .err x => (.err x, (s.alloc none vs).2)
                | .panic => (.panic, (s.alloc none vs).2)).2.contents = _
              rw [hdr]
              cases hcv : convertAll C e1 vs with
              | ok ws =>
                have hpf2 := put_fresh hu' (toLower tag) e1 ws
                rw [hc] at hpf2
                exact ⟨hpf2.1, rfl, hpf2.2⟩
              | err x => exact ⟨hu', rfl, hc⟩
              | panic => exact ⟨hu', rfl, hc⟩
  cases v with
  | scal x =>
    exact main s (.scal x) hu rfl rfl (Or.inl ⟨rfl, x, rfl⟩)
  | slice e vs =>
    obtain ⟨h1, h2, h3⟩ := alloc_unshared hu e vs
    exact main _ _ h1 h2 h3 (Or.inr ⟨e, vs, rfl, rfl, rfl⟩)

/-- The shared store after a history of writes from the wire. -/
def wireRun (C : Conv) (s : AStore) (h : List (Str × TVal)) : AStore :=
  h.foldl (fun s w => (s.wireWrite C w.1 w.2).2) s

/-- C64: as long as values reach the store only through requests, and the application put no slice into
it twice, sharing cannot be observed: every read gives what the plain value store (C32, C33) gives. -/
theorem C64_requests_partial (C : Conv) (s : AStore) (hu : s.Unshared) (h : List (Str × TVal)) (tag : Str)
    (qty : Int) :
    (wireRun C s h).outcome ((wireRun C s h).tagRead tag qty) =
      tagRead (storeRun C s.contents h) tag qty := by
  have inv : ∀ s : AStore, s.Unshared →
      (wireRun C s h).Unshared ∧ (wireRun C s h).contents = storeRun C s.contents h := by
    induction h with
    | nil => intro s hu; exact ⟨hu, rfl⟩
    | cons w h ih =>
      intro s hu
      obtain ⟨h1, _, h3⟩ := wireWrite_contents C s hu w.1 w.2
      obtain ⟨i1, i2⟩ := ih _ h1
      refine ⟨i1, ?_⟩
      show (wireRun C (s.wireWrite C w.1 w.2).2 h).contents = _
      rw [i2, h3]; rfl
  obtain ⟨h1, h2⟩ := inv s hu
  rw [aread_contents _ h1, h2]

/-- C64, disagreement: a slice the application stores under two tags is one array.  Writing element 0 of
the first tag changes what a read of the second returns. -/
theorem C64_two_tags_share (C : Conv) :
    let s0 : AStore := { data := fun _ => none, heap := fun _ => [.scal (.i32 1#32), .scal (.i32 2#32)], next := 1 }
    let r : RVal := .ref (some .i32) 0 0 2
    let s1 := (s0.tagWrite C (str "a") r).2
    let s2 := (s1.tagWrite C (str "b") r).2
    let s3 := (s2.tagWrite C (str "a[0]") (.scal (.i32 9#32))).2
    otherTag (str "a[0]") (str "b") ∧
    s2.outcome (s2.tagRead (str "b") 2) = .ok (.slice (some .i32) [.scal (.i32 1#32), .scal (.i32 2#32)]) ∧
    s3.outcome (s3.tagRead (str "b") 2) = .ok (.slice (some .i32) [.scal (.i32 9#32), .scal (.i32 2#32)]) := by
  refine ⟨⟨by unfold sameName; decide, ?_⟩, rfl, rfl⟩
  intro text _ h
  unfold sameName elemText at h
  have h1 := congrArg List.head? h
  rw [List.append_assoc, List.append_assoc, toLower_append] at h1
  have h2 : (toLower (str "b")) = [0x62#8] := by decide
  have h3 : (toLower (str "a[0]")).head? = some 0x61#8 := by decide
  rw [h2, h3] at h1
  simp at h1

/-- C64, disagreement: the array a read returned is the stored one, so a later write changes a value
already handed out (server_connected.go:316-336 serialises it after the lock is released). -/
theorem C64_result_changes_later (C : Conv) :
    let s0 : AStore := { data := fun k => if k = str "a" then some (.ref (some .i32) 0 0 2) else none
                         heap := fun _ => [.scal (.i32 1#32), .scal (.i32 2#32)], next := 1 }
    let got := s0.tagRead (str "a") 2
    let s1 := (s0.wireWrite C (str "a[0]") (.scal (.i32 9#32))).2
    s0.outcome got = .ok (.slice (some .i32) [.scal (.i32 1#32), .scal (.i32 2#32)]) ∧
    s1.outcome got = .ok (.slice (some .i32) [.scal (.i32 9#32), .scal (.i32 2#32)]) := by
  constructor <;> rfl

end Gologix.Server
