import Verif.Props.Reply
import Verif.Props.DataTableOps
import Verif.Props.ReadStruct
import Verif.Model.Controller
import Verif.Model.Members
import Verif.Model.TagList
import Verif.Model.Connect
import Verif.Spec.Crash
/-
C26 and C92: exactly which replies crash the program.
-/
set_option linter.unusedSimpArgs false
namespace Gologix
open Spec (FewItems NamelessTemplate)
open Connect (Cfg forwardOpenReply openConnection)

/-- Whatever items are read were there. -/
theorem readItems_inv {p rest : Bytes} {its : List Item} (h : readItems p = .ok (its, rest)) :
    p = Spec.cpf (its.map fun it => (it.id, it.data)) ++ rest ∧
      ∀ x ∈ its.map (fun it => (it.id, it.data)), x.2.length < 65536 := by
  unfold readItems at h
  rw [Res.bind_eq_ok] at h
  obtain ⟨⟨count, src⟩, h1, h2⟩ := h
  have h1' := readBV_ok (by decide) h1
  obtain ⟨hl, hp, hs⟩ := readItemsN_ok h2
  have hcount : putBV count = le 2 its.length := by simp [putBV, hl]
  constructor
  · rw [h1', hs, Spec.cpf, hcount, List.length_map, List.append_assoc]
    congr 2
    rw [List.map_map]
    congr 1
    apply List.map_congr_left
    intro it hi
    have := (hp it hi).2
    simp [Item.bytes, Spec.item, putBV, ← this]
  · intro x hx
    obtain ⟨it, hi, rfl⟩ := List.mem_map.mp hx
    have := (hp it hi).2
    have := it.length.isLt
    simp only
    omega

/-- `items[1]` panics exactly if a complete list of fewer than two items is there. -/
theorem item1_panic_iff (p : Bytes) :
    item1 p = .panic ↔ ∃ (items : List (BitVec 16 × Bytes)) (rest : Bytes), items.length ≤ 1 ∧
      (∀ x ∈ items, x.2.length < 65536) ∧ p = Spec.cpf items ++ rest := by
  constructor
  · intro h
    unfold item1 at h
    cases hr : readItems p with
    | err e => rw [hr] at h; cases h
    | panic => exact absurd (readItems_safe p) (by rw [hr]; simp)
    | ok a =>
      obtain ⟨its, rest⟩ := a
      rw [hr, Res.bind_ok] at h
      have hlen : its.length ≤ 1 := by
        match its, h with
        | [], _ => simp
        | [_], _ => simp
        | _ :: _ :: _, h => cases h
      obtain ⟨h1, h2⟩ := readItems_inv hr
      exact ⟨_, rest, by simpa using hlen, h2, h1⟩
  · rintro ⟨items, rest, h1, h2, rfl⟩
    unfold item1
    rw [readItems_cpf items rest (by omega) h2, Res.bind_ok]
    match items, h1 with
    | [], _ => rfl
    | [_], _ => rfl

theorem item1_ok {p d : Bytes} (h : item1 p = .ok d) :
    ∃ first id more rest, p = Spec.cpf (first :: (id, d) :: more) ++ rest := by
  unfold item1 at h
  cases hr : readItems p with
  | err e => rw [hr] at h; cases h
  | panic => rw [hr] at h; cases h
  | ok a =>
    obtain ⟨its, rest⟩ := a
    rw [hr, Res.bind_ok] at h
    obtain ⟨h1, -⟩ := readItems_inv hr
    match its, h with
    | i0 :: i1 :: more, h =>
      cases h
      exact ⟨_, _, _, rest, h1⟩

theorem few_iff (payload : Bytes) :
    FewItems payload ↔ 6 ≤ payload.length ∧ item1 (payload.drop 6) = .panic := by
  rw [item1_panic_iff]
  constructor
  · rintro ⟨hdr, items, rest, h1, h2, h3, rfl⟩
    refine ⟨by simp; omega, items, rest, h2, h3, List.drop_left' h1⟩
  · rintro ⟨h, items, rest, h2, h3, h4⟩
    refine ⟨payload.take 6, items, rest, by simp; omega, h2, h3, ?_⟩
    rw [← h4, List.take_append_drop]

theorem item1_nil : item1 [] = .err .eof := rfl

theorem item1_after (payload : Bytes) : item1 (afterHeader payload) = .panic ↔ FewItems payload := by
  rw [few_iff, afterHeader]
  by_cases h : payload.length < 6
  · rw [if_pos h, item1_nil]
    simp
    omega
  · rw [if_neg h]
    simp
    omega

theorem item1_drop (payload : Bytes) : item1 (payload.drop 6) = .panic ↔ FewItems payload := by
  rw [few_iff]
  refine ⟨fun h => ⟨?_, h⟩, fun h => h.2⟩
  refine Nat.le_of_not_lt fun hl => ?_
  rw [List.drop_of_length_le (by omega), item1_nil] at h
  cases h

/-- A bind panics if its first part does, when nothing after it can. -/
theorem bind_panic_iff {α β : Type} {r : Res α} {f : α → Res β} (hf : ∀ a, r = .ok a → (f a).safe) :
    (r >>= f) = .panic ↔ r = .panic := by
  cases r with
  | ok a =>
    constructor
    · intro h
      have := hf a rfl
      rw [Res.bind_ok] at h
      rw [h] at this
      exact absurd this (by simp)
    · intro h; cases h
  | err e => simp
  | panic => simp

theorem bind_panic_iff' {α β : Type} {r : Res α} {f : α → Res β} (hf : ∀ a, r = .ok a → (f a).safe) :
    r.bind f = .panic ↔ r = .panic := bind_panic_iff hf

theorem readN6_item1 (payload : Bytes) :
    (readN 6 payload >>= fun x => item1 x.2) = .panic ↔ FewItems payload := by
  rw [few_iff]
  cases h : readN 6 payload with
  | ok a =>
    obtain ⟨hd, p⟩ := a
    obtain ⟨h1, rfl⟩ := readN_ok h
    rw [Res.bind_ok]
    simp only
    rw [List.drop_left' h1]
    simp [h1]
  | err e =>
    simp only [Res.bind_err, reduceCtorEq, false_iff]
    intro hc
    unfold readN at h
    have h0 : payload ≠ [] := by rintro rfl; simp at hc
    rw [if_neg (by decide), if_neg h0, if_neg (by omega)] at h
    cases h
  | panic => exact absurd (readN_safe 6 payload) (by rw [h]; simp)

theorem bind_assoc' {α β γ : Type} (r : Res α) (f : α → Res β) (g : β → Res γ) :
    (r >>= fun a => f a >>= g) = ((r >>= f) >>= g) := by cases r <;> rfl

theorem getAttrList_panic_iff (r : Reply) : getAttrListReply r = .panic ↔ FewItems r.payload := by
  rw [← readN6_item1]
  unfold getAttrListReply
  rw [bind_assoc']
  refine bind_panic_iff fun d _ => ?_
  refine Res.safe_bind (readN_safe _ _) fun b _ => ?_
  exact safe_ite trivial (Res.safe_bind (getU_safe _ _) fun c _ => trivial)

theorem generic_panic_iff (svc : Byte) (r : Reply) : genericReply svc r = .panic ↔ FewItems r.payload := by
  rw [← readN6_item1]
  unfold genericReply
  rw [bind_assoc']
  refine bind_panic_iff fun d _ => ?_
  refine Res.safe_bind (getU_safe _ _) fun b _ => ?_
  refine Res.safe_bind (getU_safe _ _) fun c _ => ?_
  exact safe_ite trivial (Res.safe_bind (getU_safe _ _) fun e _ => safe_ite trivial trivial)

/-- C26: a write, an attribute request, a generic message or the opening of a connection crashes exactly on a reply with
fewer than two items, that for writing and connecting has the status zero. -/
theorem C26_crash_iff (svc : Byte) (r : Reply) :
    (writeReply r = .panic ↔ r.status = 0 ∧ FewItems r.payload) ∧
    (getAttrSingleReply r = .panic ↔ FewItems r.payload) ∧
    (getAttrListReply r = .panic ↔ FewItems r.payload) ∧
    (genericReply svc r = .panic ↔ FewItems r.payload) ∧
    (parseResponse r = .panic ↔ r.status = 0 ∧ FewItems r.payload) := by
  refine ⟨?_, ?_, getAttrList_panic_iff r, generic_panic_iff svc r, ?_⟩
  · unfold writeReply
    by_cases hs : r.status = 0
    · rw [if_neg (by simp [hs]), ← item1_after, bind_panic_iff]
      · simp [hs]
      · intro d _
        refine Res.safe_bind (readN_safe _ _) fun b _ => ?_
        exact safe_ite trivial trivial
    · rw [if_pos hs]
      exact ⟨(fun h => nomatch h), fun h => absurd h.1 hs⟩
  · unfold getAttrSingleReply
    rw [← item1_after, bind_panic_iff]
    intro d _
    exact Res.safe_bind (readN_safe _ _) fun b _ => trivial
  · unfold parseResponse
    by_cases hs : r.status = 0
    · rw [if_neg (by simp [hs]), ← readN6_item1, bind_assoc', bind_panic_iff]
      · simp [hs]
      · intro d _
        refine Res.safe_bind (readN_safe _ _) fun b _ => ?_
        obtain ⟨hb, d'⟩ := b
        simp only
        have : ∀ (x : Res (Bytes × Bytes)), x.safe →
            (x >>= fun c => if hb.getD 2 0#8 ≠ 0#8 then .err .fail else (.ok c.2 : Res Bytes)).safe := by
          intro x hx
          refine Res.safe_bind hx fun c _ => ?_
          split <;> trivial
        exact safe_ite (this _ (readN_safe _ _)) (this _ trivial)
    · rw [if_pos hs]
      exact ⟨(fun h => nomatch h), fun h => absurd h.1 hs⟩

/-! ### C92: listings -/

theorem parseIdentity_safe (d : Bytes) : (parseIdentity d).safe := by
  unfold parseIdentity readSocket
  repeat' first
    | exact trivial
    | refine Res.safe_bind (readBV_safe _ _) fun _ _ => ?_
    | refine Res.safe_bind (readN_safe _ _) fun _ _ => ?_
    | refine Res.safe_bind ?_ fun _ _ => ?_

/-- C92: no reply crashes `ListIdentity` or `ListServices`. -/
theorem C92_lists (payload : Bytes) : (listIdentity payload).safe ∧ (listServices payload).safe := by
  constructor
  · unfold listIdentity
    refine Res.safe_bind (readItems_safe _) fun a _ => ?_
    obtain ⟨its, rest⟩ := a
    cases its with
    | nil => trivial
    | cons it its => exact parseIdentity_safe _
  · unfold listServices
    refine Res.safe_bind (readItems_safe _) fun a _ => ?_
    obtain ⟨its, rest⟩ := a
    simp only
    clear * -
    induction its with
    | nil => trivial
    | cons it its ih =>
      rw [parseServices]
      refine Res.safe_bind ?_ fun _ _ => Res.safe_bind ih fun _ _ => trivial
      unfold parseService
      refine Res.safe_bind (readBV_safe _ _) fun _ _ => ?_
      refine Res.safe_bind (readBV_safe _ _) fun _ _ => ?_
      exact Res.safe_bind (readN_safe _ _) fun _ _ => trivial

theorem programsLoop_safe (f : Nat) (d : Bytes) (acc : List (Str × KnownProgram)) : (programsLoop f d acc).safe := by
  induction f generalizing d acc with
  | zero => trivial
  | succ f ih =>
    rw [programsLoop]
    cases hr : readN 8 d with
    | ok a =>
      obtain ⟨h, r⟩ := a
      exact Res.safe_bind (readN_safe _ _) fun _ _ => ih _ _
    | err e => trivial
    | panic => trivial

/-- C92: `ListAllPrograms`, `GetControllerPropList`, `GetForces` and `GetFaults` crash exactly on a reply with fewer
than two items. -/
theorem C92_crash_iff (r : Reply) :
    (listPrograms r = .panic ↔ FewItems r.payload) ∧ (controllerProps r = .panic ↔ FewItems r.payload) ∧
    (getForces r = .panic ↔ FewItems r.payload) ∧ (getFaults r = .panic ↔ FewItems r.payload) := by
  refine ⟨?_, ?_, ?_, ?_⟩
  · unfold listPrograms
    rw [bind_panic_iff fun d _ => programsLoop_safe _ _ _, generic_panic_iff]
  · unfold controllerProps
    rw [bind_panic_iff, getAttrList_panic_iff]
    intro d _
    unfold readPropList
    exact Res.safe_bind (readN_safe _ _) fun _ _ => trivial
  · unfold getForces
    rw [bind_panic_iff, getAttrList_panic_iff]
    intro d _
    exact Res.safe_bind (readN_safe _ _) fun _ _ => trivial
  · unfold getFaults
    rw [bind_panic_iff, generic_panic_iff]
    intro d _
    unfold readFaultSummary
    exact Res.safe_bind (readN_safe _ _) fun _ _ => trivial

theorem page_panic {r : Reply} : symbolsPage r = .panic ↔ FewItems r.payload := by
  unfold symbolsPage
  by_cases h : r.payload = []
  · rw [if_pos h, few_iff, h]
    simp
  · rw [if_neg h, ← item1_drop, bind_panic_iff]
    intro d _
    exact Res.safe_bind (readN_safe _ _) fun _ _ => trivial

theorem readSyms_safe (f : Nat) (d : Bytes) : (readSyms f d).2.safe := by
  induction f generalizing d with
  | zero => trivial
  | succ f ih =>
    rw [readSyms]
    by_cases h : d = []
    · rw [if_pos h]; trivial
    · rw [if_neg h]
      cases hr : readSym d with
      | ok a => exact ih _
      | err e => trivial
      | panic =>
        have : (readSym d).safe := by
          unfold readSym
          refine Res.safe_bind (readN_safe _ _) fun _ _ => ?_
          refine Res.safe_bind (readN_safe _ _) fun _ _ => ?_
          exact Res.safe_bind (readN_safe _ _) fun _ _ => trivial
        rw [hr] at this
        exact absurd this (by simp)

/-- The exchanges work, and no reply has too few items. -/
def SoundNet (net : Nat → Bytes → Res Reply) : Prop :=
  ∀ n req, (net n req).safe ∧ ∀ r, net n req = .ok r → ¬ FewItems r.payload

theorem sound_bind {α : Type} {net : Nat → Bytes → Res Reply} (h : SoundNet net) (n : Nat) (req : Bytes) {f : Reply → Res α}
    (hf : ∀ r, ¬ FewItems r.payload → (f r).safe) : ((net n req).bind f).safe :=
  Res.safe_bind (h n req).1 fun r hr => hf r ((h n req).2 r hr)

theorem safe_of_iff {α : Type} {r : Res α} {P : Prop} (h : r = .panic ↔ P) (hn : ¬ P) : r.safe := by
  cases r with
  | ok a => trivial
  | err e => trivial
  | panic => exact absurd (h.mp rfl) hn

/-- A result that is not a panic, if there is one. -/
def calm {α σ : Type} (o : Option (Res α × σ)) : Prop := ∀ st, o ≠ some (.panic, st)

theorem calm_some {α σ : Type} {r : Res α} {s : σ} (h : r.safe) : calm (some (r, s)) := by
  intro st hc
  cases r with
  | ok a => cases hc
  | err e => cases hc
  | panic => exact h

theorem askPage_calm {W : ListWorld} (h : SoundNet W.net) (pre : Bytes) (start : BitVec 32) (st : ListSt) :
    (askPage W pre start st).1.safe := sound_bind h _ _ fun _ hr => safe_of_iff page_panic hr

theorem subTags_calm {W : ListWorld} (h : SoundNet W.net) (f : Nat) (p : KnownProgram) (start : BitVec 32) (st : ListSt) :
    calm (subTags W f p start st) := by
  induction f generalizing start st with
  | zero => intro st hc; cases hc
  | succ f ih =>
    rw [subTags]
    simp only
    have ha := askPage_calm h p.bytes (if start = 0 then 1 else start) st
    generalize askPage W p.bytes (if start = 0 then 1 else start) st = x at ha
    obtain ⟨r, st⟩ := x
    cases r with
    | panic => exact absurd ha (by simp)
    | err e => exact calm_some trivial
    | ok a =>
      obtain ⟨status, d⟩ := a
      simp only
      have hs := readSyms_safe (d.length + 1) d
      generalize readSyms (d.length + 1) d = y at hs
      obtain ⟨ss, e⟩ := y
      generalize subEach p ss (if start = 0 then 1 else start) st = z
      obtain ⟨kts, start', st⟩ := z
      cases e with
      | panic => exact absurd hs (by simp)
      | err e => exact calm_some trivial
      | ok u =>
        by_cases h6 : status = 6#16
        · simp only [if_pos h6]
          have hi := ih start' st
          generalize subTags W f p start' st = w at hi
          match w with
          | none => intro st hc; cases hc
          | some (.ok _, st) => exact calm_some trivial
          | some (.err _, st) => exact calm_some trivial
          | some (.panic, st) => exact absurd rfl (hi st)
        · simp only [if_neg h6]
          exact calm_some trivial

theorem subEachProgram_calm {W : ListWorld} (h : SoundNet W.net) (f : Nat) (ps : List (Str × KnownProgram)) (st : ListSt) :
    calm (subEachProgram W f ps st) := by
  induction ps generalizing st with
  | nil => exact calm_some trivial
  | cons p ps ih =>
    obtain ⟨k, p⟩ := p
    rw [subEachProgram]
    have hi := subTags_calm h f p 1 st
    generalize subTags W f p 1 st = w at hi
    match w with
    | none => intro st hc; cases hc
    | some (.ok _, st) => exact ih st
    | some (.err _, st) => exact calm_some trivial
    | some (.panic, st) => exact absurd rfl (hi st)

theorem listProgramTags_calm {W : ListWorld} (h : SoundNet W.net) (f : Nat) (st : ListSt) :
    calm (listProgramTags W f st) := by
  unfold listProgramTags
  cases hr : W.net st.n (programsRequest (W.seq st.n)) with
  | panic => exact absurd (h st.n (programsRequest (W.seq st.n))).1 (by rw [hr]; simp)
  | err e => exact calm_some trivial
  | ok r =>
    simp only
    have hn := (h _ _).2 r hr
    cases hl : listPrograms r with
    | panic => exact absurd ((C92_crash_iff r).1.mp hl) hn
    | err e => cases e <;> exact calm_some trivial
    | ok m =>
      simp only
      have hi := subEachProgram_calm h f (W.ord m) { tags := st.tags, progs := m, n := st.n + 1 }
      generalize subEachProgram W f (W.ord m) { tags := st.tags, progs := m, n := st.n + 1 } = w at hi
      match w with
      | none => intro st hc; cases hc
      | some (.ok _, st) => exact calm_some trivial
      | some (.err _, st) => exact calm_some trivial
      | some (.panic, st) => exact absurd rfl (hi st)

theorem mainEach_calm {W : ListWorld} (h : SoundNet W.net) (f : Nat) (fb : Bool) (ss : List Sym) (st : ListSt) :
    calm (mainEach W f fb ss st) := by
  induction ss generalizing st with
  | nil => exact calm_some trivial
  | cons s ss ih =>
    rw [mainEach]
    split
    · exact ih _
    · split
      · split
        · exact ih _
        · simp only
          generalize ({ st with progs := _ } : ListSt) = st'
          have hi := subTags_calm h f { name := s.name.drop 8, id := 0 } 1 st'
          generalize subTags W f { name := s.name.drop 8, id := 0 } 1 st' = w at hi
          match w with
          | none => intro st hc; cases hc
          | some (.ok _, st) => exact ih _
          | some (.err _, st) => exact calm_some trivial
          | some (.panic, st) => exact absurd rfl (hi st)
      · exact ih _

theorem allTags_calm {W : ListWorld} (h : SoundNet W.net) (f : Nat) (start : BitVec 32) (st : ListSt) :
    calm (allTags W f start st) := by
  induction f generalizing start st with
  | zero => intro st hc; cases hc
  | succ f ih =>
    rw [allTags]
    simp only
    generalize (if start.toNat < 1 then 1 else start) = start
    have hp : calm (if start = 1 then listProgramTags W f st else some (.ok false, st)) := by
      split
      · exact listProgramTags_calm h f st
      · exact calm_some trivial
    generalize (if start = 1 then listProgramTags W f st else some (.ok false, st)) = w at hp
    match w with
    | none => intro st hc; cases hc
    | some (.err _, st) => exact calm_some trivial
    | some (.panic, st) => exact absurd rfl (hp st)
    | some (.ok fb, st) =>
      simp only
      have ha := askPage_calm h [] start st
      generalize askPage W [] start st = x at ha
      obtain ⟨r, st⟩ := x
      cases r with
      | panic => exact absurd ha (by simp)
      | err e => exact calm_some trivial
      | ok a =>
        obtain ⟨status, d⟩ := a
        simp only
        have hs := readSyms_safe (d.length + 1) d
        generalize readSyms (d.length + 1) d = y at hs
        obtain ⟨ss, e⟩ := y
        simp only
        have hm := mainEach_calm h f fb ss st
        generalize mainEach W f fb ss st = z at hm
        match z with
        | none => intro st hc; cases hc
        | some (.err _, st) => exact calm_some trivial
        | some (.panic, st) => exact absurd rfl (hm st)
        | some (.ok (), st) =>
          cases e with
          | panic => exact absurd hs (by simp)
          | err e => exact calm_some trivial
          | ok u =>
            by_cases h6 : status = 6#16
            · simp only [if_pos h6]
              exact ih _ _
            · simp only [if_neg h6]
              exact calm_some trivial

/-- C92 for `ListAllTags` and `ListSubTags`, whatever the replies and however many: they crash only after a reply with
fewer than two items. -/
theorem C92_tags_partial (W : ListWorld) (f : Nat) (p : KnownProgram) (start : BitVec 32) (st st' : ListSt)
    (hw : ∀ n req, (W.net n req).safe)
    (h : allTags W f start st = some (.panic, st') ∨ subTags W f p start st = some (.panic, st')) :
    ∃ n req r, W.net n req = .ok r ∧ FewItems r.payload := by
  refine Classical.byContradiction fun hn => ?_
  have hs : SoundNet W.net := fun n req => ⟨hw n req, fun r hr hf => hn ⟨n, req, r, hr, hf⟩⟩
  rcases h with h | h
  · exact allTags_calm hs f start st st' h
  · exact subTags_calm hs f p start st st' h

/-! ### Templates -/

theorem structName_panic {d : Bytes} (h : structName d = .panic) : ∃ text, d = 0x3B#8 :: text ∧ 0#8 ∈ text := by
  unfold structName readString0 at h
  cases hd : d.dropWhile (· != 0#8) with
  | nil => rw [hd] at h; cases h
  | cons z r =>
    rw [hd] at h
    simp only at h
    have hz : z = 0#8 := by
      have := List.head?_dropWhile_not (· != 0#8) d
      rw [hd] at this
      simpa using this
    have hmem : (0#8 : Byte) ∈ d := by
      have : z ∈ d.dropWhile (· != 0#8) := by rw [hd]; simp
      rw [← hz]
      exact (List.dropWhile_sublist _).subset this
    cases d with
    | nil => simp at hmem
    | cons c cs =>
      by_cases hc : c = 0x3B#8
      · subst hc
        refine ⟨cs, rfl, ?_⟩
        rcases List.mem_cons.mp hmem with h | h
        · exact absurd h (by decide)
        · exact h
      · exfalso
        by_cases hcont : (List.takeWhile (fun x => x != 0#8) (c :: cs) ++ [z]).contains 0x3B#8 = true
        · rw [if_pos hcont] at h
          by_cases hc0 : c = 0#8
          · subst hc0
            simp [hz] at hcont
          · rw [List.takeWhile_cons_of_pos (by simpa using hc0), List.cons_append,
              List.takeWhile_cons_of_pos (by simpa using hc), if_neg (by simp)] at h
            cases h
        · rw [if_neg hcont, if_neg (by simp)] at h
          cases h

theorem templateAttr_panic {r : Reply} : templateAttrReply r = .panic ↔ FewItems r.payload := by
  unfold templateAttrReply
  by_cases h : r.payload = []
  · rw [if_pos h, few_iff, h]
    simp
  · rw [if_neg h, ← item1_drop, bind_panic_iff]
    intro d _
    exact Res.safe_bind (readN_safe _ _) fun _ _ => trivial

theorem templateRead_panic {r : Reply} {k : Nat}
    (h : ((templateReadReply r).bind fun d => (readN (8 * k) d).bind fun (x : Bytes × Bytes) =>
      (structName x.2).bind fun (y : Str × Bytes) => Res.ok (x.1, y.1, y.2)) = .panic) :
    FewItems r.payload ∨ NamelessTemplate r.payload := by
  by_cases hf : FewItems r.payload
  · exact .inl hf
  right
  unfold templateReadReply at h
  by_cases h0 : r.payload = []
  · rw [if_pos h0] at h; cases h
  rw [if_neg h0] at h
  cases hi : item1 (r.payload.drop 6) with
  | panic => exact absurd ((item1_drop _).mp hi) hf
  | err e => rw [hi] at h; cases h
  | ok d =>
    obtain ⟨first, id, more, rest, hp⟩ := item1_ok hi
    rw [hi, Res.bind_ok] at h
    cases h6 : readN 6 d with
    | panic => exact absurd (readN_safe 6 d) (by rw [h6]; simp)
    | err e => rw [h6] at h; cases h
    | ok a =>
      obtain ⟨hd, d2⟩ := a
      obtain ⟨hl, rfl⟩ := readN_ok h6
      rw [h6, Res.bind_ok] at h
      simp only [Res.bind] at h
      cases hk : readN (8 * k) d2 with
      | panic => exact absurd (readN_safe (8 * k) d2) (by rw [hk]; simp)
      | err e => rw [hk] at h; cases h
      | ok b =>
        obtain ⟨b, text⟩ := b
        obtain ⟨hl2, rfl⟩ := readN_ok hk
        rw [hk] at h
        simp only at h
        cases hs : structName text with
        | ok x => rw [hs] at h; cases h
        | err e => rw [hs] at h; cases h
        | panic =>
          obtain ⟨t, rfl, ht⟩ := structName_panic hs
          have h6le : 6 ≤ r.payload.length := by
            refine Nat.le_of_not_lt fun hlt => ?_
            rw [List.drop_of_length_le (by omega), item1_nil] at hi
            cases hi
          refine ⟨r.payload.take 6, first, id, hd, b, t, more, rest, ?_, by simp; omega, hl, by omega, ht⟩
          rw [← hp, List.take_append_drop]

theorem eachMember_calm {lm : BitVec 32 → TypeSt → Option (Res Udt × TypeSt)} (h : ∀ i st, calm (lm i st))
    (ms : List MemberInfo) (d : Bytes) (st : TypeSt) : calm (eachMember lm ms d st) := by
  induction ms generalizing d st with
  | nil => exact calm_some trivial
  | cons m ms ih =>
    rw [eachMember]
    generalize readString0 d = x
    obtain ⟨s, full, r⟩ := x
    simp only
    have hmore : ∀ (u : Option Udt) (st : TypeSt), calm (match eachMember lm ms r st with
        | none => none
        | some (.ok rs, st) => some (.ok ((s.dropLast, m, u) :: rs), st)
        | some (.err e, st) => some (.err e, st)
        | some (.panic, st) => some (.panic, st)) := by
      intro u st
      have hi := ih r st
      generalize eachMember lm ms r st = w at hi
      match w with
      | none => intro st hc; cases hc
      | some (.ok _, st) => exact calm_some trivial
      | some (.err _, st) => exact calm_some trivial
      | some (.panic, st) => exact absurd rfl (hi st)
    split
    · exact calm_some trivial
    · split
      · exact hmore none st
      · have hl := h (m.templateId.setWidth 32) st
        generalize lm (m.templateId.setWidth 32) st = w at hl
        match w with
        | none => intro st hc; cases hc
        | some (.ok _, st) => exact hmore _ _
        | some (.err _, st) => exact hmore _ _
        | some (.panic, st) => exact absurd rfl (hl st)

theorem listMembers_calm {W : TypeWorld} (h : SoundNet W.net)
    (ht : ∀ n req r, W.net n req = .ok r → ¬ NamelessTemplate r.payload) (f : Nat) (inst : BitVec 32) (st : TypeSt) :
    calm (listMembers W f inst st) := by
  induction f generalizing inst st with
  | zero => intro st hc; cases hc
  | succ f ih =>
    rw [listMembers]
    cases hk : st.known inst with
    | some d => exact calm_some trivial
    | none =>
      simp only
      have h1 : ((W.net st.n (templateAttrRequest (W.seq st.n) inst)).bind templateAttrReply).safe :=
        sound_bind h _ _ fun _ hr => safe_of_iff templateAttr_panic hr
      generalize (W.net st.n (templateAttrRequest (W.seq st.n) inst)).bind templateAttrReply = x at h1
      cases x with
      | panic => exact absurd h1 (by simp)
      | err e => exact calm_some trivial
      | ok info =>
        simp only
        split
        · exact calm_some trivial
        · rename_i hp
          exfalso
          cases hr : W.net (st.n + 1) (templateReadRequest (W.seq (st.n + 1)) inst info) with
          | panic => exact absurd (h _ _).1 (by rw [hr]; simp)
          | err e => rw [hr] at hp; cases hp
          | ok r =>
            rw [hr] at hp
            rcases templateRead_panic hp with hf | hf
            · exact (h _ _).2 r hr hf
            · exact ht _ _ r hr hf
        · rename_i b name d _
          have hm := eachMember_calm (fun i st => ih i st) (readInfos info.members.toNat b) d { st with n := st.n + 2 }
          generalize eachMember (listMembers W f) (readInfos info.members.toNat b) d { st with n := st.n + 2 } = w at hm
          match w with
          | none => intro st hc; cases hc
          | some (.ok _, st) => exact calm_some trivial
          | some (.err _, st) => exact calm_some trivial
          | some (.panic, st) => exact absurd rfl (hm st)

/-- C92 for `ListMembers`, whatever templates the controller describes: it crashes only after a reply with fewer than two
items or a template whose text begins with a semicolon. -/
theorem C92_members_partial (W : TypeWorld) (f : Nat) (inst : BitVec 32) (st st' : TypeSt)
    (hw : ∀ n req, (W.net n req).safe) (h : listMembers W f inst st = some (.panic, st')) :
    ∃ n req r, W.net n req = .ok r ∧ (FewItems r.payload ∨ NamelessTemplate r.payload) := by
  refine Classical.byContradiction fun hn => ?_
  have hs : SoundNet W.net := fun n req => ⟨hw n req, fun r hr hf => hn ⟨n, req, r, hr, .inl hf⟩⟩
  exact listMembers_calm hs (fun n req r hr hf => hn ⟨n, req, r, hr, .inr hf⟩) f inst st st' h

/-! ### Data tables -/

/-- An exchange works, and no reply has too few items. -/
def SoundOne (net : Bytes → Res Reply) : Prop := ∀ req, (net req).safe ∧ ∀ r, net req = .ok r → ¬ FewItems r.payload

theorem soundOne_bind {α : Type} {net : Bytes → Res Reply} (h : SoundOne net) (req : Bytes) {f : Reply → Res α}
    (hf : ∀ r, ¬ FewItems r.payload → (f r).safe) : ((net req).bind f).safe :=
  Res.safe_bind (h req).1 fun r hr => hf r ((h req).2 r hr)

theorem generic_safe {svc : Byte} {r : Reply} (h : ¬ FewItems r.payload) : (genericReply svc r).safe :=
  safe_of_iff (generic_panic_iff svc r) h

theorem syncTags_safe {net : Bytes → Res Reply} (h : SoundOne net) (seq : BitVec 16) (b : DBuf) :
    (syncTags net seq b).1.safe := by
  unfold syncTags
  have hs : ((net (genericRequest seq 0x4E#8 (dataTablePath b.inst) (addData b.pending))).bind fun r => do
      let d ← genericReply 0x4E#8 r
      getU 2 d).safe := soundOne_bind h _ fun r hr => Res.safe_bind (generic_safe hr) fun d _ => getU_safe _ _
  generalize ((net (genericRequest seq 0x4E#8 (dataTablePath b.inst) (addData b.pending))).bind fun r => do
      let d ← genericReply 0x4E#8 r
      getU 2 d) = x at hs
  cases x with
  | ok a => trivial
  | err e => trivial
  | panic => exact absurd hs (by simp)

theorem decodeDataTable_safe (t : Byte) (raw : Bytes) : (decodeDataTable t raw).safe := by
  unfold decodeDataTable
  repeat' first
    | apply safe_ite
    | exact trivial
    | exact Res.safe_bind (readValue_safe _ _) fun a _ => trivial

theorem readValue_not_nil {t : Byte} {d r : Bytes} {v : Scal} (h : readValue t d = .ok (v, r)) : v ≠ .nil := by
  have hi : ∀ {c : Prop} [Decidable c] {a b : Res (Scal × Bytes)}, (∀ v r, a = .ok (v, r) → v ≠ .nil) →
      (∀ v r, b = .ok (v, r) → v ≠ .nil) → ∀ v r, (if c then a else b) = .ok (v, r) → v ≠ .nil := by
    intro c _ a b ha hb v r h
    split at h
    · exact ha v r h
    · exact hb v r h
  have hb : ∀ {α : Type} {x : Res α} {f : α → Res (Scal × Bytes)}, (∀ a v r, f a = .ok (v, r) → v ≠ .nil) →
      ∀ v r, (x >>= f) = .ok (v, r) → v ≠ .nil := by
    intro α x f hf v r h
    rw [Res.bind_eq_ok] at h
    obtain ⟨a, -, h⟩ := h
    exact hf a v r h
  have key : ∀ v r, readValue t d = .ok (v, r) → v ≠ .nil := by
    unfold readValue
    repeat' first
      | (intro v r h; cases h; done)
      | apply hi
      | (refine hb fun a v r h => ?_
         cases h
         simp)
  exact key v r h

theorem decode_not_nil {t : Byte} {raw : Bytes} {v : Scal} (h : decodeDataTable t raw = .ok v) : v ≠ .nil := by
  unfold decodeDataTable at h
  split at h
  · split at h
    · cases h
    · cases h; simp
  · rw [Res.bind_eq_ok] at h
    obtain ⟨⟨w, r⟩, h1, h2⟩ := h
    cases h2
    exact readValue_not_nil h1

theorem readTagsV_safe (ts : List DTag) (cur : BitVec 16) (d : Bytes) (m : List (Str × Scal)) (mem : Mem) :
    (readTagsV ts cur d m mem).1.safe := by
  induction ts generalizing cur d m mem with
  | nil => trivial
  | cons t ts ih =>
    rw [readTagsV]
    have h1 : (if t.batch ≠ cur then (do
        let (_, d) ← getU 2 d
        .ok d) else .ok d : Res Bytes).safe :=
      safe_ite (Res.safe_bind (getU_safe _ _) fun _ _ => trivial) trivial
    generalize (if t.batch ≠ cur then (do
        let (_, d) ← getU 2 d
        .ok d) else .ok d : Res Bytes) = x at h1
    cases x with
    | panic => exact absurd h1 (by simp)
    | err e => trivial
    | ok d =>
      simp only
      by_cases hl : d.length < t.size.toNat
      · rw [if_pos hl]; trivial
      · rw [if_neg hl]
        have h2 := decodeDataTable_safe t.typ (d.take t.size.toNat)
        cases hd : decodeDataTable t.typ (d.take t.size.toNat) with
        | panic => rw [hd] at h2; exact absurd h2 (by simp)
        | err e => trivial
        | ok v =>
          simp only
          cases hv : t.var with
          | none => exact ih _ _ _ _
          | some r =>
            simp only
            have h3 : (setGoVar r v mem).safe := by
              unfold setGoVar
              rw [if_neg (decode_not_nil hd)]
              exact safe_ite trivial (safe_ite trivial trivial)
            cases hg : setGoVar r v mem with
            | panic => rw [hg] at h3; exact absurd h3 (by simp)
            | err e => trivial
            | ok mem => exact ih _ _ _ _

theorem readTags_safe (ts : List DTag) (cur : BitVec 16) (d : Bytes) (m : List (Str × Scal)) :
    (readTags ts cur d m).safe := by
  induction ts generalizing cur d m with
  | nil => trivial
  | cons t ts ih =>
    rw [readTags_step]
    have h1 : (skipNumber t cur d).safe := by
      unfold skipNumber
      exact safe_ite (Res.safe_bind (getU_safe _ _) fun _ _ => trivial) trivial
    exact Res.safe_bind h1 fun d _ => safe_ite trivial (Res.safe_bind (decodeDataTable_safe _ _) fun v _ => ih _ _ _)

theorem readTagsRaw_safe (ts : List DTag) (cur : BitVec 16) (d : Bytes) (m : List (Str × Bytes)) :
    (readTagsRaw ts cur d m).safe := by
  induction ts generalizing cur d m with
  | nil => trivial
  | cons t ts ih =>
    rw [readTagsRaw_step]
    have h1 : (skipNumber t cur d).safe := by
      unfold skipNumber
      exact safe_ite (Res.safe_bind (getU_safe _ _) fun _ _ => trivial) trivial
    exact Res.safe_bind h1 fun d _ => safe_ite trivial (ih _ _ _)

theorem synched_safe {W : DWorld} (h : SoundOne W.addNet) (b : DBuf) :
    (if b.synched then (.ok (), b) else syncTags W.addNet W.seq1 b : Res Unit × DBuf).1.safe := by
  split
  · trivial
  · exact syncTags_safe h _ _

theorem readAllV_safe {W : DWorld} (h2 : SoundOne W.addNet) (h3 : SoundOne W.readNet) (b : DBuf) (mem : Mem) :
    (readAllV W b mem).1.safe := by
  unfold readAllV
  split
  · trivial
  split
  · trivial
  have hb := synched_safe h2 b
  generalize (if b.synched then (.ok (), b) else syncTags W.addNet W.seq1 b : Res Unit × DBuf) = x at hb
  obtain ⟨r, b⟩ := x
  cases r with
  | panic => exact absurd hb (by simp)
  | err e => trivial
  | ok u =>
    simp only
    have hr : ((W.readNet (genericRequest W.seq2 0x4C#8 (dataTablePath b.inst) [])).bind fun r =>
        genericReply 0x4C#8 r).safe := soundOne_bind h3 _ fun r hr => generic_safe hr
    generalize ((W.readNet (genericRequest W.seq2 0x4C#8 (dataTablePath b.inst) [])).bind fun r =>
        genericReply 0x4C#8 r) = y at hr
    cases y with
    | panic => exact absurd hr (by simp)
    | err e => trivial
    | ok d => exact readTagsV_safe _ _ _ _ _

theorem readAll_safe {W : DWorld} (h2 : SoundOne W.addNet) (h3 : SoundOne W.readNet) (b : DBuf) :
    (readAll W b).1.safe ∧ (readAllRaw W b).1.safe := by
  have hb := synched_safe h2 b
  unfold readAll readAllRaw
  generalize (if b.synched then (.ok (), b) else syncTags W.addNet W.seq1 b : Res Unit × DBuf) = x at hb
  split
  · exact ⟨trivial, trivial⟩
  split
  · exact ⟨trivial, trivial⟩
  obtain ⟨r, b⟩ := x
  cases r with
  | panic => exact absurd hb (by simp)
  | err e => exact ⟨trivial, trivial⟩
  | ok u =>
    exact ⟨soundOne_bind h3 _ fun r hr => Res.safe_bind (generic_safe hr) fun d _ => readTags_safe _ _ _ _,
      soundOne_bind h3 _ fun r hr => Res.safe_bind (generic_safe hr) fun d _ => readTagsRaw_safe _ _ _ _⟩

theorem removeTag_safe {net : Bytes → Res Reply} (h1 : SoundOne net) (seq : BitVec 16) (b : DBuf) (name : Str) :
    (removeTag net seq b name).1.safe := by
  unfold removeTag
  split
  · trivial
  cases b.find name with
  | none => trivial
  | some i =>
    simp only
    have hr := soundOne_bind h1 (genericRequest seq 0x4F#8 (dataTablePath b.inst)
      (putBV (((b.tags[i]?).map (·.index)).getD 0))) fun r hr => generic_safe (svc := 0x4F#8) hr
    generalize (net (genericRequest seq 0x4F#8 (dataTablePath b.inst)
      (putBV (((b.tags[i]?).map (·.index)).getD 0)))).bind (genericReply 0x4F#8) = y at hr
    cases y with
    | panic => exact absurd hr (by simp)
    | err e => trivial
    | ok d => trivial

theorem closeDataTable_safe {net : Bytes → Res Reply} (h1 : SoundOne net) (seq : BitVec 16) (b : DBuf) :
    (closeDataTable net seq b).1.safe := by
  unfold closeDataTable
  split
  · trivial
  simp only
  have hr := soundOne_bind h1 (genericRequest seq 0x09#8 (dataTablePath b.inst) []) fun r hr =>
    generic_safe (svc := 0x09#8) hr
  generalize (net (genericRequest seq 0x09#8 (dataTablePath b.inst) [])).bind (genericReply 0x09#8) = y at hr
  cases y with
  | panic => exact absurd hr (by simp)
  | err e => trivial
  | ok d => trivial

/-- C92 for data tables: with any bound variables and any bytes in the replies, creating, reading (with variables,
without, and raw), removing a tag and closing crash only after a reply with fewer than two items. -/
theorem C92_table_partial (W : DWorld) (b : DBuf) (mem : Mem) (net : Bytes → Res Reply) (seq : BitVec 16) (name : Str)
    (hw : ∀ req, (net req).safe ∧ (W.addNet req).safe ∧ (W.readNet req).safe)
    (h : newDataTable net seq = .panic ∨ (readAllV W b mem).1 = .panic ∨ (readAll W b).1 = .panic ∨
      (readAllRaw W b).1 = .panic ∨ (removeTag net seq b name).1 = .panic ∨ (closeDataTable net seq b).1 = .panic) :
    ∃ req r, (net req = .ok r ∨ W.addNet req = .ok r ∨ W.readNet req = .ok r) ∧ FewItems r.payload := by
  refine Classical.byContradiction fun hn => ?_
  have h1 : SoundOne net := fun req => ⟨(hw req).1, fun r hr hf => hn ⟨req, r, .inl hr, hf⟩⟩
  have h2 : SoundOne W.addNet := fun req => ⟨(hw req).2.1, fun r hr hf => hn ⟨req, r, .inr (.inl hr), hf⟩⟩
  have h3 : SoundOne W.readNet := fun req => ⟨(hw req).2.2, fun r hr hf => hn ⟨req, r, .inr (.inr hr), hf⟩⟩
  have no : ∀ {α : Type} {r : Res α}, r.safe → r ≠ .panic := by
    intro α r hs hp
    rw [hp] at hs
    exact hs
  rcases h with h | h | h | h | h | h
  · refine no ?_ h
    exact soundOne_bind h1 _ fun r hr => Res.safe_bind (generic_safe hr) fun d _ =>
      Res.safe_bind (getU_safe _ _) fun _ _ => trivial
  · exact no (readAllV_safe h2 h3 b mem) h
  · exact no (readAll_safe h2 h3 b).1 h
  · exact no (readAll_safe h2 h3 b).2 h
  · exact no (removeTag_safe h1 seq b name) h
  · exact no (closeDataTable_safe h1 seq b) h

theorem collapse_safe (raw : List (Str × Scal)) (ns : List Str) : (collapse raw ns).safe := by
  induction ns with
  | nil => trivial
  | cons n ns ih =>
    rw [collapse]
    cases raw.lookup n with
    | none => trivial
    | some v =>
      simp only
      cases hc : collapse raw ns with
      | panic => rw [hc] at ih; exact absurd ih (by simp)
      | err e => trivial
      | ok vs => trivial

theorem collapseAll_safe (raw : List (Str × Scal)) (ex : List (Str × List Str)) (m : List (Str × GVal)) :
    (collapseAll raw ex m).safe := by
  induction ex generalizing m with
  | nil => trivial
  | cons e ex ih =>
    obtain ⟨base, names⟩ := e
    rw [collapseAll]
    have hc := collapse_safe raw names
    cases h : collapse raw names with
    | panic => rw [h] at hc; exact absurd hc (by simp)
    | err e => trivial
    | ok vs =>
      match vs with
      | [] => exact ih _
      | [v] => exact ih _
      | _ :: _ :: _ => exact ih _

/-- C92: putting the elements of arrays together never crashes, whatever values the read reports. -/
theorem C92_typed (raw : List (Str × Scal)) (ex : List (Str × List Str)) : (typedResult raw ex).safe := by
  unfold typedResult
  have hc := collapseAll_safe raw ex []
  cases h : collapseAll raw ex [] with
  | panic => rw [h] at hc; exact absurd hc (by simp)
  | err e => trivial
  | ok m => trivial

/-! ### Slices and structures -/

theorem castElems_safe (T : GoTy) (vs : List Scal) : (castElems T vs).safe := by
  induction vs with
  | nil => trivial
  | cons v vs ih =>
    rw [castElems]
    refine Res.safe_bind ?_ fun _ _ => Res.safe_bind ih fun _ _ => trivial
    unfold castElem
    split <;> exact safe_ite trivial trivial

/-- C92 for slices of anything but strings: reading into a slice that is not empty (modulo 65536) never crashes. -/
theorem C92_slice_partial (T : GoTy) (hT : T ≠ .str) (n : Nat) (hn : n % 65536 ≠ 0) (ioi : Ioi) (replies : List Reply) :
    (readSliceT T ioi n replies).safe := by
  unfold readSliceT readArrayT
  have hz : BitVec.ofNat 16 n ≠ 0#16 := by
    intro h
    have := congrArg BitVec.toNat h
    simp at this
    omega
  rw [if_neg hz]
  refine Res.safe_bind (Res.safe_bind (C26_read_partial ioi (cipOfGo T) _ replies (.inl ?_)) fun v _ => ?_) fun v _ => ?_
  · cases T <;> first | decide | exact absurd rfl hT
  · cases v with
    | one x => trivial
    | many vs => exact castElems_safe T vs
  · exact safe_ite trivial trivial

/-- C92 for slices of booleans that are not empty: the same. -/
theorem C92_bools_partial (n : Nat) (hn : n / 32 % 65536 ≠ 0) (ioi : Ioi) (replies : List Reply) :
    (readBools ioi n replies).safe := by
  unfold readBools
  simp only
  refine safe_ite trivial (safe_ite (Res.safe_bind (C26_readT _ _ _) fun _ _ => trivial) ?_)
  have := C92_slice_partial .u32 (by decide) (n / 32) hn ioi replies
  unfold readSliceT at this
  unfold readArrayT at this ⊢
  have hz : BitVec.ofNat 16 (n / 32) ≠ 0#16 := by
    intro h
    have := congrArg BitVec.toNat h
    simp at this
    omega
  rw [if_neg hz] at this ⊢
  refine Res.safe_bind (Res.safe_bind (C26_read_partial ioi _ _ replies (.inl (by decide))) fun v _ => ?_) fun v _ =>
    safe_ite trivial trivial
  cases v with
  | one x => trivial
  | many vs => exact castElems_safe _ vs

theorem bit_safe (st : UnpackSt) : st.bit.safe := by
  unfold UnpackSt.bit
  split
  · cases st.src <;> trivial
  · trivial

theorem pad_safe (st : UnpackSt) (a : Nat) : (st.pad a).safe := by
  unfold UnpackSt.pad
  exact safe_ite (safe_ite trivial trivial) trivial

theorem unpackBitsInto_safe (n : Nat) (old : Rep n Bool) (st : UnpackSt) : (ServerIo.unpackBitsInto n old st).2.safe := by
  induction n generalizing st with
  | zero => trivial
  | succ n ih =>
    rw [ServerIo.unpackBitsInto]
    have h := bit_safe st
    cases hb : st.bit with
    | panic => rw [hb] at h; exact absurd h (by simp)
    | err e => trivial
    | ok a => exact ih _ _

theorem boolsInto_safe (t : Ty) (g : t.Val → UnpackSt → t.Val × Res UnpackSt) (h : ServerIo.boolsInto t = some g)
    (old : t.Val) (st : UnpackSt) : (g old st).2.safe := by
  unfold ServerIo.boolsInto at h
  split at h
  · cases h
    unfold ServerIo.unpackBitInto
    have h := bit_safe st
    cases hb : st.bit with
    | panic => rw [hb] at h; exact absurd h (by simp)
    | err e => trivial
    | ok a => trivial
  · cases h
    exact unpackBitsInto_safe _ _ _
  · cases h

theorem unpackInto_safe (t : Ty) (old : t.Val) (st : UnpackSt) : (ServerIo.unpackInto t old st).2.safe := by
  induction t generalizing st with
  | num k => trivial
  | bool => trivial
  | arr n t _ => trivial
  | nil => trivial
  | cons np f rest ihf ihr =>
    rw [ServerIo.unpackInto]
    simp only
    split
    · exact ihr _ _
    · trivial
    · rename_i hp
      exfalso
      split at hp
      · rename_i g hg
        have : ServerIo.boolsInto f = some g := by
          cases np with
          | true => cases hg
          | false => exact hg
        have hs := boolsInto_safe f g this old.1 st
        rw [hp] at hs
        exact hs
      · have h1 := pad_safe { st with bitpos := 0 } f.align
        split at hp
        · cases hp
        · rename_i h2
          rw [h2] at h1
          exact h1
        · rename_i s' _
          by_cases hf : f.isStruct = true
          · rw [if_pos hf] at hp
            have h3 := ihf old.1 ⟨s'.src, 0, 0, 0#8⟩
            simp only at hp
            generalize (ServerIo.unpackInto f old.1 ⟨s'.src, 0, 0, 0#8⟩).2 = y at h3 hp
            cases y with
            | ok a => cases hp
            | err e => cases hp
            | panic => exact h3
          · rw [if_neg hf] at hp
            have h3 := readN_safe f.flat s'.src
            split at hp
            · cases hp
            · cases hp
            · rename_i h4
              rw [h4] at h3
              exact h3

theorem asBytes_safe (v : RV) : (ReadStruct.asBytes v).safe := by
  unfold ReadStruct.asBytes
  split <;> trivial

/-- C92 for structures: reading into a pointer to a structure never crashes. -/
theorem C92_struct (t : Ty) (old : t.Val) (ioi : Ioi) (replies : List Reply) :
    (ReadStruct.readStruct t old ioi replies).2.1.safe := by
  unfold ReadStruct.readStruct
  simp only
  have h := Res.safe_bind (C26_read_partial ioi tStruct 1#16 replies (.inr rfl)) fun v _ => asBytes_safe v
  generalize (readSingle ioi tStruct 1#16 replies).1 >>= ReadStruct.asBytes = y at h
  cases y with
  | panic => exact absurd h (by simp)
  | err e => trivial
  | ok b => exact Res.safe_bind (unpackInto_safe t old _) fun _ _ => trivial

theorem unpackBits_safe (n : Nat) (st : UnpackSt) : (unpackBits n st).safe := by
  induction n generalizing st with
  | zero => trivial
  | succ n ih =>
    rw [unpackBits]
    exact Res.safe_bind (bit_safe st) fun _ _ => Res.safe_bind (ih _) fun _ _ => trivial

theorem unpackBools_safe (t : Ty) (g : UnpackSt → Res (t.Val × UnpackSt)) (h : t.unpackBools = some g) (st : UnpackSt) :
    (g st).safe := by
  unfold Ty.unpackBools at h
  split at h
  · cases h; exact bit_safe st
  · cases h; exact unpackBits_safe _ _
  · cases h

theorem unpackFields_safe (t : Ty) (st : UnpackSt) : (unpackFields t st).safe := by
  induction t generalizing st with
  | num k => trivial
  | bool => trivial
  | arr n t _ => trivial
  | nil => trivial
  | cons np f rest ihf ihr =>
    rw [unpackFields]
    refine Res.safe_bind ?_ fun a _ => Res.safe_bind (ihr _) fun _ _ => trivial
    split
    · rename_i g hg
      refine unpackBools_safe f g ?_ st
      cases np with
      | true => cases hg
      | false => exact hg
    · refine Res.safe_bind (pad_safe _ _) fun st' _ => ?_
      split
      · exact Res.safe_bind (ihf _) fun _ _ => trivial
      · exact Res.safe_bind (readN_safe _ _) fun _ _ => trivial

theorem unpackSlice_safe (t : Ty) (n : Nat) (src : Bytes) : (unpackSlice t n src).safe := by
  induction n generalizing src with
  | zero => trivial
  | succ n ih =>
    rw [unpackSlice]
    refine Res.safe_bind (Res.safe_bind (unpackFields_safe t _) fun _ _ => trivial) fun a _ => ?_
    refine Res.safe_bind (safe_ite (safe_ite trivial trivial) trivial) fun b _ => ?_
    exact Res.safe_bind (ih _) fun _ _ => trivial

/-- C92 for slices of structures: the same. -/
theorem C92_structs (t : Ty) (n : Nat) (ioi : Ioi) (replies : List Reply) :
    (ReadStruct.readStructs t n ioi replies).1.safe := by
  unfold ReadStruct.readStructs
  refine Res.safe_bind (Res.safe_bind (C26_read_partial ioi tStruct _ replies (.inl (by decide))) fun v _ =>
    asBytes_safe v) fun b _ => ?_
  exact Res.safe_bind (unpackSlice_safe t n b) fun _ _ => trivial

/-! ### Connecting -/

theorem forwardOpen_panic_iff (x : Res Reply) :
    forwardOpenReply x = .panic ↔ x = .panic ∨ ∃ r, x = .ok r ∧ r.status = 0 ∧ FewItems r.payload := by
  unfold forwardOpenReply
  cases x with
  | panic => simp
  | err e => simp
  | ok r =>
    rw [Res.bind_ok, bind_panic_iff, (C26_crash_iff 0 r).2.2.2.2]
    · simp
    · intro d _
      exact Res.safe_bind (readN_safe _ _) fun _ _ => Res.safe_bind (readBV_safe _ _) fun _ _ => trivial

/-- C92 for opening a connection: it crashes only if an answer has the status zero and fewer than two items; such an
answer to the large request crashes every client that sends one. -/
theorem C92_open_partial (c : Cfg) (large standard : Res Reply) (h1 : large.safe) (h2 : standard.safe) :
    ((openConnection c large standard).2.2 = .panic →
      ∃ r, (large = .ok r ∨ standard = .ok r) ∧ r.status = 0 ∧ FewItems r.payload) ∧
    (c.size = 0 ∨ 511 < c.size.toNat → (∃ r, large = .ok r ∧ r.status = 0 ∧ FewItems r.payload) →
      (openConnection c large standard).2.2 = .panic) := by
  have np : ∀ {x : Res Reply}, x.safe → forwardOpenReply x = .panic → ∃ r, x = .ok r ∧ r.status = 0 ∧ FewItems r.payload := by
    intro x hx h
    rcases (forwardOpen_panic_iff x).mp h with h | h
    · rw [h] at hx; exact absurd hx (by simp)
    · exact h
  constructor
  · intro h
    refine Classical.byContradiction fun hn => ?_
    have hl : forwardOpenReply large ≠ .panic := fun hp => by
      obtain ⟨r, hr, h⟩ := np h1 hp
      exact hn ⟨r, .inl hr, h⟩
    have hs : forwardOpenReply standard ≠ .panic := fun hp => by
      obtain ⟨r, hr, h⟩ := np h2 hp
      exact hn ⟨r, .inr hr, h⟩
    unfold openConnection at h
    simp only at h
    generalize (if c.size = 0#16 then { c with size := 4000#16 } else c) = c at h
    cases e1 : forwardOpenReply large with
    | panic => exact hl e1
    | ok ot =>
      cases e2 : forwardOpenReply standard with
      | panic => exact hs e2
      | ok ot2 => simp only [e1, e2] at h; repeat' split at h <;> simp_all
      | err e => simp only [e1, e2] at h; repeat' split at h <;> simp_all
    | err e =>
      cases e2 : forwardOpenReply standard with
      | panic => exact hs e2
      | ok ot2 => simp only [e1, e2] at h; repeat' split at h <;> simp_all
      | err e => simp only [e1, e2] at h; repeat' split at h <;> simp_all
  · intro hc hr
    have hp := (forwardOpen_panic_iff large).mpr (.inr hr)
    unfold openConnection
    simp only
    have hsz : 511 < (if c.size = 0#16 then { c with size := 4000#16 } else c : Cfg).size.toNat := by
      by_cases h0 : c.size = 0#16
      · rw [if_pos h0]; simp
      · rw [if_neg h0]; exact hc.resolve_left h0
    rw [if_pos hsz, hp]
    rfl

/-- A reply with one item crashes the listing of the tags, and with a matching one an error or a value comes back. -/
example : (allTags ⟨fun _ _ => .ok ⟨0, [0, 0, 0, 0, 0, 0, 1, 0, 0xB1, 0, 2, 0, 7, 7]⟩, fun _ => 0, id⟩ 5 1 ⟨[], [], 0⟩) =
      some (.panic, ⟨[], [], 1⟩) ∧
    FewItems [0, 0, 0, 0, 0, 0, 1, 0, 0xB1, 0, 2, 0, 7, 7] ∧ ¬ FewItems [0, 0, 0, 0, 0, 0, 2, 0, 0xB1, 0, 2, 0, 7, 7] := by
  refine ⟨by decide +kernel, ⟨[0, 0, 0, 0, 0, 0], [(0xB1, [7, 7])], [], rfl, by decide, by decide, rfl⟩, fun h => ?_⟩
  exact absurd ((few_iff _).mp h).2 (by decide)

end Gologix
