import Verif.Props.SessionBits
set_option linter.unusedSimpArgs false
set_option linter.unusedTactic false
set_option linter.unreachableTactic false
/-
C119: bits of tags of a server in `ReadList`.
-/
namespace Gologix.Session
open Gologix Gologix.Spec Gologix.Server Gologix.Server.Spec Gologix.Connect Gologix.Connect.Spec Gologix.Session.Spec

/-- What one entry of a list asks for: values of a tag, or bit `n` of the number of type `T` a tag has. -/
inductive Want where
  | all (a : Ask)
  | bit (tag : List Part) (T : GoTy) (n : Nat)

/-- What is read for it. -/
def Want.ask : Want → Ask
  | .all a => a
  | .bit tag T _ => ⟨tag, T, 1⟩

/-- What is in a memory where the entry asks.  A bit is one inside the number. -/
inductive SeesWant (m : Memory) : Want → RV → Prop
  | all {a : Ask} {v : RV} (h : Sees m a v) : SeesWant m (.all a) v
  | bit {tag : List Part} {T : GoTy} {n : Nat} {v : Scal} {z : Int} (h : Sees m ⟨tag, T, 1⟩ (.one v))
      (hz : Gologix.Spec.intVal v = some z) (hT : v.ty = some T) (hs : T ≠ .i8) (hn : n < 8 * goSize T) :
      SeesWant m (.bit tag T n) (.one (.bool (bitOf z n)))

/-- What the client makes of bit `n` of a number of type `T`: outside the number false, of a SINT nothing, with no error. -/
def gotBit (T : GoTy) (z : Int) (n : Nat) : RV :=
  if 8 * goSize T ≤ n then .one (.bool false) else if T = .i8 then .one .nil else .one (.bool (bitOf z n))

/-- What the client gets where the entry asks, inside the number or not and whatever integer type it is of. -/
inductive GetsWant (m : Memory) : Want → RV → Prop
  | all {a : Ask} {v : RV} (h : Sees m a v) : GetsWant m (.all a) v
  | bit {tag : List Part} {T : GoTy} {n : Nat} {v : Scal} {z : Int} (h : Sees m ⟨tag, T, 1⟩ (.one v))
      (hz : Gologix.Spec.intVal v = some z) (hT : v.ty = some T) : GetsWant m (.bit tag T n) (gotBit T z n)

/-- `t` is what `ReadList` makes of the entry. -/
inductive AsksWant : Want → MTag → Prop
  | all {a : Ask} {t : MTag} (h : AsksFor a t) : AsksWant (.all a) t
  | bit {tag : List Part} {T : GoTy} {n : Nat} {t : MTag} (hp : BitPath tag n t.ioi) (ht : t.typ = tBOOL) (he : t.elements = 1) :
      AsksWant (.bit tag T n) t

theorem ioiPart_typ (i : Ioi) (p : Str) (dt : Byte) :
    ioiPart { i with typ := dt } p = (ioiPart i p >>= fun j => .ok { j with typ := dt }) := by
  unfold ioiPart
  by_cases h1 : p.getLast? = some 0x5D#8
  · rw [if_pos h1, if_pos h1]
    cases indexOf 0x5B#8 p with
    | none => rfl
    | some k => simp only; cases marshalIOIPart (p.take k) <;> rfl
  · rw [if_neg h1, if_neg h1]
    simp only
    by_cases h2 : (atoi p).isOk ∧ (atoi p).val ≤ 31
    · rw [if_pos h2, if_pos h2]; rfl
    · rw [if_neg h2, if_neg h2]
      cases marshalIOIPart p <;> rfl

theorem ioiParts_typ (dt : Byte) : ∀ (ps : List Str) (i : Ioi),
    ioiParts { i with typ := dt } ps = (ioiParts i ps >>= fun j => .ok { j with typ := dt })
  | [], i => rfl
  | p :: ps, i => by
    simp only [ioiParts]
    rw [ioiPart_typ]
    cases h : ioiPart i p with
    | ok j => simp only [Res.bind_ok]; exact ioiParts_typ dt ps j
    | err e => rfl
    | panic => rfl

/-- The path of a tag does not depend on the type asked for. -/
theorem clientPath_typ {tag : List Part} {dt : Byte} {i : Ioi} (h : ClientPath tag dt i) (dt' : Byte) :
    ClientPath tag dt' { i with typ := dt' } := by
  obtain ⟨hw, db, h1, h2⟩ := h
  refine ⟨hw, ⟨0, fun _ => none⟩, .inl (Nat.zero_le _), ?_⟩
  rw [newIOI_symbolic h1] at h2
  rw [newIOI_symbolic (.inl (Nat.zero_le _))]
  unfold symbolicIOI at *
  have := ioiParts_typ dt' (splitOn 0x2E#8 (toLower (render tag)))
    { path := toLower (render tag), typ := dt, bitAccess := false, bitPosition := 0, buffer := [] }
  simp only [h2, Res.bind_ok] at this
  exact this

/-- `t` sends what `t'` sends, and makes `v` of what `t'` makes `v'` of. -/
def Half (t t' : MTag) (v v' : RV) : Prop :=
  t.entry = t'.entry ∧ ∀ typ d, multiValue t' typ d = .ok v' → multiValue t typ d = .ok v

inductive Halves : List MTag → List MTag → List RV → List RV → Prop
  | nil : Halves [] [] [] []
  | cons {t t' : MTag} {v v' : RV} {ts ts' : List MTag} {vs vs' : List RV} (h : Half t t' v v') (hs : Halves ts ts' vs vs') :
      Halves (t :: ts) (t' :: ts') (v :: vs) (v' :: vs')

theorem halves_entries {ts ts' : List MTag} {vs vs' : List RV} (h : Halves ts ts' vs vs') :
    ts.map MTag.entry = ts'.map MTag.entry := by
  induction h with
  | nil => rfl
  | cons h _ ih => simp [h.1, ih]

theorem half_entry {t t' : MTag} {v v' : RV} (h : Half t t' v v') (rb : Bytes) (off : BitVec 16)
    (hr : multiEntry (some t') rb off = .ok v') : multiEntry (some t) rb off = .ok v := by
  unfold multiEntry at *
  simp only at *
  by_cases h1 : rb.length < (off + 10#16).toNat
  · rw [if_pos h1] at hr; cases hr
  · rw [if_neg h1] at hr ⊢
    cases h2 : readN 6 (rb.drop (off + 10#16).toNat) with
    | err e => rw [h2] at hr; cases hr
    | panic => rw [h2] at hr; cases hr
    | ok p =>
      rw [h2] at hr
      simp only [Res.bind_ok] at hr ⊢
      by_cases h3 : p.1.getD 0 0#8 &&& 0x80#8 = 0#8
      · rw [if_pos h3] at hr; cases hr
      · rw [if_neg h3] at hr ⊢
        by_cases h4 : unle ((p.1.drop 2).take 2) ≠ 0
        · rw [if_pos h4] at hr; cases hr
        · rw [if_neg h4] at hr ⊢
          exact h.2 _ _ hr

theorem halves_values (rb : Bytes) {ts ts' : List MTag} {vs vs' : List RV} (h : Halves ts ts' vs vs') :
    ∀ offs, multiEntries rb ts' offs = .ok vs' → multiEntries rb ts offs = .ok vs := by
  induction h with
  | nil =>
    intro offs hr
    exact hr
  | cons h hs ih =>
    intro offs hr
    cases offs with
    | nil => cases hr
    | cons off offs =>
      simp only [multiEntries, List.head?_cons, List.tail_cons] at hr ⊢
      rename_i t t' v v' ts ts' vs vs'
      cases h1 : multiEntry (some t') rb off with
      | err e => rw [h1] at hr; cases hr
      | panic => rw [h1] at hr; cases hr
      | ok x =>
        rw [h1] at hr
        simp only [Res.bind_ok] at hr
        cases h2 : multiEntries rb ts' offs with
        | err e => rw [h2] at hr; cases hr
        | panic => rw [h2] at hr; cases hr
        | ok xs =>
          rw [h2] at hr
          simp only [Res.bind_ok] at hr
          cases hr
          rw [half_entry h rb off h1]
          simp only [Res.bind_ok]
          rw [ih offs h2]
          rfl

theorem halves_reply {ts ts' : List MTag} {vs vs' : List RV} (h : Halves ts ts' vs vs') (r : Reply)
    (hr : multiReply ts' r = .ok vs') : multiReply ts r = .ok vs := by
  unfold multiReply at *
  by_cases h0 : r.status ≠ 0
  · rw [if_pos h0] at hr; cases hr
  · rw [if_neg h0] at hr ⊢
    simp only [Res.bind_eq_ok] at hr ⊢
    obtain ⟨it, e0, x1, e1, x2, e2, x3, e3, x4, e4, hr⟩ := hr
    refine ⟨it, e0, x1, e1, x2, e2, x3, e3, x4, e4, ?_⟩
    by_cases h1 : x4.1 ≠ 0
    · rw [if_pos h1] at hr; cases hr
    · rw [if_neg h1] at hr ⊢
      simp only [Res.bind_eq_ok] at hr ⊢
      obtain ⟨x5, e5, x6, e6, hr⟩ := hr
      exact ⟨x5, e5, x6, e6, halves_values _ h _ hr⟩

/-- The type of what is read. -/
theorem read_width {typ : Byte} {d rest : Bytes} {v : Scal} {T : GoTy} {z : Int} (h : readValue typ d = .ok (v, rest))
    (hz : Gologix.Spec.intVal v = some z) (hT : v.ty = some T) :
    intWidth typ = some (8 * goSize T) ∧ (T = .i8 ↔ typ = tSINT) ∧ typ ≠ tBOOL := by
  unfold readValue at h
  by_cases etUnknown : typ = tUnknown
  · rw [if_pos etUnknown] at h; cases h
  rw [if_neg etUnknown] at h
  by_cases etStruct : typ = tStruct
  · rw [if_pos etStruct] at h; cases h
  rw [if_neg etStruct] at h
  by_cases etBOOL : typ = tBOOL
  · rw [if_pos etBOOL] at h
    simp only [Res.bind_eq_ok] at h
    obtain ⟨x, -, h⟩ := h
    cases h
    first | (cases hz; done) | (cases hT; (subst etBOOL; exact ⟨by decide, by decide, by decide⟩))
  rw [if_neg etBOOL] at h
  by_cases etBYTE : typ = tBYTE
  · rw [if_pos etBYTE] at h
    simp only [Res.bind_eq_ok] at h
    obtain ⟨x, -, h⟩ := h
    cases h
    first | (cases hz; done) | (cases hT; (subst etBYTE; exact ⟨by decide, by decide, by decide⟩))
  rw [if_neg etBYTE] at h
  by_cases etSINT : typ = tSINT
  · rw [if_pos etSINT] at h
    simp only [Res.bind_eq_ok] at h
    obtain ⟨x, -, h⟩ := h
    cases h
    first | (cases hz; done) | (cases hT; (subst etSINT; exact ⟨by decide, by decide, by decide⟩))
  rw [if_neg etSINT] at h
  by_cases etINT : typ = tINT
  · rw [if_pos etINT] at h
    simp only [Res.bind_eq_ok] at h
    obtain ⟨x, -, h⟩ := h
    cases h
    first | (cases hz; done) | (cases hT; (subst etINT; exact ⟨by decide, by decide, by decide⟩))
  rw [if_neg etINT] at h
  by_cases etDINT : typ = tDINT
  · rw [if_pos etDINT] at h
    simp only [Res.bind_eq_ok] at h
    obtain ⟨x, -, h⟩ := h
    cases h
    first | (cases hz; done) | (cases hT; (subst etDINT; exact ⟨by decide, by decide, by decide⟩))
  rw [if_neg etDINT] at h
  by_cases etLINT : typ = tLINT
  · rw [if_pos etLINT] at h
    simp only [Res.bind_eq_ok] at h
    obtain ⟨x, -, h⟩ := h
    cases h
    first | (cases hz; done) | (cases hT; (subst etLINT; exact ⟨by decide, by decide, by decide⟩))
  rw [if_neg etLINT] at h
  by_cases etUSINT : typ = tUSINT
  · rw [if_pos etUSINT] at h
    simp only [Res.bind_eq_ok] at h
    obtain ⟨x, -, h⟩ := h
    cases h
    first | (cases hz; done) | (cases hT; (subst etUSINT; exact ⟨by decide, by decide, by decide⟩))
  rw [if_neg etUSINT] at h
  by_cases etUINT : typ = tUINT
  · rw [if_pos etUINT] at h
    simp only [Res.bind_eq_ok] at h
    obtain ⟨x, -, h⟩ := h
    cases h
    first | (cases hz; done) | (cases hT; (subst etUINT; exact ⟨by decide, by decide, by decide⟩))
  rw [if_neg etUINT] at h
  by_cases etUDINT : typ = tUDINT
  · rw [if_pos etUDINT] at h
    simp only [Res.bind_eq_ok] at h
    obtain ⟨x, -, h⟩ := h
    cases h
    first | (cases hz; done) | (cases hT; (subst etUDINT; exact ⟨by decide, by decide, by decide⟩))
  rw [if_neg etUDINT] at h
  by_cases etLWORD : typ = tLWORD
  · rw [if_pos etLWORD] at h
    simp only [Res.bind_eq_ok] at h
    obtain ⟨x, -, h⟩ := h
    cases h
    first | (cases hz; done) | (cases hT; (subst etLWORD; exact ⟨by decide, by decide, by decide⟩))
  rw [if_neg etLWORD] at h
  by_cases etREAL : typ = tREAL
  · rw [if_pos etREAL] at h
    simp only [Res.bind_eq_ok] at h
    obtain ⟨x, -, h⟩ := h
    cases h
    first | (cases hz; done) | (cases hT; (subst etREAL; exact ⟨by decide, by decide, by decide⟩))
  rw [if_neg etREAL] at h
  by_cases etLREAL : typ = tLREAL
  · rw [if_pos etLREAL] at h
    simp only [Res.bind_eq_ok] at h
    obtain ⟨x, -, h⟩ := h
    cases h
    first | (cases hz; done) | (cases hT; (subst etLREAL; exact ⟨by decide, by decide, by decide⟩))
  rw [if_neg etLREAL] at h
  by_cases etWORD : typ = tWORD
  · rw [if_pos etWORD] at h
    simp only [Res.bind_eq_ok] at h
    obtain ⟨x, -, h⟩ := h
    cases h
    first | (cases hz; done) | (cases hT; (subst etWORD; exact ⟨by decide, by decide, by decide⟩))
  rw [if_neg etWORD] at h
  by_cases etDWORD : typ = tDWORD
  · rw [if_pos etDWORD] at h
    simp only [Res.bind_eq_ok] at h
    obtain ⟨x, -, h⟩ := h
    cases h
    first | (cases hz; done) | (cases hT; (subst etDWORD; exact ⟨by decide, by decide, by decide⟩))
  rw [if_neg etDWORD] at h
  by_cases etSTRING : typ = tSTRING
  · rw [if_pos etSTRING] at h
    simp only [Res.bind_eq_ok] at h
    obtain ⟨x, -, h⟩ := h
    cases h
    first | (cases hz; done) | (cases hT; (subst etSTRING; exact ⟨by decide, by decide, by decide⟩))
  rw [if_neg etSTRING] at h
  cases h

theorem bit_half {tag : List Part} {T : GoTy} {n : Nat} {t : MTag} {v : Scal} {z : Int} (hp : BitPath tag n t.ioi)
    (ht : t.typ = tBOOL) (he : t.elements = 1) (hz : Gologix.Spec.intVal v = some z) (hT : v.ty = some T) :
    ∃ t', AsksFor ⟨tag, T, 1⟩ t' ∧ Half t t' (gotBit T z n) (.one v) := by
  obtain ⟨i, g1, g2, g3, g4⟩ := bitPath_of hp
  have hc : cipOfGo T ≠ tBOOL ∧ cipOfGo T ≠ tSTRING ∧ T ≠ .str ∧ T ≠ .bool := by
    cases v <;> cases hz <;> cases hT <;> exact ⟨by decide, by decide, by decide, by decide⟩
  obtain ⟨c1, c2, c3, c4⟩ := hc
  refine ⟨⟨{ i with typ := cipOfGo T }, cipOfGo T, 1, .untyped⟩,
    ⟨clientPath_typ g1 _, rfl, .inr c1, rfl, (show 1 < 32768 by decide), (show safeCount 1 by decide), fun h => rfl⟩, ?_, fun typ d h => ?_⟩
  · simp only [MTag.entry, g2, he]
  · unfold multiValue at h ⊢
    rw [if_pos rfl, if_neg (fun e => c1 e.1), if_neg c2] at h
    by_cases hst : typ = tStruct
    · rw [if_pos hst] at h
      simp only [Res.bind_eq_ok] at h
      obtain ⟨x, -, h⟩ := h
      cases h
      cases hT
    · rw [if_neg hst] at h
      simp only [Res.bind_eq_ok] at h
      obtain ⟨x, hx, h⟩ := h
      cases h
      obtain ⟨x1, x2⟩ := x
      obtain ⟨w1, w2, w3⟩ := read_width hx hz hT
      rw [if_pos he, if_pos ⟨ht, w3, g3⟩, hx]
      simp only [Res.bind_ok, g4, gotBit]
      by_cases hn : 8 * goSize T ≤ n
      · rw [if_pos hn, C12_out_of_range_silent w1 x1 hn]
      · rw [if_neg hn]
        by_cases hs : T = .i8
        · have e := w2.1 hs
          subst e
          rw [if_pos hs, C12_sint_refused _ _ _ hx n (by subst hs; simpa [goSize] using hn)]
        · obtain ⟨z', k1, k2⟩ := C12_bit_of_value_partial w1 (fun e => hs (w2.2 e)) hx (Nat.lt_of_not_le hn)
          rw [hz] at k1
          cases k1
          rw [if_neg hs, k2]

theorem all_halves {m : Memory} : ∀ (ws : List Want) (ts : List MTag) (vs : List RV), ts.length = ws.length → vs.length = ws.length →
    (∀ (i : Nat) w t, ws[i]? = some w → ts[i]? = some t → AsksWant w t) →
    (∀ (i : Nat) w v, ws[i]? = some w → vs[i]? = some v → GetsWant m w v) →
    ∃ (ts' : List MTag) (vs' : List RV), ts'.length = ws.length ∧ vs'.length = ws.length ∧ Halves ts ts' vs vs' ∧
      (∀ (i : Nat) a t, (ws.map Want.ask)[i]? = some a → ts'[i]? = some t → AsksFor a t) ∧
      ∀ (i : Nat) a v, (ws.map Want.ask)[i]? = some a → vs'[i]? = some v → Sees m a v
  | [], [], [], _, _, _, _ => ⟨[], [], rfl, rfl, .nil, by simp, by simp⟩
  | w :: ws, t :: ts, v :: vs, hl, hl', ha, hs => by
    obtain ⟨ts', vs', h1, h2, h3, h4, h5⟩ := all_halves ws ts vs (by simpa using hl) (by simpa using hl')
      (fun i a t h h' => ha (i + 1) a t (by simpa using h) (by simpa using h'))
      (fun i a v h h' => hs (i + 1) a v (by simpa using h) (by simpa using h'))
    have key : ∃ t' v', Half t t' v v' ∧ AsksFor w.ask t' ∧ Sees m w.ask v' := by
      have a0 := ha 0 w t rfl rfl
      have s0 := hs 0 w v rfl rfl
      cases a0 with
      | all h =>
        cases s0 with
        | all h' => exact ⟨t, v, ⟨rfl, fun _ _ h => h⟩, h, h'⟩
      | bit hp ht he =>
        cases s0 with
        | bit h hz hT =>
          obtain ⟨t', k1, k2⟩ := bit_half hp ht he hz hT
          exact ⟨t', _, k2, k1, h⟩
    obtain ⟨t', v', k1, k2, k3⟩ := key
    refine ⟨t' :: ts', v' :: vs', by simp [h1], by simp [h2], .cons k1 h3, fun i a t ha ht => ?_, fun i a v ha hv => ?_⟩
    · cases i with
      | zero => cases ha; cases ht; exact k2
      | succ i => exact h4 i a t (by simpa using ha) (by simpa using ht)
    · cases i with
      | zero => cases ha; cases hv; exact k3
      | succ i => exact h5 i a v (by simpa using ha) (by simpa using hv)

/-- **C119, several at once, exactly.**  A client that reads a list of values and bits of tags of a server gets for every entry what is
there, but for bits outside the number, which are false, and for bits of a SINT, which are nil; there is no error, and the
session goes on. -/
theorem C119_several_exact (C : Conv) (s : Settings) (k : Conn) (ep : Nat) (y : Sys) (m : Memory) (ws : List Want)
    (ts : List MTag) (vs : List RV) (seq : BitVec 16) (hj : Joined s k ep y m) (hlen : ts.length = ws.length)
    (ha : ∀ (i : Nat) w t, ws[i]? = some w → ts[i]? = some t → AsksWant w t) (hlen' : vs.length = ws.length)
    (hs : ∀ (i : Nat) w v, ws[i]? = some w → vs[i]? = some v → GetsWant m w v)
    (hl : (readListBytes seq ts).length ≤ 32768) (hl' : (ws.map fun w => 10 + goSize w.ask.T * w.ask.n).sum ≤ 65500) :
    ∃ y', perform C s y (.several seq ts) = (.ok (.several vs), y') ∧ Joined s k ep y' m := by
  obtain ⟨hq, tags, hsv, hh⟩ := hj
  obtain ⟨ts', vs', h1, h2, h3, h4, h5⟩ := all_halves ws ts vs hlen hlen' ha hs
  have hb : readListBytes seq ts = readListBytes seq ts' := by unfold readListBytes; rw [halves_entries h3]
  have hmk : Makes (.readSeveral (ws.map Want.ask)) (.several seq ts') :=
    .readSeveral seq (by simpa using h1) h4 (by rw [← hb]; exact hl) (by simpa [Function.comp_def] using hl')
  have hd : Does m (.readSeveral (ws.map Want.ask)) (.several vs') m := .readSeveral (by simpa using h2) h5
  obtain ⟨y', tags', e1, e2, e3, e4, e5, e6⟩ := call_does C hq hsv hh hmk hd
  refine ⟨y', ?_, e2, tags', e5, e6⟩
  simp only [perform] at e1 ⊢
  rw [hb]
  cases hx : exchange C y (connectedFrame s (readListBytes seq ts')) with
  | mk r y1 =>
    rw [hx] at e1
    simp only [Prod.mk.injEq, Res.bind_eq_ok] at e1
    obtain ⟨⟨a, rfl, vs1, g1, g2⟩, rfl⟩ := e1
    cases g2
    simp only [Res.bind_ok, halves_reply h3 _ g1]

/-- Inside a number that is no SINT the client gets the bit. -/
theorem sees_gets {m : Memory} {w : Want} {v : RV} (h : SeesWant m w v) : GetsWant m w v := by
  cases h with
  | all h => exact .all h
  | @bit tag T n x z h hz hT hs hn =>
    have := GetsWant.bit (n := n) h hz hT
    rwa [gotBit, if_neg (Nat.not_le.2 hn), if_neg hs] at this

/-- C119, several at once: a client that reads a list of values and bits of tags of a server gets for every entry what is there,
and the session goes on.  Partial as `C119_read_partial`. -/
theorem C119_several_partial (C : Conv) (s : Settings) (k : Conn) (ep : Nat) (y : Sys) (m : Memory) (ws : List Want)
    (ts : List MTag) (vs : List RV) (seq : BitVec 16) (hj : Joined s k ep y m) (hlen : ts.length = ws.length)
    (ha : ∀ (i : Nat) w t, ws[i]? = some w → ts[i]? = some t → AsksWant w t) (hlen' : vs.length = ws.length)
    (hs : ∀ (i : Nat) w v, ws[i]? = some w → vs[i]? = some v → SeesWant m w v)
    (hl : (readListBytes seq ts).length ≤ 32768) (hl' : (ws.map fun w => 10 + goSize w.ask.T * w.ask.n).sum ≤ 65500) :
    ∃ y', perform C s y (.several seq ts) = (.ok (.several vs), y') ∧ Joined s k ep y' m :=
  C119_several_exact C s k ep y m ws ts vs seq hj hlen ha hlen' (fun i w v h h' => sees_gets (hs i w v h h')) hl hl'

/-- A list with a number, a bit of it and a bit of an element. -/
example : (performAll demoConv demoJoined.1 demoJoined.2
    [.several 1#16 [⟨demoIoi "Count" tDINT, tDINT, 1, .untyped⟩, ⟨demoIoi "count.2" tBOOL, tBOOL, 1, .untyped⟩,
      ⟨demoIoi "arr[2].0" tBOOL, tBOOL, 1, .untyped⟩, ⟨demoIoi "arr[1].0" tBOOL, tBOOL, 1, .untyped⟩]]).1 =
    [.ok (.several [.one (.i32 5#32), .one (.bool true), .one (.bool true), .one (.bool false)])] := by
  decide +kernel

/-- Of a SINT of −1 bit 3 is nil and bit 9 false. -/
example : (performAll demoConv demoJoined.1 demoJoined.2
    [.write 1#16 (demoIoi "new" tSINT) (.one (.i8 255#8)),
     .several 2#16 [⟨demoIoi "new.3" tBOOL, tBOOL, 1, .untyped⟩, ⟨demoIoi "new.9" tBOOL, tBOOL, 1, .untyped⟩]]).1 =
    [.ok .done, .ok (.several [.one .nil, .one (.bool false)])] := by
  decide +kernel

end Gologix.Session
