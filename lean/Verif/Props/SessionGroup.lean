import Verif.Model.SessionGroup
import Verif.Props.SessionPut
import Verif.Props.TagGroupRead
import Verif.Props.DataVars
set_option linter.unusedSimpArgs false
/-
C117: a group of tags is read from a server.
-/
namespace Gologix.Session
open Gologix Gologix.Spec Gologix.Server Gologix.Server.Spec Gologix.Connect Gologix.Connect.Spec Gologix.Session.Spec

/-- The contents of a result for what is in a memory. -/
def groupValue : RV → MVal
  | .one v => .one v
  | .many vs => .anys vs

theorem zero_asked {d : TagDef} {T : GoTy} {t : MTag} (h : DefAsked d T t)
    (ha : 1 < d.elements → d.typ ≠ tBOOL ∧ d.typ ≠ tWORD) : Asked (zeroValue d) t := by
  rw [defAsked_request h ha]
  obtain ⟨ht, -, -, -⟩ := h
  unfold TagDef.request MVal.request zeroValue
  by_cases hn : 1 < d.elements
  · obtain ⟨hb, hw⟩ := ha hn
    have hz : zeroType d.typ true = T ∧ T ≠ .bool := by
      generalize d.typ = c at ht hb hw
      cases ht <;> first | exact absurd rfl hb | exact absurd rfl hw | exact ⟨rfl, by decide⟩
    simp only [if_pos hn, hz.1]
    generalize List.replicate d.elements.toNat T.zero = xs
    by_cases hs : T = .str
    · subst hs; exact .texts xs _
    · simp only [MVal.cipType, MVal.dest, if_neg hz.2, if_neg hs]
      exact .numbers T xs _ hz.2 hs
  · have hz : zeroType d.typ false = T := by
      generalize d.typ = c at ht
      cases ht <;> rfl
    simp only [if_neg hn, hz]
    generalize t.ioi = io
    by_cases hs : T = .str
    · subst hs; exact .text [] io
    · have hn := Asked.number T.zero T io (by cases T <;> rfl) hs
      have he : (⟨io, (MVal.one T.zero).cipType.1, (MVal.one T.zero).cipType.2, (MVal.one T.zero).dest⟩ : MTag) =
          ⟨io, cipOfGo T, 1, .sized T.zero.encode.length⟩ := by
        cases T <;> first | rfl | exact absurd rfl hs
      rw [he]
      exact hn

theorem sees_put {m : Memory} {a : Ask} {v : RV} (h : Sees m a v) (hh : ∀ n T vs, m n = some (.many T vs) → ∀ y ∈ vs, y.ty = some T)
    (old : MVal) : Put old v (groupValue v) := by
  cases h with
  | one _ _ hT => exact .one old _ _ hT
  | element _ hm hi => exact .one old _ _ (hh _ _ _ hm _ (List.mem_of_getElem? hi))
  | many => exact .many old _
  | «from» => exact .many old _

/-- **C117.**  A client connected to a server reads a group of tags, with the arguments filled in: the result has, for every definition
and under its name, what the server has there, and no other names; the session goes on.  The names are distinct, the server has
values of the types defined and at least as many elements; arrays are not of BOOL or WORD. -/
theorem C117_values_partial (C : Conv) (s : Settings) (k : Conn) (ep conn : Nat) (hconn : conn ≤ 4002) (seq : Nat → BitVec 16)
    (m : Memory) (fuel i : Nat) (y : Sys) (ioi : Str → Byte → Res Ioi) (ord : List (Str × MVal) → List (Str × MVal))
    (hord : ∀ l, (ord l).Perm l) (defs : List TagDef) (args : List Str) (ask : TagDef → Ask) (req : TagDef → MTag)
    (got : TagDef → RV) (hj : Joined s k ep y m)
    (hn : (defs.map fun d => formatName d.name args).Nodup)
    (hd : ∀ d ∈ defs, DefAsked d (ask d).T (req d) ∧ (1 < d.elements → d.typ ≠ tBOOL ∧ d.typ ≠ tWORD) ∧
      render (ask d).tag = formatName d.name args ∧ ioi (formatName d.name args) (req d).typ = .ok (req d).ioi ∧
      AsksFor (ask d) (req d) ∧ Sees m (ask d) (got d))
    (hfit : ∀ d ∈ defs, (req d).entry.length + 6 ≤ conn) (hsz : ∀ d ∈ defs, goSize (ask d).T * (ask d).n ≤ 65000)
    (hf : defs.length + 1 ≤ fuel) :
    ∃ r i' y', groupOver C s conn seq fuel i y ioi ord defs args = some (.ok r, i', y') ∧ Joined s k ep y' m ∧
      (∀ d ∈ defs, r.value (formatName d.name args) = .ok (groupValue (got d))) ∧
      ∀ name v, r.value name = .ok v → ∃ d ∈ defs, name = formatName d.name args := by
  have hty : ∀ n T vs, m n = some (.many T vs) → ∀ y ∈ vs, y.ty = some T := by
    obtain ⟨-, tags, -, hh⟩ := hj
    intro n T vs h y hy
    exact ((hh n _ h).2 y hy).1
  have h1 : groupMap args defs = defs.map fun d => (formatName d.name args, zeroValue d) := by
    rw [groupMap_puts, puts_fresh (by rw [List.nil_append, List.map_map]; exact hn)]
    rfl
  obtain ⟨ds, e1, hp⟩ := perm_of_map (fun d : TagDef => (formatName d.name args, zeroValue d)) (hord (groupMap args defs)) defs h1
  have hm : ∀ d, d ∈ ds ↔ d ∈ defs := fun d => hp.mem_iff
  obtain ⟨i', y', e2, hj'⟩ := map_over C s k ep conn hconn seq m fuel i y ioi ds (fun d => (formatName d.name args, zeroValue d))
    ask req got (fun d => groupValue (got d)) hj (by
      intro d h
      obtain ⟨a1, a2, a3, a4, a5, a6⟩ := hd d ((hm d).1 h)
      exact ⟨zero_asked a1 a2, a4, a5, a6, sees_put a6 hty _⟩)
    (fun d h => hfit d ((hm d).1 h)) (fun d h => hsz d ((hm d).1 h)) (by rw [hp.length_eq]; exact hf)
  refine ⟨_, i', y', by rw [groupOver, e1, e2], hj', ?_, ?_⟩
  · intro d h
    unfold GroupResult.value
    rw [lookup_of_mem (v := groupValue (got d)) (by
      rw [List.map_map]
      exact (hp.map fun d => formatName d.name args).nodup_iff.mpr hn)
      (List.mem_map.mpr ⟨d, (hm d).2 h, rfl⟩)]
  · intro name v h
    obtain ⟨d, h1, h2⟩ := List.mem_map.mp (assoc_mem (value_lookup h))
    exact ⟨d, (hm d).1 h1, (congrArg Prod.fst h2).symm⟩

/-- **C117, in their types.**  What the server has is handed out by the accessor of its type. -/
theorem C117_accessors (r : GroupResult) (name : Str) (v : RV) (h : r.value name = .ok (groupValue v)) :
    (∀ x, v = .one (.str x) → r.string name = .ok x) ∧ (∀ x, v = .one (.bool x) → r.bool name = .ok x) ∧
    (∀ x, v = .one (.i16 x) → r.int16 name = .ok x) ∧ (∀ x, v = .one (.i32 x) → r.int32 name = .ok x) ∧
    (∀ x, v = .one (.u32 x) → r.uint32 name = .ok x) ∧ (∀ x, v = .one (.f32 x) → r.float32 name = .ok x) ∧
    (∀ x, v = .one (.f64 x) → r.float64 name = .ok x) ∧ (∀ xs, v = .many (xs.map .i32) → r.int32Slice name = .ok xs) ∧
    ∀ xs, v = .many (xs.map .f32) → r.float32Slice name = .ok xs := by
  have hl := value_lookup h
  refine ⟨?_, ?_, ?_, ?_, ?_, ?_, ?_, ?_, ?_⟩ <;> intro x hx <;> subst hx <;> simp only [groupValue] at hl
  · simp only [GroupResult.string, hl]
  · simp only [GroupResult.bool, hl]
  · simp only [GroupResult.int16, hl]
  · simp only [GroupResult.int32, hl]
  · simp only [GroupResult.uint32, hl]
  · simp only [GroupResult.float32, hl]
  · simp only [GroupResult.float64, hl]
  · simp only [GroupResult.int32Slice, hl]
    exact elemsAs_map asI32 .i32 (fun _ => rfl) x
  · simp only [GroupResult.float32Slice, hl]
    exact elemsAs_map asF32 .f32 (fun _ => rfl) x

/-! ### What fails -/

/-- **C117, what fails.**  One array of the server that is shorter than defined leaves the whole group unread and ends the connection. -/
theorem C117_short_ends : ∃ (C : Conv) (s : Settings) (y : Sys) (k : Conn) (ep : Nat) (m : Memory), Joined s k ep y m ∧
    m (str "count") = some (.one (.i32 5#32)) ∧ (∃ a b c, m (str "arr") = some (.many .i32 [a, b, c])) ∧
    ((groupOver C s 4002 (BitVec.ofNat 16) 4 0 y demoPaths id [⟨str "count", tDINT, 1⟩, ⟨str "arr", tDINT, 4⟩] []).map
      fun r => (r.1, r.2.2.up)) = some (.err .eof, false) := by
  obtain ⟨k, hk⟩ := demo_joined
  exact ⟨demoConv, demoOn, demoSys, k, 0, demoMemory, hk, if_pos (by decide),
    ⟨_, _, _, (if_neg (by decide)).trans (if_pos (by decide))⟩, by decide +kernel⟩

/-- **C117, what fails.**  A tag that is not of the type defined is no error: the result has the value in the server's type, and the
accessor of the type defined fails. -/
theorem C117_other_type : ∃ (C : Conv) (s : Settings) (y : Sys) (k : Conn) (ep : Nat) (m : Memory) (r : GroupResult), Joined s k ep y m ∧
    m (str "count") = some (.one (.i32 5#32)) ∧
    ((groupOver C s 4002 (BitVec.ofNat 16) 4 0 y demoPaths id [⟨str "count", tINT, 1⟩] []).map Prod.fst) = some (.ok r) ∧
    r.value (str "count") = .ok (.one (.i32 5#32)) ∧ r.int16 (str "count") = .err .fail := by
  obtain ⟨k, hk⟩ := demo_joined
  exact ⟨demoConv, demoOn, demoSys, k, 0, demoMemory, [(str "count", .one (.i32 5#32))], hk, if_pos (by decide),
    by decide +kernel, by decide +kernel, by decide +kernel⟩

/-! ### Examples -/

/-- A group with an argument, read from the demo server in the other order. -/
example : (groupOver demoConv demoJoined.1 4002 (BitVec.ofNat 16) 4 0 demoJoined.2 demoPaths List.reverse
    [⟨str "count", tDINT, 1⟩, ⟨str "{0}[1]", tDINT, 2⟩] [str "arr"]).map Prod.fst =
    some (.ok [(str "arr[1]", .anys [.i32 2#32, .i32 3#32]), (str "count", .one (.i32 5#32))]) := by
  decide +kernel

end Gologix.Session
