import Verif.Model.SessionMulti
import Verif.Props.Session
import Verif.Props.ReadMulti
set_option linter.unusedSimpArgs false
/-
C114: structures and maps are filled with what a server holds.
-/
namespace Gologix.Session
open Gologix Gologix.Spec Gologix.Server Gologix.Server.Spec Gologix.Connect Gologix.Connect.Spec Gologix.Session.Spec

theorem multiDescs_all {ioi : Str → Byte → Res Ioi} (req : Str × MVal → MTag) : ∀ l : List (Str × MVal),
    (∀ e ∈ l, Asked e.2 (req e) ∧ ioi e.1 (req e).typ = .ok (req e).ioi) → multiDescs ioi l = .ok (l.map req)
  | [], _ => rfl
  | (p, v) :: l, h => by
    obtain ⟨h1, h2⟩ := h (p, v) List.mem_cons_self
    have ht := asked_request h1
    have h3 : ioi p v.cipType.1 = .ok (req (p, v)).ioi := by
      rw [ht] at h2
      exact h2
    rw [multiDescs, h3]
    simp only [multiDescs_all req l fun e he => h e (List.mem_cons_of_mem _ he), List.map_cons]
    rw [ht]
    rfl

/-- What is asked of the server, and what is there. -/
theorem answerable_map {α : Type} {m : Memory} (ask : α → Ask) (req : α → MTag) (got : α → RV) (l : List α)
    (h : ∀ x ∈ l, AsksFor (ask x) (req x) ∧ Sees m (ask x) (got x)) :
    Answerable m (l.map ask) (l.map req) (l.map got) := by
  refine ⟨by simp, by simp, fun i a t ha ht => ?_, fun i a v ha hv => ?_⟩
  · rw [List.getElem?_map] at ha ht
    cases hx : l[i]? with
    | none => rw [hx] at ha; cases ha
    | some x =>
      rw [hx] at ha ht
      cases ha; cases ht
      exact (h x (List.mem_of_getElem? hx)).1
  · rw [List.getElem?_map] at ha hv
    cases hx : l[i]? with
    | none => rw [hx] at ha; cases ha
    | some x =>
      rw [hx] at ha hv
      cases ha; cases hv
      exact (h x (List.mem_of_getElem? hx)).2

/-- **C114, structures.**  A client connected to a server fills a structure with `ReadMulti`: every tagged field gets what the server has under
its tag, with the arguments filled in, and the others stay as they were; the session goes on.  The structure has no embedded
ones, its tags are distinct, the server has values of the types of the fields, and request and reply fit a message. -/
theorem C114_fields_partial (C : Conv) (s : Settings) (k : Conn) (ep conn : Nat) (seq : Nat → BitVec 16) (m : Memory)
    (fuel i : Nat) (y : Sys) (ioi : Str → Byte → Res Ioi) (fs : List (Option Str × MVal)) (args : List Str)
    (ask : Str × Nat × MVal → Ask) (req : Str × MVal → MTag) (got : Str × Nat × MVal → RV) (val : Str → MVal)
    (hj : Joined s k ep y m)
    (hn : ((taggedOf args 0 fs).map Prod.fst).Nodup) (hne : taggedOf args 0 fs ≠ [])
    (hh : ∀ f ∈ fs, (∃ c cs, f.1 = some (c :: cs)) → f.2 ≠ .hidden)
    (hv : ∀ x ∈ taggedOf args 0 fs, render (ask x).tag = x.1 ∧ Asked x.2.2 (req (x.1, x.2.2)) ∧
      ioi x.1 (req (x.1, x.2.2)).typ = .ok (req (x.1, x.2.2)).ioi ∧ AsksFor (ask x) (req (x.1, x.2.2)) ∧
      Sees m (ask x) (got x) ∧ Stored x.2.2 (got x) (val x.1))
    (hfit : ∀ x ∈ taggedOf args 0 fs, (req (x.1, x.2.2)).entry.length + 6 ≤ conn)
    (hf : (taggedOf args 0 fs).length ≤ fuel)
    (hl : 10 + 2 * (taggedOf args 0 fs).length + ((taggedOf args 0 fs).map fun x => (req (x.1, x.2.2)).entry.length).sum ≤ 32768)
    (hl' : ((taggedOf args 0 fs).map fun x => 10 + goSize (ask x).T * (ask x).n).sum ≤ 65500) :
    ∃ i' y', multiOver C s conn seq fuel i y ioi (fs.map Prod.fst) (fs.map Prod.snd) args =
      some (.ok (afterRead args val fs), i', y') ∧ Joined s k ep y' m := by
  have h1 := multiFields_plain args (fs.map Prod.snd) fs [] (by simp) hh
  have h4 := storeFields_plain args (taggedOf args 0 fs) hn fs [] got val (by simp) (fun x hx => (hv x hx).2.2.2.2.2)
  simp only [List.length_nil, List.nil_append] at h1 h4
  generalize taggedOf args 0 fs = tags at *
  have h2 := multiDescs_all (ioi := ioi) req (tags.map fun f => (f.1, f.2.2)) (by
    intro e he
    obtain ⟨x, hx, rfl⟩ := List.mem_map.mp he
    exact ⟨(hv x hx).2.1, (hv x hx).2.2.1⟩)
  rw [List.map_map] at h2
  have ha := answerable_map (m := m) ask (req ∘ fun f => (f.1, f.2.2)) got tags fun x hx =>
    ⟨(hv x hx).2.2.2.1, (hv x hx).2.2.2.2.1⟩
  obtain ⟨i', y', e, hj'⟩ := list_over C s k ep conn seq m fuel i y _ _ _ hj ha
    (by
      intro t ht
      obtain ⟨x, hx, rfl⟩ := List.mem_map.mp ht
      exact hfit x hx)
    (by simpa using hne) (by simpa using hf)
    (by rw [List.length_map, List.map_map]; exact hl) (by rw [List.map_map]; exact hl')
  refine ⟨i', y', ?_, hj'⟩
  unfold multiOver
  rw [h1]
  simp only [h2, e, h4]

theorem map_over {α : Type} (C : Conv) (s : Settings) (k : Conn) (ep conn : Nat) (hconn : conn ≤ 4002) (seq : Nat → BitVec 16)
    (m : Memory) (fuel i : Nat) (y : Sys) (ioi : Str → Byte → Res Ioi) (l : List α) (entry : α → Str × MVal)
    (ask : α → Ask) (req : α → MTag) (got : α → RV) (new : α → MVal)
    (hj : Joined s k ep y m)
    (hv : ∀ e ∈ l, Asked (entry e).2 (req e) ∧ ioi (entry e).1 (req e).typ = .ok (req e).ioi ∧
      AsksFor (ask e) (req e) ∧ Sees m (ask e) (got e) ∧ Put (entry e).2 (got e) (new e))
    (hfit : ∀ e ∈ l, (req e).entry.length + 6 ≤ conn) (hsz : ∀ e ∈ l, goSize (ask e).T * (ask e).n ≤ 65000)
    (hf : l.length + 1 ≤ fuel) :
    ∃ i' y', mapOver C s conn seq fuel i y ioi (l.map entry) = some (.ok (l.map fun e => ((entry e).1, new e)), i', y') ∧
      Joined s k ep y' m := by
  have h2 : multiDescs ioi (l.map entry) = .ok (l.map req) := by
    clear hf
    induction l with
    | nil => rfl
    | cons x l ih =>
      obtain ⟨h1, h2, -⟩ := hv x List.mem_cons_self
      have ht := asked_request h1
      have h3 : ioi (entry x).1 (entry x).2.cipType.1 = .ok (req x).ioi := by
        rw [ht] at h2
        exact h2
      rw [List.map_cons, show entry x = ((entry x).1, (entry x).2) from rfl, multiDescs, h3]
      simp only [ih (fun e he => hv e (List.mem_cons_of_mem _ he)) (fun e he => hfit e (List.mem_cons_of_mem _ he))
        (fun e he => hsz e (List.mem_cons_of_mem _ he)), List.map_cons]
      rw [ht]
      rfl
  have ha := answerable_map (m := m) ask req got l fun e he => ⟨(hv e he).2.2.1, (hv e he).2.2.2.1⟩
  obtain ⟨i', y', e, hj'⟩ := C104_list_partial C s k ep conn hconn seq m fuel i y _ _ _ hj ha
    (by
      intro t ht
      obtain ⟨x, hx, rfl⟩ := List.mem_map.mp ht
      exact hfit x hx)
    (by
      intro a h
      obtain ⟨x, hx, rfl⟩ := List.mem_map.mp h
      exact hsz x hx)
    (by simpa using hf)
  refine ⟨i', y', ?_, hj'⟩
  have hst : storeEntries (l.map entry) (l.map got) = l.map fun e => ((entry e).1, mapValue (entry e).2 (got e)) := by
    clear h2 ha e hv hfit hsz hf
    induction l with
    | nil => rfl
    | cons x l ih =>
      rw [List.map_cons, List.map_cons, show entry x = ((entry x).1, (entry x).2) from rfl, storeEntries, ih]
      rfl
  unfold mapOver
  rw [h2]
  simp only [e, hst]
  congr 3
  apply List.map_congr_left
  intro e he
  rw [mapValue_put (hv e he).2.2.2.2]

/-- **C114, maps.**  A client connected to a server fills a map with `ReadMap`, however many keys it has: under every key is what the
server has under this name; the session goes on. -/
theorem C114_map_partial (C : Conv) (s : Settings) (k : Conn) (ep conn : Nat) (hconn : conn ≤ 4002) (seq : Nat → BitVec 16)
    (m : Memory) (fuel i : Nat) (y : Sys) (ioi : Str → Byte → Res Ioi) (es : List (Str × MVal))
    (ask : Str × MVal → Ask) (req : Str × MVal → MTag) (got : Str × MVal → RV) (new : Str × MVal → MVal)
    (hj : Joined s k ep y m)
    (hv : ∀ e ∈ es, render (ask e).tag = e.1 ∧ Asked e.2 (req e) ∧ ioi e.1 (req e).typ = .ok (req e).ioi ∧
      AsksFor (ask e) (req e) ∧ Sees m (ask e) (got e) ∧ Put e.2 (got e) (new e))
    (hfit : ∀ e ∈ es, (req e).entry.length + 6 ≤ conn) (hsz : ∀ e ∈ es, goSize (ask e).T * (ask e).n ≤ 65000)
    (hf : es.length + 1 ≤ fuel) :
    ∃ i' y', mapOver C s conn seq fuel i y ioi es = some (.ok (es.map fun e => (e.1, new e)), i', y') ∧ Joined s k ep y' m := by
  have := map_over C s k ep conn hconn seq m fuel i y ioi es id ask req got new hj (fun e he => (hv e he).2) hfit hsz hf
  simpa using this

/-- What is there after all has been stored. -/
theorem stores_seen : ∀ (ws : List (List Part × Scal)) (m m' : Memory), StoresAll m ws m' →
    (∀ w ∈ ws, wholeName (render w.1) ∧ ∃ T, w.2.ty = some T) →
    ws.Pairwise (fun a b => ¬ sameName (render a.1) (render b.1)) →
    (∀ w ∈ ws, m' (render w.1) = some (.one w.2)) ∧
      ∀ n, (∀ w ∈ ws, ¬ sameName n (render w.1)) → m' n = m n
  | [], m, m', h, _, _ => by cases h; exact ⟨by simp, fun _ _ => rfl⟩
  | (tag, v) :: ws, m, m', h, hw, hp => by
    cases h with
    | cons h1 hs =>
      obtain ⟨hp1, hp2⟩ := List.pairwise_cons.mp hp
      obtain ⟨i1, i2⟩ := stores_seen ws _ _ hs (fun w h => hw w (List.mem_cons_of_mem _ h)) hp2
      have hwn := (hw (tag, v) List.mem_cons_self).1
      have hst : ∃ m1 : Memory, m1 = _ ∧ m.After (render tag) (.one v) m1 := ⟨_, rfl, by
        cases h1 with
        | whole hpl ha => cases hpl; exact ha
        | element hpl hm hi hT ha =>
          cases hpl with
          | element h _ =>
            exfalso
            apply hwn
            show (render tag).getLast? = _
            rw [h]
            simp only [elemName, elemText, List.getLast?_append]
            rfl⟩
      obtain ⟨m1, rfl, ha⟩ := hst
      constructor
      · intro w hwm
        rcases List.mem_cons.1 hwm with rfl | hwm
        · rw [i2 _ fun w hw' => hp1 w hw']
          exact ha.1 _ rfl
        · exact i1 w hwm
      · intro n hn
        rw [i2 n fun w hw' => hn w (List.mem_cons_of_mem _ hw')]
        exact ha.2 n (hn (tag, v) List.mem_cons_self)

/-- There is a memory after all has been stored under names. -/
theorem stores_exist : ∀ (ws : List (List Part × Scal)) (m : Memory), (∀ w ∈ ws, wholeName (render w.1)) → ∃ m', StoresAll m ws m'
  | [], m, _ => ⟨m, .nil m⟩
  | (tag, v) :: ws, m, h => by
    let m1 : Memory := fun n => if toLower n = toLower (render tag) then some (.one v) else m n
    obtain ⟨m', h'⟩ := stores_exist ws m1 fun w hw => h w (List.mem_cons_of_mem _ hw)
    exact ⟨m', .cons (.whole (.whole (h (tag, v) List.mem_cons_self)) ⟨fun n hn => if_pos hn, fun n hn => if_neg hn⟩) h'⟩

/-- **C114, there and back.**  A client writes a map of values, each under a name of its own, with `WriteMap`, and reads the names
with `ReadMap`: it gets the values it wrote, whatever was there before.  The paths may be made anew for reading. -/
theorem C114_roundtrip_partial (C : Conv) (s : Settings) (k : Conn) (ep conn : Nat) (hconn : conn ≤ 4002) (seq : Nat → BitVec 16)
    (m : Memory) (fuel i : Nat) (y : Sys) (ioi : Str → Byte → Res Ioi) (ws : List (List Part × Scal)) (seq0 : BitVec 16)
    (put : List Part × Scal → Ioi) (old : List Part × Scal → Scal) (req : List Part × Scal → MTag) (hj : Joined s k ep y m)
    (hw : ∀ w ∈ ws, wholeName (render w.1))
    (hd : ws.Pairwise fun a b => ¬ sameName (render a.1) (render b.1))
    (hp : ∀ w ∈ ws, PutsFor w (put w, .one w.2)) (hl : (ws.map fun w => 16 + (put w).buffer.length).sum ≤ 32000)
    (hr : ∀ w ∈ ws, (old w).ty = w.2.ty ∧ Asked (.one (old w)) (req w) ∧ ioi (render w.1) (req w).typ = .ok (req w).ioi ∧
      ClientPath w.1 (req w).typ (req w).ioi ∧ ((req w).ioi.bitAccess = false ∨ (req w).typ ≠ tBOOL) ∧
      (req w).entry.length + 6 ≤ conn)
    (hf : ws.length + 1 ≤ fuel) :
    ∃ y1 i' y', perform C s y (.map seq0 (ws.map fun w => (put w, .one w.2))) = (.ok .done, y1) ∧
      mapOver C s conn seq fuel i y1 ioi (ws.map fun w => (render w.1, .one (old w))) =
        some (.ok (ws.map fun w => (render w.1, .one w.2)), i', y') := by
  obtain ⟨m', hs⟩ := stores_exist ws m hw
  have hty : ∀ w ∈ ws, ∃ T, w.2.ty = some T ∧ T ≠ .str := fun w h => by
    obtain ⟨_, T, _, _, h1, h2⟩ := hp w h
    exact ⟨T, h1, h2⟩
  obtain ⟨hseen, -⟩ := stores_seen ws m m' hs (fun w h => ⟨hw w h, (hty w h).imp fun _ h => h.1⟩) hd
  obtain ⟨y1, e1, hj1⟩ := C104_session_partial C s k ep [.writeSeveral ws] [.map seq0 (ws.map fun w => (put w, .one w.2))] [.done]
    y m m' hj rfl (by
      intro i op c h1 h2
      match i with
      | 0 =>
        cases h1; cases h2
        refine .writeSeveral seq0 (by simp) ?_ (by rw [List.map_map]; exact hl)
        intro i w e h1 h2
        rw [List.getElem?_map, h1] at h2
        cases h2
        exact hp w (List.mem_of_getElem? h1)
      | i + 1 => cases h1)
    (.cons (.writeSeveral hs) (.nil _))
  have e2 : perform C s y (.map seq0 (ws.map fun w => (put w, .one w.2))) = (.ok .done, y1) := by
    simp only [performAll] at e1
    generalize perform C s y (.map seq0 (ws.map fun w => (put w, .one w.2))) = r at e1 ⊢
    obtain ⟨r1, r2⟩ := r
    simp only [Prod.mk.injEq, List.map_cons, List.map_nil, List.cons.injEq, and_true] at e1
    rw [e1.1, e1.2]
  let ty : List Part × Scal → GoTy := fun w => w.2.ty.getD .bool
  have hT : ∀ w ∈ ws, w.2.ty = some (ty w) ∧ ty w ≠ .str := fun w h => by
    obtain ⟨T, h1, h2⟩ := hty w h
    have : ty w = T := by show w.2.ty.getD .bool = T; rw [h1]; rfl
    rw [this]
    exact ⟨h1, h2⟩
  obtain ⟨i', y', e3, -⟩ := map_over C s k ep conn hconn seq m' fuel i y1 ioi ws (fun w => (render w.1, .one (old w)))
    (fun w => ⟨w.1, ty w, 1⟩) req (fun w => .one w.2) (fun w => .one w.2) hj1 (by
      intro w h
      obtain ⟨h1, h2, h3, h4, h5, h6⟩ := hr w h
      obtain ⟨g1, g2⟩ := hT w h
      have hq : (req w).typ = cipOfGo (ty w) ∧ (req w).elements = 1 := by
        have ht := asked_request h2
        rw [ht]
        simp only [MVal.request, MVal.cipType, h1, g1]
        simp
      exact ⟨h2, h3, ⟨h4, hq.1, h5, hq.2, (show 1 < 32768 by decide), (show safeCount 1 by decide), fun _ => rfl⟩,
        .one (.whole (hw w h)) (hseen w h) g1, .one _ _ _ g1⟩)
    (fun w h => (hr w h).2.2.2.2.2) (fun w h => by
      show goSize (ty w) * 1 ≤ 65000
      cases ty w <;> decide) hf
  exact ⟨y1, i', y', e2, e3⟩

/-! ### What fails -/

/-- How the demo client encodes tags. -/
def demoPaths (p : Str) (dt : Byte) : Res Ioi := (newIOI demoDb [] p dt).1

/-- The demo client on the connection the demo server has. -/
def demoOn : Settings := { bare with ot := 0x11#32 }

/-- What the demo server has. -/
def demoMemory : Memory := fun n =>
  if toLower n = str "count" then some (.one (.i32 5#32))
  else if toLower n = str "arr" then some (.many .i32 [.i32 1#32, .i32 2#32, .i32 3#32])
  else none

theorem demo_joined : ∃ k, Joined demoOn k 0 demoSys demoMemory := by
  refine ⟨_, ⟨rfl, rfl, rfl⟩, demoStore, ⟨rfl, rfl, _, rfl⟩, fun n c h => ?_⟩
  unfold demoMemory at h
  by_cases h1 : toLower n = str "count"
  · rw [if_pos h1] at h
    cases h
    exact ⟨by rw [h1]; rfl, fun t ht => by cases ht⟩
  · rw [if_neg h1] at h
    by_cases h2 : toLower n = str "arr"
    · rw [if_pos h2] at h
      cases h
      refine ⟨by rw [h2]; rfl, fun v hv => ?_⟩
      simp only [List.mem_cons, List.not_mem_nil, or_false] at hv
      rcases hv with rfl | rfl | rfl <;> exact ⟨rfl, fun t ht => by cases ht⟩
    · rw [if_neg h2] at h
      cases h

/-- **C114, what fails.**  A field of another type than the server's tag ends the program that calls `ReadMulti`: the server has a
DINT, the field is an `int16`. -/
theorem C114_type_crash : ∃ (C : Conv) (s : Settings) (y : Sys) (k : Conn) (ep : Nat) (m : Memory), Joined s k ep y m ∧
    m (str "count") = some (.one (.i32 5#32)) ∧
    ((multiOver C s 4002 (BitVec.ofNat 16) 3 0 y demoPaths [some (str "count")] [.one (.i16 0#16)] []).map Prod.fst) = some .panic := by
  obtain ⟨k, hk⟩ := demo_joined
  exact ⟨demoConv, demoOn, demoSys, k, 0, demoMemory, hk, if_pos (by decide), by decide +kernel⟩

/-- **C114, what fails.**  So does a slice of one element, although the server has an array of its type. -/
theorem C114_one_element_crash : ∃ (C : Conv) (s : Settings) (y : Sys) (k : Conn) (ep : Nat) (m : Memory), Joined s k ep y m ∧
    (∃ vs, m (str "arr") = some (.many .i32 vs)) ∧
    ((multiOver C s 4002 (BitVec.ofNat 16) 3 0 y demoPaths [some (str "arr")] [.list .i32 [.i32 0#32]] []).map Prod.fst) =
      some .panic := by
  obtain ⟨k, hk⟩ := demo_joined
  exact ⟨demoConv, demoOn, demoSys, k, 0, demoMemory, hk, ⟨_, (if_neg (by decide)).trans (if_pos (by decide))⟩, by decide +kernel⟩

/-- **C114, what fails.**  One name the server does not have leaves a whole map unread, and ends the connection. -/
theorem C114_missing_ends : ∃ (C : Conv) (s : Settings) (y : Sys) (k : Conn) (ep : Nat) (m : Memory), Joined s k ep y m ∧
    m (str "count") = some (.one (.i32 5#32)) ∧
    ((mapOver C s 4002 (BitVec.ofNat 16) 3 0 y demoPaths [(str "count", .one (.i32 0#32)), (str "gone", .one (.i32 0#32))]).map
      fun r => (r.1, r.2.2.up)) = some (.err .eof, false) := by
  obtain ⟨k, hk⟩ := demo_joined
  exact ⟨demoConv, demoOn, demoSys, k, 0, demoMemory, hk, if_pos (by decide), by decide +kernel⟩

/-! ### Examples -/

/-- A structure with a tagged number, a field without a tag and a tagged array, filled from the demo server. -/
example : (multiOver demoConv demoJoined.1 4002 (BitVec.ofNat 16) 3 0 demoJoined.2 demoPaths
    [some (str "{0}"), none, some (str "arr")] [.one (.i32 0#32), .one (.i32 3#32), .list .i32 [.i32 0#32, .i32 0#32]]
    [str "Count"]).map (fun r => (r.1, r.2.1)) =
    some (.ok [.one (.i32 5#32), .one (.i32 3#32), .list .i32 [.i32 1#32, .i32 2#32]], 1) := by
  decide +kernel

/-- A map, filled from the demo server. -/
example : (mapOver demoConv demoJoined.1 4002 (BitVec.ofNat 16) 3 0 demoJoined.2 demoPaths
    [(str "arr[1]", .one (.i32 0#32)), (str "Count", .one .nil)]).map (fun r => (r.1, r.2.1)) =
    some (.ok [(str "arr[1]", .one (.i32 2#32)), (str "Count", .one (.i32 5#32))], 1) := by
  decide +kernel

end Gologix.Session
