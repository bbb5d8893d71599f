import Verif.Model.SessionPut
import Verif.Props.SessionMulti
import Verif.Props.UdtDict
set_option linter.unusedSimpArgs false
/-
C115: a structure written to a server is what is there afterwards.
-/
namespace Gologix.Session
open Gologix Gologix.Spec Gologix.Server Gologix.Server.Spec Gologix.Connect Gologix.Connect.Spec Gologix.Session.Spec

theorem putPaths_all {ioi : Str → Byte → Res Ioi} (put : List Part × Scal → Ioi) : ∀ ws : List (List Part × Scal),
    (∀ w ∈ ws, ioi (render w.1) (WVal.one w.2).cipType = .ok (put w)) →
    putPaths ioi (ws.map fun w => (render w.1, .one w.2)) = .ok (ws.map fun w => (put w, .one w.2))
  | [], _ => rfl
  | w :: ws, h => by
    rw [List.map_cons, putPaths, h w List.mem_cons_self]
    simp only [putPaths_all put ws fun e he => h e (List.mem_cons_of_mem _ he), List.map_cons]

/-- What `WriteMap` does to a server. -/
theorem put_over (C : Conv) (s : Settings) (k : Conn) (ep : Nat) (m m' : Memory) (y : Sys) (seq : BitVec 16)
    (ioi : Str → Byte → Res Ioi) (ws : List (List Part × Scal)) (put : List Part × Scal → Ioi) (hj : Joined s k ep y m)
    (hp : ∀ w ∈ ws, PutsFor w (put w, .one w.2) ∧ ioi (render w.1) (WVal.one w.2).cipType = .ok (put w))
    (hl : (ws.map fun w => 16 + (put w).buffer.length).sum ≤ 32000) (hs : StoresAll m ws m') :
    ∃ y', putOver C s y seq ioi (ws.map fun w => (render w.1, .one w.2)) = (.ok .done, y') ∧ Joined s k ep y' m' := by
  obtain ⟨y1, e1, hj1⟩ := C104_session_partial C s k ep [.writeSeveral ws] [.map seq (ws.map fun w => (put w, .one w.2))] [.done]
    y m m' hj rfl (by
      intro i op c h1 h2
      match i with
      | 0 =>
        cases h1; cases h2
        refine .writeSeveral seq (by simp) ?_ (by rw [List.map_map]; exact hl)
        intro i w e h1 h2
        rw [List.getElem?_map, h1] at h2
        cases h2
        exact (hp w (List.mem_of_getElem? h1)).1
      | i + 1 => cases h1)
    (.cons (.writeSeveral hs) (.nil _))
  refine ⟨y1, ?_, hj1⟩
  unfold putOver
  rw [putPaths_all put ws fun w hw => (hp w hw).2]
  simp only [performAll] at e1
  show perform C s y (.map seq (ws.map fun w => (put w, .one w.2))) = (.ok .done, y1)
  generalize perform C s y (.map seq (ws.map fun w => (put w, .one w.2))) = r at e1 ⊢
  obtain ⟨r1, r2⟩ := r
  simp only [Prod.mk.injEq, List.map_cons, List.map_nil, List.cons.injEq, and_true] at e1
  rw [e1.1, e1.2]

/-- **C115, any tags.**  A client connected to a server writes a structure with `WriteMulti`: whatever order the map is visited in, the
server has afterwards what it has when the values of all the fields, members of inner structures after a dot, are stored one
after the other in this order; the session goes on.  The structure has no arrays, slices or strings, its fields are exported,
the tags distinct, and the request has at most 32000 bytes. -/
theorem C115_stored_partial (C : Conv) (s : Settings) (k : Conn) (ep : Nat) (m m' : Memory) (y : Sys) (seq : BitVec 16)
    (ioi : Str → Byte → Res Ioi) (ord : List (Str × WVal) → List (Str × WVal)) (v : WTree) (ws : List (List Part × Scal))
    (put : List Part × Scal → Ioi) (hj : Joined s k ep y m) (hs : isStruct v) (ht : plainTree v)
    (hn : ((tagged v).map Prod.fst).Nodup) (ho : ord (tagged v) = ws.map fun w => (render w.1, .one w.2))
    (hp : ∀ w ∈ ws, PutsFor w (put w, .one w.2) ∧ ioi (render w.1) (WVal.one w.2).cipType = .ok (put w))
    (hl : (ws.map fun w => 16 + (put w).buffer.length).sum ≤ 32000) (hm : StoresAll m ws m') :
    ∃ y', putMultiOver C s y seq ioi ord v = (.ok .done, y') ∧ Joined s k ep y' m' := by
  obtain ⟨y', e, hj'⟩ := put_over C s k ep m m' y seq ioi ws put hj hp hl hm
  refine ⟨y', ?_, hj'⟩
  unfold putMultiOver
  rw [C73_struct_partial v hs ht hn]
  show putOver C s y seq ioi (ord (tagged v)) = _
  rw [ho, e]

theorem perm_total {a b : List Nat} (h : a.Perm b) : a.sum = b.sum := by
  induction h with
  | nil => rfl
  | cons x _ ih => simp [ih]
  | swap x z l => simp only [List.sum_cons]; omega
  | trans _ _ h1 h2 => exact h1.trans h2

theorem perm_of_map {α β : Type} (f : α → β) {a b : List β} (h : a.Perm b) :
    ∀ l : List α, b = l.map f → ∃ l' : List α, a = l'.map f ∧ l'.Perm l := by
  induction h with
  | nil => intro l hl; exact ⟨l, hl, .refl _⟩
  | cons x _ ih =>
    intro l hl
    match l, hl with
    | z :: l, hl =>
      simp only [List.map_cons, List.cons.injEq] at hl
      obtain ⟨l', h1, h2⟩ := ih l hl.2
      exact ⟨z :: l', by rw [List.map_cons, h1, hl.1], h2.cons z⟩
  | swap x z l0 =>
    intro l hl
    match l, hl with
    | p :: q :: l, hl =>
      simp only [List.map_cons, List.cons.injEq] at hl
      exact ⟨q :: p :: l, by simp [hl], .swap ..⟩
  | trans _ _ ih1 ih2 =>
    intro l hl
    obtain ⟨l2, h1, h2⟩ := ih2 l hl
    obtain ⟨l1, h3, h4⟩ := ih1 l2 h1
    exact ⟨l1, h3, h4.trans h2⟩

/-- **C115, whole tags.**  A client connected to a server writes a structure with `WriteMulti`.  Afterwards the server has under the tag
of every field what the field has, members of inner structures after a dot, and everything else is as it was, in whatever order
the map is visited. -/
theorem C115_written_partial (C : Conv) (s : Settings) (k : Conn) (ep : Nat) (m : Memory) (y : Sys) (seq : BitVec 16)
    (ioi : Str → Byte → Res Ioi) (ord : List (Str × WVal) → List (Str × WVal)) (hord : ∀ l, (ord l).Perm l) (v : WTree)
    (ws : List (List Part × Scal)) (put : List Part × Scal → Ioi) (hj : Joined s k ep y m) (hs : isStruct v) (ht : plainTree v)
    (hw : tagged v = ws.map fun w => (render w.1, .one w.2)) (hwn : ∀ w ∈ ws, wholeName (render w.1))
    (hd : ws.Pairwise fun a b => ¬ sameName (render a.1) (render b.1))
    (hp : ∀ w ∈ ws, PutsFor w (put w, .one w.2) ∧ ioi (render w.1) (WVal.one w.2).cipType = .ok (put w))
    (hl : (ws.map fun w => 16 + (put w).buffer.length).sum ≤ 32000) :
    ∃ y' m', putMultiOver C s y seq ioi ord v = (.ok .done, y') ∧ Joined s k ep y' m' ∧
      (∀ w ∈ ws, m' (render w.1) = some (.one w.2)) ∧ ∀ n, (∀ w ∈ ws, ¬ sameName n (render w.1)) → m' n = m n := by
  obtain ⟨ws', e1, hperm⟩ := perm_of_map (fun w : List Part × Scal => (render w.1, WVal.one w.2)) (hord (tagged v)) ws hw
  have hmem : ∀ w, w ∈ ws' ↔ w ∈ ws := fun w => hperm.mem_iff
  obtain ⟨m', hst⟩ := stores_exist ws' m fun w h => hwn w ((hmem w).1 h)
  obtain ⟨h1, h2⟩ := stores_seen ws' m m' hst (fun w h => ⟨hwn w ((hmem w).1 h), by
    obtain ⟨⟨_, T, _, _, h3, _⟩, _⟩ := hp w ((hmem w).1 h)
    exact ⟨T, h3⟩⟩) (hperm.symm.pairwise hd fun h h' => h h'.symm)
  obtain ⟨y', e2, hj'⟩ := C115_stored_partial C s k ep m m' y seq ioi ord v ws' put hj hs ht
    (by
      rw [hw, List.map_map, List.nodup_iff_pairwise_ne, List.pairwise_map]
      exact hd.imp fun h e => h (congrArg toLower e))
    e1 (fun w h => hp w ((hmem w).1 h))
    (by rw [perm_total (hperm.map fun w => 16 + (put w).buffer.length)]; exact hl) hst
  exact ⟨y', m', e2, hj', fun w h => h1 w ((hmem w).2 h), fun n hn => h2 n fun w h => hn w ((hmem w).1 h)⟩

/-- **C115, there and back.**  A client writes a structure with `WriteMulti` and reads into a structure with `ReadMulti`: every field that
has the tag of a field written, or of a member of an inner structure, gets the value of that field; fields without a tag stay.
`src` tells which of the values written belongs to a tag. -/
theorem C115_roundtrip_partial (C : Conv) (s : Settings) (k : Conn) (ep conn : Nat) (m : Memory) (y : Sys) (seq0 : BitVec 16)
    (ioi : Str → Byte → Res Ioi) (ord : List (Str × WVal) → List (Str × WVal)) (hord : ∀ l, (ord l).Perm l) (v : WTree)
    (ws : List (List Part × Scal)) (put : List Part × Scal → Ioi) (hj : Joined s k ep y m) (hs : isStruct v) (ht : plainTree v)
    (hw : tagged v = ws.map fun w => (render w.1, .one w.2)) (hwn : ∀ w ∈ ws, wholeName (render w.1))
    (hd : ws.Pairwise fun a b => ¬ sameName (render a.1) (render b.1))
    (hp : ∀ w ∈ ws, PutsFor w (put w, .one w.2) ∧ ioi (render w.1) (WVal.one w.2).cipType = .ok (put w))
    (hl : (ws.map fun w => 16 + (put w).buffer.length).sum ≤ 32000)
    (seq : Nat → BitVec 16) (fuel i : Nat) (fs : List (Option Str × MVal)) (args : List Str)
    (src : Str → List Part × Scal) (req : Str × MVal → MTag)
    (hn : ((taggedOf args 0 fs).map Prod.fst).Nodup) (hne : taggedOf args 0 fs ≠ [])
    (hr : ∀ x ∈ taggedOf args 0 fs, src x.1 ∈ ws ∧ render (src x.1).1 = x.1 ∧
      (∃ old : Scal, x.2.2 = .one old ∧ old.ty = (src x.1).2.ty) ∧ Asked x.2.2 (req (x.1, x.2.2)) ∧
      ioi x.1 (req (x.1, x.2.2)).typ = .ok (req (x.1, x.2.2)).ioi ∧
      ClientPath (src x.1).1 (req (x.1, x.2.2)).typ (req (x.1, x.2.2)).ioi ∧
      ((req (x.1, x.2.2)).ioi.bitAccess = false ∨ (req (x.1, x.2.2)).typ ≠ tBOOL) ∧
      (req (x.1, x.2.2)).entry.length + 6 ≤ conn)
    (hf : (taggedOf args 0 fs).length ≤ fuel)
    (hl1 : 10 + 2 * (taggedOf args 0 fs).length + ((taggedOf args 0 fs).map fun x => (req (x.1, x.2.2)).entry.length).sum ≤ 32768)
    (hl2 : 18 * (taggedOf args 0 fs).length ≤ 65500)
    (hh : ∀ f ∈ fs, (∃ c cs, f.1 = some (c :: cs)) → f.2 ≠ .hidden) :
    ∃ y1 i' y', putMultiOver C s y seq0 ioi ord v = (.ok .done, y1) ∧
      multiOver C s conn seq fuel i y1 ioi (fs.map Prod.fst) (fs.map Prod.snd) args =
        some (.ok (afterRead args (fun n => .one (src n).2) fs), i', y') := by
  obtain ⟨y1, m', e1, hj1, hm, -⟩ := C115_written_partial C s k ep m y seq0 ioi ord hord v ws put hj hs ht hw hwn hd hp hl
  let ty : Str → GoTy := fun n => (src n).2.ty.getD .bool
  have hT : ∀ x ∈ taggedOf args 0 fs, (src x.1).2.ty = some (ty x.1) ∧ ty x.1 ≠ .str := fun x h => by
    obtain ⟨⟨_, T, _, _, h1, h2⟩, _⟩ := hp _ (hr x h).1
    have : ty x.1 = T := by show (src x.1).2.ty.getD .bool = T; rw [h1]; rfl
    rw [this]
    exact ⟨h1, h2⟩
  have h8 : ∀ x ∈ taggedOf args 0 fs, goSize (ty x.1) ≤ 8 := fun x h => by
    have := (hT x h).2
    revert this
    cases ty x.1 <;> decide
  obtain ⟨i', y', e2, -⟩ := C114_fields_partial C s k ep conn seq m' fuel i y1 ioi fs args
    (fun x => ⟨(src x.1).1, ty x.1, 1⟩) req (fun x => .one (src x.1).2) (fun n => .one (src n).2) hj1 hn hne hh (by
      intro x h
      obtain ⟨a1, a2, ⟨old, a3, a4⟩, a5, a6, a7, a8, a9⟩ := hr x h
      obtain ⟨g1, g2⟩ := hT x h
      have hq : (req (x.1, x.2.2)).typ = cipOfGo (ty x.1) ∧ (req (x.1, x.2.2)).elements = 1 := by
        have ht := asked_request a5
        rw [ht]
        simp only [MVal.request, MVal.cipType, a3, a4, g1]
        simp
      refine ⟨a2, a5, a6, ⟨a7, hq.1, a8, hq.2, (show 1 < 32768 by decide), (show safeCount 1 by decide), fun _ => rfl⟩,
        .one (.whole (hwn _ a1)) (hm _ a1) g1, ?_⟩
      rw [a3]
      exact .one _ _ _ (a4.trans g1) g1)
    (fun x h => (hr x h).2.2.2.2.2.2.2) hf hl1 (by
      refine Nat.le_trans ?_ hl2
      generalize taggedOf args 0 fs = l at h8
      clear hr hf hl1 hl2 hT hn hne e1
      induction l with
      | nil => simp
      | cons x l ih =>
        have := ih fun x hx => h8 x (List.mem_cons_of_mem _ hx)
        have h9 := h8 x List.mem_cons_self
        simp only [List.map_cons, List.sum_cons, List.length_cons]
        show 10 + goSize (ty x.1) * 1 + (l.map fun x => 10 + goSize (ty x.1) * 1).sum ≤ _
        have h10 : (l.map fun x => 10 + goSize (ty x.1) * 1).sum ≤ 18 * l.length := this
        omega)
  exact ⟨y1, i', y', e1, e2⟩

/-! ### What fails -/

/-- A structure with one tagged field. -/
def oneField (tag : Str) (w : WVal) : WTree := .cons (str "F") tag true (.val w) .nil

/-- **C115, what fails.**  A slice overwrites an array with its first element: `WriteMulti` reports success, and the server has one number
where it had an array of three. -/
theorem C115_slice_cut : ∃ (C : Conv) (s : Settings) (y : Sys) (k : Conn) (ep : Nat) (m : Memory), Joined s k ep y m ∧
    (∃ a b c, m (str "arr") = some (.many .i32 [a, b, c])) ∧
    (putMultiOver C s y 5#16 demoPaths id (oneField (str "arr") (.many .i32 [.i32 7#32, .i32 8#32, .i32 9#32]))).1 = .ok .done ∧
    ((mapOver C s 4002 (BitVec.ofNat 16) 3 0
        (putMultiOver C s y 5#16 demoPaths id (oneField (str "arr") (.many .i32 [.i32 7#32, .i32 8#32, .i32 9#32]))).2 demoPaths
        [(str "arr", .one (.i32 0#32))]).map Prod.fst) = some (.ok [(str "arr", .one (.i32 7#32))]) ∧
    ((mapOver C s 4002 (BitVec.ofNat 16) 3 0
        (putMultiOver C s y 5#16 demoPaths id (oneField (str "arr") (.many .i32 [.i32 7#32, .i32 8#32, .i32 9#32]))).2 demoPaths
        [(str "arr[1]", .one (.i32 0#32))]).map Prod.fst) = some (.err .eof) := by
  obtain ⟨k, hk⟩ := demo_joined
  exact ⟨demoConv, demoOn, demoSys, k, 0, demoMemory, hk, ⟨_, _, _, (if_neg (by decide)).trans (if_pos (by decide))⟩,
    by decide +kernel, by decide +kernel, by decide +kernel⟩

/-- **C115, what fails.**  A slice for an element writes the element and leaves the following ones, and reports success. -/
theorem C115_slice_first : ∃ (C : Conv) (s : Settings) (y : Sys) (k : Conn) (ep : Nat) (m : Memory), Joined s k ep y m ∧
    m (str "arr") = some (.many .i32 [.i32 1#32, .i32 2#32, .i32 3#32]) ∧
    (putMultiOver C s y 5#16 demoPaths id (oneField (str "arr[0]") (.many .i32 [.i32 7#32, .i32 8#32]))).1 = .ok .done ∧
    ((mapOver C s 4002 (BitVec.ofNat 16) 3 0
        (putMultiOver C s y 5#16 demoPaths id (oneField (str "arr[0]") (.many .i32 [.i32 7#32, .i32 8#32]))).2 demoPaths
        [(str "arr", .list .i32 [.i32 0#32, .i32 0#32, .i32 0#32])]).map Prod.fst) =
      some (.ok [(str "arr", .anys [.i32 7#32, .i32 2#32, .i32 3#32])]) := by
  obtain ⟨k, hk⟩ := demo_joined
  exact ⟨demoConv, demoOn, demoSys, k, 0, demoMemory, hk, (if_neg (by decide)).trans (if_pos (by decide)),
    by decide +kernel, by decide +kernel⟩

/-- A number and a string. -/
def withText : WTree :=
  .cons (str "A") (str "count") true (.val (.one (.i32 9#32))) (oneField (str "txt") (.one (.str (str "hi"))))

/-- **C115, what fails.**  A string ends the connection, wherever in the map it is visited. -/
theorem C115_string_ends : ∃ (C : Conv) (s : Settings) (y : Sys) (k : Conn) (ep : Nat) (m : Memory), Joined s k ep y m ∧
    (∃ d, writeMultiMap withText = .ok d ∧ d.length = 2) ∧
    ∀ ord ∈ [id, List.reverse], (putMultiOver C s y 5#16 demoPaths ord withText).1 = .err .eof ∧
      (putMultiOver C s y 5#16 demoPaths ord withText).2.up = false := by
  obtain ⟨k, hk⟩ := demo_joined
  refine ⟨demoConv, demoOn, demoSys, k, 0, demoMemory, hk, ⟨_, rfl, by decide⟩, fun ord ho => ?_⟩
  simp only [List.mem_cons, List.not_mem_nil, or_false] at ho
  rcases ho with rfl | rfl <;> decide +kernel

/-- **C115, what fails.**  A value of another type is taken: the server had a DINT, and has an INT afterwards. -/
theorem C115_type_changes : ∃ (C : Conv) (s : Settings) (y : Sys) (k : Conn) (ep : Nat) (m : Memory), Joined s k ep y m ∧
    m (str "count") = some (.one (.i32 5#32)) ∧
    (putMultiOver C s y 5#16 demoPaths id (oneField (str "count") (.one (.i16 9#16)))).1 = .ok .done ∧
    ((mapOver C s 4002 (BitVec.ofNat 16) 3 0 (putMultiOver C s y 5#16 demoPaths id (oneField (str "count") (.one (.i16 9#16)))).2
        demoPaths [(str "count", .one (.i32 0#32))]).map Prod.fst) = some (.ok [(str "count", .one (.i16 9#16))]) := by
  obtain ⟨k, hk⟩ := demo_joined
  exact ⟨demoConv, demoOn, demoSys, k, 0, demoMemory, hk, if_pos (by decide), by decide +kernel, by decide +kernel⟩

/-! ### Examples -/

/-- A structure with an inner one. -/
def demoTree : WTree :=
  .cons (str "N") (str "count") true (.val (.one (.i32 9#32)))
    (.cons (str "P") (str "pump") true
      (.cons (str "On") [] true (.val (.one (.bool true))) (.cons (str "Speed") [] true (.val (.one (.i16 3#16))) .nil)) .nil)

/-- What it stands for. -/
example : isStruct demoTree ∧ plainTree demoTree ∧ tagged demoTree =
    [([⟨str "count", []⟩], .i32 9#32), ([⟨str "pump", []⟩, ⟨str "On", []⟩], .bool true),
      ([⟨str "pump", []⟩, ⟨str "Speed", []⟩], .i16 3#16)].map fun (w : List Part × Scal) => (render w.1, .one w.2) :=
  ⟨trivial, by simp [demoTree, plainTree, isStruct], by decide +kernel⟩

/-- It is written to the demo server, and read back from there into a structure with a field that has no tag. -/
example : (putMultiOver demoConv demoJoined.1 demoJoined.2 5#16 demoPaths List.reverse demoTree).1 = .ok .done ∧
    (multiOver demoConv demoJoined.1 4002 (BitVec.ofNat 16) 3 0
      (putMultiOver demoConv demoJoined.1 demoJoined.2 5#16 demoPaths List.reverse demoTree).2 demoPaths
      [some (str "pump.speed"), none, some (str "{0}")] [.one (.i16 0#16), .one (.i32 3#32), .one (.i32 0#32)]
      [str "Count"]).map (fun r => (r.1, r.2.1)) =
    some (.ok [.one (.i16 3#16), .one (.i32 3#32), .one (.i32 9#32)], 1) := by
  decide +kernel

end Gologix.Session
