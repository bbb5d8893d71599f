import Verif.Props.SessionPut
import Verif.Props.IoiNames
set_option linter.unusedSimpArgs false
/-
C114 and C115: what crashes a client, or is refused by it, before anything is sent.
-/
namespace Gologix.Session
open Gologix Gologix.Spec Gologix.Server Gologix.Server.Spec Gologix.Connect Gologix.Connect.Spec Gologix.Session.Spec

/-- The paths of a client that has asked for `hist` before. -/
def pathsAfter (hist : List Lookup) (db : TagDb) (p : Str) (dt : Byte) : Res Ioi := (newIOI db (history hist) p dt).1

theorem pathsAfter_ok (hist : List Lookup) (db : TagDb) (p : Str) (dt : Byte) :
    (∃ io, pathsAfter hist db p dt = .ok io) ∨ pathsAfter hist db p dt = .panic := by
  rcases C55_never_refused hist db p dt with h | h
  · exact .inl h
  · exact .inr h.1

theorem putPaths_crash (hist : List Lookup) (db : TagDb) (p : Str) (v : WVal) (hn : NotDirect db p v.cipType)
    (hu : Unbalanced (toLower p)) : ∀ d : List (Str × WVal), (p, v) ∈ d → putPaths (pathsAfter hist db) d = .panic
  | [], h => by simp at h
  | (q, w) :: d, h => by
    rw [putPaths]
    rcases List.mem_cons.1 h with h | h
    · cases h
      have e : pathsAfter hist db p v.cipType = .panic := C55_crash_always hist db p _ hn hu
      rw [e]
    · rcases pathsAfter_ok hist db q w.cipType with ⟨io, e⟩ | e
      · rw [e]
        simp only [putPaths_crash hist db p v hn hu d h]
      · rw [e]

/-- **C115, what fails.**  A name with a part that ends in `]` and has no `[` crashes the client in `WriteMap`, whatever is written with it,
whatever was asked for before and whatever order the map is visited in; none of the values is sent. -/
theorem C115_name_crash (C : Conv) (s : Settings) (y : Sys) (seq : BitVec 16) (hist : List Lookup) (db : TagDb)
    (d : List (Str × WVal)) (p : Str) (v : WVal) (hd : (p, v) ∈ d) (hn : NotDirect db p v.cipType) (hu : Unbalanced (toLower p)) :
    putOver C s y seq (pathsAfter hist db) d = (.panic, y) := by
  unfold putOver
  rw [putPaths_crash hist db p v hn hu d hd]

/-- **C115, what fails.**  `WriteMulti` of a structure with a field that is not exported, outside arrays, crashes the client, wherever
the field is, before anything is sent. -/
theorem C115_hidden_crash (C : Conv) (s : Settings) (y : Sys) (seq : BitVec 16) (ioi : Str → Byte → Res Ioi)
    (ord : List (Str × WVal) → List (Str × WVal)) (v : WTree) (hs : isStruct v) (hp : shaped v) (hh : hidden v = true) :
    putMultiOver C s y seq ioi ord v = (.panic, y) := by
  unfold putMultiOver
  rw [(C73_crash v hs hp).2 hh]

/-- **C115, what is no structure.**  It is refused, and nothing is sent. -/
theorem C115_no_structure (C : Conv) (s : Settings) (y : Sys) (seq : BitVec 16) (ioi : Str → Byte → Res Ioi)
    (ord : List (Str × WVal) → List (Str × WVal)) (v : WTree) (hs : ¬ isStruct v) :
    ∃ e, putMultiOver C s y seq ioi ord v = (.err e, y) := by
  have h := C73_no_struct v hs
  unfold putMultiOver
  cases hw : writeMultiMap v with
  | err e => exact ⟨e, rfl⟩
  | ok d => simp [hw, Res.isErr] at h
  | panic => simp [hw, Res.isErr] at h

theorem multiDescs_crash (hist : List Lookup) (db : TagDb) (p : Str) (v : MVal) (hn : NotDirect db p v.cipType.1)
    (hu : Unbalanced (toLower p)) : ∀ d : List (Str × MVal), (p, v) ∈ d → multiDescs (pathsAfter hist db) d = .panic
  | [], h => by simp at h
  | (q, w) :: d, h => by
    rw [multiDescs]
    rcases List.mem_cons.1 h with h | h
    · cases h
      have e : pathsAfter hist db p v.cipType.1 = .panic := C55_crash_always hist db p _ hn hu
      rw [e]
    · rcases pathsAfter_ok hist db q w.cipType.1 with ⟨io, e⟩ | e
      · rw [e]
        simp only [multiDescs_crash hist db p v hn hu d h]
      · rw [e]

/-- **C114, what fails.**  A key with a part that ends in `]` and has no `[` crashes the client in `ReadMap`, whatever else is asked for;
nothing is sent. -/
theorem C114_name_crash (C : Conv) (s : Settings) (conn : Nat) (seq : Nat → BitVec 16) (fuel i : Nat) (y : Sys)
    (hist : List Lookup) (db : TagDb) (m : List (Str × MVal)) (p : Str) (v : MVal) (hm : (p, v) ∈ m)
    (hn : NotDirect db p v.cipType.1) (hu : Unbalanced (toLower p)) :
    mapOver C s conn seq fuel i y (pathsAfter hist db) m = some (.panic, i, y) := by
  unfold mapOver
  rw [multiDescs_crash hist db p v hn hu m hm]

theorem fields_hidden (direct : List MVal) (args : List Str) : ∀ (tags : List (Option Str)) (i j : Nat) (c : Byte) (cs : Str),
    tags[j]? = some (some (c :: cs)) → direct[i + j]? = some .hidden → multiFields direct args i tags = .panic
  | [], _, _, _, _, h, _ => by simp at h
  | t :: tags, i, 0, c, cs, h, hd => by
    simp only [List.getElem?_cons_zero, Option.some.injEq] at h
    subst h
    rw [Nat.add_zero] at hd
    simp [multiFields, hd]
  | t :: tags, i, j + 1, c, cs, h, hd => by
    have ih := fields_hidden direct args tags (i + 1) j c cs (by simpa using h) (by rw [Nat.add_right_comm]; exact hd)
    match t with
    | none => simpa [multiFields] using ih
    | some [] => simpa [multiFields] using ih
    | some (d :: ds) =>
      simp only [multiFields]
      cases hx : direct[i]? with
      | none => rfl
      | some v => cases v <;> simp [ih]

/-- **C114, what fails.**  `ReadMulti` into a structure with a tagged field that is not exported crashes the client, wherever the field
is and whatever the server has; nothing is sent. -/
theorem C114_hidden_crash (C : Conv) (s : Settings) (conn : Nat) (seq : Nat → BitVec 16) (fuel i : Nat) (y : Sys)
    (ioi : Str → Byte → Res Ioi) (tags : List (Option Str)) (direct : List MVal) (args : List Str) (j : Nat) (tag : Str)
    (ht : tags[j]? = some (some tag)) (hn : tag ≠ []) (hd : direct[j]? = some .hidden) :
    multiOver C s conn seq fuel i y ioi tags direct args = some (.panic, i, y) := by
  obtain ⟨c, cs, rfl⟩ := List.exists_cons_of_ne_nil hn
  unfold multiOver
  rw [fields_hidden direct args tags 0 j c cs ht (by rw [Nat.zero_add]; exact hd)]

/-! ### Examples -/

/-- Two names, the second without an opening bracket, of a client that has asked for the first before. -/
example : NotDirect demoDb (str "arr2]") (WVal.one (.i32 9#32)).cipType ∧ Unbalanced (toLower (str "arr2]")) ∧
    (putOver demoConv demoJoined.1 demoJoined.2 5#16 (pathsAfter [⟨demoDb, str "count", tDINT⟩] demoDb)
      [(str "count", .one (.i32 9#32)), (str "arr2]", .one (.i32 9#32))]).1 = .panic := by
  unfold Unbalanced
  exact ⟨.inl (by decide), by decide, by decide +kernel⟩

/-- A structure with a hidden field after one that could be written. -/
def withHidden : WTree :=
  .cons (str "A") (str "count") true (.val (.one (.i32 9#32))) (.cons (str "b") (str "arr") false (.val (.one (.i32 9#32))) .nil)

example : isStruct withHidden ∧ shaped withHidden ∧ hidden withHidden = true := by
  refine ⟨trivial, ?_, rfl⟩
  simp [withHidden, shaped, isStruct]

example : ([some (str "count"), some (str "arr")] : List (Option Str))[1]? = some (some (str "arr")) ∧
    ([.one (.i32 0#32), .hidden] : List MVal)[1]? = some .hidden := by decide

end Gologix.Session
