import Verif.Model.Client
/-
What a call has done when it reports success (C27, C60): statements about every path through the program of a call,
whatever its actions give.
-/
set_option linter.unusedSimpArgs false
namespace Gologix.Conc
open Prog (one)

/-- An action and its result. -/
abbrev Done := (a : Act) × a.Ret

/-- `Path p acts x`: program `p` can do the actions `acts`, in this order and with these results, and end with `x`. -/
inductive Path {α : Type} : Prog α → List Done → α → Prop
  | pure (x : α) : Path (.pure x) [] x
  | act (a : Act) (k : a.Ret → Prog α) (r : a.Ret) (acts : List Done) (x : α) :
      Path (k r) acts x → Path (.act a k) (⟨a, r⟩ :: acts) x

/-- The number of replies received. -/
def replies : List Done → Nat
  | [] => 0
  | ⟨.handed .., _⟩ :: r => replies r + 1
  | _ :: r => replies r

theorem replies_append (a b : List Done) : replies (a ++ b) = replies a + replies b := by
  induction a with
  | nil => simp [replies]
  | cons x r ih =>
    obtain ⟨x, v⟩ := x
    cases x <;> simp only [List.cons_append, replies, ih] <;> omega

theorem path_bind {α β : Type} (p : Prog α) (f : α → Prog β) (acts : List Done) (x : β) :
    Path (p.bind f) acts x ↔ ∃ a1 a2 y, Path p a1 y ∧ Path (f y) a2 x ∧ acts = a1 ++ a2 := by
  induction p generalizing acts with
  | pure a =>
    constructor
    · intro h
      exact ⟨[], acts, a, .pure a, h, rfl⟩
    · rintro ⟨a1, a2, y, h1, h2, rfl⟩
      cases h1
      exact h2
  | act a k ih =>
    constructor
    · intro h
      simp only [Prog.bind] at h
      cases h with
      | act a k' r acts' x' h' =>
        obtain ⟨a1, a2, y, h1, h2, rfl⟩ := (ih r acts').mp h'
        exact ⟨⟨a, r⟩ :: a1, a2, y, .act a k r a1 y h1, h2, rfl⟩
    · rintro ⟨a1, a2, y, h1, h2, rfl⟩
      cases h1 with
      | act _ _ r acts' _ h' =>
        exact .act a _ r (acts' ++ a2) x ((ih r _).mpr ⟨acts', a2, y, h', h2, rfl⟩)

theorem path_do {α β : Type} (p : Prog α) (f : α → Prog β) (acts : List Done) (x : β) :
    Path (p >>= f) acts x ↔ ∃ a1 a2 y, Path p a1 y ∧ Path (f y) a2 x ∧ acts = a1 ++ a2 := path_bind p f acts x

theorem path_pure {α : Type} (a : α) (acts : List Done) (x : α) :
    Path (pure a : Prog α) acts x ↔ acts = [] ∧ x = a := by
  constructor
  · intro h
    cases h
    exact ⟨rfl, rfl⟩
  · rintro ⟨rfl, rfl⟩
    exact .pure _

theorem path_one (a : Act) (acts : List Done) (x : a.Ret) : Path (one a) acts x ↔ acts = [⟨a, x⟩] := by
  constructor
  · intro h
    cases h with
    | act _ _ r acts' _ h' =>
      cases h'
      rfl
  · rintro rfl
    exact .act a _ x [] x (.pure x)

theorem path_act (a : Act) {β : Type} {f : a.Ret → Prog β} {acts : List Done} {x : β} (h : Path (one a >>= f) acts x) :
    ∃ r a2, acts = ⟨a, r⟩ :: a2 ∧ Path (f r) a2 x := by
  obtain ⟨a1, a2, r, h1, h2, rfl⟩ := (path_do _ _ _ _).mp h
  rw [(path_one a _ _).mp h1]
  exact ⟨r, a2, rfl, h2⟩

theorem path_seq {α β : Type} {p : Prog α} {f : α → Prog β} {acts : List Done} {x : β} (h : Path (p >>= f) acts x) :
    ∃ a1 a2 y, acts = a1 ++ a2 ∧ Path p a1 y ∧ Path (f y) a2 x := by
  obtain ⟨a1, a2, y, h1, h2, h3⟩ := (path_do p f acts x).mp h
  exact ⟨a1, a2, y, h3, h1, h2⟩

theorem path_end {α : Type} {a : α} {acts : List Done} {x : α} (h : Path (pure a : Prog α) acts x) :
    acts = [] ∧ x = a := (path_pure a acts x).mp h

theorem path_if {α : Type} {b : Bool} {p q : Prog α} {acts : List Done} {x : α}
    (h : Path (if b = true then p else q) acts x) : (b = true ∧ Path p acts x) ∨ (b = false ∧ Path q acts x) := by
  cases b <;> simp_all

/-- An exchange that gives a reply has received one. -/
theorem sendRecvWith_some (disc : Prog (Bool × Bool)) (req : Bytes) (acts : List Done) (hp : Bytes × Bytes)
    (h : Path (sendRecvWith disc req) acts (some hp)) : 1 ≤ replies acts := by
  unfold sendRecvWith at h
  replace h := path_act .lock h
  obtain ⟨_, a1, rfl, h⟩ := h
  replace h := path_act (.write req) h
  obtain ⟨b, a2, rfl, h⟩ := h
  replace h := path_if h
  rcases h with ⟨-, h⟩ | ⟨-, h⟩
  · replace h := path_seq h
    obtain ⟨a4, a5, y, rfl, h4, h5⟩ := h
    cases y with
    | none =>
      replace h5 := path_act .unlock h5
      obtain ⟨_, a6, rfl, h⟩ := h5
      replace h := path_seq h
      obtain ⟨_, _, _, rfl, _, h⟩ := h
      have := (path_end h).2
      simp at this
    | some y =>
      obtain ⟨hh, p⟩ := y
      replace h5 := path_act (.handed req hh p) h5
      obtain ⟨_, a6, rfl, h⟩ := h5
      simp only [replies, replies_append]
      omega
  · replace h := path_act .unlock h
    obtain ⟨_, a6, rfl, h⟩ := h
    replace h := path_seq h
    obtain ⟨_, _, _, rfl, _, h⟩ := h
    have := (path_end h).2
    simp at this

theorem registerSession_true (acts : List Done) (h : Path registerSession acts true) : 1 ≤ replies acts := by
  unfold registerSession at h
  replace h := path_act .pick h
  obtain ⟨b, a2, rfl, h⟩ := h
  replace h := path_seq h
  obtain ⟨a3, a4, y, rfl, h3, h4⟩ := h
  cases y with
  | none =>
    have := (path_end h4).2
    simp at this
  | some hp =>
    have := sendRecvWith_some _ _ _ _ h3
    simp only [replies, replies_append]
    omega

theorem forwardOpen_true (acts : List Done) (h : Path forwardOpen acts true) : 1 ≤ replies acts := by
  unfold forwardOpen at h
  replace h := path_act .choose h
  obtain ⟨b, a2, rfl, h⟩ := h
  replace h := path_if h
  rcases h with ⟨-, h⟩ | ⟨-, h⟩
  · have := (path_end h).2
    simp at this
  · replace h := path_act .pick h
    obtain ⟨b, a2, rfl, h⟩ := h
    replace h := path_seq h
    obtain ⟨a3, a4, y, rfl, h3, h4⟩ := h
    cases y with
    | none =>
      have := (path_end h4).2
      simp at this
    | some hp =>
      have := sendRecvWith_some _ _ _ _ h3
      simp only [replies, replies_append]
      omega

theorem connectBody_true (acts : List Done) (h : Path connectBody acts true) :
    ⟨.dial, true⟩ ∈ acts ∧ 2 ≤ replies acts := by
  unfold connectBody at h
  replace h := path_act .choose h
  obtain ⟨b, a2, rfl, h⟩ := h
  replace h := path_if h
  rcases h with ⟨-, h⟩ | ⟨-, h⟩
  · have := (path_end h).2
    simp at this
  · replace h := path_act .dial h
    obtain ⟨c, a3, rfl, h⟩ := h
    replace h := path_if h
    rcases h with ⟨hc, h⟩ | ⟨-, h⟩
    · replace h := path_seq h
      obtain ⟨a4, a5, d, rfl, h4, h⟩ := h
      replace h := path_if h
      rcases h with ⟨hd, h⟩ | ⟨-, h⟩
      · rw [hd] at h4
        have hr := registerSession_true _ h4
        replace h := path_act .choose h
        obtain ⟨e, a6, rfl, h⟩ := h
        have hf : 1 ≤ replies a6 := by
          replace h := path_if h
          rcases h with ⟨-, h⟩ | ⟨-, h⟩
          · replace h := path_act .choose h
            obtain ⟨g, a7, rfl, h⟩ := h
            replace h := path_if h
            rcases h with ⟨-, h⟩ | ⟨-, h⟩
            · have := (path_end h).2
              simp at this
            · replace h := path_seq h
              obtain ⟨a8, a9, ok, rfl, h8, h⟩ := h
              replace h := path_if h
              rcases h with ⟨hok, h⟩ | ⟨-, h⟩
              · rw [hok] at h8
                have := forwardOpen_true _ h8
                simp only [replies, replies_append]
                omega
              · have := forwardOpen_true _ h
                simp only [replies, replies_append]
                omega
          · exact forwardOpen_true _ h
        refine ⟨?_, ?_⟩
        · rw [hc]
          simp
        · simp only [replies, replies_append]
          omega
      · have := (path_end h).2
        simp at this
    · have := (path_end h).2
      simp at this

/-- C27, success: a Connect that reports success was the one to connect, has opened a network connection and has received
at least two replies, to its session registration and to its forward open. -/
theorem C27_success_means (acts : List Done) (accepted : Bool) (h : Path connect acts (accepted, true)) :
    accepted = true ∧ ⟨.dial, true⟩ ∈ acts ∧ 2 ≤ replies acts := by
  unfold connect at h
  replace h := path_seq h
  obtain ⟨a1, a2, b, rfl, h1, h⟩ := h
  replace h := path_if h
  rcases h with ⟨-, h⟩ | ⟨-, h⟩
  · replace h := path_seq h
    obtain ⟨a3, a4, ok, rfl, h3, h⟩ := h
    replace h := path_seq h
    obtain ⟨a5, a6, _, rfl, h5, h⟩ := h
    have h6 := (path_end h).2
    injection h6 with h6 h7
    subst h6 h7
    have := connectBody_true _ h3
    refine ⟨rfl, ?_, ?_⟩
    · simp [this.1]
    · simp only [replies_append]
      omega
  · have := (path_end h).2
    simp at this

/-- There is such a path: a Connect to a device that answers. -/
example : ∃ acts, Path connect acts (true, true) := by
  let h : Option Bytes := some (List.replicate 24 0#8)
  exact ⟨_, .act .lock _ () _ _ (.act .getStatus _ .disconnected _ _ (.act (.setStatus .connecting) _ () _ _
    (.act .unlock _ () _ _ (.act .choose _ false _ _ (.act .dial _ true _ _ (.act .pick _ [1#8] _ _
    (.act .lock _ () _ _ (.act (.write [1#8]) _ true _ _ (.act (.read 24) _ h _ _
    (.act (.handed [1#8] (List.replicate 24 0#8) []) _ () _ _ (.act .unlock _ () _ _ (.act .choose _ false _ _
    (.act .choose _ false _ _ (.act .pick _ [2#8] _ _ (.act .lock _ () _ _ (.act (.write [2#8]) _ true _ _
    (.act (.read 24) _ h _ _ (.act (.handed [2#8] (List.replicate 24 0#8) []) _ () _ _ (.act .unlock _ () _ _
    (.act .choose _ true _ _ (.act .lock _ () _ _ (.act (.setStatus .connected) _ () _ _ (.act .unlock _ () _ _
    (.pure _))))))))))))))))))))))))⟩

/-- C27: an accepted Disconnect, if it comes to its end, has closed the network connection and reports success. -/
theorem C27_disconnect_means (acts : List Done) (ok : Bool) (h : Path disconnect acts (true, ok)) :
    ok = true ∧ ⟨.close, ()⟩ ∈ acts := by
  unfold disconnect at h
  rw [disconnectN] at h
  replace h := path_seq h
  obtain ⟨a1, a2, b, rfl, h1, h⟩ := h
  replace h := path_if h
  rcases h with ⟨-, h⟩ | ⟨-, h⟩
  · replace h := path_seq h
    obtain ⟨a3, a4, ok', rfl, h3, h⟩ := h
    replace h := path_seq h
    obtain ⟨a5, a6, _, rfl, h5, h⟩ := h
    replace h := path_end h
    obtain ⟨rfl, h6⟩ := h
    injection h6 with _ h6
    subst h6
    unfold disconnectBody at h3
    replace h3 := path_act .kaClose h3
    obtain ⟨_, a7, rfl, h⟩ := h3
    replace h := path_act .choose h
    obtain ⟨d, a9, rfl, h⟩ := h
    have hend : ∀ (l : List Done) (f : Prog Unit), Path (f >>= fun _ => one .close >>= fun _ => pure true) l ok →
        ok = true ∧ ⟨.close, ()⟩ ∈ l := by
      intro l f hl
      replace hl := path_seq hl
      obtain ⟨l1, l2, _, rfl, hl1, hl⟩ := hl
      replace hl := path_act .close hl
      obtain ⟨_, l3, rfl, hl⟩ := hl
      replace hl := path_end hl
      obtain ⟨rfl, hl⟩ := hl
      exact ⟨hl, by simp⟩
    have : ok = true ∧ ⟨.close, ()⟩ ∈ a9 := by
      replace h := path_if h
      rcases h with ⟨-, h⟩ | ⟨-, h⟩
      · exact hend _ (pure ()) h
      · replace h := path_act .pick h
        obtain ⟨_, a10, rfl, h⟩ := h
        replace h := path_seq h
        obtain ⟨a11, a12, _, rfl, h11, h⟩ := h
        have := hend _ (pure ()) h
        exact ⟨this.1, by simp [this.2]⟩
    exact ⟨this.1, by simp [this.2]⟩
  · have := (path_end h).2
    simp at this

/-- C60: a request that reports success has received a reply. -/
theorem C60_success_has_reply (acts : List Done) (h : Path request acts true) : 1 ≤ replies acts := by
  unfold request at h
  replace h := path_seq h
  obtain ⟨a1, a2, b, rfl, h1, h⟩ := h
  replace h := path_if h
  rcases h with ⟨-, h⟩ | ⟨-, h⟩
  · replace h := path_act .pick h
    obtain ⟨b, a2, rfl, h⟩ := h
    replace h := path_seq h
    obtain ⟨a3, a4, y, rfl, h3, h4⟩ := h
    cases y with
    | none =>
      have := (path_end h4).2
      simp at this
    | some hp =>
      have := sendRecvWith_some _ _ _ _ h3
      simp only [replies, replies_append]
      omega
  · have := (path_end h).2
    simp at this

end Gologix.Conc
