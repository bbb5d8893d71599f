import Verif.Model.Sequence
/-
C30: sequence counts.
-/
namespace Gologix

theorem one32 : (1 : BitVec 32).toNat = 1 := rfl

theorem draws_length (ts : List Nat) : ∀ v, (draws v ts).length = ts.length := by
  induction ts with
  | nil => intro v; rfl
  | cons t ts ih => intro v; simp [draws, ih]

/-- The i-th count, from any start, with wrap-around of the 32-bit counter. -/
theorem draws_count (ts : List Nat) : ∀ (v : BitVec 32) (i : Nat) (x : Nat × BitVec 16), (draws v ts)[i]? = some x →
    x.2.toNat = (v.toNat + i + 1) % 65536 := by
  induction ts with
  | nil => intro v i x h; simp [draws] at h
  | cons t ts ih =>
    intro v i x h
    cases i with
    | zero =>
      simp only [draws, List.getElem?_cons_zero, Option.some.injEq] at h
      subst h
      simp only [seqCount, sequencer, BitVec.toNat_setWidth, BitVec.toNat_add, one32]
      omega
    | succ i =>
      simp only [draws, List.getElem?_cons_succ] at h
      rw [ih _ i x h]
      simp only [sequencer, BitVec.toNat_add, one32]
      omega

/-- Among any 65536 consecutive draws, from any start and by any schedule of goroutines, all counts differ. -/
theorem C30_distinct (v : BitVec 32) (ts : List Nat) (i j : Nat) (x y : Nat × BitVec 16)
    (hij : i < j) (hj : j < i + 65536) (hx : (draws v ts)[i]? = some x) (hy : (draws v ts)[j]? = some y) : x.2 ≠ y.2 := by
  intro h
  have h1 := draws_count ts v i x hx
  have h2 := draws_count ts v j y hy
  rw [h, h2] at h1
  omega

/-- 65536 is the best possible: the next draw repeats. -/
theorem C30_repeats (v : BitVec 32) (ts : List Nat) (i : Nat) (x y : Nat × BitVec 16)
    (hx : (draws v ts)[i]? = some x) (hy : (draws v ts)[i + 65536]? = some y) : x.2 = y.2 := by
  have h1 := draws_count ts v i x hx
  have h2 := draws_count ts v (i + 65536) y hy
  apply BitVec.eq_of_toNat_eq
  omega

example : (draws 0xFFFFFFFF#32 [3, 1, 3]).map (·.2) = [0, 1, 2] := by decide

/-- GetAttrList draws from another generator, so its count can be that of the request just before it. -/
theorem C30_two_generators (v : BitVec 32) : ∃ w, counts v w [.any, .getAttrList] = [seqCount (v + 1), seqCount (v + 1)] :=
  ⟨v, rfl⟩

/-- Without GetAttrList the counts of a client are draws from one generator. -/
theorem C30_counts_are_draws (rs : List SeqReq) (h : .getAttrList ∉ rs) :
    ∀ v w, counts v w rs = (draws v (rs.map fun _ => 0)).map (·.2) := by
  induction rs with
  | nil => intro v w; rfl
  | cons r rs ih =>
    intro v w
    cases r with
    | any =>
      simp only [counts, List.map_cons, draws]
      rw [ih (fun hh => h (List.mem_cons_of_mem _ hh))]
    | getAttrList => exact absurd (List.mem_cons_self ..) h

end Gologix
