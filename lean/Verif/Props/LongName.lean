import Verif.Props.Ioi
/-
C11: names of more than 255 bytes.
-/
set_option linter.unusedSimpArgs false

namespace Gologix
open Spec

/-- Why C11 has its limit: a name of 256 bytes or more is not refused, and the path that is sent for it names another tag, the
first bytes of the name, as many as the length exceeds a multiple of 256. -/
theorem C11_long_name_cut (s : Str) (dt : Byte) (hl : 256 ≤ s.length) (h1 : 0x2E#8 ∉ s) (h2 : 0x5D#8 ∉ s)
    (hn : isNumeral s = false) :
    ∃ ioi rest, symbolicIOI s dt = .ok ioi ∧ decodePSeg ioi.buffer = some (.name (s.take (s.length % 256)), rest) ∧
      s.take (s.length % 256) ≠ s := by
  have hs : splitOn 0x2E#8 s = [s] := by
    have : splitOn 0x2E#8 (joinWith 0x2E#8 [s]) = [s] := splitOn_joinWith (by simp) (by simpa using h1)
    simpa [joinWith] using this
  have hb : s.getLast? ≠ some 0x5D#8 := fun h => h2 (List.mem_of_getLast? h)
  have ha : ¬ ((atoi s).isOk = true ∧ (atoi s).val ≤ 31) := fun h => by
    rw [atoi_isOk_numeral h.1] at hn
    cases hn
  refine ⟨⟨s, dt, false, 0, [] ++ ([0x91#8, BitVec.ofNat 8 s.length] ++ s ++ if s.length % 2 = 1 then [0#8] else [])⟩,
    (s ++ if s.length % 2 = 1 then [0#8] else []).drop (s.length % 256 + s.length % 256 % 2), ?_, ?_, ?_⟩
  · unfold symbolicIOI
    rw [hs]
    simp only [ioiParts, ioiPart]
    rw [if_neg hb, if_neg ha, marshal_name h1 h2]
    rfl
  · have e : (BitVec.ofNat 8 s.length).toNat = s.length % 256 := by simp
    simp only [List.nil_append, List.cons_append, decodePSeg, e, if_true]
    rw [if_neg (by rw [List.length_append]; omega), List.take_append_of_le_length (by omega)]
  · intro h
    have := congrArg List.length h
    rw [List.length_take] at this
    omega

/-- A name of 259 bytes is sent as its first three. -/
example : (symbolicIOI (str "abc" ++ List.replicate 256 0x61#8) tDINT).isOk ∧
    (match symbolicIOI (str "abc" ++ List.replicate 256 0x61#8) tDINT with
      | .ok i => (decodePSeg i.buffer).map (·.1) | _ => none) = some (.name (str "abc")) := by
  decide +kernel

end Gologix
