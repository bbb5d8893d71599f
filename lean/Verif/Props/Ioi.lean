import Verif.Model.Ioi
import Verif.Lemmas.Str
import Verif.Props.Segments
/-
C08 A tag path that is sent arrives as the same tag path
C09 Different tags have different request paths
C10 Tag addressing ignores letter case and past requests
C11 Symbolic request paths are well-formed for the controller
-/
namespace Gologix
open Spec (Part PSeg render renderPart renderIdx WfName WfPath decodePSeg decodePSegs decodePSegsAux
  segsOf)

/-! ### parsing a name or an indexed part -/

theorem bitAccessText_none_of_no_dot {s : Str} (h : 0x2E#8 ∉ s) : bitAccessText s = none := by
  unfold bitAccessText
  dsimp only
  split
  · rfl
  · split
    · rename_i t heq
      have : 0x2E#8 ∈ s.reverse.dropWhile isDigit := by simp [heq]
      exact absurd (List.mem_reverse.mp ((List.dropWhile_sublist _).mem this)) h
    · rfl

theorem bitAccessText_none_of_last {s : Str} {c : Byte} (hc : isDigit c = false) :
    bitAccessText (s ++ [c]) = none := by
  simp [bitAccessText, hc]

theorem arrayAccessText_none {s : Str} (h : 0x5D#8 ∉ s) : arrayAccessText s = none := by
  unfold arrayAccessText
  split
  · rename_i r heq
    have : 0x5D#8 ∈ s.reverse := by simp [heq]
    exact absurd (List.mem_reverse.mp this) h
  · rfl

theorem arrayAccessText_indexed {n t : Str} (h : ∀ b ∈ t, isIndexChar b = true) :
    arrayAccessText (n ++ [0x5B#8] ++ t ++ [0x5D#8]) = some t := by
  have h5 : isIndexChar 0x5B#8 = false := by decide
  have h' : ∀ b ∈ t.reverse, isIndexChar b = true := fun b hb => h b (List.mem_reverse.mp hb)
  have e1 : (t.reverse ++ 0x5B#8 :: n.reverse).takeWhile isIndexChar = t.reverse := by
    rw [List.takeWhile_append_of_pos h', List.takeWhile_cons_of_neg (by simp [h5])]; simp
  have e2 : (t.reverse ++ 0x5B#8 :: n.reverse).dropWhile isIndexChar = 0x5B#8 :: n.reverse := by
    rw [List.dropWhile_append_of_pos h', List.dropWhile_cons_of_neg (by simp [h5])]
  have e : (n ++ [0x5B#8] ++ t ++ [0x5D#8]).reverse = 0x5D#8 :: (t.reverse ++ 0x5B#8 :: n.reverse) := by
    simp
  simp only [arrayAccessText, e, e1, e2, List.reverse_reverse]

theorem marshal_name {s : Str} (h1 : 0x2E#8 ∉ s) (h2 : 0x5D#8 ∉ s) :
    marshalIOIPart s =
      .ok ([0x91#8, BitVec.ofNat 8 s.length] ++ s ++ if s.length % 2 = 1 then [0#8] else []) := by
  simp only [marshalIOIPart, parseTagName, bitAccessText_none_of_no_dot h1, arrayAccessText_none h2]
  simp only [Bool.not_true, Bool.false_eq_true, if_false]
  split <;> simp

theorem parseIndices_dec {is : List Nat} (h : ∀ i ∈ is, i < 2 ^ 63) :
    parseIndices (is.map dec) = (is.map Int.ofNat, true) := by
  induction is with
  | nil => rfl
  | cons i is ih =>
    simp only [List.map_cons, parseIndices, atoi_dec (h i (by simp)), Num.isOk, if_true, Num.val,
      ih fun j hj => h j (by simp [hj])]
    rfl

theorem isIndexChar_digit {b : Byte} (h : isDigit b = true) : isIndexChar b = true := by
  simp [isIndexChar, h]

theorem idxText_chars (is : List Nat) :
    ∀ b ∈ joinWith 0x2C#8 (is.map dec), isIndexChar b = true := by
  intro b hb
  rcases mem_joinWith hb with rfl | ⟨p, hp, hb⟩
  · decide
  · obtain ⟨i, _, rfl⟩ := List.mem_map.mp hp
    exact isIndexChar_digit (dec_digits i b hb)

theorem comma_not_dec (i : Nat) : 0x2C#8 ∉ dec i := by
  intro h; exact absurd (dec_digits i _ h) (by decide)

theorem parseTagName_indexed {n : Str} {is : List Nat} (hne : is ≠ []) (h : ∀ i ∈ is, i < 2 ^ 63) :
    (parseTagName (n ++ renderIdx is)).1.arrayOrder = is.map Int.ofNat := by
  have e : n ++ renderIdx is = n ++ [0x5B#8] ++ joinWith 0x2C#8 (is.map dec) ++ [0x5D#8] := by
    simp [renderIdx, hne]
  have hb : bitAccessText (n ++ renderIdx is) = none := by
    rw [e]; exact bitAccessText_none_of_last (by decide)
  have ha : arrayAccessText (n ++ renderIdx is) = some (joinWith 0x2C#8 (is.map dec)) := by
    rw [e]; exact arrayAccessText_indexed (idxText_chars is)
  have hs : splitOn 0x2C#8 (joinWith 0x2C#8 (is.map dec)) = is.map dec := by
    apply splitOn_joinWith (by simpa using hne)
    intro p hp; obtain ⟨i, _, rfl⟩ := List.mem_map.mp hp; exact comma_not_dec i
  simp only [parseTagName, hb, ha, hs, parseIndices_dec h]
  simp

/-- Request path bytes of one index, below 2^32. -/
def idxSeg (i : Nat) : Bytes :=
  if i < 256 then [0x28#8, BitVec.ofNat 8 i]
  else if i < 65536 then [0x29#8, 0#8] ++ le 2 i
  else [0x2A#8, 0#8] ++ le 4 i

theorem indexBytes_nat (i : Nat) : indexBytes (Int.ofNat i) = idxSeg i := by
  have e : ∀ w, BitVec.ofInt w (Int.ofNat i) = BitVec.ofNat w i := fun w => by simp
  unfold indexBytes idxSeg
  simp only [e, putBV_ofNat16, putBV_ofNat32]
  have : (Int.ofNat i < 256) = (i < 256) := by simp; omega
  have : (Int.ofNat i < 65536) = (i < 65536) := by simp; omega
  simp only [*]
  split
  · rfl
  · split <;> rfl

/-- Request path bytes of one path level. -/
def partBytes (p : Part) : Bytes :=
  [0x91#8, BitVec.ofNat 8 p.name.length] ++ p.name ++ (if p.name.length % 2 = 1 then [0#8] else []) ++
    (p.idx.map idxSeg).flatten

theorem getLast?_renderPart_idx (p : Part) (h : p.idx ≠ []) :
    (renderPart p).getLast? = some 0x5D#8 := by
  simp only [renderPart, renderIdx, if_neg h, ← List.append_assoc, List.getLast?_concat]

theorem indexOf_part {n t : Str} (h : 0x5B#8 ∉ n) : indexOf 0x5B#8 (n ++ 0x5B#8 :: t) = some n.length := by
  unfold indexOf
  rw [List.findIdx?_append]
  have : n.findIdx? (fun x => decide (x = 0x5B#8)) = none := by
    rw [List.findIdx?_eq_none_iff]
    intro x hx; simp; rintro rfl; exact h hx
  simp [this, List.findIdx?_cons]

theorem ioiPart_part {p : Part} {ioi : Ioi} {bound : Nat} (hb : bound ≤ 2 ^ 63)
    (hw : WfName p.name) (hi : ∀ i ∈ p.idx, i < bound) :
    ioiPart ioi (renderPart p) = .ok { ioi with buffer := ioi.buffer ++ partBytes p } := by
  obtain ⟨h0, hlen, hdot, hob, hcb, hnum⟩ := hw
  by_cases hp : p.idx = []
  · have e : renderPart p = p.name := by simp [renderPart, renderIdx, hp]
    rw [e]
    unfold ioiPart
    rw [if_neg]
    · dsimp only
      rw [if_neg]
      · rw [marshal_name hdot hcb]
        simp [partBytes, hp]
      · rintro ⟨h, -⟩
        rw [atoi_isOk_numeral h] at hnum; simp at hnum
    · intro h
      exact hcb (List.mem_of_getLast? h)
  · unfold ioiPart
    rw [if_pos (getLast?_renderPart_idx p hp)]
    have e : renderPart p = p.name ++ 0x5B#8 :: (joinWith 0x2C#8 (p.idx.map dec) ++ [0x5D#8]) := by
      simp [renderPart, renderIdx, hp]
    have hk : indexOf 0x5B#8 (renderPart p) = some p.name.length := by rw [e]; exact indexOf_part hob
    have ht : (renderPart p).take p.name.length = p.name := by simp [renderPart]
    have ha : (parseTagName (renderPart p)).1.arrayOrder = p.idx.map Int.ofNat :=
      parseTagName_indexed (n := p.name) hp fun i h => Nat.lt_of_lt_of_le (hi i h) hb
    simp only [hk, ht, marshal_name hdot hcb, Res.bind_ok, ha]
    have : (p.idx.map Int.ofNat).map indexBytes = p.idx.map idxSeg := by
      simp only [List.map_map]
      exact List.map_congr_left fun i _ => by rw [Function.comp_apply, indexBytes_nat]
    simp only [this]
    simp [partBytes]

theorem ioiParts_render {ps : List Part} {ioi : Ioi} {bound : Nat} (hb : bound ≤ 2 ^ 63)
    (hw : ∀ p ∈ ps, WfName p.name ∧ ∀ i ∈ p.idx, i < bound) :
    ioiParts ioi (ps.map renderPart) =
      .ok { ioi with buffer := ioi.buffer ++ (ps.map partBytes).flatten } := by
  induction ps generalizing ioi with
  | nil => simp [ioiParts]
  | cons p ps ih =>
    have hp := hw p (by simp)
    simp only [List.map_cons, ioiParts, ioiPart_part hb hp.1 hp.2, Res.bind_ok]
    rw [ih fun q hq => hw q (by simp [hq])]
    simp

theorem dot_not_renderPart {p : Part} (hw : WfName p.name) : 0x2E#8 ∉ renderPart p := by
  intro h
  simp only [renderPart, List.mem_append] at h
  rcases h with h | h
  · exact hw.2.2.1 h
  · unfold renderIdx at h
    split at h
    · simp at h
    · simp only [List.mem_append, List.mem_singleton] at h
      rcases h with (h | h) | h
      · revert h; decide
      · exact absurd (idxText_chars _ _ h) (by decide)
      · revert h; decide

theorem symbolicIOI_render {ps : List Part} {bound : Nat} (hb : bound ≤ 2 ^ 63)
    (hw : WfPath bound ps) (dt : Byte) :
    symbolicIOI (render ps) dt =
      .ok ⟨render ps, dt, false, 0, (ps.map partBytes).flatten⟩ := by
  unfold symbolicIOI
  have hs : splitOn 0x2E#8 (render ps) = ps.map renderPart := by
    apply splitOn_joinWith (by simpa using hw.1)
    intro s hs
    obtain ⟨p, hp, rfl⟩ := List.mem_map.mp hs
    exact dot_not_renderPart (hw.2 p hp).1
  rw [hs, ioiParts_render hb hw.2]
  simp

/-! ### lower case of a structured path -/

/-- The tag path with its names in lower case. -/
def lowerPath (ps : List Part) : List Part := ps.map fun p => { p with name := toLower p.name }

theorem isNumeral_toLower (s : Str) : Spec.isNumeral (toLower s) = Spec.isNumeral s := by
  have hall : ∀ t : Str, (toLower t).all isDigit = t.all isDigit := by
    intro t; simp [toLower, List.all_map, Function.comp_def, lowerByte_digit]
  have hnil : ∀ t : Str, (toLower t != []) = (t != []) := by
    intro t; cases t <;> rfl
  cases s with
  | nil => rfl
  | cons b t =>
    have h1 : lowerByte b = 0x2B#8 ↔ b = 0x2B#8 := lowerByte_eq_iff (by decide) (by decide) b
    have h2 : lowerByte b = 0x2D#8 ↔ b = 0x2D#8 := lowerByte_eq_iff (by decide) (by decide) b
    unfold Spec.isNumeral
    have : toLower (b :: t) = lowerByte b :: toLower t := rfl
    rw [this]
    dsimp only
    simp only [h1, h2]
    split
    · rw [hall, hnil]
    · rw [← this, hall, hnil]

theorem wfName_lower {s : Str} (h : WfName s) : WfName (toLower s) := by
  obtain ⟨h0, hl, h1, h2, h3, h4⟩ := h
  refine ⟨?_, ?_, ?_, ?_, ?_, ?_⟩
  · simpa [toLower] using h0
  · simpa [toLower] using hl
  · rwa [mem_toLower_iff (by decide) (by decide)]
  · rwa [mem_toLower_iff (by decide) (by decide)]
  · rwa [mem_toLower_iff (by decide) (by decide)]
  · rw [isNumeral_toLower]; exact h4

theorem wfPath_lower {bound : Nat} {ps : List Part} (h : WfPath bound ps) :
    WfPath bound (lowerPath ps) := by
  refine ⟨by simpa [lowerPath] using h.1, ?_⟩
  intro p hp
  obtain ⟨q, hq, rfl⟩ := List.mem_map.mp hp
  exact ⟨wfName_lower (h.2 q hq).1, (h.2 q hq).2⟩

theorem toLower_renderIdx (is : List Nat) : toLower (renderIdx is) = renderIdx is := by
  unfold renderIdx
  split
  · rfl
  · rw [toLower_append, toLower_append, toLower_joinWith (by decide)]
    congr 2
    congr 1
    rw [List.map_map]
    exact List.map_congr_left fun i _ => toLower_digits (dec_digits i)

theorem toLower_render (ps : List Part) : toLower (render ps) = render (lowerPath ps) := by
  unfold render lowerPath
  rw [toLower_joinWith (by decide), List.map_map, List.map_map]
  congr 1
  refine List.map_congr_left fun p _ => ?_
  simp [renderPart, toLower_append, toLower_renderIdx]

/-- No tag of the database is used for this request (firmware at most 20, or the tag is unknown, or
the data type asks for the symbolic form). -/
def NotDirect (db : TagDb) (s : Str) (dt : Byte) : Prop :=
  db.firmware ≤ 20 ∨ db.known (toLower s) = none ∨ dt = tStruct ∨ dt = tUnknown ∨ dt = tSTRING

theorem newIOI_symbolic {db : TagDb} {s : Str} {dt : Byte} (h : NotDirect db s dt) :
    (newIOI db [] s dt).1 = symbolicIOI (toLower s) dt := by
  have hd : directBytes db (toLower s) dt = none := by
    unfold directBytes
    rcases h with h | h | h | h | h
    · rw [if_neg (by omega)]
    · simp [h]
    all_goals
      split
      · split
        · rw [if_neg]; simp [h]
        · rfl
      · rfl
  simp only [newIOI, hd, List.lookup_nil]
  cases symbolicIOI (toLower s) dt <;> rfl

/-! ### C08 -/

theorem readN_cons_append {n : Nat} {a rest : Bytes} (h : a.length = n) :
    readN n (a ++ rest) = .ok (a, rest) := readN_append' h

theorem addIndex_first {s : Str} {c : Byte} (hl : s.getLast? = some c) (hc : c ≠ 0x5D#8) (i : Nat) :
    addIndex s i = .ok (s ++ renderIdx [i]) := by
  simp [addIndex, hl, hc, renderIdx, joinWith]

theorem addIndex_next {s : Str} {is : List Nat} (h : is ≠ []) (i : Nat) :
    addIndex (s ++ renderIdx is) i = .ok (s ++ renderIdx (is ++ [i])) := by
  have hl : (s ++ renderIdx is).getLast? = some 0x5D#8 := by
    simp only [renderIdx, if_neg h, ← List.append_assoc, List.getLast?_concat]
  have hd : (s ++ renderIdx is).dropLast = s ++ [0x5B#8] ++ joinWith 0x2C#8 (is.map dec) := by
    have : s ++ renderIdx is = (s ++ [0x5B#8] ++ joinWith 0x2C#8 (is.map dec)) ++ [0x5D#8] := by
      simp [renderIdx, h]
    rw [this, List.dropLast_concat]
  unfold addIndex
  simp only [hl, hd, if_true]
  have hj : joinWith 0x2C#8 ((is ++ [i]).map dec) = joinWith 0x2C#8 (is.map dec) ++ 0x2C#8 :: dec i := by
    rw [List.map_append]; exact joinWith_snoc _ (by simpa using h)
  have : renderIdx (is ++ [i]) = [0x5B#8] ++ joinWith 0x2C#8 ((is ++ [i]).map dec) ++ [0x5D#8] := by
    simp [renderIdx]
  rw [this, hj]; simp

theorem addIndex_step {s : Str} {c : Byte} (hl : s.getLast? = some c) (hc : c ≠ 0x5D#8)
    (is : List Nat) (i : Nat) :
    addIndex (s ++ renderIdx is) i = .ok (s ++ renderIdx (is ++ [i])) := by
  by_cases h : is = []
  · subst h
    have : renderIdx [] = [] := rfl
    rw [this, List.append_nil]; exact addIndex_first hl hc i
  · exact addIndex_next h i

theorem parse_idx {fuel : Nat} {s : Str} {i : Nat} {r : Bytes} (hi : i < 65536) :
    getTagFromPathAux (fuel + 1) s (idxSeg i ++ r) =
      (addIndex s i >>= fun s' => getTagFromPathAux fuel s' r) := by
  unfold idxSeg
  simp only [hi, if_true]
  split
  · rename_i h
    have e : (BitVec.ofNat 8 i).toNat = i := by simp; omega
    simp only [List.cons_append, List.nil_append, getTagFromPathAux, if_true, readBV8_cons,
      Res.bind_ok, e]
  · have e : (BitVec.ofNat 16 i).toNat = i := by simp; omega
    have h16 := readU16 (BitVec.ofNat 16 i) r
    rw [putBV_ofNat16] at h16
    simp only [List.cons_append, List.nil_append, getTagFromPathAux, readN_one_cons, Res.bind_ok,
      h16, e]
    simp

theorem parse_idxs {fuel : Nat} {s : Str} {c : Byte} {is : List Nat} {r : Bytes} (done : List Nat)
    (hl : s.getLast? = some c) (hc : c ≠ 0x5D#8) (hi : ∀ i ∈ is, i < 65536) :
    getTagFromPathAux (is.length + fuel) (s ++ renderIdx done) ((is.map idxSeg).flatten ++ r) =
      getTagFromPathAux fuel (s ++ renderIdx (done ++ is)) r := by
  induction is generalizing done with
  | nil => simp
  | cons i is ih =>
    have : (i :: is).length + fuel = (is.length + fuel) + 1 := by simp; omega
    rw [this]
    simp only [List.map_cons, List.flatten_cons, List.append_assoc]
    rw [parse_idx (hi i (by simp)), addIndex_step hl hc, Res.bind_ok]
    rw [ih (done ++ [i]) fun j hj => hi j (by simp [hj])]
    simp

theorem parse_name {fuel : Nat} {s n : Str} {r : Bytes} (hn : n.length ≤ 255) :
    getTagFromPathAux (fuel + 1) s
        ([0x91#8, BitVec.ofNat 8 n.length] ++ n ++ (if n.length % 2 = 1 then [0#8] else []) ++ r) =
      getTagFromPathAux fuel (if s = [] then n else s ++ [0x2E#8] ++ n) r := by
  have e : (BitVec.ofNat 8 n.length).toNat = n.length := by simp; omega
  have hA : getAsciiTagPart
      (BitVec.ofNat 8 n.length :: (n ++ ((if n.length % 2 = 1 then [0#8] else []) ++ r))) = .ok (n, r) := by
    unfold getAsciiTagPart
    simp only [readBV8_cons, Res.bind_ok, e, readN_append]
    split <;> simp [readN_one_cons, Res.bind_ok]
  simp only [List.cons_append, List.nil_append, List.append_assoc, getTagFromPathAux, hA, Res.bind_ok]
  simp

theorem getLast?_append_ne {a b : Str} (h : b ≠ []) : (a ++ b).getLast? = b.getLast? := by
  simp [List.getLast?_append, List.getLast?_eq_some_getLast h]

theorem parse_part {fuel : Nat} {s : Str} {p : Part} {r : Bytes} (hw : WfName p.name)
    (hi : ∀ i ∈ p.idx, i < 65536) :
    getTagFromPathAux (p.idx.length + fuel + 1) s (partBytes p ++ r) =
      getTagFromPathAux fuel (if s = [] then renderPart p else s ++ [0x2E#8] ++ renderPart p) r := by
  obtain ⟨h0, hlen, -, -, hcb, -⟩ := hw
  unfold partBytes
  rw [List.append_assoc, parse_name hlen]
  have hl : ∀ t : Str, (t ++ p.name).getLast? = some (p.name.getLast h0) := fun t => by
    rw [getLast?_append_ne h0, List.getLast?_eq_some_getLast h0]
  have hc : p.name.getLast h0 ≠ 0x5D#8 := fun e => hcb (e ▸ List.getLast_mem h0)
  by_cases hs : s = []
  · simp only [hs, if_true]
    have := parse_idxs (fuel := fuel) (is := p.idx) (r := r) [] (hl []) hc hi
    simpa [renderPart, renderIdx] using this
  · simp only [hs, if_false]
    have := parse_idxs (fuel := fuel) (is := p.idx) (r := r) [] (hl (s ++ [0x2E#8])) hc hi
    have h1 : renderIdx [] = [] := rfl
    rw [h1, List.append_nil, List.nil_append] at this
    rw [this]
    simp [renderPart]

/-- How many segments a path has. -/
def segCount (ps : List Part) : Nat := (ps.map fun p => p.idx.length + 1).sum

theorem parse_parts {fuel : Nat} {s : Str} {ps : List Part} {r : Bytes}
    (hw : ∀ p ∈ ps, WfName p.name ∧ ∀ i ∈ p.idx, i < 65536) :
    getTagFromPathAux (segCount ps + fuel) s ((ps.map partBytes).flatten ++ r) =
      getTagFromPathAux fuel
        (if ps = [] then s else if s = [] then render ps else s ++ [0x2E#8] ++ render ps) r := by
  induction ps generalizing s with
  | nil => simp [segCount]
  | cons p ps ih =>
    have hp := hw p (by simp)
    have e : segCount (p :: ps) + fuel = p.idx.length + (segCount ps + fuel) + 1 := by
      simp [segCount]; omega
    rw [e]
    simp only [List.map_cons, List.flatten_cons, List.append_assoc]
    rw [parse_part hp.1 hp.2, ih fun q hq => hw q (by simp [hq])]
    congr 1
    have hne : renderPart p ≠ [] := by
      have := hp.1.1; simp [renderPart, this]
    cases ps with
    | nil => simp [render, joinWith]
    | cons q qs => by_cases hs : s = [] <;> simp [hs, hne, render, joinWith]

theorem getTag_fuel {f : Nat} {s : Str} {r : Bytes} (h : r.length < f) (g : Nat) :
    getTagFromPathAux (f + g) s r = getTagFromPathAux f s r := by
  induction f generalizing s r with
  | zero => omega
  | succ f ih =>
    have : f + 1 + g = (f + g) + 1 := by omega
    rw [this]
    cases r with
    | nil => simp [getTagFromPathAux]
    | cons t r1 =>
      simp only [getTagFromPathAux]
      simp only [List.length_cons] at h
      split
      · cases hr : readBV 8 r1 with
        | ok x =>
          have := readBV_ok (by decide) hr
          have hlen : x.2.length ≤ r1.length := by rw [this]; simp
          simp only [Res.bind_ok]
          cases addIndex s x.1.toNat with
          | ok s' => simp only [Res.bind_ok]; exact ih (by omega)
          | err e => rfl
          | panic => rfl
        | err e => rfl
        | panic => rfl
      · split
        · cases hr : readN 1 r1 with
          | ok x =>
            obtain ⟨_, h1⟩ := readN_ok hr
            simp only [Res.bind_ok]
            cases hr2 : readBV 16 x.2 with
            | ok y =>
              have h2 := readBV_ok (by decide) hr2
              have hlen : y.2.length ≤ r1.length := by rw [h1, h2]; simp; omega
              simp only [Res.bind_ok]
              cases addIndex s y.1.toNat with
              | ok s' => simp only [Res.bind_ok]; exact ih (by omega)
              | err e => rfl
              | panic => rfl
            | err e => rfl
            | panic => rfl
          | err e => rfl
          | panic => rfl
        · split
          · cases hr : getAsciiTagPart r1 with
            | ok x =>
              have hlen : x.2.length ≤ r1.length := by
                unfold getAsciiTagPart at hr
                simp only [Res.bind_eq_ok] at hr
                obtain ⟨⟨l, a⟩, h1, ⟨b, c⟩, h2, h3⟩ := hr
                have h1 := readBV_ok (by decide) h1
                obtain ⟨_, h2⟩ := readN_ok h2
                dsimp only at h2 h3
                split at h3
                · simp only [Res.bind_eq_ok] at h3
                  obtain ⟨⟨d, e⟩, h4, h5⟩ := h3
                  obtain ⟨_, h4⟩ := readN_ok h4
                  simp at h5; rw [← h5, h1, h2, h4]; simp; omega
                · simp at h3; rw [← h3, h1, h2]; simp; omega
              simp only [Res.bind_ok]; exact ih (by omega)
            | err e => rfl
            | panic => rfl
          · rfl

/-- The fuel of the model's loop is never the reason it stops. -/
theorem getTagFromPath_fuel (r : Bytes) (g : Nat) :
    getTagFromPathAux (r.length + 1 + g) [] r = getTagFromPath r := getTag_fuel (by omega) g

theorem stop_at {fuel : Nat} {s : Str} {rest : Bytes}
    (h : ∀ b, rest.head? = some b → b ≠ 0x28#8 ∧ b ≠ 0x29#8 ∧ b ≠ 0x91#8) :
    getTagFromPathAux (fuel + 1) s rest = .ok (s, rest) := by
  cases rest with
  | nil => rfl
  | cons t r =>
    obtain ⟨h1, h2, h3⟩ := h t rfl
    simp [getTagFromPathAux, h1, h2, h3]

theorem segCount_le {ps : List Part} : segCount ps ≤ ((ps.map partBytes).flatten).length := by
  induction ps with
  | nil => simp [segCount]
  | cons p ps ih =>
    have h2 : p.idx.length ≤ ((p.idx.map idxSeg).flatten).length := by
      induction p.idx with
      | nil => simp
      | cons i is ih =>
        have : 1 ≤ (idxSeg i).length := by unfold idxSeg; split <;> (try split) <;> simp
        simp only [List.map_cons, List.flatten_cons, List.length_append, List.length_cons]; omega
    have h3 : p.idx.length + 1 ≤ (partBytes p).length := by
      unfold partBytes
      simp only [List.length_append, List.length_cons]
      omega
    have e : segCount (p :: ps) = (p.idx.length + 1) + segCount ps := by simp [segCount]
    simp only [List.map_cons, List.flatten_cons, List.length_append]
    omega

/-- C08, for requests whose next byte after the path is not one of the three segment codes.
Missing: the server does not use the announced path length, so a following byte 0x28, 0x29 or 0x91
(such as the element count 40) is taken for a path segment, see `C08_count_eaten`; and indices from
65536 on are not understood, see `C08_index32_lost`. -/
theorem C08_tag_path_roundtrip_partial (ps : List Part) (hw : WfPath 65536 ps) (db : TagDb) (dt : Byte)
    (hdb : NotDirect db (render ps) dt) (rest : Bytes)
    (hrest : ∀ b, rest.head? = some b → b ≠ 0x28#8 ∧ b ≠ 0x29#8 ∧ b ≠ 0x91#8) :
    ∃ ioi, (newIOI db [] (render ps) dt).1 = .ok ioi ∧
      getTagFromPath (ioi.buffer ++ rest) = .ok (toLower (render ps), rest) := by
  have hl := wfPath_lower hw
  rw [newIOI_symbolic hdb, toLower_render, symbolicIOI_render (by decide) hl]
  refine ⟨_, rfl, ?_⟩
  dsimp only
  have hs := segCount_le (ps := lowerPath ps)
  generalize hB : ((lowerPath ps).map partBytes).flatten = B at hs
  have e : (B ++ rest).length + 1 =
      segCount (lowerPath ps) + ((B.length - segCount (lowerPath ps)) + rest.length + 1) := by
    simp; omega
  unfold getTagFromPath
  rw [e, ← hB, parse_parts hl.2, stop_at hrest]
  simp [hl.1]

/-- Two levels, three indices, an odd-length name and upper case; followed by a request body. -/
example : WfPath 65536 [⟨str "Program:Main", []⟩, ⟨str "Profile", [0, 1, 257]⟩, ⟨str "x", [70]⟩] ∧
    (∀ b, ([0x01#8, 0x00#8] : Bytes).head? = some b → b ≠ 0x28#8 ∧ b ≠ 0x29#8 ∧ b ≠ 0x91#8) ∧
    render [⟨str "Profile", [0, 1, 257]⟩, ⟨str "x", [70]⟩] = str "Profile[0,1,257].x[70]" := by
  decide

/-- Disagreement: a read of 40 (0x28) elements.  After any well-formed path the server takes the
element count `28 00` for an index 0 and the count is gone. -/
theorem C08_count_eaten (ps : List Part) (hw : WfPath 65536 ps) (q : Part)
    (hq : ps.getLast? = some q) (hqi : q.idx = []) (hlow : lowerPath ps = ps) :
    getTagFromPath ((ps.map partBytes).flatten ++ [0x28#8, 0x00#8]) =
      .ok (render ps ++ str "[0]", []) := by
  have hs := segCount_le (ps := ps)
  generalize hB : (ps.map partBytes).flatten = B at hs
  have e : (B ++ [0x28#8, 0x00#8]).length + 1 = segCount ps + ((B.length - segCount ps) + 1 + 1 + 1) := by
    simp; omega
  unfold getTagFromPath
  rw [e, ← hB, parse_parts hw.2]
  simp only [hw.1, if_false, if_true]
  have h0 := parse_idx (fuel := (B.length - segCount ps) + 1 + 1) (s := render ps) (i := 0) (r := [])
    (by decide)
  have e0 : idxSeg 0 ++ [] = [0x28#8, 0x00#8] := by decide
  rw [e0] at h0
  rw [hB, h0]
  have hqw := (hw.2 q (List.mem_of_getLast? hq)).1
  have hlast : (render ps).getLast? = some (q.name.getLast hqw.1) := by
    obtain ⟨ys, rfl⟩ := List.getLast?_eq_some_iff.mp hq
    have hqr : renderPart q = q.name := by simp [renderPart, hqi, renderIdx]
    unfold render
    rw [List.map_append]
    by_cases hy : ys = []
    · subst hy; simp [joinWith, hqr, List.getLast?_eq_some_getLast hqw.1]
    · rw [List.map_singleton, joinWith_snoc _ (by simpa using hy), hqr]
      have : joinWith 0x2E#8 (List.map renderPart ys) ++ 0x2E#8 :: q.name =
        (joinWith 0x2E#8 (List.map renderPart ys) ++ [0x2E#8]) ++ q.name := by simp
      rw [this, getLast?_append_ne hqw.1, List.getLast?_eq_some_getLast hqw.1]
  rw [addIndex_first hlast (fun e => hqw.2.2.2.2.1 (e ▸ List.getLast_mem hqw.1))]
  simp only [Res.bind_ok]
  rw [stop_at (by simp)]
  congr 2

example : getTagFromPath ([0x91#8, 3] ++ str "arr" ++ [0] ++ [0x28#8, 0x00#8]) = .ok (str "arr[0]", []) ∧
    lowerPath [⟨str "arr", []⟩] = [⟨str "arr", []⟩] := by decide

/-- Disagreement: an index from 65536 on is sent as a 32-bit segment that the server leaves unread. -/
theorem C08_index32_lost :
    ∃ ps, WfPath (2 ^ 32) ps ∧ ∃ ioi, symbolicIOI (render ps) tDINT = .ok ioi ∧
      getTagFromPath (ioi.buffer ++ [1#8, 0#8]) = .ok (str "arr", [0x2A#8, 0, 0x70#8, 0x11#8, 1, 0, 1, 0]) :=
  ⟨[⟨str "arr", [70000]⟩], by decide, _, rfl, by decide⟩

/-! ### C11 and C09 -/

theorem decodePSeg_shrinks {b rest : Bytes} {s : PSeg} (h : decodePSeg b = some (s, rest)) :
    rest.length < b.length := by
  unfold decodePSeg at h
  repeat' (first | split at h | (dsimp only at h; split at h))
  all_goals simp only [Option.some.injEq, Prod.mk.injEq, reduceCtorEq] at h
  all_goals
    obtain ⟨-, rfl⟩ := h
    simp
    try omega

theorem decodePSegsAux_fuel {f : Nat} {b : Bytes} (h : b.length ≤ f) (g : Nat) :
    decodePSegsAux (f + g) b = decodePSegsAux f b := by
  induction f generalizing b with
  | zero =>
    have : b = [] := List.eq_nil_of_length_eq_zero (by omega)
    subst this; cases g <;> rfl
  | succ f ih =>
    have : f + 1 + g = (f + g) + 1 := by omega
    rw [this]
    cases b with
    | nil => rfl
    | cons x xs =>
      simp only [decodePSegsAux]
      cases hd : decodePSeg (x :: xs) with
      | none => rfl
      | some y =>
        have := decodePSeg_shrinks hd
        simp only [List.length_cons] at this h
        dsimp only
        rw [ih (by omega)]

theorem decodePSegs_cons {b rest : Bytes} {s : PSeg} (h : decodePSeg b = some (s, rest)) :
    decodePSegs b = (decodePSegs rest).map (s :: ·) := by
  have hs := decodePSeg_shrinks h
  unfold decodePSegs
  cases b with
  | nil => simp [decodePSeg] at h
  | cons x xs =>
    simp only [List.length_cons, decodePSegsAux, h]
    simp only [List.length_cons] at hs
    have : xs.length = rest.length + (xs.length - rest.length) := by omega
    rw [this, decodePSegsAux_fuel (by omega)]

/-- One complete segment in front of anything. -/
def CompleteSeg (b : Bytes) (s : PSeg) : Prop := ∀ rest, decodePSeg (b ++ rest) = some (s, rest)

theorem complete_name {n : Str} (h : n.length ≤ 255) :
    CompleteSeg ([0x91#8, BitVec.ofNat 8 n.length] ++ n ++ if n.length % 2 = 1 then [0#8] else [])
      (.name n) := by
  intro rest
  have e : (BitVec.ofNat 8 n.length).toNat = n.length := by simp; omega
  simp only [List.cons_append, List.nil_append, List.append_assoc, decodePSeg, if_true, e]
  split
  · rename_i hp
    rw [if_neg (by simp; omega)]
    simp [hp, List.drop_append]
  · rename_i hp
    have : n.length % 2 = 0 := by omega
    rw [if_neg (by simp; omega)]
    simp [this]

theorem complete_idx {i : Nat} (h : i < 2 ^ 32) : CompleteSeg (idxSeg i) (.element i) := by
  intro rest
  unfold idxSeg
  split
  · simp [decodePSeg]; omega
  · split
    · simp [decodePSeg, le]; omega
    · simp [decodePSeg, le, Nat.div_div_eq_div_mul]; omega

theorem decode_segments {bs : List (Bytes × PSeg)} (h : ∀ x ∈ bs, CompleteSeg x.1 x.2) :
    decodePSegs ((bs.map (·.1)).flatten) = some (bs.map (·.2)) := by
  induction bs with
  | nil => rfl
  | cons x xs ih =>
    simp only [List.map_cons, List.flatten_cons]
    rw [decodePSegs_cons (h x (by simp) _), ih fun y hy => h y (by simp [hy])]
    rfl

theorem decode_parts {ps : List Part} (hw : ∀ p ∈ ps, WfName p.name ∧ ∀ i ∈ p.idx, i < 2 ^ 32) :
    decodePSegs ((ps.map partBytes).flatten) = some (segsOf ps) := by
  let seg : Part → List (Bytes × PSeg) := fun p =>
    ([0x91#8, BitVec.ofNat 8 p.name.length] ++ p.name ++ (if p.name.length % 2 = 1 then [0#8] else []),
      PSeg.name p.name) :: p.idx.map fun i => (idxSeg i, PSeg.element i)
  have h := decode_segments (bs := (ps.map seg).flatten) (by
    intro x hx
    obtain ⟨l, hl, hx⟩ := List.mem_flatten.mp hx
    obtain ⟨p, hp, rfl⟩ := List.mem_map.mp hl
    have := hw p hp
    simp only [seg, List.mem_cons, List.mem_map] at hx
    rcases hx with rfl | ⟨i, hi, rfl⟩
    · exact complete_name this.1.2.1
    · exact complete_idx (this.2 i hi))
  have e1 : ((ps.map seg).flatten.map (·.1)).flatten = (ps.map partBytes).flatten := by
    rw [List.map_flatten, List.map_map]
    clear h hw
    induction ps with
    | nil => rfl
    | cons p ps ih =>
      simp only [List.map_cons, List.flatten_cons, List.flatten_append, ih]
      simp [seg, partBytes, List.map_map, Function.comp_def]
  have e2 : (ps.map seg).flatten.map (·.2) = segsOf ps := by
    unfold segsOf
    rw [List.map_flatten, List.map_map]
    congr 1
    refine List.map_congr_left fun p _ => ?_
    simp [seg, List.map_map, Function.comp_def]
  rw [e1, e2] at h
  exact h

theorem segsOf_inj {ps qs : List Part} (h : segsOf ps = segsOf qs) : ps = qs := by
  have key : ∀ (is js : List Nat) (a b : List PSeg),
      (∀ n, a.head? ≠ some (.element n)) → (∀ n, b.head? ≠ some (.element n)) →
      is.map PSeg.element ++ a = js.map PSeg.element ++ b → is = js ∧ a = b := by
    intro is
    induction is with
    | nil =>
      intro js a b ha _ h
      cases js with
      | nil => exact ⟨rfl, h⟩
      | cons j js => simp at h; exact absurd (by rw [h]; rfl) (ha j)
    | cons i is ih =>
      intro js a b ha hb h
      cases js with
      | nil => simp at h; exact absurd (by rw [← h]; rfl) (hb i)
      | cons j js =>
        simp at h
        obtain ⟨rfl, h⟩ := h
        obtain ⟨rfl, rfl⟩ := ih js a b ha hb h
        exact ⟨rfl, rfl⟩
  have hh : ∀ ps : List Part, ∀ n, (segsOf ps).head? ≠ some (.element n) := by
    intro ps n; cases ps <;> simp [segsOf]
  induction ps generalizing qs with
  | nil => cases qs with
    | nil => rfl
    | cons q qs => simp [segsOf] at h
  | cons p ps ih =>
    cases qs with
    | nil => simp [segsOf] at h
    | cons q qs =>
      have e : ∀ (p : Part) ps, segsOf (p :: ps) = .name p.name :: (p.idx.map PSeg.element ++ segsOf ps) := by
        intro p ps; simp [segsOf]
      rw [e, e] at h
      injection h with h1 h2
      injection h1 with h1
      obtain ⟨hi, hr⟩ := key _ _ _ _ (hh ps) (hh qs) h2
      rw [ih hr]
      congr 1
      cases p; cases q; simp_all

/-- C09, what the request path of a well-formed tag denotes to a decoder of the published format. -/
theorem C09_request_path_denotes (ps : List Part) (hw : WfPath (2 ^ 32) ps) (db : TagDb) (dt : Byte)
    (hdb : NotDirect db (render ps) dt) :
    ∃ ioi, (newIOI db [] (render ps) dt).1 = .ok ioi ∧ ioi.bitAccess = false ∧
      decodePSegs ioi.buffer = some (segsOf (lowerPath ps)) := by
  have hl := wfPath_lower hw
  rw [newIOI_symbolic hdb, toLower_render, symbolicIOI_render (by decide) hl]
  exact ⟨_, rfl, rfl, decode_parts hl.2⟩

/-- C09: tags that differ other than in letter case have different request paths. -/
theorem C09_request_paths_differ (ps qs : List Part) (hp : WfPath (2 ^ 32) ps) (hq : WfPath (2 ^ 32) qs)
    (db : TagDb) (dt dt' : Byte) (hdp : NotDirect db (render ps) dt) (hdq : NotDirect db (render qs) dt')
    (i j : Ioi) (hi : (newIOI db [] (render ps) dt).1 = .ok i) (hj : (newIOI db [] (render qs) dt').1 = .ok j)
    (h : i.buffer = j.buffer) : toLower (render ps) = toLower (render qs) := by
  obtain ⟨i', hi', -, h1⟩ := C09_request_path_denotes ps hp db dt hdp
  obtain ⟨j', hj', -, h2⟩ := C09_request_path_denotes qs hq db dt' hdq
  rw [hi] at hi'; rw [hj] at hj'
  injection hi' with hi'; injection hj' with hj'
  subst hi'; subst hj'
  rw [h, h2] at h1
  have := segsOf_inj (Option.some.inj h1)
  rw [toLower_render, toLower_render, this]

example : WfPath (2 ^ 32) [⟨str "a", [70000]⟩, ⟨str "b", []⟩] ∧
    (symbolicIOI (render [⟨str "a", [70000]⟩, ⟨str "b", []⟩]) tDINT).isOk := by decide

/-! known tags, addressed by symbol instance -/

theorem instanceBytes_inj {a b : BitVec 32} (h : instanceBytes a = instanceBytes b) : a = b := by
  have h1 := (C05_instance a []).1
  have h2 := (C05_instance b []).1
  rw [h, h2] at h1
  simpa using h1.symm

theorem instanceBytes_append_inj {a b : BitVec 32} {x y : Bytes}
    (h : instanceBytes a ++ x = instanceBytes b ++ y) : a = b ∧ x = y := by
  have h1 := (C05_instance a x).1
  have h2 := (C05_instance b y).1
  rw [h, h2] at h1
  simp at h1
  exact ⟨h1.1.symm, h1.2.symm⟩

/-- C09 for tags of a controller listing: the path of a listed tag determines its symbol instance and
its program (by number, or by name if the number is not known). -/
theorem C09_known_tags_differ (t u : KnownTag) (h : t.bytes = u.bytes)
    (ht : ∀ p, t.parent = some p → WfName (str "Program:" ++ p.name))
    (hu : ∀ p, u.parent = some p → WfName (str "Program:" ++ p.name)) :
    t.inst = u.inst ∧ (t.parent.map fun p => (p.id, if p.id = 0 then p.name else [])) =
      (u.parent.map fun p => (p.id, if p.id = 0 then p.name else [])) := by
  have hc6 : classBytes 0x6B#16 = [0x20#8, 0x6B#8] := by decide
  have hc8 : classBytes 0x68#16 = [0x20#8, 0x68#8] := by decide
  have hp : ∀ p : KnownProgram, WfName (str "Program:" ++ p.name) → p.id = 0 → p.bytes =
      [0x91#8, BitVec.ofNat 8 (str "Program:" ++ p.name).length] ++ (str "Program:" ++ p.name) ++
        if (str "Program:" ++ p.name).length % 2 = 1 then [0#8] else [] := by
    intro p hw h0
    unfold KnownProgram.bytes
    rw [if_pos h0, marshal_name hw.2.2.1 hw.2.2.2.2.1]
  have hp' : ∀ p : KnownProgram, p.id ≠ 0 → p.bytes = [0x20#8, 0x68#8] ++ instanceBytes p.id := by
    intro p h0; unfold KnownProgram.bytes; rw [if_neg h0, hc8]
  unfold KnownTag.bytes at h
  rw [hc6] at h
  cases htp : t.parent with
  | none =>
    cases hup : u.parent with
    | none =>
      simp only [htp, hup, List.cons_append, List.nil_append, List.cons.injEq, true_and] at h
      exact ⟨instanceBytes_inj h, rfl⟩
    | some q =>
      simp only [htp, hup] at h
      by_cases h0 : q.id = 0
      · rw [hp q (hu q hup) h0] at h; simp at h
      · rw [hp' q h0] at h; simp at h
  | some p =>
    cases hup : u.parent with
    | none =>
      simp only [htp, hup] at h
      by_cases h0 : p.id = 0
      · rw [hp p (ht p htp) h0] at h; simp at h
      · rw [hp' p h0] at h; simp at h
    | some q =>
      simp only [htp, hup] at h
      by_cases h0 : p.id = 0
      · by_cases h1 : q.id = 0
        · rw [hp p (ht p htp) h0, hp q (hu q hup) h1] at h
          have d1 := complete_name (ht p htp).2.1
          have d2 := complete_name (hu q hup).2.1
          simp only [List.append_assoc] at h d1 d2
          have d1 := d1 ([0x20#8, 0x6B#8] ++ instanceBytes t.inst)
          have d2 := d2 ([0x20#8, 0x6B#8] ++ instanceBytes u.inst)
          simp only [List.append_assoc] at d1 d2
          rw [h, d2] at d1
          simp only [Option.some.injEq, Prod.mk.injEq, PSeg.name.injEq, List.append_cancel_left_eq] at d1
          have hn := d1.1
          have hi := instanceBytes_inj d1.2
          simp [h0, h1, hn, hi]
        · rw [hp p (ht p htp) h0, hp' q h1] at h; simp at h
      · by_cases h1 : q.id = 0
        · rw [hp' p h0, hp q (hu q hup) h1] at h; simp at h
        · rw [hp' p h0, hp' q h1] at h
          simp only [List.append_assoc, List.append_cancel_left_eq] at h
          obtain ⟨hid, hrest⟩ := instanceBytes_append_inj h
          simp only [List.append_cancel_left_eq] at hrest
          have hi := instanceBytes_inj hrest
          simp only [hid, hi, Option.map_some, if_neg h1, and_self]

example : KnownTag.bytes ⟨tDINT, 300, some ⟨str "Main", 5⟩⟩ =
    [0x20, 0x68, 0x24, 5, 0x20, 0x6B, 0x25, 0, 0x2C, 1] ∧ WfName (str "Program:" ++ str "Main") := by
  decide

/-! ### C11 -/

/-- A byte string made of complete segments, each a whole number of words. -/
def Segmented (b : Bytes) : Prop :=
  ∃ l : List (Bytes × PSeg), b = (l.map (·.1)).flatten ∧ ∀ x ∈ l, CompleteSeg x.1 x.2 ∧ x.1.length % 2 = 0

theorem Segmented.nil : Segmented [] := ⟨[], rfl, by simp⟩

theorem Segmented.one {b : Bytes} {s : PSeg} (h : CompleteSeg b s) (he : b.length % 2 = 0) :
    Segmented b := ⟨[(b, s)], by simp, by simpa using ⟨h, he⟩⟩

theorem Segmented.append {a b : Bytes} (ha : Segmented a) (hb : Segmented b) : Segmented (a ++ b) := by
  obtain ⟨l, rfl, hl⟩ := ha
  obtain ⟨m, rfl, hm⟩ := hb
  refine ⟨l ++ m, by simp, ?_⟩
  intro x hx
  rcases List.mem_append.mp hx with h | h
  · exact hl x h
  · exact hm x h

theorem Segmented.flatten {l : List Bytes} (h : ∀ b ∈ l, Segmented b) : Segmented l.flatten := by
  induction l with
  | nil => exact .nil
  | cons b bs ih =>
    rw [List.flatten_cons]
    exact (h b (by simp)).append (ih fun c hc => h c (by simp [hc]))

theorem Segmented.even {b : Bytes} (h : Segmented b) : b.length % 2 = 0 := by
  obtain ⟨l, rfl, hl⟩ := h
  induction l with
  | nil => rfl
  | cons x xs ih =>
    have h1 := (hl x (by simp)).2
    have h2 := ih fun y hy => hl y (by simp [hy])
    simp only [List.map_cons, List.flatten_cons, List.length_append]
    omega

theorem segmented_index (i : Int) : Segmented (indexBytes i) := by
  unfold indexBytes
  split
  · exact .one (s := .element (BitVec.ofInt 8 i).toNat) (fun rest => by simp [decodePSeg]) (by simp)
  · split
    · refine .one (s := .element (BitVec.ofInt 16 i).toNat) (fun rest => ?_) (by simp)
      generalize BitVec.ofInt 16 i = v
      have := v.isLt
      rw [putBV16_eq, putBV16_eq]
      simp [decodePSeg]; omega
    · refine .one (s := .element (BitVec.ofInt 32 i).toNat) (fun rest => ?_) (by simp)
      generalize BitVec.ofInt 32 i = v
      have := v.isLt
      rw [putBV16_eq, putBV32_eq]
      simp [decodePSeg]; omega

theorem parseTagName_basePath_length (s : Str) : (parseTagName s).1.basePath.length ≤ s.length := by
  unfold parseTagName
  have : ∀ t : TagPart, t.basePath.length ≤ s.length → ∀ txt,
      (removeAll txt t.basePath).length ≤ s.length := fun t h txt => by
    have := removeAll_length txt t.basePath; omega
  cases bitAccessText s with
  | none =>
    simp only [Bool.not_true, Bool.false_eq_true, if_false]
    cases arrayAccessText s with
    | none => simp
    | some txt => exact removeAll_length txt s
  | some bt =>
    have hb := removeAll_length bt s
    dsimp only
    split
    · exact hb
    · cases arrayAccessText s with
      | none => exact hb
      | some txt => have := removeAll_length txt (removeAll bt s); dsimp only; omega

theorem segmented_marshal {s : Str} {b : Bytes} (h : marshalIOIPart s = .ok b) (hs : s.length ≤ 255) :
    Segmented b := by
  have hl := parseTagName_basePath_length s
  unfold marshalIOIPart at h
  dsimp only at h
  split at h
  · simp at h
  · generalize (parseTagName s).1.basePath = n at h hl
    have hc := complete_name (n := n) (by omega)
    simp only [Res.ok.injEq] at h
    refine .one (s := .name n) ?_ ?_
    · rw [← h]
      split
      · rename_i hp; rw [if_pos hp] at hc; exact hc
      · rename_i hp; rw [if_neg hp] at hc; simpa using hc
    · rw [← h]; split <;> simp <;> omega

theorem segmented_part {i j : Ioi} {part : Str} (hi : Segmented i.buffer) (hp : part.length ≤ 255)
    (h : ioiPart i part = .ok j) : Segmented j.buffer := by
  unfold ioiPart at h
  split at h
  · split at h
    · simp at h
    · rename_i k _
      simp only [Res.bind_eq_ok] at h
      obtain ⟨b, hb, h⟩ := h
      simp only [Res.ok.injEq] at h
      subst h
      refine (hi.append (segmented_marshal hb ?_)).append (Segmented.flatten ?_)
      · simp; omega
      · intro x hx
        obtain ⟨n, _, rfl⟩ := List.mem_map.mp hx
        exact segmented_index n
  · dsimp only at h
    split at h
    · simp only [Res.ok.injEq] at h; subst h; exact hi
    · simp only [Res.bind_eq_ok] at h
      obtain ⟨b, hb, h⟩ := h
      simp only [Res.ok.injEq] at h
      subst h
      exact hi.append (segmented_marshal hb hp)

theorem segmented_parts {i j : Ioi} {parts : List Str} (hi : Segmented i.buffer)
    (hp : ∀ p ∈ parts, p.length ≤ 255) (h : ioiParts i parts = .ok j) : Segmented j.buffer := by
  induction parts generalizing i with
  | nil => simp [ioiParts] at h; subst h; exact hi
  | cons p ps ih =>
    simp only [ioiParts, Res.bind_eq_ok] at h
    obtain ⟨k, hk, h⟩ := h
    exact ih (segmented_part hi (hp p (by simp)) hk) (fun q hq => hp q (by simp [hq])) h

/-- C11: whatever text the client accepts, the symbolic request path is a sequence of complete
segments and a whole number of words. -/
theorem C11_symbolic_path_wellformed (s : Str) (dt : Byte) (ioi : Ioi)
    (hlen : ∀ p ∈ splitOn 0x2E#8 s, p.length ≤ 255) (h : symbolicIOI s dt = .ok ioi) :
    ioi.buffer.length % 2 = 0 ∧ ∃ segs, decodePSegs ioi.buffer = some segs := by
  have hs := segmented_parts (i := ⟨s, dt, false, 0, []⟩) .nil hlen h
  refine ⟨hs.even, ?_⟩
  obtain ⟨l, he, hl⟩ := hs
  exact ⟨l.map (·.2), by rw [he]; exact decode_segments fun x hx => (hl x hx).1⟩

/-- C11 for tags addressed by symbol instance: the program (by instance of class 0x68, or by name when
its number is unknown), then the symbol instance of class 0x6B; whole words. -/
theorem C11_known_path_wellformed (t : KnownTag)
    (ht : ∀ p, t.parent = some p → WfName (str "Program:" ++ p.name)) :
    t.bytes.length % 2 = 0 ∧
    (t.parent = none → t.bytes = [0x20#8, 0x6B#8] ++ instanceBytes t.inst) ∧
    (∀ p, t.parent = some p → p.id ≠ 0 →
      t.bytes = [0x20#8, 0x68#8] ++ instanceBytes p.id ++ [0x20#8, 0x6B#8] ++ instanceBytes t.inst) ∧
    (∀ p, t.parent = some p → p.id = 0 → decodePSeg t.bytes =
      some (.name (str "Program:" ++ p.name), [0x20#8, 0x6B#8] ++ instanceBytes t.inst)) := by
  have hi : ∀ v, (instanceBytes v).length % 2 = 0 := by
    intro v; unfold instanceBytes; split <;> (try split) <;> simp
  have hc6 : classBytes 0x6B#16 = [0x20#8, 0x6B#8] := by decide
  have hc8 : classBytes 0x68#16 = [0x20#8, 0x68#8] := by decide
  have hit := hi t.inst
  unfold KnownTag.bytes
  rw [hc6]
  cases hp : t.parent with
  | none => exact ⟨by simp; omega, fun _ => rfl, by simp, by simp⟩
  | some p =>
    have hip := hi p.id
    have hw := ht p hp
    dsimp only
    have hm := marshal_name hw.2.2.1 hw.2.2.2.2.1
    have hpb : p.bytes.length % 2 = 0 := by
      unfold KnownProgram.bytes
      split
      · rw [hm]; exact (segmented_marshal hm hw.2.1).even
      · simp [hc8]; omega
    refine ⟨by simp; omega, by simp, ?_, ?_⟩
    · rintro q hq h0
      obtain rfl := Option.some.inj hq
      unfold KnownProgram.bytes; rw [if_neg h0, hc8]
    · rintro q hq h0
      obtain rfl := Option.some.inj hq
      unfold KnownProgram.bytes; rw [if_pos h0, hm]
      dsimp only
      rw [List.append_assoc]
      exact complete_name hw.2.1 _

/-- C11, the announced path length: right as long as the path has at most 255 words. -/
theorem C11_announced_length (s : Str) (dt : Byte) (ioi : Ioi)
    (hlen : ∀ p ∈ splitOn 0x2E#8 s, p.length ≤ 255) (h : symbolicIOI s dt = .ok ioi)
    (hfit : ioi.buffer.length ≤ 510) :
    2 * (pathLengthOf ioi.buffer).toNat = ioi.buffer.length := by
  have := (C11_symbolic_path_wellformed s dt ioi hlen h).1
  simp [pathLengthOf]; omega

/-- Odd names, indices of all three widths, a bit number and an ill-formed index text. -/
example : (symbolicIOI (str "abc[1,300,70000].defgh[1, 2].7") tDINT).isOk ∧
    ∀ p ∈ splitOn 0x2E#8 (str "abc[1,300,70000].defgh[1, 2].7"), p.length ≤ 255 := by decide

/-- Where C11 needs the 255 limit: a name of 256 bytes is announced as 0 bytes long. -/
theorem C11_long_name_wrong : ∃ ioi, symbolicIOI (List.replicate 256 0x61#8) tDINT = .ok ioi ∧
    decodePSegs ioi.buffer = none := by
  have h : (match symbolicIOI (List.replicate 256 0x61#8) tDINT with
    | .ok ioi => decide (decodePSegs ioi.buffer = none)
    | _ => false) = true := by decide +kernel
  cases hs : symbolicIOI (List.replicate 256 0x61#8) tDINT with
  | ok i => rw [hs] at h; exact ⟨i, rfl, of_decide_eq_true h⟩
  | err e => rw [hs] at h; simp at h
  | panic => rw [hs] at h; simp at h

/-! ### C10 -/

/-- What a lookup is used for afterwards: path bytes and bit addressing. -/
def addr : Res Ioi → Res (Bytes × Bool × Int)
  | .ok i => .ok (i.buffer, i.bitAccess, i.bitPosition)
  | .err e => .err e
  | .panic => .panic

theorem addr_ioiPart {i j : Ioi} (part : Str) (h : addr (.ok i) = addr (.ok j)) :
    addr (ioiPart i part) = addr (ioiPart j part) := by
  simp only [addr, Res.ok.injEq, Prod.mk.injEq] at h
  obtain ⟨h1, h2, h3⟩ := h
  unfold ioiPart
  split
  · split
    · rfl
    · rename_i k _
      cases marshalIOIPart (List.take k part) <;> simp [addr, h1, h2, h3]
  · dsimp only
    split
    · simp [addr, h1]
    · cases marshalIOIPart part <;> simp [addr, h1, h2, h3]

theorem addr_ioiParts {i j : Ioi} (parts : List Str) (h : addr (.ok i) = addr (.ok j)) :
    addr (ioiParts i parts) = addr (ioiParts j parts) := by
  induction parts generalizing i j with
  | nil => exact h
  | cons p ps ih =>
    have hp := addr_ioiPart p h
    simp only [ioiParts]
    cases h1 : ioiPart i p <;> cases h2 : ioiPart j p <;> rw [h1, h2] at hp
    · exact ih hp
    all_goals first | (simp [addr] at hp; done) | simpa [addr] using hp

theorem addr_symbolic (s : Str) (dt dt' : Byte) :
    addr (symbolicIOI s dt) = addr (symbolicIOI s dt') := addr_ioiParts _ rfl

/-- An earlier request: the tag database as it was then, the tag and the data type. -/
structure Lookup where
  db  : TagDb
  tag : Str
  dt  : Byte

/-- The memo table after a history of requests. -/
def history (hist : List Lookup) : IoiCache :=
  hist.foldl (fun c l => (newIOI l.db c l.tag l.dt).2) []

/-- Every remembered path is what a fresh computation for its key gives. -/
def CacheOk (c : IoiCache) : Prop := ∀ k v, (k, v) ∈ c → ∃ dt, symbolicIOI k dt = .ok v

theorem cacheOk_step {c : IoiCache} (h : CacheOk c) (db : TagDb) (s : Str) (dt : Byte) :
    CacheOk (newIOI db c s dt).2 := by
  unfold newIOI
  split
  · exact h
  · split
    · exact h
    · split
      · rename_i ioi hi
        intro k v hkv
        simp only [List.mem_cons, Prod.mk.injEq] at hkv
        rcases hkv with ⟨rfl, rfl⟩ | hkv
        · exact ⟨dt, hi⟩
        · exact h k v hkv
      · exact h
      · exact h

theorem cacheOk_history (hist : List Lookup) : CacheOk (history hist) := by
  have : ∀ c, CacheOk c → CacheOk (hist.foldl (fun c l => (newIOI l.db c l.tag l.dt).2) c) := by
    induction hist with
    | nil => intro c h; exact h
    | cons l ls ih => intro c h; exact ih _ (cacheOk_step h l.db l.tag l.dt)
  exact this [] (by intro k v h; simp at h)

theorem lookup_mem {k : Str} {v : Ioi} {c : IoiCache} (h : c.lookup k = some v) : (k, v) ∈ c := by
  induction c with
  | nil => simp at h
  | cons x xs ih =>
    obtain ⟨k', v'⟩ := x
    rw [List.lookup_cons] at h
    split at h
    · rename_i he
      simp at he h; subst he; subst h; simp
    · exact List.mem_cons_of_mem _ (ih h)

theorem newIOI_cacheOk {c : IoiCache} (h : CacheOk c) (db : TagDb) (s : Str) (dt : Byte) :
    addr (newIOI db c s dt).1 = addr (newIOI db [] s dt).1 := by
  unfold newIOI
  cases hd : directBytes db (toLower s) dt with
  | some b => rfl
  | none =>
    simp only [List.lookup_nil]
    cases hl : c.lookup (toLower s) with
    | none =>
      cases symbolicIOI (toLower s) dt <;> rfl
    | some v =>
      obtain ⟨dt', h'⟩ := h _ _ (lookup_mem hl)
      have := addr_symbolic (toLower s) dt dt'
      rw [h'] at this
      cases hs : symbolicIOI (toLower s) dt <;> rw [hs] at this <;> simpa using this.symm

/-- C10: whatever was requested before, and in whatever letter case, the tag is addressed by the same
bytes and the same bit as by a client that has requested nothing before. -/
theorem C10_case_and_history (hist : List Lookup) (db : TagDb) (s s' : Str) (dt : Byte)
    (hcase : toLower s = toLower s') :
    addr (newIOI db (history hist) s dt).1 = addr (newIOI db [] s' dt).1 := by
  rw [newIOI_cacheOk (cacheOk_history hist)]
  unfold newIOI
  rw [hcase]

/-- C10, two points in time. -/
theorem C10_same_later (before after : List Lookup) (db : TagDb) (s s' : Str) (dt : Byte)
    (hcase : toLower s = toLower s') :
    addr (newIOI db (history (before ++ after)) s dt).1 = addr (newIOI db (history before) s' dt).1 := by
  rw [C10_case_and_history _ _ s s' _ hcase, C10_case_and_history _ _ s' s' _ rfl]

/-- A history that leaves the tag in the table, and a case variant of it. -/
example : toLower (str "MyTag[3].5") = toLower (str "mytag[3].5") ∧
    (history [⟨⟨20, fun _ => none⟩, str "MYTAG[3].5", tREAL⟩]).length = 1 := by decide

/-! ### names the client does not survive -/

/-- Disagreement (property C55): a part with a closing bracket at its end and no opening one crashes the
caller, whatever stands before it. -/
theorem C55_unbalanced_bracket_panics (s : Str) (dt : Byte) (hdot : 0x2E#8 ∉ s) (ho : 0x5B#8 ∉ s) :
    symbolicIOI (s ++ [0x5D#8]) dt = .panic := by
  unfold symbolicIOI
  rw [splitOn_none (by simpa using hdot)]
  have : indexOf 0x5B#8 (s ++ [0x5D#8]) = none := by
    unfold indexOf
    rw [List.findIdx?_eq_none_iff]
    intro x hx
    simp only [List.mem_append, List.mem_singleton] at hx
    rcases hx with hx | rfl
    · simp only [decide_eq_false_iff_not]; rintro rfl; exact ho hx
    · decide
  simp [ioiParts, ioiPart, this]

example : symbolicIOI (str "tag1]") tDINT = .panic := by decide

/-- C55 as far as it holds: names in which every part ending in `]` has a `[` are resolved or
rejected. -/
theorem C55_no_panic_partial (s : Str) (dt : Byte)
    (h : ∀ p ∈ splitOn 0x2E#8 s, p.getLast? = some 0x5D#8 → 0x5B#8 ∈ p) : (symbolicIOI s dt).safe := by
  have hm : ∀ t, (marshalIOIPart t).safe := by
    intro t; unfold marshalIOIPart; dsimp only; split <;> trivial
  have hpart : ∀ (i : Ioi) (p : Str), (p.getLast? = some 0x5D#8 → 0x5B#8 ∈ p) → (ioiPart i p).safe := by
    intro i p hp
    unfold ioiPart
    split
    · rename_i hl
      split
      · rename_i hk
        unfold indexOf at hk
        rw [List.findIdx?_eq_none_iff] at hk
        have := hk _ (hp hl)
        simp at this
      · exact Res.safe_bind (hm _) fun _ _ => trivial
    · dsimp only
      split
      · trivial
      · exact Res.safe_bind (hm _) fun _ _ => trivial
  have : ∀ (ps : List Str) (i : Ioi), (∀ p ∈ ps, p.getLast? = some 0x5D#8 → 0x5B#8 ∈ p) →
      (ioiParts i ps).safe := by
    intro ps
    induction ps with
    | nil => intro i _; trivial
    | cons p ps ih =>
      intro i hps
      exact Res.safe_bind (hpart i p (hps p (by simp))) fun j _ => ih j fun q hq => hps q (by simp [hq])
  exact this _ _ h

example : ∀ p ∈ splitOn 0x2E#8 (str "a[1].b[x].[].c"), p.getLast? = some 0x5D#8 → 0x5B#8 ∈ p := by decide

end Gologix
