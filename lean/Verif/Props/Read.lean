import Verif.Lemmas.Read
/-
C12 Bit addressing returns the addressed bit (whole read)
C14 Boolean arrays unpack bit by bit
C20 Fragmented reads reassemble the tag
C56 A read returns the controller's value
-/
set_option linter.unusedSimpArgs false

namespace Gologix

/-! ### C20 -/

/-- C20: whatever fragments a truthful controller chooses, the bytes decoded are the tag's bytes.  The
requests of the log are answered at the offsets they ask for, so a wrong offset would fetch other
bytes.  Structured tags are excluded: a fragmented structure is refused (`C20_struct_refused`). -/
theorem C20_reassembly_partial (ioi : Ioi) (dt : Byte) (elements : BitVec 16) (typ : Byte) (content : Bytes)
    (hc : content.length < 2 ^ 32) (ht : typ ≠ tStruct) (replies : List Reply)
    (h : Spec.AllAnswered typ content (readSingle ioi dt elements replies).2.1 replies) :
    (readSingle ioi dt elements replies).1 =
      decodeRead dt elements.toNat ioi.bitAccess ioi.bitPosition typ content :=
  readSingle_answered ioi dt elements typ content hc ht replies h

/-- Replies of a controller that cuts a tag into the given pieces. -/
def Spec.fragments (f : Spec.ReplyForm) (typ : Byte) : List Bytes → List Reply
  | [] => []
  | [d] => [⟨0, f.payload 0#8 typ d⟩]
  | d :: ds => ⟨0, f.payload 6#8 typ d⟩ :: Spec.fragments f typ ds

theorem readFragmented_pieces (path : Bytes) (elements : BitVec 16) (typ : Byte) (f : Spec.ReplyForm)
    (ps : List Bytes) (hne : ps ≠ []) (hf : ∀ p ∈ ps, f.fits p) (acc : Bytes) (more : List Reply) :
    readFragmented path elements (Spec.fragments f typ ps ++ more) acc =
      (.ok (acc ++ ps.flatten),
       (List.range ps.length).map fun k =>
         ⟨path, elements, some (BitVec.ofNat 32 (acc.length + (ps.take k).flatten.length))⟩,
       more) := by
  induction ps generalizing acc with
  | nil => exact absurd rfl hne
  | cons d ds ih =>
    cases ds with
    | nil =>
      simp [Spec.fragments, readFragmented, fragReply_payload f _ typ d (hf d (by simp))]
    | cons d2 ds =>
      have e := ih (by simp) (fun p hp => hf p (by simp [hp])) (acc ++ d)
      rw [Spec.fragments, List.cons_append, readFragmented, fragReply_payload f _ typ d (hf d (by simp))]
      simp only [e]
      rw [if_neg (by decide), if_neg (by decide)]
      simp only [List.flatten_cons, List.append_assoc, List.length_cons]
      rw [List.range_succ_eq_map (n := ds.length + 1)]
      simp only [List.map_cons, List.take_zero, List.flatten_nil, List.length_nil, Nat.add_zero,
        List.map_map, Prod.mk.injEq, true_and, and_true, List.cons.injEq]
      apply List.map_congr_left
      intro k _
      simp [Function.comp, Nat.add_assoc]
      simp

/-- C20, the requests: for every way of cutting a tag into pieces, the client first asks for the
beginning, then each time for the number of bytes received so far, and asks exactly once per piece. -/
theorem C20_offsets_partial (ioi : Ioi) (dt : Byte) (elements : BitVec 16) (typ : Byte) (ht : typ ≠ tStruct)
    (f : Spec.ReplyForm) (p : Bytes) (ps : List Bytes) (hf : ∀ q ∈ p :: ps, f.fits q)
    (more : List Reply) :
    readSingle ioi dt elements (Spec.fragments f typ (p :: ps) ++ more) =
      (decodeRead dt elements.toNat ioi.bitAccess ioi.bitPosition typ (p ++ ps.flatten),
       ⟨ioi.buffer, elements, none⟩ :: (List.range ps.length).map fun k =>
         ⟨ioi.buffer, elements, some (BitVec.ofNat 32 ((p :: ps).take (k + 1)).flatten.length)⟩,
       more) := by
  cases ps with
  | nil =>
    have hh := readSingle_hdr f 0#8 typ p (hf p (by simp))
    simp only [Spec.fragments, List.cons_append, List.nil_append, readSingle, hh]
    rw [if_neg (by decide), if_neg (by decide)]
    simp
  | cons d ds =>
    have hh := readSingle_hdr f 6#8 typ p (hf p (by simp))
    have e := readFragmented_pieces ioi.buffer elements typ f (d :: ds) (by simp)
      (fun q hq => hf q (List.mem_cons_of_mem _ hq)) p more
    rw [Spec.fragments]
    · simp only [List.cons_append, readSingle, hh, if_true, ht, if_false, e]
      simp [List.flatten_cons]
    · simp

/-- C20 excludes structures: any partial transfer of a structure is refused. -/
theorem C20_struct_refused (ioi : Ioi) (dt : Byte) (elements : BitVec 16) (f : Spec.ReplyForm) (d : Bytes)
    (hf : f.fits d) (st : BitVec 32) (more : List Reply) :
    (readSingle ioi dt elements (⟨st, f.payload 6#8 tStruct d⟩ :: more)).1 = .err .fail := by
  have hh := readSingle_hdr f 6#8 tStruct d hf
  simp only [readSingle, hh, if_true]

/-- A form for the examples. -/
def exForm : Spec.ReplyForm :=
  ⟨0, 0, 0xA1, [1#8, 2#8, 3#8, 4#8], 0xB1, 7, 0xCC#8, 0#8, 0#8, 0#8⟩
/-- A parsed path for the examples. -/
def exIoi : Ioi := { path := str "a", typ := tDINT, bitAccess := false, bitPosition := 0,
                     buffer := [0x91#8, 1#8, 0x61#8, 0#8] }

example : (readSingle exIoi tDINT 2#16 (Spec.fragments exForm tDINT [[1#8, 0#8], [0#8, 0#8, 2#8], [0#8, 0#8, 0#8]])).1 =
    .ok (.many [.i32 1, .i32 2]) := by decide +kernel

/-! ### C56 -/

/-- C56, scalars: a read of a tag whose image is the encoding of `v` returns `v`, fragmented or not. -/
theorem C56_read_scalar (ioi : Ioi) (T : GoTy) (hT : T ≠ .str) (v : Scal) (hv : v.ty = some T)
    (replies : List Reply)
    (h : Spec.AllAnswered (cipOfGo T) v.encode (readSingle ioi (cipOfGo T) 1#16 replies).2.1 replies) :
    readT T ioi replies = .ok v := by
  have hl : v.encode.length < 2 ^ 32 := by
    rw [(C13_value_roundtrip v T hv hT []).2.2]
    cases T <;> decide
  have ht : cipOfGo T ≠ tStruct := by cases T <;> decide
  unfold readT
  rw [readSingle_answered ioi _ _ _ _ hl ht replies h]
  have hr := (C13_value_roundtrip v T hv hT []).1
  rw [List.append_nil] at hr
  have e : decodeRead (cipOfGo T) (1#16).toNat ioi.bitAccess ioi.bitPosition (cipOfGo T) v.encode =
      .ok (.one v) := by
    unfold decodeRead
    rw [if_neg ht, if_pos (by decide), if_neg (by intro ⟨a, b, _⟩; exact b a), hr, Res.bind_ok]
  rw [e, Res.bind_ok]
  unfold castOne
  split
  · rename_i heq; cases heq; simp [Scal.ty] at hv
  · rename_i heq; cases heq; simp [hT, hv]
  · rename_i heq; cases heq

theorem encode_flatten_length (T : GoTy) (hT : T ≠ .str) (vs : List Scal) (h : ∀ v ∈ vs, v.ty = some T) :
    ((vs.map Scal.encode).flatten).length = vs.length * Spec.goSize T := by
  induction vs with
  | nil => simp
  | cons v vs ih =>
    simp only [List.map_cons, List.flatten_cons, List.length_append, List.length_cons]
    rw [ih (fun w hw => h w (by simp [hw])), (C13_value_roundtrip v T (h v (by simp)) hT []).2.2,
      Nat.succ_mul, Nat.add_comm]

theorem readArrayT_answered (ioi : Ioi) (T : GoTy) (hT : T ≠ .str) (vs : List Scal)
    (hv : ∀ v ∈ vs, v.ty = some T) (h2 : 2 ≤ vs.length) (hn : vs.length < 65536) (typ : Byte)
    (htyp : typ ≠ tStruct) (hdec : ∀ v ∈ vs, ∀ r, readValue typ (v.encode ++ r) = .ok (v, r))
    (replies : List Reply)
    (h : Spec.AllAnswered typ (vs.map Scal.encode).flatten
      (readSingle ioi (cipOfGo T) (BitVec.ofNat 16 vs.length) replies).2.1 replies) :
    readArrayT T ioi (BitVec.ofNat 16 vs.length) replies = .ok vs := by
  have hl : ((vs.map Scal.encode).flatten).length < 2 ^ 32 := by
    rw [encode_flatten_length T hT vs hv]
    have : Spec.goSize T ≤ 88 := by cases T <;> decide
    exact Nat.lt_of_le_of_lt (Nat.mul_le_mul (Nat.le_of_lt hn) this) (by decide)
  have hm : (BitVec.ofNat 16 vs.length).toNat = vs.length := by simp; omega
  have h0 : ¬ BitVec.ofNat 16 vs.length = 0#16 := by
    intro e
    rw [e] at hm
    simp at hm
    omega
  unfold readArrayT
  rw [if_neg h0, readSingle_answered ioi _ _ _ _ hl htyp replies h, hm]
  have e : decodeRead (cipOfGo T) vs.length ioi.bitAccess ioi.bitPosition typ
      (vs.map Scal.encode).flatten = .ok (.many vs) := by
    have := readTimes_values typ vs [] hdec
    rw [List.append_nil] at this
    unfold decodeRead
    rw [if_neg htyp, if_neg (by omega), this, Res.bind_ok]
  rw [e, Res.bind_ok, castMany, castElems_ok T hT vs hv]

/-- C56, arrays of two or more elements: all elements, in order. -/
theorem C56_read_array_partial (ioi : Ioi) (T : GoTy) (hT : T ≠ .str) (vs : List Scal)
    (hv : ∀ v ∈ vs, v.ty = some T) (h2 : 2 ≤ vs.length) (hn : vs.length < 65536) (replies : List Reply)
    (h : Spec.AllAnswered (cipOfGo T) (vs.map Scal.encode).flatten
      (readSingle ioi (cipOfGo T) (BitVec.ofNat 16 vs.length) replies).2.1 replies) :
    readSliceT T ioi vs.length replies = .ok vs := by
  have ht : cipOfGo T ≠ tStruct := by cases T <;> decide
  unfold readSliceT
  rw [readArrayT_answered ioi T hT vs hv h2 hn (cipOfGo T) ht
    (fun v hvm r => (C13_value_roundtrip v T (hv v hvm) hT r).1) replies h, Res.bind_ok]
  simp

/-- C56 fails for one element: a slice of length one is never filled, whatever the controller says. -/
theorem C56_one_element_refused (ioi : Ioi) (T : GoTy) (replies : List Reply) (vs : List Scal) :
    readSliceT T ioi 1 replies ≠ .ok vs := by
  unfold readSliceT readArrayT
  rw [if_neg (by decide)]
  intro hc
  rw [Res.bind_eq_ok] at hc
  obtain ⟨w, hw, -⟩ := hc
  rw [Res.bind_eq_ok] at hw
  obtain ⟨rv, hrv, hcast⟩ := hw
  have hone : ∀ dt ba bp t d rv, decodeRead dt (BitVec.ofNat 16 1).toNat ba bp t d = .ok rv →
      ∃ v, rv = .one v := by
    intro dt ba bp t d rv hd
    unfold decodeRead at hd
    rw [if_pos (show (BitVec.ofNat 16 1).toNat = 1 by decide)] at hd
    split at hd
    · split at hd
      · rw [Res.bind_eq_ok] at hd
        obtain ⟨v, -, hd⟩ := hd
        exact ⟨v, by simpa using hd.symm⟩
      · rw [Res.bind_eq_ok] at hd
        obtain ⟨v, -, hd⟩ := hd
        exact ⟨_, by simpa using hd.symm⟩
    · rw [if_pos (show (BitVec.ofNat 16 1).toNat = 1 by decide)] at hd
      split at hd
      · rw [Res.bind_eq_ok] at hd
        obtain ⟨v, -, hd⟩ := hd
        rw [Res.bind_eq_ok] at hd
        obtain ⟨b, -, hd⟩ := hd
        exact ⟨_, by simpa using hd.symm⟩
      · rw [Res.bind_eq_ok] at hd
        obtain ⟨v, -, hd⟩ := hd
        exact ⟨_, by simpa using hd.symm⟩
  have : ∃ v, rv = .one v := by
    unfold readSingle at hrv
    dsimp only at hrv
    repeat' split at hrv
    all_goals first
      | (exact hone _ _ _ _ _ _ hrv)
      | (simp at hrv)
  obtain ⟨v, rfl⟩ := this
  simp [castMany] at hcast

/-- C56 fails for an empty slice: the call panics, whatever the element type. -/
theorem C56_empty_slice_panics (ioi : Ioi) (T : GoTy) (replies : List Reply) :
    readSliceT T ioi 0 replies = .panic := rfl

/-- C56, strings: the controller's `LEN` and `DATA` of a STRING (structure handle first). -/
theorem C56_read_string (ioi : Ioi) (f : Spec.ReplyForm) (handle : BitVec 16) (s tail : Bytes)
    (hs : s.length < 65536) (hf : f.fits (le 2 handle.toNat ++ (le 4 s.length ++ (s ++ tail))))
    (st : BitVec 32) (more : List Reply) :
    readT .str ioi
      (⟨st, f.payload 0#8 tStruct (le 2 handle.toNat ++ (le 4 s.length ++ (s ++ tail)))⟩ :: more) =
      .ok (.str s) := by
  have hh := readSingle_hdr f 0#8 tStruct _ hf
  have hu : unle (List.drop 2 (le 2 handle.toNat ++ le 4 s.length)) = s.length := by
    rw [List.drop_append_of_le_length (by simp), List.drop_of_length_le (by simp), List.nil_append,
      unle_le_of_lt (Nat.lt_of_lt_of_le hs (by decide))]
  have e : readString1 (le 2 handle.toNat ++ (le 4 s.length ++ (s ++ tail))) = .ok (.bytes s) := by
    unfold readString1
    rw [← List.append_assoc (le 2 _), readN_append' (by simp), Res.bind_ok]
    simp only [hu]
    rw [readN_append, Res.bind_ok]
  unfold readT
  simp only [readSingle, hh]
  rw [if_neg (by decide), if_neg (by decide)]
  unfold decodeRead
  rw [if_pos rfl, if_pos (by decide), if_pos (by decide), e]
  rfl

example : readSliceT .i32 exIoi 2
    (Spec.fragments exForm tDINT [[1#8, 0#8], [0#8, 0#8, 2#8], [0#8, 0#8, 0#8]]) =
    .ok [.i32 1, .i32 2] := by decide +kernel
example : readT .str exIoi [⟨0, exForm.payload 0#8 tStruct
    ([0xCE#8, 0x0F#8] ++ [2#8, 0#8, 0#8, 0#8] ++ str "hi" ++ [0#8, 0#8])⟩] = .ok (.str (str "hi")) := by
  decide +kernel

/-! ### C14 -/

theorem wordBools_get (w : BitVec 32) (i : Nat) (hi : i < 32) :
    (wordBools (.u32 w))[i]? = some (w.getLsbD i) := by
  simp [wordBools, hi, maskTest_eq w hi]

theorem wordBools_length (w : BitVec 32) : (wordBools (.u32 w)).length = 32 := by
  simp [wordBools]

theorem flatten_words_get (ws : List (BitVec 32)) (i : Nat) :
    (((ws.map Scal.u32).map wordBools).flatten)[i]? = (ws[i / 32]?).map fun w => w.getLsbD (i % 32) := by
  induction ws generalizing i with
  | nil => simp
  | cons w ws ih =>
    simp only [List.map_cons, List.flatten_cons]
    by_cases hi : i < 32
    · rw [List.getElem?_append_left (by rw [wordBools_length]; exact hi), wordBools_get w i hi,
        Nat.div_eq_of_lt hi, Nat.mod_eq_of_lt hi]
      rfl
    · rw [List.getElem?_append_right (by rw [wordBools_length]; omega), wordBools_length, ih,
        show i / 32 = (i - 32) / 32 + 1 by omega, show i % 32 = (i - 32) % 32 by omega]
      rfl

/-- C14: for one word or more (up to the 16-bit count), element `i` of the slice is bit `i mod 32` of
word `i div 32`.  The controller type is DWORD or UDINT, fragmented or not. -/
theorem C14_bools_partial (ioi : Ioi) (typ : Byte) (htyp : typ = tDWORD ∨ typ = tUDINT)
    (ws : List (BitVec 32)) (h1 : 1 ≤ ws.length) (hn : ws.length < 65536) (replies : List Reply)
    (h : Spec.AllAnswered typ (ws.map fun w => le 4 w.toNat).flatten
      (readSingle ioi tUDINT (BitVec.ofNat 16 ws.length) replies).2.1 replies) :
    ∃ bs, readBools ioi (32 * ws.length) replies = .ok bs ∧ bs.length = 32 * ws.length ∧
      ∀ i, bs[i]? = (ws[i / 32]?).map fun w => w.getLsbD (i % 32) := by
  refine ⟨((ws.map Scal.u32).map wordBools).flatten, ?_, ?_, flatten_words_get ws⟩
  · have hst : typ ≠ tStruct := by rcases htyp with rfl | rfl <;> decide
    have hdec : ∀ w : BitVec 32, ∀ r, readValue typ ((Scal.u32 w).encode ++ r) = .ok (.u32 w, r) := by
      intro w r
      rcases htyp with rfl | rfl <;>
      simp [readValue, Scal.encode, tUDINT, tDWORD, tUnknown, tStruct, tBOOL, tBYTE, tSINT, tINT, tDINT,
        tLINT, tUSINT, tUINT, tLWORD, tREAL, tLREAL, tWORD]
    have henc : (ws.map fun w => le 4 w.toNat) = (ws.map Scal.u32).map Scal.encode := by
      simp [Scal.encode, putBV]
    rw [henc] at h
    have hc : 32 * ws.length / 32 = ws.length := by omega
    unfold readBools
    simp only [hc]
    rw [if_neg (by omega)]
    split
    · rename_i h1
      obtain ⟨w, rfl⟩ := List.length_eq_one_iff.mp h1
      · have hs : (readSingle ioi (cipOfGo .u32) 1#16 replies).1 = .ok (.one (.u32 w)) := by
          have e := readSingle_answered ioi tUDINT (BitVec.ofNat 16 [w].length) typ _
            (by simp [Scal.encode]) hst replies h
          rw [show readSingle ioi (cipOfGo .u32) 1#16 replies =
            readSingle ioi tUDINT (BitVec.ofNat 16 [w].length) replies from rfl, e]
          unfold decodeRead
          rw [if_neg hst, if_pos (by rfl), if_neg (by intro ⟨a, _⟩; exact absurd a (by decide))]
          have := hdec w []
          simp only [List.map_cons, List.map_nil, List.flatten_cons, List.flatten_nil]
          rw [this, Res.bind_ok]
        unfold readT
        rw [hs]
        simp [castOne, Scal.ty]
    · have e := readArrayT_answered ioi .u32 (by decide) (ws.map Scal.u32)
        (by intro v hv; simp at hv; obtain ⟨w, -, rfl⟩ := hv; rfl) (by simp; omega) (by simpa using hn)
        typ hst (by intro v hv; simp at hv; obtain ⟨w, -, rfl⟩ := hv; exact hdec w) replies
        (by rw [List.length_map]; exact h)
      rw [List.length_map] at e
      rw [e]
      simp
  · rw [List.length_flatten, List.map_map, List.map_map]
    have : ((List.length ∘ wordBools) ∘ Scal.u32) = fun _ => 32 := by
      funext w; exact wordBools_length w
    rw [this]
    clear this h hn h1
    induction ws with
    | nil => rfl
    | cons w ws ih => simp only [List.map_cons, List.sum_cons, List.length_cons, ih]; omega

/-- C14, other lengths are rejected, whatever the controller says. -/
theorem C14_not_multiple_rejected (ioi : Ioi) (n : Nat) (hn : n % 32 ≠ 0) (replies : List Reply) :
    readBools ioi n replies = .err .fail := by
  unfold readBools
  rw [if_pos (by omega)]

/-- C14 fails for zero elements: the call panics. -/
theorem C14_empty_panics (ioi : Ioi) (replies : List Reply) : readBools ioi 0 replies = .panic := rfl

example : readBools exIoi 64 (Spec.fragments exForm tDWORD [[1#8, 0#8], [0#8, 0x80#8, 2#8], [0#8, 0#8, 0#8]]) =
    .ok (true :: List.replicate 30 false ++ true :: false :: true :: List.replicate 30 false) := by
  decide +kernel

/-! ### C12, the whole read -/

theorem bitOf_emod (z : Int) {w n : Nat} (h : n < w) :
    Spec.bitOf (z % 2 ^ w) n = Spec.bitOf z n := by
  unfold Spec.bitOf
  congr 1
  have e : (2 : Int) ^ w = 2 * 2 ^ (w - n - 1) * 2 ^ n := by
    rw [Int.mul_assoc, ← Int.pow_add]
    rw [show (2 : Int) * 2 ^ (w - n - 1 + n) = 2 ^ (w - n - 1 + n) * 2 by omega, ← Int.pow_succ]
    congr 1; omega
  have hp : (2 : Int) ^ n ≠ 0 := by
    have : (0 : Int) < 2 ^ n := Int.pow_pos (by decide)
    omega
  rw [Int.emod_def z, e]
  have e3 : (z - 2 * 2 ^ (w - n - 1) * 2 ^ n * (z / (2 * 2 ^ (w - n - 1) * 2 ^ n))) / 2 ^ n =
      z / 2 ^ n - 2 * (2 ^ (w - n - 1) * (z / (2 * 2 ^ (w - n - 1) * 2 ^ n))) := by
    generalize (2 : Int) ^ (w - n - 1) = k
    generalize z / (2 * k * 2 ^ n) = q
    have : 2 * k * 2 ^ n * q = (2 * (k * q)) * 2 ^ n := by
      simp [Int.mul_assoc, Int.mul_comm, Int.mul_left_comm]
    rw [this, Int.sub_ediv_of_dvd _ ⟨2 * (k * q), by rw [Int.mul_comm]⟩, Int.mul_ediv_cancel _ hp]
  rw [e3]
  simp only [eq_iff_iff]
  generalize 2 ^ (w - n - 1) * (z / (2 * 2 ^ (w - n - 1) * 2 ^ n)) = k
  omega

/-- C12: a boolean read of `tag.n`, where the tag is any integer type but SINT holding the number `z`
and `n` is inside its width, returns bit `n` of `z`. -/
theorem C12_read_bit_partial (ioi : Ioi) (hb : ioi.bitAccess = true) {t : Byte} {w n : Nat}
    (hw : Spec.intWidth t = some w) (hs : t ≠ tSINT) (hpos : ioi.bitPosition = n) (hn : n < w)
    (z : Int) (replies : List Reply)
    (h : Spec.AllAnswered t (le (w / 8) (z % 2 ^ w).toNat) (readSingle ioi tBOOL 1#16 replies).2.1 replies) :
    readT .bool ioi replies = .ok (.bool (Spec.bitOf z n)) := by
  have hst : t ≠ tStruct := by rintro rfl; simp [Spec.intWidth, tStruct] at hw
  have hbo : t ≠ tBOOL := by rintro rfl; simp [Spec.intWidth, tBOOL] at hw
  have hw64 : w ≤ 64 := by
    rcases intWidth_cases hw with h | h | h | h | h | h | h | h | h | h | h <;> omega
  have hlen : (le (w / 8) (z % 2 ^ w).toNat).length < 2 ^ 32 := by
    rw [le_length]
    exact Nat.lt_of_le_of_lt (show w / 8 ≤ 8 by omega) (by decide)
  have hx : (BitVec.ofNat w (z % 2 ^ w).toNat).toNat = (z % 2 ^ w).toNat := by
    rw [BitVec.toNat_ofNat]
    apply Nat.mod_eq_of_lt
    have hp : (0 : Int) < 2 ^ w := Int.pow_pos (by decide)
    have h2 := Int.emod_lt_of_pos z hp
    have h1 := Int.emod_nonneg z (show (2 : Int) ^ w ≠ 0 by omega)
    have h3 : ((2 ^ w : Nat) : Int) = 2 ^ w := by push_cast; rfl
    omega
  have hbit : (BitVec.ofNat w (z % 2 ^ w).toNat).getLsbD n = Spec.bitOf z n := by
    rw [← bitOf_toNat, hx, ← bitOf_emod z hn]
    congr 1
    have hp : (0 : Int) < 2 ^ w := Int.pow_pos (by decide)
    have h1 := Int.emod_nonneg z (show (2 : Int) ^ w ≠ 0 by omega)
    omega
  have hc : le (w / 8) (z % 2 ^ w).toNat = putBV (BitVec.ofNat w (z % 2 ^ w).toNat) := by
    rw [putBV, hx]
  rw [hc] at h hlen
  unfold readT
  have e := readSingle_answered ioi tBOOL 1#16 t _ hlen hst replies h
  rw [show cipOfGo .bool = tBOOL from rfl, e]
  generalize hxx : BitVec.ofNat w (z % 2 ^ w).toNat = x at *
  have key : ∃ v, readValue t (putBV x) = .ok (v, []) ∧ getBit t v n = .ok (x.getLsbD n) := by
    rw [← List.append_nil (putBV x)]
    clear h e hc hbit hlen hx hxx
    rcases intWidth_cases hw with ⟨rfl, rfl⟩ | ⟨rfl, rfl⟩ | ⟨rfl, rfl⟩ | ⟨rfl, rfl⟩ | ⟨rfl, rfl⟩ |
      ⟨rfl, rfl⟩ | ⟨rfl, rfl⟩ | ⟨rfl, rfl⟩ | ⟨rfl, rfl⟩ | ⟨rfl, rfl⟩ | ⟨rfl, rfl⟩
    case inl => exact absurd rfl hs
    all_goals
      first
        | (refine ⟨.u8 x, ?_, ?_⟩ <;> 
            simp [readValue, getBit, getBitCase, tSINT, tINT, tDINT, tLINT, tUSINT, tUINT, tUDINT, tBYTE,
              tWORD, tDWORD, tLWORD, tUnknown, tStruct, tBOOL, tREAL, tLREAL, tSTRING,
              maskTest_eq x hn] <;> (intro _; omega))
        | (refine ⟨.i16 x, ?_, ?_⟩ <;> 
            simp [readValue, getBit, getBitCase, tSINT, tINT, tDINT, tLINT, tUSINT, tUINT, tUDINT, tBYTE,
              tWORD, tDWORD, tLWORD, tUnknown, tStruct, tBOOL, tREAL, tLREAL, tSTRING,
              maskTest_eq x hn] <;> (intro _; omega))
        | (refine ⟨.i32 x, ?_, ?_⟩ <;> 
            simp [readValue, getBit, getBitCase, tSINT, tINT, tDINT, tLINT, tUSINT, tUINT, tUDINT, tBYTE,
              tWORD, tDWORD, tLWORD, tUnknown, tStruct, tBOOL, tREAL, tLREAL, tSTRING,
              maskTest_eq x hn] <;> (intro _; omega))
        | (refine ⟨.i64 x, ?_, ?_⟩ <;> 
            simp [readValue, getBit, getBitCase, tSINT, tINT, tDINT, tLINT, tUSINT, tUINT, tUDINT, tBYTE,
              tWORD, tDWORD, tLWORD, tUnknown, tStruct, tBOOL, tREAL, tLREAL, tSTRING,
              maskTest_eq x hn] <;> (intro _; omega))
        | (refine ⟨.u16 x, ?_, ?_⟩ <;> 
            simp [readValue, getBit, getBitCase, tSINT, tINT, tDINT, tLINT, tUSINT, tUINT, tUDINT, tBYTE,
              tWORD, tDWORD, tLWORD, tUnknown, tStruct, tBOOL, tREAL, tLREAL, tSTRING,
              maskTest_eq x hn] <;> (intro _; omega))
        | (refine ⟨.u32 x, ?_, ?_⟩ <;> 
            simp [readValue, getBit, getBitCase, tSINT, tINT, tDINT, tLINT, tUSINT, tUINT, tUDINT, tBYTE,
              tWORD, tDWORD, tLWORD, tUnknown, tStruct, tBOOL, tREAL, tLREAL, tSTRING,
              maskTest_eq x hn] <;> (intro _; omega))
        | (refine ⟨.u64 x, ?_, ?_⟩ <;> 
            simp [readValue, getBit, getBitCase, tSINT, tINT, tDINT, tLINT, tUSINT, tUINT, tUDINT, tBYTE,
              tWORD, tDWORD, tLWORD, tUnknown, tStruct, tBOOL, tREAL, tLREAL, tSTRING,
              maskTest_eq x hn] <;> (intro _; omega))
  obtain ⟨v, hv, hg⟩ := key
  unfold decodeRead
  rw [if_neg hst, if_pos (by decide), if_pos ⟨rfl, hbo, hb⟩, hv, Res.bind_ok]
  simp only [hpos]
  rw [hg, Res.bind_ok, Res.bind_ok, hbit]
  rfl

open Spec in
theorem symbolicIOI_bit {ps : List Part} {bound : Nat} (hb : bound ≤ 2 ^ 63) (hw : WfPath bound ps) (dt : Byte)
    (n : Nat) (hn : n ≤ 31) :
    symbolicIOI (render ps ++ [0x2E#8] ++ dec n) dt =
      .ok ⟨render ps ++ [0x2E#8] ++ dec n, dt, true, n, (ps.map partBytes).flatten⟩ := by
  have hd : (0x2E#8 : Byte) ∉ dec n := fun h => absurd (dec_digits n _ h) (by decide)
  have hj : render ps ++ [0x2E#8] ++ dec n = joinWith 0x2E#8 (ps.map renderPart ++ [dec n]) := by
    have : ∀ (qs : List Str) (x : Str), qs ≠ [] →
        joinWith 0x2E#8 (qs ++ [x]) = joinWith 0x2E#8 qs ++ [0x2E#8] ++ x := by
      intro qs x hq
      induction qs with
      | nil => exact absurd rfl hq
      | cons q qs ih =>
        cases qs with
        | nil => simp [joinWith]
        | cons q' qs =>
          have := ih (by simp)
          simp only [List.cons_append] at this ⊢
          simp only [joinWith, List.append_assoc] at this ⊢
          rw [this]
          simp
    rw [this _ _ (by simpa using hw.1)]
    rfl
  have hs : splitOn 0x2E#8 (render ps ++ [0x2E#8] ++ dec n) = ps.map renderPart ++ [dec n] := by
    rw [hj]
    apply splitOn_joinWith (by simp)
    intro s hs
    rcases List.mem_append.mp hs with hs | hs
    · obtain ⟨p, hp, rfl⟩ := List.mem_map.mp hs
      exact dot_not_renderPart (hw.2 p hp).1
    · rw [List.mem_singleton.mp hs]; exact hd
  have happ : ∀ (qs : List Str) (x : Str) (i j : Ioi), ioiParts i qs = .ok j →
      ioiParts i (qs ++ [x]) = ioiPart j x := by
    intro qs x
    induction qs with
    | nil =>
      intro i j h
      simp only [ioiParts, Res.ok.injEq] at h
      subst h
      simp only [List.nil_append, ioiParts]
      cases ioiPart i x <;> rfl
    | cons q qs ih =>
      intro i j h
      simp only [ioiParts, List.cons_append] at h ⊢
      cases hq : ioiPart i q with
      | ok k => rw [hq, Res.bind_ok] at h; rw [Res.bind_ok]; exact ih k j h
      | err e => rw [hq] at h; cases h
      | panic => rw [hq] at h; cases h
  unfold symbolicIOI
  rw [hs, happ _ _ _ _ (ioiParts_render hb hw.2)]
  unfold ioiPart
  have hl : (dec n).getLast? ≠ some 0x5D#8 := by
    intro h
    exact absurd (dec_digits n _ (List.mem_of_getLast? h)) (by decide)
  rw [if_neg hl, atoi_dec (Nat.lt_of_le_of_lt hn (by decide))]
  have : ((n : Int) ≤ 31) := by omega
  simp [Num.isOk, Num.val, this]

open Spec in
/-- C12, tag names: `tag.n` with `n` up to 31 is requested with the path of `tag` and remembers bit `n`, for
every well-formed tag. -/
theorem C12_bit_path_partial (ps : List Part) (hw : WfPath (2 ^ 32) ps) (n : Nat) (hn : n ≤ 31) (db : TagDb) (dt : Byte)
    (hdb : NotDirect db (render ps) dt) (hdb' : NotDirect db (render ps ++ [0x2E#8] ++ dec n) dt) :
    ∃ i j, (newIOI db [] (render ps) dt).1 = .ok i ∧
      (newIOI db [] (render ps ++ [0x2E#8] ++ dec n) dt).1 = .ok j ∧
      j.buffer = i.buffer ∧ j.bitAccess = true ∧ j.bitPosition = n := by
  have hl := wfPath_lower hw
  have hlow : toLower (render ps ++ [0x2E#8] ++ dec n) = render (lowerPath ps) ++ [0x2E#8] ++ dec n := by
    have hd : toLower (dec n) = dec n := by
      unfold toLower
      conv => rhs; rw [← List.map_id (dec n)]
      apply List.map_congr_left
      intro b hb
      have := dec_digits n b hb
      unfold isDigit at this
      unfold lowerByte
      simp only [decide_eq_true_eq, Bool.and_eq_true] at this
      rw [if_neg]
      · rfl
      · intro h
        omega
    rw [← toLower_render]
    conv => rhs; rw [← hd]
    simp [toLower, lowerByte]
  rw [newIOI_symbolic hdb, newIOI_symbolic hdb', toLower_render, hlow, symbolicIOI_render (by decide) hl,
    symbolicIOI_bit (by decide) hl _ n hn]
  exact ⟨_, _, rfl, rfl, rfl, rfl, rfl⟩

/-- C12: the path of `name.n` addresses `name` and remembers the bit, for `n` up to 31; from 32 on (LINT,
LWORD) the number becomes a symbolic segment of its own and no bit access takes place. -/
theorem C12_bit_number_limit :
    symbolicIOI (str "x.31") tBOOL = .ok ⟨str "x.31", tBOOL, true, 31, [0x91#8, 1#8, 0x78#8, 0#8]⟩ ∧
    symbolicIOI (str "x.32") tBOOL =
      .ok ⟨str "x.32", tBOOL, false, 0, [0x91#8, 1#8, 0x78#8, 0#8, 0x91#8, 2#8, 0x33#8, 0x32#8]⟩ := by
  decide +kernel

example : readT .bool { exIoi with bitAccess := true, bitPosition := 15 }
    [⟨0, exForm.payload 0#8 tINT [0x00#8, 0x80#8]⟩] = .ok (.bool true) := by decide +kernel

theorem castOne_ty {T : GoTy} {rv : RV} {v : Scal} (h : castOne T rv = .ok v) : v.ty = some T := by
  cases rv with
  | many => cases h
  | one w =>
    cases w <;> simp only [castOne] at h <;> split at h <;> cases h <;>
      (rename_i hc; first | exact hc.2 | (subst hc; rfl))

theorem castElem_ty {T : GoTy} {w v : Scal} (h : castElem T w = .ok v) : v.ty = some T := by
  cases w <;> simp only [castElem] at h <;> split at h <;> cases h <;>
      (rename_i hc; first | exact hc.2 | (subst hc; rfl))

theorem castElems_ty {T : GoTy} {ws vs : List Scal} (h : castElems T ws = .ok vs) : ∀ v ∈ vs, v.ty = some T := by
  induction ws generalizing vs with
  | nil => cases h; simp
  | cons w ws ih =>
    simp only [castElems, Res.bind_eq_ok] at h
    obtain ⟨v, h1, vs', h2, h3⟩ := h
    cases h3
    intro x hx
    rcases List.mem_cons.mp hx with rfl | hx
    · exact castElem_ty h1
    · exact ih h2 x hx

/-- C56, types: whatever the controller says, what a read delivers has the type the caller asked for, and a slice has
the length they asked for. -/
theorem C56_typed (T : GoTy) (ioi : Ioi) (n : Nat) (replies : List Reply) :
    (∀ v, readT T ioi replies = .ok v → v.ty = some T) ∧
    (∀ vs, readSliceT T ioi n replies = .ok vs → vs.length = n ∧ ∀ v ∈ vs, v.ty = some T) := by
  constructor
  · intro v h
    simp only [readT, Res.bind_eq_ok] at h
    obtain ⟨rv, -, h⟩ := h
    exact castOne_ty h
  · intro vs h
    simp only [readSliceT, Res.bind_eq_ok] at h
    obtain ⟨ws, h1, h2⟩ := h
    split at h2
    · cases h2
    · rename_i hl
      cases h2
      refine ⟨Classical.not_not.mp hl, ?_⟩
      unfold readArrayT at h1
      split at h1
      · cases h1
      · rw [Res.bind_eq_ok] at h1
        obtain ⟨rv, -, h1⟩ := h1
        cases rv with
        | one => cases h1
        | many ws => exact castElems_ty h1

theorem readFragmented_reqs (path : Bytes) (n : BitVec 16) (replies : List Reply) (acc : Bytes) :
    ∀ r ∈ (readFragmented path n replies acc).2.1, ∃ o, r = ⟨path, n, some o⟩ := by
  induction replies generalizing acc with
  | nil => simp [readFragmented]
  | cons r rs ih =>
    simp only [readFragmented]
    cases fragReply r.payload with
    | err e => simp
    | panic => simp
    | ok p =>
      obtain ⟨d, st⟩ := p
      simp only
      split
      · simp
      · split
        · simp
        · intro q hq
          rcases List.mem_cons.mp hq with rfl | hq
          · exact ⟨_, rfl⟩
          · exact ih _ q hq

/-- C20 and C56, the requests: the first asks for the whole tag, every further one for the rest from the offset it
stands for, all of them for the same path and number of elements. -/
theorem C20_requests (seq : BitVec 16) (ioi : Ioi) (dt : Byte) (n : BitVec 16) (replies : List Reply) (i : Nat)
    (r : ReadReq) (h : (readSingle ioi dt n replies).2.1[i]? = some r) :
    r.bytes seq = Spec.readRequest seq.toNat ioi.buffer n.toNat (if i = 0 then none else some (Spec.offsetOf r)) := by
  have hlog : ∃ reqs, (readSingle ioi dt n replies).2.1 = ⟨ioi.buffer, n, none⟩ :: reqs ∧
      ∀ r ∈ reqs, ∃ o, r = ⟨ioi.buffer, n, some o⟩ := by
    unfold readSingle
    cases replies with
    | nil => exact ⟨[], rfl, by simp⟩
    | cons q rs =>
      simp only
      cases (do let d ← replyItem q.payload; readHdr d) with
      | err e => exact ⟨[], rfl, by simp⟩
      | panic => exact ⟨[], rfl, by simp⟩
      | ok p =>
        obtain ⟨hd, d⟩ := p
        simp only
        split
        · split
          · exact ⟨[], rfl, by simp⟩
          · have hf := readFragmented_reqs ioi.buffer n rs d
            generalize readFragmented ioi.buffer n rs d = z at hf
            obtain ⟨res, reqs, rest⟩ := z
            cases res <;> exact ⟨reqs, rfl, hf⟩
        · split
          · exact ⟨[], rfl, by simp⟩
          · exact ⟨[], rfl, by simp⟩
  obtain ⟨reqs, hl, ho⟩ := hlog
  rw [hl] at h
  cases i with
  | zero =>
    simp only [List.getElem?_cons_zero, Option.some.injEq] at h
    subst h
    simp [ReadReq.bytes, Spec.readRequest, putBV]
  | succ i =>
    rw [List.getElem?_cons_succ] at h
    obtain ⟨o, rfl⟩ := ho r (List.mem_of_getElem? h)
    simp [ReadReq.bytes, Spec.readRequest, Spec.offsetOf, putBV]

example : ((readSingle exIoi tDINT 2#16 (Spec.fragments exForm tDINT [[1#8, 0#8], [0#8, 0#8, 2#8], [0#8, 0#8, 0#8]])).2.1.map
    (ReadReq.bytes 9#16)) =
    [[9#8, 0#8, 0x4C#8, 2#8, 0x91#8, 1#8, 0x61#8, 0#8, 2#8, 0#8],
     [9#8, 0#8, 0x52#8, 2#8, 0x91#8, 1#8, 0x61#8, 0#8, 2#8, 0#8, 2#8, 0#8, 0#8, 0#8],
     [9#8, 0#8, 0x52#8, 2#8, 0x91#8, 1#8, 0x61#8, 0#8, 2#8, 0#8, 5#8, 0#8, 0#8, 0#8]] := by decide +kernel

end Gologix
