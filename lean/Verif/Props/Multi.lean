import Verif.Lemmas.Multi
/-
C21 A multi-tag read returns each tag its own value
C22 Batching partitions the tag list
C23 Batches respect the negotiated size
C24 The multi-service offset table points at the requests
-/
set_option linter.unusedSimpArgs false

namespace Gologix

/-! ### C24 -/

theorem jumpTable_length (start blen : Nat) (es : List Bytes) : (jumpTable start blen es).length = es.length := by
  induction es generalizing blen with
  | nil => rfl
  | cons e es ih => simp [jumpTable, ih]

theorem jumpTable_get (start blen : Nat) (es : List Bytes) (k : Nat) (hk : k < es.length) :
    (jumpTable start blen es)[k]? = some (BitVec.ofNat 16 (start + (blen + (es.take k).flatten.length))) := by
  induction es generalizing blen k with
  | nil => simp at hk
  | cons e es ih =>
    cases k with
    | zero => simp [jumpTable]
    | succ k =>
      simp only [jumpTable, List.getElem?_cons_succ]
      rw [ih (blen + e.length) k (by simpa using hk)]
      simp [Nat.add_assoc]

theorem flatten_put_length (t : List (BitVec 16)) : ((t.map putBV).flatten).length = 2 * t.length := by
  induction t with
  | nil => rfl
  | cons o t ih => simp [ih]; omega

theorem flatten_put_get (t : List (BitVec 16)) (rest : Bytes) (k : Nat) (v : BitVec 16) (h : t[k]? = some v) :
    (((t.map putBV).flatten ++ rest).drop (2 * k)).take 2 = putBV v := by
  induction t generalizing k with
  | nil => simp at h
  | cons o t ih =>
    cases k with
    | zero =>
      simp only [List.getElem?_cons_zero, Option.some.injEq] at h
      subst h
      simp only [List.map_cons, List.flatten_cons, List.append_assoc]
      rw [List.drop_zero, List.take_left' (by simp)]
    | succ k =>
      simp only [List.getElem?_cons_succ] at h
      simp only [List.map_cons, List.flatten_cons, List.append_assoc]
      rw [List.drop_append, List.drop_eq_nil_of_le (by simp; omega), List.nil_append]
      have : 2 * (k + 1) - (putBV o).length = 2 * k := by simp; omega
      rw [this]
      exact ih k h

theorem take_flatten_slice (es : List Bytes) (k : Nat) (hk : k < es.length) (pre : Bytes) :
    ((pre ++ es.flatten).take (pre.length + (es.take (k + 1)).flatten.length)).drop
      (pre.length + (es.take k).flatten.length) = es[k] := by
  have h1 : es.flatten = (es.take k).flatten ++ (es[k] ++ (es.drop (k + 1)).flatten) := by
    conv => lhs; rw [← List.take_append_drop k es, List.flatten_append, List.drop_eq_getElem_cons hk,
      List.flatten_cons]
  have h2 : (es.take (k + 1)).flatten = (es.take k).flatten ++ es[k] := by
    rw [List.take_succ_eq_append_getElem hk]
    simp only [List.flatten_append, List.flatten_cons, List.flatten_nil, List.append_nil]
  rw [h2, h1, ← List.append_assoc, ← List.append_assoc, List.length_append]
  rw [List.take_left' (by simp only [List.length_append]; omega), List.drop_left' (by simp)]

/-- The part of a multi-service request from the count field on. -/
def multiBody (entries : List Bytes) : Bytes := (multiBytes 0 entries).drop 8

/-- C24, generic: for any embedded services. -/
theorem C24_packet (seq : BitVec 16) (entries : List Bytes)
    (h16 : (multiBytes seq entries).length < 65536) :
    (multiBytes seq entries).take 8 = putBV seq ++ [0x0A#8, 0x02#8, 0x20#8, 0x02#8, 0x24#8, 0x01#8] ∧
    Spec.Packet ((multiBytes seq entries).drop 8) entries := by
  have hsplit : multiBytes seq entries =
      (putBV seq ++ [0x0A#8, 0x02#8, 0x20#8, 0x02#8, 0x24#8, 0x01#8]) ++ (le 2 entries.length ++
        (((jumpTable (2 + entries.length * 2) 0 entries).map putBV).flatten ++ entries.flatten)) := by
    simp [multiBytes, putBV_ofNat16]
  have h8 : (putBV seq ++ [0x0A#8, 0x02#8, 0x20#8, 0x02#8, 0x24#8, 0x01#8]).length = 8 := by simp
  rw [hsplit] at h16 ⊢
  rw [List.take_left' h8, List.drop_left' h8]
  refine ⟨rfl, ?_⟩
  generalize htab : jumpTable (2 + entries.length * 2) 0 entries = tab at *
  have htl : ((tab.map putBV).flatten).length = 2 * entries.length := by
    rw [flatten_put_length, ← htab, jumpTable_length]
  have hbl : (le 2 entries.length ++ ((tab.map putBV).flatten ++ entries.flatten)).length =
      2 + 2 * entries.length + entries.flatten.length := by
    simp only [List.length_append, le_length, htl]; omega
  rw [List.length_append, h8, hbl] at h16
  have hoff : ∀ k < entries.length, unle (((le 2 entries.length ++ ((tab.map putBV).flatten ++
      entries.flatten)).drop (2 + 2 * k)).take 2) = 2 + 2 * entries.length + (entries.take k).flatten.length := by
    intro k hk
    have hj := jumpTable_get (2 + entries.length * 2) 0 entries k hk
    rw [htab] at hj
    have hle : (entries.take k).flatten.length ≤ entries.flatten.length := by
      conv => rhs; rw [← List.take_append_drop k entries, List.flatten_append, List.length_append]
      omega
    rw [List.drop_append, List.drop_eq_nil_of_le (by simp), List.nil_append]
    rw [show 2 + 2 * k - (le 2 entries.length).length = 2 * k by simp]
    rw [flatten_put_get tab _ k _ hj, putBV_ofNat16, unle_le_of_lt (by omega)]
    omega
  refine ⟨by rw [List.take_left' (by simp)], ?_⟩
  intro k s hks
  have hk : k < entries.length := by
    rcases Nat.lt_or_ge k entries.length with h | h
    · exact h
    · rw [List.getElem?_eq_none h] at hks; simp at hks
  have hs : s = entries[k] := by
    rw [List.getElem?_eq_getElem hk] at hks; simpa using hks.symm
  have hstop : (if k + 1 < entries.length then unle (((le 2 entries.length ++ ((tab.map putBV).flatten ++
      entries.flatten)).drop (2 + 2 * (k + 1))).take 2) else
      (le 2 entries.length ++ ((tab.map putBV).flatten ++ entries.flatten)).length) =
      2 + 2 * entries.length + (entries.take (k + 1)).flatten.length := by
    split
    · rename_i h; exact hoff (k + 1) h
    · rename_i h
      rw [hbl, List.take_of_length_le (by omega)]
  simp only []
  rw [hstop, hoff k hk, hbl]
  have hle : (entries.take (k + 1)).flatten.length ≤ entries.flatten.length := by
    conv => rhs; rw [← List.take_append_drop (k + 1) entries, List.flatten_append, List.length_append]
    omega
  have hmono : (entries.take k).flatten.length ≤ (entries.take (k + 1)).flatten.length := by
    rw [List.take_succ_eq_append_getElem hk, List.flatten_append, List.length_append]
    omega
  refine ⟨by omega, by omega, ?_⟩
  rw [hs, ← List.append_assoc]
  have hpre : (le 2 entries.length ++ (tab.map putBV).flatten).length = 2 + 2 * entries.length := by
    rw [List.length_append, htl]; simp
  rw [← hpre]
  exact take_flatten_slice entries k hk _

/-- C24: the request `readList` sends for some tags is a packet carrying, for the k-th tag, a read
service with its path and element count. -/
theorem C24_read_requests (seq : BitVec 16) (tags : List MTag)
    (h16 : (readListBytes seq tags).length < 65536) :
    (readListBytes seq tags).take 8 = le 2 seq.toNat ++ [0x0A#8, 0x02#8, 0x20#8, 0x02#8, 0x24#8, 0x01#8] ∧
    Spec.Packet ((readListBytes seq tags).drop 8)
      (tags.map fun t => Spec.readService t.ioi.buffer t.elements) := by
  have h := C24_packet seq (tags.map MTag.entry) h16
  refine ⟨h.1, ?_⟩
  have e : (tags.map fun t => Spec.readService t.ioi.buffer t.elements) = tags.map MTag.entry := by
    apply List.map_congr_left
    intro t _
    rw [MTag.entry, Spec.readService, putBV_ofNat16]
  rw [e]
  exact h.2

example : (readListBytes 5#16 [⟨exIoi, tDINT, 1, .untyped⟩, ⟨exIoi, tDINT, 3, .untyped⟩]).drop 8 =
    [2#8, 0#8, 6#8, 0#8, 14#8, 0#8] ++ [0x4C#8, 2#8, 0x91#8, 1#8, 0x61#8, 0#8, 1#8, 0#8] ++
      [0x4C#8, 2#8, 0x91#8, 1#8, 0x61#8, 0#8, 3#8, 0#8] := by decide

/-! ### C21 -/

theorem readList_rest {fuel conn : Nat} {tags : List MTag} {replies : List Reply} {run : ListRun}
    (h : readList fuel conn tags replies = some run) : run.rest = replies.drop run.log.length := by
  induction fuel generalizing tags replies run with
  | zero => simp [readList] at h
  | succ fuel ih =>
    rw [readList] at h
    split at h
    · split at h
      · simp at h
      · rename_i v0 log0 rest0 h0
        have e0 := ih h0
        simp only at e0
        split at h
        · simp at h
        · rename_i v1 log1 rest1 h1
          have e1 := ih h1
          simp only [Option.some.injEq] at h e1
          subst h
          simp [e1, e0, Nat.add_comm]
        · rename_i res log1 rest1 _ h1
          have e1 := ih h1
          simp only [Option.some.injEq] at h e1
          subst h
          simp [e1, e0, Nat.add_comm]
      · rename_i run' _ h0
        simp only [Option.some.injEq] at h
        subst h
        exact ih h0
    · simp only [Option.some.injEq] at h
      subst h
      cases replies <;> simp [exchangeList]

theorem allMulti_left {world : MTag → Byte × Bytes} {a b : List (List MTag)} {replies : List Reply}
    (h : Spec.AllMulti world (a ++ b) replies) : Spec.AllMulti world a replies := by
  intro i req hi
  have hlt : i < a.length := by
    rcases Nat.lt_or_ge i a.length with h | h
    · exact h
    · rw [List.getElem?_eq_none h] at hi; simp at hi
  exact h i req (by rw [List.getElem?_append_left hlt]; exact hi)

theorem allMulti_right {world : MTag → Byte × Bytes} {a b : List (List MTag)} {replies : List Reply}
    (h : Spec.AllMulti world (a ++ b) replies) : Spec.AllMulti world b (replies.drop a.length) := by
  intro i req hi
  obtain ⟨r, hr, ha⟩ := h (a.length + i) req (by
    rw [List.getElem?_append_right (by omega)]; simpa using hi)
  exact ⟨r, by rw [List.getElem?_drop]; exact hr, ha⟩

/-- C21 for `readList`, the body of ReadMulti: whatever the number and mixture of tags, however the list
is split, the i-th value returned is the value of the i-th tag.  Structures read without a
destination type and bits of a SINT are outside `Spec.Means`; for those see `C21_untyped_struct_overruns`
and `C21_sint_bit_nil`. -/
theorem C21_readList_partial (fuel conn : Nat) (tags : List MTag) (replies : List Reply) (run : ListRun)
    (hrun : readList fuel conn tags replies = some run)
    (world : MTag → Byte × Bytes) (val : MTag → RV)
    (hv : ∀ t ∈ tags, Spec.Means t (world t).1 (world t).2 (val t))
    (ha : Spec.AllMulti world run.log replies) : run.res = .ok (tags.map val) := by
  induction fuel generalizing tags replies run with
  | zero => simp [readList] at hrun
  | succ fuel ih =>
    rw [readList] at hrun
    split at hrun
    · rename_i i hi
      have hv0 : ∀ t ∈ tags.take i, Spec.Means t (world t).1 (world t).2 (val t) :=
        fun t ht => hv t (List.mem_of_mem_take ht)
      have hv1 : ∀ t ∈ tags.drop i, Spec.Means t (world t).1 (world t).2 (val t) :=
        fun t ht => hv t (List.mem_of_mem_drop ht)
      split at hrun
      · simp at hrun
      · rename_i v0 log0 rest0 h0
        have er := readList_rest h0
        simp only at er
        split at hrun
        · simp at hrun
        · rename_i v1 log1 rest1 h1
          simp only [Option.some.injEq] at hrun
          subst hrun
          have e0 := ih _ _ _ h0 hv0 (allMulti_left ha)
          have e1 := ih _ _ _ h1 hv1 (by rw [er]; exact allMulti_right ha)
          simp only [Res.ok.injEq] at e0 e1
          simp only [e0, e1, ← List.map_append, List.take_append_drop]
        · rename_i res log1 rest1 hne h1
          simp only [Option.some.injEq] at hrun
          subst hrun
          have e1 := ih _ _ _ h1 hv1 (by rw [er]; exact allMulti_right ha)
          simp only at e1
          exact absurd e1 (hne _)
      · rename_i run' hne h0
        simp only [Option.some.injEq] at hrun
        subst hrun
        have e0 := ih _ _ _ h0 hv0 ha
        exact absurd (by cases run'; simp_all) (hne (List.map val (List.take i tags)) run'.log run'.rest)
    · simp only [Option.some.injEq] at hrun
      subst hrun
      cases replies with
      | nil =>
        obtain ⟨r, hr, -⟩ := ha 0 tags rfl
        simp at hr
      | cons r rs =>
        obtain ⟨r', hr, hans⟩ := ha 0 tags rfl
        simp only [List.getElem?_cons_zero, Option.some.injEq] at hr
        subst hr
        exact multiReply_answers hans hv

/-- C21 for ReadList and ReadMap. -/
theorem C21_readBatches_partial (fuel conn : Nat) (tags : List MTag) (replies : List Reply) (run : ListRun)
    (hrun : readBatches fuel conn tags replies = some run)
    (world : MTag → Byte × Bytes) (val : MTag → RV)
    (hv : ∀ t ∈ tags, Spec.Means t (world t).1 (world t).2 (val t))
    (ha : Spec.AllMulti world run.log replies) : run.res = .ok (tags.map val) := by
  induction fuel generalizing tags replies run with
  | zero => simp [readBatches] at hrun
  | succ fuel ih =>
    rw [readBatches] at hrun
    split at hrun
    · rename_i ht
      simp only [Option.some.injEq] at hrun
      subst hrun
      simp [ht]
    · simp only at hrun
      generalize countFit conn tags = i at hrun
      have hv0 : ∀ t ∈ tags.take i, Spec.Means t (world t).1 (world t).2 (val t) :=
        fun t ht => hv t (List.mem_of_mem_take ht)
      have hv1 : ∀ t ∈ tags.drop i, Spec.Means t (world t).1 (world t).2 (val t) :=
        fun t ht => hv t (List.mem_of_mem_drop ht)
      split at hrun
      · simp at hrun
      · rename_i v0 log0 rest0 h0
        have er := readList_rest h0
        simp only at er
        split at hrun
        · simp at hrun
        · rename_i v1 log1 rest1 h1
          simp only [Option.some.injEq] at hrun
          subst hrun
          have e0 := C21_readList_partial _ _ _ _ _ h0 world val hv0 (allMulti_left ha)
          have e1 := ih _ _ _ h1 hv1 (by rw [er]; exact allMulti_right ha)
          simp only [Res.ok.injEq] at e0 e1
          simp only [e0, e1, ← List.map_append, List.take_append_drop]
        · rename_i res log1 rest1 hne h1
          simp only [Option.some.injEq] at hrun
          subst hrun
          have e1 := ih _ _ _ h1 hv1 (by rw [er]; exact allMulti_right ha)
          simp only at e1
          exact absurd e1 (hne _)
      · rename_i run' hne h0
        simp only [Option.some.injEq] at hrun
        subst hrun
        have e0 := C21_readList_partial _ _ _ _ _ h0 world val hv0 ha
        exact absurd (by cases run'; simp_all) (hne (List.map val (List.take i tags)) run'.log run'.rest)

/-! ### C22 -/

theorem splitIndex_bound {conn i blen k : Nat} {tags : List MTag} (h : splitIndex conn i blen tags = some k) :
    i ≤ k ∧ k < i + tags.length := by
  induction tags generalizing i blen with
  | nil => simp [splitIndex] at h
  | cons t ts ih =>
    rw [splitIndex] at h
    split at h
    · simp only [Option.some.injEq] at h; subst h; simp
    · have := ih h; simp; omega

/-- A list whose first tag fits is not split in front of it. -/
theorem splitIndex_pos {conn k : Nat} {tags : List MTag} (hfit : ∀ t ∈ tags, t.entry.length + 6 ≤ conn)
    (h : splitIndex conn 0 0 tags = some k) : 0 < k := by
  cases tags with
  | nil => simp [splitIndex] at h
  | cons t ts =>
    rw [splitIndex] at h
    have := hfit t (by simp)
    rw [if_neg (by omega)] at h
    exact (splitIndex_bound h).1

/-- C22 for `readList`: if every tag fits on its own, the recursion is at most as deep as the list is
long, the requests sent carry the tags in order, none is empty, and on success all tags were sent. -/
theorem C22_readList_partial (conn : Nat) (tags : List MTag) (hne : tags ≠ [])
    (hfit : ∀ t ∈ tags, t.entry.length + 6 ≤ conn) (replies : List Reply) (fuel : Nat)
    (hfuel : tags.length ≤ fuel) :
    ∃ run, readList fuel conn tags replies = some run ∧ run.log ≠ [] ∧ (∀ req ∈ run.log, req ≠ []) ∧
      run.log.flatten <+: tags ∧ (run.res.isOk = true → run.log.flatten = tags) ∧
      run.log.length ≤ tags.length := by
  induction fuel generalizing tags replies with
  | zero => simp only [Nat.le_zero, List.length_eq_zero_iff] at hfuel; exact absurd hfuel hne
  | succ fuel ih =>
    rw [readList]
    cases hsp : splitIndex conn 0 0 tags with
    | none =>
      cases replies with
      | nil =>
        exact ⟨_, rfl, by simp [exchangeList], by simpa [exchangeList] using hne, by simp [exchangeList],
          by simp [exchangeList],
          by simp [exchangeList]; exact Nat.pos_of_ne_zero (by simpa using hne)⟩
      | cons r rs =>
        exact ⟨_, rfl, by simp [exchangeList], by simpa [exchangeList] using hne, by simp [exchangeList],
          by simp [exchangeList],
          by simp [exchangeList]; exact Nat.pos_of_ne_zero (by simpa using hne)⟩
    | some i =>
      have hpos := splitIndex_pos hfit hsp
      have hlt := (splitIndex_bound hsp).2
      have hn0 : tags.take i ≠ [] := by
        intro h; have := congrArg List.length h; simp at this
        rcases this with h | h
        · omega
        · exact hne h
      have hn1 : tags.drop i ≠ [] := by
        intro h; have := congrArg List.length h; simp at this; omega
      obtain ⟨run0, h0, hl0, hr0, hp0, hk0, hc0⟩ := ih (tags.take i) hn0
        (fun t ht => hfit t (List.mem_of_mem_take ht)) replies (by simp; omega)
      simp only [h0]
      obtain ⟨res0, log0, rest0⟩ := run0
      simp only at hl0 hr0 hp0 hk0 hc0
      simp only [List.length_take] at hc0
      cases res0 with
      | err e =>
        exact ⟨_, rfl, hl0, hr0, hp0.trans (List.take_prefix i tags), by simp [Res.isOk],
          by simp only; omega⟩
      | panic =>
        exact ⟨_, rfl, hl0, hr0, hp0.trans (List.take_prefix i tags), by simp [Res.isOk],
          by simp only; omega⟩
      | ok v0 =>
        have e0 := hk0 rfl
        obtain ⟨run1, h1, hl1, hr1, hp1, hk1, hc1⟩ := ih (tags.drop i) hn1
          (fun t ht => hfit t (List.mem_of_mem_drop ht)) rest0 (by simp; omega)
        simp only [h1]
        obtain ⟨res1, log1, rest1⟩ := run1
        simp only at hl1 hr1 hp1 hk1 hc1
        simp only [List.length_drop] at hc1
        have hcat : ∀ req ∈ log0 ++ log1, req ≠ [] := by
          intro req hreq
          rcases List.mem_append.mp hreq with h | h
          · exact hr0 req h
          · exact hr1 req h
        have hpre : (log0 ++ log1).flatten <+: tags := by
          rw [List.flatten_append, e0]
          conv => rhs; rw [← List.take_append_drop i tags]
          exact (List.prefix_append_right_inj _).mpr hp1
        cases res1 with
        | err e =>
          exact ⟨_, rfl, by simp [hl0], hcat, hpre, by simp [Res.isOk], by simp; omega⟩
        | panic =>
          exact ⟨_, rfl, by simp [hl0], hcat, hpre, by simp [Res.isOk], by simp; omega⟩
        | ok v1 =>
          refine ⟨_, rfl, by simp [hl0], hcat, hpre, ?_, by simp; omega⟩
          intro _
          simp only [List.flatten_append, e0, hk1 rfl, List.take_append_drop]

theorem countFitLoop_bounds (conn i n blen resp : Nat) (tags : List MTag) (hn : n ≤ i + 1) :
    n ≤ countFitLoop conn i n blen resp tags ∧
      (tags ≠ [] → countFitLoop conn i n blen resp tags ≤ i + tags.length) ∧
      (countFitLoop conn i n blen resp tags ≤ max n (i + tags.length)) := by
  induction tags generalizing i n blen resp with
  | nil => simp [countFitLoop]; omega
  | cons t ts ih =>
    rw [countFitLoop]
    split
    · simp; omega
    · obtain ⟨h1, h2, h3⟩ := ih (i + 1) (i + 1) (blen + (2 + t.ioi.buffer.length + 2))
        (resp + cipSize t.typ * t.elements) (by omega)
      simp only [List.length_cons]
      refine ⟨by omega, fun _ => by omega, by omega⟩

theorem countFit_bounds (conn : Nat) (tags : List MTag) (hne : tags ≠ []) :
    1 ≤ countFit conn tags ∧ countFit conn tags ≤ tags.length := by
  obtain ⟨h1, h2, -⟩ := countFitLoop_bounds conn 0 1 0 0 tags (by omega)
  exact ⟨h1, by simpa [countFit] using h2 hne⟩

/-- C22 for ReadList and ReadMap, under the same condition. -/
theorem C22_readBatches_partial (conn : Nat) (tags : List MTag)
    (hfit : ∀ t ∈ tags, t.entry.length + 6 ≤ conn) (replies : List Reply) (fuel : Nat)
    (hfuel : tags.length + 1 ≤ fuel) :
    ∃ run, readBatches fuel conn tags replies = some run ∧ (∀ req ∈ run.log, req ≠ []) ∧
      run.log.flatten <+: tags ∧ (run.res.isOk = true → run.log.flatten = tags) ∧
      run.log.length ≤ tags.length := by
  induction fuel generalizing tags replies with
  | zero => omega
  | succ fuel ih =>
    rw [readBatches]
    by_cases hne : tags = []
    · subst hne
      exact ⟨_, by rw [if_pos rfl], by simp, by simp, by simp, by simp⟩
    · rw [if_neg hne]
      obtain ⟨hb1, hb2⟩ := countFit_bounds conn tags hne
      simp only
      generalize countFit conn tags = i at hb1 hb2
      have hn0 : tags.take i ≠ [] := by
        intro h; have := congrArg List.length h; simp at this
        rcases this with h | h
        · omega
        · exact hne h
      obtain ⟨run0, h0, hl0, hr0, hp0, hk0, hc0⟩ := C22_readList_partial conn (tags.take i) hn0
        (fun t ht => hfit t (List.mem_of_mem_take ht)) replies fuel (by simp; omega)
      simp only [h0]
      obtain ⟨res0, log0, rest0⟩ := run0
      simp only at hl0 hr0 hp0 hk0 hc0
      simp only [List.length_take] at hc0
      cases res0 with
      | err e =>
        exact ⟨_, rfl, hr0, hp0.trans (List.take_prefix i tags), by simp [Res.isOk], by simp only; omega⟩
      | panic =>
        exact ⟨_, rfl, hr0, hp0.trans (List.take_prefix i tags), by simp [Res.isOk], by simp only; omega⟩
      | ok v0 =>
        have e0 := hk0 rfl
        obtain ⟨run1, h1, hr1, hp1, hk1, hc1⟩ := ih (tags.drop i)
          (fun t ht => hfit t (List.mem_of_mem_drop ht)) rest0 (by simp; omega)
        simp only [h1]
        obtain ⟨res1, log1, rest1⟩ := run1
        simp only at hr1 hp1 hk1 hc1
        simp only [List.length_drop] at hc1
        have hcat : ∀ req ∈ log0 ++ log1, req ≠ [] := by
          intro req hreq
          rcases List.mem_append.mp hreq with h | h
          · exact hr0 req h
          · exact hr1 req h
        have hpre : (log0 ++ log1).flatten <+: tags := by
          rw [List.flatten_append, e0]
          conv => rhs; rw [← List.take_append_drop i tags]
          exact (List.prefix_append_right_inj _).mpr hp1
        cases res1 with
        | err e => exact ⟨_, rfl, hcat, hpre, by simp [Res.isOk], by simp; omega⟩
        | panic => exact ⟨_, rfl, hcat, hpre, by simp [Res.isOk], by simp; omega⟩
        | ok v1 =>
          refine ⟨_, rfl, hcat, hpre, ?_, by simp; omega⟩
          intro _
          simp only [List.flatten_append, e0, hk1 rfl, List.take_append_drop]

/-- C22 fails for a tag that does not fit: as long as the controller answers the requests, the client
keeps sending requests without any tag, and never gets to the tag. -/
theorem C22_oversized_tag_loops (conn : Nat) (t : MTag) (ts : List MTag) (hbig : conn < t.entry.length + 6)
    (replies : List Reply) (hok : ∀ r ∈ replies, multiReply [] r = .ok []) (fuel : Nat) :
    readList (fuel + 2 + replies.length) conn (t :: ts) replies =
      some ⟨.err .fail, List.replicate (replies.length + 1) [], []⟩ := by
  have hs : splitIndex conn 0 0 (t :: ts) = some 0 := by
    rw [splitIndex, if_pos (by omega)]
  induction replies with
  | nil =>
    simp only [List.length_nil, Nat.add_zero]
    rw [readList, hs]
    simp only [List.take_zero]
    rw [readList]
    simp [splitIndex, exchangeList]
  | cons r rs ih =>
    simp only [List.length_cons]
    rw [show fuel + 2 + (rs.length + 1) = (fuel + 2 + rs.length) + 1 by omega, readList, hs]
    simp only [List.take_zero]
    rw [show fuel + 2 + rs.length = (fuel + 1 + rs.length) + 1 by omega, readList]
    simp only [splitIndex, exchangeList]
    rw [hok r (by simp)]
    simp only [List.drop_zero]
    rw [show (fuel + 1 + rs.length) + 1 = fuel + 2 + rs.length by omega,
      ih (fun x hx => hok x (by simp [hx]))]
    simp [List.replicate_succ]

/-- A successful empty multi-service reply exists, so the loop above is real. -/
theorem C22_empty_reply (f : Spec.MultiForm) (hf : f.address.length < 65536) :
    multiReply [] ⟨0, f.payload [0#8, 0#8]⟩ = .ok [] := by
  have : Spec.MultiAnswers (fun _ => (0#8, [])) [] ⟨0, f.payload [0#8, 0#8]⟩ :=
    ⟨f, [], [], rfl, rfl, hf, by simp, rfl, by simp⟩
  simpa using multiReply_answers (val := fun _ => .many []) this (by simp)

/-! ### C23 -/

theorem readListBytes_length (seq : BitVec 16) (tags : List MTag) :
    (readListBytes seq tags).length = 10 + 2 * tags.length + ((tags.map MTag.entry).flatten).length := by
  simp only [readListBytes, multiBytes, List.length_append, putBV_length, flatten_put_length,
    jumpTable_length, List.length_map, List.length_cons, List.length_nil]

theorem entry_length (t : MTag) : t.entry.length = 2 + t.ioi.buffer.length + 2 := by
  simp [MTag.entry]; omega

/-- The data the replies to `tags` carry, as the code counts it. -/
def dataSize (tags : List MTag) : Nat := (tags.map fun t => cipSize t.typ * t.elements).sum

theorem countFitLoop_size (conn i blen resp : Nat) (tags : List MTag) (hi : 1 ≤ i)
    (hb : 10 + 2 * (i - 1) + blen < conn) (hr : resp < conn) :
    let r := countFitLoop conn i i blen resp tags
    i ≤ r ∧ 10 + 2 * (r - 1) + blen + (((tags.take (r - i)).map MTag.entry).flatten).length < conn ∧
      resp + dataSize (tags.take (r - i)) < conn := by
  induction tags generalizing i blen resp with
  | nil => simp [countFitLoop, dataSize]; omega
  | cons t ts ih =>
    simp only
    rw [countFitLoop]
    split
    · simp [dataSize]; omega
    · rename_i hn
      have := ih (i + 1) (blen + (2 + t.ioi.buffer.length + 2)) (resp + cipSize t.typ * t.elements)
        (by omega) (by omega) (by omega)
      simp only at this
      obtain ⟨h1, h2, h3⟩ := this
      refine ⟨by omega, ?_, ?_⟩
      · generalize countFitLoop conn (i + 1) (i + 1) _ _ ts = r at *
        rw [show r - i = (r - (i + 1)) + 1 by omega, List.take_succ_cons, List.map_cons, List.flatten_cons,
          List.length_append, entry_length]
        omega
      · generalize countFitLoop conn (i + 1) (i + 1) _ _ ts = r at *
        rw [show r - i = (r - (i + 1)) + 1 by omega, List.take_succ_cons]
        simp only [dataSize, List.map_cons, List.sum_cons] at h3 ⊢
        omega

theorem countFit_size (conn : Nat) (tags : List MTag) (hne : tags ≠ []) :
    countFit conn tags = 1 ∨
    (10 + 2 * (countFit conn tags - 1) + (((tags.take (countFit conn tags)).map MTag.entry).flatten).length < conn ∧
      dataSize (tags.take (countFit conn tags)) < conn) := by
  cases tags with
  | nil => exact absurd rfl hne
  | cons t ts =>
    unfold countFit
    rw [countFitLoop]
    split
    · exact Or.inl rfl
    · rename_i hn
      right
      have := countFitLoop_size conn 1 (0 + (2 + t.ioi.buffer.length + 2)) (0 + cipSize t.typ * t.elements) ts
        (by omega) (by omega) (by omega)
      simp only at this
      obtain ⟨h1, h2, h3⟩ := this
      simp only [Nat.zero_add] at *
      generalize countFitLoop conn 1 1 _ _ ts = r at *
      obtain ⟨k, rfl⟩ : ∃ k, r = k + 1 := ⟨r - 1, by omega⟩
      rw [List.take_succ_cons, List.map_cons, List.flatten_cons, List.length_append, entry_length]
      simp only [dataSize, List.map_cons, List.sum_cons, Nat.add_sub_cancel] at h2 h3 ⊢
      omega

theorem splitIndex_none {conn i blen : Nat} {tags : List MTag}
    (h : blen + ((tags.map MTag.entry).flatten).length + 6 ≤ conn) : splitIndex conn i blen tags = none := by
  induction tags generalizing i blen with
  | nil => rfl
  | cons t ts ih =>
    simp only [List.map_cons, List.flatten_cons, List.length_append] at h
    rw [splitIndex, if_neg (by omega)]
    exact ih (by omega)

theorem readList_log_length {fuel conn : Nat} {tags : List MTag} {replies : List Reply} {run : ListRun}
    (h : readList fuel conn tags replies = some run) : ∀ req ∈ run.log, req.length ≤ tags.length := by
  induction fuel generalizing tags replies run with
  | zero => simp [readList] at h
  | succ fuel ih =>
    rw [readList] at h
    split at h
    · rename_i i _
      have hi0 : (tags.take i).length ≤ tags.length := by simp; omega
      have hi1 : (tags.drop i).length ≤ tags.length := by simp
      split at h
      · simp at h
      · rename_i v0 log0 rest0 h0
        have e0 := ih h0
        split at h
        · simp at h
        · rename_i v1 log1 rest1 h1
          have e1 := ih h1
          simp only [Option.some.injEq] at h
          subst h
          intro req hreq
          rcases List.mem_append.mp hreq with hm | hm
          · exact Nat.le_trans (e0 req hm) hi0
          · exact Nat.le_trans (e1 req hm) hi1
        · rename_i res log1 rest1 _ h1
          have e1 := ih h1
          simp only [Option.some.injEq] at h
          subst h
          intro req hreq
          rcases List.mem_append.mp hreq with hm | hm
          · exact Nat.le_trans (e0 req hm) hi0
          · exact Nat.le_trans (e1 req hm) hi1
      · rename_i run' _ h0
        simp only [Option.some.injEq] at h
        subst h
        intro req hreq
        exact Nat.le_trans (ih h0 req hreq) hi0
    · simp only [Option.some.injEq] at h
      subst h
      cases replies <;> simp [exchangeList]

/-- What the requests of a ReadList or ReadMap have in common. -/
theorem readBatches_log {fuel conn : Nat} {tags : List MTag} {replies : List Reply} {run : ListRun}
    (h : readBatches fuel conn tags replies = some run) : ∀ req ∈ run.log, req.length ≤ 1 ∨
      ((∀ t ∈ req, t ∈ tags) ∧ 8 + 2 * req.length + ((req.map MTag.entry).flatten).length < conn ∧
        dataSize req < conn) := by
  induction fuel generalizing tags replies run with
  | zero => simp [readBatches] at h
  | succ fuel ih =>
    rw [readBatches] at h
    split at h
    · simp only [Option.some.injEq] at h
      subst h
      simp
    · rename_i hne
      simp only at h
      have hb := countFit_bounds conn tags hne
      have hsz := countFit_size conn tags hne
      generalize countFit conn tags = n at h hb hsz
      have key : ∀ {f : Nat} {r : List Reply} {ru : ListRun}, readList f conn (tags.take n) r = some ru →
          ∀ req ∈ ru.log, req.length ≤ 1 ∨
            ((∀ t ∈ req, t ∈ tags) ∧ 8 + 2 * req.length + ((req.map MTag.entry).flatten).length < conn ∧
              dataSize req < conn) := by
        intro f r ru hru req hreq
        rcases hsz with hsz | ⟨h1, h2⟩
        · left
          have := readList_log_length hru req hreq
          simp [hsz] at this
          omega
        · right
          cases f with
          | zero => simp [readList] at hru
          | succ f =>
            rw [readList, splitIndex_none (by omega)] at hru
            simp only [Option.some.injEq] at hru
            subst hru
            have hlog : (exchangeList (tags.take n) r).log = [tags.take n] := by cases r <;> rfl
            rw [hlog, List.mem_singleton] at hreq
            subst hreq
            refine ⟨fun t ht => List.mem_of_mem_take ht, ?_, h2⟩
            simp only [List.length_take]
            omega
      split at h
      · simp at h
      · rename_i v0 log0 rest0 h0
        have k0 := key h0
        split at h
        · simp at h
        · rename_i v1 log1 rest1 h1
          have e1 := ih h1
          simp only [Option.some.injEq] at h
          subst h
          intro req hreq
          rcases List.mem_append.mp hreq with hm | hm
          · exact k0 req hm
          · rcases e1 req hm with h | ⟨a, b⟩
            · exact Or.inl h
            · exact Or.inr ⟨fun t ht => List.mem_of_mem_drop (a t ht), b⟩
        · rename_i res log1 rest1 _ h1
          have e1 := ih h1
          simp only [Option.some.injEq] at h
          subst h
          intro req hreq
          rcases List.mem_append.mp hreq with hm | hm
          · exact k0 req hm
          · rcases e1 req hm with h | ⟨a, b⟩
            · exact Or.inl h
            · exact Or.inr ⟨fun t ht => List.mem_of_mem_drop (a t ht), b⟩
      · rename_i run' _ h0
        simp only [Option.some.injEq] at h
        subst h
        exact key h0

theorem even_entries (tags : List MTag) (h : ∀ t ∈ tags, t.ioi.buffer.length % 2 = 0) :
    ((tags.map MTag.entry).flatten).length % 2 = 0 := by
  induction tags with
  | nil => rfl
  | cons t ts ih =>
    have h1 := h t (by simp)
    have h2 := ih (fun x hx => h x (by simp [hx]))
    simp only [List.map_cons, List.flatten_cons, List.length_append, entry_length]
    omega

/-- C23, requests of ReadList and ReadMap: any request of more than one tag is at most one byte over the
connection size. -/
theorem C23_request_within_one (fuel conn : Nat) (tags : List MTag) (replies : List Reply) (run : ListRun)
    (hrun : readBatches fuel conn tags replies = some run) (seq : BitVec 16) (req : List MTag)
    (hreq : req ∈ run.log) : req.length ≤ 1 ∨ (readListBytes seq req).length ≤ conn + 1 := by
  rcases readBatches_log hrun req hreq with h | ⟨-, h, -⟩
  · exact Or.inl h
  · right; rw [readListBytes_length]; omega

/-- C23 for ReadList and ReadMap with an even connection size and paths of whole words: any request of
more than one tag fits. -/
theorem C23_request_fits_partial (fuel conn : Nat) (heven : conn % 2 = 0) (tags : List MTag)
    (hw : ∀ t ∈ tags, t.ioi.buffer.length % 2 = 0) (replies : List Reply) (run : ListRun)
    (hrun : readBatches fuel conn tags replies = some run) (seq : BitVec 16) (req : List MTag)
    (hreq : req ∈ run.log) : req.length ≤ 1 ∨ (readListBytes seq req).length ≤ conn := by
  rcases readBatches_log hrun req hreq with h | ⟨hm, h, -⟩
  · exact Or.inl h
  · right
    have := even_entries req (fun t ht => hw t (hm t ht))
    rw [readListBytes_length]; omega

/-- C23, replies: only the values themselves are kept below the connection size. -/
theorem C23_reply_data_partial (fuel conn : Nat) (tags : List MTag) (replies : List Reply) (run : ListRun)
    (hrun : readBatches fuel conn tags replies = some run) (req : List MTag) (hreq : req ∈ run.log) :
    req.length ≤ 1 ∨ (req.map fun t => cipSize t.typ * t.elements).sum < conn := by
  rcases readBatches_log hrun req hreq with h | ⟨-, -, h⟩
  · exact Or.inl h
  · exact Or.inr h

/-- A tag for the examples: `a`, a DINT. -/
def exTag : MTag := ⟨exIoi, tDINT, 1, .sized 4⟩

/-- C23 fails for an odd connection size: two tags that need 30 bytes are sent although 29 are
allowed. -/
theorem C23_odd_size_exceeded (replies : List Reply) (seq : BitVec 16) :
    (readBatches 3 29 [exTag, exTag] replies).map (fun r => r.log.head?) = some (some [exTag, exTag]) ∧
    (readListBytes seq [exTag, exTag]).length = 30 := by
  refine ⟨?_, by rw [readListBytes_length]; decide⟩
  cases replies with
  | nil => decide
  | cons r rs =>
    have h : readList 2 29 [exTag, exTag] (r :: rs) = some ⟨multiReply [exTag, exTag] r, [[exTag, exTag]], rs⟩ := rfl
    have e : countFit 29 [exTag, exTag] = 2 := by decide
    rw [readBatches, if_neg (by simp)]
    simp only [e, List.take_succ_cons, List.take_zero, h]
    cases multiReply [exTag, exTag] r <;> rfl

theorem splitIndex_none_size {conn i blen : Nat} {tags : List MTag} (hne : tags ≠ [])
    (h : splitIndex conn i blen tags = none) : blen + ((tags.map MTag.entry).flatten).length + 6 ≤ conn := by
  induction tags generalizing i blen with
  | nil => exact absurd rfl hne
  | cons t ts ih =>
    rw [splitIndex] at h
    split at h
    · cases h
    · simp only [List.map_cons, List.flatten_cons, List.length_append]
      cases ts with
      | nil => simp; omega
      | cons u us =>
        have := ih (by simp) h
        omega

/-- C23, requests of ReadMulti: the embedded requests fit in the connection size with 6 bytes to spare, so that a
request of `n` tags is at most `2 * n + 4` bytes over it. -/
theorem C23_readMulti_partial (fuel conn : Nat) (tags : List MTag) (replies : List Reply) (run : ListRun)
    (hrun : readList fuel conn tags replies = some run) (seq : BitVec 16) :
    ∀ req ∈ run.log, req = [] ∨ (readListBytes seq req).length ≤ conn + 4 + 2 * req.length := by
  induction fuel generalizing tags replies run with
  | zero => simp [readList] at hrun
  | succ fuel ih =>
    rw [readList] at hrun
    split at hrun
    · rename_i i _
      split at hrun
      · simp at hrun
      · rename_i v0 log0 rest0 h0
        have e0 := ih _ _ _ h0
        split at hrun
        · simp at hrun
        · rename_i v1 log1 rest1 h1
          have e1 := ih _ _ _ h1
          simp only [Option.some.injEq] at hrun
          subst hrun
          intro req hreq
          rcases List.mem_append.mp hreq with hm | hm
          · exact e0 req hm
          · exact e1 req hm
        · rename_i res log1 rest1 _ h1
          have e1 := ih _ _ _ h1
          simp only [Option.some.injEq] at hrun
          subst hrun
          intro req hreq
          rcases List.mem_append.mp hreq with hm | hm
          · exact e0 req hm
          · exact e1 req hm
      · rename_i run' _ h0
        simp only [Option.some.injEq] at hrun
        subst hrun
        exact ih _ _ _ h0
    · rename_i hs
      simp only [Option.some.injEq] at hrun
      subst hrun
      intro req hreq
      have : req = tags := by cases replies <;> simpa [exchangeList] using hreq
      subst this
      by_cases hne : req = []
      · exact Or.inl hne
      · right
        have := splitIndex_none_size hne hs
        rw [readListBytes_length]
        omega

/-- C23 fails for ReadMulti, whose splitting ignores the offset table: 62 tags make a request of 630
bytes on a connection of 504. -/
theorem C23_readMulti_exceeds (replies : List Reply) (seq : BitVec 16) :
    (readList 1 504 (List.replicate 62 exTag) replies).map (fun r => r.log) =
      some [List.replicate 62 exTag] ∧
    (readListBytes seq (List.replicate 62 exTag)).length = 630 := by
  refine ⟨?_, by rw [readListBytes_length]; decide +kernel⟩
  rw [readList, splitIndex_none (by decide +kernel)]
  cases replies <;> rfl

/-- Size of a reply that carries the values of all tags: sequence, service, status, count, then per tag
offset, service, status, type and value. -/
def Spec.replySize (tags : List MTag) : Nat :=
  8 + (tags.map fun t => 2 + (6 + cipSize t.typ * t.elements)).sum

/-- C23 fails for replies: 49 DINT tags are requested at once on a connection of 504 bytes and need a
reply of 596. -/
theorem C23_reply_exceeds :
    countFit 504 (List.replicate 49 exTag) = 49 ∧ Spec.replySize (List.replicate 49 exTag) = 596 := by
  decide +kernel

/-! ### C21, where it fails -/

/-- C21 fails for a structure read without a destination type: the value returned also contains
everything that follows it in the reply, such as the values of the next tags. -/
theorem C21_untyped_struct_overruns (t : MTag) (h1 : t.elements = 1) (ht : t.typ ≠ tSTRING) (hb : t.typ ≠ tBOOL)
    (hd : t.dest = .untyped) (handle : BitVec 16) (image more : Bytes) :
    multiValue t tStruct (le 2 handle.toNat ++ (image ++ more)) = .ok (.one (.bytes (image ++ more))) := by
  unfold multiValue
  rw [if_pos h1, if_neg (by rintro ⟨h, -⟩; exact hb h), if_neg ht, if_pos rfl, readN_two, Res.bind_ok]
  simp only [hd]

/-- C21 fails for bits of a SINT: the value is nil and there is no error. -/
theorem C21_sint_bit_nil (t : MTag) (h1 : t.elements = 1) (ht : t.typ = tBOOL) (hb : t.ioi.bitAccess = true)
    (n : Nat) (hk : t.ioi.bitPosition = n) (hn : n < 8) (x : Byte) (more : Bytes) :
    multiValue t tSINT ([x] ++ more) = .ok (.one .nil) := by
  unfold multiValue
  have hr : readValue tSINT ([x] ++ more) = .ok (.i8 x, more) := by
    have := readU8 x more
    rw [putBV_eight] at this
    simp [readValue, tSINT, tUnknown, tStruct, tBOOL, tBYTE] at this ⊢
    rw [this, Res.bind_ok]
  rw [if_pos h1, if_pos ⟨ht, by decide, hb⟩, hr, Res.bind_ok, hk]
  simp only
  rw [C12_sint_refused ([x] ++ more) more (.i8 x) hr n hn]

/-- Two tags, two values. -/
example : multiReply [exTag, ⟨exIoi, tSTRING, 1, .untyped⟩]
    ⟨0, (⟨0, 0, 0xA1, [], 0xB1, 7, 0x8A#8, 0#8⟩ : Spec.MultiForm).payload
      ([2#8, 0#8, 6#8, 0#8, 16#8, 0#8] ++ [0xCC#8, 0#8, 0#8, 0#8, 0xC4#8, 0#8, 5#8, 0#8, 0#8, 0#8] ++
       [0xCC#8, 0#8, 0#8, 0#8, 0xA0#8, 2#8, 0xCE#8, 0x0F#8, 2#8, 0#8, 0#8, 0#8, 0x68#8, 0x69#8])⟩ =
    .ok [.one (.i32 5), .one (.str (str "hi"))] := by decide +kernel

end Gologix
