import Verif.Spec.ServerList
import Verif.Props.ServerReply
import Verif.Model.TagList
/-
C80 The server lists the tags it has

The listing holds every tag of the provider once, in ascending order of names, with instance numbers from 1, and these
numbers are the instances of the class through which single tags can be read.  What the client asked for is ignored
(start instance, attributes), and gologix's own client, which asks for three attributes, misreads the answer.
-/
set_option linter.unusedSimpArgs false
namespace Gologix.Server
open Gologix.Server.Spec

/-! ### Sorting -/

theorem strLt_iff (a b : Str) : strLt a b = true ↔ a.map BitVec.toNat < b.map BitVec.toNat := by
  induction a generalizing b with
  | nil => cases b <;> simp [strLt]
  | cons x xs ih =>
    cases b with
    | nil => simp [strLt]
    | cons y ys =>
      simp only [strLt, List.map_cons, List.cons_lt_cons_iff]
      by_cases h1 : x.toNat < y.toNat
      · simp [h1]
      · by_cases h2 : y.toNat < x.toNat
        · have : x.toNat ≠ y.toNat := by omega
          simp [h1, h2, this]
        · have : x.toNat = y.toNat := by omega
          simp [h1, h2, this, ih]

theorem strLt_total (a b : Str) (h : strLt a b = false) (hne : a ≠ b) : strLt b a = true := by
  induction a generalizing b with
  | nil => cases b <;> simp_all [strLt]
  | cons x xs ih =>
    cases b with
    | nil => rfl
    | cons y ys =>
      simp only [strLt] at h ⊢
      by_cases h1 : x.toNat < y.toNat
      · simp [h1] at h
      · by_cases h2 : y.toNat < x.toNat
        · simp [h2]
        · have hxy : x = y := BitVec.eq_of_toNat_eq (by omega)
          subst hxy
          simp at h ⊢
          exact ih ys h fun e => hne (by rw [e])

theorem insertKey_perm (k : Str) (l : List Str) : (insertKey k l).Perm (k :: l) := by
  induction l with
  | nil => exact List.Perm.refl _
  | cons x xs ih =>
    unfold insertKey
    split
    · exact (ih.cons x).trans (List.Perm.swap k x xs)
    · exact List.Perm.refl _

theorem sortKeys_perm (l : List Str) : (sortKeys l).Perm l := by
  induction l with
  | nil => exact List.Perm.refl _
  | cons x xs ih => exact (insertKey_perm x (sortKeys xs)).trans (ih.cons x)

theorem lt_trans_nat {a b c : List Nat} (h1 : a < b) (h2 : b < c) : a < c := List.lt_trans h1 h2

theorem insertKey_ascending (k : Str) (l : List Str) (hk : k ∉ l) (hl : Ascending l) : Ascending (insertKey k l) := by
  induction l with
  | nil => simp [insertKey, Ascending]
  | cons x xs ih =>
    obtain ⟨hx, hxs⟩ := List.pairwise_cons.mp hl
    have hne : k ≠ x := fun e => hk (by simp [e])
    unfold insertKey
    by_cases h : strLt x k = true
    · rw [if_pos h]
      refine List.pairwise_cons.mpr ⟨fun y hy => ?_, ih (fun hm => hk (by simp [hm])) hxs⟩
      rcases List.mem_cons.mp ((insertKey_perm k xs).mem_iff.mp hy) with rfl | hm
      · exact (strLt_iff _ _).mp h
      · exact hx y hm
    · rw [if_neg h]
      have hkx := (strLt_iff _ _).mp (strLt_total x k (by simpa using h) fun e => hne e.symm)
      refine List.pairwise_cons.mpr ⟨fun y hy => ?_, hl⟩
      rcases List.mem_cons.mp hy with rfl | hm
      · exact hkx
      · exact lt_trans_nat hkx (hx y hm)

theorem sortKeys_ascending (l : List Str) (h : l.Nodup) : Ascending (sortKeys l) := by
  induction l with
  | nil => simp [sortKeys, Ascending]
  | cons x xs ih =>
    obtain ⟨hx, hxs⟩ := List.nodup_cons.mp h
    exact insertKey_ascending x _ (fun hm => hx ((sortKeys_perm xs).mem_iff.mp hm)) (ih hxs)

/-! ### The list on the wire -/

theorem readListing_cons (n : Nat) (x : Byte) (xs : Bytes) :
    readListing (n + 1) (x :: xs) =
      if (x :: xs).length < 8 + unle (((x :: xs).drop 4).take 2) then none
      else (readListing n ((x :: xs).drop (8 + unle (((x :: xs).drop 4).take 2)))).map
        ((unle ((x :: xs).take 4), ((x :: xs).drop 6).take (unle (((x :: xs).drop 4).take 2)),
          unle (((x :: xs).drop (6 + unle (((x :: xs).drop 4).take 2))).take 2)) :: ·) := rfl

theorem readListing_entries (ts : List (Str × Byte)) (i fuel : Nat) (hi : i + ts.length < 2 ^ 32)
    (hf : ts.length ≤ fuel) :
    readListing fuel (symbolEntries i ts) =
      some (ts.zipIdx.map fun t => (i + t.2 + 1, t.1.1.take 255, t.1.2.toNat)) := by
  induction ts generalizing i fuel with
  | nil => simp [symbolEntries, readListing]
  | cons t ts ih =>
    obtain ⟨name, typ⟩ := t
    cases fuel with
    | zero => simp at hf
    | succ fuel =>
      have hlen : (shortName name).length ≤ 255 := by simp [shortName]; omega
      simp only [List.length_cons] at hi hf
      have e4 : (putBV (BitVec.ofNat 32 (i + 1))).length = 4 := rfl
      have e2 : ∀ x : BitVec 16, (putBV x).length = 2 := fun _ => rfl
      have u4 : unle (putBV (BitVec.ofNat 32 (i + 1))) = i + 1 := by
        rw [show putBV (BitVec.ofNat 32 (i + 1)) = le 4 (BitVec.ofNat 32 (i + 1)).toNat from rfl, unle_le,
          BitVec.toNat_ofNat]
        omega
      have u2 : ∀ n, n < 65536 → unle (putBV (BitVec.ofNat 16 n)) = n := by
        intro n hn
        rw [show putBV (BitVec.ofNat 16 n) = le 2 (BitVec.ofNat 16 n).toNat from rfl, unle_le, BitVec.toNat_ofNat]
        omega
      generalize ha : putBV (BitVec.ofNat 32 (i + 1)) = a at e4 u4
      generalize hb : putBV (BitVec.ofNat 16 (shortName name).length) = b
      generalize hc : putBV (BitVec.ofNat 16 typ.toNat) = c
      have lb : b.length = 2 := by rw [← hb]; rfl
      have lc : c.length = 2 := by rw [← hc]; rfl
      have ub : unle b = (shortName name).length := by rw [← hb]; exact u2 _ (by omega)
      have uc : unle c = typ.toNat := by rw [← hc]; exact u2 _ (by have := typ.isLt; omega)
      have hd : symbolEntries i ((name, typ) :: ts) =
          a ++ (b ++ (shortName name ++ (c ++ symbolEntries (i + 1) ts))) := by
        simp only [symbolEntries, ha, hb, hc, List.append_assoc]
      rw [hd]
      generalize hr : symbolEntries (i + 1) ts = rest
      have d4 : ∀ y : Bytes, (a ++ y).drop 4 = y := fun y => by rw [← e4, List.drop_left]
      have t4 : ∀ y : Bytes, (a ++ y).take 4 = a := fun y => by rw [← e4, List.take_left]
      have d6 : ∀ y : Bytes, (a ++ (b ++ y)).drop 6 = y := fun y => by
        rw [show (6 : Nat) = 4 + 2 from rfl, ← List.drop_drop, d4, ← lb, List.drop_left]
      obtain ⟨x, xs, hx⟩ : ∃ x xs, a ++ (b ++ (shortName name ++ (c ++ rest))) = x :: xs := by
        cases a with
        | nil => simp at e4
        | cons x xs => exact ⟨x, _, rfl⟩
      have hstep : readListing (fuel + 1) (a ++ (b ++ (shortName name ++ (c ++ rest)))) =
          (readListing fuel rest).map ((i + 1, shortName name, typ.toNat) :: ·) := by
        rw [hx, readListing_cons, ← hx, d4, t4, u4]
        have tb : ((b ++ (shortName name ++ (c ++ rest))).take 2) = b := by rw [← lb, List.take_left]
        rw [tb, ub]
        have hl : ¬ (a ++ (b ++ (shortName name ++ (c ++ rest)))).length < 8 + (shortName name).length := by
          simp only [List.length_append, e4, lb, lc]; omega
        rw [if_neg hl, d6, List.take_left, show 6 + (shortName name).length = 6 + (shortName name).length from rfl,
          ← List.drop_drop, d6, List.drop_left, ← lc, List.take_left, uc]
        have : (a ++ (b ++ (shortName name ++ (c ++ rest)))).drop (8 + (shortName name).length) = rest := by
          rw [show 8 + (shortName name).length = 6 + ((shortName name).length + 2) by omega, ← List.drop_drop, d6,
            ← List.drop_drop, List.drop_left, ← lc, List.drop_left]
        rw [this]
      rw [hstep, ← hr, ih (i + 1) fuel (by omega) (by omega)]
      simp only [Option.map_some, List.zipIdx_cons, List.map_cons, Nat.add_zero, shortName]
      congr 1
      congr 1
      rw [List.zipIdx_succ, List.map_map]
      apply List.map_congr_left
      intro t _
      simp only [Function.comp]
      congr 1
      omega

/-! ### Requests -/

/-- A listing request, answered. -/
theorem list_run (C : Conv) (st : St) (r : Req) (hr : r.wf) (rest : Bytes)
    (hi : st.inp = r.bytes ++ rest) (hcmd : r.cmd = 0x70#16) (hid : r.id0 = 0xA1#16)
    (k : BitVec 32) (more : Bytes) (h0 : r.data0 = le 4 k.toNat ++ more)
    (seq : BitVec 16) (body : Bytes) (hd : r.data1 = le 2 seq.toNat ++ 0x55#8 :: body)
    (c : Conn) (hc : st.srv.conns.getByOT k = .ok c) (ep : Nat) (he : st.srv.router.resolve c.path = .ok ep)
    (s : Store) (keys : List Str) (hs : st.srv.eps ep = .tags s keys) :
    serveStep C st = sendUnitData 0x55#8 0#8 (symbolEntries 0 (sortedTags s keys))
      { st with inp := rest, h := { st.h with context := r.context, seq := seq } } := by
  rw [unit_request C st r hr rest hi hcmd hid k more h0 seq 0x55#8 body hd]
  unfold unitService
  simp only [show (0x55#8 : Byte) ≠ 0x4D#8 by decide, show (0x55#8 : Byte) ≠ 0x52#8 by decide,
    show (0x55#8 : Byte) ≠ 0x4C#8 by decide, show (0x55#8 : Byte) ≠ 0x0A#8 by decide,
    show (0x55#8 : Byte) ≠ 0x0E#8 by decide, show (0x55#8 : Byte) ≠ 0x01#8 by decide, if_false, if_true]
  unfold connectedSymbolList
  rw [bind_def]
  simp only [getByOT, hc]
  rw [bind_def]
  simp only [resolve, he, M.depend, hs]

/-- C80, the list: every tag once, in ascending order, numbered from 1, with its type. -/
theorem C80_listed (C : Conv) (st : St) (r : Req) (hr : r.wf) (rest : Bytes)
    (hi : st.inp = r.bytes ++ rest) (hcmd : r.cmd = 0x70#16) (hid : r.id0 = 0xA1#16)
    (k : BitVec 32) (more : Bytes) (h0 : r.data0 = le 4 k.toNat ++ more)
    (seq : BitVec 16) (body : Bytes) (hd : r.data1 = le 2 seq.toNat ++ 0x55#8 :: body)
    (c : Conn) (hc : st.srv.conns.getByOT k = .ok c) (ep : Nat) (he : st.srv.router.resolve c.path = .ok ep)
    (s : Store) (keys : List Str) (hs : st.srv.eps ep = .tags s keys) (hn : keys.Nodup)
    (hlen : ∀ n ∈ keys, n.length ≤ 255) (hmany : keys.length < 2 ^ 32) :
    ∃ f es, newFrames st (serveStep C st).2 = [f] ∧ statusOf f = some 0#8 ∧
      readListing (answerOf f).length (answerOf f) = some es ∧
      es.map (·.1) = List.range' 1 keys.length ∧ (es.map (·.2.1)).Perm keys ∧ Ascending (es.map (·.2.1)) ∧
      ∀ e ∈ es, ∀ v, s e.2.1 = some v → e.2.2 = v.cipType.toNat := by
  rw [list_run C st r hr rest hi hcmd hid k more h0 seq body hd c hc ep he s keys hs]
  have hu := unit_fields { st.h with context := r.context, seq := seq } st.h.to seq 0x55#8 0#8
    (symbolEntries 0 (sortedTags s keys))
  have hsl : (sortedTags s keys).length = keys.length := by
    simp [sortedTags, (sortKeys_perm keys).length_eq]
  have hfuel : ∀ (ts : List (Str × Byte)) (i : Nat), ts.length ≤ (symbolEntries i ts).length := by
    intro ts
    induction ts with
    | nil => simp
    | cons t ts ih =>
      intro i
      obtain ⟨n, ty⟩ := t
      have := ih (i + 1)
      have e4 : (putBV (BitVec.ofNat 32 (i + 1))).length = 4 := rfl
      simp only [symbolEntries, List.length_append, List.length_cons, e4]
      omega
  refine ⟨_, (sortedTags s keys).zipIdx.map fun t => (0 + t.2 + 1, t.1.1.take 255, t.1.2.toNat), ?_, hu.2.2.1, ?_, ?_⟩
  · simp [newFrames, sendUnitData, sendUnit, send]
  · rw [hu.2.2.2]
    exact readListing_entries _ 0 _ (by rw [hsl]; omega) (hfuel _ _)
  have hmem : ∀ n ∈ sortKeys keys, n.length ≤ 255 := fun n h => hlen n ((sortKeys_perm keys).mem_iff.mp h)
  have hnames : ((sortedTags s keys).zipIdx.map fun t => (0 + t.2 + 1, t.1.1.take 255, t.1.2.toNat)).map (·.2.1) =
      sortKeys keys := by
    rw [List.map_map]
    have : ((fun e : Nat × Str × Nat => e.2.1) ∘ fun t : (Str × Byte) × Nat => (0 + t.2 + 1, t.1.1.take 255, t.1.2.toNat)) =
        (fun n : Str => n.take 255) ∘ Prod.fst ∘ Prod.fst := rfl
    rw [this, ← List.map_map, ← List.map_map, List.zipIdx_map_fst, sortedTags, List.map_map, List.map_map]
    conv => rhs; rw [← List.map_id (sortKeys keys)]
    apply List.map_congr_left
    intro n hm
    simp only [Function.comp, id]
    exact List.take_of_length_le (hmem n hm)
  refine ⟨?_, ?_, ?_, ?_⟩
  · rw [List.map_map]
    have : ((fun e : Nat × Str × Nat => e.1) ∘ fun t : (Str × Byte) × Nat => (0 + t.2 + 1, t.1.1.take 255, t.1.2.toNat)) =
        (fun n : Nat => n + 1) ∘ Prod.snd := by
      funext t; simp [Function.comp]
    rw [this, ← List.map_map, List.zipIdx_map_snd, hsl, List.range'_eq_map_range, List.map_map]
    rw [List.range'_eq_map_range]
    apply List.map_congr_left
    intro a _
    simp [Function.comp]
    omega
  · rw [hnames]; exact sortKeys_perm keys
  · rw [hnames]; exact sortKeys_ascending keys hn
  · intro e hem v hv
    simp only [List.mem_map] at hem
    obtain ⟨t, ht, rfl⟩ := hem
    have hm := List.fst_mem_of_mem_zipIdx ht
    simp only [sortedTags, List.mem_map] at hm
    obtain ⟨n, hn', hnt⟩ := hm
    have e1 : t.1.1 = n := by rw [← hnt]
    have e2 : t.1.2 = (match s n with | some v => v.cipType | none => tUnknown) := (congrArg Prod.snd hnt).symm
    simp only at hv ⊢
    rw [e1, List.take_of_length_le (hmem n hn')] at hv
    rw [e2, hv]

/-- C80, instances: instance `n` (16 bits) of the class through which single tags
can be read is the `n`-th listed tag of the provider of the local path, and there are no others. -/
theorem C80_instances (srv : Srv) (ep : Nat) (he : srv.router.resolve [1#8, 0#8] = .ok ep) (s : Store)
    (keys : List Str) (hs : srv.eps ep = .tags s keys) (n : BitVec 16) :
    customTag srv n = if 1 ≤ n.toNat then ((sortedTags s keys)[n.toNat - 1]?).map fun t => (ep, t.1) else none := by
  unfold customTag defaultLocalPath
  rw [he]
  simp only [hs]
  have h0 : n = 0#16 ↔ n.toNat = 0 := ⟨fun e => by rw [e]; rfl, fun e => BitVec.eq_of_toNat_eq (by simpa using e)⟩
  by_cases h1 : 1 ≤ n.toNat
  · rw [if_pos h1]
    by_cases h2 : n.toNat > (sortedTags s keys).length
    · rw [if_pos (.inr h2), List.getElem?_eq_none (by omega)]
      rfl
    · rw [if_neg (by rw [h0]; omega), List.getElem?_eq_getElem (by omega : n.toNat - 1 < (sortedTags s keys).length),
        List.getD_eq_getElem?_getD, List.getElem?_eq_getElem (by omega : n.toNat - 1 < (sortedTags s keys).length)]
      rfl
  · rw [if_neg h1, if_pos (.inl (h0.mpr (by omega)))]

/-- C80 is false for what is asked: whatever start instance and attributes a request names, the answer is the same. -/
theorem C80_request_ignored (C : Conv) (st : St) (r r' : Req) (hr : r.wf) (hr' : r'.wf) (rest : Bytes)
    (hcmd : r.cmd = 0x70#16) (hid : r.id0 = 0xA1#16) (hcmd' : r'.cmd = 0x70#16) (hid' : r'.id0 = 0xA1#16)
    (hx : r.context = r'.context)
    (k : BitVec 32) (more : Bytes) (h0 : r.data0 = le 4 k.toNat ++ more) (h0' : r'.data0 = le 4 k.toNat ++ more)
    (seq : BitVec 16) (body body' : Bytes) (hd : r.data1 = le 2 seq.toNat ++ 0x55#8 :: body)
    (hd' : r'.data1 = le 2 seq.toNat ++ 0x55#8 :: body') :
    serveStep C { st with inp := r.bytes ++ rest } = serveStep C { st with inp := r'.bytes ++ rest } := by
  rw [unit_request C { st with inp := r.bytes ++ rest } r hr rest rfl hcmd hid k more h0 seq 0x55#8 body hd,
    unit_request C { st with inp := r'.bytes ++ rest } r' hr' rest rfl hcmd' hid' k more h0' seq 0x55#8 body' hd', hx]
  rfl

/-- What the client makes of the first entry of a list. -/
theorem readSym_entry (i : Nat) (name : Str) (ty : Byte) (ts : List (Str × Byte)) :
    readSym (symbolEntries i ((name, ty) :: ts)) = (do
      let (t, r) ← readN 14 (putBV (BitVec.ofNat 16 ty.toNat) ++ symbolEntries (i + 1) ts)
      .ok ({ inst := BitVec.ofNat 32 (i + 1), name := shortName name,
             info := { type := t.getD 0 0#8, typeInfo := t.getD 1 0#8,
                       dim1 := BitVec.ofNat 32 (unle ((t.drop 2).take 4)),
                       dim2 := BitVec.ofNat 32 (unle ((t.drop 6).take 4)),
                       dim3 := BitVec.ofNat 32 (unle ((t.drop 10).take 4)) } }, r)) := by
  have hlen : (shortName name).length ≤ 255 := by simp [shortName]; omega
  have e4 : (putBV (BitVec.ofNat 32 (i + 1))).length = 4 := rfl
  have u4 : BitVec.ofNat 32 (unle (putBV (BitVec.ofNat 32 (i + 1)))) = BitVec.ofNat 32 (i + 1) := by
    rw [show putBV (BitVec.ofNat 32 (i + 1)) = le 4 (BitVec.ofNat 32 (i + 1)).toNat from rfl, unle_le,
      BitVec.toNat_ofNat]
    apply BitVec.eq_of_toNat_eq
    simp only [BitVec.toNat_ofNat]
    omega
  have e2 : (putBV (BitVec.ofNat 16 (shortName name).length)).length = 2 := rfl
  have u2 : unle (putBV (BitVec.ofNat 16 (shortName name).length)) = (shortName name).length := by
    rw [show putBV (BitVec.ofNat 16 (shortName name).length) = le 2 (BitVec.ofNat 16 (shortName name).length).toNat from rfl,
      unle_le, BitVec.toNat_ofNat]
    omega
  unfold readSym
  simp only [symbolEntries]
  generalize putBV (BitVec.ofNat 32 (i + 1)) = a at e4 u4
  generalize putBV (BitVec.ofNat 16 (shortName name).length) = b at e2 u2
  generalize putBV (BitVec.ofNat 16 ty.toNat) = c
  generalize symbolEntries (i + 1) ts = rest
  rw [show a ++ b ++ shortName name ++ c ++ rest = (a ++ b) ++ (shortName name ++ (c ++ rest)) by simp,
    readN_append' (show (a ++ b).length = 6 by simp [e4, e2])]
  simp only [Res.bind_ok]
  rw [show (a ++ b).drop 4 = b by rw [← e4, List.drop_left], u2, readN_append]
  simp only [Res.bind_ok]
  rw [show (a ++ b).take 4 = a by rw [← e4, List.take_left], u4]

/-- C80 is false for gologix's own client: it cannot read the list of a server with one tag. -/
theorem C80_client_cannot_read (name : Str) (ty : Byte) (f : Nat) :
    ∃ e, readSyms (f + 1) (symbolEntries 0 [(name, ty)]) = ([], .err e) := by
  have hne : symbolEntries 0 [(name, ty)] ≠ [] := by
    have e4 : (putBV (BitVec.ofNat 32 (0 + 1))).length = 4 := rfl
    intro e
    have := congrArg List.length e
    simp only [symbolEntries, List.length_append, e4, List.length_nil] at this
    omega
  refine ⟨.unexpectedEof, ?_⟩
  unfold readSyms
  rw [if_neg hne, readSym_entry]
  rfl

/-- With more tags it takes the instance number of the second for the size of the first. -/
theorem C80_client_wrong_size (t u : Str × Byte) (ts : List (Str × Byte)) (y : Sym) (r : Bytes)
    (h : readSym (symbolEntries 0 (t :: u :: ts)) = .ok (y, r)) : y.info.dim1 = 2#32 := by
  obtain ⟨name, ty⟩ := t
  obtain ⟨name', ty'⟩ := u
  rw [readSym_entry] at h
  obtain ⟨⟨t, r'⟩, h1, h2⟩ := Res.bind_eq_ok.mp h
  have h3 := readN_ok h1
  cases h2
  simp only
  have e2 : (putBV (BitVec.ofNat 16 ty.toNat)).length = 2 := rfl
  have ht : t = (t ++ r).take 14 := by rw [← h3.1, List.take_left]
  rw [ht, ← h3.2, List.drop_take, List.take_take]
  have : (putBV (BitVec.ofNat 16 ty.toNat) ++ symbolEntries (0 + 1) ((name', ty') :: ts)).drop 2 =
      putBV (2#32) ++ (putBV (BitVec.ofNat 16 (shortName name').length) ++ shortName name' ++
        putBV (BitVec.ofNat 16 ty'.toNat) ++ symbolEntries 2 ts) := by
    rw [List.drop_append_of_le_length (by rw [e2]; exact Nat.le_refl 2), List.drop_of_length_le (by rw [e2]; exact Nat.le_refl 2)]
    simp only [symbolEntries, List.append_assoc, List.nil_append]
  rw [this]
  rfl

/-- The list of the demonstration server, in ascending order, for a request that starts at instance 9. -/
example :
    let r := demoUnit [5#8, 0#8, 0x55#8, 3#8, 0x20#8, 0x6B#8, 0x25#8, 0#8, 9#8, 0#8]
    (newFrames (demoSt r.bytes) (serveStep demoConv (demoSt r.bytes)).2).map (fun f => readListing 9 (answerOf f)) =
      [some [(1, str "arr", 0xC4), (2, str "count", 0xC4)]] := by
  decide +kernel

example : customTag demoSrv 2#16 = some (0, str "count") ∧ customTag demoSrv 3#16 = none := by decide +kernel

end Gologix.Server
