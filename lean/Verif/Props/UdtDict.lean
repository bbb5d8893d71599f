import Verif.Spec.UdtDict
import Verif.Props.Multi
import Verif.Props.Reply
/-
C73: WriteMulti.
-/
set_option linter.unusedSimpArgs false
namespace Gologix
open Gologix.Spec

theorem dictSet_fresh {d : List (Str × WVal)} {k : Str} {v : WVal} (h : k ∉ d.map Prod.fst) :
    dictSet d k v = d ++ [(k, v)] := by
  unfold dictSet
  congr 1
  rw [List.filter_eq_self]
  intro e he
  have : e.1 ≠ k := fun hk => h (hk ▸ List.mem_map_of_mem he)
  simpa using this

theorem dictUpdate_fresh {d2 : List (Str × WVal)} : ∀ {d : List (Str × WVal)}, ((d ++ d2).map Prod.fst).Nodup →
    dictUpdate d d2 = d ++ d2 := by
  unfold dictUpdate
  induction d2 with
  | nil => intro d _; simp
  | cons e es ih =>
    intro d h
    simp only [List.foldl_cons]
    have he : e.1 ∉ d.map Prod.fst := by
      intro hm
      simp only [List.map_append, List.map_cons, List.nodup_append] at h
      exact h.2.2 e.1 hm e.1 (by simp) rfl
    rw [dictSet_fresh he, ih (by simpa using h)]
    simp

theorem udtToDict_plain (v : WTree) (hs : isStruct v) (hp : plainTree v) (tag : Str) (d : List (Str × WVal))
    (hn : ((d ++ under none tag v).map Prod.fst).Nodup) : udtToDict tag d v = .ok (d ++ under none tag v) := by
  induction v generalizing tag d with
  | val w => exact absurd hs id
  | arr es => exact absurd hs id
  | nil => simp [udtToDict, under]
  | cons name t e f rest ihf ihr =>
    obtain ⟨rfl, hf, hr, hrs⟩ := hp
    simp only [under, ← List.append_assoc] at hn ⊢
    cases f with
    | val w =>
      simp only [udtToDict, if_true]
      have hk : (tag ++ [0x2E#8] ++ name) ∉ d.map Prod.fst := by
        intro hm
        simp only [under, List.map_append, List.map_cons, List.map_nil, List.nodup_append] at hn
        exact hn.1.2.2 _ hm _ (by simp) rfl
      rw [dictSet_fresh (by simpa using hk), ihr hrs hr tag _ (by simpa [under] using hn)]
      simp [under]
    | arr es => exact absurd hf id
    | nil =>
      simp only [udtToDict, if_true]
      rw [ihr hrs hr tag d (by simpa [under] using hn)]
      simp [under]
    | cons n2 t2 e2 g2 r2 =>
      simp only [udtToDict, if_true]
      have hsub : ((([] : List (Str × WVal)) ++ under none (tag ++ [0x2E#8] ++ name) (.cons n2 t2 e2 g2 r2)).map
          Prod.fst).Nodup := by
        simp only [List.map_append, List.nodup_append] at hn
        simpa using hn.1.2.1
      have := ihf trivial hf (tag ++ [0x2E#8] ++ name) [] (by simpa using hsub)
      rw [this, Res.bind_ok, List.nil_append, dictUpdate_fresh (by
        simp only [List.map_append, List.nodup_append] at hn ⊢
        simpa using hn.1), ihr hrs hr tag _ (by simpa using hn)]

/-- C73, structures: when its fields are exported, there are no arrays and the tags are distinct, a structure is
turned into exactly its values with their tags. -/
theorem C73_struct_partial (v : WTree) (hs : isStruct v) (hp : plainTree v)
    (hn : ((tagged v).map Prod.fst).Nodup) : writeMultiMap v = .ok (tagged v) := by
  suffices h : ∀ d : List (Str × WVal), ((d ++ tagged v).map Prod.fst).Nodup → multiToDict d v = .ok (d ++ tagged v) by
    have h0 := h [] (by simpa using hn)
    cases v with
    | val w => exact absurd hs id
    | arr es => exact absurd hs id
    | nil => simpa [writeMultiMap] using h0
    | cons => simpa [writeMultiMap] using h0
  clear hn
  induction v with
  | val w => exact absurd hs id
  | arr es => exact absurd hs id
  | nil => intro d _; simp [multiToDict, tagged]
  | cons name tag e f rest _ ihr =>
    intro d hn
    obtain ⟨rfl, hf, hr, hrs⟩ := hp
    simp only [tagged, ← List.append_assoc] at hn ⊢
    cases f with
    | val w =>
      simp only [multiToDict, if_true]
      have hk : tag ∉ d.map Prod.fst := by
        intro hm
        simp only [under, List.map_append, List.map_cons, List.map_nil, List.nodup_append] at hn
        exact hn.1.2.2 _ hm _ (by simp) rfl
      rw [dictSet_fresh hk, ihr hrs hr _ (by simpa [under] using hn)]
      simp [under]
    | arr es => exact absurd hf id
    | nil =>
      simp only [multiToDict, if_true]
      rw [ihr hrs hr d (by simpa [under] using hn)]
      simp [under]
    | cons n2 t2 e2 g2 r2 =>
      simp only [multiToDict, if_true]
      have hsub : ((([] : List (Str × WVal)) ++ under none tag (.cons n2 t2 e2 g2 r2)).map Prod.fst).Nodup := by
        simp only [List.map_append, List.nodup_append] at hn
        simpa using hn.1.2.1
      rw [udtToDict_plain (.cons n2 t2 e2 g2 r2) trivial hf tag [] hsub, Res.bind_ok, List.nil_append, dictUpdate_fresh (by
        simp only [List.map_append, List.nodup_append] at hn ⊢
        simpa using hn.1), ihr hrs hr _ (by simpa using hn)]

theorem lastOf_append (k : Str) (a b : List (Str × WVal)) : lastOf k (a ++ b) = (lastOf k b).or (lastOf k a) := by
  unfold lastOf
  rw [List.filter_append, List.getLast?_append]
  cases (b.filter (fun e => e.1 = k)).getLast? <;> rfl

theorem lastOf_one (k k' : Str) (w : WVal) : lastOf k [(k', w)] = if k' = k then some w else none := by
  unfold lastOf
  by_cases h : k' = k <;> simp [h]

theorem lastOf_set (k k' : Str) (w : WVal) (d : List (Str × WVal)) :
    lastOf k (dictSet d k' w) = (lastOf k [(k', w)]).or (lastOf k d) := by
  unfold dictSet
  rw [lastOf_append, lastOf_one]
  by_cases h : k' = k
  · simp [h]
  · simp only [h, if_false, Option.none_or]
    unfold lastOf
    rw [List.filter_filter]
    congr 2
    apply List.filter_congr
    intro e _
    by_cases he : e.1 = k
    · have : e.1 ≠ k' := fun h' => h (h'.symm.trans he)
      simp [he]; exact fun h' => h h'.symm
    · simp [he]

theorem lastOf_update (k : Str) (d2 : List (Str × WVal)) : ∀ d, lastOf k (dictUpdate d d2) = (lastOf k d2).or (lastOf k d) := by
  unfold dictUpdate
  induction d2 with
  | nil => intro d; rfl
  | cons e es ih =>
    intro d
    rw [List.foldl_cons, ih, lastOf_set, show e :: es = [e] ++ es from rfl, lastOf_append]
    cases lastOf k es <;> simp

theorem set_nodup (k : Str) (w : WVal) (d : List (Str × WVal)) (h : (d.map Prod.fst).Nodup) :
    ((dictSet d k w).map Prod.fst).Nodup := by
  unfold dictSet
  rw [List.map_append, List.nodup_append]
  refine ⟨h.sublist ((List.filter_sublist).map _), by simp, ?_⟩
  intro a ha b hb hab
  simp only [List.map_cons, List.map_nil, List.mem_singleton] at hb
  obtain ⟨e, he, rfl⟩ := List.mem_map.mp ha
  have := (List.mem_filter.mp he).2
  simp [hab, hb] at this

theorem update_nodup (d2 : List (Str × WVal)) : ∀ d, (d.map Prod.fst).Nodup → ((dictUpdate d d2).map Prod.fst).Nodup := by
  unfold dictUpdate
  induction d2 with
  | nil => intro d h; exact h
  | cons e es ih => intro d h; exact ih _ (set_nodup _ _ _ h)

theorem lastOf_mem {k : Str} {w : WVal} {d : List (Str × WVal)} (h : (d.map Prod.fst).Nodup) :
    (k, w) ∈ d ↔ lastOf k d = some w := by
  induction d generalizing w with
  | nil => simp [lastOf]
  | cons e es ih =>
    simp only [List.map_cons, List.nodup_cons] at h
    rw [show e :: es = [e] ++ es from rfl, lastOf_append, List.mem_append, ih h.2]
    obtain ⟨k', w'⟩ := e
    rw [lastOf_one]
    constructor
    · rintro (hm | hm)
      · simp only [List.mem_singleton, Prod.mk.injEq] at hm
        obtain ⟨rfl, rfl⟩ := hm
        cases hx : lastOf k es with
        | none => simp
        | some x => exact absurd (List.mem_map_of_mem (f := Prod.fst) ((ih h.2).mpr hx)) h.1
      · rw [hm]; rfl
    · intro hm
      cases hx : lastOf k es with
      | none =>
        rw [hx, Option.none_or] at hm
        by_cases hk : k' = k
        · simp only [hk, if_true, Option.some.injEq] at hm
          left; simp [hk, hm]
        · simp [hk] at hm
      | some x => rw [hx] at hm; right; simpa using hm

/-- The outcome of turning a structure into a map, when `l` are its values with their tags. -/
def Turned (r : Res (List (Str × WVal))) (hid : Bool) (d l : List (Str × WVal)) : Prop :=
  if hid then r = .panic
  else ∃ d', r = .ok d' ∧ ((d.map Prod.fst).Nodup → (d'.map Prod.fst).Nodup) ∧
    ∀ k, lastOf k d' = (lastOf k l).or (lastOf k d)

theorem udtToDict_any (v : WTree) (hs : isStruct v) (hp : shaped v) (tag : Str) (d : List (Str × WVal)) :
    Turned (udtToDict tag d v) (hidden v) d (under none tag (outsideArrays v)) := by
  induction v generalizing tag d with
  | val w => exact absurd hs id
  | arr es => exact absurd hs id
  | nil => exact ⟨d, rfl, id, fun k => rfl⟩
  | cons name t e f rest ihf ihr =>
    obtain ⟨hf, hr, hrs⟩ := hp
    cases f with
    | arr es =>
      simp only [udtToDict, hidden, outsideArrays, Bool.false_or]
      exact ihr hrs hr tag d
    | val w =>
      cases e with
      | false => simp [udtToDict, hidden, Turned]
      | true =>
        have := ihr hrs hr tag (dictSet d (tag ++ [0x2E#8] ++ name) w)
        simp only [udtToDict, hidden, outsideArrays, under, if_true, Bool.not_true, Bool.false_or]
        unfold Turned at this ⊢
        cases hh : hidden rest with
        | true => rw [hh] at this; exact this
        | false =>
          rw [hh] at this
          obtain ⟨d', h1, h2, h3⟩ := this
          refine ⟨d', h1, fun hd => h2 (set_nodup _ _ _ hd), fun k => ?_⟩
          rw [h3, lastOf_set, lastOf_append]
          cases lastOf k (under none tag (outsideArrays rest)) <;> simp
    | nil =>
      cases e with
      | false => simp [udtToDict, hidden, Turned]
      | true =>
        have := ihr hrs hr tag d
        simpa [udtToDict, hidden, outsideArrays, under] using this
    | cons n2 t2 e2 g2 r2 =>
      cases e with
      | false => simp [udtToDict, hidden, Turned]
      | true =>
        have h0 := ihf trivial hf (tag ++ [0x2E#8] ++ name) []
        rw [udtToDict]
        rw [show hidden (.cons name t true (.cons n2 t2 e2 g2 r2) rest) = (hidden (.cons n2 t2 e2 g2 r2) || hidden rest) by
          simp [hidden]]
        rw [show outsideArrays (.cons name t true (.cons n2 t2 e2 g2 r2) rest) =
          .cons name t true (outsideArrays (.cons n2 t2 e2 g2 r2)) (outsideArrays rest) by simp [outsideArrays]]
        simp only [under, if_true]
        unfold Turned at h0 ⊢
        cases hh : hidden (.cons n2 t2 e2 g2 r2) with
        | true => rw [hh] at h0; simp only [if_true] at h0; simp only [h0, Bool.true_or, if_true]; rfl
        | false =>
          rw [hh] at h0
          obtain ⟨d2, h1, h2, h3⟩ := h0
          rw [h1, Res.bind_ok, Bool.false_or]
          have := ihr hrs hr tag (dictUpdate d d2)
          unfold Turned at this
          cases hr2 : hidden rest with
          | true => rw [hr2] at this; exact this
          | false =>
            rw [hr2] at this
            obtain ⟨d', g1, g2', g3⟩ := this
            refine ⟨d', g1, fun hd => g2' (update_nodup _ _ hd), fun k => ?_⟩
            rw [g3, lastOf_update, h3, lastOf_append]
            cases lastOf k (under none tag (outsideArrays rest)) <;> simp [lastOf]

theorem multiToDict_any (v : WTree) (hs : isStruct v) (hp : shaped v) (d : List (Str × WVal)) :
    Turned (multiToDict d v) (hidden v) d (tagged (outsideArrays v)) := by
  induction v generalizing d with
  | val w => exact absurd hs id
  | arr es => exact absurd hs id
  | nil => exact ⟨d, rfl, id, fun k => rfl⟩
  | cons name tag e f rest _ ihr =>
    obtain ⟨hf, hr, hrs⟩ := hp
    cases f with
    | arr es =>
      simp only [multiToDict, hidden, outsideArrays, Bool.false_or]
      exact ihr hrs hr d
    | val w =>
      cases e with
      | false => simp [multiToDict, hidden, Turned]
      | true =>
        have := ihr hrs hr (dictSet d tag w)
        simp only [multiToDict, hidden, outsideArrays, under, tagged, if_true, Bool.not_true, Bool.false_or]
        unfold Turned at this ⊢
        cases hh : hidden rest with
        | true => rw [hh] at this; exact this
        | false =>
          rw [hh] at this
          obtain ⟨d', h1, h2, h3⟩ := this
          refine ⟨d', h1, fun hd => h2 (set_nodup _ _ _ hd), fun k => ?_⟩
          rw [h3, lastOf_set, lastOf_append]
          cases lastOf k (tagged (outsideArrays rest)) <;> simp
    | nil =>
      cases e with
      | false => simp [multiToDict, hidden, Turned]
      | true =>
        have := ihr hrs hr d
        simpa [multiToDict, hidden, outsideArrays, under, tagged] using this
    | cons n2 t2 e2 g2 r2 =>
      cases e with
      | false => simp [multiToDict, hidden, Turned]
      | true =>
        have h0 := udtToDict_any (.cons n2 t2 e2 g2 r2) trivial hf tag []
        rw [multiToDict]
        rw [show hidden (.cons name tag true (.cons n2 t2 e2 g2 r2) rest) = (hidden (.cons n2 t2 e2 g2 r2) || hidden rest) by
          simp [hidden]]
        rw [show outsideArrays (.cons name tag true (.cons n2 t2 e2 g2 r2) rest) =
          .cons name tag true (outsideArrays (.cons n2 t2 e2 g2 r2)) (outsideArrays rest) by simp [outsideArrays]]
        simp only [tagged, if_true]
        unfold Turned at h0 ⊢
        cases hh : hidden (.cons n2 t2 e2 g2 r2) with
        | true => rw [hh] at h0; simp only [if_true] at h0; simp only [h0, Bool.true_or, if_true]; rfl
        | false =>
          rw [hh] at h0
          obtain ⟨d2, h1, h2, h3⟩ := h0
          rw [h1, Res.bind_ok, Bool.false_or]
          have := ihr hrs hr (dictUpdate d d2)
          unfold Turned at this
          cases hr2 : hidden rest with
          | true => rw [hr2] at this; exact this
          | false =>
            rw [hr2] at this
            obtain ⟨d', g1, g2', g3⟩ := this
            refine ⟨d', g1, fun hd => g2' (update_nodup _ _ hd), fun k => ?_⟩
            rw [g3, lastOf_update, h3, lastOf_append]
            cases lastOf k (tagged (outsideArrays rest)) <;> simp [lastOf]

theorem writeMulti_any (v : WTree) (hs : isStruct v) (hp : shaped v) :
    Turned (writeMultiMap v) (hidden v) [] (tagged (outsideArrays v)) := by
  have := multiToDict_any v hs hp []
  cases v with
  | val w => exact absurd hs id
  | arr es => exact absurd hs id
  | nil => exact this
  | cons => exact this

/-- C73, every structure: of its values outside arrays exactly one is written to each tag they have, and that is the last
in the structure.  Nothing else is written. -/
theorem C73_exactly (v : WTree) (hs : isStruct v) (hp : shaped v) (hh : hidden v = false) :
    ∃ d, writeMultiMap v = .ok d ∧ (d.map Prod.fst).Nodup ∧
      ∀ k w, (k, w) ∈ d ↔ lastOf k (tagged (outsideArrays v)) = some w := by
  have := writeMulti_any v hs hp
  unfold Turned at this
  rw [hh] at this
  obtain ⟨d, h1, h2, h3⟩ := this
  refine ⟨d, h1, h2 (by simp), fun k w => ?_⟩
  rw [lastOf_mem (h2 (by simp)), h3]
  simp [lastOf]

/-- C73 fails, fields that are not exported: exactly then the call panics. -/
theorem C73_crash (v : WTree) (hs : isStruct v) (hp : shaped v) : writeMultiMap v = .panic ↔ hidden v = true := by
  have := writeMulti_any v hs hp
  unfold Turned at this
  cases hh : hidden v with
  | true => rw [hh] at this; simp only [if_true] at this; simp [this]
  | false =>
    rw [hh] at this
    obtain ⟨d, h1, -⟩ := this
    simp [h1]

/-- C73: what is no structure is refused. -/
theorem C73_no_struct (v : WTree) (hs : ¬ isStruct v) : (writeMultiMap v).isErr = true := by
  cases v with
  | val w => rfl
  | arr es => rfl
  | nil => exact absurd trivial hs
  | cons => exact absurd trivial hs

/-- C73, the request: for a map of single values, each of a supported type, `WriteMap` sends one packet with one
write for each value, for its path, with its type and its data. -/
theorem C73_map_partial (seq : BitVec 16) (es : List (Ioi × Scal)) (hty : ∀ e ∈ es, ∃ T, e.2.ty = some T) :
    ∃ b services, writeMapBytes seq (es.map fun e => (e.1, .one e.2)) = .ok b ∧
      services.length = es.length ∧
      (∀ (i : Nat) (e : Ioi × Scal) (T : GoTy), es[i]? = some e → e.2.ty = some T →
        services[i]? = some (writeService e.1.buffer (typeField T) 1 e.2.encode)) ∧
      (b.length < 65536 →
        b.take 8 = le 2 seq.toNat ++ [0x0A#8, 0x02#8, 0x20#8, 0x02#8, 0x24#8, 0x01#8] ∧ Packet (b.drop 8) services) := by
  have hent : ∃ services, writeMapEntries (es.map fun e => (e.1, .one e.2)) = .ok services ∧
      services.length = es.length ∧ (∀ (i : Nat) (e : Ioi × Scal) (T : GoTy), es[i]? = some e → e.2.ty = some T →
        services[i]? = some (writeService e.1.buffer (typeField T) 1 e.2.encode)) := by
    induction es with
    | nil => exact ⟨[], rfl, rfl, by simp⟩
    | cons e es ih =>
      obtain ⟨ss, h1, h2, h3⟩ := ih fun e he => hty e (by simp [he])
      obtain ⟨T, hT⟩ := hty e (by simp)
      refine ⟨writeService e.1.buffer (typeField T) 1 e.2.encode :: ss, ?_, by simp [h2], ?_⟩
      · simp only [List.map_cons, writeMapEntries, writeMapEntry, WVal.serialize, Res.bind_ok, h1]
        congr 2
        simp only [WVal.cipType, hT, footer_eq, writeService]
        simp [putBV]
      · intro i e' T' hi hT'
        cases i with
        | zero =>
          simp only [List.getElem?_cons_zero, Option.some.injEq] at hi
          subst hi
          rw [hT] at hT'
          cases hT'
          rfl
        | succ i => simpa using h3 i e' T' (by simpa using hi) hT'
  obtain ⟨ss, h1, h2, h3⟩ := hent
  refine ⟨multiBytes seq ss, ss, by simp [writeMapBytes, h1, Res.bind_ok], h2, h3, fun hl => ?_⟩
  have := C24_packet seq ss hl
  exact ⟨by simpa [putBV] using this.1, this.2⟩

/-- C73 fails, slices of strings: they are refused, and with them the whole map. -/
theorem C73_strings_refused (seq : BitVec 16) (es fs : List (Ioi × Scal)) (ioi : Ioi) (vs : List Scal) :
    writeMapBytes seq (es.map (fun e => (e.1, WVal.one e.2)) ++ (ioi, .many .str vs) ::
      fs.map (fun e => (e.1, WVal.one e.2))) = .err .fail := by
  have : writeMapEntries (es.map (fun e => (e.1, WVal.one e.2)) ++ (ioi, .many .str vs) ::
      fs.map (fun e => (e.1, WVal.one e.2))) = .err .fail := by
    induction es with
    | nil => rfl
    | cons e es ih =>
      simp only [List.map_cons, List.cons_append, writeMapEntries, writeMapEntry, WVal.serialize, Res.bind_ok, ih]
      rfl
  simp only [writeMapBytes, this]
  rfl

/-- C73 fails, size: nothing is split, so for any connection size there is a map whose packet is longer. -/
theorem C73_not_split (seq : BitVec 16) (ioi : Ioi) (size : Nat) :
    ∃ es : List (Ioi × WVal), ∃ b, writeMapBytes seq es = .ok b ∧ size < b.length := by
  have hl : ∀ n : Nat, ∃ bs, writeMapEntries (List.replicate n (ioi, .one (.u8 0#8))) = .ok bs ∧ n ≤ bs.flatten.length := by
    intro n
    induction n with
    | zero => exact ⟨[], rfl, by simp⟩
    | succ n ih =>
      obtain ⟨bs, h1, h2⟩ := ih
      refine ⟨([0x4D#8, BitVec.ofNat 8 (ioi.buffer.length / 2)] ++ ioi.buffer ++
        writeFooter (WVal.one (.u8 0#8)).cipType 1#16 ++ (Scal.u8 0#8).encode) :: bs,
        by simp only [List.replicate_succ, writeMapEntries, writeMapEntry, WVal.serialize, Res.bind_ok, h1], ?_⟩
      simp only [List.flatten_cons, List.length_append, List.length_cons]
      omega
  obtain ⟨bs, h1, h2⟩ := hl (size + 1)
  refine ⟨List.replicate (size + 1) (ioi, .one (.u8 0#8)), multiBytes seq bs,
    by simp only [writeMapBytes, h1, Res.bind_ok], ?_⟩
  simp only [multiBytes, List.length_append]
  omega

/-- C73 fails, arrays: a field that is an array is not written, and nothing is reported. -/
theorem C73_arrays_dropped (name tag : Str) (e : Bool) (es : WTree) (rest : WTree) (d : List (Str × WVal)) :
    multiToDict d (.cons name tag e (.arr es) rest) = multiToDict d rest ∧
    udtToDict tag d (.cons name tag e (.arr es) rest) = udtToDict tag d rest := ⟨rfl, rfl⟩

/-- C73 fails, fields without a tag: they share the empty tag, and only the last of them is kept. -/
theorem C73_untagged (n1 n2 : Str) (v1 v2 : WVal) :
    writeMultiMap (.cons n1 [] true (.val v1) (.cons n2 [] true (.val v2) .nil)) = .ok [([], v2)] := by
  simp [writeMultiMap, multiToDict, dictSet]

/-- A structure with a value and an inner structure. -/
def demoTree : WTree :=
  .cons (str "A") (str "tagA") true (.val (.one (.u8 7#8)))
    (.cons (str "B") (str "tagB") true
      (.cons (str "X") [] true (.val (.one (.u8 1#8))) (.cons (str "Y") [] true (.val (.one (.u8 2#8))) .nil)) .nil)

example : isStruct demoTree ∧ plainTree demoTree ∧ ((tagged demoTree).map Prod.fst).Nodup :=
  ⟨trivial, by simp [demoTree, plainTree, isStruct], by decide +kernel⟩

example : writeMultiMap demoTree = .ok [(str "tagA", .one (.u8 7#8)), (str "tagB.X", .one (.u8 1#8)),
    (str "tagB.Y", .one (.u8 2#8))] := by decide +kernel

example : tagged (.cons (str "A") (str "t") true (.arr (.cons [] [] true (.val (.one (.u8 7#8)))
    (.cons [] [] true (.val (.one (.u8 8#8))) .nil))) .nil) =
    [(str "t[0]", .one (.u8 7#8)), (str "t[1]", .one (.u8 8#8))] := by decide +kernel

/-- A structure with an array, a tag used twice, and a hidden array. -/
def demoTree2 : WTree :=
  .cons (str "A") (str "t") true (.val (.one (.u8 7#8)))
    (.cons (str "B") (str "u") true (.arr (.cons [] [] true (.val (.one (.u8 1#8))) .nil))
      (.cons (str "c") (str "w") false (.arr .nil) (.cons (str "C") (str "t") true (.val (.one (.u8 9#8))) .nil)))

example : isStruct demoTree2 ∧ shaped demoTree2 ∧ hidden demoTree2 = false ∧
    writeMultiMap demoTree2 = .ok [(str "t", .one (.u8 9#8))] :=
  ⟨trivial, by simp [demoTree2, shaped, isStruct], by decide +kernel, by decide +kernel⟩

end Gologix
