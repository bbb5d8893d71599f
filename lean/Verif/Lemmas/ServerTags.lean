import Verif.Spec.ServerTags
import Verif.Props.Ioi
import Verif.Props.Values
import Verif.Props.Multi
import Verif.Props.Store
import Verif.Lemmas.Server
/-
Request paths and values as the server reads them.
-/
set_option linter.unusedSimpArgs false

namespace Gologix.Server
open Gologix Gologix.Spec Gologix.Server.Spec M

/-! ### Paths -/

theorem seg_parse {i : Nat} {a r : Bytes} {fuel : Nat} {s : Str} (h : SegBytes (.element i) a) :
    getTagFromPathAux (fuel + 1) s (a ++ r) = (addIndex s i >>= fun s => getTagFromPathAux fuel s r) := by
  cases h with
  | index8 i =>
    simp [getTagFromPathAux, readBV8_cons, Res.bind_ok]
  | index16 pad lo hi =>
    have hlt : lo.toNat + 256 * hi.toNat < 65536 := by
      have := lo.isLt; have := hi.isLt; omega
    have e2 : (BitVec.ofNat 16 (lo.toNat + 256 * hi.toNat)).toNat = lo.toNat + 256 * hi.toNat := by
      rw [BitVec.toNat_ofNat, Nat.mod_eq_of_lt hlt]
    have e1 : lo :: hi :: r = putBV (BitVec.ofNat 16 (lo.toNat + 256 * hi.toNat)) ++ r := by
      have h1 : le 2 (lo.toNat + 256 * hi.toNat) = [lo, hi] := by
        have h2 : BitVec.ofNat 8 (lo.toNat + 256 * hi.toNat) = lo := by
          apply BitVec.eq_of_toNat_eq
          have := lo.isLt
          simp; omega
        have h3 : BitVec.ofNat 8 ((lo.toNat + 256 * hi.toNat) / 256) = hi := by
          apply BitVec.eq_of_toNat_eq
          have := lo.isLt; have := hi.isLt
          simp; omega
        simp [le, h2, h3]
      rw [putBV_ofNat16, h1]; rfl
    simp only [List.cons_append, List.nil_append, getTagFromPathAux]
    rw [if_neg (by decide), if_pos trivial]
    rw [readN_one_cons, Res.bind_ok]
    simp only [e1, readU16, Res.bind_ok, e2]

theorem path_split {a b : List PSeg} {p : Bytes} (h : PathBytes (a ++ b) p) :
    ∃ x y, p = x ++ y ∧ PathBytes a x ∧ PathBytes b y := by
  induction a generalizing p with
  | nil => exact ⟨[], p, rfl, .nil, h⟩
  | cons s a ih =>
    cases h with
    | cons h1 h2 =>
      obtain ⟨x, y, rfl, h3, h4⟩ := ih h2
      exact ⟨_, y, by simp, .cons h1 h3, h4⟩

theorem wire_idxs {fuel : Nat} {s : Str} {c : Byte} {is : List Nat} {p r : Bytes} (done : List Nat)
    (hl : s.getLast? = some c) (hc : c ≠ 0x5D#8) (hp : PathBytes (is.map PSeg.element) p) :
    getTagFromPathAux (is.length + fuel) (s ++ renderIdx done) (p ++ r) =
      getTagFromPathAux fuel (s ++ renderIdx (done ++ is)) r := by
  induction is generalizing done p with
  | nil => cases hp; simp
  | cons i is ih =>
    cases hp with
    | @cons _ _ a b h1 h2 =>
    have : (i :: is).length + fuel = (is.length + fuel) + 1 := by simp; omega
    rw [this, List.append_assoc, seg_parse h1, addIndex_step hl hc, Res.bind_ok, ih (done ++ [i]) h2]
    simp

theorem wire_name {fuel : Nat} {s n : Str} {a r : Bytes} (h : SegBytes (.name n) a) :
    getTagFromPathAux (fuel + 1) s (a ++ r) =
      getTagFromPathAux fuel (if s = [] then n else s ++ [0x2E#8] ++ n) r := by
  cases h with
  | name _ pad h1 hp =>
  have e : (BitVec.ofNat 8 n.length).toNat = n.length := by simp; omega
  have hA : getAsciiTagPart (BitVec.ofNat 8 n.length :: (n ++ (pad ++ r))) = .ok (n, r) := by
    unfold getAsciiTagPart
    simp only [readBV8_cons, Res.bind_ok, e, readN_append]
    split
    · rw [readN_append' (by omega), Res.bind_ok]
    · have : pad = [] := List.eq_nil_of_length_eq_zero (by omega)
      simp [this]
  simp only [List.cons_append, List.nil_append, List.append_assoc, getTagFromPathAux, hA, Res.bind_ok]
  simp

theorem wire_part {fuel : Nat} {s : Str} {p : Part} {a r : Bytes} (hw : WfName p.name)
    (hp : PathBytes (PSeg.name p.name :: p.idx.map PSeg.element) a) :
    getTagFromPathAux (p.idx.length + fuel + 1) s (a ++ r) =
      getTagFromPathAux fuel (if s = [] then renderPart p else s ++ [0x2E#8] ++ renderPart p) r := by
  obtain ⟨h0, hlen, -, -, hcb, -⟩ := hw
  cases hp with
  | cons h1 h2 =>
  rw [List.append_assoc, wire_name h1]
  have hl : ∀ t : Str, (t ++ p.name).getLast? = some (p.name.getLast h0) := fun t => by
    rw [getLast?_append_ne h0, List.getLast?_eq_some_getLast h0]
  have hc : p.name.getLast h0 ≠ 0x5D#8 := fun e => hcb (e ▸ List.getLast_mem h0)
  by_cases hs : s = []
  · simp only [hs, if_true]
    have := wire_idxs (fuel := fuel) (r := r) [] (hl []) hc h2
    simpa [renderPart, renderIdx] using this
  · simp only [hs, if_false]
    have := wire_idxs (fuel := fuel) (r := r) [] (hl (s ++ [0x2E#8])) hc h2
    have h1 : renderIdx [] = [] := rfl
    rw [h1, List.append_nil, List.nil_append] at this
    rw [this]
    simp [renderPart]

theorem wire_parts {fuel : Nat} {s : Str} {ps : List Part} {a r : Bytes}
    (hw : ∀ p ∈ ps, WfName p.name) (hp : PathBytes (segsOf ps) a) :
    getTagFromPathAux (segCount ps + fuel) s (a ++ r) =
      getTagFromPathAux fuel
        (if ps = [] then s else if s = [] then render ps else s ++ [0x2E#8] ++ render ps) r := by
  induction ps generalizing s a with
  | nil => cases hp; simp [segCount]
  | cons p ps ih =>
    have e : segCount (p :: ps) + fuel = p.idx.length + (segCount ps + fuel) + 1 := by
      simp [segCount]; omega
    rw [e]
    have hsplit : segsOf (p :: ps) = (PSeg.name p.name :: p.idx.map PSeg.element) ++ segsOf ps := by
      simp [segsOf]
    rw [hsplit] at hp
    obtain ⟨x, y, rfl, h1, h2⟩ := path_split hp
    rw [List.append_assoc, wire_part (hw p (by simp)) h1, ih (fun q hq => hw q (by simp [hq])) h2]
    congr 1
    have hne : renderPart p ≠ [] := by
      have := (hw p (by simp)).1; simp [renderPart, this]
    cases ps with
    | nil => simp [render, joinWith]
    | cons q qs => by_cases hs : s = [] <;> simp [hs, hne, render, joinWith]

theorem path_length {ss : List PSeg} {a : Bytes} (h : PathBytes ss a) : ss.length ≤ a.length := by
  induction h with
  | nil => simp
  | cons h _ ih =>
    have : 1 ≤ (‹Bytes› : Bytes).length ∨ True := Or.inr trivial
    cases h <;> simp <;> omega

theorem segsOf_length (ps : List Part) : (segsOf ps).length = segCount ps := by
  induction ps with
  | nil => rfl
  | cons p ps ih =>
    have e : segCount (p :: ps) = (p.idx.length + 1) + segCount ps := by simp [segCount]
    have : segsOf (p :: ps) = (PSeg.name p.name :: p.idx.map PSeg.element) ++ segsOf ps := by simp [segsOf]
    rw [this, List.length_append, ih, e]; simp

/-- The server reads a request path for `ps` as the text of `ps`, whatever follows unless it looks like
another segment. -/
theorem getTag_path {ps : List Part} {p : Bytes} (h : PathOf ps p) (rest : Bytes)
    (hrest : ∀ b, rest.head? = some b → b ≠ 0x28#8 ∧ b ≠ 0x29#8 ∧ b ≠ 0x91#8) :
    getTagFromPath (p ++ rest) = .ok (render ps, rest) := by
  obtain ⟨hw, hp⟩ := h
  have hl := path_length hp
  rw [segsOf_length] at hl
  have e : (p ++ rest).length + 1 = segCount ps + ((p.length - segCount ps) + rest.length + 1) := by
    simp; omega
  unfold getTagFromPath
  rw [e, wire_parts (fun q hq => (hw.2 q hq).1) hp, stop_at hrest]
  simp [hw.1]

theorem idxSeg_bytes {i : Nat} (h : i < 65536) : SegBytes (.element i) (idxSeg i) := by
  unfold idxSeg
  split
  · have := SegBytes.index8 (BitVec.ofNat 8 i)
    simpa [show i % 256 = i by omega] using this
  · have h1 := SegBytes.index16 0#8 (BitVec.ofNat 8 i) (BitVec.ofNat 8 (i / 256))
    have h2 : (BitVec.ofNat 8 i).toNat + 256 * (BitVec.ofNat 8 (i / 256)).toNat = i := by simp; omega
    rw [h2] at h1
    have h3 : le 2 i = [BitVec.ofNat 8 i, BitVec.ofNat 8 (i / 256)] := by simp [le]
    simpa [h, putBV_ofNat16, h3] using h1

theorem path_append {a b : List PSeg} {x y : Bytes} (ha : PathBytes a x) (hb : PathBytes b y) :
    PathBytes (a ++ b) (x ++ y) := by
  induction ha with
  | nil => exact hb
  | cons h _ ih => rw [List.append_assoc]; exact .cons h ih

theorem partBytes_path {p : Part} (hn : WfName p.name) (hi : ∀ i ∈ p.idx, i < 65536) :
    PathBytes (PSeg.name p.name :: p.idx.map PSeg.element) (partBytes p) := by
  have h1 : SegBytes (.name p.name)
      (0x91#8 :: BitVec.ofNat 8 p.name.length :: (p.name ++ if p.name.length % 2 = 1 then [0#8] else [])) := by
    apply SegBytes.name _ _ hn.2.1
    split <;> simp <;> omega
  have h2 : ∀ is : List Nat, (∀ i ∈ is, i < 65536) → PathBytes (is.map PSeg.element) (is.map idxSeg).flatten := by
    intro is
    induction is with
    | nil => intro _; exact .nil
    | cons i is ih =>
      intro h
      exact .cons (idxSeg_bytes (h i (by simp))) (ih fun j hj => h j (by simp [hj]))
  have := PathBytes.cons h1 (h2 p.idx hi)
  simpa [partBytes] using this

/-- The client's encoding of a tag path is a request path for the path in lower case. -/
theorem client_path {ps : List Part} (hw : WfPath 65536 ps) {db : TagDb} {dt : Byte} {ioi : Ioi}
    (hdb : NotDirect db (render ps) dt) (h : (newIOI db [] (render ps) dt).1 = .ok ioi) :
    PathOf (lowerPath ps) ioi.buffer := by
  have hl := wfPath_lower hw
  rw [newIOI_symbolic hdb, toLower_render, symbolicIOI_render (by decide) hl] at h
  simp only [Res.ok.injEq] at h
  subst h
  refine ⟨hl, ?_⟩
  dsimp only
  have : ∀ qs : List Part, (∀ p ∈ qs, WfName p.name ∧ ∀ i ∈ p.idx, i < 65536) →
      PathBytes (segsOf qs) (qs.map partBytes).flatten := by
    intro qs
    induction qs with
    | nil => intro _; exact .nil
    | cons q qs ih =>
      intro h
      have e : segsOf (q :: qs) = (PSeg.name q.name :: q.idx.map PSeg.element) ++ segsOf qs := by
        simp [segsOf]
      rw [e, List.map_cons, List.flatten_cons]
      exact path_append (partBytes_path (h q (by simp)).1 (h q (by simp)).2) (ih fun p hp => h p (by simp [hp]))
  exact this _ hl.2

/-! ### Values -/

theorem typeField_cip {T : GoTy} (h : T ≠ .str) : typeField T = [cipOfGo T, 0#8] := by
  cases T <;> first | rfl | decide | exact absurd rfl h

theorem cip_not_struct {T : GoTy} : cipOfGo T ≠ tStruct := by cases T <;> decide

theorem cip_not_string {T : GoTy} (h : T ≠ .str) : cipOfGo T ≠ tSTRING := by
  cases T <;> first | decide | exact absurd rfl h

theorem typeField_head (T : GoTy) (r : Bytes) :
    ∀ b, (typeField T ++ r).head? = some b → b ≠ 0x28#8 ∧ b ≠ 0x29#8 ∧ b ≠ 0x91#8 := by
  intro b hb
  cases T <;> simp [typeField, le] at hb <;> subst hb <;> decide

theorem safe_head {n : Nat} (h : safeCount n) (r : Bytes) :
    ∀ b, (le 2 n ++ r).head? = some b → b ≠ 0x28#8 ∧ b ≠ 0x29#8 ∧ b ≠ 0x91#8 := by
  intro b hb
  obtain ⟨h1, h2, h3⟩ := h
  simp [le] at hb
  subst hb
  refine ⟨?_, ?_, ?_⟩ <;> intro e <;> have := congrArg BitVec.toNat e <;> simp at this <;> omega

theorem readElems_values {T : GoTy} {vs : List Scal} (hT : T ≠ .str) (hv : ∀ v ∈ vs, v.ty = some T)
    (rest : Bytes) :
    readElems (readValue (cipOfGo T)) vs.length ((vs.map Scal.encode).flatten ++ rest) = .ok (vs, rest) := by
  induction vs with
  | nil => rfl
  | cons v vs ih =>
    simp only [List.length_cons, List.map_cons, List.flatten_cons, List.append_assoc, readElems]
    rw [(C13_value_roundtrip v T (hv v (by simp)) hT _).1, Res.bind_ok]
    simp only
    rw [ih fun w hw => hv w (by simp [hw]), Res.bind_ok]

theorem parse_values {T : GoTy} {vs : List Scal} (hT : T ≠ .str) (hv : ∀ v ∈ vs, v.ty = some T)
    (hn : vs.length < 65536) (rest : Bytes) :
    parseWriteValues (typeField T ++ (le 2 vs.length ++ ((vs.map Scal.encode).flatten ++ rest))) =
      .ok (vs, rest) := by
  unfold parseWriteValues
  rw [typeField_cip hT, ← putBV_ofNat16]
  simp only [List.cons_append, List.nil_append, readBV8_cons, Res.bind_ok]
  rw [show (0#8 : BitVec 8).toNat = 0 from rfl]
  simp only [readN, if_true, Res.bind_ok, readU16]
  rw [if_neg cip_not_struct, BitVec.toNat_ofNat, Nat.mod_eq_of_lt hn]
  exact readElems_values hT hv rest

theorem fitTo_82 {s : Str} (h : s.length ≤ 82) : fitTo 82 s = s ++ List.replicate (82 - s.length) 0#8 := by
  unfold fitTo
  simp [List.take_of_length_le h, h]

theorem stringSlot_eq {s : Str} (h : s.length ≤ 82) : stringSlotBytes s = typeField .str ++ stringSlot s := by
  unfold stringSlotBytes stringSlot
  rw [if_neg (by omega), fitTo_82 h, putBV_ofNat32]
  have : List.replicate (84 - s.length) (0#8) = List.replicate (82 - s.length) (0#8) ++ [0#8, 0#8] := by
    rw [show 84 - s.length = (82 - s.length) + 2 by omega, ← List.replicate_append_replicate]
    rfl
  rw [this]
  simp [typeField, le]

theorem scal_cipType {v : Scal} {T : GoTy} (hv : v.ty = some T) : TVal.cipType (.scal v) = cipOfGo T := by
  cases v <;> simp [Scal.ty] at hv <;> subst hv <;> rfl

theorem scal_serialize {v : Scal} {T : GoTy} (hv : v.ty = some T) : TVal.serialize (.scal v) = .ok v.encode := by
  cases v <;> simp [Scal.ty] at hv <;> subst hv <;> rfl

theorem slice_serialize {T : GoTy} {vs : List Scal} (hv : ∀ v ∈ vs, v.ty = some T) (hT : T ≠ .str) :
    TVal.serialize (.slice (some T) (vs.map TVal.scal)) = .ok (vs.map Scal.encode).flatten := by
  simp only [TVal.serialize, List.map_map]
  congr 2
  apply List.map_congr_left
  intro v h
  have := hv v h
  cases v <;> simp [Scal.ty] at this <;> subst this <;> first | rfl | exact absurd rfl hT

theorem readPayload_shown {v : TVal} {b : Bytes} (h : Shown v b) : readPayload v = .ok b := by
  cases h with
  | scalar v T hv hT =>
    have e : readPayload (.scal v) = typedPayload (.scal v) := by
      cases v <;> simp [Scal.ty] at hv <;> subst hv <;> first | rfl | exact absurd rfl hT
    rw [e, typedPayload, scal_serialize hv, Res.bind_ok, scal_cipType hv, typeField_cip hT]
  | string s hs => simp [readPayload, stringSlot_eq hs]
  | array T vs hv hT hb =>
    have e : readPayload (.slice (some T) (vs.map TVal.scal)) = typedPayload (.slice (some T) (vs.map TVal.scal)) := by
      cases T <;> first | rfl | exact absurd rfl hT
    rw [e, typedPayload, slice_serialize hv hT, Res.bind_ok, typeField_cip hT]
    simp [TVal.cipType, hb]

theorem multiReadReply_shown {v : TVal} {b : Bytes} (svc : Byte) (h : Shown v b) :
    multiReadReply svc v = .ok ([svc ||| 0x80#8, 0#8, 0#8, 0#8] ++ b) := by
  unfold multiReadReply
  cases h with
  | scalar v T hv hT =>
    rw [scal_cipType hv, if_neg (cip_not_string hT), typeField_cip hT]
    cases v <;> simp [Scal.ty] at hv <;> subst hv <;> first | rfl | exact absurd rfl hT
  | string s hs =>
    rw [if_pos (by rfl)]
    simp [stringSlot_eq hs]
  | array T vs hv hT hb =>
    have hc : TVal.cipType (.slice (some T) (vs.map TVal.scal)) = cipOfGo T := by simp [TVal.cipType, hb]
    rw [hc, if_neg (cip_not_string hT)]
    simp only []
    rw [slice_serialize hv hT, Res.bind_ok, typeField_cip hT]
    simp [hc]

/-! ### Tag access -/

/-- The server state with another store at an endpoint. -/
def Srv.setStore (srv : Srv) (ep : Nat) (s : Store) (keys : List Str) : Srv :=
  { srv with eps := fun e => if e = ep then .tags s keys else srv.eps e }

theorem setStore_self {srv : Srv} {ep : Nat} {s : Store} {keys : List Str} (h : srv.eps ep = .tags s keys) :
    srv.setStore ep s keys = srv := by
  have : (fun e => if e = ep then Endpoint.tags s keys else srv.eps e) = srv.eps := by
    funext e; split
    · rename_i he; rw [he, h]
    · rfl
  unfold Srv.setStore; rw [this]

theorem setStore_setStore (srv : Srv) (ep : Nat) (s s' : Store) (keys keys' : List Str) :
    (srv.setStore ep s keys).setStore ep s' keys' = srv.setStore ep s' keys' := by
  unfold Srv.setStore
  simp only [Srv.mk.injEq, true_and, and_true]
  funext e; split <;> rfl

theorem setStore_eps (srv : Srv) (ep : Nat) (s : Store) (keys : List Str) :
    (srv.setStore ep s keys).eps ep = .tags s keys := by simp [Srv.setStore]

theorem readTag_ok {st : St} {ep : Nat} {s : Store} {keys : List Str} (h : st.srv.eps ep = .tags s keys)
    (tag : Str) (qty : BitVec 16) : readTag ep tag qty st = (tagRead s tag qty.toInt, st) := by
  unfold readTag; rw [h]

theorem writeTag_ok {C : Conv} {st : St} {ep : Nat} {s s' : Store} {keys : List Str} {tag : Str} {v : TVal}
    (h : st.srv.eps ep = .tags s keys) (hw : tagWrite C s tag v = (.ok (), s')) :
    ∃ keys', writeTag C ep tag v st = (.ok (), { st with srv := st.srv.setStore ep s' keys' }) := by
  unfold writeTag
  simp only [h, hw]
  exact ⟨_, rfl⟩

theorem writeValues_ok {C : Conv} {st : St} {ep : Nat} {s s' : Store} {keys : List Str} {tag : Str}
    {vs : List Scal} (hne : vs ≠ []) (h : st.srv.eps ep = .tags s keys)
    (hw : tagWrite C s tag (written vs) = (.ok (), s')) :
    ∃ keys', writeValues C ep tag vs st = (.ok (), { st with srv := st.srv.setStore ep s' keys' }) := by
  match vs, hne with
  | [v], _ => exact writeTag_ok h hw
  | _ :: _ :: _, _ => exact writeTag_ok h hw

theorem count_int {n : Nat} (h : n < 32768) : (BitVec.ofNat 16 n).toInt = n := by
  rw [BitVec.toInt_eq_toNat_cond, BitVec.toNat_ofNat]
  have : n % 2 ^ 16 = n := by omega
  rw [this, if_pos (by omega)]

/-! ### Embedded requests -/

theorem multiOne_read {C : Conv} {st : St} {ep : Nat} {data : Bytes} {off : BitVec 16} {s : Store}
    {keys : List Str} {frag : Bool} {words : Byte} {ps : List Part} {path : Bytes} {count : Nat} {v : TVal}
    {image rest : Bytes} (hoff : 0 ≤ off.toInt)
    (hd : data.drop (off.toInt + 8).toNat = (EReq.read frag words ps path count).bytes ++ rest)
    (hwf : (EReq.read frag words ps path count).wf) (he : st.srv.eps ep = .tags s keys)
    (hr : tagRead s (render ps) count = .ok v) (hv : Shown v image) :
    multiOne C ep data off st =
      (.ok ([if frag then 0xD2#8 else 0xCC#8, 0#8, 0#8, 0#8] ++ image), st) := by
  obtain ⟨hp, hc, hsafe⟩ := hwf
  have hbytes : ∃ svc more, (svc = 0x52#8 ∨ svc = 0x4C#8) ∧ svc ||| 0x80#8 = (if frag then 0xD2#8 else 0xCC#8) ∧
      data.drop (off.toInt + 8).toNat = svc :: words :: (path ++ (le 2 count ++ more)) := by
    rw [hd]
    cases frag
    · exact ⟨0x4C#8, rest, .inr rfl, rfl, by simp [EReq.bytes]⟩
    · exact ⟨0x52#8, le 4 0 ++ rest, .inl rfl, rfl, by simp [EReq.bytes]⟩
  obtain ⟨svc, more, hs, hs', e⟩ := hbytes
  have hgu : getU 2 (le 2 count ++ more) = .ok (count, more) := by
    rw [getU_le, Nat.mod_eq_of_lt (by omega)]
  unfold multiOne
  rw [if_neg (show ¬ off.toInt + 8 < 0 by omega), e]
  simp only [readBV8_cons, lift_ok_bind, getU_one]
  rw [if_pos hs, getTag_path hp _ (safe_head hsafe more)]
  simp only [lift_ok_bind, hgu]
  have hrt : readTag ep (render ps) (BitVec.ofNat 16 count) st = (.ok v, st) := by
    rw [readTag_ok he, count_int hc, hr]
  rw [bind_ok hrt, multiReadReply_shown svc hv, hs']
  rfl

theorem multiOne_write {C : Conv} {st : St} {ep : Nat} {data : Bytes} {off : BitVec 16} {s s' : Store}
    {keys : List Str} {words : Byte} {ps : List Part} {path : Bytes} {T : GoTy} {vs : List Scal}
    {rest : Bytes} (hoff : 0 ≤ off.toInt)
    (hd : data.drop (off.toInt + 8).toNat = (EReq.write words ps path T vs).bytes ++ rest)
    (hwf : (EReq.write words ps path T vs).wf) (he : st.srv.eps ep = .tags s keys)
    (hw : tagWrite C s (render ps) (written vs) = (.ok (), s')) :
    ∃ keys', multiOne C ep data off st =
      (.ok [0xCD#8, 0#8, 0#8, 0#8], { st with srv := st.srv.setStore ep s' keys' }) := by
  obtain ⟨hp, hT, hne, hn, hv⟩ := hwf
  have e : data.drop (off.toInt + 8).toNat = 0x4D#8 :: words :: (path ++ (typeField T ++
      (putBV (BitVec.ofNat 16 vs.length) ++ ((vs.map Scal.encode).flatten ++ rest)))) := by
    rw [hd]; simp [EReq.bytes, putBV_ofNat16]
  obtain ⟨keys', hk⟩ := writeValues_ok (C := C) hne he hw
  refine ⟨keys', ?_⟩
  unfold multiOne
  rw [if_neg (show ¬ off.toInt + 8 < 0 by omega), e]
  simp only [readBV8_cons, lift_ok_bind, getU_one]
  rw [if_neg (by decide), if_pos (by simp), getTag_path hp _ (typeField_head T _)]
  simp only [lift_ok_bind]
  rw [typeField_cip hT]
  simp only [List.cons_append, List.nil_append, readBV8_cons, lift_ok_bind, readU16, BitVec.toNat_ofNat]
  rw [Nat.mod_eq_of_lt hn, readElems_values hT hv rest, lift_ok_bind]
  simp only
  rw [bind_ok hk]
  rfl

/-- The embedded request `e` is found at `off`. -/
def At (data : Bytes) (off : BitVec 16) (e : EReq) : Prop :=
  0 ≤ off.toInt ∧ ∃ rest, data.drop (off.toInt + 8).toNat = e.bytes ++ rest

theorem multiAll_served {C : Conv} {ep : Nat} {data : Bytes} {s s' : Store} {es : List EReq}
    {rs : List Bytes} (h : Served C s es rs s') :
    ∀ {offs : List (BitVec 16)} {st : St} {keys : List Str}, (∀ e ∈ es, e.wf) → offs.length = es.length →
      (∀ (k : Nat) o e, offs[k]? = some o → es[k]? = some e → At data o e) → st.srv.eps ep = .tags s keys →
      ∃ keys', multiAll C ep data offs st = (.ok rs, { st with srv := st.srv.setStore ep s' keys' }) := by
  induction h with
  | nil s =>
    intro offs st keys _ hl _ he
    have : offs = [] := List.eq_nil_of_length_eq_zero hl
    subst this
    exact ⟨keys, by rw [setStore_self he]; rfl⟩
  | read frag words ps path count v image hr hv hs ih =>
    intro offs st keys hwf hl hat he
    match offs, hl with
    | o :: offs, hl =>
      obtain ⟨h0, rest, hd⟩ := hat 0 o _ rfl rfl
      have h1 := multiOne_read (C := C) h0 hd (hwf _ (by simp)) he hr hv
      obtain ⟨keys', h2⟩ := ih (fun e he => hwf e (by simp [he])) (by simpa using hl)
        (fun k o e h1 h2 => hat (k + 1) o e (by simpa using h1) (by simpa using h2)) he
      refine ⟨keys', ?_⟩
      simp only [multiAll]
      rw [bind_ok h1, bind_ok h2]
      rfl
  | write words ps path T vs hw hs ih =>
    intro offs st keys hwf hl hat he
    match offs, hl with
    | o :: offs, hl =>
      obtain ⟨h0, rest, hd⟩ := hat 0 o _ rfl rfl
      obtain ⟨k1, h1⟩ := multiOne_write (C := C) h0 hd (hwf _ (by simp)) he hw
      obtain ⟨keys', h2⟩ := ih (st := { st with srv := st.srv.setStore ep _ k1 })
        (fun e he => hwf e (by simp [he])) (by simpa using hl)
        (fun k o e h1 h2 => hat (k + 1) o e (by simpa using h1) (by simpa using h2)) (setStore_eps _ _ _ _)
      refine ⟨keys', ?_⟩
      simp only [multiAll]
      rw [bind_ok h1, bind_ok h2, setStore_setStore]
      rfl

theorem served_length {C : Conv} {s s' : Store} {es : List EReq} {rs : List Bytes} (h : Served C s es rs s') :
    rs.length = es.length := by
  induction h with
  | nil => rfl
  | read _ _ _ _ _ _ _ _ _ _ ih => simp [ih]
  | write _ _ _ _ _ _ _ ih => simp [ih]

theorem ereq_ne (e : EReq) : e.bytes ≠ [] := by
  cases e with
  | read f w ps p c => cases f <;> simp [EReq.bytes]
  | write w ps p T vs => simp [EReq.bytes]

theorem unU16s_get {tab : Bytes} {n : Nat} (hl : tab.length = 2 * n) {k : Nat} (hk : k < n) :
    ∃ o : BitVec 16, (unU16s tab)[k]? = some o ∧ o.toNat = unle ((tab.drop (2 * k)).take 2) := by
  induction n generalizing tab k with
  | zero => omega
  | succ n ih =>
    match tab, hl with
    | a :: b :: r, hl =>
      cases k with
      | zero =>
        refine ⟨b ++ a, by simp [unU16s], ?_⟩
        rw [BitVec.toNat_append, ← Nat.shiftLeft_add_eq_or_of_lt a.isLt]
        simp [unle, Nat.shiftLeft_eq]
        omega
      | succ k =>
        obtain ⟨o, h1, h2⟩ := ih (tab := r) (by simp at hl; omega) (k := k) (by omega)
        refine ⟨o, by simpa [unU16s] using h1, ?_⟩
        rw [h2, show 2 * (k + 1) = 2 * k + 2 by omega]
        simp

theorem unU16s_length {tab : Bytes} {n : Nat} (hl : tab.length = 2 * n) : (unU16s tab).length = n := by
  induction n generalizing tab with
  | zero => 
    have : tab = [] := List.eq_nil_of_length_eq_zero (by omega)
    subst this; rfl
  | succ n ih =>
    match tab, hl with
    | a :: b :: r, hl => simp [unU16s, ih (tab := r) (by simp at hl; omega)]

/-- The offset table of a packet, and where it points. -/
theorem packet_offsets {hdr body : Bytes} {es : List EReq} (hh : hdr.length = 8)
    (hp : Packet body (es.map EReq.bytes)) (ht : 2 + 2 * es.length ≤ body.length)
    (hb : body.length ≤ 32768) :
    let offs := unU16s ((body.drop 2).take (2 * es.length))
    offs.length = es.length ∧ ∀ (k : Nat) o e, offs[k]? = some o → es[k]? = some e → At (hdr ++ body) o e := by
  have htl : ((body.drop 2).take (2 * es.length)).length = 2 * es.length := by simp; omega
  refine ⟨unU16s_length htl, ?_⟩
  intro k o e ho he
  have hk : k < es.length := by
    rcases Nat.lt_or_ge k es.length with h | h
    · exact h
    · rw [List.getElem?_eq_none h] at he; simp at he
  obtain ⟨o', h1, h2⟩ := unU16s_get htl hk
  rw [ho] at h1
  cases h1
  have hs := hp.service k e.bytes (by simp [he])
  simp only at hs
  obtain ⟨hs1, hs2, hs3⟩ := hs
  have hoff : unle ((body.drop (2 + 2 * k)).take 2) = o.toNat := by
    rw [h2, List.drop_take, List.drop_drop, List.take_take, Nat.min_eq_left (by omega)]
  rw [hoff] at hs1 hs3
  generalize (if k + 1 < (es.map EReq.bytes).length then _ else body.length) = stop at hs1 hs2 hs3
  have hlt : o.toNat < stop := by
    rcases Nat.lt_or_ge o.toNat stop with h | h
    · exact h
    · rw [List.drop_of_length_le (by simp; omega)] at hs3
      exact absurd hs3.symm (ereq_ne e)
  have hint : o.toInt = (o.toNat : Int) := by
    rw [BitVec.toInt_eq_toNat_cond, if_pos (by omega)]
  refine ⟨by rw [hint]; omega, body.drop stop, ?_⟩
  rw [hint, show ((o.toNat : Int) + 8).toNat = 8 + o.toNat by omega, ← hh, List.drop_append, ← hs3]
  rw [List.drop_of_length_le (show hdr.length ≤ hdr.length + o.toNat by omega), List.nil_append,
    Nat.add_sub_cancel_left]
  conv => lhs; rw [← List.take_append_drop stop body]
  rw [List.drop_append_of_le_length (by simp; omega)]

theorem packet_reply {rs : List Bytes} (h : 2 + 2 * rs.length + rs.flatten.length + 8 < 65536) :
    Packet (multiPayload rs) rs := by
  have h1 := C24_packet 0#16 rs
  have e : multiBytes 0#16 rs = (putBV 0#16 ++ [0x0A#8, 0x02#8, 0x20#8, 0x02#8, 0x24#8, 0x01#8]) ++ multiPayload rs := by
    unfold multiBytes multiPayload
    rw [show (rs.length + 1) * 2 = 2 + rs.length * 2 by omega]
    simp
  have hl : (multiBytes 0#16 rs).length < 65536 := by
    simp only [multiBytes, List.length_append, flatten_put_length, jumpTable_length, putBV_length,
      List.length_cons, List.length_nil]
    omega
  have h2 := (h1 hl).2
  rw [e, List.drop_left' (by simp)] at h2
  exact h2

end Gologix.Server
