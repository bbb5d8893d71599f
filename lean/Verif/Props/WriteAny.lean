import Verif.Spec.WriteAny
import Verif.Props.Reply
import Verif.Props.ReadStruct
import Verif.Props.TypeDesc
import Verif.Props.TypeEncode
set_option linter.unusedSimpArgs false
/-
C105: what `Write` makes of any Go value.
-/
namespace Gologix.WriteAny
open Gologix.Spec Gologix.Spec.Writing

/-- A string has a place in the 84 characters of STRING. -/
def Fits : Scal → Prop
  | .str s => s.length ≤ 84
  | _ => True

/-- The values `Write` sends as they are: values of and pointers to the types of `GoLogixTypes` (pointers not to strings), slices of
them but []bool of less than 65536 elements, and structures whose description (C81) and layout (C17, C88) gologix gets right. -/
def Right : GoAny → Prop
  | .value T v => v.ty = some T ∧ Fits v
  | .pointer T (some v) => v.ty = some T ∧ T ≠ .str
  | .slice T vs => T ≠ .bool ∧ vs.length < 65536 ∧ ∀ v ∈ vs, v.ty = some T ∧ Fits v
  | .struct d t _ => Plain d ∧ StructType d ∧ t.isStruct = true ∧ t.wf = true ∧ plain t = true ∧ bitBools t = true
  | _ => False

theorem wire_encode (v : Scal) (T : GoTy) (h : v.ty = some T) (hf : Fits v) : Wire T v v.encode := by
  cases v <;> simp [Scal.ty] at h <;> subst h
  case bool b => cases b <;> constructor
  case str s =>
    simp only [Scal.encode, stringBytes, fitTo, Fits] at hf ⊢
    rw [List.take_of_length_le hf]
    have : (putBV (BitVec.ofNat 32 s.length)) = le 4 s.length := by
      simp only [putBV, BitVec.toNat_ofNat]
      rw [Nat.mod_eq_of_lt (by omega)]
    rw [this, ← List.append_assoc]
    exact .str s _ (by simp; omega)
  all_goals constructor

theorem encodeElem_eq (v : Scal) (hf : Fits v) : v.encodeElem = v.encode := by
  cases v <;> try rfl
  case str s =>
    simp only [Scal.encodeElem, Scal.encode, stringElemBytes, stringBytes, Fits] at hf ⊢
    rw [if_neg (by omega)]

theorem wires_encode (T : GoTy) : ∀ vs : List Scal, (∀ v ∈ vs, v.ty = some T ∧ Fits v) → Wires T vs (encodeSlice vs)
  | [], _ => by unfold encodeSlice; exact .nil
  | v :: vs, h => by
    have h1 := h v (by simp)
    have h2 := wires_encode T vs (fun w hw => h w (by simp [hw]))
    have := Wires.cons (wire_encode v T h1.1 h1.2) h2
    unfold encodeSlice at this ⊢
    rw [List.map_cons, List.flatten_cons, encodeElem_eq v h1.2]
    exact this

theorem wire_right {T : GoTy} {v : Scal} {b : Bytes} (h : Wire T v b) : v.ty = some T ∧ Fits v := by
  cases h <;> exact ⟨rfl, by first | trivial | (simp only [Fits]; omega)⟩

theorem wires_right {T : GoTy} {vs : List Scal} {b : Bytes} (h : Wires T vs b) : ∀ v ∈ vs, v.ty = some T ∧ Fits v := by
  induction h with
  | nil => simp
  | cons h _ ih =>
    intro v hv
    rcases List.mem_cons.1 hv with rfl | hv
    · exact wire_right h
    · exact ih v hv

/-- C105, partly: these values are sent with their own type, number of elements and bytes. -/
theorem C105_carried_partial (seq : BitVec 16) (ioi : Ioi) (v : GoAny) (h : Right v) :
    ∃ msg, write seq ioi v = .ok msg ∧ Carries seq ioi.buffer v msg := by
  cases v with
  | nil => exact h.elim
  | array T vs => exact h.elim
  | named T v => exact h.elim
  | structPtr d t v => exact h.elim
  | structs d t vs => exact h.elim
  | fixed s t v => exact h.elim
  | unsized s => exact h.elim
  | value T v =>
    refine ⟨_, rfl, typeField T, 1, v.encode, .value (wire_encode v T h.1 h.2), by omega, ?_⟩
    simp only [GoAny.cipType, GoAny.elements, footer_eq, writeService]
    simp [putBV]
  | pointer T v =>
    cases v with
    | none => exact h.elim
    | some v =>
      have hf : Fits v := by
        cases v <;> try trivial
        case str s => exact absurd (by simpa [Scal.ty] using h.1.symm) h.2
      refine ⟨_, by simp only [write, writeSingle, GoAny.serialize, h.2, if_false, Res.bind_ok]; rfl, typeField T, 1, v.encode,
        .pointer (wire_encode v T h.1 hf), by omega, ?_⟩
      simp only [GoAny.cipType, GoAny.elements, footer_eq, writeService]
      simp [putBV]
  | slice T vs =>
    obtain ⟨h1, h2, h3⟩ := h
    refine ⟨_, rfl, typeField T, vs.length, encodeSlice vs, .slice (wires_encode T vs h3), h2, ?_⟩
    have : (BitVec.ofNat 16 vs.length).toNat = vs.length := by simp; omega
    simp only [GoAny.cipType, GoAny.elements, h1, if_false, footer_eq, writeService, this]
    simp [putBV]
  | struct d t v =>
    obtain ⟨hp, hst, h1, h2, h3, h4⟩ := h
    have hv : HoldsValue t (pack t v).1 v := by
      have := ReadStruct.pack_holds t h1 h2 h3 h4 v []
      rwa [List.append_nil] at this
    have key : ∃ s i, typeEncode d = .ok (s, i) ∧ HandleOf d ([0xA0#8, 0x02#8] ++ le 2 i.toNat) := by
      cases d with
      | basic n => exact hst.elim
      | bool => exact hst.elim
      | arr n e => exact hst.elim
      | known s i => exact ⟨s, i, by unfold typeEncode; rfl, .inl ⟨i, s, rfl, rfl⟩⟩
      | struct name fs =>
        obtain ⟨s, hs, hd⟩ := C81_described_partial name fs hp
        exact ⟨s, checksum s, hs, .inr ⟨s, checksum s, (by intro s i h; cases h), hd, C42_crc s, rfl⟩⟩
    obtain ⟨s, i, hi, hh⟩ := key
    refine ⟨writeUdtBytes seq ioi i (pack t v).1, by simp only [write, writeUdt, hi, Res.bind_ok], _, 1, (pack t v).1, .struct hh hv,
      by omega, ?_⟩
    simp [writeUdtBytes, writeService, putBV, tStruct, le]

theorem means_type {v : GoAny} {typ : Bytes} {n : Nat} {data : Bytes} (h : Means v typ n data) :
    ∃ x y r, typ = x :: y :: r ∧ ¬ (x = 0xA0#8 ∧ y = 0#8) := by
  have ht : ∀ T, ∃ x y r, typeField T = x :: y :: r ∧ ¬ (x = 0xA0#8 ∧ y = 0#8) := by
    intro T
    cases T <;> exact ⟨_, _, _, rfl, by decide⟩
  have hh : ∀ d typ, HandleOf d typ → ∃ x y r, typ = x :: y :: r ∧ ¬ (x = 0xA0#8 ∧ y = 0#8) := by
    intro d typ h
    rcases h with ⟨i, s, -, h⟩ | ⟨s, i, -, -, -, h⟩ <;> exact ⟨_, _, _, h, by decide⟩
  cases h with
  | value | pointer | named | slice | array => exact ht _
  | struct h | structPtr h | structs h => exact hh _ _ h

/-- What is sent for arrays, values of named types, pointers to structures and slices of structures and of booleans: a
structure without a handle, as the bytes of its fields without padding. -/
def Nameless (seq : BitVec 16) (path : Bytes) (n : BitVec 16) (raw msg : Bytes) : Prop :=
  msg = le 2 seq.toNat ++ [0x4D#8, BitVec.ofNat 8 (path.length / 2)] ++ path ++ [0xA0#8, 0#8] ++ le 2 n.toNat ++ raw

theorem nameless_not {seq n : BitVec 16} {path raw msg : Bytes} {v : GoAny} (h : Nameless seq path n raw msg) :
    ¬ Carries seq path v msg := by
  rintro ⟨typ, k, data, hm, -, he⟩
  obtain ⟨x, y, r, rfl, hn⟩ := means_type hm
  rw [h] at he
  simp only [writeService, List.append_assoc, List.cons_append, List.nil_append, List.append_cancel_left_eq,
    List.cons.injEq, true_and] at he
  exact hn ⟨he.1.symm, he.2.1.symm⟩

theorem single_nameless (seq : BitVec 16) (ioi : Ioi) (v : GoAny) (h : v.cipType = tStruct) (raw : Bytes)
    (hs : v.serialize = .ok raw) : ∃ msg, writeSingle seq ioi v = .ok msg ∧ Nameless seq ioi.buffer v.elements raw msg := by
  refine ⟨_, by simp only [writeSingle, hs, Res.bind_ok]; rfl, ?_⟩
  simp only [Nameless, h, writeFooter_two tStruct (by decide)]
  simp [putBV, tStruct]

/-- C105 is false for Go arrays: they are sent as one structure without a name. -/
theorem C105_array_as_structure (seq : BitVec 16) (ioi : Ioi) (T : GoTy) (h : T ≠ .str) (vs : List Scal) :
    ∃ msg, write seq ioi (.array T vs) = .ok msg ∧
      Nameless seq ioi.buffer 1#16 (vs.map Scal.encode).flatten msg ∧ ¬ Carries seq ioi.buffer (.array T vs) msg := by
  obtain ⟨msg, h1, h2⟩ := single_nameless seq ioi (.array T vs) rfl _ (by simp [GoAny.serialize, h]; rfl)
  exact ⟨msg, h1, h2, nameless_not h2⟩

/-- … for values of types like `type Speed float32` … -/
theorem C105_named_as_structure (seq : BitVec 16) (ioi : Ioi) (T : GoTy) (h : T ≠ .str) (v : Scal) :
    ∃ msg, write seq ioi (.named T v) = .ok msg ∧ Nameless seq ioi.buffer 1#16 v.encode msg ∧
      ¬ Carries seq ioi.buffer (.named T v) msg := by
  obtain ⟨msg, h1, h2⟩ := single_nameless seq ioi (.named T v) rfl _ (by simp [GoAny.serialize, h]; rfl)
  exact ⟨msg, h1, h2, nameless_not h2⟩

/-- … for pointers to structures, which go without their handle and without padding … -/
theorem C105_struct_pointer (seq : BitVec 16) (ioi : Ioi) (d : DTy) (t : Ty) (v : t.Val) :
    ∃ msg, write seq ioi (.structPtr d t v) = .ok msg ∧ Nameless seq ioi.buffer 1#16 (t.enc v) msg ∧
      ¬ Carries seq ioi.buffer (.structPtr d t v) msg := by
  obtain ⟨msg, h1, h2⟩ := single_nameless seq ioi (.structPtr d t v) rfl _ rfl
  exact ⟨msg, h1, h2, nameless_not h2⟩

/-- … for slices of structures … -/
theorem C105_struct_slice (seq : BitVec 16) (ioi : Ioi) (d : DTy) (t : Ty) (vs : List t.Val) :
    ∃ msg, write seq ioi (.structs d t vs) = .ok msg ∧
      Nameless seq ioi.buffer (BitVec.ofNat 16 vs.length) (vs.map t.enc).flatten msg ∧
      ¬ Carries seq ioi.buffer (.structs d t vs) msg := by
  obtain ⟨msg, h1, h2⟩ := single_nameless seq ioi (.structs d t vs) rfl _ rfl
  exact ⟨msg, h1, h2, nameless_not h2⟩

/-- … and for slices of booleans. -/
theorem C105_bool_slice (seq : BitVec 16) (ioi : Ioi) (vs : List Scal) :
    ∃ msg, write seq ioi (.slice .bool vs) = .ok msg ∧
      Nameless seq ioi.buffer (BitVec.ofNat 16 vs.length) (encodeSlice vs) msg ∧
      ¬ Carries seq ioi.buffer (.slice .bool vs) msg := by
  obtain ⟨msg, h1, h2⟩ := single_nameless seq ioi (.slice .bool vs) rfl _ rfl
  exact ⟨msg, h1, h2, nameless_not h2⟩

/-- What is refused, before anything is sent: things without a fixed size, and strings behind pointers, of named types and in arrays. -/
theorem C105_refused (seq : BitVec 16) (ioi : Ioi) (v : GoAny) :
    (write seq ioi v).isErr = true ↔
      (∃ n, v = .unsized n) ∨ (∃ s, v = .pointer .str s) ∨ (∃ s, v = .named .str s) ∨ ∃ vs, v = .array .str vs := by
  cases v with
  | nil => simp [write, writeSingle, GoAny.serialize, Res.isErr]
  | value T v => simp [write, writeSingle, GoAny.serialize, Res.isErr]
  | pointer T v => by_cases h : T = .str <;> cases v <;> simp [write, writeSingle, GoAny.serialize, Res.isErr, h]
  | slice T vs => simp [write, writeSingle, GoAny.serialize, Res.isErr]
  | array T vs => by_cases h : T = .str <;> simp [write, writeSingle, GoAny.serialize, Res.isErr, h]
  | named T vs => by_cases h : T = .str <;> simp [write, writeSingle, GoAny.serialize, Res.isErr, h]
  | struct d t v =>
    have h := C81_no_error d
    cases hd : typeEncode d with
    | ok p => simp [write, writeUdt, hd, Res.isErr]
    | err e => rw [hd] at h; cases h
    | panic => simp [write, writeUdt, hd, Res.isErr]
  | structPtr d t v => simp [write, writeSingle, GoAny.serialize, Res.isErr]
  | structs d t vs => simp [write, writeSingle, GoAny.serialize, Res.isErr]
  | fixed s t v => simp [write, writeSingle, GoAny.serialize, Res.isErr]
  | unsized s => simp [write, writeSingle, GoAny.serialize, Res.isErr]

/-- What crashes the calling program: nil, nil pointers, and structures with an empty array of structures in them. -/
theorem C105_crash (seq : BitVec 16) (ioi : Ioi) (v : GoAny) (hv : ∀ d t x, v = .struct d t x → StructType d) :
    write seq ioi v = .panic ↔
      v = .nil ∨ (∃ T, T ≠ .str ∧ v = .pointer T none) ∨ ∃ d t x, v = .struct d t x ∧ HasEmpty d := by
  cases v with
  | nil => simp [write, writeSingle, GoAny.serialize]
  | value T v => simp [write, writeSingle, GoAny.serialize]
  | pointer T v => by_cases h : T = .str <;> cases v <;> simp [write, writeSingle, GoAny.serialize, h]
  | slice T vs => simp [write, writeSingle, GoAny.serialize]
  | array T vs => by_cases h : T = .str <;> simp [write, writeSingle, GoAny.serialize, h]
  | named T vs => by_cases h : T = .str <;> simp [write, writeSingle, GoAny.serialize, h]
  | struct d t v =>
    have h := C81_crash d
    have hst := hv d t v rfl
    constructor
    · intro hw
      refine .inr (.inr ⟨d, t, v, rfl, ?_⟩)
      rcases h.1 (by
        cases hd : typeEncode d with
        | ok p => simp [write, writeUdt, hd] at hw
        | err e => simp [write, writeUdt, hd] at hw
        | panic => rfl) with h | h
      · exact absurd hst h
      · exact h
    · rintro (hw | ⟨T, -, hw⟩ | ⟨d', t', x, hw, he⟩)
      · cases hw
      · cases hw
      · cases hw
        simp [write, writeUdt, h.2 (.inr he)]
  | structPtr d t v => simp [write, writeSingle, GoAny.serialize]
  | structs d t vs => simp [write, writeSingle, GoAny.serialize]
  | fixed s t v => simp [write, writeSingle, GoAny.serialize]
  | unsized s => simp [write, writeSingle, GoAny.serialize]

/-- No other values but structures are sent as they are. -/
theorem C105_only (seq : BitVec 16) (ioi : Ioi) (v : GoAny) (msg : Bytes) (h : write seq ioi v = .ok msg)
    (hc : Carries seq ioi.buffer v msg) :
    Right v ∨ ∃ d t x, v = .struct d t x := by
  cases v with
  | nil => simp [write, writeSingle, GoAny.serialize] at h
  | value T v =>
    obtain ⟨typ, n, data, hm, -⟩ := hc
    cases hm with
    | value hw => exact .inl (wire_right hw)
  | pointer T v =>
    by_cases hT : T = .str
    · simp [write, writeSingle, GoAny.serialize, hT] at h
    · cases v with
      | none => simp [write, writeSingle, GoAny.serialize, hT] at h
      | some x =>
        obtain ⟨typ, n, data, hm, -⟩ := hc
        cases hm with
        | pointer hw => exact .inl ⟨(wire_right hw).1, hT⟩
  | slice T vs =>
    by_cases hT : T = .bool
    · subst hT
      obtain ⟨m, h1, -, h3⟩ := C105_bool_slice seq ioi vs
      rw [h] at h1
      cases h1
      exact absurd hc h3
    · obtain ⟨typ, n, data, hm, hn, -⟩ := hc
      cases hm with
      | slice hw => exact .inl ⟨hT, hn, wires_right hw⟩
  | array T vs =>
    by_cases hT : T = .str
    · simp [write, writeSingle, GoAny.serialize, hT] at h
    · obtain ⟨m, h1, -, h3⟩ := C105_array_as_structure seq ioi T hT vs
      rw [h] at h1
      cases h1
      exact absurd hc h3
  | named T x =>
    by_cases hT : T = .str
    · simp [write, writeSingle, GoAny.serialize, hT] at h
    · obtain ⟨m, h1, -, h3⟩ := C105_named_as_structure seq ioi T hT x
      rw [h] at h1
      cases h1
      exact absurd hc h3
  | struct d t v => exact .inr ⟨d, t, v, rfl⟩
  | structPtr d t v =>
    obtain ⟨m, h1, -, h3⟩ := C105_struct_pointer seq ioi d t v
    rw [h] at h1
    cases h1
    exact absurd hc h3
  | structs d t vs =>
    obtain ⟨m, h1, -, h3⟩ := C105_struct_slice seq ioi d t vs
    rw [h] at h1
    cases h1
    exact absurd hc h3
  | fixed s t v =>
    obtain ⟨typ, n, data, hm, -⟩ := hc
    cases hm
  | unsized s => simp [write, writeSingle, GoAny.serialize] at h

/-- C105: a structure is read back as it was written, from any controller that keeps the bytes; what is in the handle of the
reply, and what the reader's structure held before, do not matter. -/
theorem C105_structure_back_partial (seq : BitVec 16) (ioi : Ioi) (d : DTy) (t : Ty) (v old : t.Val)
    (h : Right (.struct d t v)) :
    ∃ typ image, write seq ioi (.struct d t v) = .ok (le 2 seq.toNat ++ writeService ioi.buffer typ 1 image) ∧
      HandleOf d typ ∧
      ∀ (f : ReplyForm) (st : BitVec 32) (handle : BitVec 16) (more : List Reply), f.fits (structData handle image) →
        ReadStruct.readStruct t old ioi (ReadStruct.structReply f st handle image :: more) =
          (v, .ok (), [⟨ioi.buffer, 1#16, none⟩]) := by
  obtain ⟨msg, h1, typ, n, image, hm, -, rfl⟩ := C105_carried_partial seq ioi _ h
  cases hm with
  | struct hh hv =>
    refine ⟨typ, image, h1, hh, fun f st handle more hf => ?_⟩
    exact ReadStruct.C88_struct_partial t h.2.2.1 h.2.2.2.1 h.2.2.2.2.1 old v ioi f st handle image hf hv more

/-! ### Examples -/

def demoIoi : Ioi := ⟨[0x61#8], 0#8, false, 0, [0x91#8, 1#8, 0x61#8, 0#8]⟩

/-- Two INTs, a slice. -/
example : Right (.slice .i16 [.i16 1, .i16 2]) ∧
    write 1#16 demoIoi (.slice .i16 [.i16 1, .i16 2]) = .ok
      [1#8, 0#8, 0x4D#8, 2#8, 0x91#8, 1#8, 0x61#8, 0#8, 0xC3#8, 0#8, 2#8, 0#8, 1#8, 0#8, 2#8, 0#8] :=
  ⟨⟨by decide, by decide, by intro v hv; fin_cases hv <;> exact ⟨rfl, trivial⟩⟩, rfl⟩

/-- The same as an array: one structure without a name. -/
example : write 1#16 demoIoi (.array .i16 [.i16 1, .i16 2]) = .ok
      [1#8, 0#8, 0x4D#8, 2#8, 0x91#8, 1#8, 0x61#8, 0#8, 0xA0#8, 0#8, 1#8, 0#8, 1#8, 0#8, 2#8, 0#8] := rfl

/-- A structure `T` of an INT and a DINT. -/
def demoT : Ty := .cons false (.num 2) (.cons false (.num 4) .nil)

def demoD : DTy := .struct (str "T") [.basic (str "int16"), .basic (str "int32")]

example : Right (.struct demoD demoT ((1#16, (2#32, ())) : BitVec 16 × BitVec 32 × Unit)) :=
  ⟨.struct (.one (.number (l := str "INT") (by decide +kernel)) (.one (.number (l := str "DINT") (by decide +kernel)) .nil)),
    trivial, rfl, rfl, rfl, rfl⟩

example : ∃ crc : Bytes, write 1#16 demoIoi (.struct demoD demoT ((1#16, (2#32, ())) : BitVec 16 × BitVec 32 × Unit)) =
    .ok ([1#8, 0#8, 0x4D#8, 2#8, 0x91#8, 1#8, 0x61#8, 0#8, 0xA0#8, 2#8] ++ crc ++
      [1#8, 0#8, 1#8, 0#8, 0#8, 0#8, 2#8, 0#8, 0#8, 0#8]) := ⟨putBV (checksum (str "T,INT,DINT")), by decide +kernel⟩

/-- The padding between the two is missing when a pointer is given. -/
example : write 1#16 demoIoi (.structPtr demoD demoT ((1#16, (2#32, ())) : BitVec 16 × BitVec 32 × Unit)) = .ok
    [1#8, 0#8, 0x4D#8, 2#8, 0x91#8, 1#8, 0x61#8, 0#8, 0xA0#8, 0#8, 1#8, 0#8, 1#8, 0#8, 2#8, 0#8, 0#8, 0#8] := by
  decide +kernel

example : write 1#16 demoIoi .nil = .panic ∧ write 1#16 demoIoi (.pointer .i32 none) = .panic ∧
    write 1#16 demoIoi (.unsized none) = .err .fail := ⟨rfl, rfl, rfl⟩

end Gologix.WriteAny
