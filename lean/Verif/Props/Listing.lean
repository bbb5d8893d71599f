import Verif.Spec.Listing
import Verif.Model.Listing
import Verif.Props.Wire
import Verif.Props.Reply
import Verif.Props.ServerEcho
import Verif.Props.ServerConn
import Mathlib.Data.Nat.Bitwise
/-
C47 Symbol type word is decoded by the published bit fields
C48 Identity replies round-trip
C49 Service listing parses fixed records
C50 Response bit arithmetic is an involution pair
C53 The program listing is parsed completely
C67 The server's service list can be read
-/
set_option linter.unusedSimpArgs false

namespace Gologix

/-! ### C47 -/

theorem word_toNat (f : TagInfo) : f.word.toNat = Spec.symbolWord f.type f.typeInfo := by
  unfold TagInfo.word Spec.symbolWord
  simp only [unle, BitVec.toNat_ofNat]
  have := f.type.isLt
  have := f.typeInfo.isLt
  omega

theorem and_pow_toNat (w : BitVec 16) (i : Nat) (hi : i < 16) :
    (w &&& (1#16 <<< i)).toNat = w.toNat / 2 ^ i % 2 * 2 ^ i := by
  have h : (1#16 <<< i).toNat = 2 ^ i := by
    have : 2 ^ i < 2 ^ 16 := Nat.pow_lt_pow_right (by decide) hi
    simp [Nat.shiftLeft_eq]
    omega
  rw [BitVec.toNat_and, h, Nat.and_two_pow]
  congr 1
  rw [Nat.testBit_eq_decide_div_mod_eq]
  rcases Nat.mod_two_eq_zero_or_one (w.toNat / 2 ^ i) with h | h <;> simp [h]

theorem and_pow_iff (w : BitVec 16) (i : Nat) (hi : i < 16) :
    w &&& (1#16 <<< i) ≠ 0#16 ↔ Spec.bitSet w.toNat i := by
  have h := and_pow_toNat w i hi
  have hp : 0 < 2 ^ i := Nat.two_pow_pos i
  unfold Spec.bitSet
  constructor
  · intro hne
    rcases Nat.mod_two_eq_zero_or_one (w.toNat / 2 ^ i) with h0 | h1
    · exact absurd (BitVec.eq_of_toNat_eq (by rw [h, h0]; simp)) hne
    · exact h1
  · intro h1 he
    rw [he, h1] at h
    simp at h
    omega

theorem templateOf_spec (w : BitVec 16) :
    (Spec.IsStructure w.toNat → (templateOf w).toNat = w.toNat % 4096) ∧
      (¬ Spec.IsStructure w.toNat → templateOf w = 0#16) := by
  have h15 := and_pow_iff w 15 (by decide)
  have h12 := and_pow_iff w 12 (by decide)
  have hm : (w &&& 0x0FFF#16).toNat = w.toNat % 4096 := by
    rw [BitVec.toNat_and]
    exact Nat.and_two_pow_sub_one_eq_mod w.toNat 12
  unfold Spec.IsStructure templateOf
  rw [← h15, ← h12]
  constructor
  · rintro ⟨ha, hb⟩
    rw [if_neg (by simpa using ⟨ha, Classical.not_not.mp hb⟩), hm]
  · intro hn
    rw [if_pos]
    simp only [ne_eq, Classical.not_not] at hn
    by_cases ha : w &&& (1#16 <<< 15) = 0#16
    · simp only [Bool.or_eq_true, beq_iff_eq]
      exact Or.inl ha
    · have : ¬ w &&& (1#16 <<< 12) = 0#16 := fun hb => hn ⟨ha, hb⟩
      simp only [Bool.or_eq_true, beq_iff_eq, bne_iff_ne, ne_eq]
      exact Or.inr this

/-- C47: for every type word of a tag, the template number is the low 12 bits exactly for structures and
zero otherwise, and atomic is reported exactly when bits 15 and 12 are clear. -/
theorem C47_tag (f : TagInfo) :
    let w := Spec.symbolWord f.type f.typeInfo
    (Spec.IsStructure w → f.templateId.toNat = w % 4096) ∧
      (¬ Spec.IsStructure w → f.templateId = 0#16) ∧
      (f.atomic = true ↔ ¬ Spec.bitSet w 15 ∧ ¬ Spec.bitSet w 12) := by
  intro w
  have hw : f.word.toNat = w := word_toNat f
  have h := templateOf_spec f.word
  rw [hw] at h
  refine ⟨h.1, h.2, ?_⟩
  rw [← hw, ← and_pow_iff _ 15 (by decide), ← and_pow_iff _ 12 (by decide)]
  unfold TagInfo.atomic
  simp only [Classical.not_not, beq_iff_eq]
  have h9 : f.word &&& 0x9000#16 = (f.word &&& (1#16 <<< 15)) ||| (f.word &&& (1#16 <<< 12)) := by
    rw [← BitVec.and_or_distrib_left]; rfl
  rw [h9, BitVec.or_eq_zero_iff]

/-- Exactly one classification: a template number is reported for structures with a number and for
nothing else. -/
theorem C47_exactly_one (f : TagInfo) :
    let w := Spec.symbolWord f.type f.typeInfo
    f.templateId ≠ 0#16 ↔ Spec.IsStructure w ∧ w % 4096 ≠ 0 := by
  intro w
  obtain ⟨h1, h2, -⟩ := C47_tag f
  by_cases hs : Spec.IsStructure w
  · have := h1 hs
    constructor
    · intro hne
      refine ⟨hs, fun h0 => hne (BitVec.eq_of_toNat_eq ?_)⟩
      rw [this, h0]; rfl
    · rintro ⟨-, hn⟩ he
      rw [he] at this
      exact hn this.symm
  · exact ⟨fun h => absurd (h2 hs) h, fun h => absurd h.1 hs⟩

/-- An atomic type never has a template number. -/
theorem C47_atomic_no_template (f : TagInfo) (h : f.atomic = true) : f.templateId = 0#16 := by
  obtain ⟨-, h2, h3⟩ := C47_tag f
  exact h2 fun hs => (h3.mp h).1 hs.1

/-- Predefined types are those with a number of at most 256. -/
theorem C47_predefined (f : TagInfo) : f.preDefined = true ↔ Spec.symbolWord f.type f.typeInfo % 4096 ≤ 256 := by
  have hw : f.word.toNat = Spec.symbolWord f.type f.typeInfo := word_toNat f
  unfold TagInfo.preDefined
  rw [← hw, decide_eq_true_iff, BitVec.le_def, BitVec.toNat_and, show (0x0FFF#16).toNat = 2 ^ 12 - 1 from rfl,
    Nat.and_two_pow_sub_one_eq_mod]
  rfl

/-- C47 for members of structures. -/
theorem C47_member (m : MemberInfo) :
    (Spec.IsStructure m.type.toNat → m.templateId.toNat = m.type.toNat % 4096) ∧
      (¬ Spec.IsStructure m.type.toNat → m.templateId = 0#16) := templateOf_spec m.type

example : (⟨0xCE#8, 0x8F#8, 0, 0, 0⟩ : TagInfo).templateId = 0xFCE#16 ∧
    (⟨0xCE#8, 0x9F#8, 0, 0, 0⟩ : TagInfo).templateId = 0#16 ∧
    (⟨0xC4#8, 0x20#8, 4, 0, 0⟩ : TagInfo).atomic = true := by decide

/-! ### C50 -/

/-- C50: request codes are those below 128.  Going to the response code and back is the identity on
them, and from any response code to the request and forth as well. -/
theorem C50_involution (s : Byte) :
    (s.toNat < 128 → unResponse (asResponse s) = s) ∧ (128 ≤ s.toNat → asResponse (unResponse s) = s) := by
  revert s; decide +kernel

/-- Response codes are recognised exactly. -/
theorem C50_recognised (s : Byte) :
    (isResponse s = true ↔ 128 ≤ s.toNat) ∧ isResponse (asResponse s) = true ∧
      isResponse (unResponse s) = false ∧ (asResponse s).toNat % 128 = s.toNat % 128 := by
  revert s; decide +kernel

/-- Different requests have different response codes. -/
theorem C50_injective (s t : Byte) (hs : s.toNat < 128) (ht : t.toNat < 128)
    (h : asResponse s = asResponse t) : s = t := by
  rw [← (C50_involution s).1 hs, ← (C50_involution t).1 ht, h]

example : asResponse 0x4C#8 = 0xCC#8 ∧ unResponse 0xCC#8 = 0x4C#8 := by decide

/-! ### C49 -/

theorem trimNul_spec (b : Bytes) :
    ∃ k, b = trimNul b ++ List.replicate k 0#8 ∧ (trimNul b).getLast? ≠ some 0#8 := by
  unfold trimNul
  generalize hr : b.reverse = r
  have hb : b = r.reverse := by rw [← hr, List.reverse_reverse]
  rw [hb]
  clear hb hr
  induction r with
  | nil => exact ⟨0, by simp, by simp⟩
  | cons x xs ih =>
    by_cases hx : x = 0#8
    · obtain ⟨k, h1, h2⟩ := ih
      refine ⟨k + 1, ?_, ?_⟩
      · rw [List.reverse_cons, h1]
        simp [hx, List.dropWhile_cons, List.replicate_succ']
      · simpa [hx, List.dropWhile_cons] using h2
    · exact ⟨0, by simp [List.dropWhile_cons, hx], by simp [List.dropWhile_cons, hx]⟩

/-- C49: at least 20 bytes are parsed to version, flags and the 16 byte name without its trailing NULs. -/
theorem C49_record (version caps : BitVec 16) (name pad rest : Bytes) (hn : name.length + pad.length = 16)
    (hp : ∀ b ∈ pad, b = 0#8) (hl : name.getLast? ≠ some 0#8) :
    parseService (le 2 version.toNat ++ (le 2 caps.toNat ++ (name ++ pad ++ rest))) =
      .ok { version, caps, name } := by
  have h16 : (name ++ pad).length = 16 := by simpa using hn
  have ht : trimNul (name ++ pad) = name := by
    have hpad : pad.reverse.dropWhile (· == 0#8) = [] := by
      have hq : ∀ b ∈ pad.reverse, b = 0#8 := fun b hb => hp b (by simpa using hb)
      generalize pad.reverse = q at hq ⊢
      induction q with
      | nil => rfl
      | cons x xs ih =>
        rw [List.dropWhile_cons_of_pos (by simpa using hq x (by simp))]
        exact ih fun b hb => hq b (by simp [hb])
    unfold trimNul
    rw [List.reverse_append, List.dropWhile_append, hpad]
    simp only [List.isEmpty_nil, if_true]
    cases hr : name.reverse with
    | nil => simp at hr; simp [hr]
    | cons x xs =>
      have hx : x ≠ 0#8 := by
        intro h0
        apply hl
        rw [List.getLast?_eq_head?_reverse, hr, h0]; rfl
      rw [List.dropWhile_cons_of_neg (by simpa using hx), ← hr, List.reverse_reverse]
  unfold parseService
  rw [Server.readBV16_le, Res.bind_ok]
  simp only
  rw [Server.readBV16_le, Res.bind_ok]
  simp only
  rw [readN_append' h16, Res.bind_ok]
  simp only [ht]

/-- Every record of 20 bytes or more has that form, a shorter one is an error. -/
theorem C49_short (data : Bytes) :
    (data.length < 20 → ∃ e, parseService data = .err e) ∧
      (20 ≤ data.length → ∃ version caps name pad rest, data =
          le 2 (BitVec.toNat (w := 16) version) ++ (le 2 (BitVec.toNat (w := 16) caps) ++ (name ++ pad ++ rest)) ∧
        name.length + pad.length = 16 ∧ (∀ b ∈ pad, b = 0#8) ∧ name.getLast? ≠ some 0#8) := by
  constructor
  · intro hl
    cases hr : parseService data with
    | err e => exact ⟨e, rfl⟩
    | panic =>
      have : (parseService data).safe := by
        unfold parseService
        refine Res.safe_bind (readBV_safe _ _) fun _ _ => ?_
        refine Res.safe_bind (readBV_safe _ _) fun _ _ => ?_
        exact Res.safe_bind (readN_safe _ _) fun _ _ => trivial
      rw [hr] at this
      exact this.elim
    | ok v =>
      unfold parseService at hr
      simp only [Res.bind_eq_ok] at hr
      obtain ⟨⟨a, r1⟩, h1, ⟨b, r2⟩, h2, ⟨c, r3⟩, h3, -⟩ := hr
      have e1 := readBV_ok (by decide) h1
      have e2 := readBV_ok (by decide) h2
      obtain ⟨e3, e4⟩ := readN_ok h3
      simp only at e2 e4
      rw [e1, e2, e4] at hl
      simp [e3] at hl
      omega
  · intro hl
    obtain ⟨k, h1, h2⟩ := trimNul_spec ((data.drop 4).take 16)
    refine ⟨BitVec.ofNat 16 (unle (data.take 2)), BitVec.ofNat 16 (unle ((data.drop 2).take 2)),
      trimNul ((data.drop 4).take 16), List.replicate k 0#8, data.drop 20, ?_, ?_, ?_, h2⟩
    · have hu : ∀ b : Bytes, b.length = 2 → le 2 (BitVec.ofNat 16 (unle b)).toNat = b := by
        intro b hb
        have h := unle_lt b
        rw [hb] at h
        rw [BitVec.toNat_ofNat, Nat.mod_eq_of_lt (by omega), ← hb, le_unle]
      rw [hu _ (by simp; omega), hu _ (by simp; omega), ← h1]
      have a1 : data.drop 4 = (data.drop 4).take 16 ++ data.drop 20 := by
        rw [show data.drop 20 = (data.drop 4).drop 16 by simp, List.take_append_drop]
      have a2 : data.drop 2 = (data.drop 2).take 2 ++ data.drop 4 := by
        rw [show data.drop 4 = (data.drop 2).drop 2 by simp, List.take_append_drop]
      rw [← a1, ← a2, List.take_append_drop]
    · have := congrArg List.length h1
      simp at this ⊢
      omega
    · intro b hb
      exact (List.mem_replicate.mp hb).2

example : parseService (le 2 1 ++ (le 2 0x120 ++ (str "Communications" ++ [0#8, 0#8]))) =
    .ok ⟨1#16, 0x120#16, str "Communications"⟩ := by decide +kernel

/-! ### C48 -/

theorem be_eq (k n : Nat) : Spec.be k n = (le k n).reverse := by
  induction k generalizing n with
  | zero => rfl
  | succ k ih =>
    have : le (k + 1) n = BitVec.ofNat 8 n :: le k (n / 256) := rfl
    rw [this, List.reverse_cons, ← ih]; rfl

theorem be_length (k n : Nat) : (Spec.be k n).length = k := by rw [be_eq]; simp

theorem beBV_be16 (v : BitVec 16) : beBV 16 (Spec.be 2 v.toNat) = v := by
  unfold beBV
  rw [be_eq, List.reverse_reverse, unle_le]
  apply BitVec.eq_of_toNat_eq
  have := v.isLt
  simp only [BitVec.toNat_ofNat]
  omega

theorem beBV_be32 (v : BitVec 32) : beBV 32 (Spec.be 4 v.toNat) = v := by
  unfold beBV
  rw [be_eq, List.reverse_reverse, unle_le]
  apply BitVec.eq_of_toNat_eq
  have := v.isLt
  simp only [BitVec.toNat_ofNat]
  omega

theorem readSocket_be (family port : BitVec 16) (addr : BitVec 32) (rest : Bytes) :
    readSocket (Spec.be 2 family.toNat ++ (Spec.be 2 port.toNat ++ (Spec.be 4 addr.toNat ++
      (List.replicate 8 0#8 ++ rest)))) = .ok (⟨family, port, addr, 0, 0⟩, rest) := by
  have h1 := be_length 2 family.toNat
  have h2 := be_length 2 port.toNat
  have h3 := be_length 4 addr.toNat
  have e : Spec.be 2 family.toNat ++ (Spec.be 2 port.toNat ++ (Spec.be 4 addr.toNat ++
      (List.replicate 8 0#8 ++ rest))) = (Spec.be 2 family.toNat ++ (Spec.be 2 port.toNat ++
      (Spec.be 4 addr.toNat ++ List.replicate 8 0#8))) ++ rest := by simp
  unfold readSocket
  rw [e, readN_append' (by simp [h1, h2, h3]), Res.bind_ok]
  simp only
  have a1 := List.take_left' (l₂ := Spec.be 2 port.toNat ++ (Spec.be 4 addr.toNat ++ List.replicate 8 0#8)) h1
  have a2 := List.drop_left' (l₂ := Spec.be 2 port.toNat ++ (Spec.be 4 addr.toNat ++ List.replicate 8 0#8)) h1
  have a3 := List.take_left' (l₂ := Spec.be 4 addr.toNat ++ List.replicate 8 0#8) h2
  have a4 := List.drop_left' (l₂ := Spec.be 4 addr.toNat ++ List.replicate 8 0#8) h2
  have a5 := List.take_left' (l₂ := List.replicate 8 0#8) h3
  have a6 := List.drop_left' (l₂ := List.replicate 8 0#8) h3
  have d4 : ∀ l : Bytes, l.drop 4 = (l.drop 2).drop 2 := fun l => by simp
  have d8 : ∀ l : Bytes, l.drop 8 = ((l.drop 2).drop 2).drop 4 := fun l => by simp
  have d12 : ∀ l : Bytes, l.drop 12 = (((l.drop 2).drop 2).drop 4).drop 4 := fun l => by simp
  rw [d12, d8, d4, a1, a2, a3, a4, a5, a6, beBV_be16, beBV_be16, beBV_be32]
  rfl

/-- What the client should report for a device. -/
def bodyOf (d : Spec.Device) (version port : BitVec 16) (addr : BitVec 32) (state : Byte) : IdentityBody where
  version := version
  socket := { family := 2, port := port, address := addr, zero0 := 0, zero1 := 0 }
  vendor := d.vendor
  device := d.device
  product := d.product
  revision := d.revision
  status := d.status
  serial := d.serial
  name := d.name
  state := state

/-- C48, the client: an identity item is parsed to the identity it describes. -/
theorem C48_parse (d : Spec.Device) (version port : BitVec 16) (addr : BitVec 32) (state : Byte)
    (hn : d.name.length ≤ 255) :
    parseIdentity (Spec.identityItem d version port addr state) = .ok (bodyOf d version port addr state) := by
  have hs : readSocket (Spec.be 2 2 ++ (Spec.be 2 port.toNat ++ (Spec.be 4 addr.toNat ++
      (List.replicate 8 0#8 ++ (le 2 d.vendor.toNat ++ (le 2 d.device.toNat ++ (le 2 d.product.toNat ++
      (le 2 d.revision.toNat ++ (le 2 d.status.toNat ++ (le 4 d.serial.toNat ++
      ([BitVec.ofNat 8 d.name.length] ++ (d.name ++ [state])))))))))))) = _ := readSocket_be 2#16 port addr _
  have hl : (BitVec.ofNat 8 d.name.length).toNat = d.name.length := by
    rw [BitVec.toNat_ofNat]; omega
  unfold parseIdentity Spec.identityItem
  rw [Server.readBV16_le, Res.bind_ok]; simp only
  rw [hs, Res.bind_ok]; simp only
  rw [Server.readBV16_le, Res.bind_ok]; simp only
  rw [Server.readBV16_le, Res.bind_ok]; simp only
  rw [Server.readBV16_le, Res.bind_ok]; simp only
  rw [Server.readBV16_le, Res.bind_ok]; simp only
  rw [Server.readBV16_le, Res.bind_ok]; simp only
  rw [Server.readBV32_le, Res.bind_ok]; simp only
  rw [List.singleton_append, readBV8_cons, Res.bind_ok]; simp only
  rw [hl, readN_append, Res.bind_ok]; simp only
  rw [readBV8_cons, Res.bind_ok]
  rfl

/-- The attributes of a server that describe `d`. -/
def Publishes (attrs : BitVec 16 → Option Scal) (d : Spec.Device) : Prop :=
  attrs 1 = some (.i16 d.vendor) ∧ attrs 2 = some (.i16 d.device) ∧ attrs 3 = some (.i16 d.product) ∧
    attrs 4 = some (.i16 d.revision) ∧ attrs 5 = some (.i16 d.status) ∧ attrs 6 = some (.u32 d.serial) ∧
    attrs 7 = some (.str d.name)

/-- C48, the server: the reply is the identity item of its attributes. -/
theorem C48_publish (attrs : BitVec 16 → Option Scal) (d : Spec.Device) (port : BitVec 16) (addr : BitVec 32)
    (h : Publishes attrs d) (hn : d.name.length ≤ 255) :
    Server.listIdentityReply attrs (Spec.be 4 addr.toNat) port =
      .ok (Spec.cpf [(0x0C#16, Spec.identityItem d 1#16 port addr 0xFF#8)]) := by
  obtain ⟨h1, h2, h3, h4, h5, h6, h7⟩ := h
  have hs : Server.shortName d.name = d.name := List.take_of_length_le hn
  have hi : Server.identityAll attrs = .ok (putBV d.vendor ++ putBV d.device ++ putBV d.product ++
      putBV d.revision ++ putBV d.status ++ putBV d.serial ++ [BitVec.ofNat 8 d.name.length] ++ d.name) := by
    unfold Server.identityAll
    rw [show attrs 1#16 = _ from h1, show attrs 2#16 = _ from h2, show attrs 3#16 = _ from h3,
      show attrs 4#16 = _ from h4, show attrs 5#16 = _ from h5, show attrs 6#16 = _ from h6,
      show attrs 7#16 = _ from h7, ]
    simp only [hs]
  have hb : putBV 1#16 ++ Server.be16 2#16 ++ Server.be16 port ++ Spec.be 4 addr.toNat ++
      List.replicate 8 0#8 ++ (putBV d.vendor ++ putBV d.device ++ putBV d.product ++ putBV d.revision ++
      putBV d.status ++ putBV d.serial ++ [BitVec.ofNat 8 d.name.length] ++ d.name) ++ [0xFF#8] =
      Spec.identityItem d 1#16 port addr 0xFF#8 := by
    have e1 : Server.be16 2#16 = Spec.be 2 2 := by decide
    have e2 : Server.be16 port = Spec.be 2 port.toNat := by rw [be_eq]; rfl
    rw [e1, e2]
    unfold Spec.identityItem putBV
    simp only [List.append_assoc]
  have hlen : (Spec.identityItem d 1#16 port addr 0xFF#8).length < 65536 := by
    unfold Spec.identityItem
    simp [be_length]
    omega
  unfold Server.listIdentityReply
  rw [hi, Res.bind_ok]
  simp only
  rw [hb]
  unfold Spec.cpf Spec.item putBV
  simp only [List.map_cons, List.map_nil, List.flatten_cons, List.flatten_nil, List.append_nil,
    List.length_cons, List.length_nil, List.append_assoc, BitVec.toNat_ofNat]
  rw [Nat.mod_eq_of_lt hlen]

/-- C48: a client that asks a server for its identity, over the stream, gets the identity the server's
attributes describe, with the server's address. -/
theorem C48_roundtrip (C : Server.Conv) (st : Server.St) (c : FrameCtx) (d : Spec.Device) (addr : BitVec 32)
    (later : Bytes) (hd : Publishes st.srv.attrs d) (hn : d.name.length ≤ 255)
    (ha : st.h.addr = Spec.be 4 addr.toNat)
    (hi : st.inp = sendMsgBuild c 0x63#16 [] ++ later) :
    ∃ (f : Bytes) (hdr : EipHeader) (payload : Bytes),
      Server.newFrames st (Server.serveStep C st).2 = [f] ∧ (Server.serveStep C st).2.inp = later ∧
      recvData f = .ok (hdr, payload, []) ∧ hdr.command = 0x63#16 ∧ hdr.context = c.context ∧
      listIdentity payload = .ok (bodyOf d 1#16 st.h.port addr 0xFF#8) ∧
      (Server.serveStep C st).1 = .ok () ∧ (Server.serveStep C st).2.srv = st.srv := by
  have hp := C48_publish st.srv.attrs d st.h.port addr hd hn
  have hlen : (Spec.identityItem d 1#16 st.h.port addr 0xFF#8).length < 65530 := by
    unfold Spec.identityItem
    simp [be_length]
    omega
  have hq := readItems_cpf [(0x0C#16, Spec.identityItem d 1#16 st.h.port addr 0xFF#8)] [] (by simp)
    (by intro x hx; simp at hx; subst hx; simp; omega)
  rw [List.append_nil] at hq
  generalize hpay : Spec.cpf [(0x0C#16, Spec.identityItem d 1#16 st.h.port addr 0xFF#8)] = pay at hp hq
  have hpl : pay.length < 65536 := by
    rw [← hpay]
    unfold Spec.cpf Spec.item
    simp
    omega
  have hs : Server.serveStep C st = Server.dispatch C (newEIPHeader c 0x63#16 0)
      { st with inp := later, h := { st.h with context := c.context } } := by
    unfold Server.serveStep
    rw [Server.bind_def]
    have : st.inp = (newEIPHeader c 0x63#16 0).encode ++ later := by
      rw [hi, sendMsgBuild_eq]; simp
    simp only [Server.recvHeader, this, readEIPHeader_encode]
    rfl
  have hdis : Server.dispatch C (newEIPHeader c 0x63#16 0)
      { st with inp := later, h := { st.h with context := c.context } } =
      (.ok (), { st with inp := later, h := { st.h with context := c.context }, sent := st.sent ++
        [Server.frameOf { st.h with context := c.context } 0x63#16 pay] }) := by
    unfold Server.dispatch
    rw [show (newEIPHeader c 0x63#16 0).command = 0x63#16 from rfl, if_neg (by decide), if_neg (by decide),
      if_neg (by decide), if_neg (by decide), if_pos rfl]
    unfold Server.sendListIdentity
    rw [Server.bind_def]
    simp only [Server.M.look, ha, hp, Server.send]
  rw [hs, hdis]
  refine ⟨Server.frameOf { st.h with context := c.context } 0x63#16 pay, ⟨0x63#16, BitVec.ofNat 16 pay.length, st.h.handle, 0, c.context, st.h.options⟩, pay, by simp [Server.newFrames], rfl, ?_, rfl, rfl, ?_, rfl, rfl⟩
  · unfold recvData Server.frameOf
    rw [readEIPHeader_encode, Res.bind_ok]
    simp only
    have hl : (BitVec.ofNat 16 pay.length).toNat = pay.length := by
      rw [BitVec.toNat_ofNat]; exact Nat.mod_eq_of_lt hpl
    rw [hl]
    split
    · rw [← List.append_nil pay, readN_append' (by simp), Res.bind_ok]; simp
    · next h0 =>
      have : pay = [] := List.eq_nil_of_length_eq_zero (by omega)
      simp [this]
  · unfold listIdentity
    rw [hq, Res.bind_ok]
    exact C48_parse d 1#16 st.h.port addr 0xFF#8 hn

example : listIdentity (Spec.cpf [(0x0C#16, [1#8, 0#8, 0#8, 2#8, 0xAF#8, 0x12#8, 10#8, 0#8, 0#8, 7#8] ++
    List.replicate 8 0#8 ++ [1#8, 0#8, 14#8, 0#8, 0x60#8, 0#8, 32#8, 11#8, 0x30#8, 0#8, 4#8, 3#8, 2#8, 1#8, 2#8,
    0x4C#8, 0x36#8, 3#8])]) = .ok { version := 1, socket := ⟨2, 0xAF12, 0x0A000007, 0, 0⟩, vendor := 1, device := 14, product := 0x60, revision := 0x0B20, status := 0x30, serial := 0x01020304, name := str "L6", state := 3 } := by
  decide +kernel

/-- One service record. -/
structure ServiceItem where
  item    : BitVec 16
  version : BitVec 16
  caps    : BitVec 16
  name    : Bytes
  pad     : Bytes
  rest    : Bytes

def ServiceItem.data (x : ServiceItem) : Bytes :=
  le 2 x.version.toNat ++ (le 2 x.caps.toNat ++ (x.name ++ x.pad ++ x.rest))

/-- The name fills its 16 bytes with the padding, and the record fits its item. -/
def ServiceItem.ok (x : ServiceItem) : Prop :=
  x.name.length + x.pad.length = 16 ∧ (∀ b ∈ x.pad, b = 0#8) ∧ x.name.getLast? ≠ some 0#8 ∧ x.data.length < 65536

/-- C49 for whole replies: every record is returned, in order. -/
theorem C49_all (xs : List ServiceItem) (hx : ∀ x ∈ xs, x.ok) (hn : xs.length < 65536) (rest : Bytes) :
    listServices (Spec.cpf (xs.map fun x => (x.item, x.data)) ++ rest) =
      .ok (xs.map fun x => { version := x.version, caps := x.caps, name := x.name }) := by
  unfold listServices
  rw [readItems_cpf _ _ (by simpa using hn) (by
    intro y hy
    obtain ⟨x, hm, rfl⟩ := List.mem_map.mp hy
    exact (hx x hm).2.2.2), Res.bind_ok]
  simp only
  clear hn
  induction xs with
  | nil => rfl
  | cons x xs ih =>
    obtain ⟨h1, h2, h3, -⟩ := hx x (by simp)
    rw [List.map_cons, List.map_cons, parseServices]
    rw [show parseService x.data = _ from C49_record x.version x.caps x.name x.pad x.rest h1 h2 h3,
      Res.bind_ok, ih fun y hy => hx y (by simp [hy]), Res.bind_ok]
    rfl

example : (⟨0x100#16, 1#16, 0x20#16, str "Communications", [0, 0], [0]⟩ : ServiceItem).ok :=
  ⟨by decide, by decide, by decide, by decide⟩

/-- C67 is false: the service list a server sends announces 10 bytes for an item of 20, and the client
reports an error. -/
theorem C67_unreadable : listServices Server.listServicesReply = .err .unexpectedEof := by decide +kernel

/-- With the length corrected to 20 the client reads the record the server means. -/
theorem C67_corrected : listServices (Spec.cpf [(0x0100#16, Server.listServicesReply.drop 6)]) =
    .ok [⟨1#16, 0x0120#16, str "Communications  "⟩] := by decide +kernel

/-! ### C53 -/

/-- The entry as the client should know it. -/
def progOf (e : Spec.ProgEntry) : Str × KnownProgram := (e.name, { name := e.name, id := BitVec.ofNat 32 e.id.toNat })

theorem blank_iff (b : Byte) : isSpaceByte b = true ↔ Spec.Blank b := by
  revert b; unfold Spec.Blank; decide +kernel

theorem trimSpace_trimmed {s : Str} (h : Spec.Trimmed s) : trimSpace s = s := by
  unfold trimSpace
  cases s with
  | nil => rfl
  | cons x xs =>
    have hx : isSpaceByte x = false := by
      have := h.1 x (by simp)
      rw [← blank_iff] at this
      simpa using this
    rw [List.dropWhile_cons_of_neg (by simp [hx])]
    cases hr : (x :: xs).reverse with
    | nil => simp at hr
    | cons y ys =>
      have hy : isSpaceByte y = false := by
        have := h.2 y (by rw [List.getLast?_eq_head?_reverse, hr]; simp)
        rw [← blank_iff] at this
        simpa using this
      rw [List.dropWhile_cons_of_neg (by simp [hy]), ← hr, List.reverse_reverse]

theorem mapPut_new {α : Type} {m : List (Str × α)} {k : Str} (v : α) (h : ∀ e ∈ m, e.1 ≠ k) :
    mapPut m k v = m ++ [(k, v)] := by
  unfold mapPut
  rw [List.filter_eq_self.mpr (by simpa using h)]

/-- The first eight bytes of an entry. -/
theorem entry_header (e : Spec.ProgEntry) (r : Bytes) (hl : e.name.length < 2 ^ 32) :
    ∃ h, readN 8 (e.bytes ++ r) = .ok (h, e.name ++ r) ∧ unle (h.drop 4) = e.name.length ∧
      unle (h.take 2) = e.id.toNat ∧ e.bytes = h ++ e.name ∧ h.length = 8 := by
  refine ⟨le 2 e.id.toNat ++ (le 2 e.pad.toNat ++ le 4 e.name.length), ?_, ?_, ?_, ?_, by simp⟩
  · have : e.bytes ++ r = (le 2 e.id.toNat ++ (le 2 e.pad.toNat ++ le 4 e.name.length)) ++ (e.name ++ r) := by
      simp [Spec.ProgEntry.bytes]
    rw [this]
    exact readN_append' (by simp)
  · rw [← List.append_assoc, List.drop_left' (by simp), unle_le]
    exact Nat.mod_eq_of_lt (by omega)
  · rw [List.take_left' (by simp), unle_le]
    have := e.id.isLt
    exact Nat.mod_eq_of_lt (by omega)
  · simp [Spec.ProgEntry.bytes]

/-- The names of the entries are as a controller has them: no blanks at the ends, no name twice, and a
length that fits its field. -/
def Spec.ProgNames (es : List Spec.ProgEntry) : Prop :=
  (es.map (·.name)).Nodup ∧ ∀ e ∈ es, Spec.Trimmed e.name ∧ e.name.length < 2 ^ 32

theorem dropWhile_blanks {a : Bytes} (h : ∀ x ∈ a, Spec.Blank x) (r : Bytes) :
    (a ++ r).dropWhile isSpaceByte = r.dropWhile isSpaceByte := by
  induction a with
  | nil => rfl
  | cons x xs ih =>
    rw [List.cons_append, List.dropWhile_cons_of_pos ((blank_iff x).mpr (h x (by simp)))]
    exact ih fun y hy => h y (by simp [hy])

/-- Trimming takes off the blanks at both ends. -/
theorem trimSpace_core {s core : Bytes} (h : Spec.CoreOf s core) : trimSpace s = core := by
  obtain ⟨a, b, rfl, ha, hb, ht⟩ := h
  have hself := trimSpace_trimmed ht
  have hb' : ∀ x ∈ b.reverse, Spec.Blank x := fun x hx => hb x (by simpa using hx)
  unfold trimSpace
  rw [dropWhile_blanks ha]
  cases core with
  | nil =>
    have := dropWhile_blanks hb []
    simp only [List.append_nil, List.dropWhile_nil] at this
    simp [this]
  | cons x xs =>
    have hx : isSpaceByte x = false := by
      have := ht.1 x (by simp)
      rw [← blank_iff] at this
      simpa using this
    rw [List.cons_append, List.dropWhile_cons_of_neg (by simp [hx]),
      ← List.cons_append, List.reverse_append, dropWhile_blanks hb']
    unfold trimSpace at hself
    rw [List.dropWhile_cons_of_neg (by simp [hx])] at hself
    exact hself

theorem core_self {s : Bytes} (h : Spec.Trimmed s) : Spec.CoreOf s s := ⟨[], [], by simp, by simp, by simp, h⟩

/-- What is known of an entry whose name without the blanks around it is given. -/
def progCore (x : Spec.ProgEntry × Bytes) : Str × KnownProgram :=
  (x.2, { name := x.2, id := BitVec.ofNat 32 x.1.id.toNat })

theorem programsLoop_cores (xs : List (Spec.ProgEntry × Bytes)) (tail : Bytes) (acc : List (Str × KnownProgram)) (f : Nat)
    (hnd : (xs.map (·.2)).Nodup) (hw : ∀ x ∈ xs, Spec.CoreOf x.1.name x.2 ∧ x.1.name.length < 2 ^ 32)
    (ha : ∀ a ∈ acc, ∀ x ∈ xs, a.1 ≠ x.2) :
    programsLoop (xs.length + f) ((xs.map fun x => x.1.bytes).flatten ++ tail) acc =
      programsLoop f tail (acc ++ xs.map progCore) := by
  induction xs generalizing acc with
  | nil => simp
  | cons x xs ih =>
    rw [List.map_cons, List.nodup_cons] at hnd
    obtain ⟨h, h1, h2, h3, -, -⟩ := entry_header x.1 ((xs.map fun x => x.1.bytes).flatten ++ tail) (hw x (by simp)).2
    rw [List.map_cons, List.flatten_cons, List.append_assoc, List.length_cons,
      show xs.length + 1 + f = (xs.length + f) + 1 by omega, programsLoop, h1]
    simp only
    rw [h2, readN_append, Res.bind_ok]
    simp only
    rw [trimSpace_core (hw x (by simp)).1, mapPut_new _ (fun a hm => ha a hm x (by simp)), h3,
      ih _ hnd.2 fun e' he' => hw e' (by simp [he'])]
    · simp [progCore]
    · intro a hm e' he'
      rcases List.mem_append.mp hm with hm | hm
      · exact ha a hm e' (by simp [he'])
      · simp at hm
        subst hm
        simp only
        intro heq
        exact hnd.1 (List.mem_map.mpr ⟨e', he', heq.symm⟩)

theorem programsLoop_entries (es : List Spec.ProgEntry) (tail : Bytes) (acc : List (Str × KnownProgram)) (f : Nat)
    (hn : Spec.ProgNames es) (ha : ∀ a ∈ acc, ∀ e ∈ es, a.1 ≠ e.name) :
    programsLoop (es.length + f) ((es.map Spec.ProgEntry.bytes).flatten ++ tail) acc =
      programsLoop f tail (acc ++ es.map progOf) := by
  have := programsLoop_cores (es.map fun e => (e, e.name)) tail acc f (by simpa [Function.comp_def] using hn.1)
    (by
      intro x hx
      obtain ⟨e, he, rfl⟩ := List.mem_map.mp hx
      exact ⟨core_self (hn.2 e he).1, (hn.2 e he).2⟩)
    (by
      intro a hm x hx
      obtain ⟨e, he, rfl⟩ := List.mem_map.mp hx
      exact ha a hm e he)
  rw [List.map_map, List.map_map, List.length_map] at this
  exact this

/-- What the client reads of a successful reply. -/
theorem generic_form (f : Spec.CForm) (svc : Byte) (hs : svc.toNat < 128) (d : Bytes) (st : BitVec 32)
    (hf : f.fits ([svc ||| 0x80#8, 0#8, 0#8, 0#8] ++ d)) :
    genericReply svc ⟨st, f.payload ([svc ||| 0x80#8, 0#8, 0#8, 0#8] ++ d)⟩ = .ok d := by
  have hr := readItems_cpf _ [] hf.1 hf.2
  rw [List.append_nil] at hr
  have h6 : readN 6 (f.payload ([svc ||| 0x80#8, 0#8, 0#8, 0#8] ++ d)) =
      .ok (le 4 f.iface.toNat ++ le 2 f.timeout.toNat, Spec.cpf (f.items ([svc ||| 0x80#8, 0#8, 0#8, 0#8] ++ d))) := by
    unfold Spec.CForm.payload
    rw [← List.append_assoc]
    exact readN_append' (by simp)
  have hi : item1 (Spec.cpf (f.items ([svc ||| 0x80#8, 0#8, 0#8, 0#8] ++ d))) =
      .ok (le 2 f.seq.toNat ++ ([svc ||| 0x80#8, 0#8, 0#8, 0#8] ++ d)) := by
    unfold item1
    rw [hr, Res.bind_ok]
    rfl
  unfold genericReply
  simp only
  rw [h6, Res.bind_ok]
  simp only
  rw [hi, Res.bind_ok, getU_le, Res.bind_ok]
  simp only
  have hg : ∀ a b : Byte, ∀ r : Bytes, getU 2 (a :: b :: r) = .ok (a.toNat + 256 * b.toNat, r) := by
    intro a b r
    simp [getU, unle]
  simp only [List.cons_append, List.nil_append]
  rw [hg, Res.bind_ok]
  simp only
  have hv : (BitVec.ofNat 8 ((svc ||| 0x80#8).toNat + 256 * (0#8).toNat)) &&& 0x7F#8 = svc := by
    have := (C50_involution svc).1 hs
    simpa [asResponse, unResponse] using this
  rw [hv, if_neg (by simp), hg, Res.bind_ok]
  simp

/-- C53: the client knows exactly the listed programs, each under its name, without the blanks around it, with its
number. -/
theorem C53_blanks (f : Spec.CForm) (st : BitVec 32) (xs : List (Spec.ProgEntry × Bytes)) (hnd : (xs.map (·.2)).Nodup)
    (hw : ∀ x ∈ xs, Spec.CoreOf x.1.name x.2 ∧ x.1.name.length < 2 ^ 32)
    (hf : f.fits ([0xD5#8, 0#8, 0#8, 0#8] ++ (xs.map fun x => x.1.bytes).flatten)) :
    listPrograms ⟨st, f.payload ([0xD5#8, 0#8, 0#8, 0#8] ++ (xs.map fun x => x.1.bytes).flatten)⟩ =
      .ok (xs.map fun x => (x.2, { name := x.2, id := BitVec.ofNat 32 x.1.id.toNat })) := by
  unfold listPrograms
  have hg := generic_form f 0x55#8 (by decide) _ st hf
  rw [show (0x55#8 ||| 0x80#8) = 0xD5#8 from rfl] at hg
  rw [hg, Res.bind_ok]
  have hlen : xs.length ≤ ((xs.map fun x => x.1.bytes).flatten).length := by
    clear hnd hw hf hg
    induction xs with
    | nil => simp
    | cons x xs ih =>
      have : 8 ≤ x.1.bytes.length := by simp [Spec.ProgEntry.bytes]; omega
      rw [List.map_cons, List.flatten_cons, List.length_append, List.length_cons]
      omega
  obtain ⟨k, hk⟩ : ∃ k, ((xs.map fun x => x.1.bytes).flatten).length + 1 = xs.length + (k + 1) :=
    ⟨((xs.map fun x => x.1.bytes).flatten).length - xs.length, by omega⟩
  rw [hk]
  have := programsLoop_cores xs [] [] (k + 1) hnd hw (by simp)
  rw [List.append_nil] at this
  rw [this]
  rfl

example : Spec.CoreOf (str " Main \t") (str "Main") := by
  refine ⟨str " ", str " \t", by decide +kernel, ?_, ?_, ?_, ?_⟩ <;> simp [str, Spec.Blank] <;> decide

/-- C53 for names as a controller has them. -/
theorem C53_complete (f : Spec.CForm) (st : BitVec 32) (es : List Spec.ProgEntry) (hn : Spec.ProgNames es)
    (hf : f.fits ([0xD5#8, 0#8, 0#8, 0#8] ++ (es.map Spec.ProgEntry.bytes).flatten)) :
    listPrograms ⟨st, f.payload ([0xD5#8, 0#8, 0#8, 0#8] ++ (es.map Spec.ProgEntry.bytes).flatten)⟩ =
      .ok (es.map progOf) := by
  have h := C53_blanks f st (es.map fun e => (e, e.name)) (by simpa [Function.comp_def] using hn.1)
    (by
      intro x hx
      obtain ⟨e, he, rfl⟩ := List.mem_map.mp hx
      exact ⟨core_self (hn.2 e he).1, (hn.2 e he).2⟩)
    (by rw [List.map_map]; exact hf)
  rw [List.map_map, List.map_map] at h
  exact h

theorem programs_cut (f : Spec.CForm) (st : BitVec 32) (es : List Spec.ProgEntry) (cut : Bytes)
    (hn : Spec.ProgNames es)
    (hf : f.fits ([0xD5#8, 0#8, 0#8, 0#8] ++ ((es.map Spec.ProgEntry.bytes).flatten ++ cut))) :
    ∃ k, listPrograms ⟨st, f.payload ([0xD5#8, 0#8, 0#8, 0#8] ++
        ((es.map Spec.ProgEntry.bytes).flatten ++ cut))⟩ = programsLoop (k + 1) cut (es.map progOf) := by
  unfold listPrograms
  have hg := generic_form f 0x55#8 (by decide) _ st hf
  rw [show (0x55#8 ||| 0x80#8) = 0xD5#8 from rfl] at hg
  rw [hg, Res.bind_ok]
  have hlen : es.length ≤ ((es.map Spec.ProgEntry.bytes).flatten).length := by
    clear hn hf hg
    induction es with
    | nil => simp
    | cons e es ih =>
      have : 8 ≤ e.bytes.length := by simp [Spec.ProgEntry.bytes]; omega
      rw [List.map_cons, List.flatten_cons, List.length_append, List.length_cons]
      omega
  refine ⟨((es.map Spec.ProgEntry.bytes).flatten ++ cut).length - es.length, ?_⟩
  rw [show ((es.map Spec.ProgEntry.bytes).flatten ++ cut).length + 1 =
    es.length + (((es.map Spec.ProgEntry.bytes).flatten ++ cut).length - es.length + 1) by
      rw [List.length_append]; omega, programsLoop_entries es cut [] _ hn (by simp)]
  rfl

/-- C53, a reply cut in the name of an entry is an error. -/
theorem C53_cut_name (f : Spec.CForm) (st : BitVec 32) (es : List Spec.ProgEntry) (e : Spec.ProgEntry) (n : Nat)
    (hn : Spec.ProgNames es) (he : e.name.length < 2 ^ 32) (h8 : 8 ≤ n) (hc : n < e.bytes.length)
    (hf : f.fits ([0xD5#8, 0#8, 0#8, 0#8] ++ ((es.map Spec.ProgEntry.bytes).flatten ++ e.bytes.take n))) :
    ∃ er, listPrograms ⟨st, f.payload ([0xD5#8, 0#8, 0#8, 0#8] ++
        ((es.map Spec.ProgEntry.bytes).flatten ++ e.bytes.take n))⟩ = .err er := by
  obtain ⟨k, hk⟩ := programs_cut f st es (e.bytes.take n) hn hf
  rw [hk]
  obtain ⟨h, h1, h2, h3, h4, h5⟩ := entry_header e [] he
  have ht : e.bytes.take n = h ++ e.name.take (n - 8) := by
    rw [h4, List.take_append, h5, List.take_of_length_le (by omega)]
  have hlt : (e.name.take (n - 8)).length < e.name.length := by
    rw [h4, List.length_append, h5] at hc
    simp; omega
  rw [ht, programsLoop, readN_append' h5]
  simp only
  rw [h2]
  unfold readN
  rw [if_neg (by omega), if_pos hlt]
  split
  · exact ⟨_, rfl⟩
  · exact ⟨_, rfl⟩

/-- C53 is false for a reply cut inside the header of an entry: it is accepted as complete. -/
theorem C53_cut_header_accepted (f : Spec.CForm) (st : BitVec 32) (es : List Spec.ProgEntry) (e : Spec.ProgEntry)
    (n : Nat) (hn : Spec.ProgNames es) (h8 : n < 8)
    (hf : f.fits ([0xD5#8, 0#8, 0#8, 0#8] ++ ((es.map Spec.ProgEntry.bytes).flatten ++ e.bytes.take n))) :
    listPrograms ⟨st, f.payload ([0xD5#8, 0#8, 0#8, 0#8] ++
        ((es.map Spec.ProgEntry.bytes).flatten ++ e.bytes.take n))⟩ = .ok (es.map progOf) := by
  obtain ⟨k, hk⟩ := programs_cut f st es (e.bytes.take n) hn hf
  rw [hk, programsLoop]
  have hl : (e.bytes.take n).length < 8 := by simp; omega
  unfold readN
  rw [if_neg (by decide)]
  by_cases h0 : e.bytes.take n = []
  · rw [if_pos h0]
  · rw [if_neg h0, if_pos hl]

/-- A controller that marks its list as incomplete is not believed to have sent all of it. -/
theorem C53_partial_status (r : Reply) (status : Byte) (h : Spec.CarriesStatus r status) (hs : status ≠ 0#8) :
    ∃ e, listPrograms r = .err e := by
  have hg := C25_generic 0x55#8 r status h hs
  cases hr : genericReply 0x55#8 r with
  | err e => exact ⟨e, by unfold listPrograms; rw [hr]; rfl⟩
  | ok d => rw [hr] at hg; simp [Res.isErr] at hg
  | panic => rw [hr] at hg; simp [Res.isErr] at hg

example : listPrograms ⟨0, (⟨0, 0, (0xA1, [1, 2, 3, 4]), 0xB1, 7, []⟩ : Spec.CForm).payload
    ([0xD5#8, 0#8, 0#8, 0#8] ++ ([⟨0x101#16, 0, str "Main"⟩, ⟨7#16, 0, str "Aux"⟩] : List Spec.ProgEntry).flatMap
      Spec.ProgEntry.bytes)⟩ = .ok [(str "Main", ⟨str "Main", 0x101⟩), (str "Aux", ⟨str "Aux", 7⟩)] := by
  decide +kernel

end Gologix
