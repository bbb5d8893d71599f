import Verif.Lemmas.Wire
/-
C01 Encapsulation frames survive the wire
C02 Back-to-back frames never bleed into each other
C03 CIP item lists round-trip
C04 Parsing an item list from hostile bytes is safe and exact
-/
namespace Gologix

/-! ### C01 -/

/-- C01, what is sent: the frame is the published layout (the 16-bit length field of the layout is
the payload size modulo 65536, see `C01_frame_any_size`). -/
theorem C01_frame_layout (c : FrameCtx) (cmd : BitVec 16) (parts : List Bytes) :
    sendMsgBuild c cmd parts = Spec.frame cmd c.session c.context parts.flatten := by
  rw [sendMsgBuild_eq]
  generalize parts.flatten = p
  simp only [EipHeader.encode, newEIPHeader, Spec.frame, putBV_ofNat16, List.append_assoc]
  rfl

/-- C01, what is received: same command, session and context, the concatenated payload, and the rest
of the stream untouched. -/
theorem C01_frame_roundtrip (c : FrameCtx) (cmd : BitVec 16) (parts : List Bytes) (rest : Bytes)
    (h : parts.flatten.length < 65536) :
    ∃ hdr, recvData (sendMsgBuild c cmd parts ++ rest) = .ok (hdr, parts.flatten, rest) ∧
      hdr.command = cmd ∧ hdr.session = c.session ∧ hdr.context = c.context ∧ hdr.status = 0 ∧
      hdr.options = 0 ∧ hdr.length.toNat = parts.flatten.length := by
  refine ⟨newEIPHeader c cmd parts.flatten.length, ?_, rfl, rfl, rfl, rfl, rfl, ?_⟩
  · rw [sendMsgBuild_eq, List.append_assoc]
    simp only [recvData, readEIPHeader_encode, Res.bind_ok]
    have hlen : (newEIPHeader c cmd parts.flatten.length).length.toNat = parts.flatten.length := by
      simp only [newEIPHeader, BitVec.toNat_ofNat]; omega
    rw [hlen]
    split
    · rw [readN_append]; rfl
    · have : parts.flatten = [] := List.eq_nil_of_length_eq_zero (by omega)
      simp [this]
  · simp only [newEIPHeader, BitVec.toNat_ofNat]; omega

example : recvData (sendMsgBuild ⟨7, 9⟩ 0x70 [[1, 2], [], [3]] ++ [0xAA]) =
    .ok (newEIPHeader ⟨7, 9⟩ 0x70 3, [1, 2, 3], [0xAA]) := by decide

/-- C01, the limit of the format: for a payload of any size what is received is the first
`size mod 65536` bytes, and the excess is left in the stream where the next header is expected. -/
theorem C01_frame_any_size (c : FrameCtx) (cmd : BitVec 16) (parts : List Bytes) (rest : Bytes) :
    ∃ hdr, recvData (sendMsgBuild c cmd parts ++ rest) =
      .ok (hdr, parts.flatten.take (parts.flatten.length % 65536),
        parts.flatten.drop (parts.flatten.length % 65536) ++ rest) := by
  refine ⟨newEIPHeader c cmd parts.flatten.length, ?_⟩
  rw [sendMsgBuild_eq, List.append_assoc]
  generalize parts.flatten = p
  simp only [recvData, readEIPHeader_encode, Res.bind_ok]
  have hlen : (newEIPHeader c cmd p.length).length.toNat =
      p.length % 65536 := by
    simp only [newEIPHeader, BitVec.toNat_ofNat]
  rw [hlen]
  have hle : p.length % 65536 ≤ p.length := Nat.mod_le _ _
  split
  · have h1 : (p.take (p.length % 65536)).length =
        p.length % 65536 := by
      rw [List.length_take]; omega
    have h2 : p ++ rest = p.take (p.length % 65536) ++ (p.drop (p.length % 65536) ++ rest) := by
      rw [← List.append_assoc, List.take_append_drop]
    rw [h2]
    rw [show readN (p.length % 65536) _ = _ from readN_append' h1]
    rfl
  · have : p.length % 65536 = 0 := by omega
    simp [this]

/-- C01, the socket may take the bytes of a frame in pieces of any size: what has gone out is always
a prefix of the frame, and all of it when the send loop reports success. -/
theorem C01_send_loop (b : Bytes) (accept : List Nat) :
    (sendLoop b accept).1 <+: b ∧ ((sendLoop b accept).2 = true → (sendLoop b accept).1 = b) := by
  induction accept generalizing b with
  | nil => cases b <;> simp [sendLoop]
  | cons n ns ih =>
    cases b with
    | nil => simp [sendLoop]
    | cons x xs =>
      simp only [sendLoop]
      obtain ⟨⟨t, ht⟩, h2⟩ := ih ((x :: xs).drop n)
      constructor
      · refine ⟨t, ?_⟩
        rw [List.append_assoc, ht, List.take_append_drop]
      · intro h
        rw [h2 h, List.take_append_drop]

example : sendLoop [1, 2, 3, 4, 5] [2, 0, 3] = ([1, 2, 3, 4, 5], true) := by decide
example : sendLoop [1, 2, 3, 4, 5] [2, 1] = ([1, 2, 3], false) := by decide

/-! ### C02 -/

/-- Read `n` frames one after another with `recvData`, keeping what a user sees of each. -/
def recvMany : Nat → Bytes → Res (List Spec.Msg × Bytes)
  | 0, src => .ok ([], src)
  | n + 1, src => do
    let (hdr, payload, src) ← recvData src
    let (ms, src) ← recvMany n src
    .ok (⟨hdr.command, hdr.session, hdr.context, payload⟩ :: ms, src)

/-- C02: a stream of frames is read back as the messages, in order, with nothing left over. -/
theorem C02_frames_in_order (ms : List Spec.Msg) (hfit : ∀ m ∈ ms, m.payload.length < 65536) :
    recvMany ms.length
      ((ms.map fun m => sendMsgBuild ⟨m.session, m.context⟩ m.cmd [m.payload]).flatten) =
      .ok (ms, []) := by
  induction ms with
  | nil => rfl
  | cons m ms ih =>
    have hm : [m.payload].flatten.length < 65536 := by simpa using hfit m (by simp)
    obtain ⟨hdr, h1, h2, h3, h4, -⟩ :=
      C01_frame_roundtrip ⟨m.session, m.context⟩ m.cmd [m.payload]
        ((ms.map fun m => sendMsgBuild ⟨m.session, m.context⟩ m.cmd [m.payload]).flatten) hm
    simp only [List.length_cons, recvMany, List.map_cons, List.flatten_cons]
    rw [h1]
    simp [ih (fun m hm => hfit m (by simp [hm])), h2, h3, h4]

example : ∀ m ∈ [(⟨0x70, 1, 2, [1, 2, 3]⟩ : Spec.Msg), ⟨0x6F, 1, 2, []⟩, ⟨0x65, 0, 5, [9]⟩],
    m.payload.length < 65536 := by decide

/-! ### C03 -/

/-- Build an item the way callers do: `newItem` followed by writes. -/
def buildItem (id : BitVec 16) (writes : List Bytes) : Item := writes.foldl Item.write (Item.new id)

theorem buildItem_spec (id : BitVec 16) (writes : List Bytes) :
    (buildItem id writes).id = id ∧ (buildItem id writes).data = writes.flatten ∧
      (buildItem id writes).length = BitVec.ofNat 16 writes.flatten.length ∧
      (buildItem id writes).pos = 0 := by
  suffices h : ∀ it : Item, it.length = BitVec.ofNat 16 it.data.length →
      let r := writes.foldl Item.write it
      r.id = it.id ∧ r.data = it.data ++ writes.flatten ∧
        r.length = BitVec.ofNat 16 (it.data ++ writes.flatten).length ∧ r.pos = it.pos by
    simpa [Item.new, buildItem] using h (Item.new id) (by simp [Item.new])
  induction writes with
  | nil => intro it h; simp [h]
  | cons w ws ih =>
    intro it h
    have := ih (it.write w) (by simp [Item.write])
    simp only [List.foldl_cons]
    obtain ⟨a, b, c, d⟩ := this
    refine ⟨a, ?_, ?_, d⟩
    · rw [b]; simp [Item.write]
    · rw [c]; simp [Item.write]

/-- C03, layout: the item list on the wire is the published layout after the six reserved bytes. -/
theorem C03_items_layout (xs : List (BitVec 16 × List Bytes)) :
    serializeItems (xs.map fun x => buildItem x.1 x.2) =
      [0, 0, 0, 0, 0, 0] ++ Spec.cpf (xs.map fun x => (x.1, x.2.flatten)) := by
  unfold serializeItems
  rw [foldl_append_map Item.bytes]
  have hb : ∀ x ∈ xs, (buildItem x.1 x.2).bytes = Spec.item x.1 x.2.flatten := by
    intro x hx
    obtain ⟨h1, h2, h3, -⟩ := buildItem_spec x.1 x.2
    unfold Item.bytes Spec.item
    rw [h1, h2, h3]
    rw [putBV_ofNat16, List.append_assoc]
    rfl
  have hmap : List.map Item.bytes (xs.map fun x => buildItem x.1 x.2) =
      (xs.map fun x => (x.1, x.2.flatten)).map fun i => Spec.item i.1 i.2 := by
    simp only [List.map_map]
    apply List.map_congr_left
    intro x hx
    exact hb x hx
  rw [hmap]
  simp [Spec.cpf, putBV_ofNat16]
  rfl

/-- C03: parsing after the reserved bytes gives the items back, in order, cursor at 0. -/
theorem C03_items_roundtrip (xs : List (BitVec 16 × List Bytes)) (rest : Bytes)
    (hn : xs.length < 65536) (hd : ∀ x ∈ xs, x.2.flatten.length < 65536) :
    ∃ items, readItems ((serializeItems (xs.map fun x => buildItem x.1 x.2)).drop 6 ++ rest) =
        .ok (items, rest) ∧
      items.map (fun it => (it.id, it.data, it.pos)) =
        xs.map (fun x => (x.1, x.2.flatten, 0)) := by
  refine ⟨(xs.map fun x => buildItem x.1 x.2).map fun it => { it with pos := 0 }, ?_, ?_⟩
  · unfold serializeItems
    rw [foldl_append_map Item.bytes]
    have hl : (putBV (0 : BitVec 32) ++ putBV (0 : BitVec 16)).length = 6 := by simp
    rw [List.append_assoc (putBV (0 : BitVec 32) ++ putBV (0 : BitVec 16)), List.drop_left' hl]
    unfold readItems
    rw [List.append_assoc, readU16]
    have hc : (BitVec.ofNat 16 (xs.map fun x => buildItem x.1 x.2).length).toNat =
        (xs.map fun x => buildItem x.1 x.2).length := by
      simp; omega
    simp only [Res.bind_ok, hc]
    apply readItemsN_bytes
    intro it hit
    simp only [List.mem_map] at hit
    obtain ⟨x, hx, rfl⟩ := hit
    obtain ⟨-, h2, h3, -⟩ := buildItem_spec x.1 x.2
    rw [h2, h3]
    exact ⟨rfl, hd x hx⟩
  · simp only [List.map_map]
    apply List.map_congr_left
    intro x _
    obtain ⟨h1, h2, -, -⟩ := buildItem_spec x.1 x.2
    simp [h1, h2]

example : readItems ((serializeItems [buildItem 0xA1 [[1, 2, 3, 4]], buildItem 0xB1 [[5], [6, 7]]]).drop 6
      ++ [8]) = .ok ([⟨0xA1, 4, [1, 2, 3, 4], 0⟩, ⟨0xB1, 3, [5, 6, 7], 0⟩], [8]) := by decide

/-! ### C04 -/

/-- C04: on arbitrary bytes the parser never panics, and when it succeeds the input is exactly the
layout of the returned items followed by the unread rest. -/
theorem C04_items_hostile (src : Bytes) :
    (readItems src).safe ∧
    ∀ items rest, readItems src = .ok (items, rest) →
      src = Spec.cpf (items.map fun it => (it.id, it.data)) ++ rest ∧
      items.length < 65536 ∧ ∀ it ∈ items, it.pos = 0 ∧ it.length.toNat = it.data.length := by
  refine ⟨readItems_safe src, ?_⟩
  intro items rest h
  unfold readItems at h
  rw [Res.bind_eq_ok] at h
  obtain ⟨⟨cnt, s1⟩, h1, h2⟩ := h
  have hs := readBV_ok (by decide) h1
  obtain ⟨hl, hi, hb⟩ := readItemsN_ok h2
  subst hs hb
  have hcl : cnt.toNat < 65536 := cnt.isLt
  refine ⟨?_, by omega, hi⟩
  have hmap : items.map Item.bytes = (items.map fun it => (it.id, it.data)).map
      (fun i => Spec.item i.1 i.2) := by
    simp only [List.map_map]
    apply List.map_congr_left
    intro it hit
    simp [Item.bytes, Spec.item, putBV, (hi it hit).2]
  rw [hmap]
  simp [Spec.cpf, putBV, hl]

/-- Both outcomes of C04 occur. -/
example : readItems [1, 0, 0xB2, 0, 2, 0, 7, 8, 9] = .ok ([⟨0xB2, 2, [7, 8], 0⟩], [9]) := by decide
example : readItems [1, 0, 0xB2, 0, 2, 0, 7] = .err .unexpectedEof := by decide

/-- C04, reading on inside an item: the typed getters of `k ≥ 1` bytes return the next `k` bytes as a number if there
are that many, and fail without moving otherwise. -/
theorem C04_getters (it : Item) (k : Nat) (hk : 1 ≤ k) (before after : Bytes) (hd : it.data = before ++ after)
    (hp : it.pos = before.length) :
    (∀ b rest, after = b ++ rest → b.length = k → it.getUint k = (.ok (unle b), { it with pos := it.pos + k })) ∧
    (after.length < k → it.getUint k = (.err .fail, it)) := by
  unfold Item.getUint
  constructor
  · rintro b rest rfl rfl
    rw [if_neg (by simp [hd, hp]; omega), hd, hp, List.drop_left, List.take_left]
  · intro h
    rw [if_pos (by simp [hd, hp]; omega)]

/-- C04, reading bytes inside an item: the next `n` bytes if there are that many, otherwise an error. -/
theorem C04_item_read (it : Item) (n : Nat) (before after : Bytes) (hd : it.data = before ++ after)
    (hp : it.pos = before.length) :
    (∀ b rest, after = b ++ rest → b.length = n → it.read n = (.ok b, { it with pos := it.pos + n })) ∧
    (after.length < n → (it.read n).1.isErr = true ∧ (it.read n).2.pos = it.data.length) ∧
    it.rest = .ok after := by
  unfold Item.read Item.rest
  rw [hd, hp, List.drop_left]
  refine ⟨?_, ?_, by simp⟩
  · rintro b rest rfl hb
    rw [readN_append' hb]
  · intro h
    have h0 : n ≠ 0 := by omega
    by_cases ha : after = []
    · subst ha; simp [readN, h0, Res.isErr]
    · simp [readN, h0, ha, h, Res.isErr]

example : ({ id := 0, length := 3, data := [1, 2, 3], pos := 1 } : Item).getUint 2 =
    (.ok 0x0302, { id := 0, length := 3, data := [1, 2, 3], pos := 3 }) ∧
    ({ id := 0, length := 3, data := [1, 2, 3], pos := 2 } : Item).getUint 2 =
      (.err .fail, { id := 0, length := 3, data := [1, 2, 3], pos := 2 }) := by decide

end Gologix
