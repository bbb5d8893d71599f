import Verif.Model.Frame
import Verif.Model.Items
import Verif.Spec.Wire
namespace Gologix

theorem foldl_append (xs : List Bytes) (acc : Bytes) :
    xs.foldl (· ++ ·) acc = acc ++ xs.flatten := by
  induction xs generalizing acc with
  | nil => simp
  | cons x xs ih => simp [ih]

theorem foldl_append_map {α : Type} (f : α → Bytes) (xs : List α) (acc : Bytes) :
    xs.foldl (fun b x => b ++ f x) acc = acc ++ (xs.map f).flatten := by
  induction xs generalizing acc with
  | nil => simp
  | cons x xs ih => simp [ih]

theorem encode_length (h : EipHeader) : h.encode.length = 24 := by
  simp [EipHeader.encode]

theorem readEIPHeader_encode (h : EipHeader) (rest : Bytes) :
    readEIPHeader (h.encode ++ rest) = .ok (h, rest) := by
  unfold readEIPHeader
  rw [readN_append' (encode_length h)]
  have h32 : readBV 32 (putBV h.options) = .ok (h.options, []) := by
    simpa using readU32 h.options []
  simp [EipHeader.encode, List.append_assoc, h32]

theorem sendMsgBuild_eq (c : FrameCtx) (cmd : BitVec 16) (parts : List Bytes) :
    sendMsgBuild c cmd parts =
      (newEIPHeader c cmd parts.flatten.length).encode ++ parts.flatten := by
  simp [sendMsgBuild, foldl_append, List.length_flatten]

theorem readItem_bytes (it : Item) (rest : Bytes) (hl : it.length = BitVec.ofNat 16 it.data.length)
    (h : it.data.length < 65536) :
    readItem (it.bytes ++ rest) = .ok ({ it with pos := 0 }, rest) := by
  have h1 : (putBV it.id ++ putBV it.length).length = 4 := by simp
  have h2 : it.length.toNat = it.data.length := by
    rw [hl]; simp; omega
  have h16 : readBV 16 (putBV it.length) = .ok (it.length, []) := by
    simpa using readU16 it.length []
  unfold readItem Item.bytes
  rw [List.append_assoc (putBV it.id ++ putBV it.length), readN_append' h1]
  simp [h16, h2, readN_append]

theorem readItem_ok {src rest : Bytes} {it : Item} (h : readItem src = .ok (it, rest)) :
    it.pos = 0 ∧ it.length.toNat = it.data.length ∧ src = it.bytes ++ rest := by
  unfold readItem at h
  simp only [Res.bind_eq_ok] at h
  obtain ⟨⟨hdr, r1⟩, h1, ⟨id, r2⟩, h2, ⟨len, r3⟩, h3, ⟨dat, r4⟩, h4, h5⟩ := h
  simp at h5
  obtain ⟨rfl, rfl⟩ := h5
  obtain ⟨hl1, rfl⟩ := readN_ok h1
  have h2' := readBV_ok (by decide) h2
  have h3' := readBV_ok (by decide) h3
  obtain ⟨hl4, rfl⟩ := readN_ok h4
  subst h2' h3'
  simp at hl1
  have : r3 = [] := List.eq_nil_of_length_eq_zero (by omega)
  simp [Item.bytes, hl4, this]

theorem readItemsN_bytes (items : List Item) (rest : Bytes)
    (h : ∀ it ∈ items, it.length = BitVec.ofNat 16 it.data.length ∧ it.data.length < 65536) :
    readItemsN items.length ((items.map Item.bytes).flatten ++ rest) =
      .ok (items.map fun it => { it with pos := 0 }, rest) := by
  induction items with
  | nil => simp [readItemsN]
  | cons it its ih =>
    have h1 := h it (by simp)
    simp only [List.length_cons, readItemsN, List.map_cons, List.flatten_cons, List.append_assoc]
    rw [readItem_bytes it _ h1.1 h1.2]
    simp [ih (fun i hi => h i (by simp [hi]))]

theorem readItemsN_ok {n : Nat} {src rest : Bytes} {items : List Item}
    (h : readItemsN n src = .ok (items, rest)) :
    items.length = n ∧ (∀ it ∈ items, it.pos = 0 ∧ it.length.toNat = it.data.length) ∧
      src = (items.map Item.bytes).flatten ++ rest := by
  induction n generalizing src items with
  | zero =>
    simp [readItemsN] at h
    obtain ⟨rfl, rfl⟩ := h
    simp
  | succ n ih =>
    simp only [readItemsN, Res.bind_eq_ok] at h
    obtain ⟨⟨it, s1⟩, h1, ⟨its, s2⟩, h2, h3⟩ := h
    simp at h3
    obtain ⟨rfl, rfl⟩ := h3
    obtain ⟨a, b, c⟩ := readItem_ok h1
    obtain ⟨d, e, f⟩ := ih h2
    subst c f
    simp [d, a, b]
    exact e

theorem readItem_safe (src : Bytes) : (readItem src).safe := by
  unfold readItem
  refine Res.safe_bind (readN_safe _ _) fun _ _ => ?_
  refine Res.safe_bind (readBV_safe _ _) fun _ _ => ?_
  refine Res.safe_bind (readBV_safe _ _) fun _ _ => ?_
  exact Res.safe_bind (readN_safe _ _) fun _ _ => trivial

theorem readItemsN_safe (n : Nat) (src : Bytes) : (readItemsN n src).safe := by
  induction n generalizing src with
  | zero => trivial
  | succ n ih =>
    simp only [readItemsN]
    refine Res.safe_bind (readItem_safe _) fun _ _ => ?_
    exact Res.safe_bind (ih _) fun _ _ => trivial

theorem readItems_safe (src : Bytes) : (readItems src).safe := by
  unfold readItems
  exact Res.safe_bind (readBV_safe _ _) fun _ _ => readItemsN_safe _ _

end Gologix
