import Verif.Model.UdtSize
import Verif.Spec.UdtSize
/-
C89 The size computed for a structure is what its members occupy
-/
set_option linter.unusedSimpArgs false
namespace Gologix.UdtSize

theorem sizeLoop_ge (s : BitVec 32) (ms : List MemberInfo) :
    s.toNat ≤ (sizeLoop s ms).toNat ∧ ∀ m ∈ ms, m.stop.toNat ≤ (sizeLoop s ms).toNat := by
  induction ms generalizing s with
  | nil => simp [sizeLoop]
  | cons m ms ih =>
    simp only [sizeLoop]
    have h := ih (if s.toNat < m.stop.toNat then m.stop else s)
    have hle : s.toNat ≤ (if s.toNat < m.stop.toNat then m.stop else s).toNat ∧
        m.stop.toNat ≤ (if s.toNat < m.stop.toNat then m.stop else s).toNat := by
      split <;> omega
    refine ⟨Nat.le_trans hle.1 h.1, ?_⟩
    intro m' hm'
    rcases List.mem_cons.mp hm' with rfl | hm'
    · exact Nat.le_trans hle.2 h.1
    · exact h.2 m' hm'

theorem sizeLoop_mem (s : BitVec 32) (ms : List MemberInfo) :
    sizeLoop s ms = s ∨ ∃ m ∈ ms, sizeLoop s ms = m.stop := by
  induction ms generalizing s with
  | nil => exact .inl rfl
  | cons m ms ih =>
    simp only [sizeLoop]
    rcases ih (if s.toNat < m.stop.toNat then m.stop else s) with h | ⟨m', hm', h⟩
    · rw [h]
      split
      · exact .inr ⟨m, List.mem_cons_self, rfl⟩
      · exact .inl rfl
    · exact .inr ⟨m', List.mem_cons_of_mem _ hm', h⟩

theorem cipSize_atom (c : Byte) (k : Nat) (h : Spec.atomSize c.toNat = some k) : cipSize c = k := by
  have : ∀ c : Byte, Spec.atomSize c.toNat = none ∨ Spec.atomSize c.toNat = some (cipSize c) := by decide +kernel
  rcases this c with h' | h'
  · rw [h'] at h
    simp at h
  · rw [h'] at h
    exact Option.some.inj h

theorem atom_le (n k : Nat) (h : Spec.atomSize n = some k) : k ≤ 8 := by
  unfold Spec.atomSize at h
  split at h <;> simp_all <;> omega

theorem cipType_toNat (m : MemberInfo) : m.cipType.toNat = m.type.toNat % 256 := by
  simp [MemberInfo.cipType, BitVec.toNat_setWidth]

theorem stop_atom (m : MemberInfo) (k : Nat) (h : Spec.atomSize (m.type.toNat % 256) = some k)
    (hfit : m.offset.toNat + k < 2 ^ 32) : m.stop.toNat = m.offset.toNat + k := by
  have hk := cipSize_atom m.cipType k (by rw [cipType_toNat]; exact h)
  simp only [MemberInfo.stop, hk, BitVec.toNat_add, BitVec.toNat_ofNat]
  rw [Nat.mod_eq_of_lt (a := k) (by omega), Nat.mod_eq_of_lt hfit]

theorem occupies_atomic (m : MemberInfo) (k : Nat) (h : Spec.Atomic m k) {sub : Option Udt} {k' : Nat}
    (ho : Spec.Occupies m sub k') : k' = k := by
  cases ho with
  | atomic h' =>
    have := h'.2
    rw [h.2] at this
    exact (Option.some.inj this).symm
  | array h' =>
    have := h'.1
    have := h.1
    omega
  | struct h' _ =>
    have h1 := h'.1
    have h2 := h.1
    simp only [Spec.bitSet] at h1
    omega
  | structs h' _ =>
    have h1 := h'.1
    have h2 := h.1
    simp only [Spec.bitSet] at h1
    omega

/-- C89 for structures whose members are single elementary values: `Size` is the size of what they occupy.  Padding at
the end is not counted. -/
theorem C89_atomic_partial (u : Udt)
    (h : ∀ m ∈ u.members, m.2.2 = none ∧ ∃ k, Spec.Atomic m.2.1 k ∧ m.2.1.offset.toNat + k < 2 ^ 32) :
    Spec.IsExtent u u.size := by
  have hstop : ∀ m ∈ u.members, ∀ k, Spec.Occupies m.2.1 m.2.2 k → m.2.1.stop.toNat = m.2.1.offset.toNat + k := by
    intro m hm k hk
    obtain ⟨-, k', hk', hfit⟩ := h m hm
    have he := occupies_atomic _ _ hk' hk
    subst he
    refine stop_atom _ _ ?_ hfit
    rw [Nat.mod_eq_of_lt hk'.1]
    exact hk'.2
  constructor
  · intro m hm k hk
    rw [← hstop m hm k hk]
    exact (sizeLoop_ge 0#32 _).2 m.2.1 (List.mem_map.mpr ⟨m, hm, rfl⟩)
  · intro n' hn'
    rcases sizeLoop_mem 0#32 (u.members.map fun m => m.2.1) with he | ⟨mi, hmi, he⟩
    · simp [Udt.size, he]
    · obtain ⟨m, hm, rfl⟩ := List.mem_map.mp hmi
      obtain ⟨hnone, k, hk, -⟩ := h m hm
      have ho : Spec.Occupies m.2.1 m.2.2 k := by
        rw [hnone]
        exact .atomic hk
      have := hn' m hm k ho
      rw [← hstop m hm k ho] at this
      simp only [Udt.size, he]
      exact this

/-- C89 when members may be arrays or structures but what counts for each of them does not go beyond its place, and the
member that ends last is a single elementary value, as the comment on the function supposes. -/
theorem C89_last_atomic_partial (u : Udt) (last : Str × MemberInfo × Option Udt) (hl : last ∈ u.members)
    (hnone : last.2.2 = none) (k : Nat) (hk : Spec.Atomic last.2.1 k) (hfit : last.2.1.offset.toNat + k < 2 ^ 32)
    (hend : Spec.Within u (last.2.1.offset.toNat + k))
    (hcount : ∀ m ∈ u.members, m.2.1.offset.toNat + cipSize m.2.1.cipType ≤ last.2.1.offset.toNat + k) :
    Spec.IsExtent u u.size := by
  have hs : last.2.1.stop.toNat = last.2.1.offset.toNat + k :=
    stop_atom _ _ (by rw [Nat.mod_eq_of_lt hk.1]; exact hk.2) hfit
  have hge := (sizeLoop_ge 0#32 (u.members.map fun m => m.2.1)).2 last.2.1 (List.mem_map.mpr ⟨last, hl, rfl⟩)
  have hle : (sizeLoop 0#32 (u.members.map fun m => m.2.1)).toNat ≤ last.2.1.offset.toNat + k := by
    rcases sizeLoop_mem 0#32 (u.members.map fun m => m.2.1) with he | ⟨mi, hmi, he⟩
    · rw [he]; simp
    · obtain ⟨m, hm, rfl⟩ := List.mem_map.mp hmi
      rw [he]
      refine Nat.le_trans ?_ (hcount m hm)
      simp only [MemberInfo.stop, BitVec.toNat_add, BitVec.toNat_ofNat]
      refine Nat.le_trans (Nat.mod_le _ _) ?_
      exact Nat.add_le_add_left (Nat.mod_le _ _) _
  have heq : u.size = last.2.1.offset.toNat + k := by
    simp only [Udt.size]
    omega
  rw [heq]
  refine ⟨hend, fun n' hn' => ?_⟩
  exact hn' last hl k (by rw [hnone]; exact .atomic hk)

/-- C89 is false for arrays: of an array at the end only the first value counts. -/
theorem C89_array_cut (inst : BitVec 32) (name mem : Str) (info : TemplateInfo) (m : MemberInfo) (k : Nat)
    (hm : Spec.AtomicArray m k) (hn : 2 ≤ m.info.toNat) (hfit : m.offset.toNat + m.info.toNat * k < 2 ^ 32) :
    (Udt.mk inst name info [(mem, m, none)]).size = m.offset.toNat + k ∧
      ¬ Spec.IsExtent (Udt.mk inst name info [(mem, m, none)]) (m.offset.toNat + k) := by
  have hk0 : 1 ≤ k := by
    have h := hm.2
    unfold Spec.atomSize at h
    split at h <;> simp_all <;> omega
  have hmul : k + k ≤ m.info.toNat * k := by
    have := Nat.mul_le_mul_right k hn
    omega
  have hs : m.stop.toNat = m.offset.toNat + k := stop_atom _ _ hm.2 (by omega)
  constructor
  · simp only [Udt.size, Udt.members, List.map_cons, List.map_nil, sizeLoop]
    rw [if_pos (by simp; omega)]
    exact hs
  · intro h
    have := h.1 (mem, m, none) (by simp [Udt.members]) _ (.array hm)
    simp only at this
    omega

/-- C89 is false for structures within structures: the size that counts is the one of the elementary type whose code is
the low byte of the template number, whatever the size of the structure. -/
theorem C89_nested_by_number (inst : BitVec 32) (name mem : Str) (info : TemplateInfo) (m : MemberInfo) (sub : Udt)
    (h0 : m.offset = 0#32) (c : Byte) (hm : m.cipType = c) :
    (Udt.mk inst name info [(mem, m, some sub)]).size = cipSize c := by
  have hc : cipSize c < 2 ^ 32 := by
    have : ∀ c : Byte, cipSize c < 2 ^ 32 := by decide +kernel
    exact this c
  have hs : m.stop.toNat = cipSize c := by
    simp only [MemberInfo.stop, h0, hm, BitVec.zero_add, BitVec.toNat_ofNat]
    exact Nat.mod_eq_of_lt hc
  simp only [Udt.size, Udt.members, List.map_cons, List.map_nil, sizeLoop]
  split
  · exact hs
  · rename_i hlt
    simp only [BitVec.toNat_zero] at hlt ⊢
    simp at hlt ⊢
    omega

/-- What the comment on the function supposes is false: the last member is a single elementary value, but the structure
of four bytes before it has template number 0xA0, for which 88 bytes count. -/
def numbered : Udt :=
  .mk 5#32 [] ⟨0#32, 8#32, 2#16, 0#16⟩ [
    ([0x61#8], ⟨0#16, 0x80A0#16, 0#32⟩, some (.mk 0xA0#32 [] ⟨0#32, 4#32, 1#16, 0#16⟩ [([0x78#8], ⟨0#16, 0xC4#16, 0#32⟩, none)])),
    ([0x62#8], ⟨0#16, 0xC4#16, 4#32⟩, none)]

theorem C89_comment_wrong : numbered.size = 88 ∧ Spec.IsExtent numbered 8 := by
  refine ⟨by decide +kernel, ?_, ?_⟩
  · intro m hm k hk
    simp only [numbered, Udt.members, List.mem_cons, List.not_mem_nil, or_false] at hm
    rcases hm with rfl | rfl
    · cases hk with
      | struct h1 h2 => simp [Udt.info]
      | structs h1 h2 => simp [Spec.bitSet] at h2
    · have := occupies_atomic _ 4 ⟨by decide, by decide⟩ hk
      simp [this]
  · intro n' hn'
    exact hn' ([0x62#8], ⟨0#16, 0xC4#16, 4#32⟩, none) (by simp [numbered, Udt.members]) 4 (.atomic ⟨by decide, by decide⟩)

/-- C89: the padding the template counts (`info.bytes`, which the client has) is left out. -/
def padded : Udt :=
  .mk 6#32 [] ⟨0#32, 8#32, 2#16, 0#16⟩ [([0x61#8], ⟨0#16, 0xC4#16, 0#32⟩, none), ([0x62#8], ⟨0#16, 0xC2#16, 4#32⟩, none)]

theorem C89_padding_left_out : padded.size = 5 ∧ padded.info.bytes.toNat = 8 := by decide +kernel

example : Spec.IsExtent padded padded.size :=
  C89_atomic_partial padded (by
    intro m hm
    simp only [padded, Udt.members, List.mem_cons, List.not_mem_nil, or_false] at hm
    rcases hm with rfl | rfl
    · exact ⟨rfl, 4, ⟨by decide, by decide⟩, by decide⟩
    · exact ⟨rfl, 1, ⟨by decide, by decide⟩, by decide⟩)

example : (Udt.mk 7#32 [] ⟨0#32, 40#32, 1#16, 0#16⟩ [([0x61#8], ⟨10#16, 0x20C4#16, 0#32⟩, none)]).size = 4 := by
  decide +kernel

end Gologix.UdtSize
