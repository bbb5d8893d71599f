import Verif.Props.Connect
import Verif.Props.ReplyCrash
import Verif.Spec.OpenReply
set_option linter.unusedSimpArgs false
/-
C72 and C102: what the client makes of the answers it gets while it connects.
-/
namespace Gologix.Connect
open Gologix Spec Server.Spec
open Gologix.Spec (cpf frame)

theorem item1_ok {p d : Bytes} (h : item1 p = .ok d) :
    ∃ (first : BitVec 16 × Bytes) (id : BitVec 16) (more : List (BitVec 16 × Bytes)) (rest : Bytes),
      (first :: (id, d) :: more).length < 65536 ∧ (∀ x ∈ first :: (id, d) :: more, x.2.length < 65536) ∧
      p = cpf (first :: (id, d) :: more) ++ rest := by
  unfold item1 at h
  rw [Res.bind_eq_ok] at h
  obtain ⟨⟨its, rest⟩, h1, h2⟩ := h
  have hi := readItems_inv h1
  have hn : its.length < 65536 := by
    unfold readItems at h1
    rw [Res.bind_eq_ok] at h1
    obtain ⟨⟨count, src⟩, g1, g2⟩ := h1
    rw [(readItemsN_ok g2).1]
    exact count.isLt
  match its, h2, hi, hn with
  | a :: b :: more, h2, hi, hn =>
    injection h2 with h2
    subst h2
    refine ⟨(a.id, a.data), b.id, more.map fun it => (it.id, it.data), rest, by simpa using hn, by simpa using hi.2, by simpa using hi.1⟩

theorem item1_cpf (first : BitVec 16 × Bytes) (id : BitVec 16) (d : Bytes) (more : List (BitVec 16 × Bytes)) (rest : Bytes)
    (hn : (first :: (id, d) :: more).length < 65536) (hd : ∀ x ∈ first :: (id, d) :: more, x.2.length < 65536) :
    item1 (cpf (first :: (id, d) :: more) ++ rest) = .ok d := by
  unfold item1
  rw [Gologix.readItems_cpf _ rest hn hd]
  rfl

theorem twice_byte (w : Byte) : (w * 2#8).toNat = 2 * w.toNat % 256 := by
  simp [BitVec.toNat_mul]; omega

theorem parseResponse_ok (r : Reply) (d : Bytes) : parseResponse r = .ok d ↔
    r.status = 0 ∧ ∃ (hdr : Bytes) (first : BitVec 16 × Bytes) (id : BitVec 16) (service reserved words : Byte)
      (extra : Bytes) (more : List (BitVec 16 × Bytes)) (rest : Bytes),
      let items := first :: (id, [service, reserved, 0#8, words] ++ (extra ++ d)) :: more
      hdr.length = 6 ∧ extra.length = 2 * words.toNat % 256 ∧
      items.length < 65536 ∧ (∀ x ∈ items, x.2.length < 65536) ∧ r.payload = hdr ++ (cpf items ++ rest) := by
  unfold parseResponse
  constructor
  · intro h
    by_cases hs : r.status = 0
    · rw [if_neg (by simp [hs]), Res.bind_eq_ok] at h
      obtain ⟨⟨hdr, p⟩, h1, h⟩ := h
      obtain ⟨hl, hp⟩ := readN_ok h1
      simp only at h
      rw [Res.bind_eq_ok] at h
      obtain ⟨dd, h2, h⟩ := h
      obtain ⟨first, id, more, rest, g1, g2, g3⟩ := item1_ok h2
      rw [Res.bind_eq_ok] at h
      obtain ⟨⟨hh, d1⟩, h3, h⟩ := h
      obtain ⟨hl4, hd⟩ := readN_ok h3
      match hh, hl4 with
      | [a, b, c, w], _ =>
        simp only [List.getD_cons_succ, List.getD_cons_zero] at h
        have key : ∃ extra d2, extra.length = 2 * w.toNat % 256 ∧ d1 = extra ++ d2 ∧
            (if c ≠ 0#8 then Res.err Err.fail else .ok d2) = .ok d := by
          by_cases hw : w = 0#8
          · subst hw
            exact ⟨[], d1, rfl, rfl, h⟩
          · rw [if_pos hw, Res.bind_eq_ok] at h
            obtain ⟨⟨e, d2⟩, h4, h⟩ := h
            obtain ⟨he, hd1⟩ := readN_ok h4
            exact ⟨e, d2, by rw [he, twice_byte], hd1, h⟩
        obtain ⟨extra, d2, k1, k2, k3⟩ := key
        by_cases hc : c = 0#8
        · subst hc
          simp only [ne_eq, not_true, if_false, Res.ok.injEq] at k3
          subst k3 k2 hd
          exact ⟨hs, hdr, first, id, a, b, w, extra, more, rest, hl, k1, g1, g2, by rw [hp, g3]⟩
        · rw [if_pos hc] at k3; cases k3
    · rw [if_pos hs] at h; cases h
  · rintro ⟨hs, hdr, first, id, service, reserved, words, extra, more, rest, h1, h2, h4, h5, h6⟩
    rw [if_neg (by simp [hs]), h6, readN_append' h1, Res.bind_ok]
    simp only
    rw [item1_cpf _ _ _ _ _ h4 h5, Res.bind_ok, readN_append' (n := 4) rfl, Res.bind_ok]
    simp only [List.getD_cons_succ, List.getD_cons_zero, ne_eq, not_true, if_false]
    by_cases hw : words = 0#8
    · subst hw
      have : extra = [] := List.length_eq_zero_iff.mp h2
      subst this
      rfl
    · rw [if_pos hw, readN_append' (by rw [twice_byte]; exact h2)]
      rfl

/-- The client takes an answer for a grant exactly if it is one, and takes over the identifier it gives. -/
theorem C72_granted (x : Res Reply) (ot : BitVec 32) : forwardOpenReply x = .ok ot ↔ Grants x ot := by
  unfold forwardOpenReply Grants Granted
  constructor
  · intro h
    rw [Res.bind_eq_ok] at h
    obtain ⟨r, rfl, h⟩ := h
    refine ⟨r, rfl, ?_⟩
    rw [Res.bind_eq_ok] at h
    obtain ⟨d, h1, h⟩ := h
    obtain ⟨hs, hdr, first, id, service, reserved, words, extra, more, rest, k1, k2, k3, k4, k5⟩ := (parseResponse_ok r d).mp h1
    rw [Res.bind_eq_ok] at h
    obtain ⟨⟨b, d'⟩, h2, h⟩ := h
    obtain ⟨hb, hd⟩ := readN_ok h2
    rw [Res.bind_eq_ok] at h
    obtain ⟨⟨v, b'⟩, h3, h⟩ := h
    have hv := readBV_ok (by decide) h3
    injection h with h
    subst h
    have hv : b = le 4 v.toNat ++ b' := hv
    subst hv hd
    refine ⟨hs, hdr, first, id, service, reserved, words, extra, b' ++ d', more, rest, k1, k2, ?_, ?_, ?_, ?_⟩
    · simp at hb ⊢; omega
    · exact k3
    · rw [List.append_assoc] at k4; exact k4
    · rw [List.append_assoc] at k5; exact k5
  · rintro ⟨r, rfl, hs, hdr, first, id, service, reserved, words, extra, tail, more, rest, h1, h2, h3, h4, h5, h6⟩
    rw [Res.bind_ok, (parseResponse_ok r (le 4 ot.toNat ++ tail)).mpr
      ⟨hs, hdr, first, id, service, reserved, words, extra, more, rest, h1, h2, h4, h5, h6⟩, Res.bind_ok]
    have : le 4 ot.toNat ++ tail = (le 4 ot.toNat ++ tail.take 22) ++ tail.drop 22 := by simp
    rw [this, readN_append' (by simp; omega), Res.bind_ok]
    simp only
    rw [Server.readBV32_le, Res.bind_ok]

theorem crashes_iff (x : Res Reply) : forwardOpenReply x = .panic ↔ Crashes x := forwardOpen_panic_iff x

theorem refuses_iff (x : Res Reply) : (forwardOpenReply x).isErr = true ↔ Refuses x := by
  unfold Refuses
  rw [← crashes_iff]
  simp only [← C72_granted]
  cases forwardOpenReply x <;> simp [Res.isErr]

/-- C72: when `Connect` has opened its connection, the last request it sent is the one that was granted: it asked
for the size the client now works with, under the serial number the client will close it with, and the identifier
the client now uses is the one in the answer to it.  The size is the wanted one, unless the large form has been tried
and refused, after which it is 511. -/
theorem C72_connected (c : Cfg) (large standard : Res Reply) (ms : List Bytes) (c' : Cfg)
    (h : openConnection c large standard = (ms, c', .ok ())) :
    ∃ (pre : List Bytes) (o : OpenReq), ms = pre ++ [o.bytes] ∧ o.sized ∧
      OpensTo o c.path c'.size.toNat c.vendor c.oserial c.rpi ∧ c'.serial = o.serial ∧
      Grants (if o.large then large else standard) c'.ot ∧
      ((c'.size.toNat = wanted c.size.toNat ∧ pre = []) ∨
        (511 < wanted c.size.toNat ∧ Refuses large ∧ c'.size = 511#16 ∧
          o.large = false ∧ ∃ p : OpenReq, pre = [p.bytes] ∧ p.sized ∧ p.large = true ∧
            OpensTo p c.path (wanted c.size.toNat) c.vendor c.oserial c.rpi ∧ p.serial ≠ o.serial)) := by
  have := opened_by c large standard ms c' h
  simp only [C72_granted, refuses_iff] at this
  exact this

/-- C72, failure: `Connect` fails exactly when the standard form is refused and the large form has been refused or was
not wanted. -/
theorem C72_refused (c : Cfg) (large standard : Res Reply) :
    (openConnection c large standard).2.2.isErr = true ↔
      Refuses standard ∧ (wanted c.size.toNat ≤ 511 ∨ Refuses large) := by
  rw [opened_not, refuses_iff, refuses_iff]

/-- Additional status of 128 words or more is not skipped: with 128 words the identifier is taken from its first
two. -/
theorem C72_long_status (r : Reply) (hdr : Bytes) (first : BitVec 16 × Bytes) (id : BitVec 16) (service reserved : Byte)
    (v : BitVec 32) (extra data : Bytes) (hs : r.status = 0) (hh : hdr.length = 6) (he : extra.length = 252)
    (hf : first.2.length < 65536) (hd : data.length < 65000)
    (hp : r.payload = hdr ++ cpf [first, (id, [service, reserved, 0#8, 128#8] ++ (le 4 v.toNat ++ (extra ++ data)))]) :
    forwardOpenReply (.ok r) = .ok v := by
  rw [C72_granted]
  refine ⟨r, rfl, hs, hdr, first, id, service, reserved, 128#8, [], extra ++ data, [], [], hh, rfl, ?_, by simp, ?_, ?_⟩
  · simp [he]; omega
  · intro x hx
    simp only [List.mem_cons, List.not_mem_nil, or_false] at hx
    rcases hx with rfl | rfl
    · exact hf
    · simp [he]; omega
  · rw [hp]; simp

/-- Whose answer it is does not matter: one to any service, for any serial number, vendor and originator (the first
eight bytes of `tail`) is taken for the answer to the client's request. -/
theorem C72_any_answer (service reserved : Byte) (ot : BitVec 32) (tail : Bytes) (ht : tail.length = 22) :
    forwardOpenReply (.ok ⟨0, [0, 0, 0, 0, 0, 0] ++ cpf [(0x0#16, []), (0xB2#16,
      [service, reserved, 0#8, 0#8] ++ (le 4 ot.toNat ++ tail))]⟩) = .ok ot := by
  rw [C72_granted]
  refine ⟨_, rfl, rfl, [0, 0, 0, 0, 0, 0], (0x0#16, []), 0xB2#16, service, reserved, 0#8, [], tail, [], [], rfl, rfl, ?_,
    by simp, ?_, by simp⟩
  · omega
  · intro x hx
    simp only [List.mem_cons, List.not_mem_nil, or_false] at hx
    rcases hx with rfl | rfl
    · simp
    · simp [ht]

/-! ### C102: the session -/

theorem newOpen_keeps (large : Bool) (c : Cfg) :
    (newOpen large c).2.session = c.session ∧ (newOpen large c).2.context = c.context := by
  obtain ⟨_, _, _, s, -, h, -⟩ := newOpen_req large c
  rw [h]
  exact ⟨rfl, rfl⟩

theorem openConnection_keeps (c : Cfg) (large standard : Res Reply) :
    (openConnection c large standard).2.1.session = c.session := by
  rw [openConnection_eq]
  have hd : (if c.size = 0#16 then { c with size := 4000#16 } else c).session = c.session := by split <;> rfl
  simp only
  generalize (if c.size = 0#16 then { c with size := 4000#16 } else c) = d at hd
  rw [← hd]
  split
  · cases forwardOpenReply large with
    | ok ot => exact (newOpen_keeps true d).1
    | panic => exact (newOpen_keeps true d).1
    | err e =>
      have := (newOpen_keeps false { (newOpen true d).2 with size := 511#16 }).1
      have h2 := (newOpen_keeps true d).1
      cases forwardOpenReply standard <;> simp only <;> rw [this] <;> exact h2
  · cases forwardOpenReply standard <;> exact (newOpen_keeps false d).1

/-- When `Connect` succeeds, it has first asked for a session; the handle in the answer stands in every request after
that and is the client's session; the last request is one for a connection, and the client uses the identifier granted
for it. -/
theorem C102_session (c c' : Cfg) (reg : Res EipHeader) (large standard : Res Reply) (fs : List Bytes)
    (h : connectWith c reg large standard = (fs, c', .ok ())) :
    ∃ hd pre o, reg = .ok hd ∧ c'.session = hd.session ∧
      fs = frame 0x65#16 c.session c.context [1#8, 0#8, 0#8, 0#8] :: (pre ++ [OpenReq.bytes o]).map (fun m =>
        frame 0x6F#16 hd.session c.context ([0#8, 0#8, 0#8, 0#8, 0#8, 0#8] ++ cpf [(0x0#16, []), (0xB2#16, m)])) ∧
      OpensTo o c.path c'.size.toNat c.vendor c.oserial c.rpi ∧ Grants (if o.large then large else standard) c'.ot := by
  unfold connectWith at h
  cases reg with
  | err e => cases h
  | panic => cases h
  | ok hd =>
    simp only [Prod.mk.injEq] at h
    obtain ⟨h1, h2, h3⟩ := h
    have hk := openConnection_keeps { c with session := hd.session } large standard
    generalize hx : openConnection { c with session := hd.session } large standard = x at h1 h2 h3 hk
    obtain ⟨ms, d, r⟩ := x
    simp only at h1 h2 h3 hk
    subst h2 h3
    obtain ⟨pre, o, g1, -, g3, -, g5, -⟩ := C72_connected _ _ _ _ _ hx
    refine ⟨hd, pre, o, rfl, hk, ?_, g3, g5⟩
    rw [← h1, g1]
    congr 1
    apply List.map_congr_left
    intro m _
    unfold unconnectedFrame
    rw [C01_frame_layout]
    simp only [List.flatten_cons, List.flatten_nil, List.append_nil]
    rw [Server.rr_payload]
    rfl

/-- Without an answer to the request for a session nothing else is sent, and `Connect` fails. -/
theorem C102_no_session (c : Cfg) (e : Err) (large standard : Res Reply) :
    (connectWith c (.err e) large standard).1 = [frame 0x65#16 c.session c.context [1#8, 0#8, 0#8, 0#8]] ∧
    (connectWith c (.err e) large standard).2.2.isErr = true := by
  refine ⟨?_, rfl⟩
  show [registerFrame c] = _
  unfold registerFrame
  rw [C01_frame_layout]
  rfl

/-- C102 is false: that the session is refused is not noticed.  Whatever status the answer has, `Connect` goes on and
succeeds if a connection is granted. -/
theorem C102_refusal_ignored (c : Cfg) (hd hd' : EipHeader) (large standard : Res Reply) (hs : hd.session = hd'.session) :
    connectWith c (.ok hd) large standard = connectWith c (.ok hd') large standard := by
  unfold connectWith
  simp only [hs]

/-- An answer that grants identifier 0x01020304, with one word of additional status. -/
def demoGrant : Reply :=
  ⟨0, [0, 0, 0, 0, 0, 0, 2, 0, 0, 0, 0, 0, 0xB2, 0, 32, 0, 0xDB, 0, 0, 1, 0xEE, 0xEE, 4, 3, 2, 1] ++ List.replicate 22 7#8⟩

/-- A client connects although the session was refused with status 1. -/
example : (connectWith cfgDemo (.ok ⟨0x65#16, 4#16, 0x99#32, 1#32, 0#64, 0#32⟩) (.ok demoGrant) (.err .eof)).2.2 = .ok () ∧
    (connectWith cfgDemo (.ok ⟨0x65#16, 4#16, 0x99#32, 1#32, 0#64, 0#32⟩) (.ok demoGrant) (.err .eof)).2.1.ot = 0x01020304#32 ∧
    (connectWith cfgDemo (.ok ⟨0x65#16, 4#16, 0x99#32, 1#32, 0#64, 0#32⟩) (.ok demoGrant) (.err .eof)).2.1.session = 0x99#32 := by
  decide +kernel

example : Grants (.ok demoGrant) 0x01020304#32 := (C72_granted _ _).mp (by decide +kernel)

end Gologix.Connect
