/-
Bytes, little-endian integers and the outcome type shared by all models.
-/
namespace Gologix

/-- A byte on the wire. -/
abbrev Byte := BitVec 8

/-- A Go byte slice, contents only. -/
abbrev Bytes := List Byte

/-- Reasons a modelled Go function returns a non-nil `error`.  Only the distinctions the Go code
itself makes are kept (`io.EOF` is tested in ioi.go:276-279, a CIP status error in
getattr.go:320-327); error texts are not modelled. -/
inductive Err where
  | eof
  | unexpectedEof
  | fail
  | cipStatus (status : Nat)
deriving DecidableEq, Repr

/-- Outcome of a Go call: a value, a returned `error`, or a run-time panic. -/
inductive Res (α : Type) where
  | ok (a : α)
  | err (e : Err)
  | panic
deriving DecidableEq, Repr

namespace Res

@[simp] def bind {α β : Type} : Res α → (α → Res β) → Res β
  | ok a, f => f a
  | err e, _ => err e
  | panic, _ => panic

instance : Monad Res where
  pure := ok
  bind := Res.bind

@[simp] theorem pure_eq {α : Type} (a : α) : (pure a : Res α) = ok a := rfl
@[simp] theorem bind_ok {α β : Type} (a : α) (f : α → Res β) : (Res.ok a >>= f) = f a := rfl
@[simp] theorem bind_err {α β : Type} (e : Err) (f : α → Res β) : (Res.err e >>= f) = .err e := rfl
@[simp] theorem bind_panic {α β : Type} (f : α → Res β) : (Res.panic >>= f) = .panic := rfl

/-- The call returned normally (value or error), i.e. did not panic. -/
def safe {α : Type} : Res α → Prop
  | panic => False
  | _ => True

def isOk {α : Type} : Res α → Bool
  | ok _ => true
  | _ => false

def isErr {α : Type} : Res α → Bool
  | err _ => true
  | _ => false

instance {α : Type} (r : Res α) : Decidable r.safe := by
  cases r <;> unfold safe <;> infer_instance

@[simp] theorem safe_ok {α : Type} (a : α) : (ok a).safe := trivial
@[simp] theorem safe_err {α : Type} (e : Err) : (err e : Res α).safe := trivial
@[simp] theorem safe_panic {α : Type} : ¬ (panic : Res α).safe := fun h => h

theorem safe_bind {α β : Type} {r : Res α} {f : α → Res β} (h : r.safe)
    (hf : ∀ a, r = ok a → (f a).safe) : (r >>= f).safe := by
  cases r with
  | ok a => exact hf a rfl
  | err e => trivial
  | panic => exact absurd h (by simp)

theorem bind_eq_ok {α β : Type} {r : Res α} {f : α → Res β} {b : β} :
    (r >>= f) = ok b ↔ ∃ a, r = ok a ∧ f a = ok b := by
  cases r <;> simp

end Res

/-- Little-endian encoding of the low `8*k` bits of `n`: what Go's `binary.Write` with
`binary.LittleEndian` emits for an unsigned integer of `k` bytes holding `n mod 256^k`. -/
def le : (k : Nat) → (n : Nat) → Bytes
  | 0, _ => []
  | k + 1, n => BitVec.ofNat 8 n :: le k (n / 256)

/-- Little-endian decoding of a byte list. -/
def unle : Bytes → Nat
  | [] => 0
  | b :: bs => b.toNat + 256 * unle bs

@[simp] theorem le_length (k n : Nat) : (le k n).length = k := by
  induction k generalizing n with
  | zero => rfl
  | succ k ih => simp [le, ih]

theorem unle_le (k n : Nat) : unle (le k n) = n % 256 ^ k := by
  induction k generalizing n with
  | zero => simp [le, unle, Nat.mod_one]
  | succ k ih =>
    simp only [le, unle, ih, BitVec.toNat_ofNat]
    rw [Nat.pow_succ 256 k, Nat.mul_comm (256 ^ k) 256, Nat.mod_mul]

theorem unle_le_of_lt {k n : Nat} (h : n < 256 ^ k) : unle (le k n) = n := by
  rw [unle_le, Nat.mod_eq_of_lt h]

theorem unle_lt (bs : Bytes) : unle bs < 256 ^ bs.length := by
  induction bs with
  | nil => simp [unle]
  | cons b bs ih =>
    have hb : b.toNat < 256 := b.isLt
    simp only [unle, List.length_cons, Nat.pow_succ]
    omega

theorem le_unle (bs : Bytes) : le bs.length (unle bs) = bs := by
  induction bs with
  | nil => rfl
  | cons b bs ih =>
    have hb : b.toNat < 256 := b.isLt
    simp only [unle, List.length_cons, le]
    have h1 : (b.toNat + 256 * unle bs) / 256 = unle bs := by omega
    have h2 : BitVec.ofNat 8 (b.toNat + 256 * unle bs) = b := by
      apply BitVec.eq_of_toNat_eq
      simp only [BitVec.toNat_ofNat]
      omega
    rw [h1, h2, ih]

theorem le_inj {k m n : Nat} (hm : m < 256 ^ k) (hn : n < 256 ^ k) (h : le k m = le k n) : m = n := by
  have := congrArg unle h
  rwa [unle_le_of_lt hm, unle_le_of_lt hn] at this

theorem le_mod (k n : Nat) : le k (n % 256 ^ k) = le k n := by
  have h := le_unle (le k n)
  rw [le_length, unle_le] at h
  exact h

/-- `io.ReadFull` of `n` bytes from an in-memory or network source holding `src`: Go's
`binary.Read` of a fixed-size value of `n` bytes reads this way.  No bytes at all is `io.EOF`,
some but fewer than `n` is `io.ErrUnexpectedEOF`.  For a socket, "end of `src`" stands for the peer
closing or the read deadline expiring. -/
def readN (n : Nat) (src : Bytes) : Res (Bytes × Bytes) :=
  if n = 0 then .ok ([], src)
  else if src = [] then .err .eof
  else if src.length < n then .err .unexpectedEof
  else .ok (src.take n, src.drop n)

/-- `binary.Read` of an unsigned little-endian integer of `k` bytes. -/
def readLE (k : Nat) (src : Bytes) : Res (Nat × Bytes) := do
  let (b, rest) ← readN k src
  .ok (unle b, rest)

theorem readN_append (a rest : Bytes) : readN a.length (a ++ rest) = .ok (a, rest) := by
  unfold readN
  cases a with
  | nil => simp
  | cons x xs => simp

theorem readN_append' {n : Nat} {a rest : Bytes} (h : a.length = n) :
    readN n (a ++ rest) = .ok (a, rest) := by
  subst h; exact readN_append a rest

theorem readN_ok {n : Nat} {src a rest : Bytes} (h : readN n src = .ok (a, rest)) :
    a.length = n ∧ src = a ++ rest := by
  unfold readN at h
  split at h
  · simp at h; obtain ⟨rfl, rfl⟩ := h; simp_all
  · split at h
    · simp at h
    · split at h
      · simp at h
      · simp at h
        obtain ⟨rfl, rfl⟩ := h
        simp
        omega

theorem readN_safe (n : Nat) (src : Bytes) : (readN n src).safe := by
  unfold readN
  repeat' split
  all_goals trivial

theorem readLE_le {k n : Nat} (rest : Bytes) (h : n < 256 ^ k) :
    readLE k (le k n ++ rest) = .ok (n, rest) := by
  simp [readLE, readN_append' (le_length k n), unle_le_of_lt h]

theorem readLE_le_mod {k n : Nat} (rest : Bytes) :
    readLE k (le k n ++ rest) = .ok (n % 256 ^ k, rest) := by
  simp [readLE, readN_append' (le_length k n), unle_le]

theorem readLE_ok {k v : Nat} {src rest : Bytes} (h : readLE k src = .ok (v, rest)) :
    v < 256 ^ k ∧ src = le k v ++ rest := by
  unfold readLE at h
  rw [Res.bind_eq_ok] at h
  obtain ⟨⟨b, r⟩, h1, h2⟩ := h
  simp at h2
  obtain ⟨rfl, rfl⟩ := h2
  obtain ⟨hl, rfl⟩ := readN_ok h1
  refine ⟨hl ▸ unle_lt b, ?_⟩
  rw [← hl, le_unle]

theorem readLE_safe (k : Nat) (src : Bytes) : (readLE k src).safe := by
  unfold readLE
  exact Res.safe_bind (readN_safe _ _) (fun _ _ => trivial)

end Gologix

namespace Gologix

/-- A fixed-width unsigned integer on the wire (`binary.Write`, little endian).  `w` is 8, 16, 32
or 64 in every use. -/
def putBV {w : Nat} (v : BitVec w) : Bytes := le (w / 8) v.toNat

/-- `binary.Read`, little endian, of a fixed-width unsigned integer. -/
def readBV (w : Nat) (src : Bytes) : Res (BitVec w × Bytes) := do
  let (n, rest) ← readLE (w / 8) src
  .ok (BitVec.ofNat w n, rest)

@[simp] theorem putBV_length {w : Nat} (v : BitVec w) : (putBV v).length = w / 8 := by
  simp [putBV]

theorem pow256 (k : Nat) : 256 ^ k = 2 ^ (8 * k) := by
  rw [Nat.pow_mul]

theorem readBV_putBV {w : Nat} (h : w % 8 = 0) (v : BitVec w) (rest : Bytes) :
    readBV w (putBV v ++ rest) = .ok (v, rest) := by
  have hw : 8 * (w / 8) = w := by omega
  have hv : v.toNat < 256 ^ (w / 8) := by
    rw [pow256, hw]; exact v.isLt
  simp [readBV, putBV, readLE_le rest hv]

theorem readBV_ok {w : Nat} (h : w % 8 = 0) {v : BitVec w} {src rest : Bytes}
    (hr : readBV w src = .ok (v, rest)) : src = putBV v ++ rest := by
  have hw : 8 * (w / 8) = w := by omega
  unfold readBV at hr
  rw [Res.bind_eq_ok] at hr
  obtain ⟨⟨n, r⟩, h1, h2⟩ := hr
  simp at h2
  obtain ⟨rfl, rfl⟩ := h2
  obtain ⟨hn, rfl⟩ := readLE_ok h1
  rw [pow256, hw] at hn
  simp [putBV, Nat.mod_eq_of_lt hn]

theorem readBV_safe (w : Nat) (src : Bytes) : (readBV w src).safe := by
  unfold readBV
  exact Res.safe_bind (readLE_safe _ _) (fun _ _ => trivial)

@[simp] theorem readU8 (v : BitVec 8) (rest : Bytes) : readBV 8 (putBV v ++ rest) = .ok (v, rest) :=
  readBV_putBV (by decide) v rest
@[simp] theorem readU16 (v : BitVec 16) (rest : Bytes) :
    readBV 16 (putBV v ++ rest) = .ok (v, rest) := readBV_putBV (by decide) v rest
@[simp] theorem readU32 (v : BitVec 32) (rest : Bytes) :
    readBV 32 (putBV v ++ rest) = .ok (v, rest) := readBV_putBV (by decide) v rest
@[simp] theorem readU64 (v : BitVec 64) (rest : Bytes) :
    readBV 64 (putBV v ++ rest) = .ok (v, rest) := readBV_putBV (by decide) v rest

@[simp] theorem readBV8_nil (v : BitVec 8) : readBV 8 (putBV v) = .ok (v, []) := by
  simpa using readU8 v []
@[simp] theorem readBV16_nil (v : BitVec 16) : readBV 16 (putBV v) = .ok (v, []) := by
  simpa using readU16 v []
@[simp] theorem readBV32_nil (v : BitVec 32) : readBV 32 (putBV v) = .ok (v, []) := by
  simpa using readU32 v []
@[simp] theorem readBV64_nil (v : BitVec 64) : readBV 64 (putBV v) = .ok (v, []) := by
  simpa using readU64 v []

theorem putBV_inj {w : Nat} (h : w % 8 = 0) {a b : BitVec w} (hab : putBV a = putBV b) : a = b := by
  have h1 := readBV_putBV h a []
  have h2 := readBV_putBV h b []
  rw [hab, h2] at h1
  simpa using h1.symm

theorem putBV_ofNat {w : Nat} (h : w % 8 = 0) (n : Nat) : putBV (BitVec.ofNat w n) = le (w / 8) n := by
  have hw : 8 * (w / 8) = w := by omega
  unfold putBV
  rw [BitVec.toNat_ofNat, ← le_mod (w / 8) n, pow256, hw]

theorem putBV_ofNat16 (n : Nat) : putBV (BitVec.ofNat 16 n) = le 2 n := putBV_ofNat (by decide) n
theorem putBV_ofNat32 (n : Nat) : putBV (BitVec.ofNat 32 n) = le 4 n := putBV_ofNat (by decide) n

theorem putBV_eight (b : Byte) : putBV b = [b] := by
  simp [putBV, le]

end Gologix
