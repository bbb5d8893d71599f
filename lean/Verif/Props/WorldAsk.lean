import Verif.Props.SessionAsk
import Verif.Props.Comings
/-
C110 for several clients: what one of them asks does not disturb the others.
-/
set_option linter.unusedSimpArgs false

namespace Gologix.Session
open Gologix Gologix.Spec Gologix.Server Gologix.Server.Spec Gologix.Connect Gologix.Connect.Spec Gologix.Session.Spec

/-- What a client at the server's socket `addr`, `port` learns from a server that publishes `d`, when it asks. -/
inductive Replied (d : Device) (addr : BitVec 32) (port : BitVec 16) : Query → Res Answer → Prop
  | identity (hn : d.name.length ≤ 255) : Replied d addr port .identity (.ok (.identity (bodyOf d 1#16 port addr 0xFF#8)))
  | one {seq : BitVec 16} {a : Byte} {b : Bytes} (h : attrOf d a.toNat = some b) (h7 : a ≠ 7#8) :
      Replied d addr port (.attribute seq 1#16 1#32 (a.setWidth 16)) (.ok (.bytes b))
  | all {seq : BitVec 16} {path data : Bytes} (hn : d.name.length ≤ 255) (hp : ObjectPath 1 1 path) (he : path.length % 2 = 0)
      (hl : path.length ≤ 510) (hd : data.length ≤ 64000) :
      Replied d addr port (.generic seq 0x01#8 path data) (.ok (.bytes (allAttributes d)))
  | name {seq : BitVec 16} {path data : Bytes} (hn : d.name.length ≤ 255) (hp : ObjectPath 0x64 1 path) (he : path.length % 2 = 0)
      (hl : path.length ≤ 510) (hd : data.length ≤ 64000) :
      Replied d addr port (.generic seq 0x01#8 path data) (.ok (.bytes (shortString d.name)))
  | nowhere {seq : BitVec 16} {cls inst : Nat} {path data : Bytes} (hn : d.name.length ≤ 255) (hp : ObjectPath cls inst path)
      (he : path.length % 2 = 0) (hl : path.length ≤ 510) (hd : data.length ≤ 64000) (h1 : ¬ (cls = 1 ∧ inst = 1))
      (h2 : ¬ (cls = 0x64 ∧ inst = 1)) : Replied d addr port (.generic seq 0x01#8 path data) (.err (.cipStatus 5))
  | unsupported {seq : BitVec 16} {svc : Byte} {path data : Bytes} (hs : svc &&& 0x80#8 = 0#8)
      (hn : svc ∉ [0x01#8, 0x0A#8, 0x0E#8, 0x4C#8, 0x4D#8, 0x52#8, 0x55#8]) (hl : path.length + data.length ≤ 65000) :
      Replied d addr port (.generic seq svc path data) (.err (.cipStatus 8))

/-- A question that leaves the server as it is disturbs nobody. -/
theorem asked_world (C : Conv) (who : Nat → Prop) (ks : Nat → Conn) (gone : Conn → Prop) (ep : Nat) (w : World) (m : Memory)
    (i : Nat) (hj : w.Joined who ks ep m) (he : w.Enrolled who ks gone) (q : Query) (y' : Sys) (r : Res Answer)
    (ha : Session.ask C (w.clients i).1 { (w.clients i).2 with server := { (w.clients i).2.server with srv := w.srv } } q = (r, y'))
    (hs : y'.server.srv = w.srv) :
    ∃ w', w.ask C i q = (r, w') ∧ w'.srv = w.srv ∧ (∀ j, j ≠ i → w'.clients j = w.clients j) ∧
      (Quiet y' → w'.Joined who ks ep m ∧ w'.Enrolled who ks gone) ∧ w'.Joined (fun j => who j ∧ j ≠ i) ks ep m ∧
      w'.clients i = ((w.clients i).1, y') := by
  refine ⟨⟨y'.server.srv, fun j => if j = i then ((w.clients i).1, y') else w.clients j⟩, ?_, hs, ?_, ?_, ?_, ?_⟩
  · unfold World.ask
    simp only [ha]
  · intro j hji
    simp only [if_neg hji]
  · intro hq
    obtain ⟨tags, hh, hk, hall⟩ := hj
    refine ⟨⟨tags, hh, by simpa only [hs] using hk, ?_⟩, ⟨by simpa only [hs] using he.apart, by simpa only [hs] using he.all,
      he.left, he.own, ?_⟩⟩
    · intro j hjw
      obtain ⟨g1, g2⟩ := hall j hjw
      by_cases hji : j = i
      · subst hji
        simp only [if_pos, hs]
        exact ⟨hq, g2⟩
      · simp only [if_neg hji, hs]
        exact ⟨g1, g2⟩
    · intro j hj
      by_cases hji : j = i
      · subst hji
        simp only [if_pos]
        exact he.known j hj
      · simp only [if_neg hji]
        exact he.known j hj
  · obtain ⟨tags, hh, hk, hall⟩ := hj
    refine ⟨tags, hh, by simpa only [hs] using hk, ?_⟩
    rintro j ⟨hjw, hji⟩
    simp only [if_neg hji, hs]
    exact hall j hjw
  · simp only [if_pos]

theorem replied_asked (C : Conv) (s : Settings) (k : Conn) (ep : Nat) (y : Sys) (m : Memory) (d : Device) (addr : BitVec 32)
    (q : Query) (r : Res Answer) (hjs : Joined s k ep y m) (hd : Publishes y.server.srv.attrs d)
    (ha : y.server.h.addr = be 4 addr.toNat) (hq : Replied d addr y.server.h.port q r) :
    ∃ y', Session.ask C s y q = (r, y') ∧ Quiet y' ∧ y'.server.srv = y.server.srv := by
  cases hq with
  | identity hn =>
    obtain ⟨y', e1, e2, e3⟩ := C110_identity C s k ep y m d addr hjs hd hn ha
    exact ⟨y', by simp only [Session.ask, e1, Res.bind_ok], e2.1, e3⟩
  | @one seq a b h h7 =>
    obtain ⟨y', e1, e2, e3⟩ := C110_attribute_partial C s k ep y m d seq a b hjs hd h h7
    exact ⟨y', by simp only [Session.ask, e1, Res.bind_ok], e2.1, e3⟩
  | @all seq path data hn hp hev hl hdl =>
    obtain ⟨y', e1, e2, e3⟩ := C110_all C s k ep y m d seq 1 1 path data hjs hd hn hp hev hl hdl
    exact ⟨y', by simp only [Session.ask, e1]; rfl, e2.1, e3⟩
  | @name seq path data hn hp hev hl hdl =>
    obtain ⟨y', e1, e2, e3⟩ := C110_all C s k ep y m d seq 0x64 1 path data hjs hd hn hp hev hl hdl
    exact ⟨y', by simp only [Session.ask, e1]; rfl, e2.1, e3⟩
  | @nowhere seq cls inst path data hn hp hev hl hdl h1 h2 =>
    obtain ⟨y', e1, e2, e3⟩ := C110_all C s k ep y m d seq cls inst path data hjs hd hn hp hev hl hdl
    exact ⟨y', by simp only [Session.ask, e1, if_neg h1, if_neg h2]; rfl, e2.1, e3⟩
  | @unsupported seq svc path data hs hn hl =>
    obtain ⟨y', e1, e2, e3⟩ := C110_unsupported C s k ep y m seq svc path data hjs hs hn hl
    exact ⟨y', by simp only [Session.ask, e1]; rfl, e2.1, e3⟩

/-- C110 with several clients: any of them learns what the server publishes, or why not; nothing at the server changes, and all
of them, the one that asked and the others, go on with the memory they share. -/
theorem C110_clients_partial (C : Conv) (who : Nat → Prop) (ks : Nat → Conn) (gone : Conn → Prop) (ep : Nat) (w : World)
    (m : Memory) (i : Nat) (d : Device) (addr : BitVec 32) (q : Query) (r : Res Answer) (hj : w.Joined who ks ep m)
    (he : w.Enrolled who ks gone) (hi : who i) (hd : Publishes w.srv.attrs d)
    (ha : (w.clients i).2.server.h.addr = be 4 addr.toNat) (hq : Replied d addr (w.clients i).2.server.h.port q r) :
    ∃ w', w.ask C i q = (r, w') ∧ w'.Joined who ks ep m ∧ w'.Enrolled who ks gone ∧ w'.srv = w.srv ∧
      ∀ j, j ≠ i → w'.clients j = w.clients j := by
  have hjs : Joined (w.clients i).1 (ks i) ep
      { (w.clients i).2 with server := { (w.clients i).2.server with srv := w.srv } } m := by
    obtain ⟨tags, hh, -, hall⟩ := hj
    obtain ⟨g1, g2⟩ := hall i hi
    exact ⟨g1, tags, g2, hh⟩
  obtain ⟨y', k1, k2, k3⟩ := replied_asked C _ _ ep _ m d addr q r hjs hd ha hq
  obtain ⟨w', a1, a2, a3, a4, -⟩ := asked_world C who ks gone ep w m i hj he q y' r k1 k3
  exact ⟨w', a1, (a4 k2).1, (a4 k2).2, a2, a3⟩

/-- A client that asks for something the server does not have is thrown out (`C110_absent_ends`); the others go on, and its
connection stays in the server's table. -/
theorem C110_thrown_out (C : Conv) (who : Nat → Prop) (ks : Nat → Conn) (gone : Conn → Prop) (ep : Nat) (w : World)
    (m : Memory) (i : Nat) (seq : BitVec 16) (cls inst a : Byte) (hj : w.Joined who ks ep m) (he : w.Enrolled who ks gone)
    (hi : who i) (hn : cls ≠ 1#8 ∨ inst ≠ 1#8 ∨ w.srv.attrs (BitVec.ofNat 16 a.toNat) = none) :
    ∃ w', w.ask C i (.attribute seq (cls.setWidth 16) (inst.setWidth 32) (a.setWidth 16)) = (.err .eof, w') ∧
      w'.Joined (fun j => who j ∧ j ≠ i) ks ep m ∧ ks i ∈ w'.srv.conns.conns ∧
      ∀ c, ∃ e, (w'.perform C i c).1 = .err e := by
  have hjs : Joined (w.clients i).1 (ks i) ep
      { (w.clients i).2 with server := { (w.clients i).2.server with srv := w.srv } } m := by
    obtain ⟨tags, hh, -, hall⟩ := hj
    obtain ⟨g1, g2⟩ := hall i hi
    exact ⟨g1, tags, g2, hh⟩
  obtain ⟨y', e1, e2, e3⟩ := C110_absent_ends C _ _ ep _ m seq cls inst a hjs hn
  have e2 : y'.server.srv = w.srv := e2
  obtain ⟨w', a1, a2, a3, -, a5, a6⟩ := asked_world C who ks gone ep w m i hj he
    (.attribute seq (cls.setWidth 16) (inst.setWidth 32) (a.setWidth 16)) y' (.err .eof) (by simp only [Session.ask, e1]; rfl) e2
  refine ⟨w', a1, a5, by rw [a2]; exact (he.all (ks i)).mpr (.inl ⟨i, hi, rfl⟩), fun c => ?_⟩
  obtain ⟨e, he⟩ := e3 [c] (perform C (w.clients i).1 y' c).1 (by simp [performAll])
  refine ⟨e, ?_⟩
  have hy : ({ y' with server := { y'.server with srv := w'.srv } } : Sys) = y' := by rw [a2, ← e2]
  unfold World.perform
  simp only [a6, hy, he]

/-! ### Examples -/

/-- Client 1 asks for the serial number and client 0 for an object that is not there, which is the end for client 0 only. -/
example :
    let a := demoWorld.ask demoConv 1 (.attribute 9#16 1#16 1#32 6#16)
    let b := a.2.ask demoConv 0 (.attribute 9#16 2#16 1#32 1#16)
    a.1 = .ok (.bytes (le 4 demoDevice.serial.toNat)) ∧ b.1 = .err .eof ∧
      (b.2.perform demoConv 0 (.write 1#16 (demoIoi "Count" tDINT) (.one (.i32 7#32)))).1 = .err .eof ∧
      (b.2.perform demoConv 1 (.write 1#16 (demoIoi "Count" tDINT) (.one (.i32 7#32)))).1 = .ok .done := by
  decide +kernel

example : Replied demoDevice 0x7F000001#32 44818#16 (.attribute 9#16 1#16 1#32 6#16) (.ok (.bytes (le 4 demoDevice.serial.toNat))) :=
  .one (a := 6#8) rfl (by decide)

end Gologix.Session
