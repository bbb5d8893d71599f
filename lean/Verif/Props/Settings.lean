import Verif.Model.Settings
import Verif.Props.OpenReply
import Verif.Spec.Path
set_option linter.unusedSimpArgs false
/-
C103: what a client is set to is what it connects with, and what is left out has the documented default.
-/
namespace Gologix.Connect
open Gologix Spec Server.Spec
open Gologix.Spec (cpf frame Hop routeBytes)

/-- `x` is the setting, or the default if the setting is zero. -/
def Chosen {α : Type} [OfNat α 0] (setting dflt x : α) : Prop := (setting ≠ 0 → x = setting) ∧ (setting = 0 → x = dflt)

theorem fill_eq (ms : BitVec 32) (s : Settings) : fill ms s =
    { s with size := if s.size = 0#16 then 4000#16 else s.size, port := if s.port = 0#64 then 44818#64 else s.port,
             ctlVendor := if s.ctlVendor = 0#16 then 0x9999#16 else s.ctlVendor,
             timeout := if s.timeout = 0 then 10000000000 else s.timeout,
             rpi := if s.rpi = 0 then 2500000000 else s.rpi, seq := s.seq + ms,
             path := some (s.path.getD [1#8, 0#8]) } := by
  obtain ⟨ip, port, cv, path, os, v, t, r, size, l, q, sn, ot, ss, cx⟩ := s
  unfold fill
  simp only
  by_cases h1 : size = 0#16 <;> by_cases h2 : port = 0#64 <;> by_cases h3 : cv = 0#16 <;> by_cases h4 : t = 0 <;>
    by_cases h5 : r = 0 <;> cases path <;> simp [h1, h2, h3, h4, h5, portBytes]

/-- C103: the address dialed is that of the controller, at the port set, or 44818. -/
theorem C103_dials (s : Settings) (ms : BitVec 32) (dial : Bool) (reg : Res EipHeader) (large standard : Res Reply) :
    ∃ port : BitVec 64, Chosen s.port 44818#64 port ∧
      (connectFrom s ms dial reg large standard).dialed = s.ip ++ str ":" ++ dec port.toNat := by
  refine ⟨if s.port = 0#64 then 44818#64 else s.port, ⟨fun h => if_neg h, fun h => if_pos h⟩, ?_⟩
  unfold connectFrom
  rw [fill_eq]
  cases dial
  · rfl
  · cases hl : s.logger
    · simp only [Bool.not_true, Bool.not_false, hl, if_true]; rfl
    · simp only [Bool.not_true, hl]; rfl

theorem connectFrom_eq (s : Settings) (ms : BitVec 32) (reg : Res EipHeader) (large standard : Res Reply)
    (hl : s.logger = true) :
    (connectFrom s ms true reg large standard).sent = (connectWith (fill ms s).cfg reg large standard).1 ∧
    (connectFrom s ms true reg large standard).res = (connectWith (fill ms s).cfg reg large standard).2.2 ∧
    (connectFrom s ms true reg large standard).after = { fill ms s with
      size := (connectWith (fill ms s).cfg reg large standard).2.1.size,
      seq := (connectWith (fill ms s).cfg reg large standard).2.1.seq,
      serial := (connectWith (fill ms s).cfg reg large standard).2.1.serial,
      ot := (connectWith (fill ms s).cfg reg large standard).2.1.ot,
      session := (connectWith (fill ms s).cfg reg large standard).2.1.session } := by
  have h : (fill ms s).logger = true := by rw [fill_eq]; exact hl
  unfold connectFrom
  simp [h]

theorem fill_cfg (ms : BitVec 32) (s : Settings) : (fill ms s).cfg.path = s.path.getD [1#8, 0#8] ∧
    (fill ms s).cfg.vendor = s.vendor ∧ (fill ms s).cfg.oserial = s.oserial ∧
    (fill ms s).cfg.rpi = BitVec.ofInt 32 ((if s.rpi = 0 then 2500000000 else s.rpi).tdiv 1000) ∧
    wanted (fill ms s).cfg.size.toNat = wanted s.size.toNat ∧
    (fill ms s).cfg.session = s.session ∧ (fill ms s).cfg.context = s.context := by
  rw [fill_eq]
  refine ⟨rfl, rfl, rfl, rfl, ?_, rfl, rfl⟩
  show wanted (if s.size = 0#16 then 4000#16 else s.size).toNat = _
  by_cases h0 : s.size = 0#16
  · rw [h0]; rfl
  · rw [if_neg h0]

/-- C103: when `Connect` succeeds, the connection has been asked for over the route set, or that of slot 0 of the backplane;
with the size set, or 4000 bytes (or 511, when the large request was refused); with the vendor and serial number set; and
with the packet interval set, or 2.5 seconds, in microseconds, if it is one of up to 71 minutes.  The session and the
connection are used from then on. -/
theorem C103_asks (s : Settings) (ms : BitVec 32) (reg : Res EipHeader) (large standard : Res Reply)
    (hl : s.logger = true) (h : (connectFrom s ms true reg large standard).res = .ok ()) :
    ∃ (hd : EipHeader) (pre : List Bytes) (o : OpenReq) (route : Bytes) (rpi : Int) (size : Nat),
      reg = .ok hd ∧
      (∀ r, s.path = some r → route = r) ∧ (s.path = none → route = routeBytes [.num 1, .num 0]) ∧
      Chosen s.rpi 2500000000 rpi ∧ Chosen s.size.toNat 4000 size ∧
      (connectFrom s ms true reg large standard).sent =
        frame 0x65#16 s.session s.context [1#8, 0#8, 0#8, 0#8] :: (pre ++ [o.bytes]).map (fun m =>
          frame 0x6F#16 hd.session s.context ([0#8, 0#8, 0#8, 0#8, 0#8, 0#8] ++ cpf [(0x0#16, []), (0xB2#16, m)])) ∧
      (0 ≤ rpi → rpi < 4294967296000 → o.otrpi.toNat = rpi / 1000 ∧ o.torpi.toNat = rpi / 1000) ∧
      OpensTo o route (connectFrom s ms true reg large standard).after.size.toNat s.vendor s.oserial o.otrpi ∧
      Grants (if o.large then large else standard) (connectFrom s ms true reg large standard).after.ot ∧
      (connectFrom s ms true reg large standard).after.session = hd.session ∧
      ((connectFrom s ms true reg large standard).after.size.toNat = size ∧ pre = [] ∨
        511 < size ∧ Refuses large ∧ (connectFrom s ms true reg large standard).after.size.toNat = 511 ∧
          ∃ p : OpenReq, pre = [p.bytes] ∧ p.large = true ∧ OpensTo p route size s.vendor s.oserial o.otrpi) := by
  obtain ⟨e1, e2, e3⟩ := connectFrom_eq s ms reg large standard hl
  obtain ⟨f1, f2, f3, f4, f5, f6, f7⟩ := fill_cfg ms s
  rw [e2] at h
  rw [e1, e3]
  generalize (fill ms s).cfg = t at *
  cases reg with
  | err e => cases h
  | panic => cases h
  | ok hd =>
    have ho : ∃ ms' c', openConnection { t with session := hd.session } large standard = (ms', c', .ok ()) ∧
        (connectWith t (.ok hd) large standard).2.1 = c' ∧
        (connectWith t (.ok hd) large standard).1 = registerFrame t ::
          ms'.map (unconnectedFrame { t with session := hd.session }) := by
      unfold connectWith at h ⊢
      simp only at h ⊢
      generalize openConnection { t with session := hd.session } large standard = x at h
      obtain ⟨a, b, c⟩ := x
      exact ⟨a, b, by rw [← h], rfl, rfl⟩
    obtain ⟨ms', c', ho, hc', hsent⟩ := ho
    have hses : c'.session = hd.session := by
      have := openConnection_keeps { t with session := hd.session } large standard
      rw [ho] at this
      exact this
    obtain ⟨pre, o, g1, -, g3, -, g5, g6⟩ := C72_connected _ _ _ _ _ ho
    rw [hsent, hc']
    simp only [f1, f2, f3, f5] at g3 g6
    have hotrpi : o.otrpi = t.rpi := g3.otrpi
    refine ⟨hd, pre, o, s.path.getD [1#8, 0#8], if s.rpi = 0 then 2500000000 else s.rpi, wanted s.size.toNat, rfl,
      fun r hr => by rw [hr]; rfl, fun hr => by rw [hr]; rfl, ⟨fun h => if_neg h, fun h => if_pos h⟩,
      ⟨fun h0 => if_neg h0, fun h0 => if_pos h0⟩, ?_, ?_, ?_, g5, hses, ?_⟩
    · rw [g1]
      congr 1
      · unfold registerFrame
        rw [C01_frame_layout, f6, f7]
        rfl
      · apply List.map_congr_left
        intro m _
        unfold unconnectedFrame
        rw [C01_frame_layout]
        simp only [List.flatten_cons, List.flatten_nil, List.append_nil]
        rw [Server.rr_payload, f7]
        rfl
    · intro h0 h1
      have hn : (t.rpi.toNat : Int) = (if s.rpi = 0 then 2500000000 else s.rpi) / 1000 := by
        rw [f4, Int.tdiv_eq_ediv_of_nonneg h0, BitVec.toNat_ofInt]
        omega
      rw [g3.torpi, hotrpi]
      exact ⟨hn, hn⟩
    · rw [hotrpi]; exact g3
    · rw [hotrpi]
      rcases g6 with ⟨a, b⟩ | ⟨a, b, c, -, p, p1, -, p2, p3, -⟩
      · exact .inl ⟨a, b⟩
      · refine .inr ⟨a, b, ?_, p, p1, p2, p3⟩
        show c'.size.toNat = 511
        rw [c]; rfl

/-- C103, the other settings: an attempt changes none that was made, and what was left out is the default from then on.
(The size is 511 for good when the large request has been refused.) -/
theorem C103_keeps (s : Settings) (ms : BitVec 32) (dial : Bool) (reg : Res EipHeader) (large standard : Res Reply) :
    let a := (connectFrom s ms dial reg large standard).after
    a.ip = s.ip ∧ a.vendor = s.vendor ∧ a.oserial = s.oserial ∧ a.logger = s.logger ∧ a.context = s.context ∧
      Chosen s.port 44818#64 a.port ∧ Chosen s.timeout 10000000000 a.timeout ∧ Chosen s.rpi 2500000000 a.rpi ∧
      (∀ r, s.path = some r → a.path = some r) ∧ (s.path = none → a.path = some (routeBytes [.num 1, .num 0])) := by
  have key : ∀ t : Settings, (∃ size seq serial ot session, t = { fill ms s with size := size, seq := seq, serial := serial, ot := ot, session := session }) →
      t.ip = s.ip ∧ t.vendor = s.vendor ∧ t.oserial = s.oserial ∧ t.logger = s.logger ∧ t.context = s.context ∧
      Chosen s.port 44818#64 t.port ∧ Chosen s.timeout 10000000000 t.timeout ∧ Chosen s.rpi 2500000000 t.rpi ∧
      (∀ r, s.path = some r → t.path = some r) ∧ (s.path = none → t.path = some (routeBytes [.num 1, .num 0])) := by
    rintro t ⟨size, seq, serial, ot, session, rfl⟩
    rw [fill_eq]
    exact ⟨rfl, rfl, rfl, rfl, rfl, ⟨fun h => if_neg h, fun h => if_pos h⟩, ⟨fun h => if_neg h, fun h => if_pos h⟩,
      ⟨fun h => if_neg h, fun h => if_pos h⟩, fun r hr => by simp only; rw [hr]; rfl, fun hr => by simp only; rw [hr]; rfl⟩
  intro a
  apply key
  show ∃ size seq serial ot session, (connectFrom s ms dial reg large standard).after = _
  cases dial with
  | false => exact ⟨_, _, _, _, _, rfl⟩
  | true =>
    cases hl : s.logger with
    | true => exact ⟨_, _, _, _, _, (connectFrom_eq s ms reg large standard hl).2.2⟩
    | false =>
      have h : (fill ms s).logger = false := by rw [fill_eq]; exact hl
      unfold connectFrom
      simp only [h, Bool.not_true, Bool.not_false, if_true, Bool.false_eq_true, if_false]
      clear key a
      generalize fill ms s = t at *
      obtain ⟨ip, port, cv, path, os, v, tm, r, size, l, q, sn, ot, ss, cx⟩ := t
      cases h
      cases reg with
      | ok hd => exact ⟨_, _, _, _, hd.session, rfl⟩
      | err e => exact ⟨size, q, sn, ot, ss, rfl⟩
      | panic => exact ⟨size, q, sn, ot, ss, rfl⟩

/-- C103, `NewClient`: the client it makes is for the controller at that address, at port 44818, slot 0 of the backplane,
with connections of 4000 bytes, vendor 0x9999, a packet interval of 2.5 seconds and a timeout of 10 seconds. -/
theorem C103_new (ip : Str) (serial : BitVec 32) : ∃ s, newClient ip serial = .ok s ∧ s.ip = ip ∧ s.oserial = serial ∧
    s.port.toNat = 44818 ∧ s.path = some (routeBytes [.num 1, .num 0]) ∧ s.size.toNat = 4000 ∧ s.vendor.toNat = 0x9999 ∧
    s.rpi = 2500 * 1000000 ∧ s.timeout = 10 * 1000000000 ∧ s.logger = true := by
  have h : parsePath (str "1,0") = .ok [1#8, 0#8] := by decide +kernel
  unfold newClient
  rw [h]
  exact ⟨_, rfl, rfl, rfl, rfl, rfl, rfl, rfl, rfl, rfl, rfl⟩

/-- C103 is false for the vendor number: `Connect` gives the default to that of the controller, which no message
contains, and the connection is asked for by vendor 0. -/
theorem C103_vendor_left_out (s : Settings) (ms : BitVec 32) (reg : Res EipHeader) (large standard : Res Reply)
    (hl : s.logger = true) (hv : s.vendor = 0#16) (hc : s.ctlVendor = 0#16)
    (h : (connectFrom s ms true reg large standard).res = .ok ()) :
    (connectFrom s ms true reg large standard).after.ctlVendor = 0x9999#16 ∧
    ∃ (fs : List Bytes) (hd : EipHeader) (o : OpenReq), o.vendor = 0#16 ∧ (connectFrom s ms true reg large standard).sent = fs ++
      [frame 0x6F#16 hd.session s.context ([0#8, 0#8, 0#8, 0#8, 0#8, 0#8] ++ cpf [(0x0#16, []), (0xB2#16, o.bytes)])] := by
  constructor
  · rw [(connectFrom_eq s ms reg large standard hl).2.2, fill_eq]
    exact if_pos hc
  · obtain ⟨hd, pre, o, route, rpi, size, -, -, -, -, -, h1, -, h2, -⟩ := C103_asks s ms reg large standard hl h
    refine ⟨frame 0x65#16 s.session s.context [1#8, 0#8, 0#8, 0#8] :: pre.map (fun m =>
      frame 0x6F#16 hd.session s.context ([0#8, 0#8, 0#8, 0#8, 0#8, 0#8] ++ cpf [(0x0#16, []), (0xB2#16, m)])), hd, o,
      by rw [h2.vendor, hv], ?_⟩
    rw [h1, List.map_append]
    rfl

/-- C103 is false for packet intervals of 2³² microseconds (71 minutes) and more: what is asked for is the rest. -/
theorem C103_long_interval (s : Settings) (ms : BitVec 32) (h : 4294967296000 ≤ s.rpi) :
    ((fill ms s).cfg.rpi.toNat : Int) < s.rpi / 1000 ∧ ((fill ms s).cfg.rpi.toNat : Int) = s.rpi / 1000 % 4294967296 := by
  have hr : (fill ms s).cfg.rpi = BitVec.ofInt 32 (s.rpi.tdiv 1000) := by
    rw [fill_eq]
    show BitVec.ofInt 32 ((if s.rpi = 0 then 2500000000 else s.rpi).tdiv 1000) = _
    rw [if_neg (by omega)]
  rw [hr, Int.tdiv_eq_ediv_of_nonneg (by omega), BitVec.toNat_ofInt]
  omega

/-- C103 is false for a timeout of zero, by which client.go:80 means none: `Connect` makes it ten seconds. -/
theorem C103_no_timeout (s : Settings) (ms : BitVec 32) (dial : Bool) (reg : Res EipHeader) (large standard : Res Reply)
    (h : s.timeout = 0) : (connectFrom s ms dial reg large standard).after.timeout = 10000000000 :=
  (C103_keeps s ms dial reg large standard).2.2.2.2.2.2.1.2 h

/-- C103 is false for a logger that is left out: whatever the controller answers, `Connect` panics, and opens no
connection. -/
theorem C103_no_logger (s : Settings) (ms : BitVec 32) (dial : Bool) (reg : Res EipHeader) (large standard : Res Reply)
    (h : s.logger = false) : (connectFrom s ms dial reg large standard).res = .panic ∧
      (connectFrom s ms dial reg large standard).sent =
        if dial then [frame 0x65#16 s.session s.context [1#8, 0#8, 0#8, 0#8]] else [] := by
  have hl : (fill ms s).logger = false := by rw [fill_eq]; exact h
  unfold connectFrom
  cases dial with
  | false => simp [hl]
  | true =>
    simp only [hl, Bool.not_true, Bool.not_false, if_true, Bool.false_eq_true, if_false, List.cons.injEq, and_true, true_and]
    unfold registerFrame
    rw [C01_frame_layout, fill_eq]
    rfl

/-- With a logger it panics only when an answer to an open request makes it. -/
theorem C103_logger (s : Settings) (ms : BitVec 32) (dial : Bool) (reg : Res EipHeader) (large standard : Res Reply)
    (h : s.logger = true) (hr : reg ≠ .panic) (hb : ¬ Crashes large) (hs : ¬ Crashes standard) :
    (connectFrom s ms dial reg large standard).res ≠ .panic := by
  have hl : (fill ms s).logger = true := by rw [fill_eq]; exact h
  cases dial with
  | false => unfold connectFrom; simp [hl]
  | true =>
    rw [(connectFrom_eq s ms reg large standard h).2.1]
    rw [← crashes_iff] at hb hs
    cases reg with
    | panic => exact absurd rfl hr
    | err e => simp [connectWith]
    | ok hd =>
      unfold connectWith
      simp only
      rw [openConnection_eq]
      simp only
      generalize (if ({ (fill ms s).cfg with session := hd.session } : Cfg).size = 0#16 then
        ({ ({ (fill ms s).cfg with session := hd.session } : Cfg) with size := 4000#16 } : Cfg)
        else { (fill ms s).cfg with session := hd.session }) = d
      cases h1 : forwardOpenReply large <;> cases h2 : forwardOpenReply standard <;> simp_all <;> split <;> simp

/-- A client of which only the address and a logger are set: it dials port 44818, asks for 4000 bytes through slot 0 every
2.5 seconds, and is connected. -/
def bare : Settings :=
  ⟨str "10.0.0.1", 0, 0, none, 0, 0, 0, 0, 0, true, 0, 0, 0, 0, 0⟩

example : (connectFrom bare 5#32 true (.ok ⟨0x65#16, 4#16, 0x99#32, 0#32, 0#64, 0#32⟩) (.ok demoGrant) (.err .eof)).res = .ok () ∧
    (connectFrom bare 5#32 true (.ok ⟨0x65#16, 4#16, 0x99#32, 0#32, 0#64, 0#32⟩) (.ok demoGrant) (.err .eof)).dialed =
      str "10.0.0.1:44818" ∧
    (connectFrom bare 5#32 true (.ok ⟨0x65#16, 4#16, 0x99#32, 0#32, 0#64, 0#32⟩) (.ok demoGrant) (.err .eof)).after.size = 4000#16 := by
  decide +kernel

/-- Without the logger it panics. -/
example : (connectFrom { bare with logger := false } 5#32 true (.ok ⟨0x65#16, 4#16, 0x99#32, 0#32, 0#64, 0#32⟩) (.ok demoGrant)
    (.err .eof)).res = .panic := (C103_no_logger _ _ _ _ _ _ rfl).1

end Gologix.Connect
