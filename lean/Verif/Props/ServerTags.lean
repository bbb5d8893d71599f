import Verif.Lemmas.ServerTags
import Verif.Props.ServerDemo
import Verif.Props.Read
/-
C36: the server's answer to a multi-service packet.  C35: what a client writes a client reads back.
-/
set_option linter.unusedSimpArgs false

namespace Gologix.Server
open Gologix Gologix.Spec Gologix.Server.Spec M

/-- Connection `conn` is open, as `c`, and its path leads to endpoint `ep`, which holds the store `s`. -/
def Serves (srv : Srv) (conn : BitVec 32) (c : Conn) (ep : Nat) (s : Store) : Prop :=
  srv.conns.getByOT conn = .ok c ∧ srv.router.resolve c.path = .ok ep ∧ ∃ keys, srv.eps ep = .tags s keys

/-- `r` is a connected request on `conn` with the data `data`, at the front of what `st` has received. -/
def Asks (st : St) (r : Req) (conn : BitVec 32) (data rest : Bytes) : Prop :=
  r.wf ∧ st.inp = r.bytes ++ rest ∧ r.cmd = 0x70#16 ∧ r.id0 = 0xA1#16 ∧ r.data0 = le 4 conn.toNat ∧ r.data1 = data

/-- The state in which the request is handled. -/
def handling (st : St) (r : Req) (seq : BitVec 16) (rest : Bytes) : St :=
  { st with inp := rest, h := { st.h with context := r.context, seq := seq } }

theorem unit_step {C : Conv} {st : St} {r : Req} {conn : BitVec 32} {seq : BitVec 16} {svc : Byte}
    {d rest : Bytes} (h : Asks st r conn (le 2 seq.toNat ++ svc :: d) rest) :
    serveStep C st = unitService C (le 4 conn.toNat) (le 2 seq.toNat ++ svc :: d) conn svc d
      (handling st r seq rest) := by
  obtain ⟨hr, hi, hc, hid, h0, h1⟩ := h
  rw [serveStep_unit C r hr rest st hi hc]
  unfold unitItems
  simp only
  rw [if_neg (by simp [hid]), h0, h1]
  have e4 : readBV 32 (le 4 conn.toNat) = .ok (conn, []) := by
    have := readU32 conn []
    simpa [putBV] using this
  have e2 : readBV 16 (le 2 seq.toNat ++ svc :: d) = .ok (seq, svc :: d) := by
    have := readU16 seq (svc :: d)
    simpa [putBV] using this
  rw [e4, lift_ok_bind]
  simp only
  rw [e2, lift_ok_bind]
  simp only
  rw [bind_ok (m := M.modify _) (a := ()) rfl, readBV8_cons, lift_ok_bind]
  rfl

theorem multi_step {C : Conv} {st : St} {r : Req} {conn : BitVec 32} {seq : BitVec 16} {n : Nat}
    {tab tl rest : Bytes} {c : Conn} {ep : Nat} {s : Store}
    (h : Asks st r conn (le 2 seq.toNat ++ ([0x0A#8, 2#8, 0x20#8, 2#8, 0x24#8, 1#8] ++
      (le 2 n ++ (tab ++ tl)))) rest) (hs : Serves st.srv conn c ep s) (hn : n < 65536)
    (ht : tab.length = 2 * n) :
    serveStep C st = (multiAll C ep (le 2 seq.toNat ++ ([0x0A#8, 2#8, 0x20#8, 2#8, 0x24#8, 1#8] ++
      (le 2 n ++ (tab ++ tl)))) (unU16s tab) >>= fun results =>
        sendConnected 0x0A#8 seq c.to 0#8 (multiPayload results)) (handling st r seq rest) := by
  rw [unit_step (svc := 0x0A#8) (d := 2#8 :: 0x20#8 :: 2#8 :: 0x24#8 :: 1#8 :: (le 2 n ++ (tab ++ tl))) h]
  unfold unitService
  rw [if_neg (by decide), if_neg (by decide), if_neg (by decide), if_pos rfl]
  unfold connectedMulti
  obtain ⟨h1, h2, keys, h3⟩ := hs
  have e1 : getByOT conn (handling st r seq rest) = (.ok c, handling st r seq rest) := by
    unfold getByOT; rw [show (handling st r seq rest).srv = st.srv from rfl, h1]
  have e2 : resolve c.path (handling st r seq rest) = (.ok ep, handling st r seq rest) := by
    unfold resolve; rw [show (handling st r seq rest).srv = st.srv from rfl, h2]
  rw [bind_ok e1, bind_ok e2]
  generalize hrhs : (multiAll C ep _ _ >>= _ : M Unit) = rhs
  have e3 : ∀ d, readBV 16 (le 2 seq.toNat ++ d) = .ok (seq, d) := by
    intro d; have := readU16 seq d; simpa [putBV] using this
  rw [e3, lift_ok_bind]
  simp only [List.cons_append, readBV8_cons, lift_ok_bind]
  rw [show ((2#8 : BitVec 8) * 2#8).toNat = 4 from rfl]
  have e4 : ∀ d : Bytes, readN 4 (0x20#8 :: 2#8 :: 0x24#8 :: 1#8 :: d) = .ok ([0x20#8, 2#8, 0x24#8, 1#8], d) :=
    fun d => readN_append' (a := [0x20#8, 2#8, 0x24#8, 1#8]) rfl
  rw [e4, lift_ok_bind]
  simp only
  rw [getU_le, lift_ok_bind]
  simp only
  rw [Nat.mod_eq_of_lt (show n < 256 ^ 2 by omega), if_neg (by simp; omega), lift_ok_bind]
  simp only
  rw [List.take_left' ht, ← hrhs]
  rfl

/-- What a server sends for a packet of requests that succeed. -/
theorem multi_answered (C : Conv) (st : St) (r : Req) (conn : BitVec 32) (seq : BitVec 16)
    (body rest : Bytes) (c : Conn) (ep : Nat) (s s' : Store) (es : List EReq) (rs : List Bytes)
    (h : Asks st r conn (le 2 seq.toNat ++ ([0x0A#8, 2#8, 0x20#8, 2#8, 0x24#8, 1#8] ++ body)) rest)
    (hp : Packet body (es.map EReq.bytes)) (ht : 2 + 2 * es.length ≤ body.length)
    (hb : body.length ≤ 32768) (hwf : ∀ e ∈ es, e.wf) (hsv : Serves st.srv conn c ep s)
    (hs : Served C s es rs s') :
    ∃ (st' : St), serveStep C st = (.ok (), st') ∧
      st'.sent = st.sent ++ [frameOf (handling st r seq rest).h 0x70#16 (serializeItems
        [(Item.new 0xA1#16).write (putBV c.to), (Item.new 0xB1#16).write (putBV seq ++ resultHdr 0x0A#8 0#8 ++ multiPayload rs)])] ∧
      Serves st'.srv conn c ep s' := by
  have hsplit : body = le 2 es.length ++ ((body.drop 2).take (2 * es.length) ++ (body.drop 2).drop (2 * es.length)) := by
    have := hp.count
    rw [List.length_map] at this
    rw [List.take_append_drop, ← this, List.take_append_drop]
  have htl : ((body.drop 2).take (2 * es.length)).length = 2 * es.length := by simp; omega
  obtain ⟨ho1, ho2⟩ := packet_offsets (hdr := le 2 seq.toNat ++ [0x0A#8, 2#8, 0x20#8, 2#8, 0x24#8, 1#8])
    (by simp) hp ht hb
  have hstep := multi_step (C := C) (tl := (body.drop 2).drop (2 * es.length)) (by rw [← hsplit]; exact h) hsv
    (by omega) htl
  rw [← hsplit] at hstep
  obtain ⟨h1, h2, keys, h3⟩ := hsv
  obtain ⟨keys', hall⟩ := multiAll_served (C := C) (ep := ep) (st := handling st r seq rest) (keys := keys)
    (data := le 2 seq.toNat ++ ([0x0A#8, 2#8, 0x20#8, 2#8, 0x24#8, 1#8] ++ body)) hs hwf ho1
    (by simpa using ho2) h3
  rw [hstep, bind_ok hall]
  exact ⟨_, rfl, rfl, h1, h2, keys', by simp [Srv.setStore]⟩

/-- C36, for packets of well-formed read and write requests each of which succeeds on what the previous
ones left: the server sends one frame; its packet contains exactly one reply per request, in order, each
where the offset table says; the store is that after the last request.
Missing: a request that fails (`C36_failing_request`), one of another service
(`C36_other_service`), a write of a STRING (`C36_string_write_refused`), fragmented writes
(`C36_fragmented_write_misread`), counts that look like a path segment (C08), bodies above 32 KiB, whose
offsets the server takes for negative numbers (C26). -/
theorem C36_replies_partial (C : Conv) (st : St) (r : Req) (conn : BitVec 32) (seq : BitVec 16)
    (body rest : Bytes) (c : Conn) (ep : Nat) (s s' : Store) (es : List EReq) (rs : List Bytes)
    (h : Asks st r conn (le 2 seq.toNat ++ ([0x0A#8, 2#8, 0x20#8, 2#8, 0x24#8, 1#8] ++ body)) rest)
    (hp : Packet body (es.map EReq.bytes)) (ht : 2 + 2 * es.length ≤ body.length)
    (hb : body.length ≤ 32768) (hwf : ∀ e ∈ es, e.wf) (hsv : Serves st.srv conn c ep s)
    (hs : Served C s es rs s') (hl : 2 + 2 * rs.length + rs.flatten.length + 8 < 65536) :
    rs.length = es.length ∧
    ∃ (st' : St) (f body' : Bytes), serveStep C st = (.ok (), st') ∧ st'.sent = st.sent ++ [f] ∧
      Echo r.context st.h.handle 0x0A#8 f ∧
      f.drop 24 = MultiForm.payload ⟨0#32, 0#16, 0xA1#16, le 4 c.to.toNat, 0xB1#16, seq, 0x8A#8, 0#8⟩ body' ∧
      Packet body' rs ∧ Serves st'.srv conn c ep s' := by
  have hrl := served_length hs
  refine ⟨hrl, ?_⟩
  obtain ⟨st', e1, e2, e3⟩ := multi_answered C st r conn seq body rest c ep s s' es rs h hp ht hb hwf hsv hs
  refine ⟨st', _, multiPayload rs, e1, e2, ?_, ?_, packet_reply hl, e3⟩
  · have := unit_service (handling st r seq rest).h c.to (putBV seq) (by simp) 0x0A#8
      ([0#8, 0#8, 0#8] ++ multiPayload rs)
    show Echo (handling st r seq rest).h.context (handling st r seq rest).h.handle _ _
    simpa [sendConnected, resultHdr] using this
  · rw [frameOf_drop, unit_payload]
    simp [MultiForm.payload, resultHdr, putBV, le]

theorem served_append_stops {C : Conv} {ep : Nat} {data : Bytes} {s s' : Store} {good : List EReq}
    {rs : List Bytes} (h : Served C s good rs s') :
    ∀ {offs : List (BitVec 16)} {o : BitVec 16} {offs2 : List (BitVec 16)} {st : St} {keys : List Str} {e : Err},
      (∀ x ∈ good, x.wf) → offs.length = good.length →
      (∀ (k : Nat) o e, offs[k]? = some o → good[k]? = some e → At data o e) → st.srv.eps ep = .tags s keys →
      (∀ st1 keys1, st1.srv.eps ep = .tags s' keys1 → multiOne C ep data o st1 = (.err e, st1)) →
      ∃ keys', multiAll C ep data (offs ++ o :: offs2) st =
        (.err e, { st with srv := st.srv.setStore ep s' keys' }) := by
  induction h with
  | nil s =>
    intro offs o offs2 st keys e _ hl _ he hbad
    have : offs = [] := List.eq_nil_of_length_eq_zero hl
    subst this
    refine ⟨keys, ?_⟩
    simp only [List.nil_append, multiAll]
    rw [bind_err (hbad st keys he), setStore_self he]
  | read frag words ps path count v image hr hv hs ih =>
    intro offs o offs2 st keys e hwf hl hat he hbad
    match offs, hl with
    | o1 :: offs, hl =>
      obtain ⟨h0, rest, hd⟩ := hat 0 o1 _ rfl rfl
      have h1 := multiOne_read (C := C) h0 hd (hwf _ (by simp)) he hr hv
      obtain ⟨keys', h2⟩ := ih (o := o) (offs2 := offs2) (fun e he => hwf e (by simp [he])) (by simpa using hl)
        (fun k o e h1 h2 => hat (k + 1) o e (by simpa using h1) (by simpa using h2)) he hbad
      refine ⟨keys', ?_⟩
      simp only [List.cons_append, multiAll]
      rw [bind_ok h1, bind_err h2]
  | write words ps path T vs hw hs ih =>
    intro offs o offs2 st keys e hwf hl hat he hbad
    match offs, hl with
    | o1 :: offs, hl =>
      obtain ⟨h0, rest, hd⟩ := hat 0 o1 _ rfl rfl
      obtain ⟨k1, h1⟩ := multiOne_write (C := C) h0 hd (hwf _ (by simp)) he hw
      obtain ⟨keys', h2⟩ := ih (o := o) (offs2 := offs2) (st := { st with srv := st.srv.setStore ep _ k1 })
        (fun e he => hwf e (by simp [he])) (by simpa using hl)
        (fun k o e h1 h2 => hat (k + 1) o e (by simpa using h1) (by simpa using h2)) (setStore_eps _ _ _ _) hbad
      refine ⟨keys', ?_⟩
      simp only [List.cons_append, multiAll]
      rw [bind_ok h1, bind_err h2, setStore_setStore]

theorem multiOne_read_err {C : Conv} {st : St} {ep : Nat} {data : Bytes} {off : BitVec 16} {s : Store}
    {keys : List Str} {frag : Bool} {words : Byte} {ps : List Part} {path : Bytes} {count : Nat} {x : Err}
    {rest : Bytes} (hoff : 0 ≤ off.toInt)
    (hd : data.drop (off.toInt + 8).toNat = (EReq.read frag words ps path count).bytes ++ rest)
    (hwf : (EReq.read frag words ps path count).wf) (he : st.srv.eps ep = .tags s keys)
    (hr : tagRead s (render ps) count = .err x) :
    multiOne C ep data off st = (.err x, st) := by
  obtain ⟨hp, hc, hsafe⟩ := hwf
  have hbytes : ∃ svc more, (svc = 0x52#8 ∨ svc = 0x4C#8) ∧
      data.drop (off.toInt + 8).toNat = svc :: words :: (path ++ (le 2 count ++ more)) := by
    rw [hd]
    cases frag
    · exact ⟨0x4C#8, rest, .inr rfl, by simp [EReq.bytes]⟩
    · exact ⟨0x52#8, le 4 0 ++ rest, .inl rfl, by simp [EReq.bytes]⟩
  obtain ⟨svc, more, hs, e⟩ := hbytes
  have hgu : getU 2 (le 2 count ++ more) = .ok (count, more) := by
    rw [getU_le, Nat.mod_eq_of_lt (by omega)]
  unfold multiOne
  rw [if_neg (show ¬ off.toInt + 8 < 0 by omega), e]
  simp only [readBV8_cons, lift_ok_bind, getU_one]
  rw [if_pos hs, getTag_path hp _ (safe_head hsafe more)]
  simp only [lift_ok_bind, hgu]
  have hrt : readTag ep (render ps) (BitVec.ofNat 16 count) st = (.err x, st) := by
    rw [readTag_ok he, count_int hc, hr]
  rw [bind_err hrt]

/-- Disagreement: when the read of one embedded request fails, for instance because there is no such tag,
the client gets no reply at all, neither to that request nor to the others; the requests before it have
been carried out; the connection ends. -/
theorem C36_failing_request (C : Conv) (st : St) (r : Req) (conn : BitVec 32) (seq : BitVec 16)
    (body rest : Bytes) (c : Conn) (ep : Nat) (s s' : Store) (good more : List EReq) (rs : List Bytes)
    (frag : Bool) (words : Byte) (ps : List Part) (path : Bytes) (count : Nat) (x : Err)
    (h : Asks st r conn (le 2 seq.toNat ++ ([0x0A#8, 2#8, 0x20#8, 2#8, 0x24#8, 1#8] ++ body)) rest)
    (hp : Packet body ((good ++ .read frag words ps path count :: more).map EReq.bytes))
    (ht : 2 + 2 * (good ++ .read frag words ps path count :: more).length ≤ body.length)
    (hb : body.length ≤ 32768) (hwf : ∀ e ∈ good, e.wf) (hwb : (EReq.read frag words ps path count).wf)
    (hsv : Serves st.srv conn c ep s) (hs : Served C s good rs s')
    (hbad : tagRead s' (render ps) count = .err x) :
    ∃ st', serveStep C st = (.err x, st') ∧ st'.sent = st.sent ∧ Serves st'.srv conn c ep s' := by
  generalize hes : good ++ .read frag words ps path count :: more = es at hp ht
  have hsplit : body = le 2 es.length ++ ((body.drop 2).take (2 * es.length) ++ (body.drop 2).drop (2 * es.length)) := by
    have := hp.count
    rw [List.length_map] at this
    rw [List.take_append_drop, ← this, List.take_append_drop]
  have htl : ((body.drop 2).take (2 * es.length)).length = 2 * es.length := by simp; omega
  obtain ⟨ho1, ho2⟩ := packet_offsets (hdr := le 2 seq.toNat ++ [0x0A#8, 2#8, 0x20#8, 2#8, 0x24#8, 1#8])
    (by simp) hp ht hb
  have hstep := multi_step (C := C) (tl := (body.drop 2).drop (2 * es.length)) (by rw [← hsplit]; exact h) hsv
    (by omega) htl
  rw [← hsplit] at hstep
  obtain ⟨h1, h2, keys, h3⟩ := hsv
  generalize unU16s ((body.drop 2).take (2 * es.length)) = offs at ho1 ho2 hstep
  have hgl : good.length < offs.length := by rw [ho1, ← hes]; simp
  have hoffs : offs = offs.take good.length ++ offs[good.length] :: offs.drop (good.length + 1) := by
    rw [List.getElem_cons_drop hgl, List.take_append_drop]
  have hat : At (le 2 seq.toNat ++ ([0x0A#8, 2#8, 0x20#8, 2#8, 0x24#8, 1#8] ++ body)) offs[good.length]
      (.read frag words ps path count) := by
    have := ho2 good.length _ (.read frag words ps path count) (List.getElem?_eq_getElem hgl)
      (by rw [← hes, List.getElem?_append_right (Nat.le_refl _)]; simp)
    simpa using this
  obtain ⟨hat0, tl, hat1⟩ := hat
  obtain ⟨keys', hall⟩ := served_append_stops (C := C) (ep := ep) (st := handling st r seq rest) (keys := keys)
    (data := le 2 seq.toNat ++ ([0x0A#8, 2#8, 0x20#8, 2#8, 0x24#8, 1#8] ++ body)) hs
    (offs := offs.take good.length) (o := offs[good.length]) (offs2 := offs.drop (good.length + 1)) (e := x) hwf
    (by simp; omega)
    (by
      intro k o e hk hg
      have hlt : k < good.length := by
        rcases Nat.lt_or_ge k good.length with h | h
        · exact h
        · rw [List.getElem?_eq_none h] at hg; simp at hg
      rw [List.getElem?_take_of_lt hlt] at hk
      have := ho2 k o e hk (by rw [← hes, List.getElem?_append_left hlt, hg])
      simpa using this)
    h3
    (fun st1 keys1 h => multiOne_read_err hat0 hat1 hwb h hbad)
  rw [← hoffs] at hall
  rw [hstep, bind_err hall]
  exact ⟨_, rfl, rfl, h1, h2, keys', by simp [Srv.setStore]⟩

/-- The body of a packet with a single embedded request. -/
def single (svc : Bytes) : Bytes := le 2 1 ++ (le 2 4 ++ svc)

theorem single_step {C : Conv} {st : St} {r : Req} {conn : BitVec 32} {seq : BitVec 16}
    {svc rest : Bytes} {c : Conn} {ep : Nat} {s : Store}
    (h : Asks st r conn (le 2 seq.toNat ++ ([0x0A#8, 2#8, 0x20#8, 2#8, 0x24#8, 1#8] ++ single svc)) rest)
    (hs : Serves st.srv conn c ep s) :
    ∃ data, data.drop ((4#16).toInt + 8).toNat = svc ∧
      serveStep C st = ((multiOne C ep data 4#16 >>= fun b => (pure [b] : M (List Bytes))) >>= fun results =>
        sendConnected 0x0A#8 seq c.to 0#8 (multiPayload results)) (handling st r seq rest) := by
  have := multi_step (C := C) (n := 1) (tab := le 2 4) (tl := svc) h hs (by decide) (by simp)
  refine ⟨_, ?_, this⟩
  rw [show ((4#16 : BitVec 16).toInt + 8).toNat = 12 from rfl]
  simp [le]

/-- Disagreement: an embedded request that is neither a read nor a write gets an empty reply, without a
service code and status; the packet as a whole is answered with success. -/
theorem C36_other_service (C : Conv) (st : St) (r : Req) (conn : BitVec 32) (seq : BitVec 16)
    (svc words : Byte) (x rest : Bytes) (c : Conn) (ep : Nat) (s : Store)
    (h : Asks st r conn (le 2 seq.toNat ++ ([0x0A#8, 2#8, 0x20#8, 2#8, 0x24#8, 1#8] ++
      single (svc :: words :: x))) rest)
    (hs : Serves st.srv conn c ep s)
    (hsvc : svc ≠ 0x4C#8 ∧ svc ≠ 0x52#8 ∧ svc ≠ 0x4D#8 ∧ svc ≠ 0x53#8) :
    ∃ (st' : St) (f : Bytes), serveStep C st = (.ok (), st') ∧ st'.sent = st.sent ++ [f] ∧
      f.drop 24 = MultiForm.payload ⟨0#32, 0#16, 0xA1#16, le 4 c.to.toNat, 0xB1#16, seq, 0x8A#8, 0#8⟩
        (single []) := by
  obtain ⟨data, hd, hstep⟩ := single_step (C := C) h hs
  have h1 : multiOne C ep data 4#16 (handling st r seq rest) = (.ok [], handling st r seq rest) := by
    unfold multiOne
    rw [if_neg (by decide), hd]
    simp only [readBV8_cons, lift_ok_bind, getU_one]
    rw [if_neg (by simp [hsvc]), if_neg (by simp [hsvc])]
    rfl
  rw [hstep, bind_ok (st' := handling st r seq rest) (a := [[]]) (by rw [bind_ok h1]; rfl)]
  refine ⟨_, _, rfl, rfl, ?_⟩
  rw [frameOf_drop, unit_payload]
  have : multiPayload [[]] = single [] := by decide
  rw [this]
  simp [MultiForm.payload, resultHdr, putBV, le]

/-- Disagreement: an embedded write of a STRING, as the client's `WriteMap` sends it, ends the connection
without a reply. -/
theorem C36_string_write_refused (C : Conv) (st : St) (r : Req) (conn : BitVec 32) (seq : BitVec 16)
    (words : Byte) (ps : List Part) (path x rest : Bytes) (c : Conn) (ep : Nat) (s : Store)
    (h : Asks st r conn (le 2 seq.toNat ++ ([0x0A#8, 2#8, 0x20#8, 2#8, 0x24#8, 1#8] ++
      single ([0x4D#8, words] ++ (path ++ (typeField .str ++ x))))) rest)
    (hp : PathOf ps path) (hs : Serves st.srv conn c ep s) :
    ∃ e st', serveStep C st = (.err e, st') ∧ st'.sent = st.sent := by
  obtain ⟨data, hd, hstep⟩ := single_step (C := C) h hs
  have h1 : ∃ e, multiOne C ep data 4#16 (handling st r seq rest) = (.err e, handling st r seq rest) := by
    unfold multiOne
    rw [if_neg (by decide), hd]
    simp only [List.cons_append, readBV8_cons, lift_ok_bind, getU_one, List.nil_append]
    rw [if_neg (by decide), if_pos (by simp), getTag_path hp _ (typeField_head .str _)]
    simp only [lift_ok_bind]
    have e1 : typeField .str ++ x = 0xA0#8 :: 0x02#8 :: (putBV 0x0FCE#16 ++ x) := by
      simp [typeField, putBV, le]
    rw [e1]
    simp only [readBV8_cons, lift_ok_bind, readU16]
    rw [show (0x0FCE#16 : BitVec 16).toNat = 4045 + 1 from rfl]
    refine ⟨.fail, ?_⟩
    rfl
  obtain ⟨e, h1⟩ := h1
  refine ⟨e, handling st r seq rest, ?_, rfl⟩
  rw [hstep, bind_err (by rw [bind_err h1])]

/-- Disagreement: of an embedded fragmented write (type, count, byte offset, data) the server takes the
offset for the value. -/
theorem C36_fragmented_write_misread (C : Conv) (st : St) (r : Req) (conn : BitVec 32) (seq : BitVec 16)
    (words : Byte) (ps : List Part) (path rest : Bytes) (offset v : BitVec 32) (c : Conn) (ep : Nat) (s : Store)
    (h : Asks st r conn (le 2 seq.toNat ++ ([0x0A#8, 2#8, 0x20#8, 2#8, 0x24#8, 1#8] ++
      single ([0x53#8, words] ++ (path ++ (typeField .i32 ++ (le 2 1 ++ (le 4 offset.toNat ++ le 4 v.toNat))))))) rest)
    (hp : PathOf ps path) (hw : wholeName (render ps)) (hs : Serves st.srv conn c ep s) :
    ∃ st' s', serveStep C st = (.ok (), st') ∧ Serves st'.srv conn c ep s' ∧
      tagRead s' (render ps) 1 = .ok (.scal (.i32 offset)) := by
  obtain ⟨data, hd, hstep⟩ := single_step (C := C) h hs
  obtain ⟨hc1, hc2, keys, hc3⟩ := hs
  have hwr : tagWrite C s (render ps) (.scal (.i32 offset)) =
      (.ok (), s.set (toLower (render ps)) (.scal (.i32 offset))) := by
    unfold tagWrite
    rw [parse_whole hw]
    simp only
    split <;> simp_all
  obtain ⟨keys', hk⟩ := writeValues_ok (C := C) (st := handling st r seq rest) (vs := [.i32 offset]) (by simp)
    hc3 hwr
  have h1 : multiOne C ep data 4#16 (handling st r seq rest) = (.ok [0xD3#8, 0#8, 0#8, 0#8],
      { handling st r seq rest with
        srv := (handling st r seq rest).srv.setStore ep (s.set (toLower (render ps)) (.scal (.i32 offset))) keys' }) := by
    unfold multiOne
    rw [if_neg (by decide), hd]
    simp only [List.cons_append, readBV8_cons, lift_ok_bind, getU_one, List.nil_append]
    rw [if_neg (by decide), if_pos (by simp), getTag_path hp _ (typeField_head .i32 _)]
    simp only [lift_ok_bind]
    rw [typeField_cip (by decide)]
    have e1 : le 2 1 = putBV 1#16 := rfl
    have e2 : le 4 offset.toNat = (Scal.i32 offset).encode := rfl
    simp only [List.cons_append, List.nil_append, readBV8_cons, lift_ok_bind, e1, readU16]
    have := readElems_values (T := .i32) (vs := [.i32 offset]) (by decide) (by simp [Scal.ty]) (le 4 v.toNat)
    rw [e2, show (1#16 : BitVec 16).toNat = [Scal.i32 offset].length from rfl]
    simp only [List.map_cons, List.map_nil, List.flatten_cons, List.flatten_nil, List.append_nil] at this
    rw [this, lift_ok_bind]
    simp only
    rw [bind_ok hk]
    rfl
  rw [hstep, bind_ok (a := [[0xD3#8, 0#8, 0#8, 0#8]]) (by rw [bind_ok h1]; rfl)]
  refine ⟨_, s.set (toLower (render ps)) (.scal (.i32 offset)), rfl, ⟨hc1, hc2, keys', ?_⟩, ?_⟩
  · simp [Srv.setStore]
  · unfold tagRead
    rw [parse_whole hw]
    simp [Store.set]

/-! ### The demo server -/

def demoPath (name : String) : Bytes :=
  0x91#8 :: BitVec.ofNat 8 (str name).length :: (str name ++ List.replicate ((str name).length % 2) 0#8)

theorem demoPath_count : PathOf [⟨str "count", []⟩] (demoPath "count") :=
  ⟨by decide, PathBytes.cons (a := demoPath "count") (b := []) (SegBytes.name (str "count") [0#8] (by decide) rfl)
    PathBytes.nil⟩

theorem demoPath_arr : PathOf [⟨str "arr", []⟩] (demoPath "arr") :=
  ⟨by decide, PathBytes.cons (a := demoPath "arr") (b := []) (SegBytes.name (str "arr") [0#8] (by decide) rfl)
    PathBytes.nil⟩

/-- write 7 to `count`, read it, read two elements of `arr` -/
def demoReqs : List EReq :=
  [.write 4#8 [⟨str "count", []⟩] (demoPath "count") .i32 [.i32 7#32],
   .read false 4#8 [⟨str "count", []⟩] (demoPath "count") 1,
   .read false 3#8 [⟨str "arr", []⟩] (demoPath "arr") 2]

/-- The packet of `demoReqs`, from its count field on. -/
def demoBody : Bytes :=
  [3#8, 0#8, 8#8, 0#8, 26#8, 0#8, 38#8, 0#8] ++ (demoReqs.map EReq.bytes).flatten

def demoMulti (body : Bytes) : Req :=
  demoUnit ([5#8, 0#8, 0x0A#8, 2#8, 0x20#8, 2#8, 0x24#8, 1#8] ++ body)

theorem demo_serves (inp : Bytes) : ∃ c, Serves (demoSt inp).srv 0x11#32 c 0 demoStore ∧ c.to = 0x22#32 :=
  ⟨_, ⟨rfl, rfl, _, rfl⟩, rfl⟩

theorem demo_asks (data : Bytes) (h : data.length < 65536) :
    Asks (demoSt (demoUnit data).bytes) (demoUnit data) 0x11#32 data [] :=
  ⟨⟨rfl, by simp [demoUnit], h⟩, by simp [demoSt], rfl, rfl, rfl, rfl⟩

/-- The premises of `C36_replies_partial` hold of the demo server and this packet. -/
example : ∃ rs s' c, Packet demoBody (demoReqs.map EReq.bytes) ∧ (∀ e ∈ demoReqs, e.wf) ∧
    Asks (demoSt (demoMulti demoBody).bytes) (demoMulti demoBody) 0x11#32
      (le 2 (5#16 : BitVec 16).toNat ++ ([0x0A#8, 2#8, 0x20#8, 2#8, 0x24#8, 1#8] ++ demoBody)) [] ∧
    Serves (demoSt (demoMulti demoBody).bytes).srv 0x11#32 c 0 demoStore ∧
    Served demoConv demoStore demoReqs rs s' ∧ rs.length = 3 := by
  obtain ⟨c, hc, -⟩ := demo_serves (demoMulti demoBody).bytes
  refine ⟨_, _, c, ⟨by decide +kernel, ?_⟩, ?_, demo_asks _ (by decide +kernel), hc,
    .write (s1 := demoStore.set (str "count") (.scal (.i32 7#32))) _ _ _ _ _ (by rfl)
      (.read _ _ _ _ _ (.scal (.i32 7#32)) _ (by rfl) (.scalar (.i32 7#32) .i32 rfl (by decide))
      (.read _ _ _ _ _ (.slice (some .i32) ([Scal.i32 1#32, .i32 2#32].map TVal.scal)) _ (by rfl)
        (.array .i32 _ (by simp [Scal.ty]) (by decide) (by decide)) (.nil _))), rfl⟩
  · intro k svc h
    have hk : k = 0 ∨ k = 1 ∨ k = 2 := by
      have := (List.getElem?_eq_some_iff.mp h).1
      simp [demoReqs] at this
      omega
    rcases hk with rfl | rfl | rfl <;> (injection h with h; subst h; decide +kernel)
  · intro e he
    simp only [demoReqs, List.mem_cons, List.not_mem_nil, or_false] at he
    rcases he with rfl | rfl | rfl
    · exact ⟨demoPath_count, by decide, by simp, by decide, by simp [Scal.ty]⟩
    · exact ⟨demoPath_count, by decide, by decide⟩
    · exact ⟨demoPath_arr, by decide, by decide⟩

/-- The reply: write confirmed, 7, and two elements. -/
example : ((serveStep demoConv (demoSt (demoMulti demoBody).bytes)).2.sent.map fun f => f.drop 50) =
    [[3#8, 0#8, 8#8, 0#8, 12#8, 0#8, 22#8, 0#8] ++ [0xCD#8, 0#8, 0#8, 0#8] ++
      [0xCC#8, 0#8, 0#8, 0#8, 0xC4#8, 0#8, 7#8, 0#8, 0#8, 0#8] ++
      [0xCC#8, 0#8, 0#8, 0#8, 0xC4#8, 0#8, 1#8, 0#8, 0#8, 0#8, 2#8, 0#8, 0#8, 0#8]] := by
  decide +kernel

/-- `C36_failing_request`: after the write a read of a tag that is not there.  No reply, and `count` is 7. -/
example :
    let es := [EReq.write 4#8 [⟨str "count", []⟩] (demoPath "count") .i32 [.i32 7#32],
      .read false 4#8 [⟨str "nope", []⟩] (demoPath "nope") 1]
    let out := serveStep demoConv (demoSt (demoMulti ([2#8, 0#8, 6#8, 0#8, 24#8, 0#8] ++
      (es.map EReq.bytes).flatten)).bytes)
    out.1 = .err .fail ∧ out.2.sent = [] ∧
      (match out.2.srv.eps 0 with | .tags s _ => s (str "count") = some (.scal (.i32 7#32)) | _ => False) := by
  refine ⟨by decide +kernel, by decide +kernel, by rfl⟩

/-- `C36_other_service`: get attribute list, embedded. -/
example : ((serveStep demoConv (demoSt (demoMulti (single [0x03#8, 2#8, 0x20#8, 1#8, 0x24#8, 1#8])).bytes)).2.sent.map
    fun f => f.drop 46) = [[0x8A#8, 0#8, 0#8, 0#8, 1#8, 0#8, 4#8, 0#8]] := by
  decide +kernel

/-- `C36_string_write_refused` -/
example : (serveStep demoConv (demoSt (demoMulti (single ([0x4D#8, 4#8] ++ (demoPath "text" ++
      (Gologix.Spec.typeField .str ++ (le 2 1 ++ Gologix.Spec.stringSlot (str "hi"))))))).bytes)).2.sent = [] := by
  decide +kernel

/-- `C36_fragmented_write_misread`: 9 written at offset 0 arrives as 0. -/
example : (match (serveStep demoConv (demoSt (demoMulti (single ([0x53#8, 4#8] ++ (demoPath "count" ++
      (Gologix.Spec.typeField .i32 ++ (le 2 1 ++ (le 4 0 ++ le 4 9))))))).bytes)).2.srv.eps 0 with
    | .tags s _ => s (str "count") = some (.scal (.i32 0#32))
    | _ => False) := by
  rfl

end Gologix.Server
