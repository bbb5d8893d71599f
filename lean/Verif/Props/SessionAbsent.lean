import Verif.Props.SessionTypes
import Verif.Props.SessionMulti
set_option linter.unusedSimpArgs false
/-
C104, C114, C117: what becomes of a request for several tags if the server does not have all of them.
-/
namespace Gologix.Session
open Gologix Gologix.Spec Gologix.Server Gologix.Server.Spec Gologix.Connect Gologix.Connect.Spec Gologix.Session.Spec

/-- The tags of a server do not have what is asked for: there is nothing under the name, or an array that is too short, or a
single value where an element is asked for. -/
inductive Lacks (tags : Store) : Ask → Prop
  | name {a : Ask} {name : Str} {i : Option Nat} (hp : Place a.tag name i) (h : tags (toLower name) = none) : Lacks tags a
  | short {a : Ask} {name : Str} {e : Option GoTy} {vs : List TVal} (hp : Place a.tag name none)
      (h : tags (toLower name) = some (.slice e vs)) (hn : vs.length < a.n) : Lacks tags a
  | past {a : Ask} {name : Str} {i : Nat} {e : Option GoTy} {vs : List TVal} (hp : Place a.tag name (some i))
      (h : tags (toLower name) = some (.slice e vs)) (hn : vs.length < i + a.n) : Lacks tags a
  | single {a : Ask} {name : Str} {i : Nat} {v : Scal} (hp : Place a.tag name (some i))
      (h : tags (toLower name) = some (.scal v)) : Lacks tags a

theorem lacks_read {tags : Store} {a : Ask} (h : Lacks tags a) : tagRead tags (render a.tag) a.n = .err .fail := by
  cases h with
  | name hp h =>
    cases hp with
    | whole hw =>
      unfold tagRead
      rw [parse_whole hw]
      simp only [h]
    | element hr hi =>
      rw [hr]
      unfold tagRead elemName
      rw [parse_elem (atoi_dec hi)]
      simp only [h]
  | short hp h hn =>
    cases hp with
    | whole hw =>
      unfold tagRead
      rw [parse_whole hw]
      simp only [h]
      rw [if_neg (by omega)]
  | past hp h hn =>
    cases hp with
    | element hr hi =>
      rw [hr]
      unfold tagRead elemName
      rw [parse_elem (atoi_dec hi)]
      simp only [h]
      split
      · rfl
      · rw [if_pos (by omega)]
  | single hp h =>
    cases hp with
    | element hr hi =>
      rw [hr]
      unfold tagRead elemName
      rw [parse_elem (atoi_dec hi)]
      simp only [h]

/-- The first that is missing. -/
theorem first_lack {tags : Store} {m : Memory} : ∀ (asks : List Ask), (∀ a ∈ asks, (∃ v, Sees m a v) ∨ Lacks tags a) →
    (∃ a ∈ asks, Lacks tags a) →
    ∃ (good : List Ask) (bad : Ask) (more : List Ask) (vs : List RV), asks = good ++ bad :: more ∧ Lacks tags bad ∧
      vs.length = good.length ∧ ∀ (i : Nat) a v, good[i]? = some a → vs[i]? = some v → Sees m a v
  | [], _, ⟨a, ha, _⟩ => by cases ha
  | a :: asks, h, he => by
    rcases h a (by simp) with ⟨v, hv⟩ | hl
    · by_cases hx : Lacks tags a
      · exact ⟨[], a, asks, [], rfl, hx, rfl, by simp⟩
      · obtain ⟨b, hb, hlb⟩ := he
        have hb' : b ∈ asks := by
          rcases List.mem_cons.1 hb with rfl | hb
          · exact absurd hlb hx
          · exact hb
        obtain ⟨good, bad, more, vs, h1, h2, h3, h4⟩ := first_lack asks (fun c hc => h c (by simp [hc])) ⟨b, hb', hlb⟩
        refine ⟨a :: good, bad, more, v :: vs, by simp [h1], h2, by simp [h3], fun i c w hc hw => ?_⟩
        cases i with
        | zero => cases hc; cases hw; exact hv
        | succ i => exact h4 i c w (by simpa using hc) (by simpa using hw)
    · exact ⟨[], a, asks, [], rfl, hl, rfl, by simp⟩

/-- An embedded write the tags refuse. -/
theorem multiOne_write_err {C : Conv} {st : St} {ep : Nat} {data : Bytes} {off : BitVec 16} {s : Store}
    {keys : List Str} {words : Byte} {ps : List Part} {path : Bytes} {T : GoTy} {vs : List Scal} {x : Err}
    {rest : Bytes} (hoff : 0 ≤ off.toInt)
    (hd : data.drop (off.toInt + 8).toNat = (EReq.write words ps path T vs).bytes ++ rest)
    (hwf : (EReq.write words ps path T vs).wf) (he : st.srv.eps ep = .tags s keys)
    (hw : tagWrite C s (render ps) (written vs) = (.err x, s)) :
    multiOne C ep data off st = (.err x, st) := by
  obtain ⟨hp, hT, hne, hn, hv⟩ := hwf
  have e : data.drop (off.toInt + 8).toNat = 0x4D#8 :: words :: (path ++ (typeField T ++
      (putBV (BitVec.ofNat 16 vs.length) ++ ((vs.map Scal.encode).flatten ++ rest)))) := by
    rw [hd]; simp [EReq.bytes, putBV_ofNat16]
  have hk : ∀ v, tagWrite C s (render ps) v = (.err x, s) → writeTag C ep (render ps) v st = (.err x, st) := by
    intro v hv
    have hfun : (fun e => if e = ep then Endpoint.tags s keys else st.srv.eps e) = st.srv.eps := by
      funext e
      by_cases h : e = ep
      · rw [if_pos h, h, he]
      · rw [if_neg h]
    have hkeys : (if (s (toLower (render ps))).isNone && (s (toLower (render ps))).isSome then keys ++ [toLower (render ps)] else keys) =
        keys := by cases s (toLower (render ps)) <;> rfl
    unfold writeTag
    simp only [he, hv, hkeys, hfun]
  have hk' : writeValues C ep (render ps) vs st = (.err x, st) := by
    match vs, hne, hw with
    | [v], _, hw => exact hk _ hw
    | a :: b :: l, _, hw => exact hk _ hw
  unfold multiOne
  rw [if_neg (show ¬ off.toInt + 8 < 0 by omega), e]
  simp only [readBV8_cons, lift_ok_bind, getU_one]
  rw [if_neg (by decide), if_pos (by simp), getTag_path hp _ (typeField_head T _)]
  simp only [lift_ok_bind]
  rw [typeField_cip hT]
  simp only [List.cons_append, List.nil_append, readBV8_cons, lift_ok_bind, readU16, BitVec.toNat_ofNat]
  rw [Nat.mod_eq_of_lt hn, readElems_values hT hv rest, lift_ok_bind]
  simp only
  rw [bind_err hk']

/-- A packet with a request that fails: those before it are carried out and nothing is answered. -/
theorem packet_fails (C : Conv) (st : St) (r : Req) (conn : BitVec 32) (seq : BitVec 16)
    (body rest : Bytes) (c : Conn) (ep : Nat) (s s' : Store) (good more : List EReq) (bad : EReq) (rs : List Bytes) (x : Err)
    (h : Asks st r conn (le 2 seq.toNat ++ ([0x0A#8, 2#8, 0x20#8, 2#8, 0x24#8, 1#8] ++ body)) rest)
    (hp : Packet body ((good ++ bad :: more).map EReq.bytes)) (ht : 2 + 2 * (good ++ bad :: more).length ≤ body.length)
    (hb : body.length ≤ 32768) (hwf : ∀ e ∈ good, e.wf) (hsv : Serves st.srv conn c ep s) (hs : Served C s good rs s')
    (hbad : ∀ data off st1 keys1, At data off bad → st1.srv.eps ep = .tags s' keys1 → multiOne C ep data off st1 = (.err x, st1)) :
    ∃ st', serveStep C st = (.err x, st') ∧ st'.sent = st.sent ∧ Serves st'.srv conn c ep s' := by
  generalize hes : good ++ bad :: more = es at hp ht
  have hsplit : body = le 2 es.length ++ ((body.drop 2).take (2 * es.length) ++ (body.drop 2).drop (2 * es.length)) := by
    have := hp.count
    rw [List.length_map] at this
    rw [List.take_append_drop, ← this, List.take_append_drop]
  have htl : ((body.drop 2).take (2 * es.length)).length = 2 * es.length := by simp; omega
  obtain ⟨ho1, ho2⟩ := packet_offsets (hdr := le 2 seq.toNat ++ [0x0A#8, 2#8, 0x20#8, 2#8, 0x24#8, 1#8])
    (by simp) hp ht hb
  have hstep := multi_step (C := C) (tl := (body.drop 2).drop (2 * es.length)) (by rw [← hsplit]; exact h) hsv
    (by omega) htl
  rw [← hsplit] at hstep
  obtain ⟨h1, h2, keys, h3⟩ := hsv
  generalize unU16s ((body.drop 2).take (2 * es.length)) = offs at ho1 ho2 hstep
  have hgl : good.length < offs.length := by rw [ho1, ← hes]; simp
  have hoffs : offs = offs.take good.length ++ offs[good.length] :: offs.drop (good.length + 1) := by
    rw [List.getElem_cons_drop hgl, List.take_append_drop]
  have hat : At (le 2 seq.toNat ++ ([0x0A#8, 2#8, 0x20#8, 2#8, 0x24#8, 1#8] ++ body)) offs[good.length] bad := by
    have := ho2 good.length _ bad (List.getElem?_eq_getElem hgl)
      (by rw [← hes, List.getElem?_append_right (Nat.le_refl _)]; simp)
    simpa using this
  obtain ⟨keys', hall⟩ := served_append_stops (C := C) (ep := ep) (st := handling st r seq rest) (keys := keys)
    (data := le 2 seq.toNat ++ ([0x0A#8, 2#8, 0x20#8, 2#8, 0x24#8, 1#8] ++ body)) hs
    (offs := offs.take good.length) (o := offs[good.length]) (offs2 := offs.drop (good.length + 1)) (e := x) hwf
    (by simp; omega)
    (by
      intro k o e hk hg
      have hlt : k < good.length := by
        rcases Nat.lt_or_ge k good.length with h | h
        · exact h
        · rw [List.getElem?_eq_none h] at hg; simp at hg
      rw [List.getElem?_take_of_lt hlt] at hk
      have := ho2 k o e hk (by rw [← hes, List.getElem?_append_left hlt, hg])
      simpa using this)
    h3
    (fun st1 keys1 h => hbad _ _ st1 keys1 hat h)
  rw [← hoffs] at hall
  rw [hstep, bind_err hall]
  exact ⟨_, rfl, rfl, h1, h2, keys', by simp [Srv.setStore]⟩

/-- The same between a client and a server. -/
theorem packet_cut {s : Settings} {k : Conn} {ep : Nat} {y : Sys} {tags tags' : Store} {bs : List Bytes} {good more : List EReq}
    {bad : EReq} {rs : List Bytes} {x : Err} (C : Conv) (seq : BitVec 16) (hq : Quiet y) (hsv : Serves y.server.srv s.ot k ep tags)
    (hl : (multiBytes seq bs).length ≤ 32768) (hbs : (good ++ bad :: more).map EReq.bytes = bs) (h2 : ∀ e ∈ good, e.wf)
    (h3 : Served C tags good rs tags')
    (hbad : ∀ data off st1 keys1, At data off bad → st1.srv.eps ep = .tags tags' keys1 →
      multiOne C ep data off st1 = (.err x, st1)) :
    ∃ st', exchange C y (connectedFrame s (multiBytes seq bs)) = (.err .eof, ⟨st', [], false⟩) ∧ Serves st'.srv s.ot k ep tags' := by
  obtain ⟨st', g1, g2, g3⟩ : ∃ st', serveStep C { y.server with inp := [] ++ connectedFrame s (multiBytes seq bs) } =
      (.err x, st') ∧ st'.sent = y.server.sent ∧ Serves st'.srv s.ot k ep tags' := by
    have hpk := C24_packet seq bs (by omega)
    have hbytes : multiBytes seq bs = le 2 seq.toNat ++ ([0x0A#8, 2#8, 0x20#8, 2#8, 0x24#8, 1#8] ++ (multiBytes seq bs).drop 8) := by
      conv => lhs; rw [← List.take_append_drop 8 (multiBytes seq bs)]
      rw [hpk.1]
      simp [putBV]
    have hel : (good ++ bad :: more).length = bs.length := by
      have := congrArg List.length hbs
      simpa using this
    have ha' := frame_asks y.server s (multiBytes seq bs) (by omega)
    have hdl : 2 + 2 * (good ++ bad :: more).length ≤ ((multiBytes seq bs).drop 8).length := by
      rw [hel]
      simp only [multiBytes, List.length_drop, List.length_append, flatten_put_length, jumpTable_length, putBV_length,
        List.length_map, List.length_cons, List.length_nil]
      omega
    have hpk2 : Packet ((multiBytes seq bs).drop 8) ((good ++ bad :: more).map EReq.bytes) := by
      rw [hbs]
      exact hpk.2
    have hBl : ((multiBytes seq bs).drop 8).length ≤ 32768 := by rw [List.length_drop]; omega
    generalize hB : (multiBytes seq bs).drop 8 = B at *
    rw [hbytes] at ha' ⊢
    exact packet_fails C _ _ _ seq B _ k ep tags tags' good more bad rs x ha' hpk2 hdl hBl h2 hsv h3 hbad
  obtain ⟨q1, q2, q3⟩ := hq
  refine ⟨st', ?_, g3⟩
  unfold exchange
  rw [q1, q3]
  simp only [Bool.not_true, Bool.false_eq_true, if_false]
  rw [g1]
  simp only
  rw [q2, g2]
  simp only [List.drop_length, List.flatten_nil, List.append_nil]
  rfl

/-- C104 is false for a request for several tags of which the server does not have all: there is no answer, none of the values
reaches the client and every later call fails.  The tags are what they were. -/
theorem C104_several_absent_ends (C : Conv) (s : Settings) (k : Conn) (ep : Nat) (y : Sys) (tags : Store) (m : Memory)
    (asks : List Ask) (ts : List MTag) (seq : BitVec 16) (hq : Quiet y) (hsv : Serves y.server.srv s.ot k ep tags)
    (hh : Holds tags m) (hlen : ts.length = asks.length)
    (ha : ∀ (i : Nat) a t, asks[i]? = some a → ts[i]? = some t → AsksFor a t)
    (hl : (readListBytes seq ts).length ≤ 32768)
    (h : ∀ a ∈ asks, (∃ v, Sees m a v) ∨ Lacks tags a) (he : ∃ a ∈ asks, Lacks tags a) :
    ∃ y', perform C s y (.several seq ts) = (.err .eof, y') ∧ Cut C s k ep y' m := by
  obtain ⟨good, bad, more, vs, rfl, hbad, hvl, hvs⟩ := first_lack asks h he
  obtain ⟨tg, tb, tm, rfl, hg, hm⟩ : ∃ tg tb tm, ts = tg ++ tb :: tm ∧ tg.length = good.length ∧ tm.length = more.length := by
    have hlt : good.length < ts.length := by rw [hlen]; simp
    refine ⟨ts.take good.length, ts[good.length], ts.drop (good.length + 1), ?_, by simp; omega, by simp [hlen]; omega⟩
    rw [List.getElem_cons_drop, List.take_append_drop]
  have hag : ∀ (i : Nat) a t, good[i]? = some a → tg[i]? = some t → AsksFor a t := fun i a t h1 h2 =>
    ha i a t (by rw [List.getElem?_append_left (List.getElem?_eq_some_iff.1 h1).1]; exact h1)
      (by rw [List.getElem?_append_left (List.getElem?_eq_some_iff.1 h2).1]; exact h2)
  have hab : AsksFor bad tb := ha good.length bad tb (by simp) (by simp [← hg])
  have ham : ∀ (i : Nat) a t, more[i]? = some a → tm[i]? = some t → AsksFor a t := fun i a t h1 h2 =>
    ha (good.length + 1 + i) a t (by rw [List.getElem?_append_right (by omega)]; simpa [show good.length + 1 + i - good.length = i + 1 by omega] using h1)
      (by rw [List.getElem?_append_right (by omega)]; simpa [hg, show good.length + 1 + i - good.length = i + 1 by omega] using h2)
  obtain ⟨es, xs, rs, e1, e2, e3, -, -, -, -, -, -⟩ := all_shown C hh good tg vs hg hvl hag hvs
  have hrest : ∀ (more : List Ask) (tm : List MTag), tm.length = more.length →
      (∀ (i : Nat) a t, more[i]? = some a → tm[i]? = some t → AsksFor a t) →
      ∃ em : List EReq, em.map EReq.bytes = tm.map MTag.entry := by
    intro more
    induction more with
    | nil => intro tm h1 _; exact ⟨[], by simp [List.length_eq_zero_iff.1 h1]⟩
    | cons a more ih =>
      intro tm h1 h2
      match tm, h1 with
      | t :: tm, h1 =>
        obtain ⟨em, hem⟩ := ih tm (by simpa using h1) fun i a t h h' => h2 (i + 1) a t (by simpa using h) (by simpa using h')
        exact ⟨asked a t :: em, by simp [hem, (asked_bytes (h2 0 a t rfl rfl)).1]⟩
  obtain ⟨em, hem⟩ := hrest more tm hm ham
  obtain ⟨b1, b2⟩ := asked_bytes hab
  have hbs : (es ++ asked bad tb :: em).map EReq.bytes = (tg ++ tb :: tm).map MTag.entry := by simp [e1, b1, hem]
  have hread : tagRead tags (render (lowerPath bad.tag)) bad.n = .err .fail := by
    rw [(clientPath_of hab.1).2, tagRead_same (t := render bad.tag) bad.n (toLower_idem _)]
    exact lacks_read hbad
  obtain ⟨st', hex, g3⟩ := packet_cut (x := .fail) C seq hq hsv hl hbs e2 e3
    (fun data off st1 keys1 hat he => multiOne_read_err hat.1 hat.2.choose_spec b2 he hread)
  refine ⟨⟨st', [], false⟩, ?_, ⟨tags, g3, hh⟩,
    fun cs => ⟨(performAll_down C s _ rfl cs).1, (performAll_down C s _ rfl cs).2.2⟩⟩
  simp only [perform, readListBytes, hex]
  rfl

/-- `Count` is there, `gone` is not, and `arr` has three elements. -/
example : (∃ v, Sees demoMemory ⟨[⟨str "count", []⟩], .i32, 1⟩ v) ∧ Lacks demoStore ⟨[⟨str "gone", []⟩], .i32, 1⟩ ∧
    Lacks demoStore ⟨[⟨str "arr", []⟩], .i32, 4⟩ ∧
    (performAll demoConv demoJoined.1 demoJoined.2
      [.several 1#16 [⟨demoIoi "Count" tDINT, tDINT, 1, .untyped⟩, ⟨demoIoi "gone" tDINT, tDINT, 1, .untyped⟩],
       .read 2#16 (demoIoi "Count" tDINT) .i32]).1 = [.err .eof, .err .eof] := by
  refine ⟨⟨_, .one (.whole (by unfold wholeName; decide)) (if_pos (by decide)) rfl⟩, .name (.whole (by unfold wholeName; decide)) rfl,
    .short (.whole (by unfold wholeName; decide)) rfl (by decide), by decide +kernel⟩

end Gologix.Session
