import Verif.Props.SessionHalf
set_option linter.unusedSimpArgs false
/-
C121: what becomes of values written at once that take more than 32 KiB.
-/
namespace Gologix.Session
open Gologix Gologix.Spec Gologix.Server Gologix.Server.Spec Gologix.Connect Gologix.Connect.Spec Gologix.Session.Spec

theorem served_append_panics {C : Conv} {ep : Nat} {data : Bytes} {s s' : Store} {good : List EReq}
    {rs : List Bytes} (h : Served C s good rs s') :
    ∀ {offs : List (BitVec 16)} {o : BitVec 16} {offs2 : List (BitVec 16)} {st : St} {keys : List Str},
      (∀ x ∈ good, x.wf) → offs.length = good.length →
      (∀ (k : Nat) o e, offs[k]? = some o → good[k]? = some e → At data o e) → st.srv.eps ep = .tags s keys →
      (∀ st1, multiOne C ep data o st1 = (.panic, st1)) →
      ∃ keys', multiAll C ep data (offs ++ o :: offs2) st =
        (.panic, { st with srv := st.srv.setStore ep s' keys' }) := by
  induction h with
  | nil s =>
    intro offs o offs2 st keys _ hl _ he hbad
    have : offs = [] := List.eq_nil_of_length_eq_zero hl
    subst this
    refine ⟨keys, ?_⟩
    simp only [List.nil_append, multiAll]
    rw [bind_panic (hbad st), setStore_self he]
  | read frag words ps path count v image hr hv hs ih =>
    intro offs o offs2 st keys hwf hl hat he hbad
    match offs, hl with
    | o1 :: offs, hl =>
      obtain ⟨h0, rest, hd⟩ := hat 0 o1 _ rfl rfl
      have h1 := multiOne_read (C := C) h0 hd (hwf _ (by simp)) he hr hv
      obtain ⟨keys', h2⟩ := ih (o := o) (offs2 := offs2) (fun e he => hwf e (by simp [he])) (by simpa using hl)
        (fun k o e h1 h2 => hat (k + 1) o e (by simpa using h1) (by simpa using h2)) he hbad
      refine ⟨keys', ?_⟩
      simp only [List.cons_append, multiAll]
      rw [bind_ok h1, bind_panic h2]
  | write words ps path T vs hw hs ih =>
    intro offs o offs2 st keys hwf hl hat he hbad
    match offs, hl with
    | o1 :: offs, hl =>
      obtain ⟨h0, rest, hd⟩ := hat 0 o1 _ rfl rfl
      obtain ⟨k1, h1⟩ := multiOne_write (C := C) h0 hd (hwf _ (by simp)) he hw
      obtain ⟨keys', h2⟩ := ih (o := o) (offs2 := offs2) (st := { st with srv := st.srv.setStore ep _ k1 })
        (fun e he => hwf e (by simp [he])) (by simpa using hl)
        (fun k o e h1 h2 => hat (k + 1) o e (by simpa using h1) (by simpa using h2)) (setStore_eps _ _ _ _) hbad
      refine ⟨keys', ?_⟩
      simp only [List.cons_append, multiAll]
      rw [bind_ok h1, bind_panic h2, setStore_setStore]

theorem unU16s_put (t : List (BitVec 16)) : unU16s (t.map putBV).flatten = t := by
  have h := unU16s_le (t.map BitVec.toNat) (by
    intro o ho
    obtain ⟨x, -, rfl⟩ := List.mem_map.1 ho
    exact x.isLt)
  rw [List.map_map, show (le 2 ∘ BitVec.toNat : BitVec 16 → Bytes) = putBV by funext x; simp [putBV]] at h
  exact (List.map_inj_right fun a b e => BitVec.eq_of_toNat_eq e).1 h

/-- Of all that is stored, what is stored first. -/
theorem stores_take : ∀ (ws : List (List Part × Scal)) (m m' : Memory), StoresAll m ws m' → ∀ j, ∃ m1, StoresAll m (ws.take j) m1
  | [], m, m', h, j => by rw [List.take_nil]; exact ⟨m, .nil m⟩
  | w :: ws, m, m', h, 0 => ⟨m, .nil m⟩
  | w :: ws, m, m', h, j + 1 => by
    cases h with
    | cons h1 hs =>
      obtain ⟨m1, h2⟩ := stores_take ws _ _ hs j
      exact ⟨m1, .cons h1 h2⟩

theorem entries_take : ∀ (es : List (Ioi × WVal)) (bs : List Bytes), writeMapEntries es = .ok bs → ∀ j,
    writeMapEntries (es.take j) = .ok (bs.take j)
  | [], bs, h, j => by cases h; simp [writeMapEntries]
  | e :: es, bs, h, 0 => by simp [writeMapEntries]
  | (io, v) :: es, bs, h, j + 1 => by
    simp only [writeMapEntries] at h
    cases hb : writeMapEntry io v with
    | err x => rw [hb] at h; cases h
    | panic => rw [hb] at h; cases h
    | ok b =>
      rw [hb, Res.bind_ok] at h
      cases hr : writeMapEntries es with
      | err x => rw [hr] at h; cases h
      | panic => rw [hr] at h; cases h
      | ok r =>
        rw [hr, Res.bind_ok] at h
        cases h
        simp only [List.take_succ_cons, writeMapEntries, hb, Res.bind_ok, entries_take es r hr j]

theorem entries_count : ∀ (es : List (Ioi × WVal)) (bs : List Bytes), writeMapEntries es = .ok bs → bs.length = es.length
  | [], bs, h => by cases h; rfl
  | (io, v) :: es, bs, h => by
    simp only [writeMapEntries] at h
    cases hb : writeMapEntry io v with
    | err x => rw [hb] at h; cases h
    | panic => rw [hb] at h; cases h
    | ok b =>
      rw [hb, Res.bind_ok] at h
      cases hr : writeMapEntries es with
      | err x => rw [hr] at h; cases h
      | panic => rw [hr] at h; cases h
      | ok r =>
        rw [hr, Res.bind_ok] at h
        cases h
        simp [entries_count es r hr]

/-- The first number for which something holds. -/
theorem first_of (p : Nat → Prop) : ∀ n, p n → ∃ j, j ≤ n ∧ p j ∧ ∀ k < j, ¬ p k := by
  intro n
  induction n using Nat.strongRecOn with
  | ind n ih =>
    intro h
    by_cases hx : ∃ k, k < n ∧ p k
    · obtain ⟨k, hk, hp⟩ := hx
      obtain ⟨j, h1, h2, h3⟩ := ih k hk hp
      exact ⟨j, by omega, h2, h3⟩
    · exact ⟨n, Nat.le_refl _, h, fun k hk hp => hx ⟨k, hk, hp⟩⟩

/-- **C121, what fails.**  Values written at once whose requests do not all begin in the first 32 KiB of the packet crash the
server, although all of them would be taken and the packet fits a frame: the offsets of requests are signed at the server.  The
values before are written, the call is an error and the connection is lost. -/
theorem C121_large_crash (C : Conv) (s : Settings) (k : Conn) (ep : Nat) (y : Sys) (m m' : Memory) (ws : List (List Part × Scal))
    (es : List (Ioi × WVal)) (bs : List Bytes) (seq : BitVec 16) (hj : Joined s k ep y m) (hn : es.length = ws.length)
    (hp : ∀ (i : Nat) w e, ws[i]? = some w → es[i]? = some e → PutsFor w e) (hb : writeMapEntries es = .ok bs)
    (hl : (multiBytes seq bs).length < 65536) (hx : 32768 ≤ 2 + 2 * bs.length + bs.dropLast.flatten.length) (hne : bs ≠ [])
    (hs : StoresAll m ws m') :
    ∃ j m1 y', j < ws.length ∧ StoresAll m (ws.take j) m1 ∧
      (serveStep C { y.server with inp := connectedFrame s (multiBytes seq bs) }).1 = .panic ∧
      perform C s y (.map seq es) = (.err .eof, y') ∧ Cut C s k ep y' m1 := by
  obtain ⟨hq, tags, hsv, hh⟩ := hj
  have hlen := entries_count es bs hb
  have hpos : 0 < bs.length := List.length_pos_iff.2 hne
  obtain ⟨j, hj1, hj2, hj3⟩ := first_of (fun j => 32768 ≤ 2 + 2 * bs.length + (bs.take j).flatten.length) (bs.length - 1)
    (by rw [← List.dropLast_eq_take]; exact hx)
  obtain ⟨m1, hs1⟩ := stores_take ws m m' hs j
  obtain ⟨bs1, qs, rs, tags', i1, i2, i3, i4, i5, i6, -⟩ := all_stored C (ws.take j) (es.take j) tags m m1 hh (by simp [hn])
    (by
      intro i w e h1 h2
      rw [List.getElem?_take] at h1 h2
      by_cases hi : i < j
      · rw [if_pos hi] at h1 h2
        exact hp i w e h1 h2
      · rw [if_neg hi] at h1
        cases h1) hs1
  rw [entries_take es bs hb j] at i1
  cases i1
  have hql : qs.length = j := by
    have := congrArg List.length i2
    simp at this
    omega
  generalize htab : jumpTable (2 + bs.length * 2) 0 bs = tab
  have htl : tab.length = bs.length := by rw [← htab, jumpTable_length]
  have hbytes : multiBytes seq bs = le 2 seq.toNat ++ ([0x0A#8, 2#8, 0x20#8, 2#8, 0x24#8, 1#8] ++
      (le 2 bs.length ++ ((tab.map putBV).flatten ++ bs.flatten))) := by
    rw [← htab]
    simp only [multiBytes, putBV_ofNat16, List.append_assoc]
    rfl
  have hL : (multiBytes seq bs).length = 10 + 2 * bs.length + bs.flatten.length := by
    rw [hbytes]
    simp only [List.length_append, le_length, flatten_put_length, htl, List.length_cons, List.length_nil]
    omega
  have hle : ∀ i, (bs.take i).flatten.length ≤ bs.flatten.length := by
    intro i
    conv => rhs; rw [← List.take_append_drop i bs, List.flatten_append, List.length_append]
    omega
  have hget : ∀ i < bs.length, ∃ o : BitVec 16, tab[i]? = some o ∧ o.toNat = 2 + 2 * bs.length + (bs.take i).flatten.length := by
    intro i hi
    refine ⟨_, by rw [← htab]; exact jumpTable_get _ _ _ i hi, ?_⟩
    have := hle i
    rw [BitVec.toNat_ofNat, Nat.mod_eq_of_lt (by omega)]
    omega
  have ha := frame_asks y.server s (multiBytes seq bs) hl
  rw [hbytes] at ha
  have hstep := multi_step (C := C) ha hsv (by omega) (by rw [flatten_put_length, htl])
  rw [← hbytes, unU16s_put] at hstep
  obtain ⟨h1, h2, keys, h3⟩ := hsv
  obtain ⟨o, ho1, ho2⟩ := hget j (by omega)
  have hjt : j < tab.length := by omega
  have hoe : tab[j] = o := by rw [List.getElem?_eq_getElem hjt] at ho1; cases ho1; rfl
  have htabs : tab = tab.take j ++ o :: tab.drop (j + 1) := by
    rw [← hoe, List.getElem_cons_drop hjt, List.take_append_drop]
  obtain ⟨keys', hall⟩ := served_append_panics (C := C) (ep := ep) 
    (st := handling { y.server with inp := [] ++ connectedFrame s (multiBytes seq bs) } (asking s (multiBytes seq bs)) seq []) (keys := keys)
    (data := multiBytes seq bs) i4 (offs := tab.take j) (o := o) (offs2 := tab.drop (j + 1)) i3 (by simp; omega)
    (by
      intro i o1 e h4 h5
      have hi : i < j := by
        rcases Nat.lt_or_ge i qs.length with h | h
        · omega
        · rw [List.getElem?_eq_none h] at h5; cases h5
      rw [List.getElem?_take_of_lt hi] at h4
      obtain ⟨o2, g1, g2⟩ := hget i (by omega)
      rw [h4] at g1
      cases g1
      have hlt : o1.toNat < 32768 := by
        have := hj3 i hi
        omega
      have hint : o1.toInt = (o1.toNat : Int) := by
        rw [BitVec.toInt_eq_toNat_cond, if_pos (by omega)]
      have hbi : bs[i]? = some e.bytes := by
        have := congrArg (fun l => l[i]?) i2
        simp only [List.getElem?_map, h5, Option.map_some, List.getElem?_take_of_lt hi] at this
        exact this.symm
      refine ⟨by rw [hint]; omega, (bs.drop (i + 1)).flatten, ?_⟩
      rw [hint, show ((o1.toNat : Int) + 8).toNat = o1.toNat + 8 by omega, g2, hbytes]
      have hil : i < bs.length := by omega
      have hsplit : bs.flatten = (bs.take i).flatten ++ (e.bytes ++ (bs.drop (i + 1)).flatten) := by
        rw [List.getElem?_eq_getElem hil] at hbi
        rw [← Option.some.inj hbi]
        conv => lhs; rw [← List.take_append_drop i bs, List.flatten_append, List.drop_eq_getElem_cons hil, List.flatten_cons]
      rw [hsplit]
      rw [show ∀ (a b c d e f : Bytes), a ++ (b ++ (c ++ (d ++ (e ++ f)))) = (a ++ b ++ c ++ d ++ e) ++ f by simp]
      rw [List.drop_left']
      simp only [List.length_append, le_length, flatten_put_length, htl, List.length_cons, List.length_nil]
      omega)
    (by exact h3)
    (by
      intro st1
      unfold multiOne
      rw [if_pos]
      · rfl
      · have := hle j
        rw [BitVec.toInt_eq_toNat_cond, if_neg (by omega)]
        omega)
  rw [← htabs] at hall
  rw [bind_panic hall] at hstep
  obtain ⟨q1, q2, q3⟩ := hq
  rw [List.nil_append] at hstep
  obtain ⟨st', g1, g2, g3⟩ : ∃ st', serveStep C { y.server with inp := connectedFrame s (multiBytes seq bs) } = (.panic, st') ∧
      st'.sent = y.server.sent ∧ Serves st'.srv s.ot k ep tags' :=
    ⟨_, hstep, rfl, h1, h2, keys', by simp [Srv.setStore]⟩
  have hex : exchange C y (connectedFrame s (multiBytes seq bs)) = (.err .eof, ⟨st', [], false⟩) := by
    unfold exchange
    rw [q1, q3]
    simp only [Bool.not_true, Bool.false_eq_true, if_false, List.nil_append]
    rw [g1]
    simp only
    rw [q2, g2]
    simp only [List.drop_length, List.flatten_nil, List.append_nil]
    rfl
  refine ⟨j, m1, ⟨st', [], false⟩, by omega, hs1, by rw [g1], ?_, ⟨tags', g3, i5⟩,
    fun cs => ⟨(performAll_down C s _ rfl cs).1, (performAll_down C s _ rfl cs).2.2⟩⟩
  simp only [perform, writeMapBytes, hb, Res.bind_ok, hex]
  rfl

/-- Two thousand values are enough. -/
example : ∃ bs : List Bytes, writeMapEntries (List.replicate 2000 (demoIoi "count" tDINT, .one (.i32 7#32))) = .ok bs ∧
    (multiBytes 1#16 bs).length < 65536 ∧ 32768 ≤ 2 + 2 * bs.length + bs.dropLast.flatten.length ∧ bs ≠ [] := by
  have hb : ∃ b, writeMapEntry (demoIoi "count" tDINT) (.one (.i32 7#32)) = .ok b ∧ b.length = 18 := ⟨_, rfl, by decide⟩
  obtain ⟨b, h1, h2⟩ := hb
  have h : ∀ n, writeMapEntries (List.replicate n (demoIoi "count" tDINT, .one (.i32 7#32))) = .ok (List.replicate n b) := by
    intro n
    induction n with
    | zero => rfl
    | succ n ih => simp only [List.replicate_succ, writeMapEntries, h1, ih, Res.bind_ok]
  have hf : ∀ n, (List.replicate n b).flatten.length = n * 18 := by
    intro n
    simp only [List.length_flatten, List.map_replicate, List.sum_replicate_nat, h2]
  refine ⟨_, h 2000, ?_, ?_, ?_⟩
  · simp only [multiBytes, List.length_append, flatten_put_length, jumpTable_length, putBV_length, List.length_cons,
      List.length_nil, List.length_replicate, hf]
    decide
  · simp only [List.dropLast_replicate, List.length_replicate, hf]
    decide
  · intro h
    have := congrArg List.length h
    rw [List.length_replicate] at this
    cases this

end Gologix.Session
