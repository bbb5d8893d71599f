import Verif.Props.Session
import Verif.Props.ServerList

set_option linter.unusedSimpArgs false

/-!
C108: a client of the library lists the tags of a server of the library.
-/

namespace Gologix.Session
open Gologix Gologix.Spec Gologix.Server Gologix.Server.Spec Gologix.Connect Gologix.Connect.Spec Gologix.Session.Spec

/-- The client `s` has a connection to the tags `tags`, `keys` of the server of `y`, and the line is free. -/
def Lists (s : Settings) (y : Sys) (tags : Store) (keys : List Str) : Prop :=
  Quiet y ∧ ∃ k ep, y.server.srv.conns.getByOT s.ot = .ok k ∧ y.server.srv.router.resolve k.path = .ok ep ∧
    y.server.srv.eps ep = .tags tags keys

/-- The payload of an answer to a request of service 0x55. -/
def listPayload (conn : BitVec 32) (seq : BitVec 16) (p : Bytes) : Bytes :=
  [0, 0, 0, 0, 0, 0] ++ (cpf [(0xA1#16, le 4 conn.toNat),
    (0xB1#16, le 2 seq.toNat ++ ([0x55#8 ||| 0x80#8, 0#8, 0#8, 0#8] ++ p))] ++ [])

/-- Whatever a request of service 0x55 asks for, the answer is the list of the tags. -/
theorem list_exchanged (C : Conv) {s : Settings} {y : Sys} {tags : Store} {keys : List Str} (h : Lists s y tags keys)
    (seq : BitVec 16) (d : Bytes) (hd : d.length ≤ 65000)
    (hp : (symbolEntries 0 (sortedTags tags keys)).length ≤ 65000) :
    ∃ hdr y', exchange C y (connectedFrame s (le 2 seq.toNat ++ 0x55#8 :: d)) =
        (.ok (hdr, listPayload y.server.h.to seq (symbolEntries 0 (sortedTags tags keys))), y') ∧
      Lists s y' tags keys ∧ y'.server.h.to = y.server.h.to := by
  obtain ⟨hq, k, ep, hc, hr, he⟩ := h
  have ha := frame_asks y.server s (le 2 seq.toNat ++ 0x55#8 :: d) (by simp; omega)
  have hin := unit_inp (C := C) ha
  obtain ⟨a1, a2, a3, a4, a5, a6⟩ := ha
  have hrun := list_run C _ _ a1 [] a2 a3 a4 s.ot [] (by rw [a5]; simp) seq d a6 k hc ep hr tags keys he
  obtain ⟨st', hst⟩ : ∃ st', serveStep C { y.server with inp := [] ++ connectedFrame s (le 2 seq.toNat ++ 0x55#8 :: d) } =
      (.ok (), st') ∧ st'.srv = y.server.srv ∧ st'.h.to = y.server.h.to ∧
      ∃ f, st'.sent = y.server.sent ++ [f] ∧
        UnitReply f y.server.h.to seq 0x55#8 0#8 (symbolEntries 0 (sortedTags tags keys)) := by
    rw [hrun]
    exact ⟨_, rfl, rfl, rfl, _, rfl, _, rfl⟩
  obtain ⟨hst, hsrv, hto, f, hf, hu⟩ := hst
  obtain ⟨hpay, hlen⟩ := unitReply_payload hu
  rw [hst] at hin
  obtain ⟨hdr, e1, -, -⟩ := exchange_ok hq hst hf (by rw [hlen]; omega)
  rw [hpay] at e1
  refine ⟨hdr, _, e1, ⟨⟨rfl, rfl, hin⟩, k, ep, ?_⟩, hto⟩
  simp only [hsrv]
  exact ⟨hc, hr, he⟩

theorem listPayload_generic (st : BitVec 32) (conn : BitVec 32) (seq : BitVec 16) (p : Bytes) (hp : p.length ≤ 65000) :
    genericReply 0x55#8 ⟨st, listPayload conn seq p⟩ = .ok p := by
  unfold genericReply listPayload
  simp only
  rw [readN_exact 6 _ _ rfl, Res.bind_ok]
  simp only
  rw [(unitReply_items (by simp; omega)).2, Res.bind_ok, getU_le, Res.bind_ok]
  simp only [List.cons_append, List.nil_append]
  rw [getU_two, Res.bind_ok]
  simp only
  rw [if_neg (by decide), getU_two, Res.bind_ok]
  rfl

theorem listPayload_page (st : BitVec 32) (conn : BitVec 32) (seq : BitVec 16) (p : Bytes) (hp : p.length ≤ 65000) :
    symbolsPage ⟨st, listPayload conn seq p⟩ = .ok (0#16, p) := by
  unfold symbolsPage listPayload
  simp only
  rw [if_neg (by simp), List.drop_left' (by rfl), (unitReply_items (by simp; omega)).2, Res.bind_ok,
    show le 2 seq.toNat ++ ([0x55#8 ||| 0x80#8, 0#8, 0#8, 0#8] ++ p) =
      (le 2 seq.toNat ++ [0x55#8 ||| 0x80#8, 0#8, 0#8, 0#8]) ++ p by simp, readN_exact 6 _ _ (by simp), Res.bind_ok]
  simp [le]
  decide

theorem entries_length (l : List (Str × Byte)) : ∀ i, (symbolEntries i l).length ≤ (l.map fun x => x.1.length + 8).sum := by
  induction l with
  | nil => intro i; simp [symbolEntries]
  | cons x l ih =>
    intro i
    obtain ⟨n, t⟩ := x
    have := ih (i + 1)
    simp only [symbolEntries, List.length_append, List.map_cons, List.sum_cons, shortName, List.length_take]
    simp only [putBV_length] at *
    omega

theorem sorted_length (tags : Store) (keys : List Str) (h : (keys.map fun n => n.length + 8).sum ≤ 65000) :
    (symbolEntries 0 (sortedTags tags keys)).length ≤ 65000 := by
  refine le_trans (entries_length _ 0) ?_
  have hp := ((sortKeys_perm keys).map (fun n : Str => n.length + 8)).sum_nat
  have : (sortedTags tags keys).map (fun x : Str × Byte => x.1.length + 8) =
      (sortKeys keys).map (fun n : Str => n.length + 8) := by
    simp only [sortedTags, List.map_map]
    apply List.map_congr_left
    intro a _
    rfl
  rw [this, hp]
  exact h

/-- The first entry of a list of tags, read as that of a program, has a name longer than the list. -/
theorem programs_of_tags (n : Str) (b : Byte) (hb : b ≠ 0#8) (t : Byte) (l : List (Str × Byte)) (f i : Nat)
    (hlen : (symbolEntries i ((b :: n, t) :: l)).length ≤ 65000) :
    ∃ e, programsLoop (f + 1) (symbolEntries i ((b :: n, t) :: l)) [] = .err e ∧ ∀ c, e ≠ .cipStatus c := by
  generalize hD : symbolEntries i ((b :: n, t) :: l) = D at hlen
  obtain ⟨P, T, hP, hT, hDe⟩ : ∃ P T : Bytes, P.length = 6 ∧ T ≠ [] ∧ D = P ++ b :: T := by
    refine ⟨putBV (BitVec.ofNat 32 (i + 1)) ++ putBV (BitVec.ofNat 16 (shortName (b :: n)).length),
      n.take 254 ++ (putBV (BitVec.ofNat 16 t.toNat) ++ symbolEntries (i + 1) l), by simp, ?_, ?_⟩
    · intro h
      have := congrArg List.length h
      simp at this
    · rw [← hD]
      simp [symbolEntries, shortName]
  obtain ⟨r0, r, rfl⟩ := List.exists_cons_of_ne_nil hT
  have h8 : readN 8 D = .ok (P ++ [b, r0], r) := by
    rw [hDe, show P ++ b :: r0 :: r = (P ++ [b, r0]) ++ r by simp]
    exact readN_exact 8 _ _ (by simp [hP])
  have hbig : r.length < unle ((P ++ [b, r0]).drop 4) := by
    have hb0 : 1 ≤ b.toNat := by
      rcases Nat.eq_zero_or_pos b.toNat with h | h
      · exact absurd (BitVec.eq_of_toNat_eq (by simpa using h)) hb
      · exact h
    have hr : r.length ≤ 65000 := by rw [hDe] at hlen; simp at hlen; omega
    obtain ⟨p0, p1, p2, p3, p4, p5, rfl⟩ : ∃ p0 p1 p2 p3 p4 p5, P = [p0, p1, p2, p3, p4, p5] := by
      match P, hP with
      | [p0, p1, p2, p3, p4, p5], _ => exact ⟨_, _, _, _, _, _, rfl⟩
    simp only [List.cons_append, List.nil_append, List.drop_succ_cons, List.drop_zero, unle]
    omega
  unfold programsLoop
  rw [h8]
  simp only
  have hN : readN (unle ((P ++ [b, r0]).drop 4)) r = .err (if r = [] then .eof else .unexpectedEof) := by
    generalize unle ((P ++ [b, r0]).drop 4) = N at hbig ⊢
    unfold readN
    rw [if_neg (by omega), if_pos hbig]
    split <;> rfl
  rw [hN]
  refine ⟨_, rfl, fun c => ?_⟩
  split <;> simp

/-- C108: a server that has a tag cannot be listed.  The client first asks for the programs; the server answers every
request of that service with the list of its tags, whatever the class and the attributes, and the client takes the name of the
first tag for a part of the length of a name.  Such an error is no status of the server, so the client gives up. -/
theorem C108_never_lists (C : Conv) (s : Settings) (y : Sys) (tags : Store) (keys : List Str) (h : Lists s y tags keys)
    (hk : keys ≠ []) (hn : ∀ n ∈ keys, ∃ b r, n = b :: r ∧ b ≠ 0#8) (hfit : (keys.map fun n => n.length + 8).sum ≤ 65000)
    (seq : BitVec 16) :
    ∃ hdr p y', exchange C y (connectedFrame s (programsRequest seq)) = (.ok (hdr, p), y') ∧ Lists s y' tags keys ∧
      ∀ (W : ListWorld) (st : ListSt) (f : Nat) (start : BitVec 32), start.toNat ≤ 1 → W.seq st.n = seq →
        W.net st.n (programsRequest seq) = .ok ⟨hdr.status, p⟩ →
        allTags W (f + 1) start st = some (.err .fail, { st with n := st.n + 1 }) := by
  have hl := sorted_length tags keys hfit
  obtain ⟨d, hd, hdl⟩ : ∃ d, programsRequest seq = le 2 seq.toNat ++ 0x55#8 :: d ∧ d.length ≤ 65000 :=
    ⟨_, by simp [programsRequest, putBV]; rfl, by decide⟩
  rw [hd]
  obtain ⟨hdr, y', e1, e2, -⟩ := list_exchanged C h seq d hdl hl
  refine ⟨hdr, _, y', e1, e2, fun W st f start hs hseq hnet => ?_⟩
  have hlp : ∃ e, listPrograms ⟨hdr.status, listPayload y.server.h.to seq (symbolEntries 0 (sortedTags tags keys))⟩ = .err e ∧
      ∀ c, e ≠ .cipStatus c := by
    unfold listPrograms
    rw [listPayload_generic _ _ _ _ hl, Res.bind_ok]
    cases hso : sortKeys keys with
    | nil =>
      have := (sortKeys_perm keys).length_eq
      rw [hso] at this
      exact absurd (List.eq_nil_of_length_eq_zero this.symm) hk
    | cons a l =>
      obtain ⟨b, r, rfl, hb⟩ := hn a ((sortKeys_perm keys).mem_iff.mp (by rw [hso]; simp))
      simp only [sortedTags, hso, List.map_cons] at hl ⊢
      exact programs_of_tags r b hb _ _ _ 0 hl
  obtain ⟨e, he, hne⟩ := hlp
  unfold allTags
  have h1 : (if start.toNat < 1 then 1 else start) = 1#32 := by
    by_cases h : start.toNat < 1
    · rw [if_pos h]; rfl
    · rw [if_neg h]; exact BitVec.eq_of_toNat_eq (by simp; omega)
  simp only [h1]
  rw [if_pos (by rfl)]
  unfold listProgramTags
  rw [hseq, hd, hnet]
  simp only [he]

/-- C108, a server without tags: the client finds none. -/
theorem C108_nothing_listed (C : Conv) (s : Settings) (y : Sys) (tags : Store) (h : Lists s y tags []) (seq seq' : BitVec 16) :
    ∃ hdr p y' hdr' p' y'', exchange C y (connectedFrame s (programsRequest seq)) = (.ok (hdr, p), y') ∧
      exchange C y' (connectedFrame s (symbolsRequest seq' [] 1#32)) = (.ok (hdr', p'), y'') ∧ Lists s y'' tags [] ∧
      ∀ (W : ListWorld) (st : ListSt) (f : Nat) (start : BitVec 32), start.toNat ≤ 1 → W.seq st.n = seq →
        W.seq (st.n + 1) = seq' → W.ord [] = [] → W.net st.n (programsRequest seq) = .ok ⟨hdr.status, p⟩ →
        W.net (st.n + 1) (symbolsRequest seq' [] 1#32) = .ok ⟨hdr'.status, p'⟩ →
        allTags W (f + 2) start st = some (.ok (), ⟨st.tags, [], st.n + 2⟩) := by
  obtain ⟨d, hd, hdl⟩ : ∃ d, programsRequest seq = le 2 seq.toNat ++ 0x55#8 :: d ∧ d.length ≤ 65000 :=
    ⟨_, by simp [programsRequest, putBV]; rfl, by decide⟩
  obtain ⟨d', hd', hdl'⟩ : ∃ d, symbolsRequest seq' [] 1#32 = le 2 seq'.toNat ++ 0x55#8 :: d ∧ d.length ≤ 65000 :=
    ⟨_, by simp [symbolsRequest, putBV]; rfl, by decide⟩
  rw [hd, hd']
  obtain ⟨hdr, y', e1, e2, -⟩ := list_exchanged C h seq d hdl (by simp [sortedTags, sortKeys, symbolEntries])
  obtain ⟨hdr', y'', e1', e2', -⟩ := list_exchanged C e2 seq' d' hdl' (by simp [sortedTags, sortKeys, symbolEntries])
  refine ⟨hdr, _, y', hdr', _, y'', e1, e1', e2', fun W st f start hs hseq hseq' hord hnet hnet' => ?_⟩
  have hent : symbolEntries 0 (sortedTags tags []) = [] := by simp [sortedTags, sortKeys, symbolEntries]
  rw [hent] at hnet hnet'
  unfold allTags
  have h1 : (if start.toNat < 1 then 1 else start) = 1#32 := by
    by_cases h : start.toNat < 1
    · rw [if_pos h]; rfl
    · rw [if_neg h]; exact BitVec.eq_of_toNat_eq (by simp; omega)
  simp only [h1]
  rw [if_pos (by rfl)]
  have hprog : listProgramTags W (f + 1) st = some (.ok false, ⟨st.tags, [], st.n + 1⟩) := by
    unfold listProgramTags
    rw [hseq, hd, hnet]
    simp only [listPrograms]
    rw [listPayload_generic _ _ _ _ (by simp), Res.bind_ok]
    simp only [programsLoop, readN]
    simp [hord, subEachProgram]
  rw [hprog]
  simp only [askPage]
  rw [hseq', hd', hnet']
  simp only [Res.bind]
  rw [listPayload_page _ _ _ _ (by simp)]
  simp [readSyms, mainEach]

/-- The tags of the demo server cannot be listed: the hypotheses hold. -/
example : Lists demoJoined.1 demoJoined.2 demoStore [str "count", str "arr"] ∧
    (∀ n ∈ [str "count", str "arr"], ∃ b r, n = b :: r ∧ b ≠ 0#8) ∧
    ([str "count", str "arr"].map fun n => n.length + 8).sum ≤ 65000 := by
  refine ⟨⟨⟨by decide +kernel, by decide +kernel, by decide +kernel⟩, _, 0, rfl, by decide +kernel, rfl⟩, ?_, by decide⟩
  intro n hn
  simp only [List.mem_cons, List.not_mem_nil, or_false] at hn
  rcases hn with rfl | rfl
  · exact ⟨_, _, rfl, by decide⟩
  · exact ⟨_, _, rfl, by decide⟩

end Gologix.Session
