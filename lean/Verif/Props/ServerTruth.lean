import Verif.Props.ServerReply
import Verif.Props.ServerRoundtrip
/-
C79 for requests in terms of the tag they name and the values of the tags.
-/
set_option linter.unusedSimpArgs false

namespace Gologix.Server
open Gologix Gologix.Spec Gologix.Server.Spec M

theorem safe_count_head {n : Nat} (h : safeCount n) :
    ∀ b, (le 2 n).head? = some b → b ≠ 0x28#8 ∧ b ≠ 0x29#8 ∧ b ≠ 0x91#8 := by
  have := safe_head h []
  rwa [List.append_nil] at this

theorem count_read (n : Nat) : readBV 16 (le 2 n) = .ok (BitVec.ofNat 16 n, []) := by
  have := readU16 (BitVec.ofNat 16 n) []
  rwa [putBV_ofNat16, List.append_nil] at this

/-- C79, a read of `n` elements of the tag `ps`: the answer has status success only if the tag has these elements, and
then it carries their type and bytes. -/
theorem C79_read_true (C : Conv) (st : St) (r : Req) (conn : BitVec 32) (seq : BitVec 16) (svc words : Byte)
    (hsvc : svc = 0x4C#8 ∨ svc = 0x52#8) (ps : List Part) (path rest : Bytes) (n : Nat)
    (h : Asks st r conn (le 2 seq.toNat ++ svc :: words :: (path ++ le 2 n)) rest) (hp : PathOf ps path)
    (hn : n < 32768) (hsafe : safeCount n) (c : Conn) (ep : Nat) (s : Store) (hs : Serves st.srv conn c ep s) :
    ∀ f ∈ newFrames st (serveStep C st).2, statusOf f = some 0#8 →
      ∃ v, tagRead s (render ps) n = .ok v ∧ ∀ image, Shown v image → answerOf f = image := by
  intro f hf hst
  obtain ⟨hr, hi, hcmd, hid, h0, h1⟩ := h
  obtain ⟨hs1, hs2, keys, hs3⟩ := hs
  obtain ⟨c', tag, r1, qty, r2, ep', v, g1, g2, g3, g4, g5, g6⟩ := C79_read_done C st r hr rest hi hcmd hid conn []
    (by simpa using h0) seq svc words hsvc _ h1 f hf hst
  rw [hs1] at g1
  cases g1
  rw [hs2] at g4
  cases g4
  rw [getTag_path hp _ (safe_count_head hsafe)] at g2
  cases g2
  rw [count_read] at g3
  cases g3
  rw [readTag_ok hs3, count_int hn] at g5
  refine ⟨v, g5, fun image hv => ?_⟩
  rw [readPayload_shown hv] at g6
  cases g6
  rfl

/-- C79, a read of a tag that does not have the elements: an error status, nothing changes, and the session ends. -/
theorem C79_read_missing (C : Conv) (st : St) (r : Req) (conn : BitVec 32) (seq : BitVec 16) (svc words : Byte)
    (hsvc : svc = 0x4C#8 ∨ svc = 0x52#8) (ps : List Part) (path rest : Bytes) (n : Nat)
    (h : Asks st r conn (le 2 seq.toNat ++ svc :: words :: (path ++ le 2 n)) rest) (hp : PathOf ps path)
    (hn : n < 32768) (hsafe : safeCount n) (c : Conn) (ep : Nat) (s : Store) (hs : Serves st.srv conn c ep s)
    (e : Err) (hf : tagRead s (render ps) n = .err e) :
    (∃ f status, newFrames st (serveStep C st).2 = [f] ∧ statusOf f = some status ∧ status ≠ 0#8 ∧
        seqOf f = le 2 seq.toNat ∧ answerOf f = [] ∧ connOf f = le 4 c.to.toNat) ∧
      (serveStep C st).2.srv = st.srv ∧ (serveStep C st).1 = .err e := by
  obtain ⟨hr, hi, hcmd, hid, h0, h1⟩ := h
  obtain ⟨hs1, hs2, keys, hs3⟩ := hs
  exact C79_read_failed C st r hr rest hi hcmd hid conn [] (by simpa using h0) seq svc words hsvc _ h1 c hs1
    (render ps) (le 2 n) (getTag_path hp _ (safe_count_head hsafe)) _ [] (count_read n) ep hs2 e
    (by rw [readTag_ok hs3, count_int hn, hf])

theorem writeValues_done {C : Conv} {st : St} {ep : Nat} {s : Store} {keys : List Str} {tag : Str} {vs : List Scal}
    (hne : vs ≠ []) (h : st.srv.eps ep = .tags s keys) :
    (writeValues C ep tag vs st).1 = (tagWrite C s tag (written vs)).1 ∧
      ∃ keys', (writeValues C ep tag vs st).2.srv = st.srv.setStore ep (tagWrite C s tag (written vs)).2 keys' := by
  match vs, hne with
  | [v], _ => simp only [writeValues, written, writeTag, h]; exact ⟨trivial, _, rfl⟩
  | a :: b :: l, _ => simp only [writeValues, written, writeTag, h]; exact ⟨trivial, _, rfl⟩

/-- C79, a write of the values `vs` to the tag `ps`: if it is answered at all, then with success, and the tag took the
values. -/
theorem C79_write_true (C : Conv) (st : St) (r : Req) (conn : BitVec 32) (seq : BitVec 16) (words : Byte)
    (ps : List Part) (path more rest : Bytes) (T : GoTy) (vs : List Scal)
    (h : Asks st r conn (le 2 seq.toNat ++ 0x4D#8 :: words :: (path ++ (typeField T ++ (le 2 vs.length ++
      ((vs.map Scal.encode).flatten ++ more))))) rest)
    (hp : PathOf ps path) (hT : T ≠ .str) (hv : ∀ v ∈ vs, v.ty = some T) (h0 : vs ≠ []) (hn : vs.length < 65536)
    (c : Conn) (ep : Nat) (s : Store) (hs : Serves st.srv conn c ep s)
    (hf : newFrames st (serveStep C st).2 ≠ []) :
    (∃ f, newFrames st (serveStep C st).2 = [f] ∧ statusOf f = some 0#8 ∧ seqOf f = le 2 seq.toNat) ∧
      ∃ s', tagWrite C s (render ps) (written vs) = (.ok (), s') ∧ Serves (serveStep C st).2.srv conn c ep s' ∧
        ∀ ep', ep' ≠ ep → (serveStep C st).2.srv.eps ep' = st.srv.eps ep' := by
  obtain ⟨hr, hi, hcmd, hid, hd0, hd1⟩ := h
  obtain ⟨hs1, hs2, keys, hs3⟩ := hs
  obtain ⟨tag, r1, ws, r2, c', ep', g1, g2, g3, g4, g5, g6, g7⟩ := C79_write_done C st r hr rest hi hcmd hid conn []
    (by simpa using hd0) seq words _ hd1 hf
  rw [hs1] at g3
  cases g3
  rw [hs2] at g4
  cases g4
  rw [getTag_path hp _ (typeField_head T _)] at g1
  cases g1
  rw [parse_values hT hv hn] at g2
  cases g2
  obtain ⟨w1, keys', w2⟩ := writeValues_done (C := C) (tag := render ps) h0 hs3
  refine ⟨g7, (tagWrite C s (render ps) (written vs)).2, ?_, ⟨?_, ?_, keys', ?_⟩, ?_⟩
  · rw [w1] at g5
    rw [← g5]
  · rw [g6, w2]; exact hs1
  · rw [g6, w2]; exact hs2
  · rw [g6, w2]; simp [Srv.setStore]
  · intro ep' hne
    rw [g6, w2]
    simp [Srv.setStore, hne]

/-- C79 is false for a write a tag does not take: there is no answer, and the session ends. -/
theorem C79_write_missing_silent (C : Conv) (st : St) (r : Req) (conn : BitVec 32) (seq : BitVec 16) (words : Byte)
    (ps : List Part) (path more rest : Bytes) (T : GoTy) (vs : List Scal)
    (h : Asks st r conn (le 2 seq.toNat ++ 0x4D#8 :: words :: (path ++ (typeField T ++ (le 2 vs.length ++
      ((vs.map Scal.encode).flatten ++ more))))) rest)
    (hp : PathOf ps path) (hT : T ≠ .str) (hv : ∀ v ∈ vs, v.ty = some T) (h0 : vs ≠ []) (hn : vs.length < 65536)
    (c : Conn) (ep : Nat) (s : Store) (hs : Serves st.srv conn c ep s) (e : Err)
    (hw : (tagWrite C s (render ps) (written vs)).1 = .err e) :
    newFrames st (serveStep C st).2 = [] ∧ (serveStep C st).1 = .err e := by
  obtain ⟨hr, hi, hcmd, hid, hd0, hd1⟩ := h
  obtain ⟨hs1, hs2, keys, hs3⟩ := hs
  exact C79_write_failed_silent C st r hr rest hi hcmd hid conn [] (by simpa using hd0) seq words _ hd1
    (render ps) _ (getTag_path hp _ (typeField_head T _)) vs more (parse_values hT hv hn more) c hs1 ep hs2 e
    (by rw [(writeValues_done (C := C) (tag := render ps) h0 hs3).1, hw])

/-- Reading `count` of the demo server: the hypotheses of `C79_read_true` hold, and the answer is the value. -/
example :
    let st := demoSt (demoUnit ([5#8, 0#8, 0x4C#8, 4#8] ++ (demoPath "count" ++ le 2 1))).bytes
    Asks st (demoUnit ([5#8, 0#8, 0x4C#8, 4#8] ++ (demoPath "count" ++ le 2 1))) 0x11#32
      (le 2 (5#16 : BitVec 16).toNat ++ 0x4C#8 :: 4#8 :: (demoPath "count" ++ le 2 1)) [] ∧
    PathOf [⟨str "count", []⟩] (demoPath "count") ∧
    (newFrames st (serveStep demoConv st).2).map (fun f => (statusOf f, answerOf f)) =
      [(some 0#8, [0xC4#8, 0#8, 5#8, 0#8, 0#8, 0#8])] := by
  refine ⟨by unfold Asks; decide +kernel, demoPath_count, by decide +kernel⟩

/-- Writing -1 to `count` of the demo server: the hypotheses of `C79_write_true` hold. -/
example :
    let d := le 2 (5#16 : BitVec 16).toNat ++ 0x4D#8 :: 4#8 :: (demoPath "count" ++ (typeField .i32 ++ (le 2 1 ++
      (([Scal.i32 (-1#32)].map Scal.encode).flatten ++ []))))
    let st := demoSt (demoUnit d).bytes
    Asks st (demoUnit d) 0x11#32 d [] ∧ (∃ c, Serves st.srv 0x11#32 c 0 demoStore) ∧
    newFrames st (serveStep demoConv st).2 ≠ [] ∧
    (match (serveStep demoConv st).2.srv.eps 0 with
      | .tags s _ => tagRead s (str "count") 1 = .ok (.scal (.i32 (-1#32)))
      | _ => False) := by
  refine ⟨by unfold Asks; decide +kernel, ⟨_, rfl, rfl, _, rfl⟩, by decide +kernel, rfl⟩

end Gologix.Server
