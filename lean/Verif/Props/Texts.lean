import Verif.Model.Texts
import Verif.Spec.Texts
/-
C112: printed statuses, services, types and errors tell what they are.
-/
set_option linter.unusedSimpArgs false
namespace Gologix

open Texts
open Spec.Texts

/-! ### All values of a byte -/

/-- The bytes of a text as one number. -/
def textKey (s : Str) : Nat := s.foldl (fun a b => a * 256 + b.toNat) 1

/-- A table of the texts of all bytes without repetition. -/
theorem tells_of_nodup (f : Byte → Str)
    (h : ((List.range 256).map fun n => textKey (f (BitVec.ofNat 8 n))).Nodup) (a b : Byte) (hab : f a = f b) : a = b := by
  have key : ∀ i j : Nat, i < j → j < 256 → textKey (f (BitVec.ofNat 8 i)) ≠ textKey (f (BitVec.ofNat 8 j)) := by
    intro i j hij hj
    have := List.pairwise_iff_getElem.mp h i j (by simp; omega) (by simpa using hj) hij
    simpa using this
  have ha := a.isLt
  have hb := b.isLt
  apply BitVec.eq_of_toNat_eq
  rcases Nat.lt_trichotomy a.toNat b.toNat with hlt | heq | hlt
  · exact absurd (by simp [hab]) (key _ _ hlt hb)
  · exact heq
  · exact absurd (by simp [hab]) (key _ _ hlt ha)

set_option maxHeartbeats 4000000 in
theorem status_nodup : ((List.range 256).map fun n => textKey (statusText (BitVec.ofNat 8 n))).Nodup := by decide +kernel

set_option maxHeartbeats 4000000 in
theorem service_nodup : ((List.range 256).map fun n => textKey (serviceText (BitVec.ofNat 8 n))).Nodup := by
  decide +kernel

set_option maxHeartbeats 4000000 in
theorem type_nodup : ((List.range 256).map fun n => textKey (typeText (BitVec.ofNat 8 n))).Nodup := by decide +kernel

/-- **C112** Two statuses are never printed alike. -/
theorem C112_status_tells : TellsApart (fun _ => True) statusText :=
  fun a b _ _ h => tells_of_nodup statusText status_nodup a b h

/-- **C112** Two services are never printed alike. -/
theorem C112_service_tells : TellsApart (fun _ => True) serviceText :=
  fun a b _ _ h => tells_of_nodup serviceText service_nodup a b h

/-- **C112** Two types are never printed alike. -/
theorem C112_type_tells : TellsApart (fun _ => True) typeText :=
  fun a b _ _ h => tells_of_nodup typeText type_nodup a b h

/-! ### Hexadecimal numbers -/

theorem digit_hexDigit (up : Bool) (n : Nat) (h : n < 16) : digit (hexDigit up n) = some n := by
  have : ∀ n : Fin 16, ∀ up : Bool, digit (hexDigit up n.val) = some n.val := by decide +kernel
  exact this ⟨n, h⟩ up

theorem number_snoc (acc : Nat) (s : Str) (n d : Nat) (b : Byte) (hs : number acc s = some n) (hb : digit b = some d) :
    number acc (s ++ [b]) = some (16 * n + d) := by
  induction s generalizing acc with
  | nil =>
    simp only [number, Option.some.injEq] at hs
    simp [number, hb, hs]
  | cons c s ih =>
    simp only [number, List.cons_append] at hs ⊢
    cases hc : digit c with
    | none => simp [hc] at hs
    | some e => simp only [hc] at hs ⊢; exact ih _ hs

theorem number_hexAux (up : Bool) (f n : Nat) (h : n < f) : number 0 (hexAux up f n) = some n := by
  induction f generalizing n with
  | zero => omega
  | succ f ih =>
    simp only [hexAux]
    by_cases hn : n < 16
    · simp [hn, number, digit_hexDigit up n hn]
    · simp only [hn, if_false]
      rw [number_snoc 0 _ (n / 16) (n % 16) _ (ih (n / 16) (by omega)) (digit_hexDigit up _ (Nat.mod_lt _ (by omega)))]
      congr 1
      omega

theorem number_hex (up : Bool) (n : Nat) : number 0 (hex up n) = some n := number_hexAux up _ n (by omega)

theorem hex_ne (up : Bool) (n : Nat) : hex up n ≠ [] := by
  simp only [hex, hexAux]
  split <;> simp

theorem hexAux_digits (up : Bool) (f n : Nat) : ∀ b ∈ hexAux up f n, digit b ≠ none := by
  induction f generalizing n with
  | zero => simp [hexAux]
  | succ f ih =>
    simp only [hexAux]
    by_cases hn : n < 16
    · simp [hn, digit_hexDigit up n hn]
    · simp only [hn, if_false, List.mem_append, List.mem_singleton]
      rintro b (hb | rfl)
      · exact ih _ b hb
      · simp [digit_hexDigit up (n % 16) (Nat.mod_lt _ (by omega))]

theorem hex_inj (up : Bool) (m n : Nat) (h : hex up m = hex up n) : m = n := by
  have := number_hex up m
  rw [h, number_hex] at this
  exact (Option.some.inj this).symm

/-- Numbers of four digits. -/
theorem hex_four (up : Bool) (n : Nat) (h : 0x1000 ≤ n) (h' : n < 0x10000) : (hex up n).length = 4 := by
  have step : ∀ f m, ¬ m < 16 → hexAux up (f + 1) m = hexAux up f (m / 16) ++ [hexDigit up (m % 16)] := by
    intro f m hm
    simp [hexAux, hm]
  have last : ∀ f m, m < 16 → hexAux up (f + 1) m = [hexDigit up m] := by
    intro f m hm
    simp [hexAux, hm]
  obtain ⟨f, hf⟩ : ∃ f, n + 1 = f + 1 + 1 + 1 + 1 := ⟨n - 3, by omega⟩
  rw [hex, hf, step _ _ (by omega), step _ _ (by omega), step _ _ (by omega), last _ _ (by omega)]
  simp

/-! ### The codes in the texts -/

/-- **C112** A status without a name is printed with its code. -/
theorem C112_status_code (s : Byte) (h : 0x2C < s.toNat) : Mentions (statusText s) s.toNat := by
  have none : statusNames.lookup s = none := by
    have : ∀ n : Fin 256, 0x2C < n.val → statusNames.lookup (BitVec.ofNat 8 n.val) = none := by decide +kernel
    simpa using this ⟨s.toNat, s.isLt⟩ h
  simp only [statusText, none]
  by_cases hd : s.toNat > 0x2C ∧ s.toNat < 0xD0
  · rw [if_pos hd]
    exact ⟨str "Unknown Error: ", hex true s.toNat, str " (reserved by CIP for future extensions)",
      (by rw [show str "Unknown Error: 0x" = str "Unknown Error: " ++ str "0x" by decide +kernel]), hex_ne _ _, number_hex _ _,
      (by intro b hb; rw [show (str " (reserved by CIP for future extensions)").head? = some 0x20#8 by decide +kernel] at hb
          cases hb; decide)⟩
  · rw [if_neg hd]
    exact ⟨str "Unknown CIPStatus: ", hex true s.toNat, str " (reserved for object class and service errors)",
      (by rw [show str "Unknown CIPStatus: 0x" = str "Unknown CIPStatus: " ++ str "0x" by decide +kernel]), hex_ne _ _, number_hex _ _,
      (by intro b hb
          rw [show (str " (reserved for object class and service errors)").head? = some 0x20#8 by decide +kernel] at hb
          cases hb; decide)⟩

/-- How types are printed: the code, then the name. -/
theorem type_shape : ∀ n : Fin 256, n.val = 0 ∨ 16 ≤ n.val → n.val ≠ 0xD4 →
    (typeText (BitVec.ofNat 8 n.val)).take 2 = str "0x" ∧
    number 0 (((typeText (BitVec.ofNat 8 n.val)).drop 2).take 2) = some n.val ∧
    ((typeText (BitVec.ofNat 8 n.val)).drop 4).head? = some 0x20#8 ∧
    ((typeText (BitVec.ofNat 8 n.val)).drop 2).take 2 ≠ [] := by decide +kernel

/-- **C112** A type is printed with its code in front, two exceptions aside: LWORD, and the codes 1 to 15, which get a
space for their first digit. -/
theorem C112_type_code_partial (c : Byte) (h : c.toNat = 0 ∨ 16 ≤ c.toNat) (hc : c ≠ 0xD4#8) :
    Shows (typeText c) [] c.toNat := by
  have := type_shape ⟨c.toNat, c.isLt⟩ h (by intro e; exact hc (BitVec.eq_of_toNat_eq e))
  simp only [BitVec.ofNat_toNat, BitVec.setWidth_eq] at this
  obtain ⟨h1, h2, h3, h4⟩ := this
  refine ⟨((typeText c).drop 2).take 2, (typeText c).drop 4, ?_, h4, h2, ?_⟩
  · rw [← h1]
    simp only [List.nil_append, List.append_assoc]
    rw [show (typeText c).drop 4 = ((typeText c).drop 2).drop 2 by simp, List.take_append_drop, List.take_append_drop]
  · intro b hb
    rw [h3] at hb
    cases hb
    decide

/-- A text shows one number after the same beginning. -/
theorem shows_one (t pre : Str) (m n : Nat) (hm : Shows t pre m) (hn : Shows t pre n) : m = n := by
  obtain ⟨d, r, ht, hd, hnum, hr⟩ := hm
  obtain ⟨d', r', ht', hd', hnum', hr'⟩ := hn
  have e : d ++ r = d' ++ r' := by
    have := ht.symm.trans ht'
    simpa [List.append_assoc] using this
  have all : ∀ (s : Str) (acc k : Nat), number acc s = some k → ∀ b ∈ s, digit b ≠ none := by
    intro s
    induction s with
    | nil => simp
    | cons c s ih =>
      intro acc k h b hb
      simp only [number] at h
      cases hc : digit c with
      | none => simp [hc] at h
      | some x =>
        simp only [hc] at h
        rcases List.mem_cons.mp hb with rfl | hb
        · simp [hc]
        · exact ih _ _ h b hb
  have len : ∀ (d r d' r' : Str), d ++ r = d' ++ r' → (∀ b, r.head? = some b → digit b = none) →
      (∀ b ∈ d', digit b ≠ none) → d'.length ≤ d.length := by
    intro d r d' r' e hr hd'
    rcases Nat.lt_or_ge d.length d'.length with hlt | hge
    · exfalso
      have h1 : (d ++ r)[d.length]? = d'[d.length]? := by rw [e, List.getElem?_append_left hlt]
      rw [List.getElem?_append_right (Nat.le_refl _), Nat.sub_self, List.getElem?_eq_getElem hlt,
        ← List.head?_eq_getElem?] at h1
      exact hd' _ (List.getElem_mem hlt) (hr _ h1)
    · exact hge
  have hl : d.length = d'.length := Nat.le_antisymm (len d' r' d r e.symm hr' (all _ _ _ hnum)) (len d r d' r' e hr (all _ _ _ hnum'))
  have := (List.append_inj e hl).1
  rw [this, hnum'] at hnum
  exact (Option.some.inj hnum).symm

/-- **C112** Services the library names in its constants but not in texts: an error reply, scattered reads and writes,
listing instances (0x4B) and removing a tag from a buffer. -/
theorem C112_services_unnamed : serviceText 0x14#8 = str "unknown service 20" ∧
    serviceText 0x32#8 = str "unknown service 50" ∧ serviceText 0x34#8 = str "unknown service 52" ∧
    serviceText 0x4B#8 = str "unknown service 75" ∧ serviceText 0x4F#8 = str "unknown service 79" := by decide +kernel

/-- **C112** LWORD (0xD4) is printed with the code of ULINT, which itself has no name. -/
theorem C112_lword_wrong : Shows (typeText 0xD4#8) [] 0xC9 ∧ ¬ Shows (typeText 0xD4#8) [] 0xD4 ∧
    typeText 0xD4#8 = str "0xC9 - LWORD" ∧ typeText 0xC9#8 = str "0xc9 - Unknown" := by
  have h : Shows (typeText 0xD4#8) [] 0xC9 :=
    ⟨str "C9", str " - LWORD", by decide +kernel, by decide +kernel, by decide +kernel,
      by intro b hb; rw [show (str " - LWORD").head? = some 0x20#8 by decide +kernel] at hb; cases hb; decide⟩
  exact ⟨h, fun h' => absurd (shows_one _ _ _ _ h h') (by decide), by decide +kernel, by decide +kernel⟩

/-! ### Errors -/

/-- What stands in front of the first colon. -/
theorem before_colon (a b r r' : Str) (ha : ∀ x ∈ a, digit x ≠ none) (hb : ∀ x ∈ b, digit x ≠ none)
    (h : a ++ (0x3A#8 :: r) = b ++ (0x3A#8 :: r')) : a = b := by
  induction a generalizing b with
  | nil =>
    cases b with
    | nil => rfl
    | cons y b =>
      simp only [List.nil_append, List.cons_append, List.cons.injEq] at h
      exact absurd (by rw [← h.1]; decide) (hb y (List.mem_cons_self ..))
  | cons x a ih =>
    cases b with
    | nil =>
      simp only [List.nil_append, List.cons_append, List.cons.injEq] at h
      exact absurd (by rw [h.1]; decide) (ha x (List.mem_cons_self ..))
    | cons y b =>
      simp only [List.cons_append, List.cons.injEq] at h
      rw [h.1, ih b (fun z hz => ha z (List.mem_cons_of_mem _ hz)) (fun z hz => hb z (List.mem_cons_of_mem _ hz)) h.2]

theorem error_start (code : Byte) (ext : BitVec 16) : ∃ r, errorText code ext =
    str "error " ++ ((hex true code.toNat ++ hex true ext.toNat) ++ (0x3A#8 :: r)) := by
  have e : str ": " = 0x3A#8 :: [0x20#8] := by decide +kernel
  simp only [errorText, e]
  cases errorNames.lookup code with
  | some t => exact ⟨0x20#8 :: str t, by simp [List.append_assoc]⟩
  | none =>
    cases errorNamesExt.lookup (code, ext) with
    | some t => exact ⟨0x20#8 :: str t, by simp [List.append_assoc]⟩
    | none => exact ⟨0x20#8 :: str "Unknown Error", by simp [List.append_assoc]⟩

/-- **C112** Errors with extended codes of four digits are told apart. -/
theorem C112_error_tells_partial :
    TellsApart (fun e : Byte × BitVec 16 => 0x1000 ≤ e.2.toNat) (fun e => errorText e.1 e.2) := by
  rintro ⟨c, x⟩ ⟨c', x'⟩ hx hx' h
  obtain ⟨r, hr⟩ := error_start c x
  obtain ⟨r', hr'⟩ := error_start c' x'
  simp only at h hx hx'
  rw [hr, hr'] at h
  have dig : ∀ m n : Nat, ∀ b ∈ hex true m ++ hex true n, digit b ≠ none := by
    intro m n b hb
    rcases List.mem_append.mp hb with hb | hb
    · exact hexAux_digits _ _ _ b hb
    · exact hexAux_digits _ _ _ b hb
  have e := before_colon _ _ _ _ (dig _ _) (dig _ _) (List.append_cancel_left h)
  have e2 := List.append_inj' e (by rw [hex_four _ _ hx x.isLt, hex_four _ _ hx' x'.isLt])
  rw [BitVec.eq_of_toNat_eq (hex_inj _ _ _ e2.1), BitVec.eq_of_toNat_eq (hex_inj _ _ _ e2.2)]

/-- **C112** The two codes are printed without anything between them, so different errors can read alike. -/
theorem C112_error_same : errorText 0x0B#8 0x0011#16 = errorText 0xB1#8 0x0001#16 ∧
    errorText 0x0B#8 0x0011#16 = str "error B11: Unknown Error" := by decide +kernel

/-! ### Calls that fail -/

/-- **C112** The error of a call for a status shows the name of that status, and what it shows as the code it expected
is the name of 0 in hexadecimal. -/
theorem C112_generic_expected (status : BitVec 16) (t : Str) (h : genericFailed status = some t) :
    str "CIP status error: expected 0x4F4B (OK), got 0x" <+: t := by
  simp only [genericFailed] at h
  split at h
  · cases h
  · injection h with h
    rw [← h, statusErrorText]
    rw [show str "CIP status error: expected 0x" ++ hexOfText (statusText 0) ++ str " (" ++ statusText 0 ++
      str "), got 0x" = str "CIP status error: expected 0x4F4B (OK), got 0x" by decide +kernel, List.append_assoc,
      List.append_assoc, List.append_assoc]
    exact List.prefix_append _ _

/-- **C112** What is shown as expected is not what was expected. -/
theorem C112_generic_expected_wrong (status : BitVec 16) (t : Str) (h : genericFailed status = some t) :
    Shows t (str "CIP status error: expected ") 0x4F4B ∧ ¬ Shows t (str "CIP status error: expected ") 0 := by
  obtain ⟨r, hr⟩ := C112_generic_expected status t h
  have hs : Shows t (str "CIP status error: expected ") 0x4F4B := by
    refine ⟨str "4F4B", str " (OK), got 0x" ++ r, ?_, by decide +kernel, by decide +kernel, ?_⟩
    · rw [← hr, ← List.append_assoc]
      congr 1
    · intro b hb
      rw [show (str " (OK), got 0x" ++ r).head? = some 0x20#8 by rfl] at hb
      cases hb
      decide
  exact ⟨hs, fun h' => absurd (shows_one _ _ _ _ hs h') (by decide)⟩

/-- **C112** It shows the status it got, when that has 8 bits. -/
theorem C112_generic_status_partial (status : BitVec 16) (h0 : status ≠ 0) (h : status.toNat < 256) :
    ∃ t, genericFailed status = some t ∧
      Shows t (str "CIP status error: expected 0x4F4B (OK), got ") status.toNat ∧
      (str " (" ++ statusText (BitVec.ofNat 8 status.toNat) ++ str ")") <:+ t := by
  have e : (status.setWidth 8 : Byte) = BitVec.ofNat 8 status.toNat := by
    apply BitVec.eq_of_toNat_eq
    simp
  have et : (status.setWidth 8 : Byte).toNat = status.toNat := by
    rw [e, BitVec.toNat_ofNat]
    exact Nat.mod_eq_of_lt h
  refine ⟨_, by rw [genericFailed, if_neg h0], ?_, ?_⟩
  · refine ⟨hex true status.toNat, str " (" ++ statusText (status.setWidth 8) ++ str ")", ?_, hex_ne _ _,
      number_hex _ _, ?_⟩
    · rw [statusErrorText, et,
        show str "CIP status error: expected 0x" ++ hexOfText (statusText 0) ++ str " (" ++ statusText 0 ++
        str "), got 0x" = str "CIP status error: expected 0x4F4B (OK), got " ++ str "0x" by decide +kernel]
      simp [List.append_assoc]
    · intro b hb
      rw [show (str " (" ++ statusText (status.setWidth 8) ++ str ")").head? = some 0x20#8 by rfl] at hb
      cases hb
      decide
  · rw [statusErrorText, e]
    exact ⟨str "CIP status error: expected 0x" ++ (hexOfText (statusText 0) ++ (str " (" ++ (statusText 0 ++
      (str "), got 0x" ++ hex true (BitVec.ofNat 8 status.toNat).toNat)))), by simp only [List.append_assoc]⟩

/-- **C112** A status whose lower 8 bits are 0 is a failure that says it got 0 (OK). -/
theorem C112_generic_cut : genericFailed 0x0100#16 =
    some (str "CIP status error: expected 0x4F4B (OK), got 0x0 (OK)") := by decide +kernel

/-- **C112** The reply to another service is reported with the names of both services in hexadecimal. -/
theorem C112_service_shown_wrong : serviceFailed 0x0E#8 0x81#8 =
    some (str "expected service response 0x636970536572766963655F47657441747472696275746553696E676C65 but got 0x636970536572766963655F476574417474726962757465416C6C") := by
  decide +kernel

theorem hexOfText_inj (s t : Str) (h : hexOfText s = hexOfText t) : s = t := by
  induction s generalizing t with
  | nil =>
    cases t with
    | nil => rfl
    | cons b t => simp [hexOfText] at h
  | cons a s ih =>
    cases t with
    | nil => simp [hexOfText] at h
    | cons b t =>
      simp only [hexOfText, List.flatMap_cons, List.cons_append, List.nil_append, List.cons.injEq] at h
      obtain ⟨h1, h2, h3⟩ := h
      have d : ∀ m n : Nat, m < 16 → n < 16 → hexDigit true m = hexDigit true n → m = n := by
        intro m n hm hn e
        have := digit_hexDigit true m hm
        rw [e, digit_hexDigit true n hn] at this
        exact (Option.some.inj this).symm
      have ha := a.isLt
      have hb := b.isLt
      have e1 := d _ _ (by omega) (by omega) h1
      have e2 := d _ _ (by omega) (by omega) h2
      rw [ih t h3, BitVec.eq_of_toNat_eq (show a.toNat = b.toNat by omega)]

/-- **C112** Two different replies to one service are still told apart. -/
theorem C112_service_failed_tells (asked : Byte) : TellsApart (fun got => got &&& 0x80#8 = 0x80#8 ∧ got &&& 0x7F#8 ≠ asked)
    (fun got => (serviceFailed asked got).getD []) := by
  rintro a b ⟨ha, ha'⟩ ⟨hb, hb'⟩ h
  simp only [serviceFailed, if_pos ha', if_pos hb', Option.getD_some] at h
  have e := C112_service_tells _ _ trivial trivial (hexOfText_inj _ _ (List.append_cancel_left h))
  have : ∀ x : Byte, x &&& 0x80#8 = 0x80#8 → x = (x &&& 0x7F#8) ||| 0x80#8 := by decide +kernel
  rw [this a ha, this b hb, e]

/-- **C112** The error for a list of attributes shows the whole status. -/
theorem C112_attributes_status (status : BitVec 16) (h0 : status ≠ 0) :
    ∃ t, attributesFailed status = some t ∧ Shows t (str "response header has status ") status.toNat := by
  refine ⟨_, by rw [attributesFailed, if_pos h0], hex true status.toNat,
    str " (" ++ statusText (status.setWidth 8) ++ str ")", ?_, hex_ne _ _, number_hex _ _, ?_⟩
  · rw [show str "response header has status 0x" = str "response header has status " ++ str "0x" by decide +kernel]
    simp [List.append_assoc]
  · intro b hb
    rw [show (str " (" ++ statusText (status.setWidth 8) ++ str ")").head? = some 0x20#8 by rfl] at hb
    cases hb
    decide

/-- The lower 8 bits of a small number. -/
theorem small_inj {w : Nat} (a b : BitVec w) (ha : a.toNat < 256) (hb : b.toNat < 256)
    (h : (a.setWidth 8 : Byte) = b.setWidth 8) : a = b := by
  have := congrArg BitVec.toNat h
  simp only [BitVec.toNat_setWidth] at this
  apply BitVec.eq_of_toNat_eq
  omega

/-- **C112** Reads of several tags tell failures with statuses of 8 bits apart; reads of one tag all of them. -/
theorem C112_reads_tell_partial :
    TellsApart (fun s : BitVec 32 => s ≠ 0 ∧ s.toNat < 256) (fun s => (listFailed s).getD []) ∧
    TellsApart (fun s : BitVec 16 => s ≠ 0 ∧ s.toNat < 256) (fun s => (multiFailed s).getD []) ∧
    ∀ tag, TellsApart (fun s : Byte => s ≠ 0 ∧ s ≠ 6) (fun s => (readFailed tag s).getD []) := by
  refine ⟨?_, ?_, ?_⟩
  · intro a b ha hb h
    simp only [listFailed, if_pos ha.1, if_pos hb.1, Option.getD_some] at h
    exact small_inj a b ha.2 hb.2 (C112_status_tells _ _ trivial trivial (List.append_cancel_left h))
  · intro a b ha hb h
    simp only [multiFailed, if_pos ha.1, if_pos hb.1, Option.getD_some] at h
    exact small_inj a b ha.2 hb.2 (C112_status_tells _ _ trivial trivial (List.append_cancel_left h))
  · intro tag a b ha hb h
    simp only [readFailed, if_pos ha, if_pos hb, Option.getD_some] at h
    exact C112_status_tells _ _ trivial trivial (List.append_cancel_left h)

/-- **C112** Failures that are reported as OK. -/
theorem C112_reads_cut : listFailed 0x100#32 = some (str "problem reading tags. Status OK") ∧
    multiFailed 0x100#16 = some (str "service returned status OK") := by decide +kernel

/-! ### Examples -/

example : statusText 0x16#8 = str "Object does not exist - The object specified does not exist in the device." ∧
    statusText 0xD0#8 = str "Unknown CIPStatus: 0xD0 (reserved for object class and service errors)" ∧
    Mentions (statusText 0xD0#8) 0xD0 := ⟨by decide +kernel, by decide +kernel, C112_status_code 0xD0#8 (by decide)⟩

example : serviceText 0x4C#8 = str "cipService_Read" ∧ serviceText 0xCC#8 = str "unknown service 204" := by decide +kernel

example : typeText 0xC4#8 = str "0xC4 - DINT" ∧ typeText 0x05#8 = str "0x 5 - Unknown" ∧
    Shows (typeText 0xC4#8) [] 0xC4 := ⟨by decide +kernel, by decide +kernel, C112_type_code_partial _ (by decide) (by decide)⟩

example : errorText 0xFF#8 0x2104#16 =
    str "error FF2104: General Error: Offset is beyond end of the requested tag." := by decide +kernel

example : genericFailed 0x0008#16 = some (str "CIP status error: expected 0x4F4B (OK), got 0x8 (" ++
    str "Service not supported - The requested service was not implemented or was not defined for this Object Class/Instance)") := by
  decide +kernel

example : attributesFailed 0x0100#16 = some (str "response header has status 0x100 (OK)") := by decide +kernel

example : readFailed (str "Motor") 0x07#8 = some (str "read of Motor returned status ConnectionLost") := by decide +kernel

end Gologix
