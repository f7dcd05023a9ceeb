import Verif.Model.Files
import Verif.Model.KeyStore
import Verif.Lemmas.Pem
import Mathlib.Tactic.ByContra
/-
Properties C63 and C64: PEM wrapping and byte order marks.
-/
namespace RKSV

/-! ### C63 -/

/-- All lines but the last have this length, the last one is not empty and not longer. -/
def WrappedAt (n : Nat) (ls : List Str) : Prop :=
  (∀ l ∈ ls.dropLast, l.length = n) ∧ ∀ l, ls.getLast? = some l → l ≠ [] ∧ l.length ≤ n

theorem wrap64_ne_nil {n : Nat} {s : Str} (hn : s.length ≤ n) (h : s ≠ []) : wrap64 n s ≠ [] := by
  cases n with
  | zero => exact absurd (List.eq_nil_of_length_eq_zero (by omega)) h
  | succ n =>
    cases s with
    | nil => exact absurd rfl h
    | cons x xs => simp [wrap64]

theorem wrap64_wrapped {n : Nat} {s : Str} (h : s.length ≤ n) : WrappedAt 64 (wrap64 n s) := by
  induction n generalizing s with
  | zero =>
    have : s = [] := List.eq_nil_of_length_eq_zero (by omega)
    subst this
    simp [wrap64, WrappedAt]
  | succ n ih =>
    cases s with
    | nil => simp [wrap64, WrappedAt]
    | cons x xs =>
      have hlen : ((x :: xs).drop 64).length ≤ n := by
        simp only [List.length_drop, List.length_cons] at h ⊢; omega
      obtain ⟨i1, i2⟩ := ih hlen
      simp only [wrap64]
      by_cases hd : (x :: xs).drop 64 = []
      · rw [hd]
        have hw : wrap64 n [] = [] := by cases n <;> rfl
        rw [hw]
        refine ⟨by simp, ?_⟩
        intro l hl
        simp only [List.getLast?_singleton, Option.some.injEq] at hl
        subst hl
        exact ⟨by simp, by simp only [List.length_take]; omega⟩
      · have hne := wrap64_ne_nil hlen hd
        have h64 : 64 < (x :: xs).length := by
          by_contra hc
          exact hd (List.drop_eq_nil_of_le (by omega))
        generalize wrap64 n ((x :: xs).drop 64) = W at *
        cases W with
        | nil => exact absurd rfl hne
        | cons w W =>
          refine ⟨?_, ?_⟩
          · intro l hl
            rw [List.dropLast_cons_of_ne_nil (by simp)] at hl
            rcases List.mem_cons.mp hl with rfl | hl
            · simp only [List.length_take]; omega
            · exact i1 l hl
          · intro l hl
            rw [List.getLast?_cons_cons] at hl
            exact i2 l hl

theorem pemText_split {b e s : Str} (hb : '\n' ∉ b) (he : '\n' ∉ e) (h : '\n' ∉ s) (hs : s ≠ []) :
    splitOn '\n' (b ++ ['\n'] ++ pemLines s ++ ['\n'] ++ e) = b :: wrap64 s.length s ++ [e] := by
  have hw := wrap64_ne_nil (Nat.le_refl _) hs
  have h1 : splitOn '\n' (pemLines s) = wrap64 s.length s :=
    splitOn_joinWith hw fun l hl hc => h ((wrap64_mem hl).2.2 _ hc)
  have key : ∀ l : List Str, l ≠ [] → (∀ x ∈ l, '\n' ∉ x) →
      splitOn '\n' (joinWith '\n' l ++ '\n' :: e) = l ++ [e] := by
    intro l
    induction l with
    | nil => intro h; exact absurd rfl h
    | cons x l ih =>
      intro _ hl
      cases l with
      | nil =>
        simp only [joinWith]
        rw [splitOn_append_sep (hl x (by simp)), splitOn_eq_singleton he]
        rfl
      | cons y l =>
        simp only [joinWith, List.append_assoc, List.cons_append]
        rw [splitOn_append_sep (hl x (by simp)), ih (by simp) fun z hz => hl z (by simp [hz])]
        rfl
  simp only [List.append_assoc, List.cons_append, List.nil_append]
  rw [splitOn_append_sep hb, pemLines, key _ hw fun l hl hc => h ((wrap64_mem hl).2.2 _ hc)]

/-- C63: the lines of the text are header, body and footer; the lines of the body have 64 characters, the
last one at most, and are the body put in a row. -/
theorem pem_cert_lines {s : Str} (h : '\n' ∉ s) (hs : s ≠ []) :
    ∃ ls, splitOn '\n' (addPEMCertHeaders s) = c!"-----BEGIN CERTIFICATE-----" :: ls ++ [c!"-----END CERTIFICATE-----"] ∧
      ls.flatten = s ∧ WrappedAt 64 ls :=
  ⟨wrap64 s.length s, pemText_split (by decide) (by decide) h hs, wrap64_flatten (Nat.le_refl _), wrap64_wrapped (Nat.le_refl _)⟩

/-- C63 for public keys. -/
theorem pem_key_lines {s : Str} (h : '\n' ∉ s) (hs : s ≠ []) :
    ∃ ls, splitOn '\n' (addPEMPubKeyHeaders s) = c!"-----BEGIN PUBLIC KEY-----" :: ls ++ [c!"-----END PUBLIC KEY-----"] ∧
      ls.flatten = s ∧ WrappedAt 64 ls :=
  ⟨wrap64 s.length s, pemText_split (by decide) (by decide) h hs, wrap64_flatten (Nat.le_refl _), wrap64_wrapped (Nat.le_refl _)⟩

theorem splitLines_line {l s : Str} (h : ∀ c ∈ l, isLineBreak c = false) :
    splitLines (l ++ '\n' :: s) = l :: splitLines s := by
  induction l with
  | nil =>
    cases s with
    | nil => rfl
    | cons d s => simp [splitLines, isLineBreak]
  | cons c l ih =>
    have hc := h c (by simp)
    have hcr : c ≠ '\r' := by rintro rfl; exact absurd hc (by decide)
    have ih := ih fun x hx => h x (by simp [hx])
    cases hl : l ++ '\n' :: s with
    | nil => simp at hl
    | cons d t =>
      rw [hl] at ih
      simp only [List.cons_append, hl, splitLines, hcr, false_and, if_false, hc, Bool.false_eq_true, ih]

theorem splitLines_single {l : Str} (hl : l ≠ []) (h : ∀ c ∈ l, isLineBreak c = false) : splitLines l = [l] := by
  induction l with
  | nil => exact absurd rfl hl
  | cons c l ih =>
    have hc := h c (by simp)
    have hcr : c ≠ '\r' := by rintro rfl; exact absurd hc (by decide)
    cases l with
    | nil => simp [splitLines, hc]
    | cons d l =>
      simp only [splitLines, hcr, false_and, if_false, hc, Bool.false_eq_true,
        ih (by simp) fun x hx => h x (by simp [hx])]

theorem stripPEM_text {b e s : Str} (hb : ∀ c ∈ b, isLineBreak c = false) (he : ∃ l, splitLines e = [l]) (h : ∀ c ∈ s, isLineBreak c = false) :
    stripPEM (b ++ ['\n'] ++ pemLines s ++ ['\n'] ++ e) = s := by
  obtain ⟨f, hf⟩ := he
  have key : ∀ l : List Str, l ≠ [] → (∀ x ∈ l, ∀ c ∈ x, isLineBreak c = false) →
      splitLines (joinWith '\n' l ++ '\n' :: e) = l ++ [f] := by
    intro l
    induction l with
    | nil => intro h; exact absurd rfl h
    | cons x l ih =>
      intro _ hl
      cases l with
      | nil =>
        simp only [joinWith]
        rw [splitLines_line (hl x (by simp)), hf]
        rfl
      | cons y l =>
        simp only [joinWith, List.append_assoc, List.cons_append]
        rw [splitLines_line (hl x (by simp)), ih (by simp) fun z hz => hl z (by simp [hz])]
        rfl
  unfold stripPEM
  simp only [List.append_assoc, List.cons_append, List.nil_append]
  rw [splitLines_line hb]
  by_cases hs : s = []
  · subst hs
    have : pemLines [] = [] := rfl
    rw [this, List.nil_append, show '\n' :: e = [] ++ '\n' :: e from rfl,
      splitLines_line (by simp), hf]
    rfl
  · rw [pemLines, key _ (wrap64_ne_nil (Nat.le_refl _) hs) fun l hl c hc => h c ((wrap64_mem hl).2.2 c hc)]
    simp [wrap64_flatten (Nat.le_refl _)]

theorem b64Encode_no_break (b : Bytes) : ∀ c ∈ b64Encode false b, isLineBreak c = false := by
  intro c hc
  rcases List.mem_append.mp hc with hc | hc
  · obtain ⟨n, hn, rfl⟩ := List.mem_map.mp hc
    have key : ∀ n : Fin 64, isLineBreak (b64Char false n) = false := by decide
    exact key ⟨n, enc6_lt b n hn⟩
  · rw [List.eq_of_mem_replicate hc]
    rfl

/-- C63: taking the headers off again yields the body. -/
theorem pem_strip {s : Str} (h : ∀ c ∈ s, isLineBreak c = false) :
    stripPEM (addPEMCertHeaders s) = s ∧ stripPEM (addPEMPubKeyHeaders s) = s :=
  ⟨stripPEM_text (by decide) ⟨endCert, by decide⟩ h, stripPEM_text (by decide) ⟨endPubKey, by decide⟩ h⟩

/-- C63: the exported text of a certificate or key is what remains of the PEM text, which has a line break
at its end, without headers and line breaks. -/
theorem pem_export [PyEnv] (c : Cert) (k : PubKey) :
    stripPEM (addPEMCertHeaders (b64Encode false (certDER c)) ++ ['\n']) = exportCertToPEM c ∧
    stripPEM (addPEMPubKeyHeaders (b64Encode false (keyDER k)) ++ ['\n']) = exportKeyToPEM k := by
  unfold addPEMCertHeaders addPEMPubKeyHeaders
  rw [List.append_assoc _ endCert, List.append_assoc _ endPubKey]
  exact ⟨stripPEM_text (by decide) ⟨endCert, by decide⟩ (b64Encode_no_break _),
    stripPEM_text (by decide) ⟨endPubKey, by decide⟩ (b64Encode_no_break _)⟩

/-! ### C64 -/

/-- What is still to be read. -/
def PyFile.rest {α : Type} (f : PyFile α) : List α := f.content.drop f.pos

theorem PyFile.read_all {α : Type} {f : PyFile α} {b t : List α} (h : f.rest = b ++ t) :
    (f.read b.length).1 = b ∧ (f.read b.length).2.rest = t := by
  unfold PyFile.rest at h
  unfold PyFile.read PyFile.rest
  simp only [h, List.take_left, ← List.drop_drop, List.drop_left, true_and]

theorem PyFile.read_short {α : Type} {f : PyFile α} {b : List α} (h : (f.read b.length).1 = b) : b <+: f.rest := by
  rw [← h]
  exact List.take_prefix _ _

/-- C64 for binary files: a byte order mark at the position is skipped, any other content is untouched;
going to the returned position later gets there again. -/
theorem skip_bom_bytes {f f' : PyFile UInt8} {p : Nat} (hs : f.seekable = true) (h : skipBOMBytes f = (f', p)) :
    f'.content = f.content ∧ f'.seek p = f' ∧ (∀ t, f.rest = [0xEF, 0xBB, 0xBF] ++ t → f'.rest = t) ∧
      ((¬∃ t, f.rest = [0xEF, 0xBB, 0xBF] ++ t) → f' = f) := by
  simp only [skipBOMBytes, PyFile.tell, hs, if_true, Prod.mk.injEq] at h
  obtain ⟨rfl, rfl⟩ := h
  refine ⟨by split <;> rfl, rfl, ?_, ?_⟩
  · intro t ht
    obtain ⟨h1, h2⟩ := PyFile.read_all (b := bomUtf8) ht
    simp only [h1, ne_eq, not_true_eq_false, if_false, h2]
  · intro hn
    rw [if_pos]
    · rfl
    · intro he
      obtain ⟨t, ht⟩ := PyFile.read_short he
      exact hn ⟨t, ht.symm⟩

theorem utf8Enc_bom : utf8Enc [Char.ofNat 0xFEFF] = bomUtf8 := by decide

/-- A text's encoding starts with a byte order mark exactly if the text starts with its character. -/
theorem utf8Enc_starts_bom {s : Str} {r : Bytes} :
    utf8Enc s = [0xEF, 0xBB, 0xBF] ++ r ↔ ∃ t, s = Char.ofNat 0xFEFF :: t ∧ r = utf8Enc t := by
  have he : utf8EncChar (Char.ofNat 0xFEFF) = [0xEF, 0xBB, 0xBF] := by decide
  constructor
  · intro h
    have h1 := congrArg utf8Dec h
    rw [utf8Dec_enc, ← he, utf8Dec_encChar_append] at h1
    cases hr : utf8Dec r with
    | none => rw [hr] at h1; cases h1
    | some t =>
      rw [hr] at h1
      simp only [Option.map_some, Option.some.injEq] at h1
      subst h1
      rw [utf8Enc_cons, he] at h
      exact ⟨t, rfl, (List.append_cancel_left h).symm⟩
  · rintro ⟨t, rfl, rfl⟩
    rw [utf8Enc_cons, he]

/-- C64 for text files. -/
theorem skip_bom_text {f f' : PyFile Char} {p : Nat} (hs : f.seekable = true) (h : skipBOMText f = (f', p)) :
    f'.content = f.content ∧ f'.seek p = f' ∧ (∀ t, f.rest = Char.ofNat 0xFEFF :: t → f'.rest = t) ∧
      ((¬∃ t, f.rest = Char.ofNat 0xFEFF :: t) → f' = f) := by
  simp only [skipBOMText, PyFile.tell, hs, if_true, Prod.mk.injEq] at h
  obtain ⟨rfl, rfl⟩ := h
  refine ⟨by split <;> rfl, rfl, ?_, ?_⟩
  · intro t ht
    obtain ⟨h1, h2⟩ := PyFile.read_all (b := [Char.ofNat 0xFEFF]) ht
    simp only [List.length_singleton] at h1 h2
    simp only [h1, utf8Enc_bom, ne_eq, not_true_eq_false, if_false, h2]
  · intro hn
    rw [if_pos]
    · rfl
    · intro he
      obtain ⟨t, h1, h2⟩ := utf8Enc_starts_bom.mp (he.trans (List.append_nil _).symm)
      have ht : t = [] := by
        cases t with
        | nil => rfl
        | cons c t =>
          have h3 := congrArg List.length h1
          simp only [PyFile.read, List.length_take, List.length_cons] at h3
          omega
      subst ht
      obtain ⟨t, ht⟩ := PyFile.read_short (f := f) (b := [Char.ofNat 0xFEFF]) h1
      exact hn ⟨t, ht.symm⟩

/-- C64: it makes no difference whether a file is opened in text mode or in binary mode. -/
theorem skip_bom_modes {s : Str} :
    (skipBOMBytes ⟨utf8Enc s, 0, true⟩).1.rest = utf8Enc (skipBOMText ⟨s, 0, true⟩).1.rest := by
  obtain ⟨-, -, b1, b2⟩ := skip_bom_bytes (f := ⟨utf8Enc s, 0, true⟩) rfl
    (rfl : _ = ((skipBOMBytes ⟨utf8Enc s, 0, true⟩).1, (skipBOMBytes ⟨utf8Enc s, 0, true⟩).2))
  obtain ⟨-, -, t1, t2⟩ := skip_bom_text (f := ⟨s, 0, true⟩) rfl
    (rfl : _ = ((skipBOMText ⟨s, 0, true⟩).1, (skipBOMText ⟨s, 0, true⟩).2))
  by_cases h : ∃ t, s = Char.ofNat 0xFEFF :: t
  · obtain ⟨t, ht⟩ := h
    rw [t1 t ht, b1 (utf8Enc t) (utf8Enc_starts_bom.mpr ⟨t, ht, rfl⟩)]
  · rw [t2 h, b2]
    · rfl
    · rintro ⟨r, hr⟩
      obtain ⟨t, ht, -⟩ := utf8Enc_starts_bom.mp hr
      exact h ⟨t, ht⟩

/-- Nothing is read from an input that cannot be rewound, so there a byte order mark stays. -/
theorem skip_bom_pipe {f : PyFile UInt8} {g : PyFile Char} (hf : f.seekable = false) (hg : g.seekable = false) :
    skipBOMBytes f = (f, 0) ∧ skipBOMText g = (g, 0) := by
  simp [skipBOMBytes, skipBOMText, PyFile.tell, hf, hg]

/-! ### Concrete cases -/

example : (skipBOMBytes ⟨[0xEF, 0xBB, 0xBF, 0xEF, 0xBB, 0xBF, 0x7B], 0, true⟩).2 = 3 := by decide
example : (skipBOMBytes ⟨[0xEF, 0xBB], 0, true⟩).2 = 0 := by decide
example : (skipBOMText ⟨[Char.ofNat 0xFEFF, '{'], 0, true⟩).2 = 1 := by decide
example : splitOn '\n' (addPEMCertHeaders (List.replicate 65 'A')) =
    [c!"-----BEGIN CERTIFICATE-----", List.replicate 64 'A', ['A'], c!"-----END CERTIFICATE-----"] := by decide +kernel

end RKSV
