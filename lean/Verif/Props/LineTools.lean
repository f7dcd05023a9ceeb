import Verif.Props.Convert
import Verif.Props.VerifyReceipt
import Verif.Props.Url
/-
Properties C79 to C82: the command line tools for receipts and certificates.
-/
namespace RKSV

section
variable [PyEnv]

theorem lineReads_iff {v : PyVersion} {f : InFormat} {l : Str} {r : Receipt} {alg : Str} :
    f.read v l = .ok (r, alg) ↔ LineReads v f l r alg := by
  cases f
  · exact ⟨fun h => .jws h, fun h => by cases h; assumption⟩
  · exact ⟨fun h => .qr h, fun h => by cases h; assumption⟩
  · exact ⟨fun h => .ocr h, fun h => by cases h; assumption⟩
  · exact ⟨fun h => .csv h, fun h => by cases h; assumption⟩

theorem LineReads.parsed {v : PyVersion} {f : InFormat} {l : Str} {r : Receipt} {alg : Str}
    (h : LineReads v f l r alg) : Parsed r alg := by
  cases h with
  | jws h => exact .jws _ h
  | qr h => exact .basic _ h
  | ocr h => exact .ocr _ _ h
  | csv h => exact .csv _ h

theorem LineReads.det {v : PyVersion} {f : InFormat} {l : Str} {r r' : Receipt} {alg alg' : Str}
    (h : LineReads v f l r alg) (h' : LineReads v f l r' alg') : r = r' ∧ alg = alg' := by
  rw [← lineReads_iff] at h h'
  rw [h] at h'
  simpa using h'

/-- Reading a line fails with a documented error, apart from OCR codes under Python 3. -/
theorem read_error {v : PyVersion} {f : InFormat} {l : Str} {e : Err} (h : f.read v l = .error e) :
    ReceiptErr e ∨ (f = .ocr ∧ v = .py3 ∧ e = .attributeError) := by
  cases f with
  | jws => exact .inl (parsers_fail_documented _ (.inl h))
  | qr => exact .inl (parsers_fail_documented _ (.inr (.inl h)))
  | csv => exact .inl (parsers_fail_documented _ (.inr (.inr h)))
  | ocr =>
    rcases ocr_fails_documented _ _ h with h | ⟨h1, h2⟩
    · exact .inl h
    · exact .inr ⟨rfl, h1, h2⟩

/-- Every receipt can be written in every format. -/
theorem write_total {r : Receipt} {alg : Str} (h : Parsed r alg) (o : OutFormat) : ∃ s, o.write r alg = .ok s := by
  cases o with
  | jws => exact ⟨_, rfl⟩
  | qr => obtain ⟨code, -, h, -⟩ := qr_round_trip h; exact ⟨code, h⟩
  | url => obtain ⟨_, hash, -, h, -⟩ := url_hash_form h; exact ⟨hash, h⟩
  | csv => exact csv_total h
  | ocr =>
    obtain ⟨g, rfl⟩ := h.good
    obtain ⟨sb, hsb⟩ := Option.isSome_iff_exists.mp g.sig
    obtain ⟨tc, htc, -⟩ := g.init.tc
    obtain ⟨cv, hcv, -⟩ := g.chain
    simp only [OutFormat.write, Receipt.toOCR, htc, hcv, hsb, orErr, Res.ok_bind]
    exact ⟨_, rfl⟩

/-- What receipt.py does with a line. -/
def Converts (v : PyVersion) (i : InFormat) (o : OutFormat) (l s : Str) : Prop :=
  ∃ r alg, LineReads v i l r alg ∧ o.write r alg = .ok s

theorem converts_iff {v : PyVersion} {i : InFormat} {o : OutFormat} {l s : Str} :
    (i.read v l >>= fun r => o.write r.1 r.2) = .ok s ↔ Converts v i o l s := by
  rw [Res.bind_eq_ok]
  constructor
  · rintro ⟨⟨r, alg⟩, h1, h2⟩; exact ⟨r, alg, lineReads_iff.mp h1, h2⟩
  · rintro ⟨r, alg, h1, h2⟩; exact ⟨(r, alg), lineReads_iff.mpr h1, h2⟩

theorem convert_error {v : PyVersion} {i : InFormat} {o : OutFormat} {l : Str} {e : Err} :
    (i.read v l >>= fun r => o.write r.1 r.2) = .error e ↔ i.read v l = .error e := by
  rw [Res.bind_eq_error]
  constructor
  · rintro (h | ⟨⟨r, alg⟩, h1, h2⟩)
    · exact h
    · obtain ⟨s, hs⟩ := write_total (lineReads_iff.mp h1).parsed o
      rw [hs] at h2; cases h2
  · exact .inl

/-- C79: receipt.py prints for each line of its input the same receipt in the other format, and ends without an
exception exactly if every line is a receipt. -/
theorem receipt_tool_iff {v : PyVersion} {i : InFormat} {o : OutFormat} {text out : Str} :
    receiptTool v i o text = (out, none) ↔
      ∃ outs, out = textFile outs ∧ List.Forall₂ (Converts v i o) (fileLines text) outs := by
  unfold receiptTool
  generalize fileLines text = ls
  induction ls generalizing out with
  | nil =>
    simp only [convertLines, Prod.mk.injEq, and_true]
    constructor
    · rintro rfl; exact ⟨[], rfl, .nil⟩
    · rintro ⟨outs, rfl, h⟩; cases h; rfl
  | cons l ls ih =>
    simp only [convertLines]
    constructor
    · intro h
      split at h
      · cases h
      · rename_i s hs
        simp only [Prod.mk.injEq] at h
        obtain ⟨rfl, h⟩ := h
        obtain ⟨outs, e, hf⟩ := ih.mp (Prod.ext rfl h)
        refine ⟨s :: outs, ?_, .cons (converts_iff.mp hs) hf⟩
        show _ = (s ++ ['\n']) ++ textFile outs
        rw [List.append_assoc]
        exact congrArg (fun x => s ++ '\n' :: x) e
    · rintro ⟨_, rfl, h⟩
      cases h with
      | @cons _ s _ outs h hs =>
        rw [converts_iff.mpr h]
        have := ih.mpr ⟨outs, rfl, hs⟩
        simp only [this]
        simp [textFile]

/-- C79: otherwise it prints the receipts before the first line that is not a receipt, and ends with the exception
for this line. -/
theorem receipt_tool_stops {v : PyVersion} {i : InFormat} {o : OutFormat} {text out : Str} {e : Err} :
    receiptTool v i o text = (out, some e) ↔
      ∃ pre l post outs, fileLines text = pre ++ l :: post ∧ out = textFile outs ∧
        List.Forall₂ (Converts v i o) pre outs ∧ i.read v l = .error e := by
  unfold receiptTool
  generalize fileLines text = ls
  induction ls generalizing out with
  | nil =>
    simp only [convertLines, Prod.mk.injEq, reduceCtorEq, and_false, false_iff]
    rintro ⟨pre, l, post, outs, h, -⟩
    cases pre <;> cases h
  | cons l ls ih =>
    simp only [convertLines]
    constructor
    · intro h
      split at h
      · rename_i e' he
        simp only [Prod.mk.injEq, Option.some.injEq] at h
        obtain ⟨rfl, rfl⟩ := h
        exact ⟨[], l, ls, [], rfl, rfl, .nil, convert_error.mp he⟩
      · rename_i s hs
        simp only [Prod.mk.injEq] at h
        obtain ⟨rfl, h⟩ := h
        obtain ⟨pre, l', post, outs, h1, h2, h3, h4⟩ := ih.mp (Prod.ext rfl h)
        refine ⟨l :: pre, l', post, s :: outs, by rw [h1]; rfl, ?_, .cons (converts_iff.mp hs) h3, h4⟩
        show _ = (s ++ ['\n']) ++ textFile outs
        rw [List.append_assoc]
        exact congrArg (fun x => s ++ '\n' :: x) h2
    · rintro ⟨pre, l', post, outs, h1, rfl, h3, h4⟩
      cases h3 with
      | nil =>
        simp only [List.nil_append, List.cons.injEq] at h1
        obtain ⟨rfl, rfl⟩ := h1
        rw [convert_error.mpr h4]
        rfl
      | @cons l₀ s pre outs h hs =>
        simp only [List.cons_append, List.cons.injEq] at h1
        obtain ⟨rfl, rfl⟩ := h1
        rw [converts_iff.mpr h]
        have := ih.mpr ⟨pre, l', post, outs, rfl, rfl, hs, h4⟩
        simp only [this]
        simp [textFile]

/-- C79: the exceptions of receipt.py. -/
theorem receipt_tool_errors {v : PyVersion} {i : InFormat} {o : OutFormat} {text out : Str} {e : Err}
    (h : receiptTool v i o text = (out, some e)) : ReceiptErr e ∨ (i = .ocr ∧ v = .py3 ∧ e = .attributeError) := by
  obtain ⟨pre, l, post, outs, -, -, -, h⟩ := receipt_tool_stops.mp h
  exact read_error h

/-- A JWS with usual base64 texts has no white space. -/
theorem jws_no_space {t : Str} {r : Receipt} {alg : Str} (h : fromJWS t = .ok (r, alg)) (hc : CanonicalJWS t)
    (hs : CanonicalB64 r.signature) : ∀ c ∈ t, isSpace c = false ∧ c ≠ '\n' ∧ c ≠ '\r' := by
  have e := (jws_string_round_trip h).mpr hc
  rw [← e]
  obtain ⟨b, hb⟩ := hs
  have hb64 : ∀ c, isB64 true c = true → isSpace c = false ∧ c ≠ '\n' ∧ c ≠ '\r' := by
    intro c h
    refine ⟨b64_not_space (.inl h), ?_, ?_⟩ <;> rintro rfl <;> exact absurd h (by decide)
  have hdot : isSpace '.' = false ∧ '.' ≠ '\n' ∧ '.' ≠ '\r' :=
    ⟨by rw [PyEnv.isSpace_ascii (by decide)]; decide, by decide, by decide⟩
  intro c hc
  simp only [Receipt.toJWS, joinWith, List.mem_append, List.mem_cons, encodeSeg, hb, removeChar_b64Encode] at hc
  rcases hc with hc | rfl | hc | rfl | hc
  · exact hb64 c (isB64_of_mem_b64Text hc)
  · exact hdot
  · exact hb64 c (isB64_of_mem_b64Text hc)
  · exact hdot
  · exact hb64 c (isB64_of_mem_b64Text hc)

/-- A text that starts with an underscore and ends in a base64 or base32 text has no white space around it. -/
theorem code_strip {a b : Str} (hb : ∀ c ∈ b, isB64 false c = true ∨ c = '=') :
    pyStrip ('_' :: a ++ '_' :: b) = '_' :: a ++ '_' :: b := by
  have hu : isSpace '_' = false := by rw [PyEnv.isSpace_ascii (by decide)]; decide
  apply pyStrip_of_noOuterSpace
  constructor
  · intro c hc
    simp only [List.cons_append, List.head?_cons, Option.some.injEq] at hc
    rw [← hc]; exact hu
  · intro c hc
    rw [List.getLast?_append] at hc
    cases hl : b.getLast? with
    | none =>
      rw [List.getLast?_eq_none_iff] at hl
      subst hl
      simp only [List.getLast?_singleton, Option.some_or, Option.some.injEq] at hc
      rw [← hc]; exact hu
    | some x =>
      rw [List.getLast?_cons, hl] at hc
      simp only [Option.getD_some, Option.some_or, Option.some.injEq] at hc
      subst hc
      exact b64_not_space (hb x (List.mem_of_getLast? hl))

omit [PyEnv] in
theorem mem_b64Encode {url : Bool} {b : Bytes} {c : Char} (hc : c ∈ b64Encode url b) : isB64 url c = true ∨ c = '=' := by
  unfold b64Encode at hc
  rcases List.mem_append.mp hc with h | h
  · exact .inl (isB64_of_mem_b64Text h)
  · exact .inr (List.eq_of_mem_replicate h)

omit [PyEnv] in
theorem mem_b32Encode {b : Bytes} {c : Char} (hc : c ∈ b32Encode b) : isB64 false c = true ∨ c = '=' := by
  unfold b32Encode at hc
  rcases List.mem_append.mp hc with h | h
  · left
    obtain ⟨n, hn, rfl⟩ := List.mem_map.mp h
    have : ∀ n : Fin 32, isB64 false (b32Char n) = true := by decide
    exact this ⟨n, enc5_lt b n hn⟩
  · exact .inr (List.eq_of_mem_replicate h)

/-- The QR code has no white space around it. -/
theorem basic_strip {r : Receipt} {alg code : Str} (h : Parsed r alg) (hc : r.toBasic alg = .ok code) :
    pyStrip code = code := by
  obtain ⟨g, rfl⟩ := h.good
  obtain ⟨sb, hsb⟩ := Option.isSome_iff_exists.mp g.sig
  rw [toBasic_eq hsb] at hc
  cases hc
  rw [toPayload_eq]
  exact code_strip (a := joinWith '_' ((R1 ++ '-' :: r.zda) :: r.segs)) fun c hc => mem_b64Encode hc

/-- The OCR code has no white space around it, and line breaks only from the fields. -/
theorem ocr_line {r : Receipt} {alg code : Str} (h : Parsed r alg) (hc : r.toOCR alg = .ok code) :
    pyStrip code = code ∧ ((∀ s ∈ r.texts, OneLine s) → OneLine code) := by
  obtain ⟨g, rfl⟩ := h.good
  simp only [Receipt.toOCR, Res.bind_eq_ok, Except.ok.injEq] at hc
  obtain ⟨tc, -, cv, -, sig, -, rfl⟩ := hc
  constructor
  · exact code_strip (a := R1 ++ '-' :: r.zda ++ '_' :: joinWith '_' [r.registerId, r.receiptId, r.dateTimeStr,
      r.sumAStr, r.sumBStr, r.sumCStr, r.sumDStr, r.sumEStr, b32Encode tc, r.certSerial, b32Encode cv])
      (b := b32Encode sig) (fun c hc => mem_b32Encode hc) |> fun h => by
      simpa [joinWith] using h
  · intro hl
    have key : ∀ x, (x = '\n' ∨ x = '\r') → x ∉ joinWith '_' [ '_' :: R1 ++ '-' :: r.zda, r.registerId, r.receiptId,
        r.dateTimeStr, r.sumAStr, r.sumBStr, r.sumCStr, r.sumDStr, r.sumEStr, b32Encode tc, r.certSerial,
        b32Encode cv, b32Encode sig ] := by
      intro x hx hm
      have hf : ∀ s ∈ r.texts, x ∉ s := by
        intro s hs
        rcases hx with rfl | rfl
        · exact (hl s hs).1
        · exact (hl s hs).2
      have hb : ∀ b, x ∉ b32Encode b := by
        intro b hb
        rcases mem_b32Encode hb with h | h
        · rcases hx with rfl | rfl <;> exact absurd h (by decide)
        · rcases hx with rfl | rfl <;> exact absurd h (by decide)
      rcases mem_joinWith_cases hm with rfl | ⟨s, hs, hc⟩
      · rcases hx with h | h <;> exact absurd h (by decide)
      · simp only [List.mem_cons, List.not_mem_nil, or_false] at hs
        rcases hs with rfl | rfl | rfl | rfl | rfl | rfl | rfl | rfl | rfl | rfl | rfl | rfl | rfl
        · have : x ∉ r.zda := hf _ (by simp [Receipt.texts])
          simp only [List.mem_cons, List.mem_append, List.cons_append, R1, this, or_false] at hc
          rcases hx with rfl | rfl <;> exact absurd hc (by decide)
        all_goals first
          | exact hb _ hc
          | exact hf _ (by simp [Receipt.texts]) hc
    exact ⟨key _ (.inl rfl), key _ (.inr rfl)⟩

/-- A receipt that survives can be written and read back. -/
theorem survives_back {v : PyVersion} {i : InFormat} {o : OutFormat} {t : Str} {r : Receipt} {alg : Str}
    (h : fromJWS t = .ok (r, alg)) (hc : CanonicalJWS t) (hs : CanonicalB64 r.signature) (hsv : Survives v r i o) :
    ∃ s, o.write r alg = .ok s ∧ OneLine s ∧ ∀ l, pyStrip l = pyStrip s → LineReads v i l r alg := by
  have hp : Parsed r alg := .jws t h
  cases hsv with
  | jws =>
    have hns := jws_no_space h hc hs
    have hst : pyStrip t = t := stripBoth_eq_self fun c hc => (hns c hc).1
    refine ⟨t, by rw [OutFormat.write, (jws_string_round_trip h).mpr hc], ⟨fun hm => (hns _ hm).2.1 rfl,
      fun hm => (hns _ hm).2.2 rfl⟩, fun l hl => .jws (by rw [hl, hst, h])⟩
  | qr hl =>
    obtain ⟨code, h1, h2⟩ := qr_round_trip_canonical hp hs
    exact ⟨code, h1, basic_oneLine hp hl h1, fun l hl => .qr (by rw [hl, basic_strip hp h1, h2])⟩
  | csv hcp =>
    obtain ⟨row, sig, h1, h2, h3, h4⟩ := csv_receipt_back hp hcp
    refine ⟨row, h1, h2, fun l hl => .csv ?_⟩
    rw [hl, fromCSV_strip, h4, canonical_sig hs h3]
  | ocr hv hl tc cv hne ht hcv =>
    subst hv
    obtain ⟨code, tc', cv', sig, h1, h2, h3, h4, h5⟩ := ocr_round_trip_partial hp (by
      rw [ht, b64Decode_encode]
      simpa using hne)
    have k := ocr_line hp h1
    refine ⟨code, h1, k.2 hl, fun l hl => .ocr ?_⟩
    rw [ht, b64Decode_encode] at h2
    rw [hcv, b64Decode_encode] at h3
    cases h2
    cases h3
    rw [hl, k.1, h5, canonical_sig hs h4, ← ht, ← hcv]

/-- C79, partial: converting a file of receipts with receipt.py to another format and back gives the same file.
Missing: receipts that do not survive in the other format (C03 to C05), and OCR codes under Python 3. -/
theorem receipt_tool_round_trip_partial {v : PyVersion} {i : InFormat} {o : OutFormat} {ts : List Str}
    (h : ∀ t ∈ ts, ∃ r alg, fromJWS t = .ok (r, alg) ∧ CanonicalJWS t ∧ CanonicalB64 r.signature ∧ Survives v r i o) :
    ∃ mid, receiptTool v .jws o (textFile ts) = (mid, none) ∧ receiptTool v i .jws mid = (textFile ts, none) := by
  have key : ∀ ts : List Str, (∀ t ∈ ts, ∃ r alg, fromJWS t = .ok (r, alg) ∧ CanonicalJWS t ∧
      CanonicalB64 r.signature ∧ Survives v r i o) → ∃ ss : List Str, (∀ s ∈ ss, OneLine s) ∧ (∀ t ∈ ts, OneLine t) ∧
        List.Forall₂ (Converts v .jws o) (ts.map (· ++ ['\n'])) ss ∧
        List.Forall₂ (Converts v i .jws) (ss.map (· ++ ['\n'])) ts := by
    intro ts h
    induction ts with
    | nil => exact ⟨[], by simp, by simp, .nil, .nil⟩
    | cons t ts ih =>
      obtain ⟨ss, h1, h2, h3, h4⟩ := ih fun t ht => h t (by simp [ht])
      obtain ⟨r, alg, hf, hc, hs, hsv⟩ := h t (by simp)
      obtain ⟨s, hw, hl, hr⟩ := survives_back hf hc hs hsv
      obtain ⟨t', hw', hl', hr'⟩ := survives_back (v := v) hf hc hs .jws
      rw [OutFormat.write, (jws_string_round_trip hf).mpr hc] at hw'
      cases hw'
      refine ⟨s :: ss, ?_, ?_, .cons ⟨r, alg, hr' _ (pyStrip_line t), hw⟩ h3, .cons ⟨r, alg, hr _ (pyStrip_line s), ?_⟩ h4⟩
      · intro x hx
        rcases List.mem_cons.mp hx with rfl | hx
        · exact hl
        · exact h1 x hx
      · intro x hx
        rcases List.mem_cons.mp hx with rfl | hx
        · exact hl'
        · exact h2 x hx
      · rw [OutFormat.write, (jws_string_round_trip hf).mpr hc]
  obtain ⟨ss, h1, h2, h3, h4⟩ := key ts h
  refine ⟨textFile ss, receipt_tool_iff.mpr ⟨ss, rfl, ?_⟩, receipt_tool_iff.mpr ⟨ts, rfl, ?_⟩⟩
  · rw [fileLines_textFile h2]; exact h3
  · rw [fileLines_textFile h1]; exact h4

/-! ### C80: verify_receipt.py -/

/-- The verifier reads a line and verifies what it reads. -/
theorem line_verify {v : PyVersion} {f : InFormat} {rv : Verifier} {l : Str} :
    f.verify v rv (pyStrip l) = f.read v l >>= fun x => rv.verify x.1 x.2 := by
  cases f <;> rfl

theorem genuine_iff {v : PyVersion} {ks : KeyStore} {f : InFormat} {l : Str} :
    (∃ x, f.verify v (.fromKeyStore ks) (pyStrip l) = .ok x) ↔ Genuine v ks f l := by
  rw [line_verify]
  constructor
  · rintro ⟨x, h⟩
    obtain ⟨⟨r, alg⟩, h1, h2⟩ := Res.bind_eq_ok.mp h
    have hr := lineReads_iff.mp h1
    obtain ⟨g, rfl⟩ := hr.parsed.good
    obtain ⟨-, h3, h4⟩ := (verify_iff g).mp h2
    exact ⟨r, _, hr, h3, h4⟩
  · rintro ⟨r, alg, hr, h⟩
    rw [lineReads_iff.mpr hr, Res.ok_bind]
    exact ⟨_, (receipt_accepted_iff hr.parsed).mpr h⟩

/-- What is not genuine is reported: no other exception is raised, apart from OCR codes under Python 3. -/
theorem line_verify_error {v : PyVersion} {ks : KeyStore} {f : InFormat} (hv : ¬(f = .ocr ∧ v = .py3)) {l : Str} {e : Err}
    (h : f.verify v (.fromKeyStore ks) (pyStrip l) = .error e) : isReceiptException e = true := by
  rw [line_verify, Res.bind_eq_error] at h
  rcases h with h | ⟨⟨r, alg⟩, h1, h2⟩
  · rcases read_error h with h | ⟨h1, h2, -⟩
    · cases h <;> rfl
    · exact absurd ⟨h1, h2⟩ hv
  · have hp := (lineReads_iff.mp h1).parsed
    obtain ⟨k1, k2, k3, k4⟩ := verify_errors (v := .fromKeyStore ks) hp (.inr (by simp [Verifier.fromKeyStore]))
    have hw : ¬WrongCert (.fromKeyStore ks) r := by
      rintro ⟨c, hc, -⟩; cases hc
    simp only at h2
    by_cases hm : r.signature = failureMark
    · rw [k2 hw hm] at h2
      cases h2
      split <;> rfl
    · by_cases hk : ∃ k, KeyFor (.fromKeyStore ks) r k
      · obtain ⟨k, hk⟩ := hk
        by_cases hs : SignatureValid r k
        · rw [(receipt_accepted_iff hp).mpr ⟨hm, k, hk, hs⟩] at h2; cases h2
        · rw [k4 hm k hk hs] at h2; cases h2; rfl
      · rw [k3 hw hm hk] at h2; cases h2; rfl

omit [PyEnv] in
/-- The loop, for lines that raise no other exceptions. -/
theorem verifyLines_report [PyEnv] {ver : Str → Res (Receipt × Str)} {ls : List Str} {P : Str → Bool}
    (hP : ∀ l, P l = true ↔ ∃ x, ver (pyStrip l) = .ok x)
    (hex : ∀ l ∈ ls, ∀ e, ver (pyStrip l) = .error e → isReceiptException e = true) {idx fails : Nat} (hle : fails ≤ idx) :
    (verifyLines ver idx fails ls).summary = .ok (idx - fails + ls.countP P, idx + ls.length) ∧
    ((verifyLines ver idx fails ls).failures.map (·.1)).Pairwise (· < ·) ∧
    ∀ i e, (i, e) ∈ (verifyLines ver idx fails ls).failures ↔
      ∃ j l, i = idx + j ∧ ls[j]? = some l ∧ ver (pyStrip l) = .error e := by
  induction ls generalizing idx fails with
  | nil => simp [verifyLines]
  | cons l ls ih =>
    simp only [verifyLines]
    cases hv : ver (pyStrip l) with
    | ok x =>
      obtain ⟨h1, h2, h3⟩ := ih (fun l hl => hex l (by simp [hl])) (idx := idx + 1) (fails := fails) (by omega)
      refine ⟨?_, h2, fun i e => ?_⟩
      · simp only [h1]
        rw [List.countP_cons_of_pos ((hP l).mpr ⟨x, hv⟩), List.length_cons]
        congr 2 <;> omega
      · rw [h3]
        constructor
        · rintro ⟨j, l', rfl, hj, hl'⟩
          exact ⟨j + 1, l', by omega, by simpa using hj, hl'⟩
        · rintro ⟨j, l', rfl, hj, hl'⟩
          cases j with
          | zero =>
            simp only [List.getElem?_cons_zero, Option.some.injEq] at hj
            subst hj
            rw [hv] at hl'; cases hl'
          | succ j => exact ⟨j, l', by omega, by simpa using hj, hl'⟩
    | error e₀ =>
      have hn : ¬P l = true := by
        rw [hP, hv]; rintro ⟨x, hx⟩; cases hx
      obtain ⟨h1, h2, h3⟩ := ih (fun l hl => hex l (by simp [hl])) (idx := idx + 1) (fails := fails + 1) (by omega)
      simp only [hex l (by simp) e₀ hv, if_true]
      refine ⟨?_, ?_, fun i e => ?_⟩
      · rw [h1, List.countP_cons_of_neg hn, List.length_cons]
        congr 2 <;> omega
      · rw [List.map_cons, List.pairwise_cons]
        refine ⟨fun i hi => ?_, h2⟩
        obtain ⟨⟨i', e⟩, hm, rfl⟩ := List.mem_map.mp hi
        obtain ⟨j, _, rfl, -⟩ := (h3 _ _).mp hm
        simp only
        omega
      · rw [List.mem_cons, h3]
        constructor
        · rintro (h | ⟨j, l', rfl, hj, hl'⟩)
          · cases h
            exact ⟨0, l, rfl, rfl, hv⟩
          · exact ⟨j + 1, l', by omega, by simpa using hj, hl'⟩
        · rintro ⟨j, l', rfl, hj, hl'⟩
          cases j with
          | zero =>
            simp only [List.getElem?_cons_zero, Option.some.injEq] at hj
            subst hj
            rw [hv] at hl'; cases hl'
            exact .inl rfl
          | succ j => exact .inr ⟨j, l', by omega, by simpa using hj, hl'⟩

open Classical in
/-- C80, partial: verify_receipt.py goes through all lines whatever they are; it reports, in order, exactly the lines that
are not genuine receipts, each with the error of its verification, and the last line tells how many of how many are.
Missing: OCR codes under Python 3, see `verify_receipt_tool_python3`. -/
theorem verify_receipt_tool_partial {v : PyVersion} {ks : KeyStore} {f : InFormat} (hv : ¬(f = .ocr ∧ v = .py3))
    {arg : Option Str} {text : Str} {lines : List Str}
    (hl : lines = match arg with | some s => [s] | none => fileLines text) :
    (verifyReceiptTool v ks f arg text).summary = .ok (lines.countP fun l => decide (Genuine v ks f l), lines.length) ∧
    ((verifyReceiptTool v ks f arg text).failures.map (·.1)).Pairwise (· < ·) ∧
    (∀ i, (∃ e, (i, e) ∈ (verifyReceiptTool v ks f arg text).failures) ↔
      ∃ l, lines[i]? = some l ∧ ¬Genuine v ks f l) ∧
    ∀ i e, (i, e) ∈ (verifyReceiptTool v ks f arg text).failures ↔
      ∃ l, lines[i]? = some l ∧ f.verify v (.fromKeyStore ks) (pyStrip l) = .error e := by
  have hrep : verifyReceiptTool v ks f arg text = verifyLines (f.verify v (.fromKeyStore ks)) 0 0 lines := by
    rw [hl]; rfl
  rw [hrep]
  obtain ⟨h1, h2, h3⟩ := verifyLines_report (ver := f.verify v (.fromKeyStore ks)) (ls := lines)
    (P := fun l => decide (Genuine v ks f l)) (fun l => by rw [decide_eq_true_iff, genuine_iff]) (fun l _ e he => line_verify_error hv he)
    (idx := 0) (fails := 0) (le_refl _)
  have h4 : ∀ i e, (i, e) ∈ (verifyLines (f.verify v (.fromKeyStore ks)) 0 0 lines).failures ↔
      ∃ l, lines[i]? = some l ∧ f.verify v (.fromKeyStore ks) (pyStrip l) = .error e := by
    intro i e
    rw [h3]
    constructor
    · rintro ⟨j, l, rfl, hj, he⟩; exact ⟨l, by simpa using hj, he⟩
    · rintro ⟨l, hj, he⟩; exact ⟨i, l, by simp, hj, he⟩
  refine ⟨by simpa using h1, h2, fun i => ?_, h4⟩
  simp only [h4]
  constructor
  · rintro ⟨e, l, hj, he⟩
    exact ⟨l, hj, fun hg => by
      obtain ⟨x, hx⟩ := genuine_iff.mpr hg
      rw [hx] at he; cases he⟩
  · rintro ⟨l, hj, hg⟩
    cases hx : f.verify v (.fromKeyStore ks) (pyStrip l) with
    | ok x => exact absurd (genuine_iff.mp ⟨x, hx⟩) hg
    | error e => exact ⟨e, l, hj, hx⟩

/-- C80: under Python 3 the first OCR code of a receipt ends the program with `AttributeError`, and nothing is said
about the lines after it. -/
theorem verify_receipt_tool_python3 {ks : KeyStore} {r : Receipt} {alg code : Str} (h : Parsed r alg)
    (hw : r.toOCR alg = .ok code) (hl : OneLine code) {rest : List Str} (hr : ∀ l ∈ rest, OneLine l) :
    verifyReceiptTool .py3 ks .ocr none (textFile (code :: rest)) = ⟨[], .error .attributeError⟩ := by
  have hlines : fileLines (textFile (code :: rest)) = (code ++ ['\n']) :: rest.map (· ++ ['\n']) := by
    rw [fileLines_textFile]
    · rfl
    · intro l hl'
      rcases List.mem_cons.mp hl' with rfl | hl'
      · exact hl
      · exact hr l hl'
  have hver : InFormat.verify .py3 (.fromKeyStore ks) .ocr (pyStrip (code ++ ['\n'])) = .error .attributeError := by
    rw [pyStrip_line, (ocr_line h hw).1]
    exact (unparsable_is_rejected _ _ _).2.2.1 _ (ocr_python3_own_output h hw)
  simp only [verifyReceiptTool, hlines, verifyLines, hver]
  rfl

/-! ### C81: receipt_host.py -/

theorem hostReceipts_append (d : Dict Str) (xs ys : List Str) :
    hostReceipts d (xs ++ ys) = hostReceipts d xs >>= fun d => hostReceipts d ys := by
  induction xs generalizing d with
  | nil => rfl
  | cons x xs ih =>
    simp only [List.cons_append, hostReceipts]
    cases hostReceipt d x with
    | error e => rfl
    | ok d' => simp only [Res.ok_bind, ih]

/-- The receipt of this text is found under this hash. -/
def HostedAs (t hash code : Str) : Prop := ∃ r alg, fromJWS t = .ok (r, alg) ∧ HashOf r alg hash code

theorem hostReceipt_iff {d d' : Dict Str} {t : Str} :
    hostReceipt d t = .ok d' ↔ ∃ hash code, HostedAs t hash code ∧ d' = d.set hash code := by
  simp only [hostReceipt, Res.bind_eq_ok, Except.ok.injEq]
  constructor
  · rintro ⟨⟨r, alg⟩, h1, hash, h2, code, h3, rfl⟩
    exact ⟨hash, code, ⟨r, alg, h1, h3, h2⟩, rfl⟩
  · rintro ⟨hash, code, ⟨r, alg, h1, h3, h2⟩, rfl⟩
    exact ⟨(r, alg), h1, hash, h2, code, h3, rfl⟩

theorem hosted_total {t : Str} {r : Receipt} {alg : Str} (h : fromJWS t = .ok (r, alg)) :
    ∃ hash code, HostedAs t hash code := by
  obtain ⟨code, hash, h1, h2, -⟩ := url_hash_form (.jws t h)
  exact ⟨hash, code, r, alg, h, h1, h2⟩

theorem HostedAs.det {t hash code hash' code' : Str} (h : HostedAs t hash code) (h' : HostedAs t hash' code') :
    hash = hash' ∧ code = code' := by
  obtain ⟨r, alg, h1, h2, h3⟩ := h
  obtain ⟨r', alg', k1, k2, k3⟩ := h'
  rw [h1] at k1
  cases k1
  rw [h2] at k2
  rw [h3] at k3
  cases k2
  cases k3
  exact ⟨rfl, rfl⟩

/-- The server starts exactly if all texts are receipts; it then serves the last receipt with a hash. -/
theorem hostReceipts_iff {ts : List Str} :
    ((∃ d, hostReceipts [] ts = .ok d) ↔ ∀ t ∈ ts, ∃ r alg, fromJWS t = .ok (r, alg)) ∧
    ∀ d, hostReceipts [] ts = .ok d → ∀ hash code, d.get? hash = some code ↔
      ∃ pre t post, ts = pre ++ t :: post ∧ HostedAs t hash code ∧ ∀ t' ∈ post, ∀ code', ¬HostedAs t' hash code' := by
  induction ts using List.reverseRecOn with
  | nil =>
    refine ⟨by simp [hostReceipts], fun d hd hash code => ?_⟩
    cases hd
    simp [Dict.get?]
  | append_singleton ts t ih =>
    obtain ⟨ih1, ih2⟩ := ih
    rw [hostReceipts_append]
    simp only [hostReceipts, Res.bind_eq_ok, Except.ok.injEq, exists_eq_right]
    constructor
    · constructor
      · rintro ⟨d, d', h1, h2⟩ x hx
        rcases List.mem_append.mp hx with hx | hx
        · exact ih1.mp ⟨d', h1⟩ x hx
        · simp only [List.mem_singleton] at hx
          subst hx
          obtain ⟨_, _, ⟨r, alg, h, -⟩, -⟩ := hostReceipt_iff.mp h2
          exact ⟨r, alg, h⟩
      · intro h
        obtain ⟨d, hd⟩ := ih1.mpr fun x hx => h x (by simp [hx])
        obtain ⟨r, alg, hr⟩ := h t (by simp)
        obtain ⟨hash, code, hh⟩ := hosted_total hr
        exact ⟨_, d, hd, hostReceipt_iff.mpr ⟨hash, code, hh, rfl⟩⟩
    · rintro d ⟨d', h1, h2⟩ hash code
      obtain ⟨hash₀, code₀, hh, rfl⟩ := hostReceipt_iff.mp h2
      rw [Dict.get?_set]
      by_cases he : hash₀ = hash
      · subst he
        rw [if_pos rfl]
        constructor
        · intro e
          cases e
          exact ⟨ts, t, [], rfl, hh, by simp⟩
        · rintro ⟨pre, t', post, e, hp, hno⟩
          rcases List.eq_nil_or_concat post with rfl | ⟨post', x, rfl⟩
          · obtain ⟨rfl, k⟩ := List.append_inj' e rfl
            cases k
            rw [(hp.det hh).2]
          · have e' : ts ++ [t] = (pre ++ t' :: post') ++ [x] := by rw [e]; simp
            obtain ⟨rfl, k⟩ := List.append_inj' e' rfl
            cases k
            exact absurd hh (hno t (by simp) _)
      · rw [if_neg he, ih2 d' h1]
        constructor
        · rintro ⟨pre, t', post, rfl, hp, hno⟩
          refine ⟨pre, t', post ++ [t], by simp, hp, fun x hx code' hx' => ?_⟩
          rcases List.mem_append.mp hx with hx | hx
          · exact hno x hx code' hx'
          · simp only [List.mem_singleton] at hx
            subst hx
            exact he (hh.det hx').1
        · rintro ⟨pre, t', post, e, hp, hno⟩
          rcases List.eq_nil_or_concat post with rfl | ⟨post', x, rfl⟩
          · obtain ⟨rfl, k⟩ := List.append_inj' e rfl
            cases k
            exact absurd (hh.det hp).1 he
          · have e' : ts ++ [t] = (pre ++ t' :: post') ++ [x] := by rw [e]; simp
            obtain ⟨rfl, -⟩ := List.append_inj' e' rfl
            exact ⟨pre, t', post', rfl, hp, fun y hy => hno y (by simp [hy])⟩

/-- C81: the server for lines of text starts exactly if every line is a receipt, and then serves under every hash the
last receipt with this hash. -/
theorem host_lines_iff {text : Str} :
    ((∃ d, hostLines text = .ok d) ↔ ∀ l ∈ fileLines text, ∃ r alg, fromJWS (pyStrip l) = .ok (r, alg)) ∧
    ∀ d, hostLines text = .ok d → ∀ hash code, d.get? hash = some code ↔
      ∃ pre l post, fileLines text = pre ++ l :: post ∧ HostedAs (pyStrip l) hash code ∧
        ∀ l' ∈ post, ∀ code', ¬HostedAs (pyStrip l') hash code' := by
  obtain ⟨h1, h2⟩ := hostReceipts_iff (ts := (fileLines text).map pyStrip)
  refine ⟨by unfold hostLines; rw [h1]; simp, fun d hd hash code => ?_⟩
  rw [h2 d hd]
  constructor
  · rintro ⟨pre, t, post, e, h, hno⟩
    obtain ⟨a, b', e1, rfl, e2⟩ := List.map_eq_append_iff.mp e
    obtain ⟨l, b, rfl, rfl, rfl⟩ := List.map_eq_cons_iff.mp e2
    exact ⟨a, l, b, e1, h, fun l' hl' => hno _ (List.mem_map_of_mem hl')⟩
  · rintro ⟨pre, l, post, e, h, hno⟩
    refine ⟨pre.map pyStrip, pyStrip l, post.map pyStrip, by rw [e]; simp, h, ?_⟩
    intro t' ht'
    obtain ⟨l', hl', rfl⟩ := List.mem_map.mp ht'
    exact hno l' hl'

theorem dep_texts {doc : Json} {gs : List DepGroup} (h : DepJson doc gs) : ∃ ts : List Str, depReceipts gs = ts.map utf8Enc := by
  obtain ⟨root, js, gs, -, hg⟩ := h
  induction hg with
  | nil => exact ⟨[], rfl⟩
  | cons h _ ih =>
    obtain ⟨ts, hts⟩ := ih
    obtain ⟨d, rs, s, cs, cert, chain, -⟩ := h
    refine ⟨rs ++ ts, ?_⟩
    rw [List.map_append, ← hts]
    rfl

theorem hostDEP_eq {doc : Json} {gs : List DepGroup} (h : DepJson doc gs) (hp : PlainDoc doc)
    (hsome : ∃ g ∈ gs, g.recs ≠ []) {n : Nat} {ts : List Str} (hts : depReceipts gs = ts.map utf8Enc) :
    hostDEP n doc = hostReceipts [] ts := by
  obtain ⟨h1, h2⟩ := certless_receipts h hp hsome n
  have hm : mapRes expandReceipt (ts.map utf8Enc) = .ok ts := by
    rw [mapRes_iff, List.forall₂_map_left_iff]
    exact List.forall₂_same.mpr fun t _ => expandReceipt_iff.mpr rfl
  rw [hts] at h2
  simp only [hostDEP, h1]
  rw [show List.flatMap (fun g => g.recs) (certlessParse doc n).chunks.flatten = ts.map utf8Enc from h2, hm, Res.ok_bind]
  cases hostReceipts [] ts <;> rfl

/-- C81: the server for a DEP starts exactly if every receipt in it can be read, and then serves under every hash the
last receipt with this hash. -/
theorem host_dep_iff {doc : Json} {gs : List DepGroup} (h : DepJson doc gs) (hp : PlainDoc doc)
    (hsome : ∃ g ∈ gs, g.recs ≠ []) {n : Nat} :
    ∃ ts : List Str, depReceipts gs = ts.map utf8Enc ∧
    ((∃ d, hostDEP n doc = .ok d) ↔ ∀ t ∈ ts, ∃ r alg, fromJWS t = .ok (r, alg)) ∧
    ∀ d, hostDEP n doc = .ok d → ∀ hash code, d.get? hash = some code ↔
      ∃ pre t post, ts = pre ++ t :: post ∧ HostedAs t hash code ∧ ∀ t' ∈ post, ∀ code', ¬HostedAs t' hash code' := by
  obtain ⟨ts, hts⟩ := dep_texts h
  rw [hostDEP_eq h hp hsome hts]
  exact ⟨ts, hts, hostReceipts_iff⟩

/-- C81: whatever a server answers, an URL is accepted only if the answer is a receipt with a valid signature, and the
hash in the URL is that of this receipt. -/
theorem url_verified_iff {get : Str → Option Str} {rv : Verifier} {url : Str} :
    getAndVerifyURL get rv url = some (.ok ()) ↔ ∃ code r alg hash, get url = some code ∧
      fromBasic code = .ok (r, alg) ∧ r.signature ≠ failureMark ∧ (∃ k, KeyFor rv r k ∧ SignatureValid r k) ∧
      getURLHashFromURL url = some hash ∧ r.toURLHash alg = .ok hash := by
  unfold getAndVerifyURL
  simp only [Option.map_eq_some_iff, Res.bind_eq_ok, Verifier.verifyBasic]
  constructor
  · rintro ⟨code, h1, ⟨r', alg'⟩, ⟨⟨r, alg⟩, h2, h3⟩, h4⟩
    have hp : Parsed r alg := .basic _ h2
    obtain ⟨g, ha⟩ := hp.good
    subst ha
    obtain ⟨e, h5, h6⟩ := (verify_iff g).mp h3
    cases e
    obtain ⟨hash, k1, k2⟩ := (url_hash_verified_iff hp _).1.mp h4
    exact ⟨code, _, _, hash, h1, h2, h5, h6, k1, k2⟩
  · rintro ⟨code, r, alg, hash, h1, h2, h3, h4, h5, h6⟩
    have hp : Parsed r alg := .basic _ h2
    exact ⟨code, h1, (r, alg), ⟨(r, alg), h2, (receipt_accepted_iff hp).mpr ⟨h3, h4⟩⟩,
      (url_hash_verified_iff hp _).1.mpr ⟨hash, h5, h6⟩⟩

/-- C81: of the receipts with the same hash the last one is served; it passes verification by its URL exactly if it
passes verification itself.  The URL is that of the server with the hash after a slash. -/
theorem hosted_url_verifies {pre post : List Str} {t : Str} {d : Dict Str}
    (hd : hostReceipts [] (pre ++ t :: post) = .ok d)
    {r : Receipt} {alg hash code : Str} (hr : fromJWS t = .ok (r, alg)) (hh : HashOf r alg hash code)
    (hlast : ∀ t' ∈ post, ∀ code', ¬HostedAs t' hash code') (hc : CanonicalB64 r.signature)
    {base : Str} (hb : '#' ∉ base) {get : Str → Option Str} (hget : get (base ++ '/' :: hash) = d.get? hash) {rv : Verifier} :
    getAndVerifyURL get rv (base ++ '/' :: hash) = some (.ok ()) ↔ rv.verifyJWS t = .ok (r, alg) := by
  have hp : Parsed r alg := .jws t hr
  have hin : d.get? hash = some code :=
    (hostReceipts_iff.2 d hd hash code).mpr ⟨pre, t, post, rfl, ⟨r, alg, hr, hh⟩, hlast⟩
  obtain ⟨code', hb1, hb2⟩ := qr_round_trip_canonical hp hc
  rw [hh.1] at hb1
  cases hb1
  obtain ⟨_, hash', -, k2, -, k3, k4⟩ := url_hash_form hp
  rw [hh.2] at k2
  cases k2
  have hsep : ¬B64Char true '/' := by rw [← isB64_iff]; decide
  have hu := url_path base hash '/' hsep (by decide) hb k4 k3
  rw [url_verified_iff, Verifier.verifyJWS, hr, Res.ok_bind, receipt_accepted_iff hp]
  constructor
  · rintro ⟨code', r', alg', hash', h1, h2, h3, h4, -⟩
    rw [hget, hin] at h1
    cases h1
    rw [hb2] at h2
    cases h2
    exact ⟨h3, h4⟩
  · rintro ⟨h3, h4⟩
    exact ⟨code, r, alg, hash, by rw [hget, hin], hb2, h3, h4, hu, hh.2⟩

/-! ### C82: cert_extract.py -/

/-- As long as no chunk gets full the source of certificates does not matter. -/
theorem PState.run_unneeded {need need' : Nat → Res (Option (Option Cert × List Cert))} {n : Nat} {s s' : PState}
    {xs : List (Str × Ev)} (h : s.run need n xs = ([], .ok s')) : s.run need' n xs = ([], .ok s') := by
  induction xs generalizing s with
  | nil => exact h
  | cons x xs ih =>
    rw [run, advance] at h ⊢
    cases hs : s.step x with
    | error e' => rw [hs] at h; cases h
    | ok s1 =>
      rw [hs] at h
      simp only at h ⊢
      by_cases hr : s1.ready n s.ctl
      · rw [if_pos hr] at h
        cases hf : s1.fetch need s.ctl with
        | error e' => rw [hf] at h; cases h
        | ok s2 => rw [hf] at h; simp at h
      · rw [if_neg hr] at h
        rw [if_neg hr]
        simp only [List.nil_append] at h ⊢
        rw [ih h]

theorem inc_unneeded {need need' : Nat → Res (Option (Option Cert × List Cert))} {n : Nat} {xs : List (Str × Ev)}
    {c : Chunk} (h : incParse need n false xs = ⟨[c], none⟩) (hc : n = 0 ∨ c.size < n) :
    incParse need' n false xs = ⟨[c], none⟩ := by
  have hruns : ∀ d ∈ (PState.run need n {} xs).1, n ≠ 0 ∧ d.size = n := by
    by_cases hn : n = 0
    · subst hn
      have : ∀ (xs : List (Str × Ev)) (s : PState), (s.run need 0 xs).1 = [] := by
        intro xs
        induction xs with
        | nil => intro s; rfl
        | cons x xs ih =>
          intro s
          rw [PState.run, PState.advance]
          cases s.step x with
          | error e => rfl
          | ok s1 =>
            simp only
            rw [if_neg (by simp [PState.ready])]
            simp [ih]
      rw [this]; simp
    · obtain ⟨h1, -⟩ := PState.run_sizes (need := need) (xs := xs) hn (s := {})
        (by simp [PState.held, PState.size, PState.Inside]; omega) (by simp)
      exact fun d hd => ⟨hn, (h1 d hd).1⟩
  unfold incParse at h ⊢
  cases hrun : PState.run need n {} xs with
  | mk out r =>
    rw [hrun] at h hruns
    have hout : ∀ rest, out ++ rest = [c] → out = [] := by
      intro rest e
      cases out with
      | nil => rfl
      | cons d out =>
        simp only [List.cons_append, List.cons.injEq] at e
        have := hruns d (by simp)
        rw [e.1] at this
        omega
    cases r with
    | error e => cases h
    | ok s =>
      have : out = [] := by
        simp only [Bool.false_eq_true, if_false] at h
        split at h
        · exact hout _ (congrArg Stream.chunks h)
        · split at h
          · cases h
          · exact hout [] (by simpa using congrArg Stream.chunks h)
      subst this
      rw [PState.run_unneeded hrun]
      exact h

/-- When the parser without certificates still yields the certificates. -/
theorem certless_chained {doc : Json} {gs : List DepGroup} (h : DepJson doc gs) (hp : PlainDoc doc)
    (hsome : ∃ g ∈ gs, g.recs ≠ []) {n : Nat} (hn : n = 0 ∨ (depReceipts gs).length < n ∨ CertsFirst doc) :
    (certlessParse doc n).err = none ∧ chainedDep (certlessParse doc n).chunks.flatten = chainedDep gs ∧
      ∀ g ∈ (certlessParse doc n).chunks.flatten, g.recs ≠ [] := by
  have file : certlessParse doc n = fileParse doc n →
      (certlessParse doc n).err = none ∧ chainedDep (certlessParse doc n).chunks.flatten = chainedDep gs ∧
        ∀ g ∈ (certlessParse doc n).chunks.flatten, g.recs ≠ [] := fun e => by
    obtain ⟨h1, h2, -, h4⟩ := parse_chained h hsome (n := n) (nparts := 1) (s := certlessParse doc n) (.inr ⟨hp, e⟩)
    exact ⟨h1, h2, h4⟩
  rcases hn with hn | hn | hn
  · subst hn
    refine file ?_
    have hf := file_single_chunk h hp hsome
    rw [hf]
    exact inc_unneeded hf (.inl rfl)
  · refine file ?_
    have hn0 : n ≠ 0 := by omega
    have hlen : (numbered 0 gs).length < n := by
      rw [numbered_length]
      simpa [depReceipts] using hn
    obtain ⟨chunks, Ts, h1, hcut, hall⟩ := dict_chunks h (nparts := 1) hn0 hsome
    rw [← file_eq_dict h hp hn0] at h1
    have hTs : ∃ T, Ts = [T] ∧ T = numbered 0 gs := by
      cases Ts with
      | nil =>
        have hz : numbered 0 gs = [] := hcut.1.symm
        obtain ⟨g, hg, hne⟩ := hsome
        have := numbered_recs 0 gs
        rw [hz, List.map_nil, eq_comm, List.flatMap_eq_nil_iff] at this
        exact absurd (this g hg) hne
      | cons T Ts =>
        have hl := hcut.length (by simp)
        cases Ts with
        | nil => exact ⟨T, rfl, by rw [← hcut.1]; simp⟩
        | cons T' Ts =>
          simp only [List.length_cons, Nat.add_sub_cancel] at hl
          rw [Nat.succ_mul] at hl
          omega
    obtain ⟨T, rfl, rfl⟩ := hTs
    cases hall with
    | cons hT hr =>
      cases hr
      rw [h1]
      refine inc_unneeded h1 (.inr ?_)
      show (List.map _ _).sum < _
      rw [hT.length]
      exact hlen
  · by_cases hn0 : n = 0
    · subst hn0
      refine file ?_
      have hf := file_single_chunk h hp hsome
      rw [hf]
      exact inc_unneeded hf (.inl rfl)
    · obtain ⟨h1, h2, -, h4⟩ := parse_chained h hsome (n := n) (nparts := 1) (s := certlessParse doc n)
        (.inl (certless_eq_dict h hp hn hn0))
      exact ⟨h1, h2, h4⟩

/-- The last entry with this key. -/
def lastEntry (l : List (Str × Str)) (k : Str) : Option Str := (l.reverse.find? fun p => p.1 = k).map (·.2)

omit [PyEnv] in
theorem lastEntry_append (a b : List (Str × Str)) (k : Str) :
    lastEntry (a ++ b) k = (lastEntry b k).or (lastEntry a k) := by
  unfold lastEntry
  rw [List.reverse_append, List.find?_append]
  cases List.find? (fun p => decide (p.1 = k)) b.reverse <;> rfl

omit [PyEnv] in
theorem update_lastEntry (l : List (Str × Str)) (k : Str) : Dict.get? (Dict.update [] l) k = lastEntry l k := by
  induction l using List.reverseRecOn with
  | nil => rfl
  | append_singleton l p ih =>
    rw [lastEntry_append, ← ih]
    unfold Dict.update
    rw [List.foldl_append, List.foldl_cons, List.foldl_nil, Dict.get?_set]
    unfold lastEntry
    by_cases hk : p.1 = k <;> simp [hk]

omit [PyEnv] in
theorem lastEntry_flatMap {α : Type} {f : α → List (Str × Str)} {k : Str} {l : List α} {m : α → List Unit}
    (hm : ∀ a ∈ l, m a ≠ []) :
    lastEntry (l.flatMap f) k = lastEntry (l.flatMap fun a => (m a).flatMap fun _ => f a) k := by
  induction l with
  | nil => rfl
  | cons a l ih =>
    have rep : ∀ u : List Unit, u ≠ [] → lastEntry (u.flatMap fun _ => f a) k = lastEntry (f a) k := by
      intro u
      induction u with
      | nil => intro h; exact absurd rfl h
      | cons x u ih =>
        intro _
        cases hu : u with
        | nil => simp
        | cons y w =>
          rw [List.flatMap_cons, lastEntry_append, ← hu, ih (by simp [hu])]
          cases lastEntry (f a) k <;> rfl
    rw [List.flatMap_cons, List.flatMap_cons, lastEntry_append, lastEntry_append, ih fun a ha => hm a (by simp [ha]),
      rep _ (hm a (by simp))]

/-- The files depend only on the receipts with their certificates. -/
theorem certFiles_chained {gs : List DepGroup} (h : ∀ g ∈ gs, g.recs ≠ []) (k : Str) :
    lastEntry (gs.flatMap certFiles) k =
      lastEntry ((chainedDep gs).flatMap fun x => certFiles ⟨[x.1], x.2.1, x.2.2⟩) k := by
  rw [lastEntry_flatMap (m := fun g => g.recs.map fun _ => ()) (by simpa using h)]
  congr 1
  unfold chainedDep
  rw [List.flatMap_assoc]
  simp only [List.flatMap_map]
  rfl

/-- C82, partial: cert_extract.py writes a file for each certificate of the groups with receipts, and no others; of
several certificates with the same serial number the last one is kept.  Missing: DEPs with receipts before the
certificates and with so many receipts that a chunk gets full, see `certificate_lost`. -/
theorem cert_extract_partial {doc : Json} {gs : List DepGroup} (h : DepJson doc gs) (hp : PlainDoc doc)
    (hsome : ∃ g ∈ gs, g.recs ≠ []) {n : Nat} (hn : n = 0 ∨ (depReceipts gs).length < n ∨ CertsFirst doc) :
    (certExtract n doc).2 = none ∧ ∀ name text, (certExtract n doc).1.get? name = some text ↔
      ∃ pre c post, groupCerts gs = pre ++ c :: post ∧ name = certName c ∧
        text = addPEMCertHeaders (exportCertToPEM c) ∧ ∀ c' ∈ post, certName c' ≠ name := by
  obtain ⟨h1, h2, h3⟩ := certless_chained h hp hsome hn
  refine ⟨h1, fun name text => ?_⟩
  have e : (certExtract n doc).1.get? name =
      lastEntry ((groupCerts gs).map fun c => (certName c, addPEMCertHeaders (exportCertToPEM c))) name := by
    show Dict.get? (Dict.update [] _) name = _
    rw [update_lastEntry, certFiles_chained h3, h2, ← chainedDep_filter, ← certFiles_chained (by simp)]
    unfold groupCerts
    rw [List.map_flatMap]
    rfl
  rw [e]
  generalize groupCerts gs = l
  induction l using List.reverseRecOn with
  | nil => simp [lastEntry]
  | append_singleton l c ih =>
    rw [List.map_append, lastEntry_append]
    by_cases hc : certName c = name
    · have : lastEntry (List.map (fun c => (certName c, addPEMCertHeaders (exportCertToPEM c))) [c]) name =
          some (addPEMCertHeaders (exportCertToPEM c)) := by simp [lastEntry, hc]
      rw [this]
      simp only [Option.some_or, Option.some.injEq]
      constructor
      · rintro rfl
        exact ⟨l, c, [], rfl, hc.symm, rfl, by simp⟩
      · rintro ⟨pre, c', post, k1, k2, rfl, k4⟩
        rcases List.eq_nil_or_concat post with rfl | ⟨post', x, rfl⟩
        · obtain ⟨rfl, k⟩ := List.append_inj' k1 rfl
          cases k
          rfl
        · have k5 : l ++ [c] = (pre ++ c' :: post') ++ [x] := by rw [k1]; simp
          obtain ⟨rfl, k⟩ := List.append_inj' k5 rfl
          cases k
          exact absurd hc (k4 c (by simp))
    · have : lastEntry (List.map (fun c => (certName c, addPEMCertHeaders (exportCertToPEM c))) [c]) name = none := by
        simp [lastEntry, hc]
      rw [this, Option.none_or]
      refine Iff.trans ih ?_
      constructor
      · rintro ⟨pre, c', post, rfl, k2, k3, k4⟩
        refine ⟨pre, c', post ++ [c], by simp, k2, k3, fun x hx => ?_⟩
        rcases List.mem_append.mp hx with hx | hx
        · exact k4 x hx
        · simp only [List.mem_singleton] at hx
          subst hx
          exact hc
      · rintro ⟨pre, c', post, k1, k2, k3, k4⟩
        rcases List.eq_nil_or_concat post with rfl | ⟨post', x, rfl⟩
        · obtain ⟨rfl, k⟩ := List.append_inj' k1 rfl
          cases k
          exact absurd k2.symm hc
        · have k5 : l ++ [c] = (pre ++ c' :: post') ++ [x] := by rw [k1]; simp
          obtain ⟨rfl, -⟩ := List.append_inj' k5 rfl
          exact ⟨pre, c', post', rfl, k2, k3, fun y hy => k4 y (by simp [hy])⟩

/-- C82: if no other certificate in the DEP has its serial number, a certificate can be read from its file. -/
theorem cert_extract_readable_partial {doc : Json} {gs : List DepGroup} (h : DepJson doc gs) (hp : PlainDoc doc)
    {n : Nat} (hn : n = 0 ∨ (depReceipts gs).length < n ∨ CertsFirst doc) {g : DepGroup} (hg : g ∈ gs) (hr : g.recs ≠ [])
    {c : Cert} (hc : g.cert = some c ∨ c ∈ g.chain)
    (hu : ∀ c' ∈ groupCerts gs, certName c' = certName c → c' = c) :
    ∃ text, (certExtract n doc).1.get? (certName c) = some text ∧ loadCert text = some c := by
  obtain ⟨-, key⟩ := cert_extract_partial h hp ⟨g, hg, hr⟩ hn
  have hm : c ∈ groupCerts gs := by
    refine List.mem_flatMap.mpr ⟨g, List.mem_filter.mpr ⟨hg, by simp [hr]⟩, ?_⟩
    rcases hc with hc | hc
    · simp [hc]
    · simp [hc]
  refine ⟨_, (key _ _).mpr ?_, PyEnv.loadCert_pem c⟩
  have last : ∀ l : List Cert, c ∈ l → (∀ c' ∈ l, certName c' = certName c → c' = c) →
      ∃ pre post, l = pre ++ c :: post ∧ ∀ c' ∈ post, certName c' ≠ certName c := by
    intro l
    induction l using List.reverseRecOn with
    | nil => intro h; cases h
    | append_singleton l x ih =>
      intro hm hu
      by_cases hx : certName x = certName c
      · have := hu x (by simp) hx
        subst this
        exact ⟨l, [], rfl, by simp⟩
      · have hm' : c ∈ l := by
          rcases List.mem_append.mp hm with h | h
          · exact h
          · simp only [List.mem_singleton] at h
            subst h
            exact absurd rfl hx
        obtain ⟨pre, post, rfl, h2⟩ := ih hm' fun c' hc' => hu c' (by simp [hc'])
        refine ⟨pre, post ++ [x], by simp, fun y hy => ?_⟩
        rcases List.mem_append.mp hy with hy | hy
        · exact h2 y hy
        · simp only [List.mem_singleton] at hy
          subst hy
          exact hx
  obtain ⟨pre, post, h1, h2⟩ := last _ hm hu
  exact ⟨pre, c, post, h1, rfl, rfl, h2⟩

end

namespace Demo

attribute [local instance] env

/-- The receipts of a day survive conversion to CSV and back, and to QR codes and back. -/
example : ∃ mid, receiptTool .py3 .jws .csv (textFile texts) = (mid, none) ∧
    receiptTool .py3 .csv .jws mid = (textFile texts, none) :=
  receipt_tool_round_trip_partial fun t ht => by
    obtain ⟨r, alg, h1, h2, h3, h4, -⟩ := plainText_spec (texts_plain t ht)
    exact ⟨r, alg, h2, h1, h3, .csv h4⟩

example : ∃ mid, receiptTool .py3 .jws .qr (textFile texts) = (mid, none) ∧
    receiptTool .py3 .qr .jws mid = (textFile texts, none) :=
  receipt_tool_round_trip_partial fun t ht => by
    obtain ⟨r, alg, h1, h2, h3, h4, -⟩ := plainText_spec (texts_plain t ht)
    exact ⟨r, alg, h2, h1, h3, .qr h4.line⟩

/-- receipt.py stops at a line it cannot read. -/
example : (receiptTool .py3 .jws .jws (textFile [texts.headD [], c!"x", texts.headD []])).2 = some .malformedReceipt := by
  decide +kernel

def sameReport (a b : Report) : Bool :=
  decide (a.failures = b.failures) &&
    match a.summary, b.summary with
    | .ok x, .ok y => decide (x = y)
    | .error x, .error y => decide (x = y)
    | _, _ => false

theorem sameReport_eq {a b : Report} (h : sameReport a b = true) : a = b := by
  obtain ⟨f, s⟩ := a
  obtain ⟨f', s'⟩ := b
  simp only [sameReport, Bool.and_eq_true, decide_eq_true_eq] at h
  obtain ⟨rfl, h⟩ := h
  cases s <;> cases s' <;> simp at h <;> rw [h]

/-- Two genuine receipts, and a line between them that is none. -/
example : verifyReceiptTool .py3 deviceStore .jws none (textFile [texts.headD [], c!"x", texts.headD []]) =
    ⟨[(1, .malformedReceipt)], .ok (2, 3)⟩ := sameReport_eq (by decide +kernel)

/-- Under the hash of the last receipt of the day this receipt is served, although others have the same hash in this
example; it can be verified by its URL. -/
example : ∃ d, hostReceipts [] texts = .ok d ∧ ∀ t, texts.getLast? = some t → ∃ hash code, HostedAs t hash code ∧
    ∀ get : Str → Option Str, get (c!"http://localhost:8080/" ++ hash) = d.get? hash → ∀ rv : Verifier,
      getAndVerifyURL get rv (c!"http://localhost:8080/" ++ hash) = some (.ok ()) ↔ ∃ x, rv.verifyJWS t = .ok x := by
  obtain ⟨h1, -⟩ := hostReceipts_iff (ts := texts)
  obtain ⟨d, hd⟩ := h1.mpr fun t ht => by
    obtain ⟨r, alg, -, h2, -⟩ := plainText_spec (texts_plain t ht)
    exact ⟨r, alg, h2⟩
  refine ⟨d, hd, fun t ht => ?_⟩
  obtain ⟨pre, e⟩ := List.getLast?_eq_some_iff.mp ht
  obtain ⟨r, alg, -, h2, h3, -⟩ := plainText_spec (texts_plain t (by rw [e]; simp))
  obtain ⟨hash, code, hh'⟩ := hosted_total h2
  obtain ⟨r', alg', h2', hh⟩ := id hh'
  rw [h2] at h2'
  cases h2'
  refine ⟨hash, code, hh', fun get hget rv => ?_⟩
  rw [e] at hd
  have key := hosted_url_verifies hd h2 hh (by simp) h3 (base := c!"http://localhost:8080") (by decide) (get := get) hget
    (rv := rv)
  refine Iff.trans key ⟨fun h => ⟨_, h⟩, fun ⟨x, hx⟩ => ?_⟩
  rw [Verifier.verifyJWS, h2, Res.ok_bind] at hx ⊢
  have hp : Parsed r alg := .jws t h2
  obtain ⟨g, ha⟩ := hp.good
  subst ha
  rw [hx, ((verify_iff g).mp hx).1]

/-- The first receipt of the day is genuine. -/
example : ((Verifier.fromKeyStore deviceStore).verifyJWS (texts.headD [])).toBool = true := by decide +kernel

/-- The certificates of a DEP with the certificates before the receipts can be read from their files, even though
chunks get full. -/
example (c : Cert) (hc : c = device ∨ c = ca) :
    ∃ text, (certExtract 2 certsFirst).1.get? (certName c) = some text ∧ loadCert text = some c := by
  refine cert_extract_readable_partial certsFirst_json certsFirst_plain (.inr (.inr certsFirst_first))
    List.mem_cons_self (by simp) (c := c) (by rcases hc with rfl | rfl <;> simp) ?_
  have : ∀ c ∈ [ca, device, ca], ∀ c' ∈ [ca, device, ca], certName c' = certName c → c' = c := by decide +kernel
  exact this c (by rcases hc with rfl | rfl <;> simp)

/-- The same certificates after the receipts. -/
def recsFirst : Json := .obj [(kGroups, .arr [groupRecsFirst (names [c!"a", c!"b", c!"c"]) (exportCertToPEM device)
  [exportCertToPEM ca]])]

theorem recsFirst_json : DepJson recsFirst
    [⟨[utf8Enc c!"a", utf8Enc c!"b", utf8Enc c!"c"], some device, [ca]⟩] := by
  refine .mk _ _ _ rfl (.cons ?_ .nil)
  exact .mk _ [c!"a", c!"b", c!"c"] _ [exportCertToPEM ca] _ _ rfl rfl rfl
      (.some _ _ (by decide +kernel) (certOf_device _)) (.cons (certOf_device _) .nil)

/-- C82 is false: the receipts of a group fill a chunk exactly, its certificates come after them, and no certificate is
written.  The program ends without an error. -/
theorem certificate_lost : certExtract 3 recsFirst = ([], none) := by
  have h : (certExtract 3 recsFirst).1.isEmpty = true ∧ (certExtract 3 recsFirst).2 = none := by decide +kernel
  exact Prod.ext (List.isEmpty_iff.mp h.1) h.2

/-- With the chunk size that the program uses they are all written. -/
example : (certExtract 100000 recsFirst).2 = none ∧
    (certExtract 100000 recsFirst).1.get? (certName device) ≠ none := by
  obtain ⟨h1, -⟩ := cert_extract_partial recsFirst_json (n := 100000) (gs := [⟨[utf8Enc c!"a", utf8Enc c!"b", utf8Enc c!"c"], some device, [ca]⟩]) (by
    refine .mk _ (by decide +kernel) ?_ ?_
    · simp only [Dict.keys, List.map_cons, List.map_nil, List.mem_cons, List.not_mem_nil, or_false]
      rintro k rfl
      decide +kernel
    · intro js h d hd
      cases h
      simp only [List.mem_cons, List.not_mem_nil, or_false] at hd
      cases hd; decide +kernel) ⟨_, List.mem_cons_self, by simp⟩ (.inr (.inl (by decide)))
  exact ⟨h1, by decide +kernel⟩

end Demo

end RKSV
