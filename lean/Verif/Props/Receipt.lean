import Verif.Lemmas.Sums
import Verif.Lemmas.Calendar
import Verif.Lemmas.DemoReceipt
/-
Properties C06–C09, C11–C14: what the receipt parsers accept.
-/
namespace RKSV

section
variable [PyEnv]

/-! ### C06: documented errors only -/

/-- C06: whatever the text, the parsers return a receipt or fail with a documented error. -/
theorem parsers_fail_documented (s : Str) {e : Err}
    (h : fromJWS s = .error e ∨ fromBasic s = .error e ∨ fromCSV s = .error e) : ReceiptErr e := by
  rcases h with h | h | h
  · exact fromJWS_error h
  · exact fromBasic_error h
  · exact fromBasic_error h

/-- C06 for the OCR format: the same under Python 2; Python 3 adds the `AttributeError`. -/
theorem ocr_fails_documented (v : PyVersion) (s : Str) {e : Err} (h : fromOCR v s = .error e) :
    ReceiptErr e ∨ (v = .py3 ∧ e = .attributeError) := by
  unfold fromOCR at h
  split at h
  · cases v with
    | py3 =>
      simp only [Res.bind_eq_error, ensure_eq_error, b32DecodeText] at h
      rcases h with ⟨_, rfl⟩ | ⟨_, _, h⟩
      · exact Or.inl .malformed
      · rcases h with h | ⟨_, h, _⟩
        · cases h; exact Or.inr ⟨rfl, rfl⟩
        · cases h
    | py2 =>
      left
      simp only [Res.bind_eq_error, ensure_eq_error, b32DecodeText, orErr_eq_error] at h
      rcases h with ⟨_, rfl⟩ | ⟨_, _, ⟨_, rfl⟩ | ⟨_, _, ⟨_, rfl⟩ | ⟨_, _, ⟨_, rfl⟩ | ⟨_, _, h⟩⟩⟩⟩
      · exact .malformed
      · exact .malformed
      · exact .malformed
      · exact .malformed
      · exact fromBasic_error h
  · cases h; exact Or.inl .malformed

/-! ### C07: well-formedness -/

/-- C07 (partial: Python's `$` also lets ZDA and sums with one line feed at the end pass, see
`Demo.newline_in_fields`; therefore `UpToNewline`). -/
theorem parsed_well_formed_partial {r : Receipt} {alg : Str} (h : Parsed r alg) :
    r.registerId ≠ [] ∧ '_' ∉ r.registerId ∧ r.receiptId ≠ [] ∧ '_' ∉ r.receiptId ∧
    UpToNewline ZdaForm r.zda ∧
    (strptime r.dateTimeStr = some r.dateTime ∧ RealTime r.dateTime) ∧
    (∀ s ∈ [r.sumAStr, r.sumBStr, r.sumCStr, r.sumDStr, r.sumEStr], UpToNewline SumForm s) ∧
    (∃ cv, b64Decode false r.previousChain = some cv ∧ cv.length = 8) ∧
    ((WithSuffix CompanyId r.certSerial ∧ r.zda = c!"AT0") ∨
      (WithSuffix HexSerial r.certSerial ∧ r.zda ≠ c!"AT0")) := by
  obtain ⟨g, -⟩ := h.good
  have i := g.init
  refine ⟨i.registerId, i.registerId', i.receiptId, i.receiptId', matchZda_iff.mp i.zda,
    ⟨i.dateTime, valid_iff_real.mp (strptime_valid i.dateTime)⟩, ?_, g.chain, ?_⟩
  · intro s hs
    simp only [List.mem_cons, List.not_mem_nil, or_false] at hs
    rcases hs with rfl | rfl | rfl | rfl | rfl
    · exact (getReceiptFloat_iff.mp i.sumA).1
    · exact (getReceiptFloat_iff.mp i.sumB).1
    · exact (getReceiptFloat_iff.mp i.sumC).1
    · exact (getReceiptFloat_iff.mp i.sumD).1
    · exact (getReceiptFloat_iff.mp i.sumE).1
  · have hp := i.provider
    have hn := i.serialNe
    by_cases hs : certSerialType r.certSerial = .serial
    · rw [if_pos hs] at hp
      exact Or.inr ⟨certSerialType_serial.mp hs, hp⟩
    · rw [if_neg hs] at hp
      refine Or.inl ⟨certSerialType_company.mp ?_, hp⟩
      cases hc : certSerialType r.certSerial <;> simp_all

/-- C07: no text is both a company ID and a certificate serial. -/
theorem company_id_not_serial {s : Str} (h : WithSuffix CompanyId s) : ¬WithSuffix HexSerial s := by
  intro h'
  have h1 := certSerialType_serial.mpr h'
  rcases certSerialType_company.mpr h with h2 | h2 | h2 <;> rw [h1] at h2 <;> cases h2

/-- C07, converse: the constructor accepts every combination of well-formed fields, so nothing
beyond the listed rules is demanded. -/
theorem well_formed_constructible (f : Fields)
    (hreg : f.registerId ≠ []) (hreg' : '_' ∉ f.registerId)
    (hid : f.receiptId ≠ []) (hid' : '_' ∉ f.receiptId)
    (hz : UpToNewline ZdaForm f.zda)
    (hdt : (strptime f.dateTimeStr).isSome)
    (hsum : ∀ s ∈ [f.sumAStr, f.sumBStr, f.sumCStr, f.sumDStr, f.sumEStr], UpToNewline SumForm s)
    (hcv : (b64Decode false f.previousChain).isSome)
    (hser : (WithSuffix CompanyId f.certSerial ∧ f.zda = c!"AT0") ∨
      (WithSuffix HexSerial f.certSerial ∧ f.zda ≠ c!"AT0"))
    (htc : ∃ b, b64Decode false f.encTurnoverCounter = some b ∧
      (b = [] ∨ (5 ≤ b.length ∧ b.length ≤ 16) ∨ b = utf8Enc c!"TRA" ∨ b = utf8Enc c!"STO")) :
    ∃ d, Draft.init f = .ok d ∧ d.toFields = f := by
  obtain ⟨dt, hdt⟩ := Option.isSome_iff_exists.mp hdt
  have hsum' : ∀ s ∈ [f.sumAStr, f.sumBStr, f.sumCStr, f.sumDStr, f.sumEStr],
      getReceiptFloat s = some (centsToF64 (amountCents s)) :=
    fun s hs => getReceiptFloat_iff.mpr ⟨hsum s hs, rfl⟩
  obtain ⟨b, hb, hb'⟩ := htc
  refine ⟨⟨f, dt, _, _, _, _, _⟩, init_eq_ok.mpr ⟨rfl, hid, hid', matchZda_iff.mpr hz, hreg, hreg', hdt,
    hsum' _ (by simp), hsum' _ (by simp), hsum' _ (by simp), hsum' _ (by simp), hsum' _ (by simp),
    ?_, ?_, hcv, b, hb, ?_⟩, rfl⟩
  · rcases hser with ⟨h, -⟩ | ⟨h, -⟩
    · rcases certSerialType_company.mpr h with h2 | h2 | h2 <;> rw [h2] <;> decide
    · rw [certSerialType_serial.mpr h]; decide
  · rcases hser with ⟨h, hz⟩ | ⟨h, hz⟩
    · rw [if_neg]
      · exact hz
      · intro h1
        exact company_id_not_serial h (certSerialType_serial.mp h1)
    · rw [if_pos (certSerialType_serial.mpr h)]
      exact hz
  · rintro ⟨h0, hl⟩
    rcases hb' with rfl | h | rfl | rfl
    · simp at h0
    · omega
    · left; simp only [Fields.isDummy, hb]; decide
    · right; simp only [Fields.isReversal, hb]; decide

/-! ### C08: the counter's length -/

/-- C08 (partial: the empty counter passes if the text ends in a line feed, see
`Demo.empty_counter_accepted`). -/
theorem counter_length_partial {r : Receipt} {alg : Str} (h : Parsed r alg) :
    ∃ b, b64Decode false r.encTurnoverCounter = some b ∧
      ((5 ≤ b.length ∧ b.length ≤ 16) ∨ b = utf8Enc c!"TRA" ∨ b = utf8Enc c!"STO" ∨
        (b = [] ∧ r.encTurnoverCounter.getLast? = some '\n')) := by
  obtain ⟨g, -⟩ := h.good
  obtain ⟨b, hb, hl⟩ := g.init.tc
  refine ⟨b, hb, ?_⟩
  by_cases h1 : 5 ≤ b.length ∧ b.length ≤ 16
  · exact Or.inl h1
  by_cases h0 : b = []
  · subst h0
    refine Or.inr (Or.inr (Or.inr ⟨rfl, ?_⟩))
    obtain ⟨d, k, nl, hs, hnl, hk, hd, hn, hdec⟩ := b64Decode_eq_some_iff.mp hb
    have hlen := dec6_length hdec
    simp only [List.length_nil, List.length_map] at hlen
    have hd0 : d = [] := List.length_eq_zero_iff.mp (by omega)
    subst hd0
    rcases hnl with rfl | rfl
    · exfalso
      apply g.tc
      rw [hs]
      simp [removeChar]
    · rw [hs]; simp
  · have : b.length ≠ 0 := by simpa using h0
    rcases hl ⟨this, by omega⟩ with h2 | h2
    · right; left
      simp only [Fields.isDummy, hb, decide_eq_true_eq, Option.some.injEq] at h2
      rw [h2]; decide
    · right; right; left
      simp only [Fields.isReversal, hb, decide_eq_true_eq, Option.some.injEq] at h2
      rw [h2]; decide

/-! ### C09: the header -/

/-- C09. -/
theorem header_pinned {r : Receipt} {alg : Str} (h : Parsed r alg) :
    alg = c!"R1" ∧ r.header = c!"{\"alg\":\"ES256\"}" :=
  ⟨h.good.2, h.good.1.header⟩

/-! ### C12: receipt kinds -/

omit [PyEnv] in
theorem decode3 {s : Str} {x y z : UInt8} : b64Decode false s = some [x, y, z] ↔
    ∃ k nl, s = b64Text false [x, y, z] ++ List.replicate k '=' ++ nl ∧ k ≤ 3 ∧
      (nl = [] ∨ nl = ['\n']) := by
  constructor
  · intro h
    obtain ⟨d, k, nl, rfl, hnl, hk, hd, hn, hdec⟩ := b64Decode_eq_some_iff.mp h
    refine ⟨k, nl, ?_, hk, hnl⟩
    have hlen := dec6_length hdec
    simp only [List.length_map, List.length_cons, List.length_nil] at hlen
    have h4 : d.length = 4 := by omega
    match d, h4 with
    | [a, b, c, e], _ =>
      have val : ∀ q ∈ [a, b, c, e], ∃ n, b64Val false q = some n ∧ n < 64 ∧ b64Char false n = q := by
        intro q hq
        obtain ⟨n, hn⟩ := Option.isSome_iff_exists.mp (hd q hq)
        exact ⟨n, hn, b64Val_lt hn, b64Char_val hn⟩
      obtain ⟨na, ha, la, ca⟩ := val a (by simp)
      obtain ⟨nb, hb, lb, cb⟩ := val b (by simp)
      obtain ⟨nc, hc, lc, cc⟩ := val c (by simp)
      obtain ⟨ne, he, le, ce⟩ := val e (by simp)
      simp only [List.map_cons, List.map_nil, ha, hb, hc, he, Option.getD_some, dec6,
        Option.map_some, Option.some.injEq, List.cons.injEq, and_true] at hdec
      obtain ⟨h1, h2, h3⟩ := hdec
      have t1 : x.toNat = na * 4 + nb / 16 := by rw [← h1]; exact toNat_ofNat_lt (by omega)
      have t2 : y.toNat = nb % 16 * 16 + nc / 4 := by rw [← h2]; exact toNat_ofNat_lt (by omega)
      have t3 : z.toNat = nc % 4 * 64 + ne := by rw [← h3]; exact toNat_ofNat_lt (by omega)
      congr 2
      simp only [b64Text, enc6, List.map_cons, List.map_nil, t1, t2, t3]
      rw [← ca, ← cb, ← cc, ← ce]
      congr
      all_goals omega
  · rintro ⟨k, nl, rfl, hk, hnl⟩
    refine b64Decode_eq_some_iff.mpr ⟨b64Text false [x, y, z], k, nl, rfl, hnl, hk,
      fun c hc => isB64_of_mem_b64Text hc, by simp [b64Text, enc6], ?_⟩
    rw [map_val_b64Text, dec6_enc6]

omit [PyEnv] in
/-- C12: the kind of a receipt can be read off the counter text: `VFJB` is a dummy receipt, `U1RP`
a reversal (up to superfluous padding and a line feed). -/
theorem kind_visible (r : Fields) :
    (r.isDummy = true ↔ ∃ k nl, r.encTurnoverCounter = c!"VFJB" ++ List.replicate k '=' ++ nl ∧
      k ≤ 3 ∧ (nl = [] ∨ nl = ['\n'])) ∧
    (r.isReversal = true ↔ ∃ k nl, r.encTurnoverCounter = c!"U1RP" ++ List.replicate k '=' ++ nl ∧
      k ≤ 3 ∧ (nl = [] ∨ nl = ['\n'])) := by
  constructor
  · rw [Fields.isDummy, decide_eq_true_eq]; exact decode3
  · rw [Fields.isReversal, decide_eq_true_eq]; exact decode3

omit [PyEnv] in
/-- C12: dummy exactly if the counter decodes to `TRA`, reversal exactly if to `STO`. -/
theorem kind_decoded (r : Fields) :
    (r.isDummy = true ↔ b64Decode false r.encTurnoverCounter = some (utf8Enc c!"TRA")) ∧
    (r.isReversal = true ↔ b64Decode false r.encTurnoverCounter = some (utf8Enc c!"STO")) := by
  constructor
  · rw [Fields.isDummy, decide_eq_true_eq, show bTRA = utf8Enc c!"TRA" by decide]
  · rw [Fields.isReversal, decide_eq_true_eq, show bSTO = utf8Enc c!"STO" by decide]

omit [PyEnv] in
/-- C12: never both, and neither if the counter has five or more bytes. -/
theorem kinds_disjoint (r : Fields) :
    ¬(r.isDummy = true ∧ r.isReversal = true) ∧
    ∀ b, b64Decode false r.encTurnoverCounter = some b → 5 ≤ b.length →
      r.isDummy = false ∧ r.isReversal = false := by
  constructor
  · rintro ⟨h1, h2⟩
    rw [(kind_decoded r).1] at h1
    rw [(kind_decoded r).2, h1] at h2
    exact absurd h2 (by decide)
  · intro b hb hl
    simp only [Fields.isDummy, Fields.isReversal, hb, decide_eq_false_iff_not, Option.some.injEq]
    constructor <;> (rintro rfl; simp [bTRA, bSTO] at hl)

/-! ### C13, C14: sums -/

/-- The five amounts of a receipt in cents, as written. -/
def cents (f : Fields) : List Int :=
  [f.sumAStr, f.sumBStr, f.sumCStr, f.sumDStr, f.sumEStr].map amountCents

theorem sums_read {f : Fields} {d : Draft} (h : Draft.init f = .ok d) :
    d.sumA = centsToF64 (amountCents f.sumAStr) ∧ d.sumB = centsToF64 (amountCents f.sumBStr) ∧
    d.sumC = centsToF64 (amountCents f.sumCStr) ∧ d.sumD = centsToF64 (amountCents f.sumDStr) ∧
    d.sumE = centsToF64 (amountCents f.sumEStr) := by
  have i := init_eq_ok.mp h
  exact ⟨(getReceiptFloat_iff.mp i.sumA).2, (getReceiptFloat_iff.mp i.sumB).2,
    (getReceiptFloat_iff.mp i.sumC).2, (getReceiptFloat_iff.mp i.sumD).2,
    (getReceiptFloat_iff.mp i.sumE).2⟩

/-- C13: a receipt has zero turnover exactly if its sum texts contain no digit but 0. -/
theorem zero_turnover_exact {f : Fields} {d : Draft} (h : Draft.init f = .ok d) :
    d.isNull = true ↔
      ∀ s ∈ [f.sumAStr, f.sumBStr, f.sumCStr, f.sumDStr, f.sumEStr], ZeroAmount s := by
  obtain ⟨ha, hb, hc, hd, he⟩ := sums_read h
  simp only [Draft.isNull, ha, hb, hc, hd, he, centsToF64_isZero, Bool.and_eq_true, beq_iff_eq,
    amountCents_eq_zero, List.mem_cons, List.not_mem_nil, or_false, forall_eq_or_imp, forall_eq]
  tauto

/-- C13 for parsed receipts. -/
theorem zero_turnover_exact_parsed {r : Receipt} {alg : Str} (h : Parsed r alg) :
    r.isNull = true ↔
      ∀ s ∈ [r.sumAStr, r.sumBStr, r.sumCStr, r.sumDStr, r.sumEStr], ZeroAmount s :=
  zero_turnover_exact (init_eq_ok.mpr h.good.1.init)

/-- C14 (partial: amounts up to 2^49 cents in total; `Demo.turnover_inexact` and
`Demo.turnover_overflow` show that the computation is wrong or fails for larger ones). -/
theorem turnover_exact_partial {f : Fields} {d : Draft} (h : Draft.init f = .ok d)
    (hle : ((cents f).map abs).sum ≤ 2 ^ 49) : d.turnover = .ok (cents f).sum := by
  obtain ⟨ha, hb, hc, hd, he⟩ := sums_read h
  simp only [cents, List.map_cons, List.map_nil, List.sum_cons, List.sum_nil, add_zero] at hle ⊢
  unfold Draft.turnover
  rw [ha, hb, hc, hd, he, sum5_exact (by linarith)]
  simp only [Except.ok.injEq]
  ring

/-- C14: the parsed amounts of a receipt with zero turnover add up to zero. -/
theorem null_turnover {f : Fields} {d : Draft} (h : Draft.init f = .ok d) (hn : d.isNull = true) :
    d.turnover = .ok 0 := by
  have hz := (zero_turnover_exact h).mp hn
  simp only [List.mem_cons, List.not_mem_nil, or_false, forall_eq_or_imp, forall_eq,
    ← amountCents_eq_zero] at hz
  obtain ⟨h1, h2, h3, h4, h5⟩ := hz
  have : ((cents f).map abs).sum ≤ 2 ^ 49 := by
    simp [cents, h1, h2, h3, h4, h5]
  rw [turnover_exact_partial h this]
  simp [cents, h1, h2, h3, h4, h5]

end

/-! ### C11: base64 -/

/-- The characters allowed in a base64 text. -/
def B64Char (url : Bool) (c : Char) : Prop :=
  ('A' ≤ c ∧ c ≤ 'Z') ∨ ('a' ≤ c ∧ c ≤ 'z') ∨ ('0' ≤ c ∧ c ≤ '9') ∨
    (if url then c = '-' ∨ c = '_' else c = '+' ∨ c = '/')

theorem isB64_iff {url : Bool} {c : Char} : isB64 url c = true ↔ B64Char url c := by
  unfold isB64 b64Val B64Char
  by_cases h1 : 'A' ≤ c ∧ c ≤ 'Z'
  · simp [h1]
  by_cases h2 : 'a' ≤ c ∧ c ≤ 'z'
  · simp [h1, h2]
  by_cases h3 : '0' ≤ c ∧ c ≤ '9'
  · simp [h1, h2, h3]
  simp only [h1, h2, h3, if_false, false_or]
  cases url <;> simp only [cond_true, cond_false, if_true, Bool.false_eq_true, if_false]
  · by_cases h4 : c = '+'
    · simp [h4]
    · by_cases h5 : c = '/' <;> simp [h4, h5]
  · by_cases h4 : c = '-'
    · simp [h4]
    · by_cases h5 : c = '_' <;> simp [h4, h5]

/-- C11: decoding inverts encoding, for the standard and the URL-safe alphabet, and for the URL-safe
text without padding as used in JWS. -/
theorem b64_inverse (b : Bytes) :
    b64Decode false (b64Encode false b) = some b ∧ b64Decode true (b64Encode true b) = some b ∧
    b64Decode true (restorePad (removeChar '=' (b64Encode true b))) = some b := by
  refine ⟨b64Decode_encode _ _, b64Decode_encode _ _, ?_⟩
  rw [removeChar_b64Encode, b64Decode_restorePad]

/-- C11: the texts accepted.  A number of data characters that leaves a remainder of 1 modulo 4 is
never accepted, the remainders 2 and 3 need at least two and one padding characters. -/
theorem b64_accepted (url : Bool) (s : Str) :
    (b64Decode url s).isSome ↔
      ∃ d k nl, s = d ++ List.replicate k '=' ++ nl ∧ (∀ c ∈ d, B64Char url c) ∧ k ≤ 3 ∧
        (nl = [] ∨ nl = ['\n']) ∧ d.length % 4 ≠ 1 ∧ (d.length % 4 = 2 → 2 ≤ k) ∧
        (d.length % 4 = 3 → 1 ≤ k) := by
  constructor
  · intro h
    obtain ⟨b, hb⟩ := Option.isSome_iff_exists.mp h
    obtain ⟨d, k, nl, rfl, hnl, hk, hd, hn, hdec⟩ := b64Decode_eq_some_iff.mp hb
    have hlen := dec6_length hdec
    simp only [List.length_map] at hlen
    exact ⟨d, k, nl, rfl, fun c hc => isB64_iff.mp (hd c hc), hk, hnl, hlen.2, by omega, by omega⟩
  · rintro ⟨d, k, nl, rfl, hd, hk, hnl, h1, h2, h3⟩
    have hsome : ∀ l : List Nat, l.length % 4 ≠ 1 → ∃ b, dec6 l = some b := by
      intro l
      fun_induction dec6 l with
      | case1 => simp
      | case2 => simp
      | case3 => simp
      | case4 => simp
      | case5 x y z w r ih =>
        intro hl
        simp only [List.length_cons] at hl
        obtain ⟨b, hb⟩ := ih (by omega)
        simp [hb]
    obtain ⟨b, hb⟩ := hsome (d.map fun c => (b64Val url c).getD 0) (by simpa using h1)
    rw [b64Decode_eq_some_iff.mpr ⟨d, k, nl, rfl, hnl, hk, fun c hc => isB64_iff.mpr (hd c hc),
      by omega, hb⟩]
    rfl

/-- C11: the bytes decoded are determined by the data characters: three quarters of their number. -/
theorem b64_decoded_length {url : Bool} {s : Str} {b : Bytes} (h : b64Decode url s = some b) :
    b.length = (s.filter (isB64 url)).length * 3 / 4 := by
  obtain ⟨d, k, nl, rfl, hnl, hk, hd, hn, hdec⟩ := b64Decode_eq_some_iff.mp h
  have hlen := dec6_length hdec
  simp only [List.length_map] at hlen
  have : (d ++ List.replicate k '=' ++ nl).filter (isB64 url) = d := by
    rw [List.filter_append, List.filter_append, List.filter_eq_self.mpr hd,
      List.filter_eq_nil_iff.mpr, List.filter_eq_nil_iff.mpr]
    · simp
    · rcases hnl with rfl | rfl <;> simp [not_isB64_nl]
    · intro c hc
      rw [(List.mem_replicate.mp hc).2]; simp [not_isB64_eq]
  rw [this]
  omega

/-! ### Concrete cases -/

namespace Demo

attribute [local instance] env

/-- Every documented error occurs. -/
theorem every_error_occurs : ∀ e, ReceiptErr e → ∃ s, fromJWS s = .error e := by
  have jws : ∀ (h p : Str), ∃ s, s = joinWith '.' [encodeSeg h, encodeSeg p, c!"AQID"] := fun _ _ => ⟨_, rfl⟩
  intro e he
  cases he with
  | malformed => exact ⟨[], rfl⟩
  | unknownAlg =>
    exact ⟨joinWith '.' [encodeSeg jwsHeader, encodeSeg (fields.toPayload c!"R2"), c!"AQID"], by decide +kernel⟩
  | algMismatch =>
    exact ⟨joinWith '.' [encodeSeg c!"{}", encodeSeg (fields.toPayload R1), c!"AQID"], by decide +kernel⟩
  | serialInvalid =>
    exact ⟨joinWith '.' [encodeSeg jwsHeader,
      encodeSeg ({ fields with certSerial := c!"xyz" }.toPayload R1), c!"AQID"], by decide +kernel⟩
  | provider =>
    exact ⟨joinWith '.' [encodeSeg jwsHeader,
      encodeSeg ({ fields with zda := c!"AT0" }.toPayload R1), c!"AQID"], by decide +kernel⟩

/-- C07: line feeds at the end of ZDA and sums pass the checks. -/
theorem newline_in_fields : ∃ r, Parsed r R1 ∧ ¬ZdaForm r.zda ∧ ¬SumForm r.sumAStr := by
  have hp : ∃ r, fromBasic c!"_R1-AT1\n_reg_a_2020-01-02T03:04:05_0,00\n_0,00_0,00_0,00_-0,00_AAAAAAA=_1f-k_AAAAAAAAAAA=_AQID" = .ok (r, R1) ∧
      r.zda = c!"AT1\n" ∧ r.sumAStr = c!"0,00\n" := ⟨_, rfl, rfl, rfl⟩
  obtain ⟨r, h1, h2, h3⟩ := hp
  refine ⟨r, .basic _ h1, ?_, ?_⟩
  · intro h; exact h.last (by rw [h2]; rfl)
  · intro h; exact h.last (by rw [h3]; rfl)

/-- C07: the closed system marker with a line feed is taken for an open system. -/
theorem closed_marker_newline : ∃ r, Parsed r R1 ∧ r.zda = c!"AT0\n" ∧ WithSuffix HexSerial r.certSerial := by
  have hp : ∃ r, fromBasic c!"_R1-AT0\n_reg_a_2020-01-02T03:04:05_0,00_0,00_0,00_0,00_-0,00_AAAAAAA=_1f_AAAAAAAAAAA=_AQID" = .ok (r, R1) ∧
      r.zda = c!"AT0\n" ∧ r.certSerial = c!"1f" := ⟨_, rfl, rfl, rfl⟩
  obtain ⟨r, h1, h2, h3⟩ := hp
  exact ⟨r, .basic _ h1, h2, by rw [h3]; exact .plain _ (by unfold HexSerial; decide) (by decide)⟩

/-- C08: a counter of no bytes is accepted. -/
theorem empty_counter_accepted : ∃ r, Parsed r R1 ∧ b64Decode false r.encTurnoverCounter = some [] :=
  ⟨_, .basic c!"_R1-AT1_reg_a_2020-01-02T03:04:05_0,00_0,00_0,00_0,00_-0,00_\n_1f-k_AAAAAAAAAAA=_AQID"
    rfl, by decide⟩

/-- Fields with amounts. -/
def moneyFields : Fields :=
  { fields with sumAStr := c!"12,30", sumBStr := c!"-0,05", sumCStr := c!"1000,99" }

/-- The hypotheses of C13 and C14 are met by a receipt with turnover. -/
example : ∃ d, Draft.init moneyFields = .ok d ∧ cents moneyFields = [1230, -5, 100099, 0, 0] ∧
    ((cents moneyFields).map abs).sum ≤ 2 ^ 49 ∧ d.isNull = false := by
  exact ⟨_, rfl, by decide +kernel, by decide +kernel, by decide +kernel⟩

/-- ... and by one without. -/
example : ∃ d, Draft.init fields = .ok d ∧ d.isNull = true := ⟨_, rfl, by decide +kernel⟩

/-- A dummy receipt and a reversal. -/
example : { fields with encTurnoverCounter := c!"VFJB" }.isDummy = true ∧
    { fields with encTurnoverCounter := c!"U1RP" }.isReversal = true := by decide

def bigFields : Fields := { fields with sumAStr := c!"90071992547409,93" }

/-- C14: an amount above the bound is not read exactly. -/
theorem turnover_inexact : ∃ d, Draft.init bigFields = .ok d ∧
    (cents bigFields).sum = 9007199254740993 ∧ d.turnover ≠ .ok (cents bigFields).sum :=
  ⟨_, rfl, by decide +kernel, by decide +kernel⟩

def hugeFields : Fields := { fields with sumAStr := '1' :: List.replicate 309 '0' ++ c!",00" }

/-- C14: an amount of 10^309 is read as infinity, and rounding that raises `OverflowError`. -/
theorem turnover_overflow : ∃ d, Draft.init hugeFields = .ok d ∧ d.turnover = .error .overflowError := by
  have h : (Draft.init hugeFields).toOption.isSome = true := by decide +kernel
  have h2 : (Draft.init hugeFields >>= Draft.turnover) = .error .overflowError := by decide +kernel
  cases hd : Draft.init hugeFields with
  | error e => rw [hd] at h; cases h
  | ok d => rw [hd] at h2; exact ⟨d, rfl, h2⟩

end Demo

end RKSV
