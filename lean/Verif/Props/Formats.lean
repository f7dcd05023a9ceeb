import Verif.Lemmas.Formats
import Verif.Lemmas.Serial
import Verif.Lemmas.DemoReceipt
/-
Properties C01-C05 and C10: the text formats of a receipt.
-/
namespace RKSV

section
variable [PyEnv]

/-! ### C01 -/

/-- C01: writing a parsed receipt as JWS and reading it back gives the same receipt. -/
theorem jws_object_round_trip {r : Receipt} {alg : Str} (h : Parsed r alg) :
    fromJWS (r.toJWS alg) = .ok (r, alg) := by
  obtain ⟨g, rfl⟩ := h.good
  exact fromJWS_toJWS g

/-! ### C02 -/

omit [PyEnv] in
theorem decodeSeg_canonical {s t : Str} (h : decodeSeg s = some t) (hc : CanonicalB64 s) :
    encodeSeg t = s := by
  obtain ⟨b, rfl⟩ := hc
  unfold decodeSeg at h
  rw [b64Decode_restorePad] at h
  rw [encodeSeg_eq]
  rw [utf8Enc_dec h]

/-- C02: an accepted JWS text is reproduced exactly if its header and payload segments are
canonical. -/
theorem jws_string_round_trip {s : Str} {r : Receipt} {alg : Str} (h : fromJWS s = .ok (r, alg)) :
    r.toJWS alg = s ↔ CanonicalJWS s := by
  obtain ⟨g, rfl, hs, ps, hsplit, hh, hp, -, -⟩ := good_of_jws h
  have hjoin : s = hs ++ '.' :: ps ++ '.' :: r.signature := by
    rw [← joinWith_splitOn '.' s, hsplit]; simp [joinWith]
  constructor
  · intro e
    rw [← e]
    refine ⟨encodeSeg r.header, encodeSeg (r.toPayload R1), r.signature, ?_, ?_, ?_⟩
    · simp [Receipt.toJWS, joinWith]
    · exact ⟨_, encodeSeg_eq _⟩
    · exact ⟨_, encodeSeg_eq _⟩
  · rintro ⟨h', p', sg, e, ch, cp⟩
    have hd : '.' ∉ h' := by
      obtain ⟨b, rfl⟩ := ch; exact not_mem_b64Text (not_isB64_dot true)
    have pd : '.' ∉ p' := by
      obtain ⟨b, rfl⟩ := cp; exact not_mem_b64Text (not_isB64_dot true)
    have hsplit' := hsplit
    rw [e, List.append_assoc, List.cons_append, splitOn_append_sep hd, splitOn_append_sep pd] at hsplit'
    simp only [List.cons.injEq] at hsplit'
    obtain ⟨rfl, rfl, hsg⟩ := hsplit'
    rw [hjoin]
    unfold Receipt.toJWS
    rw [decodeSeg_canonical (by rw [g.header]; exact hh) ch, decodeSeg_canonical hp cp]
    simp [joinWith]

/-- C02: the JWS texts written by the code are canonical and reproduced. -/
theorem jws_written_is_reproduced {r : Receipt} {alg : Str} (h : Parsed r alg) :
    CanonicalJWS (r.toJWS alg) :=
  (jws_string_round_trip (jws_object_round_trip h)).mp rfl

/-- C02: every receipt has a second JWS text that is accepted as the same receipt and therefore not
reproduced. -/
theorem jws_string_malleable {r : Receipt} {alg : Str} (h : Parsed r alg) :
    ∃ s, s ≠ r.toJWS alg ∧ fromJWS s = .ok (r, alg) := by
  obtain ⟨g, rfl⟩ := h.good
  have hnd : '.' ∉ (c!"===\n" : Str) := by decide
  let hs := encodeSeg r.header ++ c!"===\n"
  let s := joinWith '.' [hs, encodeSeg (r.toPayload R1), r.signature]
  have hsd : '.' ∉ hs := by
    intro hm
    rcases List.mem_append.mp hm with h | h
    · exact not_dot_encodeSeg _ h
    · exact hnd h
  have hsplit : splitOn '.' s = [hs, encodeSeg (r.toPayload R1), r.signature] := by
    apply splitOn_joinWith (by simp)
    intro x hx
    simp only [List.mem_cons, List.not_mem_nil, or_false] at hx
    rcases hx with rfl | rfl | rfl
    · exact hsd
    · exact not_dot_encodeSeg _
    · exact g.not_dot_sig
  have hdec : decodeSeg hs = some r.header := by
    show decodeSeg (encodeSeg r.header ++ _) = some r.header
    rw [g.header]; decide
  have hend : endsWithChar '=' hs = false := by
    show endsWithChar '=' (encodeSeg r.header ++ _) = false
    simp [endsWithChar]
  refine ⟨s, ?_, ?_⟩
  · intro e
    have := g.split_jws R1
    rw [← e, hsplit] at this
    simp only [List.cons.injEq] at this
    have h1 := congrArg List.length this.1
    simp [hs] at h1
  · have := fromJWS_toJWS g
    unfold fromJWS at this ⊢
    rw [g.split_jws] at this
    rw [hsplit]
    simp only [not_eq_encodeSeg, hend, hdec, decodeSeg_encodeSeg] at this ⊢
    exact this

/-! ### C03 -/

/-- C03: the QR code text reads back as the receipt with canonical signature text. -/
theorem qr_round_trip {r : Receipt} {alg : Str} (h : Parsed r alg) :
    ∃ code sig, r.toBasic alg = .ok code ∧ b64Decode true (restorePad r.signature) = some sig ∧
      fromBasic code = .ok ({ r with signature := b64Text true sig }, alg) := by
  obtain ⟨g, rfl⟩ := h.good
  obtain ⟨sb, hsb⟩ := Option.isSome_iff_exists.mp g.sig
  exact ⟨_, sb, toBasic_eq hsb R1, hsb, fromBasic_write g sb⟩

omit [PyEnv] in
theorem canonical_sig {s : Str} {b : Bytes} (hc : CanonicalB64 s)
    (h : b64Decode true (restorePad s) = some b) : b64Text true b = s := by
  obtain ⟨c, rfl⟩ := hc
  rw [b64Decode_restorePad] at h
  cases h; rfl

/-- C03: with a canonical signature text the QR code reads back as the same receipt. -/
theorem qr_round_trip_canonical {r : Receipt} {alg : Str} (h : Parsed r alg)
    (hc : CanonicalB64 r.signature) :
    ∃ code, r.toBasic alg = .ok code ∧ fromBasic code = .ok (r, alg) := by
  obtain ⟨code, sig, h1, h2, h3⟩ := qr_round_trip h
  refine ⟨code, h1, ?_⟩
  rw [h3, canonical_sig hc h2]

/-- C03: receipts read from a QR code always have a canonical signature text. -/
theorem qr_signature_canonical {s : Str} {r : Receipt} {alg : Str} (h : fromBasic s = .ok (r, alg)) :
    CanonicalB64 r.signature := by
  obtain ⟨-, -, sb, sg, -, h, -⟩ := good_of_basic h
  exact ⟨sb, h⟩

/-! ### C04 -/

/-- C04, partial: the OCR code reads back (Python 2) as the receipt with canonical counter, chaining
value and signature texts.  Missing: receipts with an empty counter, see
`ocr_empty_counter_unreadable`. -/
theorem ocr_round_trip_partial {r : Receipt} {alg : Str} (h : Parsed r alg)
    (hne : b64Decode false r.encTurnoverCounter ≠ some []) :
    ∃ code tc cv sig, r.toOCR alg = .ok code ∧
      b64Decode false r.encTurnoverCounter = some tc ∧
      b64Decode false r.previousChain = some cv ∧
      b64Decode true (restorePad r.signature) = some sig ∧
      fromOCR .py2 code = .ok ({ r with encTurnoverCounter := b64Encode false tc,
                                        previousChain := b64Encode false cv,
                                        signature := b64Text true sig }, alg) := by
  obtain ⟨g, rfl⟩ := h.good
  obtain ⟨sb, hsb⟩ := Option.isSome_iff_exists.mp g.sig
  obtain ⟨tc, htc, -⟩ := g.init.tc
  obtain ⟨cv, hcv, -⟩ := g.chain
  obtain ⟨code, h1, h2, -⟩ := fromOCR_toOCR g htc hcv hsb (by rintro rfl; exact hne htc)
  exact ⟨code, tc, cv, sb, h1, htc, hcv, hsb, h2⟩

/-- C04: the OCR text of a receipt with an empty counter cannot be read back.  Such receipts are
accepted by the other parsers, see C08. -/
theorem ocr_empty_counter_unreadable {r : Receipt} {alg code : Str} (h : Parsed r alg)
    (he : b64Decode false r.encTurnoverCounter = some []) (hw : r.toOCR alg = .ok code) :
    fromOCR .py2 code = .error .malformedReceipt := by
  obtain ⟨g, rfl⟩ := h.good
  obtain ⟨sb, hsb⟩ := Option.isSome_iff_exists.mp g.sig
  obtain ⟨cv, hcv, -⟩ := g.chain
  have hseg := g.init.segs g.serial
  simp only [Receipt.toOCR, he, hcv, hsb, orErr, Res.ok_bind, Except.ok.injEq] at hw
  subst hw
  have h32 : ∀ b, '_' ∉ b32Encode b := fun b => not_mem_b32Encode (by decide) (by decide)
  have h64 : ∀ b, '_' ∉ b64Encode false b := fun b =>
    not_mem_of_b64Decode (b64Decode_encode false b) not_isB64_under (by decide) (by decide)
  have : ∀ l : List Str, joinWith '_' (('_' :: R1 ++ '-' :: r.zda) :: l) =
      joinWith '_' ([] :: (R1 ++ '-' :: r.zda) :: l) := by
    intro l; cases l <;> simp [joinWith]
  unfold fromOCR
  rw [this, splitOn_joinWith (by simp)]
  · simp only [b32DecodeText, b32Decode_encode, orErr, Res.ok_bind, ensure, if_true]
    unfold fromBasic
    rw [splitOn_joinWith (by simp)]
    · simp only [ensure, if_true, Res.ok_bind]
      rw [g.init.split_zda]
      simp only [matchAlg_R1, knownAlg, Res.ok_bind, b64Decode_encode, orErr, if_true]
      rw [if_neg (by decide)]
      rfl
    · intro s hs
      simp only [List.mem_cons, List.not_mem_nil, or_false] at hs
      rcases hs with rfl | rfl | rfl | rfl | rfl | rfl | rfl | rfl | rfl | rfl | rfl | rfl | rfl | rfl
      · simp
      all_goals first
        | exact h64 _
        | (apply hseg; simp [Fields.segs])
  · intro s hs
    simp only [List.mem_cons, List.not_mem_nil, or_false] at hs
    rcases hs with rfl | rfl | rfl | rfl | rfl | rfl | rfl | rfl | rfl | rfl | rfl | rfl | rfl | rfl
    · simp
    all_goals first
      | exact h32 _
      | (apply hseg; simp [Fields.segs])

/-- C04: under Python 3 `fromOCRCode` never returns a receipt: 13 elements raise `AttributeError`,
anything else is malformed. -/
theorem ocr_python3 (s : Str) :
    fromOCR .py3 s = .error .attributeError ∨ fromOCR .py3 s = .error .malformedReceipt := by
  unfold fromOCR
  split
  · rename_i s0 _ _ _ _ _ _ _ _ _ _ _ _ _ _
    by_cases h0 : s0 = [] <;> simp [ensure, h0, b32DecodeText, Res.ok_bind, Res.error_bind]
  · right; rfl

/-- C04: under Python 3 the OCR text of every parsed receipt raises `AttributeError` when read. -/
theorem ocr_python3_own_output {r : Receipt} {alg code : Str} (h : Parsed r alg)
    (hw : r.toOCR alg = .ok code) : fromOCR .py3 code = .error .attributeError := by
  obtain ⟨g, rfl⟩ := h.good
  obtain ⟨sb, hsb⟩ := Option.isSome_iff_exists.mp g.sig
  obtain ⟨tc, htc, -⟩ := g.init.tc
  obtain ⟨cv, hcv, -⟩ := g.chain
  by_cases hne : tc = []
  · subst hne
    have hseg := g.init.segs g.serial
    simp only [Receipt.toOCR, htc, hcv, hsb, orErr, Res.ok_bind, Except.ok.injEq] at hw
    subst hw
    have h32 : ∀ b, '_' ∉ b32Encode b := fun b => not_mem_b32Encode (by decide) (by decide)
    have : ∀ l : List Str, joinWith '_' (('_' :: R1 ++ '-' :: r.zda) :: l) =
        joinWith '_' ([] :: (R1 ++ '-' :: r.zda) :: l) := by
      intro l; cases l <;> simp [joinWith]
    unfold fromOCR
    rw [this, splitOn_joinWith (by simp)]
    · simp [b32DecodeText, ensure, Res.ok_bind, Res.error_bind]
    · intro s hs
      simp only [List.mem_cons, List.not_mem_nil, or_false] at hs
      rcases hs with rfl | rfl | rfl | rfl | rfl | rfl | rfl | rfl | rfl | rfl | rfl | rfl | rfl | rfl
      · simp
      all_goals first
        | exact h32 _
        | (apply hseg; simp [Fields.segs])
  · obtain ⟨code', h1, -, h3⟩ := fromOCR_toOCR g htc hcv hsb hne
    rw [h1] at hw; cases hw
    exact h3

/-! ### C05 -/

omit [PyEnv] in
theorem stripBoth_of_ends {p : Char → Bool} {s : Str}
    (h1 : ∀ c, s.head? = some c → p c = false) (h2 : ∀ c, s.getLast? = some c → p c = false) :
    stripBoth p s = s := by
  have hd : ∀ l : Str, (∀ c, l.head? = some c → p c = false) → l.dropWhile p = l := by
    intro l hl
    cases l with
    | nil => rfl
    | cons x xs => rw [List.dropWhile_cons, if_neg (by simp [hl x rfl])]
  unfold stripBoth
  rw [hd s h1, hd s.reverse (by simpa using h2), List.reverse_reverse]

theorem pyStrip_of_noOuterSpace {s : Str} (h : NoOuterSpace s) : pyStrip s = s :=
  stripBoth_of_ends h.1 h.2

theorem b64_not_space {c : Char} {url : Bool} (h : isB64 url c = true ∨ c = '=') : isSpace c = false := by
  have key : c.toNat < 128 ∧ 33 ≤ c.toNat := by
    rcases h with h | rfl
    · obtain ⟨n, hn⟩ := Option.isSome_iff_exists.mp h
      rw [← b64Char_val hn]
      have hlt := b64Val_lt hn
      have : ∀ (u : Bool) (n : Fin 64), (b64Char u n).toNat < 128 ∧ 33 ≤ (b64Char u n).toNat := by
        intro u; cases u <;> decide
      exact this url ⟨n, hlt⟩
    · decide
  rw [PyEnv.isSpace_ascii key.1]
  unfold asciiSpace
  simp only [Bool.or_eq_false_iff, Bool.and_eq_false_iff, decide_eq_false_iff_not]
  omega

theorem b64Encode_noOuterSpace (url : Bool) (b : Bytes) : NoOuterSpace (b64Encode url b) := by
  have : ∀ c ∈ b64Encode url b, isSpace c = false := by
    intro c hc
    apply b64_not_space (url := url)
    unfold b64Encode at hc
    rcases List.mem_append.mp hc with h | h
    · exact Or.inl (isB64_of_mem_b64Text h)
    · exact Or.inr (List.eq_of_mem_replicate h)
  exact ⟨fun c hc => this c (List.mem_of_head? hc), fun c hc => this c (List.mem_of_getLast? hc)⟩

/-- C05, partial: the CSV row reads back as the receipt (with canonical signature text) if the
register ID and the receipt ID contain no semicolon and no field starts or ends with white space.
Missing: the other receipts, for which the claim is false (`csv_semicolon_breaks`,
`csv_whitespace_lost`). -/
theorem csv_round_trip_partial {r : Receipt} {alg : Str} (h : Parsed r alg)
    (h1 : ';' ∉ r.registerId) (h2 : ';' ∉ r.receiptId)
    (hsp : ∀ s ∈ [r.zda, r.registerId, r.receiptId, r.dateTimeStr, r.sumAStr, r.sumBStr, r.sumCStr,
      r.sumDStr, r.sumEStr, r.encTurnoverCounter, r.certSerial, r.previousChain], NoOuterSpace s) :
    ∃ row sig, r.toCSV alg = .ok row ∧ b64Decode true (restorePad r.signature) = some sig ∧
      fromCSV row = .ok ({ r with signature := b64Text true sig }, alg) := by
  obtain ⟨g, rfl⟩ := h.good
  obtain ⟨sb, hsb⟩ := Option.isSome_iff_exists.mp g.sig
  obtain ⟨tc, htc, -⟩ := g.init.tc
  obtain ⟨cv, hcv, -⟩ := g.chain
  have hsum : ∀ {s x}, getReceiptFloat s = some x → ';' ∉ s := by
    intro s x h
    simp only [getReceiptFloat, Option.map_eq_some_iff] at h
    obtain ⟨n, h, -⟩ := h
    exact not_mem_parseCents h plain_semicolon (by decide) (by decide) (by decide)
  obtain ⟨row, e1, e2⟩ := fromCSV_toCSV g hsb
    (by
      intro s hs
      simp only [Fields.segs, List.mem_cons, List.not_mem_nil, or_false] at hs
      rcases hs with rfl | rfl | rfl | rfl | rfl | rfl | rfl | rfl | rfl | rfl | rfl | rfl
      · exact not_mem_matchZda g.init.zda plain_semicolon (by decide) (by decide) (by decide)
      · exact h1
      · exact h2
      · exact not_mem_strptime g.init.dateTime plain_semicolon (by decide) (by decide) (by decide)
          (by decide)
      · exact hsum g.init.sumA
      · exact hsum g.init.sumB
      · exact hsum g.init.sumC
      · exact hsum g.init.sumD
      · exact hsum g.init.sumE
      · exact not_mem_of_b64Decode htc (not_isB64_semi false) (by decide) (by decide)
      · exact semicolon_not_mem_serial g.init.serialNe
      · exact not_mem_of_b64Decode hcv (not_isB64_semi false) (by decide) (by decide))
    (by
      intro s hs
      rcases List.mem_cons.mp hs with rfl | hs
      · apply pyStrip_of_noOuterSpace
        have hz := hsp r.zda (by simp)
        constructor
        · intro c hc
          simp [R1] at hc; subst hc
          rw [PyEnv.isSpace_ascii (by decide)]; decide
        · intro c hc
          apply hz.2
          have hzne : r.zda ≠ [] := by
            intro h0; have := g.init.zda; rw [h0] at this; simp [matchZda, stripNl, AT0] at this
          rw [List.getLast?_append_of_ne_nil _ (by simp)] at hc
          rw [List.getLast?_cons_of_ne_nil hzne] at hc
          exact hc
      · apply pyStrip_of_noOuterSpace
        apply hsp
        simp only [Fields.segs, List.mem_cons, List.not_mem_nil, or_false] at hs ⊢
        exact Or.inr hs)
    (pyStrip_of_noOuterSpace (b64Encode_noOuterSpace _ _))
  exact ⟨row, sb, e1, hsb, e2⟩

omit [PyEnv] in
theorem splitOn_length (c : Char) (s : Str) : (splitOn c s).length = s.count c + 1 := by
  induction s with
  | nil => simp [splitOn]
  | cons x xs ih =>
    rw [List.count_cons]
    simp only [splitOn]
    split
    · rename_i hx; subst hx; simp [ih]
    · rename_i hx
      have : (x == c) = false := by simpa using hx
      simp only [this]
      split
      · rename_i he; exact absurd he (splitOn_ne_nil c xs)
      · rename_i y ys he; rw [he] at ih; simpa using ih

omit [PyEnv] in
theorem count_replaceChar {a b : Char} (h : a ≠ b) (s : Str) :
    (replaceChar a b s).count b = s.count a + s.count b := by
  induction s with
  | nil => rfl
  | cons x xs ih =>
    simp only [replaceChar, List.map_cons] at ih ⊢
    rw [List.count_cons, List.count_cons, List.count_cons, ih]
    by_cases hx : x = a
    · subst hx; simp [h]; omega
    · simp [hx]; omega

omit [PyEnv] in
theorem joinWith_count_le (c : Char) (ss : List Str) : ss.length ≤ (joinWith c ss).count c + 1 := by
  induction ss with
  | nil => simp
  | cons s t ih =>
    cases t with
    | nil => simp
    | cons u v =>
      simp only [joinWith, List.length_cons] at ih ⊢
      rw [List.count_append, List.count_cons_self]
      omega

/-- C05: a semicolon in the register ID or receipt ID makes the own CSV row unreadable. -/
theorem csv_semicolon_breaks {r : Receipt} {alg : Str} (h : Parsed r alg)
    (hs : ';' ∈ r.registerId ∨ ';' ∈ r.receiptId) :
    ∃ row, r.toCSV alg = .ok row ∧ fromCSV row = .error .malformedReceipt := by
  obtain ⟨g, rfl⟩ := h.good
  obtain ⟨sb, hsb⟩ := Option.isSome_iff_exists.mp g.sig
  simp only [Receipt.toCSV, toBasic_eq hsb, Res.ok_bind]
  refine ⟨_, rfl, ?_⟩
  generalize hrow : replaceChar '_' ';' _ = row
  have hc : 14 ≤ (splitOn ';' row).length := by
    rw [splitOn_length, ← hrow, count_replaceChar (by decide)]
    have e1 : (r.toPayload R1 ++ '_' :: b64Encode false sb).drop 1 =
        joinWith '_' ((R1 ++ '-' :: r.zda) :: (r.segs ++ [b64Encode false sb])) := by
      simp [toPayload_eq, Fields.segs, joinWith]
    rw [e1]
    have h1 := joinWith_count_le '_' ((R1 ++ '-' :: r.zda) :: (r.segs ++ [b64Encode false sb]))
    have h2 : 0 < (joinWith '_' ((R1 ++ '-' :: r.zda) :: (r.segs ++ [b64Encode false sb]))).count ';' := by
      rw [List.count_pos_iff]
      simp only [Fields.segs, List.cons_append, List.nil_append, joinWith, List.mem_append,
        List.mem_cons]
      rcases hs with hs | hs <;> simp [hs]
    have hl : r.segs.length = 11 := rfl
    simp only [List.length_cons, List.length_append, List.length_nil, hl] at h1
    omega
  unfold fromCSV fromBasic
  split
  · rename_i hsp
    exfalso
    have h1 := joinWith_count_le '_' ([] :: ((splitOn ';' row).map pyStrip))
    have h2 := splitOn_length '_' ('_' :: joinWith '_' ((splitOn ';' row).map pyStrip))
    have h3 : joinWith '_' ([] :: ((splitOn ';' row).map pyStrip)) =
        '_' :: joinWith '_' ((splitOn ';' row).map pyStrip) := by
      cases hq : (splitOn ';' row).map pyStrip with
      | nil => simp at hq; exact absurd hq (splitOn_ne_nil _ _)
      | cons a b => rfl
    rw [h3] at h1
    rw [hsp] at h2
    simp only [List.length_cons, List.length_map, List.length_nil] at h1 h2
    omega
  · rfl

/-! ### C10 -/

theorem init_unique {f : Fields} {d d' : Draft} (h : InitOk f d) (h' : InitOk f d') : d = d' := by
  have h1 := init_eq_ok.mpr h
  have h2 := init_eq_ok.mpr h'
  rw [h1] at h2
  cases h2; rfl

/-- C10: parsed receipts with the same payload text agree on all fields and their values. -/
theorem payload_unambiguous {r r' : Receipt} {alg alg' : Str} (h : Parsed r alg) (h' : Parsed r' alg')
    (e : r.toPayload alg = r'.toPayload alg') : r.toDraft = r'.toDraft ∧ alg = alg' := by
  obtain ⟨g, rfl⟩ := h.good
  obtain ⟨g', rfl⟩ := h'.good
  refine ⟨?_, rfl⟩
  have h1 := g.init.split_payload g.serial
  rw [e, g'.init.split_payload g'.serial] at h1
  simp only [Fields.segs, List.cons.injEq, List.append_cancel_left_eq, true_and, and_true] at h1
  have hf : r.toFields = r'.toFields := by
    cases hr : r.toFields; cases hr' : r'.toFields
    simp_all
  have hi := g.init
  rw [hf] at hi
  exact init_unique hi g'.init

/-- C10: parsed receipts with the same JWS text are the same receipt. -/
theorem jws_unambiguous {r r' : Receipt} {alg alg' : Str} (h : Parsed r alg) (h' : Parsed r' alg')
    (e : r.toJWS alg = r'.toJWS alg') : r = r' ∧ alg = alg' := by
  have h1 := jws_object_round_trip h
  rw [e, jws_object_round_trip h'] at h1
  simp only [Except.ok.injEq, Prod.mk.injEq] at h1
  exact ⟨h1.1.symm, h1.2.symm⟩

end

/-! ### Concrete cases -/

namespace Demo

attribute [local instance] env

/-- There is a receipt that meets the hypotheses of all theorems of this file. -/
example : Parsed receipt R1 ∧ ';' ∉ receipt.registerId ∧ ';' ∉ receipt.receiptId ∧
    b64Decode false receipt.encTurnoverCounter ≠ some [] ∧ CanonicalB64 receipt.signature :=
  ⟨receipt_parsed, by decide, by decide, by decide, [1, 2, 3], by decide⟩

example : ∀ s ∈ [receipt.zda, receipt.registerId, receipt.receiptId, receipt.dateTimeStr,
    receipt.sumAStr, receipt.sumBStr, receipt.sumCStr, receipt.sumDStr, receipt.sumEStr,
    receipt.encTurnoverCounter, receipt.certSerial, receipt.previousChain], NoOuterSpace s := by
  intro s hs
  simp only [receipt, fields, List.mem_cons, List.not_mem_nil, or_false] at hs
  rcases hs with rfl | rfl | rfl | rfl | rfl | rfl | rfl | rfl | rfl | rfl | rfl | rfl <;>
    exact ⟨by intro c h; cases h; decide, by intro c h; cases h; decide⟩

/-- A receipt with a semicolon in its ID. -/
example : ∃ r, Parsed r R1 ∧ ';' ∈ r.receiptId :=
  ⟨_, .basic c!"_R1-AT1_reg_a;b_2020-01-02T03:04:05_0,00_0,00_0,00_0,00_-0,00_AAAAAAA=_1f-k_AAAAAAAAAAA=_AQID"
    rfl, by decide⟩

/-- A receipt with an empty counter. -/
example : ∃ r, Parsed r R1 ∧ b64Decode false r.encTurnoverCounter = some [] :=
  ⟨_, .basic c!"_R1-AT1_reg_a_2020-01-02T03:04:05_0,00_0,00_0,00_0,00_-0,00_=\n_1f-k_AAAAAAAAAAA=_AQID"
    rfl, by decide⟩

/-- C05: white space at the end of a receipt ID is lost in the CSV format. -/
theorem csv_whitespace_lost : ∃ r row r', Parsed r R1 ∧ r.toCSV R1 = .ok row ∧
    fromCSV row = .ok (r', R1) ∧ r'.receiptId ≠ r.receiptId :=
  ⟨_, _, _, .basic c!"_R1-AT1_reg_a _2020-01-02T03:04:05_0,00_0,00_0,00_0,00_-0,00_AAAAAAA=_1f-k_AAAAAAAAAAA=_AQID"
    rfl, rfl, rfl, by decide⟩

/-- C03: a non-canonical signature text (its last character has unused bits set) is not
reproduced by the QR format. -/
theorem qr_signature_changes : ∃ r code r', Parsed r R1 ∧ r.toBasic R1 = .ok code ∧
    fromBasic code = .ok (r', R1) ∧ r' ≠ r :=
  ⟨{ receipt with signature := c!"AQIDBB" },
   receipt.toPayload R1 ++ c!"_AQIDBA==", { receipt with signature := c!"AQIDBA" },
   .jws (joinWith '.' [encodeSeg jwsHeader, encodeSeg (receipt.toPayload R1), c!"AQIDBB"])
    (by decide +kernel), by decide +kernel, by decide +kernel, by decide +kernel⟩

end Demo

end RKSV
