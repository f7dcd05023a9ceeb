import Verif.Lemmas.Receipt
/-
Helper lemmas: the text formats read back what was written.
-/
namespace RKSV

section
variable [PyEnv]

theorem good_of_basic {s : Str} {r : Receipt} {alg : Str} (h : fromBasic s = .ok (r, alg)) :
    Good r ∧ alg = R1 ∧ ∃ sb sg, b64Decode false sg = some sb ∧ r.signature = b64Text true sb ∧
      s = r.toPayload alg ++ '_' :: sg := by
  unfold fromBasic at h
  split at h
  swap; · cases h
  rename_i s0 algZda registerId receiptId dateTimeStr sumAStr sumBStr sumCStr sumDStr sumEStr tc cs pc sg hus
  simp only [Res.bind_eq_ok, ensure_eq_ok] at h
  obtain ⟨_, hs0, h⟩ := h
  split at h
  swap; · cases h
  rename_i a z haz
  simp only [Res.bind_eq_ok, ensure_eq_ok, orErr_eq_ok, init_eq_ok, sign_eq_ok] at h
  obtain ⟨_, hma, _, hk, sb, hsb, _, htc, d, hd, r', ⟨hs1, hs2, hr'⟩, cv, hcv, _, hcl, heq⟩ := h
  simp only [Except.ok.injEq, Prod.mk.injEq] at heq
  obtain ⟨rfl, rfl⟩ := heq
  cases hk
  cases hs0
  subst hr'
  have hf := hd.fields
  refine ⟨⟨?_, hs1, hs2, rfl, ?_, ?_, ?_⟩, rfl, sb, sg, hsb, ?_, ?_⟩
  · show InitOk d.toFields d
    rw [hf]; exact hd
  · show '_' ∉ d.toFields.certSerial
    rw [hf]
    exact splitOn_cons_ne hus _ (by simp)
  · show removeChar '=' d.toFields.encTurnoverCounter ≠ []
    rw [hf]; exact htc
  · show ∃ cv, b64Decode false d.toFields.previousChain = some cv ∧ _
    rw [hf]; exact ⟨cv, hcv, hcl⟩
  · exact removeChar_b64Encode true sb
  · have e1 := joinWith_splitOn '_' s
    have e2 := joinWith_splitOn '-' algZda
    rw [hus] at e1
    rw [haz] at e2
    rw [← e1, ← e2]
    show _ = d.toFields.toPayload _ ++ _
    rw [hf]
    simp [Fields.toPayload, joinWith, R1]

theorem good_of_ocr {v : PyVersion} {s : Str} {r : Receipt} {alg : Str}
    (h : fromOCR v s = .ok (r, alg)) : ∃ t, fromBasic t = .ok (r, alg) := by
  unfold fromOCR at h
  split at h
  · simp only [Res.bind_eq_ok] at h
    obtain ⟨_, _, _, _, _, _, _, _, h⟩ := h
    exact ⟨_, h⟩
  · cases h

theorem Parsed.good {r : Receipt} {alg : Str} (h : Parsed r alg) : Good r ∧ alg = R1 := by
  cases h with
  | jws s h => exact ⟨(good_of_jws h).1, (good_of_jws h).2.1⟩
  | basic s h => exact ⟨(good_of_basic h).1, (good_of_basic h).2.1⟩
  | ocr v s h =>
    obtain ⟨t, h⟩ := good_of_ocr h
    exact ⟨(good_of_basic h).1, (good_of_basic h).2.1⟩
  | csv s h => exact ⟨(good_of_basic h).1, (good_of_basic h).2.1⟩

/-- The segments of the payload text. -/
def Fields.segs (r : Fields) : List Str :=
  [r.registerId, r.receiptId, r.dateTimeStr, r.sumAStr, r.sumBStr, r.sumCStr, r.sumDStr, r.sumEStr,
    r.encTurnoverCounter, r.certSerial, r.previousChain]

omit [PyEnv] in
theorem toPayload_eq (r : Fields) (alg : Str) :
    r.toPayload alg = joinWith '_' ([] :: (alg ++ '-' :: r.zda) :: r.segs) := by
  simp [Fields.toPayload, Fields.segs, joinWith]

theorem not_mem_sum {s : Str} {x : F64} (h : getReceiptFloat s = some x) : '_' ∉ s := by
  simp only [getReceiptFloat, Option.map_eq_some_iff] at h
  obtain ⟨n, h, -⟩ := h
  exact not_mem_parseCents h plain_underscore (by decide) (by decide) (by decide)

theorem InitOk.segs {f : Fields} {d : Draft} (h : InitOk f d) (hc : '_' ∉ f.certSerial) :
    ∀ s ∈ (R1 ++ '-' :: f.zda) :: f.segs, '_' ∉ s := by
  intro s hs
  obtain ⟨b, hb, -⟩ := h.tc
  obtain ⟨cv, hcv⟩ := Option.isSome_iff_exists.mp h.chain
  simp only [Fields.segs, List.mem_cons, List.not_mem_nil, or_false] at hs
  rcases hs with rfl | rfl | rfl | rfl | rfl | rfl | rfl | rfl | rfl | rfl | rfl | rfl
  · have := not_mem_matchZda h.zda plain_underscore (by decide) (by decide) (by decide)
    simp [R1, this]
  · exact h.registerId'
  · exact h.receiptId'
  · exact not_mem_strptime h.dateTime plain_underscore (by decide) (by decide) (by decide) (by decide)
  · exact not_mem_sum h.sumA
  · exact not_mem_sum h.sumB
  · exact not_mem_sum h.sumC
  · exact not_mem_sum h.sumD
  · exact not_mem_sum h.sumE
  · exact not_mem_of_b64Decode hb not_isB64_under (by decide) (by decide)
  · exact hc
  · exact not_mem_of_b64Decode hcv not_isB64_under (by decide) (by decide)

theorem InitOk.split_payload {f : Fields} {d : Draft} (h : InitOk f d) (hc : '_' ∉ f.certSerial) :
    splitOn '_' (f.toPayload R1) = [] :: (R1 ++ '-' :: f.zda) :: f.segs := by
  rw [toPayload_eq]
  apply splitOn_joinWith (by simp)
  intro s hs
  rcases List.mem_cons.mp hs with rfl | hs
  · simp
  · exact h.segs hc s hs

theorem plain_minus : Plain '-' := by
  refine ⟨?_, by decide, by decide⟩
  rw [PyEnv.digitVal_ascii (by decide)]; decide

theorem InitOk.split_zda {f : Fields} {d : Draft} (h : InitOk f d) :
    splitOn '-' (R1 ++ '-' :: f.zda) = [R1, f.zda] := by
  rw [splitOn_append_sep (by decide)]
  rw [splitOn_eq_singleton]
  exact not_mem_matchZda h.zda plain_minus (by decide) (by decide) (by decide)

omit [PyEnv] in
theorem decodeSeg_encodeSeg (s : Str) : decodeSeg (encodeSeg s) = some s := by
  unfold decodeSeg encodeSeg
  rw [removeChar_b64Encode, b64Decode_restorePad]
  exact utf8Dec_enc s

omit [PyEnv] in
theorem encodeSeg_eq (s : Str) : encodeSeg s = b64Text true (utf8Enc s) := removeChar_b64Encode _ _

omit [PyEnv] in
theorem not_dot_encodeSeg (s : Str) : '.' ∉ encodeSeg s := by
  rw [encodeSeg_eq]; exact not_mem_b64Text (not_isB64_dot true)

omit [PyEnv] in
theorem not_eq_encodeSeg (s : Str) : endsWithChar '=' (encodeSeg s) = false := by
  rw [encodeSeg_eq]; exact endsWithChar_false_of_not_mem (not_mem_b64Text (not_isB64_eq true))

theorem Good.not_dot_sig {r : Receipt} (g : Good r) : '.' ∉ r.signature := by
  obtain ⟨b, hb⟩ := Option.isSome_iff_exists.mp g.sig
  exact not_mem_of_b64Decode_restorePad hb (not_isB64_dot true) (by decide) (by decide)

theorem Good.split_jws {r : Receipt} (g : Good r) (alg : Str) :
    splitOn '.' (r.toJWS alg) = [encodeSeg r.header, encodeSeg (r.toPayload alg), r.signature] := by
  unfold Receipt.toJWS
  apply splitOn_joinWith (by simp)
  intro s hs
  simp only [List.mem_cons, List.not_mem_nil, or_false] at hs
  rcases hs with rfl | rfl | rfl
  · exact not_dot_encodeSeg _
  · exact not_dot_encodeSeg _
  · exact g.not_dot_sig

theorem matchAlg_R1 : matchAlg R1 = true := rfl

theorem fromJWS_toJWS {r : Receipt} (g : Good r) : fromJWS (r.toJWS R1) = .ok (r, R1) := by
  obtain ⟨cv, hcv, hcl⟩ := g.chain
  unfold fromJWS
  rw [g.split_jws]
  simp only [not_eq_encodeSeg, g.sigPad, decodeSeg_encodeSeg, orErr, ensure, Res.ok_bind]
  rw [g.init.split_payload g.serial]
  simp only [Fields.segs]
  rw [g.init.split_zda]
  have e1 := init_eq_ok.mpr g.init
  have e2 := sign_eq_ok.mpr ⟨g.sigPad, g.sig, (rfl : (⟨r.toDraft, r.header, r.signature⟩ : Receipt) = _)⟩
  simp only [matchAlg_R1, knownAlg, g.header, g.tc, e1, Res.ok_bind, ne_eq, not_false_iff]
  rw [g.header] at e2
  rw [e2]
  simp only [Res.ok_bind, hcv, hcl, chainBytes]
  simp [Res.ok_bind, ← g.header]

theorem fromBasic_write {r : Receipt} (g : Good r) (sb : Bytes) :
    fromBasic (r.toPayload R1 ++ '_' :: b64Encode false sb) =
      .ok ({ r with signature := b64Text true sb }, R1) := by
  obtain ⟨cv, hcv, hcl⟩ := g.chain
  unfold fromBasic
  have hsp : splitOn '_' (r.toPayload R1 ++ '_' :: b64Encode false sb) =
      ([] :: (R1 ++ '-' :: r.zda) :: r.segs) ++ [b64Encode false sb] := by
    have : r.toPayload R1 ++ '_' :: b64Encode false sb =
        joinWith '_' (([] :: (R1 ++ '-' :: r.zda) :: r.segs) ++ [b64Encode false sb]) := by
      simp [toPayload_eq, Fields.segs, joinWith]
    rw [this]
    apply splitOn_joinWith (by simp)
    intro s hs
    rcases List.mem_append.mp hs with hs | hs
    · rcases List.mem_cons.mp hs with rfl | hs
      · simp
      · exact g.init.segs g.serial s hs
    · simp only [List.mem_singleton] at hs
      subst hs
      exact not_mem_of_b64Decode (b64Decode_encode false sb) not_isB64_under (by decide) (by decide)
  rw [hsp]
  simp only [Fields.segs, List.cons_append, List.nil_append, ensure]
  rw [g.init.split_zda]
  have e1 := init_eq_ok.mpr g.init
  have e2 := sign_eq_ok.mpr ⟨endsWithChar_false_of_not_mem (not_mem_b64Text (not_isB64_eq true)),
    (by rw [b64Decode_restorePad]; rfl : (b64Decode true (restorePad (b64Text true sb))).isSome),
    (rfl : (⟨r.toDraft, jwsHeader, b64Text true sb⟩ : Receipt) = _)⟩
  simp only [matchAlg_R1, knownAlg, g.tc, e1, Res.ok_bind, ne_eq, not_false_iff, b64Decode_encode,
    removeChar_b64Encode, orErr, if_true]
  rw [e2]
  simp only [Res.ok_bind, hcv, hcl, chainBytes]
  simp [Res.ok_bind, ← g.header]


omit [PyEnv] in
theorem toBasic_eq {r : Receipt} {sb : Bytes}
    (h : b64Decode true (restorePad r.signature) = some sb) (alg : Str) :
    r.toBasic alg = .ok (r.toPayload alg ++ '_' :: b64Encode false sb) := by
  simp [Receipt.toBasic, h, orErr, Res.ok_bind]

/-! ### OCR -/

omit [PyEnv] in
theorem Fields.isDummy_congr {f g : Fields}
    (h : b64Decode false f.encTurnoverCounter = b64Decode false g.encTurnoverCounter) :
    f.isDummy = g.isDummy := by simp [Fields.isDummy, h]

omit [PyEnv] in
theorem Fields.isReversal_congr {f g : Fields}
    (h : b64Decode false f.encTurnoverCounter = b64Decode false g.encTurnoverCounter) :
    f.isReversal = g.isReversal := by simp [Fields.isReversal, h]

/-- Replacing the counter and chaining texts by the canonical ones keeps a receipt good. -/
theorem Good.canon {r : Receipt} (g : Good r) {tc cv : Bytes}
    (htc : b64Decode false r.encTurnoverCounter = some tc)
    (hcv : b64Decode false r.previousChain = some cv) (hne : tc ≠ []) :
    Good { r with encTurnoverCounter := b64Encode false tc, previousChain := b64Encode false cv } := by
  have hd1 : b64Decode false (b64Encode false tc) = b64Decode false r.encTurnoverCounter := by
    rw [b64Decode_encode, htc]
  obtain ⟨tc', htc', hlen⟩ := g.init.tc
  obtain ⟨cv', hcv', hcl⟩ := g.chain
  rw [htc] at htc'; cases htc'
  rw [hcv] at hcv'; cases hcv'
  refine ⟨⟨rfl, g.init.receiptId, g.init.receiptId', g.init.zda, g.init.registerId, g.init.registerId',
    g.init.dateTime, g.init.sumA, g.init.sumB, g.init.sumC, g.init.sumD, g.init.sumE, g.init.serialNe,
    g.init.provider, ?_, tc, b64Decode_encode _ _, ?_⟩, g.sigPad, g.sig, g.header, g.serial, ?_, cv,
    b64Decode_encode _ _, hcl⟩
  · rw [b64Decode_encode]; rfl
  · intro h
    have := hlen h
    rw [Fields.isDummy_congr (g := r.toFields) hd1, Fields.isReversal_congr (g := r.toFields) hd1]
    exact this
  · show removeChar '=' (b64Encode false tc) ≠ []
    rw [removeChar_b64Encode]
    intro h
    apply hne
    apply b64Text_injective (url := false)
    rw [h]; rfl

theorem fromOCR_toOCR {r : Receipt} (g : Good r) {tc cv sb : Bytes}
    (htc : b64Decode false r.encTurnoverCounter = some tc)
    (hcv : b64Decode false r.previousChain = some cv)
    (hsb : b64Decode true (restorePad r.signature) = some sb) (hne : tc ≠ []) :
    ∃ code, r.toOCR R1 = .ok code ∧
      fromOCR .py2 code = .ok ({ r with encTurnoverCounter := b64Encode false tc,
                                        previousChain := b64Encode false cv,
                                        signature := b64Text true sb }, R1) ∧
      fromOCR .py3 code = .error .attributeError := by
  have hseg := g.init.segs g.serial
  simp only [Receipt.toOCR, htc, hcv, hsb, orErr, Res.ok_bind]
  refine ⟨_, rfl, ?_⟩
  have hsp : splitOn '_' (joinWith '_' [ '_' :: R1 ++ '-' :: r.zda, r.registerId, r.receiptId,
      r.dateTimeStr, r.sumAStr, r.sumBStr, r.sumCStr, r.sumDStr, r.sumEStr, b32Encode tc, r.certSerial,
      b32Encode cv, b32Encode sb ]) = [[], R1 ++ '-' :: r.zda, r.registerId, r.receiptId,
      r.dateTimeStr, r.sumAStr, r.sumBStr, r.sumCStr, r.sumDStr, r.sumEStr, b32Encode tc, r.certSerial,
      b32Encode cv, b32Encode sb ] := by
    have : ∀ l : List Str, joinWith '_' (('_' :: R1 ++ '-' :: r.zda) :: l) =
        joinWith '_' ([] :: (R1 ++ '-' :: r.zda) :: l) := by
      intro l; cases l <;> simp [joinWith]
    rw [this]
    apply splitOn_joinWith (by simp)
    intro s hs
    have h32 : ∀ b, '_' ∉ b32Encode b := fun b => not_mem_b32Encode (by decide) (by decide)
    simp only [List.mem_cons, List.not_mem_nil, or_false] at hs
    rcases hs with rfl | rfl | rfl | rfl | rfl | rfl | rfl | rfl | rfl | rfl | rfl | rfl | rfl | rfl
    · simp
    all_goals first
      | exact h32 _
      | (apply hseg; simp [Fields.segs])
  have hgood := fromBasic_write (g.canon htc hcv hne) sb
  constructor
  · unfold fromOCR
    rw [hsp]
    simp only [b32DecodeText, b32Decode_encode, orErr, Res.ok_bind, ensure]
    rw [← hgood]
    simp [toPayload_eq, Fields.segs, joinWith, Res.ok_bind]
  · unfold fromOCR
    rw [hsp]
    simp [b32DecodeText, ensure, Res.ok_bind, Res.error_bind]

/-! ### CSV -/

omit [PyEnv] in
theorem replaceChar_of_not_mem {a b : Char} {s : Str} (h : a ∉ s) : replaceChar a b s = s := by
  unfold replaceChar
  conv_rhs => rw [← List.map_id s]
  apply List.map_congr_left
  intro c hc
  rw [if_neg]; · rfl
  rintro rfl; exact h hc

omit [PyEnv] in
theorem replaceChar_append (a b : Char) (s t : Str) :
    replaceChar a b (s ++ t) = replaceChar a b s ++ replaceChar a b t := by
  simp [replaceChar]

omit [PyEnv] in
theorem replaceChar_joinWith {a b : Char} {ss : List Str} (h : ∀ s ∈ ss, a ∉ s) :
    replaceChar a b (joinWith a ss) = joinWith b ss := by
  induction ss with
  | nil => rfl
  | cons s t ih =>
    cases t with
    | nil => simpa [joinWith] using replaceChar_of_not_mem (h s (by simp))
    | cons u v =>
      simp only [joinWith] at ih ⊢
      rw [replaceChar_append, replaceChar_of_not_mem (h s (by simp))]
      have := ih (fun s hs => h s (List.mem_cons_of_mem _ hs))
      simp only [replaceChar, List.map_cons, if_true] at this ⊢
      rw [this]

theorem fromCSV_toCSV {r : Receipt} (g : Good r) {sb : Bytes}
    (hsb : b64Decode true (restorePad r.signature) = some sb)
    (hsemi : ∀ s ∈ r.zda :: r.segs, ';' ∉ s)
    (hsp : ∀ s ∈ (R1 ++ '-' :: r.zda) :: r.segs, pyStrip s = s)
    (hsp' : pyStrip (b64Encode false sb) = b64Encode false sb) :
    ∃ code, r.toCSV R1 = .ok code ∧
      fromCSV code = .ok ({ r with signature := b64Text true sb }, R1) := by
  have hseg := g.init.segs g.serial
  simp only [Receipt.toCSV, toBasic_eq hsb, Res.ok_bind]
  refine ⟨_, rfl, ?_⟩
  have e1 : (r.toPayload R1 ++ '_' :: b64Encode false sb).drop 1 =
      joinWith '_' ((R1 ++ '-' :: r.zda) :: (r.segs ++ [b64Encode false sb])) := by
    simp [toPayload_eq, Fields.segs, joinWith]
  have hu : ∀ s ∈ (R1 ++ '-' :: r.zda) :: (r.segs ++ [b64Encode false sb]), '_' ∉ s := by
    intro s hs
    rw [← List.cons_append, List.mem_append] at hs
    rcases hs with hs | hs
    · exact hseg s hs
    · simp only [List.mem_singleton] at hs
      subst hs
      exact not_mem_of_b64Decode (b64Decode_encode false sb) not_isB64_under (by decide) (by decide)
  rw [e1, replaceChar_joinWith hu]
  unfold fromCSV
  rw [splitOn_joinWith (by simp)]
  · rw [← fromBasic_write g sb]
    have : ((R1 ++ '-' :: r.zda) :: (r.segs ++ [b64Encode false sb])).map pyStrip =
        (R1 ++ '-' :: r.zda) :: (r.segs ++ [b64Encode false sb]) := by
      conv_rhs => rw [← List.map_id ((R1 ++ '-' :: r.zda) :: (r.segs ++ [b64Encode false sb]))]
      apply List.map_congr_left
      intro s hs
      rw [← List.cons_append, List.mem_append] at hs
      rcases hs with hs | hs
      · exact hsp s hs
      · simp only [List.mem_singleton] at hs
        subst hs; exact hsp'
    rw [this]
    congr 1
    simp [toPayload_eq, Fields.segs, joinWith]
  · intro s hs
    rw [← List.cons_append, List.mem_append] at hs
    rcases hs with hs | hs
    · rcases List.mem_cons.mp hs with rfl | hs
      · have := hsemi r.zda (by simp)
        simp [R1, this]
      · exact hsemi s (by simp [hs])
    · simp only [List.mem_singleton] at hs
      subst hs
      exact not_mem_of_b64Decode (b64Decode_encode false sb) (not_isB64_semi false) (by decide) (by decide)

/-! ### Errors -/

theorem fromBasic_error {s : Str} {e : Err} (h : fromBasic s = .error e) : ReceiptErr e := by
  unfold fromBasic at h
  split at h
  swap; · cases h; constructor
  simp only [Res.bind_eq_error, ensure_eq_error] at h
  rcases h with ⟨_, rfl⟩ | ⟨_, _, h⟩
  · constructor
  split at h
  swap; · cases h; constructor
  simp only [Res.bind_eq_error, ensure_eq_error, orErr_eq_error, ensure_eq_ok, orErr_eq_ok] at h
  rcases h with ⟨_, rfl⟩ | ⟨_, _, h⟩
  · constructor
  rcases h with ⟨_, rfl⟩ | ⟨_, _, h⟩
  · constructor
  rcases h with ⟨_, rfl⟩ | ⟨sb, _, h⟩
  · constructor
  rcases h with ⟨_, rfl⟩ | ⟨_, _, h⟩
  · constructor
  rcases h with h | ⟨d, hd, h⟩
  · exact init_eq_error h
  rcases h with h | ⟨r, hr, h⟩
  · simp only [Draft.sign, Res.bind_eq_error, ensure_eq_error, orErr_eq_error] at h
    rcases h with ⟨_, rfl⟩ | ⟨_, _, ⟨_, rfl⟩ | ⟨_, _, h⟩⟩
    · constructor
    · constructor
    · cases h
  rcases h with ⟨h, rfl⟩ | ⟨cv, _, h⟩
  · have := (init_eq_ok.mp hd).chain
    simp only at this
    rw [h] at this; cases this
  rcases h with ⟨_, rfl⟩ | ⟨_, _, h⟩
  · constructor
  · cases h

theorem fromJWS_error {s : Str} {e : Err} (h : fromJWS s = .error e) : ReceiptErr e := by
  unfold fromJWS at h
  split at h
  swap; · cases h; constructor
  simp only [Res.bind_eq_error, ensure_eq_error, orErr_eq_error, ensure_eq_ok, orErr_eq_ok] at h
  rcases h with ⟨_, rfl⟩ | ⟨_, _, h⟩
  · constructor
  rcases h with ⟨_, rfl⟩ | ⟨_, _, h⟩
  · constructor
  rcases h with ⟨_, rfl⟩ | ⟨_, _, h⟩
  · constructor
  split at h
  swap; · cases h; constructor
  simp only [Res.bind_eq_error, ensure_eq_error] at h
  rcases h with ⟨_, rfl⟩ | ⟨_, _, h⟩
  · constructor
  split at h
  swap; · cases h; constructor
  simp only [Res.bind_eq_error, ensure_eq_error, orErr_eq_error, ensure_eq_ok, orErr_eq_ok] at h
  rcases h with ⟨_, rfl⟩ | ⟨_, _, h⟩
  · constructor
  rcases h with ⟨_, rfl⟩ | ⟨_, _, h⟩
  · constructor
  rcases h with ⟨_, rfl⟩ | ⟨_, _, h⟩
  · constructor
  rcases h with ⟨_, rfl⟩ | ⟨_, _, h⟩
  · constructor
  rcases h with h | ⟨d, hd, h⟩
  · exact init_eq_error h
  rcases h with h | ⟨r, hr, h⟩
  · simp only [Draft.sign, Res.bind_eq_error, ensure_eq_error, orErr_eq_error] at h
    rcases h with ⟨_, rfl⟩ | ⟨_, _, ⟨_, rfl⟩ | ⟨_, _, h⟩⟩
    · constructor
    · constructor
    · cases h
  rcases h with ⟨h, rfl⟩ | ⟨cv, _, h⟩
  · have := (init_eq_ok.mp hd).chain
    simp only at this
    rw [h] at this; cases this
  rcases h with ⟨_, rfl⟩ | ⟨_, _, h⟩
  · constructor
  · cases h

end

end RKSV
