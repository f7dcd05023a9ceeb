import Verif.Spec.CashReg
import Verif.Lemmas.VerifyGroup
import Verif.Lemmas.Sums
import Verif.Props.Counter
/-
The cash register: what a successful call of `receipt` did.
-/
namespace RKSV

section
variable [PyEnv]

/-- The fields of the receipt made for an order. -/
def Order.fields (o : Order) (registerId enc chain : Str) : Fields where
  zda := o.sys.zda
  registerId := registerId
  receiptId := o.receiptId
  dateTimeStr := strftime o.dateTime
  sumAStr := fmtSum o.sumA
  sumBStr := fmtSum o.sumB
  sumCStr := fmtSum o.sumC
  sumDStr := fmtSum o.sumD
  sumEStr := fmtSum o.sumE
  encTurnoverCounter := enc
  certSerial := o.sys.serial
  previousChain := chain

/-- A successful call. -/
structure Call (reg : CashRegister) (o : Order) (reg' : CashRegister) (r : Receipt) where
  alg : o.algorithm = R1
  draft0 : Draft
  hdraft : InitOk (o.fields reg.registerId [] []) draft0
  enc : Str
  henc : o.counterField { reg with counter := reg'.counter } = .ok enc
  book : o.book reg.counter = .ok reg'.counter
  draft : Draft
  draft_eq : draft = { draft0 with
    encTurnoverCounter := enc
    previousChain := b64Encode false (chainHash reg.registerId reg.last) }
  jws : Str
  hsign : o.sys.sign o.rand (draft.toPayload R1) = .ok jws
  htake : takeSignature draft jws = .ok r
  reg_eq : reg' = { reg with counter := reg'.counter, last := some jws }

theorem call_of_receipt {reg reg' : CashRegister} {o : Order} {r : Receipt}
    (h : reg.receipt o = (reg', .ok r)) : Nonempty (Call reg o reg' r) := by
  unfold CashRegister.receipt at h
  split at h
  · cases h
  rename_i d hd
  split at h
  · cases h
  rename_i n hn
  simp only at h
  split at h
  · cases h
  rename_i enc henc
  split at h
  · cases h
  rename_i jws hs
  simp only [Prod.mk.injEq] at h
  obtain ⟨rfl, h2⟩ := h
  simp only [Order.draft, Res.bind_eq_ok, ensure_eq_ok, knownAlg_iff] at hd
  obtain ⟨_, ha, hi⟩ := hd
  rw [ha] at hs
  exact ⟨⟨ha, d, init_eq_ok.mp hi, enc, henc, hn, _, rfl, jws, hs, h2, rfl⟩⟩

theorem chainHash_length (id : Str) (l : Option Str) : (chainHash id l).length = 8 := by
  unfold chainHash
  split
  · split <;> simp [algHash, PyEnv.sha256_length]
  · simp [algHash, PyEnv.sha256_length]

theorem chainHash_eq (reg : CashRegister) :
    b64Encode false (chainHash reg.registerId reg.last) = chainValue (chainedTo reg) := by
  unfold chainHash chainedTo chainValue algHash
  cases reg.last with
  | none => rfl
  | some t => by_cases h : t = [] <;> simp [h]

/-- What the counter field of a new receipt may be. -/
theorem counterField_ok {o : Order} {reg : CashRegister} {enc : Str}
    (h : o.counterField reg = .ok enc) : ∃ b, enc = b64Encode false b ∧
      ((o.dummy = true ∧ b = bTRA) ∨ (o.dummy = false ∧ o.reversal = true ∧ b = bSTO) ∨
        (o.dummy = false ∧ o.reversal = false ∧ reg.key.length = 32 ∧ b.length = reg.size ∧
          encryptCounter reg.registerId o.receiptId reg.counter reg.key reg.size = .ok b)) := by
  unfold Order.counterField at h
  split at h
  · rename_i hd; cases h; exact ⟨_, rfl, .inl ⟨hd, rfl⟩⟩
  rename_i hd
  split at h
  · rename_i hr; cases h; exact ⟨_, rfl, .inr (.inl ⟨by simpa using hd, hr, rfl⟩)⟩
  rename_i hr
  simp only [Res.bind_eq_ok, raiseForKey, ensure_eq_ok] at h
  obtain ⟨_, hk, b, hb, h⟩ := h
  cases h
  refine ⟨b, rfl, .inr (.inr ⟨by simpa using hd, by simpa using hr, hk, ?_, hb⟩)⟩
  simp only [encryptCounter, Res.bind_eq_ok, orErr_eq_ok] at hb
  obtain ⟨pt, hpt, hb⟩ := hb
  cases hb
  rw [aesCtr_length, (fromBytes_toBytes hpt).2]

theorem takeSignature_ok {d : Draft} {h p sig : Str} {r : Receipt} (hd : '.' ∉ sig)
    (ht : takeSignature d (joinWith '.' [encodeSeg h, encodeSeg p, sig]) = .ok r) :
    d.sign h sig = .ok r := by
  unfold takeSignature at ht
  rw [splitOn_joinWith (by simp)] at ht
  · simp only [Res.bind_eq_ok, orErr_eq_ok] at ht
    obtain ⟨hb, h1, hh, h2, h3⟩ := ht
    have := decodeSeg_encodeSeg h
    unfold decodeSeg at this
    rw [h1] at this
    simp only [Option.bind_some] at this
    rw [h2] at this
    cases this
    exact h3
  · intro s hs
    simp only [List.mem_cons, List.not_mem_nil, or_false] at hs
    rcases hs with rfl | rfl | rfl
    · exact not_dot_encodeSeg _
    · exact not_dot_encodeSeg _
    · exact hd

theorem takeSignature_draft {d : Draft} {jws : Str} {r : Receipt} (h : takeSignature d jws = .ok r) :
    r.toDraft = d := by
  unfold takeSignature at h
  split at h
  swap; · cases h
  simp only [Res.bind_eq_ok, orErr_eq_ok, sign_eq_ok] at h
  obtain ⟨_, _, _, _, _, _, rfl⟩ := h
  rfl

/-- The text a signature system returned, if it signed what it was asked to sign. -/
theorem Call.jws_eq {reg reg' : CashRegister} {o : Order} {r : Receipt} (c : Call reg o reg' r)
    (hs : ServiceSigned o.sys r) : ∃ sig, '.' ∉ sig ∧
      c.jws = joinWith '.' [encodeSeg jwsHeader, encodeSeg (c.draft.toPayload R1), sig] := by
  have hsign := c.hsign
  have hdr := takeSignature_draft c.htake
  have mark : '.' ∉ b64Text true failBytes := not_mem_b64Text (not_isB64_dot true)
  cases ho : o.sys with
  | broken z s => rw [ho] at hsign; exact ⟨_, mark, (Except.ok.inj hsign).symm⟩
  | working z s k =>
    rw [ho] at hsign
    exact ⟨_, not_mem_b64Text (not_isB64_dot true), (Except.ok.inj hsign).symm⟩
  | remote z s a ans =>
    rw [ho] at hsign
    cases ans with
    | none =>
      simp only [SigSystem.sign, Res.bind_eq_ok, ensure_eq_ok] at hsign
      obtain ⟨_, _, h⟩ := hsign
      exact ⟨_, mark, (Except.ok.inj h).symm⟩
    | some j =>
      simp only [SigSystem.sign, Res.bind_eq_ok, ensure_eq_ok] at hsign
      obtain ⟨_, _, h⟩ := hsign
      obtain ⟨sig, h1, h2⟩ := hs z s a _ ho
      refine ⟨sig, h1, ((Except.ok.inj h).symm.trans h2).trans ?_⟩
      rw [← hdr, encodeSeg_eq, encodeSeg_eq]
      simp [joinWith, jwsHeader, R1]

theorem Call.fields {reg reg' : CashRegister} {o : Order} {r : Receipt} (c : Call reg o reg' r) :
    r.toFields = o.fields reg.registerId c.enc (chainValue (chainedTo reg)) := by
  have h1 := takeSignature_draft c.htake
  have h2 := c.hdraft.fields
  have h3 : r.toFields = c.draft.toFields := by rw [h1]
  rw [h3, c.draft_eq, ← chainHash_eq]
  rcases hd : c.draft0 with ⟨f, dt, a1, a2, a3, a4, a5⟩
  rw [hd] at h2
  cases h2
  rfl

omit [PyEnv] in
theorem b64Text_ne_nil {b : Bytes} (h : b ≠ []) (url : Bool) : b64Text url b ≠ [] := by
  intro h0
  exact h (b64Text_injective (h0.trans (show [] = b64Text url [] by cases url <;> rfl)))

/-- The receipt is one the parsers would return, and the text kept for chaining is its JWS text. -/
theorem Call.good {reg reg' : CashRegister} {o : Order} {r : Receipt} (c : Call reg o reg' r)
    (hz : 5 ≤ reg.size ∧ reg.size ≤ 16) (hu : '_' ∉ o.sys.serial) (hs : ServiceSigned o.sys r) :
    Good r ∧ c.jws = r.toJWS R1 := by
  obtain ⟨sig, hsig, hj⟩ := c.jws_eq hs
  have ht := c.htake
  rw [hj] at ht
  obtain ⟨h1, h2, hr⟩ := sign_eq_ok.mp (takeSignature_ok hsig ht)
  have hr1 : r.toDraft = c.draft := takeSignature_draft c.htake
  have hr2 : r.header = jwsHeader := by rw [hr]
  have hr3 : r.signature = sig := by rw [hr]
  have hf := c.fields
  have hi := c.hdraft
  obtain ⟨b, hb, hcase⟩ := counterField_ok c.henc
  simp only at hcase
  have hd : b64Decode false c.enc = some b := by rw [hb, b64Decode_encode]
  have hne : b ≠ [] := by
    rcases hcase with ⟨_, rfl⟩ | ⟨_, _, rfl⟩ | ⟨_, _, _, hl, _⟩
    · decide
    · decide
    · intro h0; rw [h0] at hl; simp at hl; omega
  have hch : b64Decode false (chainValue (chainedTo reg)) = some (chainHash reg.registerId reg.last) := by
    rw [← chainHash_eq, b64Decode_encode]
  refine ⟨⟨?_, by rw [hr3]; exact h1, by rw [hr3]; exact h2, hr2, ?_, ?_, ?_⟩, ?_⟩
  · have e1 : r.dateTime = c.draft0.dateTime := by rw [hr1, c.draft_eq]
    have e2 : r.sumA = c.draft0.sumA := by rw [hr1, c.draft_eq]
    have e3 : r.sumB = c.draft0.sumB := by rw [hr1, c.draft_eq]
    have e4 : r.sumC = c.draft0.sumC := by rw [hr1, c.draft_eq]
    have e5 : r.sumD = c.draft0.sumD := by rw [hr1, c.draft_eq]
    have e6 : r.sumE = c.draft0.sumE := by rw [hr1, c.draft_eq]
    rw [hf]
    refine ⟨hf, hi.receiptId, hi.receiptId', hi.zda, hi.registerId, hi.registerId', ?_, ?_, ?_, ?_,
      ?_, ?_, hi.serialNe, hi.provider, ?_, b, hd, ?_⟩
    · rw [e1]; exact hi.dateTime
    · rw [e2]; exact hi.sumA
    · rw [e3]; exact hi.sumB
    · rw [e4]; exact hi.sumC
    · rw [e5]; exact hi.sumD
    · rw [e6]; exact hi.sumE
    · simp [Order.fields, hch]
    · rintro ⟨_, hl⟩
      rcases hcase with ⟨_, rfl⟩ | ⟨_, _, rfl⟩ | ⟨_, _, _, hl', _⟩
      · left; simp [Fields.isDummy, Order.fields, hd]
      · right; simp [Fields.isReversal, Order.fields, hd]
      · omega
  · rw [hf]; exact hu
  · rw [hf]
    simp only [Order.fields, hb, removeChar_b64Encode]
    exact b64Text_ne_nil hne _
  · rw [hf]
    exact ⟨_, hch, chainHash_length _ _⟩
  · rw [hj, ← hr1, Receipt.toJWS, hr2, hr3]

/-! ### Amounts -/

theorem digits_natDec (n : Nat) : decNum ((natDec n).filterMap digitVal) = n := by
  induction n using Nat.strong_induction_on with
  | _ n ih =>
    by_cases h : n < 10
    · rw [natDec_lt h]; simp [digitVal_dig h, decNum]
    · have hd : n % 10 < 10 := Nat.mod_lt _ (by omega)
      rw [natDec_ge (by omega), List.filterMap_append]
      have : [dig (n % 10)].filterMap digitVal = [n % 10] := by simp [digitVal_dig hd]
      rw [this, decNum_append, ih _ (by omega)]
      omega

theorem amountForm_natDec (n : Nat) : AmountForm (natDec (n / 100) ++ ',' :: pad2 (n % 100)) := by
  have h1 : n % 100 / 10 < 10 := by omega
  have h2 : n % 100 % 10 < 10 := by omega
  have s1 : (digitVal (dig (n % 100 / 10))).isSome := by rw [digitVal_dig h1]; rfl
  have s2 : (digitVal (dig (n % 100 % 10))).isSome := by rw [digitVal_dig h2]; rfl
  by_cases h : n / 100 < 10
  · rw [natDec_lt h]
    exact .short _ _ _ (by rw [digitVal_dig h]; rfl) s1 s2
  · obtain ⟨d, r, e, hd1, hd2⟩ := natDec_head (n := n / 100) (by omega)
    have hc := natDec_chars (n / 100)
    have hl : natDec (n / 100) = natDec (n / 100 / 10) ++ [dig (n / 100 % 10)] := natDec_ge (by omega)
    rw [e] at hc ⊢
    refine .long (dig d) r _ _ ?_ ?_ ?_ s1 s2
    · rw [char_le_iff, char_le_iff, dig_toNat hd2]
      have : '1'.toNat = 49 := rfl
      have : '9'.toNat = 57 := rfl
      omega
    · rintro rfl
      rw [e] at hl
      have := congrArg List.length hl
      have h0 := natDec_ne_nil (n / 100 / 10)
      simp at this
      exact h0 this
    · intro c hcr
      obtain ⟨m, hm, rfl⟩ := hc c (by simp [hcr])
      rw [digitVal_dig hm]; rfl

theorem digits_amount (n : Nat) :
    decNum ((natDec (n / 100) ++ ',' :: pad2 (n % 100)).filterMap digitVal) = n := by
  have h1 : n % 100 / 10 < 10 := by omega
  have h2 : n % 100 % 10 < 10 := by omega
  have : (natDec (n / 100) ++ ',' :: pad2 (n % 100)).filterMap digitVal =
      (natDec (n / 100)).filterMap digitVal ++ [n % 100 / 10] ++ [n % 100 % 10] := by
    simp [pad2, digitVal_comma, digitVal_dig h1, digitVal_dig (show n % 10 < 10 by omega)]
  rw [this, decNum_append, decNum_append, digits_natDec]
  omega

omit [PyEnv] in
theorem abs_cents {c : Int} (h : |c| ≤ 2 ^ 51) : |(c : ℚ)| ≤ 2 ^ 51 := by exact_mod_cast h

omit [PyEnv] in
theorem centsToF64_fin {c : Int} (h : |c| ≤ 2 ^ 51) : centsToF64 c = .fin (rnd (c / 100)) := by
  have h := abs_cents h
  unfold centsToF64
  apply toF64_fin
  apply le_two_pow_1000
  rw [abs_div, abs_of_pos (by norm_num : (0 : ℚ) < 100)]
  norm_num at h ⊢
  linarith

omit [PyEnv] in
theorem rnd_cents {c : Int} (h : |c| ≤ 2 ^ 51) : roundEven (rnd ((c : ℚ) / 100) * 100) = c := by
  have h := abs_cents h
  apply roundEven_eq_of_close
  have h1 := rnd_err ((c : ℚ) / 100)
  rw [abs_div, abs_of_pos (by norm_num : (0 : ℚ) < 100)] at h1
  have e : rnd ((c : ℚ) / 100) * 100 - c = (rnd ((c : ℚ) / 100) - c / 100) * 100 := by ring
  rw [e, abs_mul, abs_of_pos (by norm_num : (0 : ℚ) < 100)]
  unfold ulp at h1
  norm_num at h h1 ⊢
  linarith

omit [PyEnv] in
theorem rnd_neg_iff {q : ℚ} : rnd q < 0 ↔ q < 0 := by
  have h := rnd_err q
  have hu := ulp_lt
  rcases lt_trichotomy q 0 with hq | rfl | hq
  · simp only [hq, iff_true]
    rw [abs_of_neg hq] at h
    have := (abs_le.mp h).2
    nlinarith
  · simp [rnd_zero]
  · have : ¬q < 0 := by linarith
    simp only [this, iff_false, not_lt]
    rw [abs_of_pos hq] at h
    have := (abs_le.mp h).1
    nlinarith

/-- The text of an amount denotes the amount. -/
theorem fmtSum_cents {x : PyFloat} {c : Int} (h : InCents x c) :
    SumForm (fmtSum x) ∧ amountCents (fmtSum x) = c := by
  obtain ⟨hv, hb⟩ := h
  unfold fmtSum
  rw [hv, centsToF64_fin hb]
  simp only [rnd_cents hb]
  have hf := amountForm_natDec c.natAbs
  have hd := digits_amount c.natAbs
  have hneg : rnd ((c : ℚ) / 100) < 0 ↔ c < 0 := by
    rw [rnd_neg_iff]
    constructor
    · intro h; have : (c : ℚ) < 0 := by linarith
      exact_mod_cast this
    · intro h; have : (c : ℚ) < 0 := by exact_mod_cast h
      linarith
  have hzero : rnd ((c : ℚ) / 100) = 0 ↔ c = 0 := by
    rw [rnd_eq_zero_iff]
    constructor
    · intro h; have : (c : ℚ) = 0 := by linarith
      exact_mod_cast this
    · rintro rfl; simp
  split
  · rename_i hm
    refine ⟨.inr ⟨_, rfl, hf⟩, ?_⟩
    have hc : c ≤ 0 := by
      rcases hm with hm | ⟨hm, _⟩
      · exact (hneg.mp hm).le
      · exact (hzero.mp hm).le
    unfold amountCents
    rw [if_pos (by simp), List.filterMap_cons, digitVal_minus]
    simp only [hd]
    omega
  · rename_i hm
    have hc : 0 ≤ c := by
      by_contra hcon
      exact hm (.inl (hneg.mpr (by omega)))
    refine ⟨.inl hf, ?_⟩
    unfold amountCents
    rw [if_neg hf.minus, hd]
    omega

theorem getReceiptFloat_fmtSum {x : PyFloat} {c : Int} (h : InCents x c) :
    getReceiptFloat (fmtSum x) = some x.val := by
  obtain ⟨h1, h2⟩ := fmtSum_cents h
  rw [getReceiptFloat_iff, h2, h.1]
  exact ⟨.inl h1, rfl⟩

/-! ### What the receipt says -/

theorem Call.values {reg reg' : CashRegister} {o : Order} {r : Receipt} (c : Call reg o reg' r) :
    strptime (strftime o.dateTime) = some r.dateTime ∧
    getReceiptFloat (fmtSum o.sumA) = some r.sumA ∧ getReceiptFloat (fmtSum o.sumB) = some r.sumB ∧
    getReceiptFloat (fmtSum o.sumC) = some r.sumC ∧ getReceiptFloat (fmtSum o.sumD) = some r.sumD ∧
    getReceiptFloat (fmtSum o.sumE) = some r.sumE := by
  have hr1 : r.toDraft = c.draft := takeSignature_draft c.htake
  have hi := c.hdraft
  have e1 : r.dateTime = c.draft0.dateTime := by rw [hr1, c.draft_eq]
  have e2 : r.sumA = c.draft0.sumA := by rw [hr1, c.draft_eq]
  have e3 : r.sumB = c.draft0.sumB := by rw [hr1, c.draft_eq]
  have e4 : r.sumC = c.draft0.sumC := by rw [hr1, c.draft_eq]
  have e5 : r.sumD = c.draft0.sumD := by rw [hr1, c.draft_eq]
  have e6 : r.sumE = c.draft0.sumE := by rw [hr1, c.draft_eq]
  rw [e1, e2, e3, e4, e5, e6]
  exact ⟨hi.dateTime, hi.sumA, hi.sumB, hi.sumC, hi.sumD, hi.sumE⟩

theorem Call.kind {reg reg' : CashRegister} {o : Order} {r : Receipt} (c : Call reg o reg' r)
    (hz : 5 ≤ reg.size) : (Training r ↔ o.dummy = true) ∧
      (Reversal r ↔ o.dummy = false ∧ o.reversal = true) ∧
      (o.dummy = false → o.reversal = false → r.decryptTurnoverCounter reg.key = .ok reg'.counter) := by
  have hf := c.fields
  obtain ⟨b, hb, hcase⟩ := counterField_ok c.henc
  simp only at hcase
  have he : r.encTurnoverCounter = b64Encode false b := by rw [hf, ← hb]; rfl
  have hd : b64Decode false r.encTurnoverCounter = some b := by rw [he, b64Decode_encode]
  have t1 : utf8Enc c!"TRA" = bTRA := by decide
  have t2 : utf8Enc c!"STO" = bSTO := by decide
  unfold Training Reversal
  rw [hd, t1, t2, Option.some.injEq, Option.some.injEq]
  rcases hcase with ⟨h1, rfl⟩ | ⟨h1, h2, rfl⟩ | ⟨h1, h2, hk, hl, henc⟩
  · have : bTRA ≠ bSTO := by decide
    simp [h1, this]
  · have : bSTO ≠ bTRA := by decide
    simp [h1, h2, this]
  · have n1 : b ≠ bTRA := by rintro rfl; have : bTRA.length = 3 := rfl; omega
    have n2 : b ≠ bSTO := by rintro rfl; have : bSTO.length = 3 := rfl; omega
    refine ⟨by simp [n1, h1], by simp [n2, h2], fun _ _ => ?_⟩
    refine receipt_counter_decrypts hz hk (c := b) ?_ he
    rw [hf]; exact henc

/-- The register's and the verifier's calculation of the turnover agree. -/
theorem Call.turnover {reg reg' : CashRegister} {o : Order} {r : Receipt} (c : Call reg o reg' r)
    {a1 a2 a3 a4 a5 : Int} (h1 : InCents o.sumA a1) (h2 : InCents o.sumB a2) (h3 : InCents o.sumC a3)
    (h4 : InCents o.sumD a4) (h5 : InCents o.sumE a5) :
    if o.dummy then reg'.counter = reg.counter
    else ∃ n, r.turnover = .ok n ∧ reg'.counter = reg.counter + n := by
  obtain ⟨-, e1, e2, e3, e4, e5⟩ := c.values
  rw [getReceiptFloat_fmtSum h1, Option.some.injEq] at e1
  rw [getReceiptFloat_fmtSum h2, Option.some.injEq] at e2
  rw [getReceiptFloat_fmtSum h3, Option.some.injEq] at e3
  rw [getReceiptFloat_fmtSum h4, Option.some.injEq] at e4
  rw [getReceiptFloat_fmtSum h5, Option.some.injEq] at e5
  have hb := c.book
  unfold Order.book at hb
  split at hb
  · rename_i hd
    rw [if_pos hd]
    exact (Except.ok.inj hb).symm
  · rename_i hd
    rw [if_neg hd]
    unfold Draft.turnover
    rw [← e1, ← e2, ← e3, ← e4, ← e5]
    split at hb
    · rename_i n hn
      rw [hn]
      exact ⟨n, rfl, (Except.ok.inj hb).symm⟩
    · cases hb
    · cases hb

end

end RKSV
