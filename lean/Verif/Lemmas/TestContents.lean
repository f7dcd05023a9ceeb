import Verif.Spec.TestContents
import Verif.Lemmas.RunTestFull
import Verif.Props.CashReg
/-
What the main loop of `runTest` writes into the DEPs.
-/
namespace RKSV

section
variable [PyEnv]

/-! ### A call of the register -/

/-- The register after a call. -/
theorem fcall_register {reg reg' : CashRegister} {o : Order} {v : Falsify} {m : Mangled}
    (h : reg.receiptWith o v = (reg', .ok m)) : ∃ c : FCall reg o v m,
      reg' = { reg with size := v.turnoverCounterSize.getD reg.size, counter := v.turnoverCounter.getD c.n, last := some c.jws } := by
  unfold CashRegister.receiptWith at h
  split at h
  · cases h
  rename_i d hd
  simp only at h
  split at h
  · cases h
  rename_i n hn
  split at h
  · cases h
  rename_i enc henc
  split at h
  · cases h
  rename_i jws hs
  simp only [Prod.mk.injEq, Res.bind_eq_ok, Except.ok.injEq] at h
  obtain ⟨h1, r0, h2, h3⟩ := h
  simp only [Order.draft, Res.bind_eq_ok, ensure_eq_ok, knownAlg_iff] at hd
  obtain ⟨_, ha, hi⟩ := hd
  rw [ha] at hs
  exact ⟨⟨ha, d, init_eq_ok.mp hi, n, hn, enc, henc, _, rfl, jws, hs, r0, h2, h3.symm⟩, h1.symm⟩

/-- The signature a device of a test made. -/
theorem fcall_signature {reg : CashRegister} {o : Order} {v : Falsify} {m : Mangled} (c : FCall reg o v m) {spec : TestSpec}
    {closed : Bool} {d : Nat} {k : TestKey} {b : Bool} (ho : o.sys = spec.system closed d k b) :
    ∃ sig, c.jws = b64Text true (utf8Enc c!"{\"alg\":\"ES256\"}") ++
        '.' :: b64Text true (utf8Enc (m.receipt.toPayload (v.algorithmPrefix.getD R1))) ++ '.' :: sig ∧
      m.receipt.header = v.header.getD c!"{\"alg\":\"ES256\"}" ∧ m.receipt.signature = v.signature.getD sig ∧
      if b then sig = failureMark
      else ∃ raw, sig = b64Text true raw ∧ verifySig (pubOf k.priv)
        (utf8Enc (b64Text true (utf8Enc c!"{\"alg\":\"ES256\"}") ++
          '.' :: b64Text true (utf8Enc (m.receipt.toPayload (v.algorithmPrefix.getD R1))))) raw = true := by
  have hdr := takeSignature_draft c.htake
  have h3 : m.receipt.toFields = c.draft.toFields := by
    rw [← hdr]
    exact congrArg (fun m : Mangled => m.receipt.toFields) c.m_eq
  have hh : m.receipt.header = v.header.getD c.r0.header := congrArg (fun m : Mangled => m.receipt.header) c.m_eq
  have hg : m.receipt.signature = v.signature.getD c.r0.signature := congrArg (fun m : Mangled => m.receipt.signature) c.m_eq
  have key : ∀ sig, '.' ∉ sig → c.jws = joinWith '.' [encodeSeg jwsHeader,
      encodeSeg (c.draft.toPayload (v.algorithmPrefix.getD R1)), sig] →
      c.jws = b64Text true (utf8Enc c!"{\"alg\":\"ES256\"}") ++
        '.' :: b64Text true (utf8Enc (m.receipt.toPayload (v.algorithmPrefix.getD R1))) ++ '.' :: sig ∧
      m.receipt.header = v.header.getD c!"{\"alg\":\"ES256\"}" ∧ m.receipt.signature = v.signature.getD sig := by
    intro sig hn hj
    have ht := c.htake
    rw [hj] at ht
    obtain ⟨_, _, hr⟩ := sign_eq_ok.mp (takeSignature_ok hn ht)
    refine ⟨?_, ?_, ?_⟩
    · rw [hj, h3, encodeSeg_eq, encodeSeg_eq]
      simp [joinWith, jwsHeader]
    · rw [hh, hr]
      rfl
    · rw [hg, hr]
  have hsign := c.hsign
  rw [ho] at hsign
  cases b with
  | true =>
    have hj := (Except.ok.inj hsign).symm
    obtain ⟨e1, e2, e3⟩ := key (b64Text true failBytes) (not_mem_b64Text (not_isB64_dot true)) hj
    exact ⟨_, e1, e2, e3, by rw [if_pos rfl, failureMark_eq]⟩
  | false =>
    have hj := (Except.ok.inj hsign).symm
    obtain ⟨e1, e2, e3⟩ := key (r1Sign (c.draft.toPayload (v.algorithmPrefix.getD R1)) k.priv o.rand)
      (not_mem_b64Text (not_isB64_dot true)) hj
    refine ⟨_, e1, e2, e3, ?_⟩
    rw [if_neg (by simp)]
    refine ⟨_, rfl, ?_⟩
    rw [h3]
    have : (b64Text true (utf8Enc c!"{\"alg\":\"ES256\"}") ++
        '.' :: b64Text true (utf8Enc (c.draft.toPayload (v.algorithmPrefix.getD R1)))) =
        encodeSeg jwsHeader ++ '.' :: encodeSeg (c.draft.toPayload (v.algorithmPrefix.getD R1)) := by
      rw [encodeSeg_eq, encodeSeg_eq]
      rfl
    rw [this]
    exact PyEnv.verify_sign _ _ _

/-! ### Registers -/

/-- The register `r` of a test that made `made`. -/
structure RegFor (x : TestCtx) (made : List Made) (r : Nat) (reg : CashRegister) : Prop where
  registerId : reg.registerId = x.spec.cashBoxId
  key : reg.key = x.key
  size : reg.size = sizeAfter x.size (ofRegister made r)
  counter : ∀ cents : Made → Int, (∀ m ∈ ofRegister made r, m.instr.Adds (cents m)) →
    reg.counter = counterAfter cents 0 (ofRegister made r)
  last : reg.last = chainText made r

omit [PyEnv] in
theorem sizeAfter_snoc (size : Nat) (l : List Made) (a : Made) :
    sizeAfter size (l ++ [a]) = a.instr.override.turnoverCounterSize.getD (sizeAfter size l) := by
  induction l generalizing size with
  | nil => rfl
  | cons b l ih => exact ih _

omit [PyEnv] in
theorem counterAfter_snoc (cents : Made → Int) (n : Int) (l : List Made) (a : Made) :
    counterAfter cents n (l ++ [a]) = a.instr.override.turnoverCounter.getD (counterAfter cents n l + cents a) := by
  induction l generalizing n with
  | nil => rfl
  | cons b l ih => exact ih _

omit [PyEnv] in
theorem ofRegister_snoc_same (made : List Made) (a : Made) : ofRegister (made ++ [a]) a.reg = ofRegister made a.reg ++ [a] := by
  simp [ofRegister]

omit [PyEnv] in
theorem ofRegister_snoc_other (made : List Made) (a : Made) {r : Nat} (h : r ≠ a.reg) :
    ofRegister (made ++ [a]) r = ofRegister made r := by
  simp [ofRegister, Ne.symm h]

/-- A receipt for an instruction. -/
theorem right_receipt {x : TestCtx} {i : Instr} {o : Order} (ho : x.order i = .ok o) {made : List Made} {r : Nat}
    {reg reg' : CashRegister} (hr : RegFor x made r reg) (hne : chainText made r ≠ some []) {m : Mangled}
    (h : reg.receiptWith o i.override = (reg', .ok m)) :
    ∃ sig, Made.Right x.spec x.closed x.keys x.key x.size made ⟨r, i, m.receipt, sig⟩ ∧
      m.toJWS (i.override.algorithmPrefix.getD R1) = Made.text ⟨r, i, m.receipt, sig⟩ ∧
      RegFor x (made ++ [⟨r, i, m.receipt, sig⟩]) r reg' := by
  obtain ⟨c, hreg⟩ := fcall_register h
  obtain ⟨d, k, hd, hk, hoe⟩ := order_ok ho
  obtain ⟨sig, hj, hh, hg, hs⟩ := fcall_signature c (spec := x.spec) (closed := x.closed) (d := i.device) (k := k) (b := i.damaged)
    (by rw [hoe])
  have hf := c.fields
  have hjws : m.jws = i.override.jwsOverride := congrArg Mangled.jws c.m_eq
  have hadds : ∀ n, i.Adds n → o.Adds n := by
    rintro n ⟨a1, a2, a3, a4, a5, h1, h2, h3, h4, h5, h6, h7⟩
    rw [hoe]
    refine ⟨a1, a2, a3, a4, a5, h1, h2, h3, h4, h5, h6, ?_⟩
    rw [h7]
    by_cases hi : i.kind = some c!"TRAINING_BELEG" <;> simp [hi]
  have hcount : ∀ cents : Made → Int, (∀ b ∈ ofRegister made r ++ [⟨r, i, m.receipt, sig⟩], b.instr.Adds (cents b)) →
      i.override.turnoverCounter.getD c.n = counterAfter cents 0 (ofRegister made r ++ [⟨r, i, m.receipt, sig⟩]) := by
    intro cents hc
    have h1 := hr.counter cents fun b hb => hc b (by simp [hb])
    have h2 := book_adds (hadds _ (hc ⟨r, i, m.receipt, sig⟩ (by simp))) reg.counter
    rw [c.book] at h2
    rw [counterAfter_snoc, ← h1, Except.ok.inj h2]
  have hsize : i.override.turnoverCounterSize.getD reg.size = sizeAfter x.size (ofRegister made r ++ [⟨r, i, m.receipt, sig⟩]) := by
    rw [sizeAfter_snoc, ← hr.size]
  refine ⟨sig, ?_, ?_, ?_⟩
  · refine {
      registerId := ?_
      receiptId := ?_
      date := ?_
      sumA := ?_
      sumB := ?_
      sumC := ?_
      sumD := ?_
      sumE := ?_
      counter := ?_
      device := ?_
      chain := ?_
      header := ?_
      signature := ?_ }
    · have : m.receipt.registerId = i.override.registerId.getD reg.registerId := congrArg Fields.registerId hf
      show Says i.override.registerId m.receipt.registerId _
      rw [this, hr.registerId]
      cases i.override.registerId <;> rfl
    · have : m.receipt.receiptId = i.override.receiptId.getD o.receiptId := congrArg Fields.receiptId hf
      show Says i.override.receiptId m.receipt.receiptId (· = i.receiptId)
      rw [this, hoe]
      cases i.override.receiptId <;> rfl
    · have : m.receipt.dateTimeStr = i.override.dateTime.getD (strftime o.dateTime) := congrArg Fields.dateTimeStr hf
      show Says i.override.dateTime m.receipt.dateTimeStr fun t => ∃ d, strptime i.date = some d ∧ (1000 ≤ d.year → strptime t = some d)
      rw [this, hoe]
      cases i.override.dateTime with
      | some t => rfl
      | none => exact ⟨d, hd, fun hy => strptime_strftime (strptime_valid hd) hy⟩
    · have : m.receipt.sumAStr = i.override.sumA.getD (fmtSum o.sumA) := congrArg Fields.sumAStr hf
      show Says i.override.sumA m.receipt.sumAStr (AmountText i.sumA)
      rw [this, hoe]
      cases i.override.sumA with
      | some t => rfl
      | none => exact fun c hc => (fmtSum_cents hc).2
    · have : m.receipt.sumBStr = i.override.sumB.getD (fmtSum o.sumB) := congrArg Fields.sumBStr hf
      show Says i.override.sumB m.receipt.sumBStr (AmountText i.sumB)
      rw [this, hoe]
      cases i.override.sumB with
      | some t => rfl
      | none => exact fun c hc => (fmtSum_cents hc).2
    · have : m.receipt.sumCStr = i.override.sumC.getD (fmtSum o.sumC) := congrArg Fields.sumCStr hf
      show Says i.override.sumC m.receipt.sumCStr (AmountText i.sumC)
      rw [this, hoe]
      cases i.override.sumC with
      | some t => rfl
      | none => exact fun c hc => (fmtSum_cents hc).2
    · have : m.receipt.sumDStr = i.override.sumD.getD (fmtSum o.sumD) := congrArg Fields.sumDStr hf
      show Says i.override.sumD m.receipt.sumDStr (AmountText i.sumD)
      rw [this, hoe]
      cases i.override.sumD with
      | some t => rfl
      | none => exact fun c hc => (fmtSum_cents hc).2
    · have : m.receipt.sumEStr = i.override.sumE.getD (fmtSum o.sumE) := congrArg Fields.sumEStr hf
      show Says i.override.sumE m.receipt.sumEStr (AmountText i.sumE)
      rw [this, hoe]
      cases i.override.sumE with
      | some t => rfl
      | none => exact fun c hc => (fmtSum_cents hc).2
    · have : m.receipt.encTurnoverCounter = i.override.encTurnoverCounter.getD c.enc := congrArg Fields.encTurnoverCounter hf
      show Says i.override.encTurnoverCounter m.receipt.encTurnoverCounter _
      cases hv : i.override.encTurnoverCounter with
      | some t => rw [this, hv]; rfl
      | none =>
        rw [hv] at this
        obtain ⟨b, hb, hcase⟩ := counterFieldOf_ok c.henc
        simp only at hcase
        show CounterText _ _ _ _ _
        unfold CounterText
        have hm : m.receipt.encTurnoverCounter = b64Encode false b := by rw [this, ← hb]; rfl
        have t1 : utf8Enc c!"TRA" = bTRA := by decide
        have t2 : utf8Enc c!"STO" = bSTO := by decide
        have d1 : o.dummy = true ↔ i.kind = some c!"TRAINING_BELEG" := by rw [hoe]; simp
        have d2 : o.reversal = true ↔ i.kind = some c!"STORNO_BELEG" := by rw [hoe]; simp
        rcases hcase with ⟨h1, rfl⟩ | ⟨h1, h2, rfl⟩ | ⟨h1, h2, hk, hl, -⟩
        · rw [if_pos (d1.mp h1), hm, t1]
        · rw [if_neg (fun e => by rw [d1.mpr e] at h1; cases h1), if_pos (d2.mp h2), hm, t2]
        · rw [if_neg (fun e => by rw [d1.mpr e] at h1; cases h1), if_neg (fun e => by rw [d2.mpr e] at h2; cases h2)]
          refine ⟨b, hm, hl.trans hsize, fun h5 cents hc => ?_⟩
          rw [← hcount cents hc, ← hr.key]
          exact (c.kind rfl hv (by rw [← hl]; exact h5)).2.2 h1 h2
    · refine ⟨k, hk, ?_, ?_, ?_⟩
      · have : m.receipt.zda = i.override.zda.getD o.sys.zda := congrArg Fields.zda hf
        show Says i.override.zda m.receipt.zda _
        rw [this, hoe, system_zda]
        cases i.override.zda <;> rfl
      · have : m.receipt.certSerial = i.override.certSerial.getD o.sys.serial := congrArg Fields.certSerial hf
        show Says i.override.certSerial m.receipt.certSerial _
        rw [this, hoe, system_serial]
        cases i.override.certSerial <;> rfl
      · show if i.damaged = true then sig = failureMark else _
        by_cases hb : i.damaged = true
        · rw [if_pos hb] at hs ⊢
          exact hs
        · rw [if_neg hb] at hs ⊢
          exact hs
    · have : m.receipt.previousChain = i.override.previousChain.getD (b64Encode false (chainHash (i.override.registerId.getD reg.registerId) reg.last)) :=
        congrArg Fields.previousChain hf
      show Says i.override.previousChain m.receipt.previousChain (· = chainValue ((chainText made r).getD m.receipt.registerId))
      rw [this]
      cases i.override.previousChain with
      | some t => rfl
      | none =>
        show b64Encode false _ = _
        have h1 : m.receipt.registerId = i.override.registerId.getD reg.registerId := congrArg Fields.registerId hf
        rw [← h1, hr.last]
        unfold chainHash chainValue algHash
        cases hct : chainText made r with
        | none => rfl
        | some t =>
          have : t ≠ [] := fun e => hne (by rw [hct, e])
          simp [this]
    · show Says i.override.header m.receipt.header _
      rw [hh]
      cases i.override.header <;> rfl
    · show Says i.override.signature m.receipt.signature (· = sig)
      rw [hg]
      cases i.override.signature <;> rfl
  · show m.jws.getD _ = _
    rw [hjws]
    rfl
  · have he : ofRegister (made ++ [⟨r, i, m.receipt, sig⟩]) r = ofRegister made r ++ [⟨r, i, m.receipt, sig⟩] :=
      ofRegister_snoc_same made ⟨r, i, m.receipt, sig⟩
    rw [hreg]
    refine ⟨hr.registerId, hr.key, ?_, ?_, ?_⟩
    · rw [he]; exact hsize
    · intro cents hc
      rw [he] at hc ⊢
      exact hcount cents hc
    · show some c.jws = _
      unfold chainText
      rw [he, List.getLast?_concat, hj]
      rfl

/-- All registers. -/
structure RegInv (x : TestCtx) (s : FullState) (made : List Made) : Prop where
  regs : ∀ r reg, s.regs[r]? = some reg → RegFor x made r reg
  lt : s.register < s.regs.length
  none : ∀ a ∈ made, a.reg < s.regs.length
  start : (truthy s.lastStart = true ∧ s.reg2Reg = List.range s.regs.length ∧
      s.lastStart = (ofRegister made (s.regs.length - 1)).head?.map (·.text) ∧ ∀ r, r < s.regs.length → ofRegister made r ≠ []) ∨
    (truthy s.lastStart = false ∧ s.reg2Reg = List.range (s.regs.length - 1) ∧ s.register = s.regs.length - 1 ∧
      ofRegister made (s.regs.length - 1) = [] ∧ ∀ r, r < s.regs.length - 1 → ofRegister made r ≠ [])

omit [PyEnv] in
theorem chainText_other {made : List Made} {a : Made} {r : Nat} (h : r ≠ a.reg) (hn : ofRegister made r ≠ []) :
    chainText (made ++ [a]) r = chainText made r := by
  unfold chainText
  rw [ofRegister_snoc_other made a h]
  rw [List.getLast?_eq_some_getLast hn]

theorem RegFor.other {x : TestCtx} {made : List Made} {r : Nat} {reg : CashRegister} (h : RegFor x made r reg) {a : Made}
    (hr : r ≠ a.reg) (hn : ofRegister made r ≠ []) : RegFor x (made ++ [a]) r reg := by
  have e := ofRegister_snoc_other made a hr
  refine ⟨h.registerId, h.key, by rw [e]; exact h.size, by rw [e]; exact h.counter, ?_⟩
  rw [chainText_other hr hn]
  exact h.last

omit [PyEnv] in
theorem made_text_ne {a : Made} (h : a.instr.override.jwsOverride ≠ some []) : a.text ≠ [] := by
  unfold Made.text
  cases hj : a.instr.override.jwsOverride with
  | none =>
    intro e
    have : '.' ∈ a.receipt.toJWS a.algorithm := by simp [Receipt.toJWS, joinWith]
    rw [show a.receipt.toJWS a.algorithm = [] from e] at this
    cases this
  | some t =>
    rw [hj] at h
    rintro rfl
    exact h rfl

omit [PyEnv] in
theorem chainText_ne {made : List Made} (h : ∀ a ∈ made, a.instr.override.jwsOverride ≠ some []) (r : Nat) :
    chainText made r ≠ some [] := by
  unfold chainText
  split
  · rename_i a _
    intro e
    have := Option.some.inj e
    simp [Made.signed] at this
  · split
    · simp
    · intro e
      rw [Option.map_eq_some_iff] at e
      obtain ⟨b, hb, ht⟩ := e
      have hm : b ∈ made := (List.mem_filter.mp (List.mem_of_head? hb)).1
      exact made_text_ne (h b hm) ht

/-- Making a receipt. -/
theorem RegInv.receipt {x : TestCtx} {s s' : FullState} {made : List Made} (hs : RegInv x s made)
    (hj : ∀ a ∈ made, a.instr.override.jwsOverride ≠ some []) {i : Instr} (hji : i.override.jwsOverride ≠ some []) {o : Order}
    (ho : x.order i = .ok o) (h : x.addReceiptFull i o s = .ok s') :
    ∃ a : Made, a.instr = i ∧ a.reg = s.register ∧ a.Right x.spec x.closed x.keys x.key x.size made ∧
      RegInv x s' (made ++ [a]) ∧ truthy s'.lastStart = true ∧ s'.register = s.register ∧ s'.regs.length = s.regs.length ∧
      (∃ p, Mangled.text p = a.text ∧ s'.recs = s.recs ++ [p]) ∧
      s'.groups = s.groups ∧ s'.deps = s.deps ∧ s'.extra = s.extra ∧ s'.prevSig = some i.device := by
  unfold TestCtx.addReceiptFull at h
  rw [List.getElem?_eq_getElem hs.lt] at h
  simp only at h
  have hreg := hs.regs s.register _ (List.getElem?_eq_getElem hs.lt)
  have hlt := hs.lt
  rcases hr : s.regs[s.register].receiptWith o i.override with ⟨reg', e | m⟩
  · rw [hr] at h
    cases h
  · rw [hr] at h
    simp only [Except.ok.injEq] at h
    obtain ⟨sig, h1, h2, h3⟩ := right_receipt ho hreg (chainText_ne hj _) hr
    obtain ⟨a, ha⟩ : ∃ a : Made, a = ⟨s.register, i, m.receipt, sig⟩ := ⟨_, rfl⟩
    rw [← ha] at h1 h2 h3
    have a1 : a.reg = s.register := by rw [ha]
    have a2 : a.instr = i := by rw [ha]
    have hat : a.text ≠ [] := made_text_ne (by rw [a2]; exact hji)
    have hsame := ofRegister_snoc_same made a
    rw [a1] at hsame
    have hother : ∀ r, r ≠ s.register → ofRegister (made ++ [a]) r = ofRegister made r := fun r hne =>
      ofRegister_snoc_other made a (by rw [a1]; exact hne)
    have hmem : ∀ b ∈ made ++ [a], b.reg < s.regs.length := by
      intro b hb
      rcases List.mem_append.mp hb with hb | hb
      · exact hs.none b hb
      · rw [List.mem_singleton.mp hb, a1]; exact hs.lt
    have hregs : (∀ r, r < s.regs.length → r ≠ s.register → ofRegister made r ≠ []) →
        ∀ r reg, (s.regs.set s.register reg')[r]? = some reg → RegFor x (made ++ [a]) r reg := by
      intro hn r reg hget
      by_cases hne : r = s.register
      · subst hne
        rw [List.getElem?_set_self hs.lt] at hget
        cases hget
        exact h3
      · rw [List.getElem?_set_ne (Ne.symm hne)] at hget
        exact (hs.regs r reg hget).other (by rw [a1]; exact hne) (hn r (List.getElem?_eq_some_iff.mp hget).1 hne)
    refine ⟨a, a2, a1, h1, ?_⟩
    rcases hs.start with ⟨t1, t2, t3, t4⟩ | ⟨t1, t2, t3, t4, t5⟩
    · rw [if_pos (show truthy s.lastStart = true from t1)] at h
      subst h
      refine ⟨⟨hregs fun r hl _ => t4 r hl, by simpa using hs.lt, by simpa using hmem, ?_⟩, t1, rfl, by simp, ⟨(m, i.override.algorithmPrefix.getD R1), h2, rfl⟩,
        rfl, rfl, rfl, rfl⟩
      refine .inl ⟨t1, by simpa using t2, ?_, ?_⟩
      · show s.lastStart = _
        rw [t3]
        simp only [List.length_set]
        by_cases he : s.regs.length - 1 = s.register
        · rw [he, hsame, List.head?_append]
          have := t4 s.register hs.lt
          cases hl : ofRegister made s.register with
          | nil => exact absurd hl this
          | cons b l => rfl
        · rw [hother _ he]
      · intro r hl
        simp only [List.length_set] at hl
        by_cases he : r = s.register
        · rw [he, hsame]; simp
        · rw [hother _ he]; exact t4 r hl
    · rw [if_neg (by show ¬truthy s.lastStart = true; rw [t1]; simp)] at h
      subst h
      have htr : truthy (some (m.toJWS (i.override.algorithmPrefix.getD R1))) = true := by
        rw [h2]
        exact truthy_text.mpr ⟨_, rfl, hat⟩
      have hpos : 0 < s.regs.length := Nat.lt_of_le_of_lt (Nat.zero_le _) hs.lt
      refine ⟨⟨hregs fun r hl hne => t5 r (by omega), by simpa using hs.lt, by simpa using hmem, ?_⟩, htr, rfl, by simp,
        ⟨(m, i.override.algorithmPrefix.getD R1), h2, rfl⟩, rfl, rfl, rfl, rfl⟩
      refine .inl ⟨htr, ?_, ?_, ?_⟩
      · show s.reg2Reg ++ [s.register] = List.range (s.regs.set _ _).length
        rw [List.length_set, t2, t3, ← List.range_succ, Nat.succ_eq_add_one]
        congr 1
        omega
      · show some (m.toJWS (i.override.algorithmPrefix.getD R1)) = _
        simp only [List.length_set]
        rw [← t3, hsame, t3, t4, h2]
        rfl
      · intro r hl
        simp only [List.length_set] at hl
        by_cases he : r = s.register
        · rw [he, hsame]; simp
        · rw [hother _ he]; exact t5 r (by omega)

/-- A new register. -/
theorem RegInv.new {x : TestCtx} {s s' : FullState} {made : List Made} (hs : RegInv x s made) {i : Instr}
    (h : x.newRegisterFull i s = .ok s') :
    (s' = s ∧ ¬(i.newDep = kCluster ∧ truthy s.lastStart = true)) ∨
    (i.newDep = kCluster ∧ truthy s.lastStart = true ∧ RegInv x s' made ∧ s'.register = s.regs.length ∧
      s'.regs.length = s.regs.length + 1 ∧
      ∃ regs register lastStart, s' = { s with regs, register, lastStart }) := by
  unfold TestCtx.newRegisterFull at h
  by_cases hc : i.newDep = kCluster ∧ truthy s.lastStart = true
  · rw [if_pos hc] at h
    simp only [Res.bind_eq_ok, CashRegister.make, ensure_eq_ok, Except.ok.injEq] at h
    obtain ⟨r, ⟨_, -, rfl⟩, rfl⟩ := h
    refine .inr ⟨hc.1, hc.2, ?_, rfl, by simp, _, _, _, rfl⟩
    rcases hs.start with ⟨t1, t2, t3, t4⟩ | ⟨t1, -⟩
    · have hpos : 0 < s.regs.length := Nat.lt_of_le_of_lt (Nat.zero_le _) hs.lt
      have hnone : ofRegister made s.regs.length = [] := by
        unfold ofRegister
        rw [List.filter_eq_nil_iff]
        intro a ha
        have := hs.none a ha
        simp only [decide_eq_true_eq]
        omega
      refine ⟨?_, by simp, fun a ha => ?_, .inr ⟨rfl, ?_, ?_, ?_, ?_⟩⟩
      · intro r reg hget
        by_cases hl : r < s.regs.length
        · rw [List.getElem?_append_left hl] at hget
          exact hs.regs r reg hget
        · have hr : r = s.regs.length := by
            have := (List.getElem?_eq_some_iff.mp hget).1
            simp only [List.length_append, List.length_singleton] at this
            omega
          subst hr
          rw [List.getElem?_append_right (Nat.le_refl _), Nat.sub_self] at hget
          cases hget
          refine ⟨rfl, rfl, by rw [hnone]; rfl, fun _ _ => by rw [hnone]; rfl, ?_⟩
          unfold chainText
          rw [hnone]
          show s.lastStart = if _ then _ else _
          rw [if_neg (by omega)]
          exact t3
      · have := hs.none a ha
        simp only [List.length_append, List.length_singleton]
        omega
      · simpa using t2
      · simp
      · simpa using hnone
      · intro r hl
        simp only [List.length_append, List.length_singleton, Nat.add_sub_cancel] at hl
        exact t4 r hl
    · rw [hc.2] at t1
      cases t1
  · rw [if_neg hc] at h
    exact .inl ⟨(Except.ok.inj h).symm, hc⟩

/-! ### Groups and DEPs -/

/-- A group in the stream of the exporter. -/
def GroupIs (x : TestCtx) (part : List Made) (g : SGroup (Mangled × Str)) : Prop :=
  g.recs.map Mangled.text = part.map (·.text) ∧
    ((∃ n k, x.spec.groups = true ∧ x.keys[n]? = some k ∧ k.omitSign = false ∧ (∀ a ∈ part, a.instr.device = n) ∧
        g.cert = some k.cert ∧ g.chain = k.chain) ∨
     (∃ n k, x.spec.groups = true ∧ x.keys[n]? = some k ∧ k.omitSign = true ∧ (∀ a ∈ part, a.instr.device = n) ∧
        g.cert = none ∧ g.chain = []) ∨
     (x.spec.groups = false ∧ g.cert = none ∧ g.chain = []))

theorem GroupIs.holds {x : TestCtx} {part : List Made} {g : SGroup (Mangled × Str)} (h : GroupIs x part g) :
    GroupHolds x.spec x.keys part (exportMangledGroup g) := by
  obtain ⟨h1, h2⟩ := h
  have hr : (g.recs.map fun r => Json.str (Mangled.text r)) = part.map fun a => .str a.text := by
    have := congrArg (List.map Json.str) h1
    rw [List.map_map, List.map_map] at this
    exact this
  refine ⟨_, _, g.chain.map exportCertToPEM, rfl, ?_, rfl, ?_, ?_⟩
  · show some (Json.arr (g.recs.map _)) = _
    rw [hr]
  · show some (Json.arr (g.chain.map _)) = _
    rw [List.map_map]
    rfl
  · rcases h2 with ⟨n, k, a, b, c, d, e, f⟩ | ⟨n, k, a, b, c, d, e, f⟩ | ⟨a, e, f⟩
    · exact .inl ⟨n, k, a, b, c, d, by rw [e], by rw [f]⟩
    · exact .inr (.inl ⟨n, k, a, b, c, d, by rw [e], by rw [f]; rfl⟩)
    · exact .inr (.inr ⟨a, by rw [e], by rw [f]; rfl⟩)

/-- The DEP that is being written: `cur` are its receipts, the last ones of which, unless they were put into a group
already, are of the device `d`. -/
def Writing (x : TestCtx) (s : FullState) (cur : List Made) (d : Nat) : Prop :=
  ∃ parts last, cur = parts.flatten ++ last ∧ s.recs.map Mangled.text = last.map (·.text) ∧
    List.Forall₂ (GroupIs x) parts s.groups ∧ (x.spec.groups = false → parts = []) ∧
    (x.spec.groups = true → (∀ a ∈ last, a.instr.device = d) ∧ (∀ p ∈ parts, p ≠ []) ∧
      (parts.IsChain fun p q => ∀ a ∈ p, ∀ b ∈ q, a.instr.device ≠ b.instr.device) ∧
      ∀ p, parts.getLast? = some p → ∀ a ∈ p, a.instr.device ≠ d)

/-- ... and the last receipt is not in a group yet. -/
def Written (x : TestCtx) (s : FullState) (cur : List Made) (d : Nat) : Prop :=
  ∃ parts last, last ≠ [] ∧ cur = parts.flatten ++ last ∧ s.recs.map Mangled.text = last.map (·.text) ∧
    List.Forall₂ (GroupIs x) parts s.groups ∧ (x.spec.groups = false → parts = []) ∧
    (x.spec.groups = true → (∀ a ∈ last, a.instr.device = d) ∧ (∀ p ∈ parts, p ≠ []) ∧
      (parts.IsChain fun p q => ∀ a ∈ p, ∀ b ∈ q, a.instr.device ≠ b.instr.device) ∧
      ∀ p, parts.getLast? = some p → ∀ a ∈ p, a.instr.device ≠ d)

theorem Writing.add {x : TestCtx} {s s' : FullState} {cur : List Made} {a : Made} (h : Writing x s cur a.instr.device)
    {p : Mangled × Str} (hp : Mangled.text p = a.text) (hr : s'.recs = s.recs ++ [p]) (hg : s'.groups = s.groups) :
    Written x s' (cur ++ [a]) a.instr.device := by
  obtain ⟨parts, last, h1, h2, h3, h4, h5⟩ := h
  refine ⟨parts, last ++ [a], by simp, by rw [h1, List.append_assoc], ?_, by rw [hg]; exact h3, h4, fun hd => ?_⟩
  · rw [hr, List.map_append, h2]
    simp [hp]
  · obtain ⟨a1, a2, a3, a4⟩ := h5 hd
    refine ⟨fun b hb => ?_, a2, a3, a4⟩
    rcases List.mem_append.mp hb with hb | hb
    · exact a1 b hb
    · rw [List.mem_singleton.mp hb]

/-- The groups, if the receipts that are not in a group yet are put into one. -/
theorem Written.close {x : TestCtx} {s : FullState} {cur : List Made} {d : Nat} (h : Written x s cur d)
    {g : SGroup (Mangled × Str)}
    (hg : (if x.spec.groups then x.certGroupFull s d else .ok ⟨s.recs, none, []⟩) = .ok g) :
    ∃ parts, parts ≠ [] ∧ cur = parts.flatten ∧ List.Forall₂ (GroupIs x) parts (s.groups ++ [g]) ∧
      (x.spec.groups = false → parts = [cur]) ∧
      (x.spec.groups = true → (∀ p ∈ parts, p ≠ []) ∧
        (parts.IsChain fun p q => ∀ a ∈ p, ∀ b ∈ q, a.instr.device ≠ b.instr.device) ∧
        ∀ p, parts.getLast? = some p → ∀ a ∈ p, a.instr.device = d) := by
  obtain ⟨parts, last, h0, h1, h2, h3, h4, h5⟩ := h
  refine ⟨parts ++ [last], by simp, by rw [h1]; simp, ?_, ?_, ?_⟩
  · refine List.rel_append h3 (.cons ?_ .nil)
    cases hc : x.spec.groups with
    | false =>
      rw [if_neg (by simp [hc])] at hg
      cases hg
      exact ⟨h2, .inr (.inr ⟨hc, rfl, rfl⟩)⟩
    | true =>
      rw [if_pos hc] at hg
      unfold TestCtx.certGroupFull at hg
      simp only [Res.bind_eq_ok, orErr_eq_ok, Except.ok.injEq] at hg
      obtain ⟨k, hk, rfl⟩ := hg
      cases ho : k.omitSign with
      | true =>
        rw [if_pos rfl]
        exact ⟨h2, .inr (.inl ⟨d, k, hc, hk, ho, (h5 hc).1, rfl, rfl⟩)⟩
      | false =>
        rw [if_neg (by simp)]
        exact ⟨h2, .inl ⟨d, k, hc, hk, ho, (h5 hc).1, rfl, rfl⟩⟩
  · intro hc
    rw [h1, h4 hc]
    simp
  · intro hc
    obtain ⟨a1, a2, a3, a4⟩ := h5 hc
    refine ⟨?_, ?_, ?_⟩
    · intro p hp
      rcases List.mem_append.mp hp with hp | hp
      · exact a2 p hp
      · rw [List.mem_singleton.mp hp]; exact h0
    · rw [List.isChain_append]
      refine ⟨a3, by simp, ?_⟩
      intro p hp q hq a ha b hb
      simp only [List.head?_cons, Option.mem_def, Option.some.injEq] at hq
      subst hq
      rw [a1 b hb]
      exact a4 p hp a ha
    · intro p hp
      rw [List.getLast?_concat] at hp
      cases hp
      exact a1

end

end RKSV
