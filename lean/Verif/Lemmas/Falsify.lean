import Verif.Spec.Falsify
import Verif.Spec.GroupErrors
import Verif.Props.GroupErrors
import Verif.Props.Formats
import Verif.Lemmas.CashRegHistory
import Verif.Lemmas.SortedIds
/-
Falsified receipts.
-/
namespace RKSV

section
variable [PyEnv]

/-! ### Reading the text of any receipt object -/

omit [PyEnv] in
theorem count_joinWith (c : Char) (ss : List Str) (hne : ss ≠ []) :
    (joinWith c ss).count c + 1 = (ss.map fun s => s.count c).sum + ss.length := by
  induction ss with
  | nil => exact absurd rfl hne
  | cons s ss ih =>
    cases ss with
    | nil => simp [joinWith]
    | cons t ss =>
      have := ih (by simp)
      simp only [joinWith, List.count_append, List.count_cons_self, List.map_cons, List.sum_cons, List.length_cons] at this ⊢
      omega

omit [PyEnv] in
/-- If there are as many parts as there were, they are the same. -/
theorem splitOn_joinWith_length {c : Char} {ss l : List Str} (hne : ss ≠ []) (h : splitOn c (joinWith c ss) = l)
    (hl : l.length = ss.length) : l = ss := by
  have h1 := splitOn_length c (joinWith c ss)
  have h2 := count_joinWith c ss hne
  rw [h, hl] at h1
  have h0 : (ss.map fun s => s.count c).sum = 0 := by omega
  rw [← h]
  refine splitOn_joinWith hne fun s hs hc => ?_
  have : s.count c ≤ (ss.map fun s => s.count c).sum := List.le_sum_of_mem (List.mem_map_of_mem hs)
  have : 0 < s.count c := List.count_pos_iff.mpr hc
  omega

theorem fromJWS_fields {r x : Receipt} {p alg : Str} (h : fromJWS (r.toJWS p) = .ok (x, alg)) :
    alg = p ∧ x.toFields = r.toFields ∧ x.header = r.header ∧ x.signature = r.signature := by
  unfold fromJWS at h
  split at h
  swap; · cases h
  rename_i hs ps sg hsplit
  have e1 := splitOn_joinWith_length (ss := [encodeSeg r.header, encodeSeg (r.toPayload p), r.signature]) (by simp)
    hsplit rfl
  cases e1
  simp only [Res.bind_eq_ok, ensure_eq_ok, orErr_eq_ok] at h
  obtain ⟨_, hpad, header, hh, payload, hp, h⟩ := h
  rw [decodeSeg_encodeSeg] at hh hp
  cases hh
  cases hp
  split at h
  swap; · cases h
  rename_i s0 algZda registerId receiptId dateTimeStr sumAStr sumBStr sumCStr sumDStr sumEStr tc cs pc hus
  have e2 := splitOn_joinWith_length (ss := [[], p ++ '-' :: r.zda, r.registerId, r.receiptId, r.dateTimeStr, r.sumAStr,
    r.sumBStr, r.sumCStr, r.sumDStr, r.sumEStr, r.encTurnoverCounter, r.certSerial, r.previousChain]) (by simp)
    (show splitOn '_' (joinWith '_' _) = _ from hus) rfl
  simp only [List.cons.injEq, and_true] at e2
  obtain ⟨rfl, rfl, rfl, rfl, rfl, rfl, rfl, rfl, rfl, rfl, rfl, rfl, rfl⟩ := e2
  simp only [Res.bind_eq_ok, ensure_eq_ok] at h
  obtain ⟨_, hs0, h⟩ := h
  split at h
  swap; · cases h
  rename_i a z haz
  have e3 := splitOn_joinWith_length (ss := [p, r.zda]) (by simp) (show splitOn '-' (joinWith '-' _) = _ from haz) rfl
  simp only [List.cons.injEq, and_true] at e3
  obtain ⟨rfl, rfl⟩ := e3
  simp only [Res.bind_eq_ok, ensure_eq_ok, orErr_eq_ok, init_eq_ok, sign_eq_ok] at h
  obtain ⟨_, hma, _, hk, _, hhd, _, htc, d, hd, r', ⟨hs1, hs2, hr'⟩, cv, hcv, _, hcl, heq⟩ := h
  simp only [Except.ok.injEq, Prod.mk.injEq] at heq
  obtain ⟨rfl, rfl⟩ := heq
  subst hr'
  exact ⟨rfl, hd.fields, rfl, rfl⟩

/-! ### Calls with falsifications -/

/-- Nothing is falsified. -/
theorem receiptWith_empty (reg : CashRegister) (o : Order) :
    reg.receiptWith o {} = ((reg.receipt o).1, (reg.receipt o).2.map fun r => ⟨r, none⟩) := by
  unfold CashRegister.receiptWith CashRegister.receipt
  cases hd : o.draft reg.registerId with
  | error e => rfl
  | ok d =>
    have hid : d.registerId = reg.registerId ∧ d.receiptId = o.receiptId := by
      unfold Order.draft at hd
      simp only [Res.bind_eq_ok, ensure_eq_ok, init_eq_ok] at hd
      obtain ⟨_, _, hi⟩ := hd
      rw [hi.fields]
      exact ⟨rfl, rfl⟩
    have hm : ({} : Falsify).mangle d = d := rfl
    have hf : ∀ reg' : CashRegister, reg'.registerId = reg.registerId →
        o.counterFieldOf reg' (({} : Falsify).mangle d) = o.counterField reg' := by
      intro reg' e
      unfold Order.counterFieldOf Order.counterField
      rw [hm, hid.1, hid.2, e]
    simp only
    cases hb : o.book reg.counter with
    | error e => rfl
    | ok n =>
      simp only [Option.getD_none]
      rw [hf { reg with counter := n } rfl]
      cases hc : o.counterField { reg with counter := n } with
      | error e => rfl
      | ok enc =>
        simp only [hm, hid.1]
        split
        · rename_i e hx
          rw [hx]
          rfl
        · rename_i jws hx
          rw [hx]
          refine Prod.ext rfl ?_
          show _ = Except.map _ (takeSignature _ _)
          cases ht : takeSignature _ jws with
          | error e => rfl
          | ok r => rfl

/-- A successful call. -/
structure FCall (reg : CashRegister) (o : Order) (v : Falsify) (m : Mangled) where
  alg : o.algorithm = R1
  draft0 : Draft
  hdraft : InitOk (o.fields reg.registerId [] []) draft0
  n : Int
  book : o.book reg.counter = .ok n
  enc : Str
  henc : o.counterFieldOf { reg with size := v.turnoverCounterSize.getD reg.size, counter := v.turnoverCounter.getD n }
    (v.mangle draft0) = .ok enc
  draft : Draft
  draft_eq : draft = { v.mangle draft0 with
    encTurnoverCounter := v.encTurnoverCounter.getD enc
    previousChain := v.previousChain.getD (b64Encode false (chainHash (v.mangle draft0).registerId reg.last)) }
  jws : Str
  hsign : o.sys.sign o.rand (draft.toPayload (v.algorithmPrefix.getD R1)) = .ok jws
  r0 : Receipt
  htake : takeSignature draft jws = .ok r0
  m_eq : m = ⟨{ r0 with header := v.header.getD r0.header, signature := v.signature.getD r0.signature }, v.jwsOverride⟩

theorem fcall_of_receipt {reg reg' : CashRegister} {o : Order} {v : Falsify} {m : Mangled}
    (h : reg.receiptWith o v = (reg', .ok m)) : Nonempty (FCall reg o v m) := by
  unfold CashRegister.receiptWith at h
  split at h
  · cases h
  rename_i d hd
  simp only at h
  split at h
  · cases h
  rename_i n hn
  split at h
  · cases h
  rename_i enc henc
  split at h
  · cases h
  rename_i jws hs
  simp only [Prod.mk.injEq, Res.bind_eq_ok, Except.ok.injEq] at h
  obtain ⟨-, r0, h2, h3⟩ := h
  simp only [Order.draft, Res.bind_eq_ok, ensure_eq_ok, knownAlg_iff] at hd
  obtain ⟨_, ha, hi⟩ := hd
  rw [ha] at hs
  exact ⟨⟨ha, d, init_eq_ok.mp hi, n, hn, enc, henc, _, rfl, jws, hs, r0, h2, h3.symm⟩⟩

/-- The fields with the falsified ones replaced. -/
def Falsify.put (v : Falsify) (f : Fields) (enc chain : Str) : Fields where
  zda := v.zda.getD f.zda
  registerId := v.registerId.getD f.registerId
  receiptId := v.receiptId.getD f.receiptId
  dateTimeStr := v.dateTime.getD f.dateTimeStr
  sumAStr := v.sumA.getD f.sumAStr
  sumBStr := v.sumB.getD f.sumBStr
  sumCStr := v.sumC.getD f.sumCStr
  sumDStr := v.sumD.getD f.sumDStr
  sumEStr := v.sumE.getD f.sumEStr
  encTurnoverCounter := v.encTurnoverCounter.getD enc
  certSerial := v.certSerial.getD f.certSerial
  previousChain := v.previousChain.getD chain

theorem FCall.fields {reg : CashRegister} {o : Order} {v : Falsify} {m : Mangled} (c : FCall reg o v m) :
    m.receipt.toFields = v.put (o.fields reg.registerId [] []) c.enc
      (b64Encode false (chainHash (v.registerId.getD reg.registerId) reg.last)) := by
  have h1 := takeSignature_draft c.htake
  have h2 := c.hdraft.fields
  have h3 : m.receipt.toFields = c.draft.toFields := by
    rw [← h1]
    exact congrArg (fun m : Mangled => m.receipt.toFields) c.m_eq
  rw [h3, c.draft_eq]
  rcases hd : c.draft0 with ⟨f, dt, a1, a2, a3, a4, a5⟩
  rw [hd] at h2
  cases h2
  rfl

theorem counterFieldOf_ok {o : Order} {reg : CashRegister} {d : Draft} {enc : Str}
    (h : o.counterFieldOf reg d = .ok enc) : ∃ b, enc = b64Encode false b ∧
      ((o.dummy = true ∧ b = bTRA) ∨ (o.dummy = false ∧ o.reversal = true ∧ b = bSTO) ∨
        (o.dummy = false ∧ o.reversal = false ∧ reg.key.length = 32 ∧ b.length = reg.size ∧
          encryptCounter d.registerId d.receiptId reg.counter reg.key reg.size = .ok b)) := by
  unfold Order.counterFieldOf at h
  split at h
  · rename_i hd; cases h; exact ⟨_, rfl, .inl ⟨hd, rfl⟩⟩
  rename_i hd
  split at h
  · rename_i hr; cases h; exact ⟨_, rfl, .inr (.inl ⟨by simpa using hd, hr, rfl⟩)⟩
  rename_i hr
  simp only [Res.bind_eq_ok, raiseForKey, ensure_eq_ok] at h
  obtain ⟨_, hk, b, hb, h⟩ := h
  cases h
  refine ⟨b, rfl, .inr (.inr ⟨by simpa using hd, by simpa using hr, hk, ?_, hb⟩)⟩
  simp only [encryptCounter, Res.bind_eq_ok, orErr_eq_ok] at hb
  obtain ⟨pt, hpt, hb⟩ := hb
  cases hb
  rw [aesCtr_length, (fromBytes_toBytes hpt).2]

/-- What kind of receipt it is, and its counter. -/
theorem FCall.kind {reg : CashRegister} {o : Order} {v : Falsify} {m : Mangled} (c : FCall reg o v m)
    {x : Receipt} (hx : x.toFields = m.receipt.toFields) (hv : v.encTurnoverCounter = none)
    (hz : 5 ≤ v.turnoverCounterSize.getD reg.size) : (Training x ↔ o.dummy = true) ∧
      (Reversal x ↔ o.dummy = false ∧ o.reversal = true) ∧
      (o.dummy = false → o.reversal = false →
        x.decryptTurnoverCounter reg.key = .ok (v.turnoverCounter.getD c.n)) := by
  have hf := hx.trans c.fields
  obtain ⟨b, hb, hcase⟩ := counterFieldOf_ok c.henc
  simp only at hcase
  have he : x.encTurnoverCounter = b64Encode false b := by
    rw [hf, ← hb]
    show v.encTurnoverCounter.getD _ = _
    rw [hv]
    rfl
  have hd : b64Decode false x.encTurnoverCounter = some b := by rw [he, b64Decode_encode]
  have t1 : utf8Enc c!"TRA" = bTRA := by decide
  have t2 : utf8Enc c!"STO" = bSTO := by decide
  unfold Training Reversal
  rw [hd, t1, t2, Option.some.injEq, Option.some.injEq]
  rcases hcase with ⟨h1, rfl⟩ | ⟨h1, h2, rfl⟩ | ⟨h1, h2, hk, hl, henc⟩
  · have : bTRA ≠ bSTO := by decide
    simp [h1, this]
  · have : bSTO ≠ bTRA := by decide
    simp [h1, h2, this]
  · have n1 : b ≠ bTRA := by rintro rfl; have : bTRA.length = 3 := rfl; omega
    have n2 : b ≠ bSTO := by rintro rfl; have : bSTO.length = 3 := rfl; omega
    refine ⟨by simp [n1, h1], by simp [n2, h2], fun _ _ => ?_⟩
    refine receipt_counter_decrypts hz hk (c := b) ?_ he
    rw [hf]
    have h2 := c.hdraft.fields
    rcases hdr : c.draft0 with ⟨f, dt, a1, a2, a3, a4, a5⟩
    rw [hdr] at h2 henc
    cases h2
    exact henc

/-- The signature of a working signature system. -/
theorem FCall.signed {reg : CashRegister} {o : Order} {v : Falsify} {m : Mangled} (c : FCall reg o v m)
    {x : Receipt} (hx : x.toFields = m.receipt.toFields) (hh : x.header = m.receipt.header)
    (hg : x.signature = m.receipt.signature) {z sr : Str} {priv : PrivKey} (ho : o.sys = .working z sr priv)
    (v1 : v.header = none) (v2 : v.signature = none) (v3 : v.algorithmPrefix = none) :
    ¬Unsigned x ∧ SignatureValid x (pubOf priv) := by
  have hdr := takeSignature_draft c.htake
  have hsign := c.hsign
  rw [ho, v3] at hsign
  have ht := c.htake
  rw [← Except.ok.inj hsign] at ht
  obtain ⟨_, _, hr⟩ := sign_eq_ok.mp (takeSignature_ok (not_mem_b64Text (not_isB64_dot true)) ht)
  have h1 : m.receipt.header = c.r0.header := by
    have := congrArg (fun m : Mangled => m.receipt.header) c.m_eq
    rwa [v1] at this
  have h2 : m.receipt.signature = c.r0.signature := by
    have := congrArg (fun m : Mangled => m.receipt.signature) c.m_eq
    rwa [v2] at this
  have h3 : m.receipt.toFields = c.draft.toFields := by
    rw [← hdr]
    exact congrArg (fun m : Mangled => m.receipt.toFields) c.m_eq
  have hsg : x.signature = r1Sign (c.draft.toPayload R1) priv o.rand := by rw [hg, h2, hr]; rfl
  have hhd : x.header = jwsHeader := by rw [hh, h1, hr]
  constructor
  · unfold Unsigned
    rw [hsg, failureMark_eq]
    intro e
    have := congrArg List.length (b64Text_injective e)
    rw [PyEnv.sign_length] at this
    have h34 : failBytes.length = 34 := by decide
    omega
  · refine ⟨sign priv o.rand (utf8Enc (encodeSeg jwsHeader ++ '.' :: encodeSeg (c.draft.toPayload R1))), ?_, ?_⟩
    · rw [hsg]; exact b64Decode_restorePad _ _
    · have : signingInput x = utf8Enc (encodeSeg jwsHeader ++ '.' :: encodeSeg (c.draft.toPayload R1)) := by
        unfold signingInput
        rw [hhd, hx, h3, encodeSeg_eq, encodeSeg_eq]; rfl
      rw [this]
      exact PyEnv.verify_sign _ _ _

/-! ### What the faults depend on -/

theorem Good.turnover_congr {x y : Receipt} (hx : InitOk x.toFields x.toDraft) (hy : InitOk y.toFields y.toDraft)
    (ha : x.sumAStr = y.sumAStr) (hb : x.sumBStr = y.sumBStr) (hc : x.sumCStr = y.sumCStr)
    (hd : x.sumDStr = y.sumDStr) (he : x.sumEStr = y.sumEStr) : x.turnover = y.turnover := by
  have e1 := hx.sumA
  have e2 := hx.sumB
  have e3 := hx.sumC
  have e4 := hx.sumD
  have e5 := hx.sumE
  rw [ha, hy.sumA, Option.some.injEq] at e1
  rw [hb, hy.sumB, Option.some.injEq] at e2
  rw [hc, hy.sumC, Option.some.injEq] at e3
  rw [hd, hy.sumD, Option.some.injEq] at e4
  rw [he, hy.sumE, Option.some.injEq] at e5
  unfold Draft.turnover
  rw [e1, e2, e3, e4, e5]

theorem keyFor_congr {v : Verifier} {x y : Receipt} {k : PubKey} (hz : x.zda = y.zda)
    (hs : x.certSerial = y.certSerial) (h : KeyFor v y k) : KeyFor v x k := by
  cases h with
  | closedCert c h1 h2 h3 => exact .closedCert c (hz ▸ h1) h2 h3
  | openCert c h1 h2 h3 h4 => exact .openCert c (hz ▸ h1) h2 (hs ▸ h3) h4
  | closedStore ks h1 h2 h3 h4 => exact .closedStore ks (hz ▸ h1) h2 h3 (hs ▸ h4)
  | openStoreHex ks n h1 h2 h3 h4 h5 => exact .openStoreHex ks n (hz ▸ h1) h2 h3 (hs ▸ h4) h5
  | openStoreDec ks n h1 h2 h3 h4 h5 h6 => exact .openStoreDec ks n (hz ▸ h1) h2 h3 (hs ▸ h4) (hs ▸ h5) h6

theorem keyFor_not_wrong {v : Verifier} {x : Receipt} {k : PubKey} (h : KeyFor v x k) : ¬WrongCert v x := by
  rintro ⟨c, h1, h2, h3⟩
  cases h with
  | closedCert c h4 _ _ => exact h2 h4
  | openCert c' _ h5 h6 _ => rw [h1] at h5; cases h5; exact h3 h6
  | closedStore ks _ h5 _ _ => rw [h1] at h5; cases h5
  | openStoreHex ks n _ h5 _ _ _ => rw [h1] at h5; cases h5
  | openStoreDec ks n _ h5 _ _ _ _ => rw [h1] at h5; cases h5

/-- The receipt before, or the fact that there is none. -/
theorem fresh_refused {used : Used} {pre : List Entry} {id : Str} (h : FreshId used pre id) (e : Err) :
    ¬IdRefused used pre id e := by
  cases used with
  | unique ids =>
    rintro ⟨h1 | ⟨y, h2, h3⟩, -⟩
    · exact h.1 h1
    · exact h.2 y h2 h3
  | sorted lo hi =>
    rintro ⟨m, h1, h2⟩
    obtain ⟨a, b, ha, hb, hl⟩ := h m h1
    simp [ha, hb, hl] at h2

/-! ### Stepping over faults that are absent -/

section
variable {c : GroupCtx} {s : RegState} {saved : Option Entry} {used : Used} {pre : List Entry} {t t' : Str} {r x : Receipt} {e : Err}

/-- The faults from the `n`th on. -/
def faultsFrom (c : GroupCtx) (s : RegState) (saved : Option Entry) (used : Used) (pre : List Entry) (x : Entry) (n : Nat) : Err → Prop :=
  FirstOf ((faults c s saved used pre x).drop n)

theorem skip_signature {k : PubKey} (h1 : KeyFor c.verifier x k) (h2 : SignatureValid x k) (h3 : ¬Unsigned x)
    (h : faultsFrom c s saved used pre (t, x) 4 e) : faultsFrom c s saved used pre (t, x) 0 e :=
  .inr ⟨fun _ g => keyFor_not_wrong h1 g.1, .inr ⟨fun _ g => g.2.1 ⟨k, h1⟩, .inr ⟨fun _ g => g.2.1 k h1 h2,
    .inr ⟨fun _ g => h3 g.1, h⟩⟩⟩⟩

theorem skip_restore (hr : Rules c s saved used pre (t', r)) (h1 : StandardNull r → StandardNull x) (h3 : ¬Unsigned x)
    (h : faultsFrom c s saved used pre (t, x) 5 e) : faultsFrom c s saved used pre (t, x) 4 e := by
  refine .inr ⟨?_, h⟩
  rintro _ ⟨g1, -, g2, -⟩
  rcases g2 with g2 | g2
  · exact h3 g2
  · exact g2 (h1 (hr.restore g1).2)

theorem skip_null (hr : Rules c s saved used pre (t', r)) (h1 : StandardNull r → StandardNull x)
    (h : faultsFrom c s saved used pre (t, x) 7 e) : faultsFrom c s saved used pre (t, x) 5 e := by
  refine .inr ⟨?_, .inr ⟨?_, h⟩⟩
  · rintro _ ⟨g1, ⟨a, g2, g3⟩, -⟩
    exact g3 ((h1 (hr.initial g1).2.1).1 a g2)
  · rintro _ ⟨g1, g2, -⟩
    have := (h1 (hr.initial g1).2.1).2
    rcases g2 with g2 | g2
    · exact this.1 g2
    · exact this.2 g2

theorem skip_cluster (hr : Rules c s saved used pre (t', r)) (h1 : predecessor saved pre = none → r.zda = c!"AT0" → x.zda = c!"AT0")
    (h : faultsFrom c s saved used pre (t, x) 10 e) : faultsFrom c s saved used pre (t, x) 7 e := by
  refine .inr ⟨?_, .inr ⟨?_, .inr ⟨?_, h⟩⟩⟩
  · rintro _ ⟨g1, ⟨u, g2, g3⟩, g4, -⟩
    exact g4 (h1 g1 ((hr.initial g1).2.2 u g2 g3).1)
  · rintro _ ⟨g1, u, g2, g3, g4⟩
    obtain ⟨-, p, hp, -⟩ := (hr.initial g1).2.2 u g2 g3
    rw [show fromJWS u = _ from hp] at g4
    cases g4
  · rintro _ ⟨g1, ⟨u, p, g2, g3, g4, g5⟩, -⟩
    obtain ⟨-, p', hp, hz⟩ := (hr.initial g1).2.2 u g2 g3
    have := hp.symm.trans g4
    cases this
    exact g5 hz

theorem skip_receiptId (hr : Rules c s saved used pre (t', r)) (h1 : x.receiptId = r.receiptId)
    (h : faultsFrom c s saved used pre (t, x) 11 e) : faultsFrom c s saved used pre (t, x) 10 e := by
  refine .inr ⟨?_, h⟩
  rintro _ ⟨g1, g2⟩
  exact fresh_refused (hr.fresh g1) _ (h1 ▸ g2)

theorem skip_registerId (hr : Rules c s saved used pre (t', r)) (h1 : x.registerId = r.registerId)
    (h : faultsFrom c s saved used pre (t, x) 12 e) : faultsFrom c s saved used pre (t, x) 11 e := by
  refine .inr ⟨?_, h⟩
  rintro _ ⟨⟨y, g1, g2⟩, -⟩
  exact g2 ((hr.same y g1).1.trans h1.symm)

theorem skip_system (hr : Rules c s saved used pre (t', r)) (h1 : x.zda = r.zda)
    (h : faultsFrom c s saved used pre (t, x) 13 e) : faultsFrom c s saved used pre (t, x) 12 e := by
  refine .inr ⟨?_, h⟩
  rintro _ ⟨⟨y, g1, g2⟩, -⟩
  refine g2 ?_
  show _ ↔ x.zda = _
  rw [h1]
  exact (hr.same y g1).2.1

theorem skip_date (hr : Rules c s saved used pre (t', r)) (h1 : x.dateTime = r.dateTime)
    (h : faultsFrom c s saved used pre (t, x) 14 e) : faultsFrom c s saved used pre (t, x) 13 e := by
  refine .inr ⟨?_, h⟩
  rintro _ ⟨⟨y, g1, g2⟩, -⟩
  exact (hr.same y g1).2.2 (h1 ▸ g2)

theorem not_wrongChain (hr : Rules c s saved used pre (t', r)) (h1 : x.previousChain = r.previousChain)
    (h2 : x.registerId = r.registerId) : ¬WrongChain c s saved pre (t, x) := by
  intro g
  cases g with
  | override v ho g => exact g (h1.trans (hr.chainOverride v ho))
  | before y ho hy g => exact g (h1.trans (hr.chainBefore ho y hy))
  | first ho hy g => exact g (h1.trans ((hr.chainFirst ho hy).trans (by rw [show (t, x).2.registerId = _ from h2])))

theorem skip_chain (hr : Rules c s saved used pre (t', r)) (h1 : x.previousChain = r.previousChain)
    (h2 : x.registerId = r.registerId)
    (h : faultsFrom c s saved used pre (t, x) 17 e) : faultsFrom c s saved used pre (t, x) 14 e :=
  .inr ⟨fun _ g => not_wrongChain hr h1 h2 g.1, .inr ⟨fun _ g => not_wrongChain hr h1 h2 g.1,
    .inr ⟨fun _ g => not_wrongChain hr h1 h2 g.1, h⟩⟩⟩

theorem skip_turnover (hk : ∀ k, c.key = some k → k.length = 32) (h1 : ∃ n, x.turnover = .ok n)
    (h : faultsFrom c s saved used pre (t, x) 19 e) : faultsFrom c s saved used pre (t, x) 17 e := by
  refine .inr ⟨?_, .inr ⟨?_, h⟩⟩
  · rintro _ ⟨⟨k, g1, g2⟩, -⟩
    exact g2 (hk k g1)
  · rintro _ ⟨-, -, g⟩
    obtain ⟨n, h1⟩ := h1
    rw [show (t, x).2.turnover = _ from h1] at g
    cases g

/-- A wrong chaining value where it has to be another. -/
theorem wrongChain (hr : Rules c s saved used pre (t', r)) (h1 : x.previousChain ≠ r.previousChain)
    (h2 : x.registerId = r.registerId) : WrongChain c s saved pre (t, x) := by
  by_cases ho : ∃ v, Override s pre v
  · obtain ⟨v, ho⟩ := ho
    exact .override v ho fun g => h1 (g.trans (hr.chainOverride v ho).symm)
  by_cases hy : ∃ y, Before c.prevStart saved pre y
  · obtain ⟨y, hy⟩ := hy
    exact .before y ho hy fun g => h1 (g.trans (hr.chainBefore ho y hy).symm)
  · refine .first ho hy fun g => h1 ?_
    have := hr.chainFirst ho hy
    rw [show x.previousChain = _ from g, show r.previousChain = _ from this]
    show chainValue x.registerId = chainValue r.registerId
    rw [h2]

end

/-! ### The falsified receipt beside the one that would have been made -/

theorem freshIds_last {used : Used} {a : List Str} {i : Str} (h : FreshIds used (a ++ [i])) : ∀ j ∈ a, j ≠ i := by
  cases used with
  | unique old =>
    intro j hj
    have := (List.nodup_append.mp h.1).2.2
    exact this j hj i (by simp)
  | sorted lo hi =>
    have key : ∀ a i, FreshIds (.sorted lo hi) (a ++ [i]) → ∀ j ∈ a, NaturalLt j i := by
      intro a
      induction a using List.reverseRecOn with
      | nil => simp
      | append_singleton a m ih =>
        intro i h j hj
        have hm : NaturalLt m i := h (a ++ [m]) i [] (by simp) m (by simp)
        rcases List.mem_append.mp hj with hj | hj
        · refine (ih m ?_ j hj).trans hm
          intro pre b post e
          exact h pre b (post ++ [i]) (by rw [e]; simp)
        · rw [List.mem_singleton.mp hj]; exact hm
    rintro j hj rfl
    exact NaturalLt.irrefl (key a j h j hj)

/-- What was not falsified is as it would have been. -/
structure Unaltered (v : Falsify) (r x : Receipt) : Prop where
  zda : v.zda = none → x.zda = r.zda
  registerId : v.registerId = none → x.registerId = r.registerId
  registerId' : ∀ t, v.registerId = some t → x.registerId = t
  receiptId : v.receiptId = none → x.receiptId = r.receiptId
  receiptId' : ∀ t, v.receiptId = some t → x.receiptId = t
  dateTime : v.dateTime = none → x.dateTime = r.dateTime
  sumA : v.sumA = none → x.sumAStr = r.sumAStr
  sumB : v.sumB = none → x.sumBStr = r.sumBStr
  sumC : v.sumC = none → x.sumCStr = r.sumCStr
  sumD : v.sumD = none → x.sumDStr = r.sumDStr
  sumE : v.sumE = none → x.sumEStr = r.sumEStr
  certSerial : v.certSerial = none → x.certSerial = r.certSerial
  chain : v.previousChain = none → v.registerId = none → x.previousChain = r.previousChain
  chain' : ∀ t, v.previousChain = some t → x.previousChain = t

theorem FCall.agrees {reg reg' : CashRegister} {o : Order} {v : Falsify} {m : Mangled} {r x : Receipt}
    (c : FCall reg o v m) (d : Call reg o reg' r) (hx : x.toFields = m.receipt.toFields)
    (ix : InitOk x.toFields x.toDraft) (ir : InitOk r.toFields r.toDraft) : Unaltered v r x := by
  have h1 := hx.trans c.fields
  have h2 := d.fields
  rw [← chainHash_eq] at h2
  have hd : v.dateTime = none → x.dateTime = r.dateTime := by
    intro h
    have e1 := ix.dateTime
    have e2 := ir.dateTime
    have : x.dateTimeStr = r.dateTimeStr := by
      rw [h1, h2]
      simp [Falsify.put, h, Order.fields]
    rw [this, e2] at e1
    exact (Option.some.inj e1).symm
  constructor
  case dateTime => exact hd
  all_goals
    rw [h1]
    try rw [h2]
    simp +contextual [Falsify.put, Order.fields]

/-- Without other IDs, another counter or another size the counter field is the same. -/
theorem FCall.enc_eq {reg reg' : CashRegister} {o : Order} {v : Falsify} {m : Mangled} {r : Receipt}
    (c : FCall reg o v m) (d : Call reg o reg' r) (h1 : v.registerId = none) (h2 : v.receiptId = none)
    (h3 : v.turnoverCounterSize = none) (h4 : v.turnoverCounter = none) : c.enc = d.enc := by
  have hn : c.n = reg'.counter := by
    have := c.book
    rw [d.book] at this
    exact (Except.ok.inj this).symm
  have e1 := c.henc
  have e2 := d.henc
  have hf := c.hdraft.fields
  have i1 : (v.mangle c.draft0).registerId = reg.registerId := by
    show v.registerId.getD _ = _
    rw [h1, hf]; rfl
  have i2 : (v.mangle c.draft0).receiptId = o.receiptId := by
    show v.receiptId.getD _ = _
    rw [h2, hf]; rfl
  rw [h3, h4, hn] at e1
  have : o.counterFieldOf { reg with size := reg.size, counter := reg'.counter } (v.mangle c.draft0) =
      o.counterField { reg with counter := reg'.counter } := by
    unfold Order.counterFieldOf Order.counterField
    rw [i1, i2]
  exact Except.ok.inj (e1.symm.trans (this.trans e2))

theorem FCall.fields_eq {reg reg' : CashRegister} {o : Order} {m : Mangled} {r : Receipt} {p h g j : Option Str}
    (c : FCall reg o { algorithmPrefix := p, header := h, signature := g, jwsOverride := j } m) (d : Call reg o reg' r) :
    m.receipt.toFields = r.toFields := by
  rw [c.fields, d.fields, c.enc_eq d rfl rfl rfl rfl, ← chainHash_eq]
  rfl

/-- Another header is noticed. -/
theorem fromJWS_header {r q : Receipt} (g : Good r) (hf : q.toFields = r.toFields) (hs : q.signature = r.signature)
    (hh : q.header ≠ jwsHeader) : fromJWS (q.toJWS R1) = .error .algorithmMismatch := by
  have hsp : splitOn '.' (q.toJWS R1) = [encodeSeg q.header, encodeSeg (q.toPayload R1), q.signature] := by
    unfold Receipt.toJWS
    apply splitOn_joinWith (by simp)
    intro s hs'
    simp only [List.mem_cons, List.not_mem_nil, or_false] at hs'
    rcases hs' with rfl | rfl | rfl
    · exact not_dot_encodeSeg _
    · exact not_dot_encodeSeg _
    · rw [hs]; exact g.not_dot_sig
  unfold fromJWS
  rw [hsp]
  simp only [not_eq_encodeSeg, hs, g.sigPad, decodeSeg_encodeSeg, orErr, ensure, Res.ok_bind]
  rw [hf, g.init.split_payload g.serial]
  simp only [Fields.segs]
  rw [g.init.split_zda]
  simp [matchAlg_R1, knownAlg, Ne.symm hh, Res.ok_bind]

/-- So is another algorithm. -/
theorem fromJWS_prefix {r q : Receipt} {p : Str} (g : Good r) (hf : q.toFields = r.toFields)
    (hs : '.' ∉ q.signature) (he : endsWithChar '=' q.signature = false)
    (h1 : matchAlg p = true) (h2 : '_' ∉ p) (h3 : '-' ∉ p) (h4 : p ≠ R1) :
    fromJWS (q.toJWS p) = .error .unknownAlgorithm := by
  have hsp : splitOn '.' (q.toJWS p) = [encodeSeg q.header, encodeSeg (q.toPayload p), q.signature] := by
    unfold Receipt.toJWS
    apply splitOn_joinWith (by simp)
    intro s hs'
    simp only [List.mem_cons, List.not_mem_nil, or_false] at hs'
    rcases hs' with rfl | rfl | rfl
    · exact not_dot_encodeSeg _
    · exact not_dot_encodeSeg _
    · exact hs
  have hpay : splitOn '_' (r.toPayload p) = [] :: (p ++ '-' :: r.zda) :: r.segs := by
    rw [toPayload_eq]
    apply splitOn_joinWith (by simp)
    intro s hs'
    rcases List.mem_cons.mp hs' with rfl | hs'
    · simp
    rcases List.mem_cons.mp hs' with rfl | hs'
    · have := g.init.segs g.serial _ (List.mem_cons_self ..)
      simp only [List.mem_append, List.mem_cons, not_or] at this ⊢
      exact ⟨h2, this.2⟩
    · exact g.init.segs g.serial s (List.mem_cons_of_mem _ hs')
  have hz : splitOn '-' (p ++ '-' :: r.zda) = [p, r.zda] := by
    rw [splitOn_append_sep h3, splitOn_eq_singleton]
    exact not_mem_matchZda g.init.zda plain_minus (by decide) (by decide) (by decide)
  unfold fromJWS
  rw [hsp]
  simp only [not_eq_encodeSeg, he, decodeSeg_encodeSeg, orErr, ensure, Res.ok_bind]
  rw [hf, hpay]
  simp only [Fields.segs]
  rw [hz]
  simp [h1, knownAlg, h4, Res.ok_bind]

theorem RuleAbiding.of_append {used : Used} {a b : List Order} (h : RuleAbiding used (a ++ b)) : RuleAbiding used a where
  proper := fun o ho => h.proper o (by simp [ho])
  first := fun o ho => h.first o (by rw [List.head?_append, ho]; rfl)
  restore := fun pre x y z post e => h.restore pre x y z (post ++ b) (by rw [e]; simp)
  kind := fun x hx y hy => h.kind x (by simp [hx]) y (by simp [hy])
  dates := (List.pairwise_append.mp h.dates).1
  ids := by
    have := h.ids
    rw [List.map_append] at this
    cases used with
    | unique old => exact ⟨(List.nodup_append.mp this.1).1, fun i hi => this.2 i (by simp [hi])⟩
    | sorted lo hi => exact fun pre x post e => this pre x (post ++ b.map (·.receiptId)) (by rw [e]; simp)

end

end RKSV
