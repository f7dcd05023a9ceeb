import Verif.Lemmas.CashReg
import Verif.Props.VerifyGroup
/-
Histories of a cash register obey the rules of the verifier.
-/
namespace RKSV

section
variable [PyEnv]

theorem Call.signature {reg reg' : CashRegister} {o : Order} {r : Receipt} (c : Call reg o reg' r)
    {sig : Str} (hd : '.' ∉ sig)
    (hj : c.jws = joinWith '.' [encodeSeg jwsHeader, encodeSeg (c.draft.toPayload R1), sig]) :
    r.signature = sig ∧ r.header = jwsHeader := by
  have ht := c.htake
  rw [hj] at ht
  obtain ⟨_, _, hr⟩ := sign_eq_ok.mp (takeSignature_ok hd ht)
  exact ⟨by rw [hr], by rw [hr]⟩

omit [PyEnv] in
theorem failureMark_eq : failureMark = b64Text true failBytes := by decide +kernel

theorem SignedFor.service {v : Verifier} {o : Order} {r : Receipt} (h : SignedFor v o r) :
    ServiceSigned o.sys r := by
  intro z s a jws e
  unfold SignedFor at h
  rw [e] at h
  obtain ⟨h1, h2, h3, -⟩ := h
  refine ⟨r.signature, h2, ?_⟩
  rw [h1, Receipt.toJWS, h3, encodeSeg_eq, encodeSeg_eq]
  simp [joinWith]

/-- Signed or marked, as the signature system was able to. -/
theorem Call.auth {reg reg' : CashRegister} {o : Order} {r : Receipt} (c : Call reg o reg' r)
    {v : Verifier} (h : SignedFor v o r) : (Unsigned r ↔ o.Fails) ∧
      ((¬Unsigned r ∧ ∃ k, KeyFor v r k ∧ SignatureValid r k) ∨ (Unsigned r ∧ ¬WrongCert v r)) := by
  have hsign := c.hsign
  have hdr := takeSignature_draft c.htake
  have mark : '.' ∉ b64Text true failBytes := not_mem_b64Text (not_isB64_dot true)
  have broken : c.jws = brokenJWS (c.draft.toPayload R1) → Unsigned r := by
    intro e
    unfold Unsigned
    rw [(c.signature mark e).1, failureMark_eq]
  unfold SignedFor at h
  unfold Order.Fails
  cases ho : o.sys with
  | broken z s =>
    rw [ho] at hsign h
    have hu := broken (Except.ok.inj hsign).symm
    exact ⟨by simp [hu], .inr ⟨hu, h⟩⟩
  | working z s k =>
    rw [ho] at hsign h
    have hs := c.signature (sig := r1Sign (c.draft.toPayload R1) k o.rand)
      (not_mem_b64Text (not_isB64_dot true)) (Except.ok.inj hsign).symm
    have hu : ¬Unsigned r := by
      unfold Unsigned
      rw [hs.1, failureMark_eq]
      intro e
      have := congrArg List.length (b64Text_injective e)
      rw [PyEnv.sign_length] at this
      have h34 : failBytes.length = 34 := by decide
      omega
    refine ⟨by simp [hu], .inl ⟨hu, _, h, ?_⟩⟩
    refine ⟨sign k o.rand (utf8Enc (encodeSeg jwsHeader ++ '.' :: encodeSeg (c.draft.toPayload R1))), ?_, ?_⟩
    · rw [hs.1]; exact b64Decode_restorePad _ _
    · have : signingInput r = utf8Enc (encodeSeg jwsHeader ++ '.' :: encodeSeg (c.draft.toPayload R1)) := by
        unfold signingInput
        rw [hs.2, hdr, encodeSeg_eq, encodeSeg_eq]; rfl
      rw [this]
      exact PyEnv.verify_sign _ _ _
  | remote z s a ans =>
    rw [ho] at hsign h
    cases ans with
    | none =>
      simp only [SigSystem.sign, Res.bind_eq_ok, ensure_eq_ok] at hsign
      obtain ⟨_, _, e⟩ := hsign
      have hu := broken (Except.ok.inj e).symm
      exact ⟨by simp [hu], .inr ⟨hu, h⟩⟩
    | some j =>
      obtain ⟨_, _, _, hu, hk⟩ := h
      exact ⟨by simp [hu], .inl ⟨hu, hk⟩⟩

theorem amountCents_zero_iff {x : PyFloat} (h : ∃ c, InCents x c) :
    ZeroAmount (fmtSum x) ↔ InCents x 0 := by
  obtain ⟨c, hc⟩ := h
  rw [← amountCents_eq_zero, (fmtSum_cents hc).2]
  constructor
  · rintro rfl; exact hc
  · intro h0
    rw [← (fmtSum_cents hc).2, (fmtSum_cents h0).2]

theorem Call.zero {reg reg' : CashRegister} {o : Order} {r : Receipt} (c : Call reg o reg' r)
    (hz : 5 ≤ reg.size) (hp : o.Proper) : StandardNull r ↔ o.Zero := by
  obtain ⟨k1, k2, -⟩ := c.kind hz
  unfold StandardNull Order.Zero
  rw [k1, k2, c.fields]
  simp only [Order.fields, List.mem_cons, List.not_mem_nil, or_false, forall_eq_or_imp, forall_eq,
    amountCents_zero_iff hp.sumA, amountCents_zero_iff hp.sumB, amountCents_zero_iff hp.sumC,
    amountCents_zero_iff hp.sumD, amountCents_zero_iff hp.sumE]
  cases o.dummy <;> cases o.reversal <;> simp

/-- What is known about a receipt made with the register, whatever its state. -/
structure Facts (reg : CashRegister) (o : Order) (r : Receipt) : Prop where
  valid : Entry.Valid (r.toJWS R1, r)
  registerId : r.registerId = reg.registerId
  receiptId : r.receiptId = o.receiptId
  zda : r.zda = o.sys.zda
  dateTime : r.dateTime = o.dateTime
  unsigned : Unsigned r ↔ o.Fails
  auth : ∀ v, SignedFor v o r →
    (¬Unsigned r ∧ ∃ k, KeyFor v r k ∧ SignatureValid r k) ∨ (Unsigned r ∧ ¬WrongCert v r)
  zero : StandardNull r ↔ o.Zero
  turnover : ¬Training r → ∃ n, r.turnover = .ok n

/-- What one call did. -/
structure Step (reg : CashRegister) (r : Receipt) (reg' : CashRegister) : Prop where
  last : reg'.last = some (r.toJWS R1)
  registerId : reg'.registerId = reg.registerId
  key : reg'.key = reg.key
  size : reg'.size = reg.size
  chain : r.previousChain = chainValue (chainedTo reg)
  counter : reg'.counter = reg.counter + sold [(r.toJWS R1, r)]
  decrypts : ¬Training r → ¬Reversal r → r.decryptTurnoverCounter reg.key = .ok reg'.counter

theorem call_facts {v : Verifier} {reg reg' : CashRegister} {o : Order} {r : Receipt}
    (h : reg.receipt o = (reg', .ok r)) (hz : 5 ≤ reg.size ∧ reg.size ≤ 16) (hp : o.Proper)
    (hs : SignedFor v o r) : Facts reg o r ∧ Step reg r reg' := by
  obtain ⟨c⟩ := call_of_receipt h
  obtain ⟨g, hj⟩ := c.good hz hp.serial hs.service
  obtain ⟨k1, k2, k3⟩ := c.kind hz.1
  obtain ⟨a1, -⟩ := c.auth hs
  obtain ⟨a, ha⟩ := hp.sumA
  obtain ⟨b, hb⟩ := hp.sumB
  obtain ⟨cc, hc⟩ := hp.sumC
  obtain ⟨d, hd⟩ := hp.sumD
  obtain ⟨e, he⟩ := hp.sumE
  have ht := c.turnover ha hb hc hd he
  have hf := c.fields
  refine ⟨⟨fromJWS_toJWS g, by rw [hf]; rfl, by rw [hf]; rfl, by rw [hf]; rfl, ?_, a1,
    fun v hv => (c.auth hv).2,
    c.zero hz.1 hp, ?_⟩, ⟨?_, ?_, ?_, ?_, by rw [hf]; rfl, ?_, ?_⟩⟩
  · have := c.values.1
    rw [strptime_strftime hp.date hp.year] at this
    exact (Option.some.inj this).symm
  · intro hn
    rw [k1] at hn
    rw [if_neg hn] at ht
    obtain ⟨n, hn, -⟩ := ht
    exact ⟨n, hn⟩
  · rw [c.reg_eq, hj]
  · rw [c.reg_eq]
  · rw [c.reg_eq]
  · rw [c.reg_eq]
  · unfold sold
    by_cases hdm : o.dummy = true
    · rw [if_pos hdm] at ht
      have : Training r := k1.mpr hdm
      simp [ht, this]
    · rw [if_neg hdm] at ht
      obtain ⟨n, h1, h2⟩ := ht
      have : ¬Training r := fun h => hdm (k1.mp h)
      simp [this, h1, h2]
  · intro n1 n2
    rw [k1] at n1
    rw [k2] at n2
    have hd : o.dummy = false := by simpa using n1
    exact k3 hd (by simpa [hd] using n2)

/-- The entries of the receipts. -/
def entries (rs : List Receipt) : List Entry := rs.map fun r => (r.toJWS R1, r)

theorem run_cons {reg reg' : CashRegister} {o : Order} {os : List Order} {l : List Receipt} :
    reg.run (o :: os) = (reg', some l) ↔ ∃ reg1 r rs, l = r :: rs ∧
      reg.receipt o = (reg1, .ok r) ∧ reg1.run os = (reg', some rs) := by
  simp only [CashRegister.run]
  split
  · rename_i reg1 r hr
    simp only [Prod.mk.injEq, Option.map_eq_some_iff]
    constructor
    · rintro ⟨h2, rs', h3, rfl⟩
      exact ⟨reg1, r, rs', rfl, hr, Prod.ext h2 h3⟩
    · rintro ⟨reg2, r', rs', rfl, h1, h2⟩
      rw [hr] at h1
      cases h1
      exact ⟨by rw [h2], rs', by rw [h2], rfl⟩
  · rename_i reg1 e hr
    simp [hr]

/-- What a whole run did. -/
structure Session (reg : CashRegister) (os : List Order) (rs : List Receipt)
    (reg' : CashRegister) : Prop where
  facts : List.Forall₂ (Facts reg) os rs
  last : reg'.last = (rs.getLast?.map fun r => r.toJWS R1).or reg.last
  registerId : reg'.registerId = reg.registerId
  key : reg'.key = reg.key
  size : reg'.size = reg.size
  counter : reg'.counter = reg.counter + sold (entries rs)

theorem Facts.congr {reg reg' : CashRegister} {o : Order} {r : Receipt}
    (h : Facts reg o r) (e : reg'.registerId = reg.registerId) : Facts reg' o r :=
  ⟨h.valid, h.registerId.trans e.symm, h.receiptId, h.zda, h.dateTime, h.unsigned, h.auth, h.zero,
    h.turnover⟩

theorem run_session {reg reg' : CashRegister} {os : List Order} {rs : List Receipt}
    (h : reg.run os = (reg', some rs)) (hz : 5 ≤ reg.size ∧ reg.size ≤ 16)
    (hp : ∀ o ∈ os, o.Proper) (hs : List.Forall₂ (fun o r => ∃ v, SignedFor v o r) os rs) :
    Session reg os rs reg' := by
  induction os generalizing reg rs with
  | nil =>
    cases hs
    simp only [CashRegister.run, Prod.mk.injEq] at h
    obtain ⟨rfl, -⟩ := h
    exact ⟨.nil, by simp, rfl, rfl, rfl, by simp [entries, sold]⟩
  | cons o os ih =>
    obtain ⟨reg1, r, rs', rfl, h1, h2⟩ := run_cons.mp h
    cases hs with
    | cons hs1 hs2 =>
      obtain ⟨v, hs1⟩ := hs1
      obtain ⟨f, st⟩ := call_facts h1 hz (hp o (by simp)) hs1
      have se := ih h2 (by rw [st.size]; exact hz) (fun o ho => hp o (by simp [ho])) hs2
      refine ⟨.cons f ?_, ?_, se.registerId.trans st.registerId, se.key.trans st.key,
        se.size.trans st.size, ?_⟩
      · exact se.facts.imp fun o r hf => hf.congr st.registerId.symm
      · rw [se.last, st.last]
        cases rs' with
        | nil => simp
        | cons => simp [List.getLast?_cons]
      · rw [se.counter, st.counter]
        have : entries (r :: rs') = [(r.toJWS R1, r)] ++ entries rs' := rfl
        rw [this, sold_append]
        ring

theorem run_split {reg reg' : CashRegister} {os : List Order} {pre post : List Receipt} {x : Receipt}
    (h : reg.run os = (reg', some (pre ++ x :: post))) :
    ∃ os1 o os2 reg1 reg2, os = os1 ++ o :: os2 ∧ os1.length = pre.length ∧
      reg.run os1 = (reg1, some pre) ∧
      reg1.receipt o = (reg2, .ok x) ∧ reg2.run os2 = (reg', some post) := by
  induction pre generalizing reg os with
  | nil =>
    cases os with
    | nil => simp [CashRegister.run] at h
    | cons o os =>
      obtain ⟨reg1, r, rs', e, h1, h2⟩ := run_cons.mp h
      cases e
      exact ⟨[], o, os, reg, reg1, rfl, rfl, rfl, h1, h2⟩
  | cons p pre ih =>
    cases os with
    | nil => simp [CashRegister.run] at h
    | cons o os =>
      obtain ⟨reg1, r, rs', e, h1, h2⟩ := run_cons.mp h
      cases e
      obtain ⟨os1, o', os2, ra, rb, rfl, hl, h3, h4, h5⟩ := ih h2
      exact ⟨o :: os1, o', os2, ra, rb, rfl, by simp [hl], run_cons.mpr ⟨_, _, _, rfl, h1, h3⟩, h4, h5⟩

theorem forall₂_append_right {α β : Type} {R : α → β → Prop} {l : List α} {a b : List β}
    (h : List.Forall₂ R l (a ++ b)) :
    ∃ l1 l2, l = l1 ++ l2 ∧ List.Forall₂ R l1 a ∧ List.Forall₂ R l2 b := by
  induction a generalizing l with
  | nil => exact ⟨[], l, rfl, .nil, h⟩
  | cons x a ih =>
    cases h with
    | cons h1 h2 =>
      obtain ⟨l1, l2, rfl, h3, h4⟩ := ih h2
      exact ⟨_ :: l1, l2, rfl, .cons h1 h3, h4⟩

theorem map_receiptId {reg : CashRegister} {os : List Order} {rs : List Receipt}
    (h : List.Forall₂ (Facts reg) os rs) : rs.map (·.receiptId) = os.map (·.receiptId) := by
  induction h with
  | nil => rfl
  | cons h1 _ ih => simp [h1.receiptId, ih]

theorem facts_valid {reg : CashRegister} {os : List Order} {rs : List Receipt}
    (h : List.Forall₂ (Facts reg) os rs) : ∀ r ∈ rs, Entry.Valid (r.toJWS R1, r) := by
  induction h with
  | nil => simp
  | cons h1 _ ih =>
    intro r hr
    rcases List.mem_cons.mp hr with rfl | hr
    · exact h1.valid
    · exact ih r hr

theorem getLast?_eq_some {α : Type} {l : List α} {x : α} (h : l.getLast? = some x) :
    ∃ q, l = q ++ [x] := by
  obtain ⟨q, rfl⟩ := List.getLast?_eq_some_iff.mp h
  exact ⟨q, rfl⟩

theorem freshIds_at {used : Used} {os1 os2 : List Order} {o : Order} {rs : List Receipt}
    (h : FreshIds used ((os1 ++ o :: os2).map (·.receiptId)))
    (e : rs.map (·.receiptId) = os1.map (·.receiptId)) : FreshId used (entries rs) o.receiptId := by
  cases used with
  | unique old =>
    obtain ⟨h1, h2⟩ := h
    refine ⟨h2 _ (by simp), ?_⟩
    intro y hy
    obtain ⟨r, hr, rfl⟩ := List.mem_map.mp hy
    have : r.receiptId ∈ os1.map (·.receiptId) := by
      rw [← e]; exact List.mem_map_of_mem hr
    rw [List.map_append, List.map_cons, List.nodup_append] at h1
    exact h1.2.2 _ this _ (by simp)
  | sorted lo hi =>
    intro m hm
    refine h (os1.map (·.receiptId)) o.receiptId (os2.map (·.receiptId)) (by simp) m ?_
    rw [← e, ← hm]
    simp [entries, List.getLast?_map, Option.map_map, Function.comp_def]

/-- The receipts of a register whose owner obeys the rules obey the rules of the verifier. -/
theorem session_rule_at {c : GroupCtx} {s : RegState} {used : Used} {reg reg' : CashRegister}
    {os : List Order} {pre' post' : List Receipt} {r : Receipt} (h : reg.run os = (reg', some (pre' ++ r :: post')))
    (hz : 5 ≤ reg.size ∧ reg.size ≤ 16) (ho : RuleAbiding used os)
    (hs : List.Forall₂ (fun o r => ∃ v, SignedFor v o r) os (pre' ++ r :: post')) (st : Starts c reg os)
    (hn : s.needRestore = false) (hx : s.chainNext = none ∨ s.chainNext = some [])
    (hc : s.counter = reg.counter) (hk : ∀ k, c.key = some k → k = reg.key ∧ k.length = 32)
    (hsig : ∀ o, os[pre'.length]? = some o → SignedFor c.verifier o r) :
    Rules c s none used (entries pre') (r.toJWS R1, r) := by
  obtain ⟨os1, o, os2, reg1, reg2, rfl, hl, h1, h2, -⟩ := run_split h
  replace hsig : SignedFor c.verifier o r := hsig o (by rw [← hl]; simp)
  have hs1 : List.Forall₂ (fun o r => ∃ v, SignedFor v o r) os1 pre' := by
    obtain ⟨l1, l2, e, f1, f2⟩ := forall₂_append_right hs
    have hl' : os1.length = l1.length := hl.trans f1.length_eq.symm
    obtain ⟨rfl, rfl⟩ := List.append_inj e hl'
    exact f1
  have hp1 : ∀ o ∈ os1, o.Proper := fun o h => ho.proper o (by simp [h])
  have se := run_session h1 hz hp1 hs1
  obtain ⟨f, sp⟩ := call_facts h2 (by rw [se.size]; exact hz) (ho.proper o (by simp)) hsig
  replace f := f.congr se.registerId.symm
  have hblank : ¬∃ v, Override s (entries pre') v := by
    rintro ⟨v, -, hv, hne⟩
    rcases hx with hx | hx <;> rw [hx] at hv <;> simp_all
  -- the first receipt
  have hfirst : predecessor none (entries pre') = none → pre' = [] ∧ os1 = [] ∧ reg1 = reg := by
    intro hp
    have : pre' = [] := by
      simpa [predecessor, entries] using hp
    subst this
    have : os1 = [] := List.eq_nil_of_length_eq_zero (by simpa using hl)
    subst this
    simp only [CashRegister.run, Prod.mk.injEq] at h1
    exact ⟨rfl, rfl, h1.1.symm⟩
  have hhead : os1 = [] → (os1 ++ o :: os2).head? = some o := by rintro rfl; rfl
  -- the receipt before
  have hprev : ∀ y, predecessor none (entries pre') = some y →
      ∃ q p os0 a, pre' = q ++ [p] ∧ os1 = os0 ++ [a] ∧ y = (p.toJWS R1, p) ∧
        Facts reg a p ∧ List.Forall₂ (Facts reg) os0 q := by
    intro y hy
    have hy' : (entries pre').getLast? = some y := by
      unfold predecessor at hy
      simpa using hy
    rw [entries, List.getLast?_map, Option.map_eq_some_iff] at hy'
    obtain ⟨p, hp, rfl⟩ := hy'
    obtain ⟨q, rfl⟩ := getLast?_eq_some hp
    obtain ⟨l1, l2, rfl, f1, f2⟩ := forall₂_append_right se.facts
    cases f2 with
    | @cons a _ _ _ fa fn => cases fn; exact ⟨q, p, l1, a, rfl, rfl, rfl, fa, f1⟩
  refine ⟨f.auth _ hsig, ?_, ?_, ?_, ?_, ?_, ?_, ?_, ?_⟩
  · -- restore
    intro hd
    generalize he : entries pre' = ep at hd
    cases hd with
    | saved hr => rw [hn] at hr; cases hr
    | late pre0 p y hp hu hsy hnn =>
      have hlast : predecessor none (entries pre') = some y := by rw [he, predecessor_snoc]
      obtain ⟨q, y', os0, b, rfl, rfl, rfl, fb, fq⟩ := hprev y hlast
      have : entries q = pre0 := by
        rw [entries, List.map_append] at he
        exact (List.append_inj' he rfl).1
      subst this
      have hp' : (entries q).getLast? = some p := by simpa [predecessor] using hp
      rw [entries, List.getLast?_map, Option.map_eq_some_iff] at hp'
      obtain ⟨p', hp', rfl⟩ := hp'
      obtain ⟨q', rfl⟩ := getLast?_eq_some hp'
      obtain ⟨l1, l2, rfl, _, f2⟩ := forall₂_append_right fq
      cases f2 with
      | @cons a _ _ _ fa fn =>
        cases fn
        have := ho.restore l1 a b o os2 (by simp) (fa.unsigned.mp hu)
          (fun h => hsy (fb.unsigned.mpr h)) (fun h => hnn (fb.zero.mpr h))
        exact ⟨fun h => this.1 (f.unsigned.mp h), f.zero.mpr this.2⟩
  · -- initial
    intro hp
    obtain ⟨rfl, rfl, rfl⟩ := hfirst hp
    obtain ⟨n1, n2⟩ := ho.first o rfl
    refine ⟨fun h => n1 (f.unsigned.mp h), f.zero.mpr n2, ?_⟩
    intro t ht htn
    cases st with
    | alone _ h2 => rcases h2 with h2 | h2 <;> rw [h2] at ht <;> simp_all
    | cluster y hv _ h2 _ hz ho =>
      rw [h2] at ht
      cases ht
      exact ⟨by rw [f.zda]; exact (ho o rfl).1, y.2, hv, hz⟩
  · -- same register
    intro y hy
    cases hy with
    | previous hy =>
      obtain ⟨q, p, os0, a, rfl, rfl, rfl, fa, -⟩ := hprev y hy
      refine ⟨fa.registerId.trans f.registerId.symm, ?_, ?_⟩
      · rw [show (p.toJWS R1, p).2.zda = _ from fa.zda, f.zda]
        exact ho.kind a (by simp) o (by simp)
      · rw [f.dateTime, show (p.toJWS R1, p).2.dateTime = _ from fa.dateTime]
        have := ho.dates
        rw [List.pairwise_append] at this
        exact this.2.2 a (by simp) o (by simp)
    | cluster hp hps hne hv =>
      obtain ⟨rfl, rfl, rfl⟩ := hfirst hp
      cases st with
      | alone _ h2 => rcases h2 with h2 | h2 <;> rw [h2] at hps <;> simp_all
      | cluster y' hv' _ h2 hr hz ho =>
        rw [h2] at hps
        have := hv'.unique hv (Option.some.inj hps)
        subst this
        obtain ⟨o1, o2⟩ := ho o rfl
        exact ⟨hr.trans f.registerId.symm, by rw [hz, f.zda, o1], by rw [f.dateTime]; exact o2⟩
  · -- fresh ID
    intro _
    rw [f.receiptId]
    exact freshIds_at ho.ids (map_receiptId se.facts)
  · intro v hv; exact absurd ⟨v, hv⟩ hblank
  · -- chaining
    intro _ y hy
    show r.previousChain = _
    rw [sp.chain]
    congr 1
    cases hy with
    | previous hy =>
      obtain ⟨q, p, os0, a, rfl, rfl, rfl, fa, -⟩ := hprev y hy
      unfold chainedTo
      rw [se.last]
      simp [fa.valid.ne_nil]
    | cluster hp hps hne hv =>
      obtain ⟨rfl, rfl, rfl⟩ := hfirst hp
      cases st with
      | alone _ h2 => rcases h2 with h2 | h2 <;> rw [h2] at hps <;> simp_all
      | cluster y' hv' h1 h2 hr hz ho =>
        rw [h2] at hps
        have := Option.some.inj hps
        unfold chainedTo
        rw [h1, this]
        simp [hne]
  · intro _ hb
    have hp : predecessor none (entries pre') = none := by
      cases hp : predecessor none (entries pre') with
      | none => rfl
      | some y => exact absurd ⟨y, .previous y hp⟩ hb
    obtain ⟨rfl, rfl, rfl⟩ := hfirst hp
    show r.previousChain = _
    rw [sp.chain, f.registerId]
    cases st with
    | alone h1 _ =>
      unfold chainedTo
      rcases h1 with h1 | h1 <;> rw [h1] <;> simp
    | cluster y' hv' _ h2 hr hz ho => exact absurd ⟨y', .cluster y' hp h2 hv'.ne_nil hv'⟩ hb
  · -- counter
    intro k hck ht
    obtain ⟨rfl, hlen⟩ := hk k hck
    refine ⟨hlen, f.turnover ht, fun hr => ?_⟩
    have := sp.decrypts ht hr
    rw [se.key] at this
    rw [this, sp.counter, se.counter, hc, sold_append, add_assoc]

theorem session_rules {c : GroupCtx} {s : RegState} {used : Used} {reg reg' : CashRegister}
    {os : List Order} {rs : List Receipt} (h : reg.run os = (reg', some rs))
    (hz : 5 ≤ reg.size ∧ reg.size ≤ 16) (ho : RuleAbiding used os)
    (hs : List.Forall₂ (SignedFor c.verifier) os rs) (st : Starts c reg os)
    (hn : s.needRestore = false) (hx : s.chainNext = none ∨ s.chainNext = some [])
    (hc : s.counter = reg.counter) (hk : ∀ k, c.key = some k → k = reg.key ∧ k.length = 32) :
    AllRules c s none used (entries rs) := by
  intro pre x post e
  obtain ⟨pre', rest, rfl, rfl, e2⟩ := List.map_eq_append_iff.mp e
  obtain ⟨r, post', rfl, rfl, rfl⟩ := List.map_eq_cons_iff.mp e2
  refine session_rule_at h hz ho (hs.imp fun _ _ h => ⟨_, h⟩) st hn hx hc hk ?_
  intro o ho
  obtain ⟨l1, l2, rfl, f1, f2⟩ := forall₂_append_right hs
  rw [← f1.length_eq] at ho
  cases f2 with
  | cons f2 _ =>
    simp only [List.getElem?_append_right (le_refl _), Nat.sub_self, List.getElem?_cons_zero, Option.some.injEq] at ho
    exact ho ▸ f2

end

end RKSV
