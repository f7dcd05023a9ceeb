import Verif.Lemmas.Falsify
import Verif.Props.CashRegHistory
/-
Falsified receipts are refused with the exception announced.
-/
namespace RKSV

section
variable [PyEnv]

/-- The first fault of a falsified receipt is the one announced, wherever the receipt would have been in order. -/
theorem falsified_fault {c : GroupCtx} {s : RegState} {saved : Option Entry} {used used₀ : Used} {pre : List Entry}
    {reg1 reg' reg2 : CashRegister} {rs : List Receipt} {o : Order} {r x : Receipt} {v : Falsify} {m : Mangled} {e : Err}
    {z sr : Str} {priv : PrivKey} (hz1 : 5 ≤ reg1.size ∧ reg1.size ≤ 16) (hpo : o.Proper) (hso : SignedFor c.verifier o r)
    (ho : o.sys = .working z sr priv) (h2 : reg1.receipt o = (reg', .ok r))
    (hm : reg1.receiptWith o v = (reg2, .ok m)) (hx : Entry.Valid (m.toJWS c!"R1", x))
    (hck : ∀ k, c.key = some k → k = reg1.key ∧ k.length = 32)
    (hr : Rules c s saved used pre (r.toJWS R1, r)) (hrs : rs = [] ↔ predecessor saved pre = none)
    (hlast : ∀ y, rs.getLast? = some y → predecessor saved pre = some (y.toJWS R1, y))
    (hids : ∀ t ids, used₀ = .unique ids → (t ∈ ids ∨ ∃ y ∈ rs, y.receiptId = t) →
      ∃ ids', used = .unique ids' ∧ (t ∈ ids' ∨ ∃ y ∈ pre, y.2.receiptId = t))
    (hfirst : x.receiptId = r.receiptId → (if saved = none then pre.head?.map (·.1) else s.start) ≠ some (m.toJWS c!"R1"))
    (ha : Announced c used₀ rs o r x v e) : FirstOf (faults c s saved used pre (m.toJWS c!"R1", x)) e := by
  obtain ⟨f, st⟩ := call_facts h2 hz1 hpo hso
  obtain ⟨d⟩ := call_of_receipt h2
  obtain ⟨fc⟩ := fcall_of_receipt hm
  have hkey : KeyFor c.verifier r (pubOf priv) := by
    unfold SignedFor at hso
    rwa [ho] at hso
  have hn : fc.n = reg'.counter := by
    have := fc.book
    rw [d.book] at this
    exact (Except.ok.inj this).symm
  -- the falsified receipt
  have hjws : m.jws = none := by
    have := congrArg (fun m : Mangled => m.jws) fc.m_eq
    rw [show m.jws = v.jwsOverride from this]
    cases ha <;> rfl
  have htext : m.toJWS c!"R1" = m.receipt.toJWS c!"R1" := by
    unfold Mangled.toJWS
    rw [hjws]
    rfl
  have hx' : fromJWS (m.receipt.toJWS c!"R1") = .ok (x, c!"R1") := by rw [← htext]; exact hx
  obtain ⟨-, xf, xh, xs⟩ := fromJWS_fields hx'
  have gx := (good_of_jws hx').1
  have gr := (good_of_jws f.valid).1
  have A := fc.agrees d xf gx.init gr.init
  obtain ⟨dk1, dk2, dk3⟩ := d.kind hz1.1
  -- what depends on several fields
  have hnull : v.encTurnoverCounter = none → v.turnoverCounterSize = none → v.sumA = none → v.sumB = none → v.sumC = none →
      v.sumD = none → v.sumE = none → StandardNull r → StandardNull x := by
    intro e1 e2 a1 a2 a3 a4 a5 h
    obtain ⟨k1, k2, -⟩ := fc.kind xf e1 (by rw [e2]; exact hz1.1)
    unfold StandardNull at h ⊢
    rw [k1, k2, A.sumA a1, A.sumB a2, A.sumC a3, A.sumD a4, A.sumE a5]
    rwa [dk1, dk2] at h
  have hturn : v.sumA = none → v.sumB = none → v.sumC = none → v.sumD = none → v.sumE = none → x.turnover = r.turnover :=
    fun a1 a2 a3 a4 a5 => Good.turnover_congr gx.init gr.init (A.sumA a1) (A.sumB a2) (A.sumC a3) (A.sumD a4) (A.sumE a5)
  have hsgn := fun v1 v2 v3 => fc.signed xf xh xs ho v1 v2 v3
  have hkx : v.zda = none → v.certSerial = none → KeyFor c.verifier x (pubOf priv) :=
    fun h1 h2 => keyFor_congr (A.zda h1) (A.certSerial h2) hkey
  have hkx' : (∃ k, KeyFor c.verifier r k ∧ KeyFor c.verifier x k) → KeyFor c.verifier x (pubOf priv) := by
    rintro ⟨k, h1, h2⟩
    rwa [key_unique (.jws _ f.valid) h1 hkey] at h2
  have hpred : rs ≠ [] → predecessor saved pre ≠ none := fun h1 h2 => h1 (hrs.mpr h2)
  have hpred0 : rs = [] → predecessor saved pre = none := hrs.mp
  have hbefore : rs ≠ [] ∨ InCluster c → ∃ y, Before c.prevStart saved pre y := by
    intro h
    cases hp : predecessor saved pre with
    | some y => exact ⟨y, .previous y hp⟩
    | none =>
      rcases h with h | ⟨t, h1, h2⟩
      · exact absurd hp (hpred h)
      · obtain ⟨-, p, hv, -⟩ := (hr.initial hp).2.2 t h1 h2
        exact ⟨(t, p), .cluster _ hp h1 h2 hv⟩
  have hlen32 : ∀ k, c.key = some k → k.length = 32 := fun k h => (hck k h).2
  change faultsFrom c s saved used pre (m.toJWS c!"R1", x) 0 e
  cases ha with
  | signature t hmk h =>
    have hk := hkx rfl rfl
    have hs : x.signature = t := by
      rw [xs]
      exact congrArg (fun m : Mangled => m.receipt.signature) fc.m_eq
    refine .inr ⟨fun _ g => keyFor_not_wrong hk g.1, .inr ⟨fun _ g => g.2.1 ⟨_, hk⟩, .inl ⟨?_, ?_, rfl⟩⟩⟩
    · show x.signature ≠ _
      rw [hs]; exact hmk
    · intro k hk
      exact h k (keyFor_congr (A.zda rfl).symm (A.certSerial rfl).symm hk)
  | certificate z t h => exact .inl ⟨h, rfl⟩
  | device z t hw h => exact .inr ⟨fun _ g => hw g.1, .inl ⟨(hsgn rfl rfl rfl).1, h, rfl⟩⟩
  | system z t hk hne h =>
    obtain ⟨u, sv⟩ := hsgn rfl rfl rfl
    have nl := hnull rfl rfl rfl rfl rfl rfl rfl
    refine skip_signature (hkx' hk) sv u <| skip_restore hr nl u <| skip_null hr nl <|
      skip_cluster hr (fun g => absurd g (hpred hne)) <| skip_receiptId hr (A.receiptId rfl) <|
      skip_registerId hr (A.registerId rfl) <| .inl ⟨?_, rfl⟩
    obtain ⟨y, hy⟩ := hbefore (.inl hne)
    refine ⟨y, hy, ?_⟩
    rw [(hr.same y hy).2.1]
    exact fun g => h g.symm
  | cluster z t hk hne hc h =>
    obtain ⟨u, sv⟩ := hsgn rfl rfl rfl
    have nl := hnull rfl rfl rfl rfl rfl rfl rfl
    exact skip_signature (hkx' hk) sv u <| skip_restore hr nl u <| skip_null hr nl <| .inl ⟨hpred0 hne, hc, h, rfl⟩
  | receiptId t ids hu hne h =>
    obtain ⟨u, sv⟩ := hsgn rfl rfl rfl
    have nl := hnull rfl rfl rfl rfl rfl rfl rfl
    refine skip_signature (hkx rfl rfl) sv u <| skip_restore hr nl u <| skip_null hr nl <|
      skip_cluster hr (fun _ g => (A.zda rfl).trans g) <| .inl ⟨hbefore hne, ?_⟩
    obtain ⟨ids', hu', h'⟩ := hids t ids hu h
    subst hu'
    refine ⟨?_, rfl⟩
    rw [show (m.toJWS c!"R1", x).2.receiptId = t from A.receiptId' t rfl]
    exact h'
  | registerId t hne h =>
    obtain ⟨u, sv⟩ := hsgn rfl rfl rfl
    have nl := hnull rfl rfl rfl rfl rfl rfl rfl
    refine skip_signature (hkx rfl rfl) sv u <| skip_restore hr nl u <| skip_null hr nl <|
      skip_cluster hr (fun _ g => (A.zda rfl).trans g) <| skip_receiptId hr (A.receiptId rfl) <| .inl ⟨?_, rfl⟩
    obtain ⟨y, hy⟩ := hbefore hne
    refine ⟨y, hy, ?_⟩
    rw [(hr.same y hy).1, show (m.toJWS c!"R1", x).2.registerId = t from A.registerId' t rfl]
    exact h.symm
  | date t y hy h =>
    obtain ⟨u, sv⟩ := hsgn rfl rfl rfl
    have nl := hnull rfl rfl rfl rfl rfl rfl rfl
    refine skip_signature (hkx rfl rfl) sv u <| skip_restore hr nl u <| skip_null hr nl <|
      skip_cluster hr (fun _ g => (A.zda rfl).trans g) <| skip_receiptId hr (A.receiptId rfl) <|
      skip_registerId hr (A.registerId rfl) <| skip_system hr (A.zda rfl) <| .inl ⟨⟨(y.toJWS R1, y), .previous _ (hlast y hy), h⟩, rfl⟩
  | chain t hne h =>
    obtain ⟨u, sv⟩ := hsgn rfl rfl rfl
    have nl := hnull rfl rfl rfl rfl rfl rfl rfl
    have hc : x.previousChain ≠ r.previousChain := by rw [A.chain' t rfl]; exact h
    refine skip_signature (hkx rfl rfl) sv u <| skip_restore hr nl u <| skip_null hr nl <|
      skip_cluster hr (fun _ g => (A.zda rfl).trans g) <| skip_receiptId hr (A.receiptId rfl) <|
      skip_registerId hr (A.registerId rfl) <| skip_system hr (A.zda rfl) <| skip_date hr (A.dateTime rfl) <|
      .inl ⟨wrongChain hr hc (A.registerId rfl), ?_, rfl⟩
    rintro (g | g)
    · exact hpred hne g
    · exact hfirst (A.receiptId rfl) g
  | chainCluster t hne hcl h =>
    obtain ⟨u, sv⟩ := hsgn rfl rfl rfl
    have nl := hnull rfl rfl rfl rfl rfl rfl rfl
    have hc : x.previousChain ≠ r.previousChain := by rw [A.chain' t rfl]; exact h
    exact skip_signature (hkx rfl rfl) sv u <| skip_restore hr nl u <| skip_null hr nl <|
      skip_cluster hr (fun _ g => (A.zda rfl).trans g) <| skip_receiptId hr (A.receiptId rfl) <|
      skip_registerId hr (A.registerId rfl) <| skip_system hr (A.zda rfl) <| skip_date hr (A.dateTime rfl) <|
      .inr ⟨fun _ g => g.2.1 (.inl (hpred0 hne)), .inl ⟨wrongChain hr hc (A.registerId rfl), .inl (hpred0 hne), hcl, rfl⟩⟩
  | chainInitial t hne hcl h =>
    obtain ⟨u, sv⟩ := hsgn rfl rfl rfl
    have nl := hnull rfl rfl rfl rfl rfl rfl rfl
    have hc : x.previousChain ≠ r.previousChain := by rw [A.chain' t rfl]; exact h
    exact skip_signature (hkx rfl rfl) sv u <| skip_restore hr nl u <| skip_null hr nl <|
      skip_cluster hr (fun _ g => (A.zda rfl).trans g) <| skip_receiptId hr (A.receiptId rfl) <|
      skip_registerId hr (A.registerId rfl) <| skip_system hr (A.zda rfl) <| skip_date hr (A.dateTime rfl) <|
      .inr ⟨fun _ g => g.2.1 (.inl (hpred0 hne)), .inr ⟨fun _ g => hcl g.2.2.1,
        .inl ⟨wrongChain hr hc (A.registerId rfl), .inl (hpred0 hne), hcl, rfl⟩⟩⟩
  | initial a1 a2 a3 a4 a5 hne h =>
    obtain ⟨u, sv⟩ := hsgn rfl rfl rfl
    exact skip_signature (hkx rfl rfl) sv u <| .inr ⟨fun _ g => g.2.1 (hpred0 hne), .inl ⟨hpred0 hne, h, rfl⟩⟩
  | amounts a1 a2 a3 a4 a5 n n' hk hst hz hrn hxn h =>
    obtain ⟨u, sv⟩ := hsgn rfl rfl rfl
    obtain ⟨k1, k2, k3⟩ := fc.kind xf rfl hz1.1
    have nn : ¬StandardNull r := fun g => hz (f.zero.mp g)
    have nl : StandardNull r → StandardNull x := fun g => absurd g nn
    obtain ⟨k, hk⟩ := Option.ne_none_iff_exists'.mp hk
    have tx : ¬Training x := by rw [k1, hst.1]; simp
    have rx : ¬Reversal x := by rw [k2, hst.2]; simp
    have tr : ¬Training r := by rw [dk1, hst.1]; simp
    have rr : ¬Reversal r := by rw [dk2, hst.2]; simp
    refine skip_signature (hkx rfl rfl) sv u <| skip_restore hr nl u <| skip_null hr nl <|
      skip_cluster hr (fun _ g => (A.zda rfl).trans g) <| skip_receiptId hr (A.receiptId rfl) <|
      skip_registerId hr (A.registerId rfl) <| skip_system hr (A.zda rfl) <| skip_date hr (A.dateTime rfl) <|
      skip_chain hr (A.chain rfl rfl) (A.registerId rfl) <| skip_turnover hlen32 ⟨n', hxn⟩ <|
      .inl ⟨⟨k, hk, ?_⟩, tx, rx, rfl⟩
    obtain ⟨-, -, hdec⟩ := hr.counter k hk tr
    have d1 := hdec rr
    have d2 := dk3 hst.1 hst.2
    have d3 := k3 hst.1 hst.2
    have hkk : k = reg1.key := (hck k hk).1
    subst hkk
    rw [show (r.toJWS R1, r).2.decryptTurnoverCounter reg1.key = _ from d2] at d1
    rw [show (m.toJWS c!"R1", x).2.decryptTurnoverCounter reg1.key = _ from d3]
    show Except.ok fc.n ≠ _
    rw [hn, d1, sold_append, sold_append]
    intro g
    have := Except.ok.inj g
    simp [sold, tx, tr, hrn, hxn] at this
    exact h this
  | counter t k hk hst h =>
    obtain ⟨u, sv⟩ := hsgn rfl rfl rfl
    obtain ⟨k1, k2, k3⟩ := fc.kind xf rfl hz1.1
    have nl := hnull rfl rfl rfl rfl rfl rfl rfl
    have tx : ¬Training x := by rw [k1, hst.1]; simp
    have rx : ¬Reversal x := by rw [k2, hst.2]; simp
    have tr : ¬Training r := by rw [dk1, hst.1]; simp
    have rr : ¬Reversal r := by rw [dk2, hst.2]; simp
    have tt := hturn rfl rfl rfl rfl rfl
    refine skip_signature (hkx rfl rfl) sv u <| skip_restore hr nl u <| skip_null hr nl <|
      skip_cluster hr (fun _ g => (A.zda rfl).trans g) <| skip_receiptId hr (A.receiptId rfl) <|
      skip_registerId hr (A.registerId rfl) <| skip_system hr (A.zda rfl) <| skip_date hr (A.dateTime rfl) <|
      skip_chain hr (A.chain rfl rfl) (A.registerId rfl) <| skip_turnover hlen32 (tt ▸ f.turnover tr) <|
      .inl ⟨⟨k, hk, ?_⟩, tx, rx, rfl⟩
    obtain ⟨-, -, hdec⟩ := hr.counter k hk tr
    have d1 := hdec rr
    have d3 := k3 hst.1 hst.2
    have hkk : k = reg1.key := (hck k hk).1
    subst hkk
    rw [show (m.toJWS c!"R1", x).2.decryptTurnoverCounter reg1.key = _ from d3]
    have es : sold (pre ++ [(m.toJWS c!"R1", x)]) = sold (pre ++ [(r.toJWS R1, r)]) := by
      rw [sold_append, sold_append]
      simp [sold, tx, tr, tt]
    rw [es]
    intro g
    exact h (d1.trans g.symm)
  | encrypted t k hk hst tx rx h =>
    obtain ⟨u, sv⟩ := hsgn rfl rfl rfl
    have tr : ¬Training r := by rw [dk1, hst.1]; simp
    have rr : ¬Reversal r := by rw [dk2, hst.2]; simp
    have tt := hturn rfl rfl rfl rfl rfl
    have nl : StandardNull r → StandardNull x := by
      intro g
      refine ⟨?_, tx, rx⟩
      rw [A.sumA rfl, A.sumB rfl, A.sumC rfl, A.sumD rfl, A.sumE rfl]
      exact g.1
    refine skip_signature (hkx rfl rfl) sv u <| skip_restore hr nl u <| skip_null hr nl <|
      skip_cluster hr (fun _ g => (A.zda rfl).trans g) <| skip_receiptId hr (A.receiptId rfl) <|
      skip_registerId hr (A.registerId rfl) <| skip_system hr (A.zda rfl) <| skip_date hr (A.dateTime rfl) <|
      skip_chain hr (A.chain rfl rfl) (A.registerId rfl) <| skip_turnover hlen32 (tt ▸ f.turnover tr) <|
      .inl ⟨⟨k, hk, ?_⟩, tx, rx, rfl⟩
    obtain ⟨-, -, hdec⟩ := hr.counter k hk tr
    have d1 := hdec rr
    have es : sold (pre ++ [(m.toJWS c!"R1", x)]) = sold (pre ++ [(r.toJWS R1, r)]) := by
      rw [sold_append, sold_append]
      simp [sold, tx, tr, tt]
    rw [es]
    intro g
    exact h (d1.trans g.symm)

/-- C94: a receipt that was falsified and signed is refused with the exception announced, whatever follows it. -/
theorem falsified_refused {c : GroupCtx} {s : RegState} {used : Used} {reg reg2 : CashRegister} {os : List Order}
    {rs : List Receipt} {o : Order} {r x : Receipt} {v : Falsify} {m : Mangled} {e : Err} {z sr : Str} {priv : PrivKey}
    {post : List Bytes} (H : Honest c s used reg os rs o r) (ho : o.sys = .working z sr priv)
    (hm : (reg.run os).1.receiptWith o v = (reg2, .ok m)) (hx : Entry.Valid (m.toJWS c!"R1", x))
    (ha : Announced c used rs o r x v e) :
    verifyGroup c s used ((rs.map fun y => utf8Enc (y.toJWS c!"R1")) ++ utf8Enc (m.toJWS c!"R1") :: post) = .error e := by
  -- the honest history
  have hrun : reg.run (os ++ [o]) = ((reg.run (os ++ [o])).1, some (rs ++ [r])) := Prod.ext rfl H.run
  have hsig : List.Forall₂ (fun o r => ∃ v, SignedFor v o r) (os ++ [o]) (rs ++ [r]) := H.signed.imp fun _ _ h => ⟨_, h⟩
  have hall := session_rules hrun H.size H.rules H.signed H.start H.restore H.chainNext H.counter H.key
  have hent : entries (rs ++ [r]) = entries rs ++ [(r.toJWS R1, r)] := by simp [entries]
  rw [hent] at hall
  have hr : Rules c s none used (entries rs) (r.toJWS R1, r) := hall _ _ [] rfl
  have hpre : AllRules c s none used (entries rs) := fun a y b h => hall a y (b ++ [(r.toJWS R1, r)]) (by rw [h]; simp)
  obtain ⟨os1, o', os2, reg1, reg', e1, hl, h1, h2, -⟩ := run_split hrun
  have hlen : os.length = rs.length := by
    have := H.signed.length_eq
    simpa using this
  obtain ⟨rfl, e2⟩ := List.append_inj e1 (hlen.trans hl.symm)
  cases e2
  obtain ⟨l1, l2, e3, f1, f2⟩ := forall₂_append_right H.signed
  obtain ⟨rfl, rfl⟩ := List.append_inj e3 (hlen.trans f1.length_eq.symm)
  have hso : SignedFor c.verifier o r := by cases f2; assumption
  have se := run_session h1 H.size (fun o h => H.rules.proper o (by simp [h])) (f1.imp fun _ _ h => ⟨_, h⟩)
  have hpo : o.Proper := H.rules.proper o (by simp)
  have hz1 : 5 ≤ reg1.size ∧ reg1.size ≤ 16 := by rw [se.size]; exact H.size
  have hm' := hm
  rw [h1] at hm'
  obtain ⟨f, -⟩ := call_facts h2 hz1 hpo hso
  refine (group_refused_iff H.verifier).mpr (.receipt none _ (entries rs) _ post e (.none H.last) rfl ?_ hpre
    (.fault (m.toJWS c!"R1", x) e rfl hx (falsified_fault hz1 hpo hso ho h2 hm' hx
      (fun k hk => ⟨by rw [se.key]; exact (H.key k hk).1, (H.key k hk).2⟩) hr ?_ ?_ ?_ ?_ ha)))
  · refine ⟨by unfold entries; rw [List.map_map]; rfl, ?_⟩
    intro y hy
    obtain ⟨q, hq, rfl⟩ := List.mem_map.mp hy
    exact facts_valid se.facts q hq
  · simp [predecessor, entries]
  · intro y hy
    simp [predecessor, entries, hy]
  · rintro t ids hu h
    refine ⟨ids, hu, h.imp_right ?_⟩
    rintro ⟨y, h1, h2⟩
    exact ⟨(y.toJWS R1, y), List.mem_map_of_mem h1, h2⟩
  · intro hxid g
    rw [if_pos rfl] at g
    simp only [entries, List.head?_map, Option.map_map, Option.map_eq_some_iff] at g
    obtain ⟨y, g1, g2⟩ := g
    have hy : y ∈ rs := List.mem_of_mem_head? g1
    have hv : Entry.Valid (y.toJWS R1, y) := facts_valid se.facts y hy
    have : y = x := by
      have h3 : y.toJWS R1 = m.toJWS c!"R1" := g2
      have h4 : fromJWS (y.toJWS R1) = .ok (y, c!"R1") := hv
      rw [h3, show fromJWS (m.toJWS c!"R1") = _ from hx] at h4
      cases h4
      rfl
    have hid := H.rules.ids
    rw [List.map_append] at hid
    refine freshIds_last hid y.receiptId ?_ ?_
    · rw [← map_receiptId se.facts]
      exact List.mem_map_of_mem hy
    · rw [this, hxid, f.receiptId]

/-- A receipt falsified in such a way that it cannot be read. -/
theorem falsified_unread {c : GroupCtx} {reg1 reg' reg2 : CashRegister} {o : Order} {r : Receipt} {v : Falsify} {m : Mangled}
    {e : Err} {z sr : Str} {priv : PrivKey} (hz1 : 5 ≤ reg1.size ∧ reg1.size ≤ 16) (hpo : o.Proper)
    (hso : SignedFor c.verifier o r) (ho : o.sys = .working z sr priv) (h2 : reg1.receipt o = (reg', .ok r))
    (hm : reg1.receiptWith o v = (reg2, .ok m)) (ha : AnnouncedUnreadable v e) :
    fromJWS (m.toJWS (v.algorithmPrefix.getD c!"R1")) = .error e := by
  obtain ⟨f, -⟩ := call_facts h2 hz1 hpo hso
  have gr := (good_of_jws f.valid).1
  obtain ⟨d⟩ := call_of_receipt h2
  obtain ⟨fc⟩ := fcall_of_receipt hm
  have hjws : m.jws = v.jwsOverride := congrArg (fun m : Mangled => m.jws) fc.m_eq
  unfold Mangled.toJWS
  rw [hjws]
  have hsign := fc.hsign
  rw [ho] at hsign
  have ht := fc.htake
  rw [← Except.ok.inj hsign] at ht
  obtain ⟨hpad, _, hr⟩ := sign_eq_ok.mp (takeSignature_ok (not_mem_b64Text (not_isB64_dot true)) ht)
  cases ha with
  | header t h =>
    have hsd := d.hsign
    rw [ho] at hsd
    have hs := (d.signature (sig := r1Sign (d.draft.toPayload R1) priv o.rand)
      (not_mem_b64Text (not_isB64_dot true)) (Except.ok.inj hsd).symm).1
    have hdf : fc.draft.toFields = d.draft.toFields := by
      have e1 : m.receipt.toFields = fc.draft.toFields := by
        rw [← takeSignature_draft fc.htake]
        exact congrArg (fun m : Mangled => m.receipt.toFields) fc.m_eq
      have e2 : r.toFields = d.draft.toFields := by rw [takeSignature_draft d.htake]
      rw [← e1, ← e2]
      exact fc.fields_eq d
    refine fromJWS_header gr (fc.fields_eq d) ?_ ?_
    · rw [hs]
      have : m.receipt.signature = fc.r0.signature := congrArg (fun m : Mangled => m.receipt.signature) fc.m_eq
      rw [this, hr]
      show r1Sign (fc.draft.toPayload R1) priv o.rand = _
      rw [hdf]
    · have : m.receipt.header = t := congrArg (fun m : Mangled => m.receipt.header) fc.m_eq
      rw [this]
      exact h
  | algorithm t h h1 h2 h3 =>
    have hsg : m.receipt.signature = fc.r0.signature := congrArg (fun m : Mangled => m.receipt.signature) fc.m_eq
    refine fromJWS_prefix gr (fc.fields_eq d) ?_ ?_ h h1 h2 h3
    · rw [hsg, hr]
      exact not_mem_b64Text (not_isB64_dot true)
    · rw [hsg, hr]
      exact hpad
  | text t _ h => exact h

/-- C94: so is a receipt falsified in such a way that it cannot be read. -/
theorem falsified_unreadable {c : GroupCtx} {s : RegState} {used : Used} {reg reg2 : CashRegister} {os : List Order}
    {rs : List Receipt} {o : Order} {r : Receipt} {v : Falsify} {m : Mangled} {e : Err} {z sr : Str} {priv : PrivKey}
    {post : List Bytes} (H : Honest c s used reg os rs o r) (ho : o.sys = .working z sr priv)
    (hm : (reg.run os).1.receiptWith o v = (reg2, .ok m)) (ha : AnnouncedUnreadable v e) :
    verifyGroup c s used ((rs.map fun y => utf8Enc (y.toJWS c!"R1")) ++
      utf8Enc (m.toJWS (v.algorithmPrefix.getD c!"R1")) :: post) = .error e := by
  have hrun : reg.run (os ++ [o]) = ((reg.run (os ++ [o])).1, some (rs ++ [r])) := Prod.ext rfl H.run
  have hall := session_rules hrun H.size H.rules H.signed H.start H.restore H.chainNext H.counter H.key
  have hent : entries (rs ++ [r]) = entries rs ++ [(r.toJWS R1, r)] := by simp [entries]
  rw [hent] at hall
  have hpre : AllRules c s none used (entries rs) := fun a y b h => hall a y (b ++ [(r.toJWS R1, r)]) (by rw [h]; simp)
  obtain ⟨os1, o', os2, reg1, reg', e1, hl, h1, h2, -⟩ := run_split hrun
  have hlen : os.length = rs.length := by
    have := H.signed.length_eq
    simpa using this
  obtain ⟨rfl, e2⟩ := List.append_inj e1 (hlen.trans hl.symm)
  cases e2
  obtain ⟨l1, l2, e3, f1, f2⟩ := forall₂_append_right H.signed
  obtain ⟨rfl, rfl⟩ := List.append_inj e3 (hlen.trans f1.length_eq.symm)
  have hso : SignedFor c.verifier o r := by cases f2; assumption
  have se := run_session h1 H.size (fun o h => H.rules.proper o (by simp [h])) (f1.imp fun _ _ h => ⟨_, h⟩)
  have hpo : o.Proper := H.rules.proper o (by simp)
  have hz1 : 5 ≤ reg1.size ∧ reg1.size ≤ 16 := by rw [se.size]; exact H.size
  rw [h1] at hm
  have h := falsified_unread hz1 hpo hso ho h2 hm ha
  refine (group_refused_iff H.verifier).mpr (.receipt none _ (entries rs) _ post e (.none H.last) rfl ?_ hpre
    (.receipt _ e rfl h))
  refine ⟨by unfold entries; rw [List.map_map]; rfl, ?_⟩
  intro y hy
  obtain ⟨q, hq, rfl⟩ := List.mem_map.mp hy
  exact facts_valid se.facts q hq

end

/-! ### Concrete cases -/

namespace Demo

attribute [local instance] env

def order1 : Order := order 1 0 sysOk false false
def order2 : Order := order 2 1230 sysOk false false

/-- A start receipt and a sale. -/
def twoReceipts (p : Receipt → Receipt → Bool) : Bool :=
  match (register.run ([order1] ++ [order2])).2 with
  | some [a, b] => p a b
  | _ => false

theorem of_twoReceipts {p : Receipt → Receipt → Bool} (h : twoReceipts p = true) :
    ∃ a b, (register.run ([order1] ++ [order2])).2 = some ([a] ++ [b]) ∧ p a b = true := by
  unfold twoReceipts at h
  split at h
  · rename_i a b e; exact ⟨a, b, e, h⟩
  · cases h

theorem honest_two {a b : Receipt} (h : (register.run ([order1] ++ [order2])).2 = some ([a] ++ [b]))
    (ha : a.zda = c!"AT1" ∧ a.certSerial = c!"1f") (hb : b.zda = c!"AT1" ∧ b.certSerial = c!"1f") :
    Honest ctx fresh (.unique ∅) register [order1] [a] order2 b where
  run := h
  size := by decide
  rules := RuleAbiding.of_append (b := orders.drop 2) orders_abide
  signed := by
    refine .cons ?_ (.cons ?_ .nil)
    · exact signedFor_ok (by rw [ha.1]; decide) ha.2
    · exact signedFor_ok (by rw [hb.1]; decide) hb.2
  start := .alone (.inl rfl) (.inl rfl)
  key := by intro k hk; cases hk; exact ⟨rfl, by decide⟩
  verifier := ctx_verifier
  last := .inl rfl
  restore := rfl
  chainNext := .inl rfl
  counter := rfl

/-- The second receipt, falsified. -/
def falseReceipt (v : Falsify) (p : Receipt → Bool) : Bool :=
  match ((register.run [order1]).1.receiptWith order2 v).2 with
  | .ok m =>
    match fromJWS (m.toJWS c!"R1") with
    | .ok (x, a) => decide (a = c!"R1") && p x
    | .error _ => false
  | .error _ => false

theorem of_falseReceipt {v : Falsify} {p : Receipt → Bool} (h : falseReceipt v p = true) :
    ∃ reg2 m x, (register.run [order1]).1.receiptWith order2 v = (reg2, .ok m) ∧ Entry.Valid (m.toJWS c!"R1", x) ∧
      p x = true := by
  unfold falseReceipt at h
  split at h
  · rename_i m e
    split at h
    · rename_i x a e2
      simp only [Bool.and_eq_true, decide_eq_true_eq] at h
      exact ⟨_, m, x, Prod.ext rfl e, by rw [Entry.Valid, e2, h.1], h.2⟩
    · cases h
  · cases h

theorem order2_not_zero : ¬order2.Zero := by
  intro h
  have h0 : InCents order2.sumA 0 := h.1
  have h1 : InCents order2.sumA 1230 := in_cents 1230 false (by norm_num)
  have := (fmtSum_cents h0).2
  rw [(fmtSum_cents h1).2] at this
  exact absurd this (by norm_num)

/-- A falsification of the second receipt and the exception the hypotheses of `falsified_refused` are met for. -/
def Met (v : Falsify) (e : Err) : Prop :=
  ∃ a b reg2 m x, Honest ctx fresh (.unique ∅) register [order1] [a] order2 b ∧
    (register.run [order1]).1.receiptWith order2 v = (reg2, .ok m) ∧ Entry.Valid (m.toJWS c!"R1", x) ∧
    Announced ctx (.unique ∅) [a] order2 b x v e

theorem met {v : Falsify} {e : Err} {p : Receipt → Receipt → Bool} {q : Receipt → Bool}
    (h1 : twoReceipts (fun a b => decide (a.zda = c!"AT1" ∧ a.certSerial = c!"1f" ∧ b.zda = c!"AT1" ∧
      b.certSerial = c!"1f") && p a b) = true) (h2 : falseReceipt v q = true)
    (h : ∀ a b x, p a b = true → q x = true → Announced ctx (.unique ∅) [a] order2 b x v e) : Met v e := by
  obtain ⟨a, b, e1, e2⟩ := of_twoReceipts h1
  obtain ⟨reg2, m, x, e3, e4, e5⟩ := of_falseReceipt h2
  simp only [Bool.and_eq_true, decide_eq_true_eq] at e2
  obtain ⟨⟨z1, s1, z2, s2⟩, e2⟩ := e2
  exact ⟨a, b, reg2, m, x, honest_two e1 ⟨z1, s1⟩ ⟨z2, s2⟩, e3, e4, h a b x e2 e5⟩

set_option maxRecDepth 100000 in
theorem met_chain : Met { previousChain := some c!"AAAAAAAAAAA=" } .chaining :=
  met (p := fun _ b => decide (b.previousChain ≠ c!"AAAAAAAAAAA=")) (q := fun _ => true) (by decide +kernel) (by decide +kernel)
    fun _ _ _ h _ => .chain _ (by simp) (fun e => of_decide_eq_true h e.symm)

set_option maxRecDepth 100000 in
theorem met_amounts : Met { sumA := some c!"99,99" } .invalidTurnoverCounter :=
  met (p := fun _ b => isOk b.turnover 1230) (q := fun x => isOk x.turnover 9999)
    (by decide +kernel) (by decide +kernel)
    fun _ _ _ h1 h2 => .amounts _ none none none none 1230 9999 (by simp [ctx]) ⟨rfl, rfl⟩ order2_not_zero
      (eq_of_isOk h1) (eq_of_isOk h2) (by norm_num)

set_option maxRecDepth 100000 in
theorem met_counter : Met { turnoverCounter := some 7 } .invalidTurnoverCounter :=
  met (p := fun _ b => isOk (b.decryptTurnoverCounter aes) 1230) (q := fun _ => true)
    (by decide +kernel) (by decide +kernel)
    fun _ _ _ h1 _ => .counter 7 aes rfl ⟨rfl, rfl⟩ (by
      rw [show Fields.decryptTurnoverCounter _ aes = _ from eq_of_isOk h1]
      intro h
      cases h)

set_option maxRecDepth 100000 in
theorem met_date : Met { dateTime := some c!"2019-12-31T23:59:59" } .decreasingDate :=
  met (p := fun a _ => decide (a.dateTime.year = 2020)) (q := fun x => decide (x.dateTime.year = 2019))
    (by decide +kernel) (by decide +kernel)
    fun a _ _ h1 h2 => .date _ a rfl (.inl (by
      rw [of_decide_eq_true h1, of_decide_eq_true h2]
      norm_num))

set_option maxRecDepth 100000 in
theorem met_register : Met { registerId := some c!"other" } .changingRegisterId :=
  met (p := fun _ b => decide (b.registerId = c!"reg")) (q := fun _ => true) (by decide +kernel) (by decide +kernel)
    fun _ _ _ h1 _ => .registerId _ (.inl (by simp)) (by rw [of_decide_eq_true h1]; decide)

set_option maxRecDepth 100000 in
theorem met_receipt : Met { receiptId := some c!"R1" } .duplicateReceiptId :=
  met (p := fun a _ => decide (a.receiptId = c!"R1")) (q := fun _ => true) (by decide +kernel) (by decide +kernel)
    fun a _ _ h1 _ => .receiptId _ ∅ rfl (.inl (by simp)) (.inr ⟨a, by simp, of_decide_eq_true h1⟩)

/-- What the theorem says then. -/
theorem chain_falsified : ∃ g : List Bytes, ∀ post, verifyGroup ctx fresh (.unique ∅) (g ++ post) = .error .chaining := by
  obtain ⟨a, b, reg2, m, x, H, h1, h2, h3⟩ := met_chain
  exact ⟨[_, _], fun post => falsified_refused H rfl h1 h2 h3 (post := post)⟩

/-- The hypotheses of `falsified_unreadable` are met. -/
example : AnnouncedUnreadable { algorithmPrefix := some c!"R2" } .unknownAlgorithm :=
  .algorithm _ (by decide) (by decide) (by decide) (by decide)

example : AnnouncedUnreadable { jwsOverride := some c!"a.b" } .malformedReceipt :=
  .text _ _ (eq_of_isErr (by decide +kernel))

end Demo

end RKSV
