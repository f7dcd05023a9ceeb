import Verif.Lemmas.RunTestLoop
import Verif.Props.Fleet
import Verif.Props.DemoTool
/-
C89: the DEPs and the key container `runTest` makes are accepted by verify.py.
-/
namespace RKSV

section
variable [PyEnv]

/-! ### Instructions and orders -/

theorem device_eq {spec : TestSpec} {closed : Bool} {d : Nat} {k : TestKey} {b : Bool} {sys : SigSystem}
    (h : DeviceFor spec closed d k b sys) : sys = spec.system closed d k b := by
  obtain ⟨h1, h2, h3⟩ := h
  cases b with
  | true =>
    obtain ⟨z, t, rfl⟩ := h3
    have h1 : z = k.zdaText closed := h1
    have h2 : t = spec.serial closed d k := h2
    rw [h1, h2]
    rfl
  | false =>
    obtain ⟨z, t, rfl⟩ := h3
    have h1 : z = k.zdaText closed := h1
    have h2 : t = spec.serial closed d k := h2
    rw [h1, h2]
    rfl

/-- The order that is carried out is the one the instruction asks for. -/
theorem asks_order {x : TestCtx} {i : Instr} {o o' : Order} (h : i.Asks x.spec x.closed x.keys o)
    (h' : x.order i = .ok o') : o = o' := by
  obtain ⟨d, k, hd, hk, rfl⟩ := order_ok h'
  obtain ⟨k', hk', hs⟩ := h.device
  rw [hk] at hk'
  cases hk'
  have h1 := h.algorithm
  have h2 := h.receiptId
  have h3 := h.date
  have h4 := h.sumA
  have h5 := h.sumB
  have h6 := h.sumC
  have h7 := h.sumD
  have h8 := h.sumE
  have h9 := h.dummy
  have h10 := h.reversal
  have h11 := h.rand
  have h12 := device_eq hs
  rw [hd] at h3
  cases o
  simp only at h1 h2 h3 h4 h5 h6 h7 h8 h9 h10 h11 h12
  simp only [Order.mk.injEq]
  refine ⟨h1, h2, (Option.some.inj h3).symm, h4, h5, h6, h7, h8, h12, ?_, ?_, h11⟩
  · rw [Bool.eq_iff_iff, h9, decide_eq_true_iff]
  · rw [Bool.eq_iff_iff, h10, decide_eq_true_iff]

theorem orders_eq {x : TestCtx} {is : List Instr} {os : List Order} (h : List.Forall₂ (Instr.Asks x.spec x.closed x.keys) is os)
    {acts : List Act} (hi : acts.map (·.instr) = is) (ho : ∀ a ∈ acts, x.order a.instr = .ok a.order) :
    os = acts.map (·.order) := by
  induction h generalizing acts with
  | nil =>
    rw [List.map_eq_nil_iff.mp hi]
    rfl
  | cons h1 _ ih =>
    obtain ⟨a, l, rfl, rfl, rfl⟩ := List.map_eq_cons_iff.mp hi
    rw [List.map_cons, ← ih rfl fun b hb => ho b (by simp [hb]), asks_order h1 (ho a (by simp))]

theorem ordersFor_eq {instrs : List Instr} {acts : List Act} (hr : registers instrs = acts.map (·.reg)) (i : Nat) :
    ordersFor instrs (acts.map (·.order)) i = (actsOf acts i).map (·.order) := by
  unfold ordersFor actsOf
  rw [hr]
  clear hr
  induction acts with
  | nil => rfl
  | cons a l ih =>
    simp only [List.map_cons, List.zip_cons_cons, List.filter_cons]
    split <;> simp [ih]

/-! ### DEPs -/

theorem receipts_tagged (segs : List (Nat × Part)) (i : Nat) :
    receiptsOf (partsOf segs i) = ((tagged segs).filter fun t => t.1 = i).map (·.2) := by
  induction segs with
  | nil => rfl
  | cons p segs ih =>
    have e : tagged (p :: segs) = (p.2.groups.flatMap (·.recs)).map (p.1, ·) ++ tagged segs := by simp [tagged]
    rw [e, List.filter_append, List.map_append, ← ih]
    by_cases h : p.1 = i
    · have e1 : partsOf (p :: segs) i = p.2 :: partsOf segs i := by simp [partsOf, h]
      have e2 : (((p.2.groups.flatMap (·.recs)).map (p.1, ·)).filter fun t => t.1 = i) =
          (p.2.groups.flatMap (·.recs)).map (p.1, ·) := by
        rw [List.filter_eq_self]
        intro t ht
        obtain ⟨r, -, rfl⟩ := List.mem_map.mp ht
        simpa using h
      rw [e1, e2, List.map_map]
      have e3 : ((fun x : Nat × Receipt × Str => x.2) ∘ fun x => (p.1, x)) = id := rfl
      rw [e3, List.map_id]
      rfl
    · have e1 : partsOf (p :: segs) i = partsOf segs i := by simp [partsOf, h]
      have e2 : (((p.2.groups.flatMap (·.recs)).map (p.1, ·)).filter fun t => t.1 = i) = [] := by
        rw [List.filter_eq_nil_iff]
        intro t ht
        obtain ⟨r, -, rfl⟩ := List.mem_map.mp ht
        simpa using h
      rw [e1, e2]
      rfl

theorem acts_tagged (acts : List Act) (i : Nat) :
    ((acts.map fun a => (a.reg, a.receipt, R1)).filter fun t => t.1 = i).map (·.2) =
      ((actsOf acts i).map (·.receipt)).map fun r => (r, c!"R1") := by
  unfold actsOf
  induction acts with
  | nil => rfl
  | cons a l ih =>
    simp only [List.map_cons, List.filter_cons]
    split
    · rename_i h
      simp only [List.map_cons, ih]
      rfl
    · exact ih

theorem scheduledIds_tagged (segs : List (Nat × Part)) : scheduledIds segs = (tagged segs).map (·.2.1.receiptId) := by
  induction segs with
  | nil => rfl
  | cons p segs ih =>
    have e : tagged (p :: segs) = (p.2.groups.flatMap (·.recs)).map (p.1, ·) ++ tagged segs := by simp [tagged]
    have e' : scheduledIds (p :: segs) = (p.2.groups.flatMap (·.recs)).map (·.1.receiptId) ++ scheduledIds segs := by
      simp [scheduledIds, receiptsOf]
    rw [e, e', ih, List.map_append, List.map_map]
    rfl

theorem jobs_eq {modes : Nat → Mode} {store : Json} {segs : List (Nat × Part)} {n : Nat}
    (h : ∀ (i : Nat) (p : Nat × Part), segs[i]? = some p → p.2.mode = modes (n + i)) :
    testJobs modes store n (segs.map (·.2.sel)) (segs.map fun p => exportDEP p.2.groups p.2.extra) =
      segs.map (·.2.job store) := by
  induction segs generalizing n with
  | nil => rfl
  | cons p segs ih =>
    simp only [List.map_cons, testJobs]
    rw [ih fun i q hq => by rw [h (i + 1) q (by simpa using hq)]; congr 1; omega]
    rw [show modes n = p.2.mode from (h 0 p rfl).symm]
    rfl

theorem GroupsOk.good {x : TestCtx} (hf : KeysFit x.spec x.closed x.keys) {p : Part} (hg : GroupsOk x p.groups)
    (he : ExtraOk p.extra) (hm : FileMode p.mode) : p.Good := by
  unfold GroupsOk at hg
  refine ⟨?_, ?_, ?_, ?_, ?_, hm.procs, hm.order, ?_⟩
  · intro h
    rcases he _ h with h | h | h <;> revert h <;> decide
  · intro k hk
    rcases he _ hk with rfl | rfl | rfl <;> decide
  · split at hg
    · obtain ⟨g, l, e⟩ := List.exists_cons_of_ne_nil hg.1
      exact ⟨g, by rw [e]; simp, (hg.2 g (by rw [e]; simp)).1⟩
    · obtain ⟨recs, h1, h2⟩ := hg
      exact ⟨_, by rw [h2]; exact List.mem_singleton.mpr rfl, h1⟩
  · intro g hg' c hc
    split at hg
    · rename_i hgr
      obtain ⟨-, d, k, hk, h1, -⟩ := hg.2 g hg'
      rw [h1] at hc
      cases hc
      exact hf.content hgr k (List.mem_of_getElem? hk)
    · obtain ⟨recs, h1, h2⟩ := hg
      rw [h2] at hg'
      rw [List.mem_singleton.mp hg'] at hc
      cases hc
  · split at hg
    · refine .inr fun g hg' _ => ?_
      obtain ⟨-, d, k, hk, h1, -⟩ := hg.2 g hg'
      rw [h1]
      simp
    · obtain ⟨recs, h1, h2⟩ := hg
      refine .inl ?_
      rw [h2]
      exact List.length_filter_le _ _
  · rcases hm.file with h | h
    · exact .inl h
    · exact .inr (.inl h)

/-! ### Signatures -/

/-- Devices with the same serial have the same certificate. -/
theorem same_device {x : TestCtx} (hf : KeysFit x.spec x.closed x.keys) {d d' : Nat} {k k' : TestKey}
    (hk : x.keys[d]? = some k) (hk' : x.keys[d']? = some k') (h : x.spec.serial x.closed d k = x.spec.serial x.closed d' k') :
    k.cert = k'.cert := by
  unfold TestSpec.serial at h
  split at h
  · rw [kid_injective h, hk'] at hk
    cases hk
    rfl
  · have m := List.mem_of_getElem? hk
    have m' := List.mem_of_getElem? hk'
    refine hf.serials k m k' m' _ (by simp) _ (by simp) ?_
    split at h
    · exact natDec_injective h
    · exact natHex_injective h

/-- The orders of a register and its receipts. -/
theorem zip_acts {l : List Act} {o : Order} {r : Receipt} (h : (o, r) ∈ (l.map (·.order)).zip (l.map (·.receipt))) :
    ∃ a ∈ l, a.order = o ∧ a.receipt = r := by
  rw [List.zip_map', List.mem_map] at h
  obtain ⟨a, ha, e⟩ := h
  cases e
  exact ⟨a, ha, rfl, rfl⟩

theorem group_signed {x : TestCtx} (hf : KeysFit x.spec x.closed x.keys) {ks : KeyStore}
    (hks : StoreFor x.spec x.closed x.keys x.keys.length ks) {l : List Act} {reg reg' : CashRegister}
    (ho : ∀ a ∈ l, x.order a.instr = .ok a.order)
    (hrun : reg.run (l.map (·.order)) = (reg', some (l.map (·.receipt)))) {gs : List (SGroup (Receipt × Str))}
    (hg : GroupsOk x gs) {g : SGroup (Receipt × Str)} (hm : g ∈ gs) :
    GroupSigned ks (l.map (·.order)) (l.map (·.receipt)) g := by
  unfold GroupsOk at hg
  split at hg
  · rename_i hgr
    obtain ⟨-, d, k, hk, h1, h2, h3⟩ := hg.2 g hm
    obtain ⟨i, c, h4, h5⟩ := hks.trusted hf hgr (List.mem_of_getElem? hk)
    refine ⟨.fromCert k.cert, .cert k.cert h1 i c (by rw [show g.asRead.chain = k.chain from h2]; exact h4) h5, ?_⟩
    intro o r hor hr
    obtain ⟨hz, hs⟩ := run_system hrun o r hor
    obtain ⟨a, ha, rfl, rfl⟩ := zip_acts hor
    obtain ⟨dt, k', -, hk', he⟩ := order_ok (ho a ha)
    have hsys : a.order.sys = x.spec.system x.closed a.instr.device k' a.instr.damaged := by rw [he]
    rw [same_device hf hk hk' (by rw [← h3 _ hr]; show a.receipt.certSerial = _; rw [hs, hsys, system_serial])]
    exact signed_cert hf (List.mem_of_getElem? hk') hsys hz hs
  · rename_i hgr
    obtain ⟨recs, h1, h2⟩ := hg
    rw [h2] at hm
    rw [List.mem_singleton.mp hm]
    refine ⟨_, .store rfl, ?_⟩
    intro o r hor hr
    obtain ⟨hz, hs⟩ := run_system hrun o r hor
    obtain ⟨a, ha, rfl, rfl⟩ := zip_acts hor
    obtain ⟨dt, k', -, hk', he⟩ := order_ok (ho a ha)
    exact signed_store hf hks (by simpa using hgr) hk' (by rw [he]) hz hs

theorem acts_session {x : TestCtx} (hf : KeysFit x.spec x.closed x.keys) {l : List Act} {reg reg' : CashRegister}
    (ho : ∀ a ∈ l, x.order a.instr = .ok a.order) (hz : 5 ≤ reg.size ∧ reg.size ≤ 16)
    (hp : ∀ o ∈ l.map (·.order), o.Proper)
    (hrun : reg.run (l.map (·.order)) = (reg', some (l.map (·.receipt)))) :
    Session reg (l.map (·.order)) (l.map (·.receipt)) reg' := by
  refine run_session hrun hz hp ?_
  rw [List.forall₂_iff_zip]
  refine ⟨run_length hrun, ?_⟩
  intro o r hor
  obtain ⟨hz, hs⟩ := run_system hrun o r hor
  obtain ⟨a, ha, rfl, rfl⟩ := zip_acts hor
  obtain ⟨dt, k', -, hk', he⟩ := order_ok (ho a ha)
  exact ⟨_, signed_cert hf (List.mem_of_getElem? hk') (by rw [he]) hz hs⟩

theorem acts_facts {reg reg' : CashRegister} {l : List Act} (h : Session reg (l.map (·.order)) (l.map (·.receipt)) reg') :
    ∀ a ∈ l, Facts reg a.order a.receipt := by
  have := h.facts
  rw [List.forall₂_map_left_iff, List.forall₂_map_right_iff, List.forall₂_same] at this
  exact this

/-! ### The result -/

/-- The file that is written has the keys. -/
theorem test_store {spec : TestSpec} {closed : Bool} {keys : List TestKey} {n : Nat} {ks : KeyStore}
    (h : StoreFor spec closed keys n ks) {key : Bytes} (hkey : loadB64Key spec.aesKey = .ok key) :
    loadKeyFromJson (ks.toJson (some spec.aesKey)) = .ok (some key) ∧
      readStoreFromJson (ks.toJson (some spec.aesKey)) = .ok ks := by
  refine ⟨?_, read_written h.ok h.entries _⟩
  exact (load_aes_key _ _).mpr ⟨_, rfl, .inr ⟨spec.aesKey, key, rfl, orErr_eq_ok.mp hkey, rfl⟩⟩

/-- The lives of the registers. -/
theorem TestResult.life {x : TestCtx} {modes : Nat → Mode} {deps : List Json} {acts : List Act} {segs : List (Nat × Part)}
    {n : Nat} (h : TestResult x modes deps acts segs n) (i : Nat) (hi : i < n) : ∃ l : Life, l.reg = x.newReg acts i ∧
      l.orders = (actsOf acts i).map (·.order) ∧ l.receipts = (actsOf acts i).map (·.receipt) ∧
      l.reg.run l.orders = (l.reg', some l.receipts) ∧ partsOf segs i = l.first :: l.parts := by
  obtain ⟨regs, rfl, hr⟩ := h.run
  have hrun := hr.run i _ (List.getElem?_eq_getElem hi)
  have hrec : receiptsOf (partsOf segs i) = ((actsOf acts i).map (·.receipt)).map fun r => (r, c!"R1") := by
    rw [receipts_tagged, ← h.recs, acts_tagged]
  have hne : partsOf segs i ≠ [] := by
    intro e
    rw [e] at hrec
    exact hr.ne i hi (List.map_eq_nil_iff.mp (List.map_eq_nil_iff.mp hrec.symm))
  obtain ⟨p, ps, e⟩ := List.exists_cons_of_ne_nil hne
  exact ⟨⟨_, _, _, regs[i], p, ps⟩, rfl, rfl, rfl, hrun, e⟩

/-- C89: a test that follows the rules gives DEPs verify.py accepts with the key container, one after the other, each in
any mode.  In the end the registers are known with their counters, and all receipt IDs are used. -/
theorem run_test_accepted {spec : TestSpec} {keys : List TestKey} {closed : Bool} {tcSize : Option Nat} {deps : List Json} {store : Json}
    (h : runTest spec keys closed tcSize = .ok (deps, store)) {key : Bytes} (hkey : loadB64Key spec.aesKey = .ok key)
    (hlen : key.length = 32) {backend : Used} {os : List Order} (ha : TestAbides backend spec closed keys os)
    (hf : KeysFit spec closed keys) {modes : Nat → Mode} (hm : ∀ k, FileMode (modes k)) {j : Json}
    (hj : Cluster.fromJson j = .ok ⟨[], backend.fresh⟩) :
    deps.length = (selects spec.instrs).length ∧
    ∃ e c rs, toolSession backend (testJobs modes store 0 (selects spec.instrs) deps) j = .ok e ∧
      Cluster.fromJson e = .ok c ∧ c.regs.length = registerCount 1 spec.instrs.tail ∧
      (∀ (i : Nat) (s : RegState) (ns : List Int), c.regs[i]? = some s →
        List.Forall₂ Order.Adds (ordersFor spec.instrs os i) ns → s.counter = ns.sum) ∧
      List.Forall₂ (fun (i : Instr) (r : Receipt) => r.receiptId = i.receiptId) spec.instrs rs ∧
      UsedAfter backend.fresh (rs.map fun r => (r.toJWS c!"R1", r)) c.used := by
  unfold runTest at h
  simp only [Res.bind_eq_ok, ensure_eq_ok, Except.ok.injEq, Prod.mk.injEq] at h
  obtain ⟨-, -, key', hkey', reg, hreg, ks, hks, s, hs, deps', hd, rfl, rfl⟩ := h
  rw [hkey] at hkey'
  cases hkey'
  -- the size
  obtain ⟨size, hsize⟩ : ∃ size, spec.counterSize tcSize = size := ⟨_, rfl⟩
  rw [hsize] at hreg hs hd
  unfold CashRegister.make at hreg
  simp only [Res.bind_eq_ok, ensure_eq_ok, Except.ok.injEq] at hreg
  obtain ⟨-, hz, rfl⟩ := hreg
  obtain ⟨x, hx⟩ : ∃ x : TestCtx, x = ⟨spec, closed, keys, key, size⟩ := ⟨_, rfl⟩
  have x1 : x.spec = spec := by rw [hx]
  have x2 : x.closed = closed := by rw [hx]
  have x3 : x.keys = keys := by rw [hx]
  have x4 : x.key = key := by rw [hx]
  have x5 : x.size = size := by rw [hx]
  rw [← hx] at hs hd
  clear hx
  subst x1 x2 x3 x4 x5
  -- the DEPs
  obtain ⟨acts, segs, n, hr⟩ := loop_result modes (fun k hk => (hf.plain k hk).2.1) ha.nonempty hs hd
  have hst := putDevices_store hf.plain hks
  obtain ⟨st1, st2⟩ := test_store hst hkey
  obtain rfl := orders_eq ha.orders hr.instrs hr.order
  have hof := ordersFor_eq hr.regs
  obtain ⟨regs, hn, hregs⟩ := hr.run
  have hsize' : 5 ≤ x.size ∧ x.size ≤ 16 := by omega
  have horder : ∀ i, ∀ a ∈ actsOf acts i, x.order a.instr = .ok a.order :=
    fun i a ha => hr.order a (List.mem_filter.mp ha).1
  have hrules : ∀ i, RuleAbiding (.unique ∅) ((actsOf acts i).map (·.order)) := fun i => by rw [← hof]; exact ha.rules i
  have hsess : ∀ (i : Nat) (r : CashRegister), regs[i]? = some r → ∀ a ∈ actsOf acts i, Facts (x.newReg acts i) a.order a.receipt :=
    fun i r hi => acts_facts (acts_session hf (horder i) hsize' (hrules i).proper (hregs.run i r hi))
  -- the lives
  choose life l1 l2 l3 l4 l5 using hr.life
  let lives : List Life := (List.finRange n).map fun i => life i.1 i.2
  have hlives : ∀ (i : Nat) (l : Life), lives[i]? = some l → ∃ hi : i < n, l = life i hi := by
    intro i l hl
    simp only [lives, List.getElem?_map, Option.map_eq_some_iff] at hl
    obtain ⟨a, ha, rfl⟩ := hl
    obtain ⟨h1, h2⟩ := List.getElem?_eq_some_iff.mp ha
    simp only [List.getElem_finRange] at h2
    subst h2
    exact ⟨by simpa using h1, rfl⟩
  have hlives' : ∀ (i : Nat) (hi : i < n), lives[i]? = some (life i hi) := by
    intro i hi
    simp [lives, hi]
  have hstart : ∀ i, i < n → startBefore lives i = if i = 0 then none else (actsOf acts (i - 1)).head?.map (·.receipt) := by
    intro i hi
    unfold startBefore
    split
    · rfl
    · rw [hlives' (i - 1) (by omega), Option.bind_some, l3, List.head?_map]
  have hmember : ∀ (i : Nat) (l : Life), lives[i]? = some l → l.Member ks (some x.key) (startBefore lives i) := by
    intro i l hl
    obtain ⟨hi, rfl⟩ := hlives i l hl
    have hri : regs[i]? = some regs[i] := List.getElem?_eq_getElem (by omega)
    have hpart : ∀ q ∈ (life i hi).first :: (life i hi).parts, ∃ p ∈ segs, p.2 = q := by
      intro q hq
      rw [← l5 i hi] at hq
      obtain ⟨p, hp, rfl⟩ := List.mem_map.mp hq
      exact ⟨p, (List.mem_filter.mp hp).1, rfl⟩
    have hmode : ∀ p ∈ segs, FileMode p.2.mode := by
      intro p hp
      obtain ⟨k, hk⟩ := List.getElem?_of_mem hp
      rw [hr.mode k p hk]
      exact hm k
    refine ⟨?_, ?_, by rw [l1]; rfl, by rw [l1]; exact hsize', by rw [l2]; exact hrules i, l4 i hi, ?_, ?_, ?_, ?_⟩
    · intro e
      refine .inl ?_
      rw [hstart i hi] at e
      rw [l1]
      show chainStart acts i = none
      unfold chainStart
      split
      · rfl
      · rename_i h0
        rw [if_neg h0] at e
        rw [Option.map_eq_none_iff.mp e]
        rfl
    · intro y hy
      rw [hstart i hi] at hy
      split at hy
      · cases hy
      rename_i h0
      obtain ⟨a, ha0, rfl⟩ := Option.map_eq_some_iff.mp hy
      have hri' : regs[i - 1]? = some regs[i - 1] := List.getElem?_eq_getElem (by omega)
      have hfa := hsess (i - 1) _ hri' a (List.mem_of_mem_head? ha0)
      have hcl : ∀ b, ((actsOf acts i).map (·.order)).head? = some b → x.closed = true ∧ ¬Earlier b.dateTime a.order.dateTime := by
        intro b hb
        refine ha.cluster (i - 1) a.order b ?_ ?_
        · rw [hof, List.head?_map, ha0]; rfl
        · rw [show i - 1 + 1 = i by omega, hof, hb]
      obtain ⟨b, bs, hb⟩ := List.exists_cons_of_ne_nil (hregs.ne i (by omega))
      have hclosed := (hcl b.order (by rw [hb]; rfl)).1
      have hzda : ∀ a ∈ acts, a.order.sys.zda = c!"AT0" := by
        intro a ha
        obtain ⟨d, k, -, -, e⟩ := order_ok (hr.order a ha)
        rw [e]
        show (TestSpec.system _ _ _ _ _).zda = _
        rw [system_zda, hclosed]
        rfl
      refine ⟨?_, ?_, ?_, ?_⟩
      · rw [l1]
        show chainStart acts i = _
        rw [chainStart, if_neg h0, ha0]
        rfl
      · rw [hfa.registerId, l1]
        rfl
      · rw [hfa.zda]
        exact hzda a (List.mem_filter.mp (List.mem_of_mem_head? ha0)).1
      · intro o ho
        rw [l2] at ho
        refine ⟨?_, ?_⟩
        · obtain ⟨c, hc, rfl⟩ := List.mem_map.mp (List.mem_of_mem_head? ho)
          exact hzda c (List.mem_filter.mp hc).1
        · rw [hfa.dateTime]
          exact (hcl o ho).2
    · rintro k ⟨⟩
      rw [l1]
      exact ⟨rfl, hlen⟩
    · intro q hq g hg _
      obtain ⟨p, hp, rfl⟩ := hpart q hq
      rw [l2, l3]
      exact group_signed hf hst (horder i) (hregs.run i _ hri) (hr.parts p hp).1 hg
    · intro q hq
      obtain ⟨p, hp, rfl⟩ := hpart q hq
      exact (hr.parts p hp).1.good hf (hr.parts p hp).2 (hmode p hp)
    · rw [← l5 i hi, receipts_tagged, ← hr.recs, acts_tagged, l3]
  have hids : scheduledIds segs = x.spec.instrs.map (·.receiptId) := by
    rw [scheduledIds_tagged, ← hr.recs, ← hr.instrs, List.map_map, List.map_map]
    refine List.map_congr_left fun a ha => ?_
    have hlt := hregs.lt a ha
    have := hsess a.reg _ (List.getElem?_eq_getElem hlt) a (List.mem_filter.mpr ⟨ha, by simp⟩)
    show a.receipt.receiptId = _
    rw [this.receiptId]
    obtain ⟨d, k, -, -, e⟩ := order_ok (hr.order a ha)
    rw [e]
    rfl
  obtain ⟨e, c, t1, t2, t3, t4⟩ := fleet_session st1 st2 hj hmember (sched := segs)
    (by
      intro i l hl
      obtain ⟨hi, rfl⟩ := hlives i l hl
      exact l5 i hi)
    (by
      intro p hp
      have hlt : ∀ i, i < lives.length ↔ i < n := by simp [lives]
      rw [hlt, ← hn]
      by_contra hcon
      have hnone := hregs.none (i := p.1) (by omega)
      have hrec : receiptsOf (partsOf segs p.1) = ((actsOf acts p.1).map (·.receipt)).map fun r => (r, c!"R1") := by
        rw [receipts_tagged, ← hr.recs, acts_tagged]
      rw [hnone] at hrec
      obtain ⟨g, hg, hne⟩ := ((hr.parts p hp).1.good hf (hr.parts p hp).2 (by
        obtain ⟨k, hk⟩ := List.getElem?_of_mem hp
        rw [hr.mode k p hk]
        exact hm k)).some
      obtain ⟨r, l, er⟩ := List.exists_cons_of_ne_nil hne
      have : r ∈ receiptsOf (partsOf segs p.1) :=
        List.mem_flatMap.mpr ⟨p.2, List.mem_map.mpr ⟨p, List.mem_filter.mpr ⟨hp, by simp⟩, rfl⟩,
          List.mem_flatMap.mpr ⟨g, hg, by rw [er]; simp⟩⟩
      rw [hrec] at this
      cases this)
    hr.sched (by rw [hids]; exact ha.ids)
  refine ⟨by rw [hr.deps, hr.sels]; simp, e, c, acts.map (·.receipt), ?_, t2, ?_, ?_, ?_, ?_⟩
  · rw [hr.sels, hr.deps, jobs_eq fun i p hp => by rw [Nat.zero_add]; exact hr.mode i p hp]
    exact t1
  · rw [← t3.length_eq, ← hr.count]
    simp [lives]
  · intro i s ns hs hns
    obtain ⟨hlt, rfl⟩ := List.getElem?_eq_some_iff.mp hs
    have hi : i < n := by
      rw [← t3.length_eq] at hlt
      simpa [lives] using hlt
    have hag := (List.forall₂_iff_get.mp t3).2 i (by simpa [lives] using hi) hlt
    have : lives.get ⟨i, by simpa [lives] using hi⟩ = life i hi := by simp [lives]
    rw [this] at hag
    have hc : (c.regs[i]).counter = (life i hi).reg'.counter := hag.counter (by simp)
    rw [hof] at hns
    rw [hc, register_counter_partial (l4 i hi) (ns := ns) (by rw [l2]; exact hns), l1]
    show 0 + _ = _
    omega
  · rw [← hr.instrs, List.forall₂_map_left_iff, List.forall₂_map_right_iff, List.forall₂_same]
    intro a ha
    have hlt := hregs.lt a ha
    have := hsess a.reg _ (List.getElem?_eq_getElem hlt) a (List.mem_filter.mpr ⟨ha, by simp⟩)
    rw [this.receiptId]
    obtain ⟨d, k, -, -, e⟩ := order_ok (hr.order a ha)
    rw [e]
  · have e1 : (segs.flatMap fun x => (receiptsOf [x.2]).map fun r => (r.1.toJWS c!"R1", r.1)) =
        (tagged segs).map fun t => (t.2.1.toJWS c!"R1", t.2.1) := by
      rw [tagged, List.map_flatMap]
      simp [receiptsOf, Function.comp_def]
    rw [e1, ← hr.recs, List.map_map] at t4
    rw [List.map_map]
    exact t4

end

/-! ### A closed system with two registers side by side -/

namespace Demo

attribute [local instance] env

/-- The instruction for an `order`. -/
def instr (n : Nat) (cents : Int) (device : Nat) (damaged dummy reversal : Bool) (newDep : Str) (contReg : Option Nat) :
    Instr where
  receiptId := 'R' :: natDec n
  date := c!"2020-01-02T03:" ++ (if n < 10 then '0' :: natDec n else natDec n) ++ c!":00"
  sumA := ⟨centsToF64 cents, false⟩
  sumB := ⟨.fin 0, false⟩
  sumC := ⟨.fin 0, false⟩
  sumD := ⟨.fin 0, false⟩
  sumE := ⟨.fin 0, true⟩
  device
  damaged
  newDep
  contReg
  turnover := some (centsToF64 cents)
  kind := if dummy then some c!"TRAINING_BELEG" else if reversal then some c!"STORNO_BELEG" else none

def sideSpec : TestSpec where
  aesKey := b64Encode false aes
  cashBoxId := c!"reg"
  companyId := c!"U:ATU12345678"
  numDevices := 2
  instrs := [instr 1 0 1 false false false kNoNew none, instr 11 0 1 false false false kCluster none,
    instr 2 5 1 false false false c!"NEW_DEP" (some 0), instr 12 3 1 false false true c!"NEW_DEP" (some 1)]

def sideKeys : List TestKey :=
  [⟨([0, 30, 1, 5] : Bytes), [], ([5] : Bytes), none, false, false, 7⟩,
   ⟨device, [], ([7, 8] : Bytes), none, false, false, 8⟩]

theorem side_keys : KeysFit sideSpec true sideKeys where
  own := List.forall_mem_cons.mpr ⟨rfl, List.forall_mem_cons.mpr ⟨rfl, by simp⟩⟩
  plain := by decide
  zda := by decide
  serials := by decide
  chain := by decide
  content := by decide
  direct := by decide
  decimal := by decide

theorem instr_asks {spec : TestSpec} {closed : Bool} {keys : List TestKey} {n : Nat} {cents : Int} {device : Nat}
    {damaged dummy reversal : Bool} {newDep : Str} {contReg : Option Nat} {sys : SigSystem} {k : TestKey}
    (hd : strptime (instr n cents device damaged dummy reversal newDep contReg).date = some ⟨2020, 1, 2, 3, n, 0⟩)
    (hx : (dummy && reversal) = false) (hk : keys[device]? = some k) (hs : DeviceFor spec closed device k damaged sys) :
    (instr n cents device damaged dummy reversal newDep contReg).Asks spec closed keys (order n cents sys dummy reversal) where
  algorithm := rfl
  receiptId := rfl
  date := hd
  sumA := rfl
  sumB := rfl
  sumC := rfl
  sumD := rfl
  sumE := rfl
  dummy := by
    show dummy = true ↔ (if dummy = true then some c!"TRAINING_BELEG" else if reversal = true then _ else none) = _
    cases dummy <;> cases reversal <;> decide
  reversal := by
    revert hx
    show _ → (reversal = true ↔ (if dummy = true then some c!"TRAINING_BELEG" else if reversal = true then _ else none) = _)
    cases dummy <;> cases reversal <;> decide
  rand := rfl
  device := ⟨k, hk, hs⟩

theorem abide_nil (used : Used) : RuleAbiding used [] :=
  ⟨by simp, by simp, by simp, by simp, by simp, by cases used <;> simp [FreshIds]⟩

def sideOrders : List Order :=
  [order 1 0 closedSys false false, order 11 0 closedSys false false, order 2 5 closedSys false false,
   order 12 3 closedSys false true]

theorem side_orders (i : Nat) : ordersFor sideSpec.instrs sideOrders i =
    if i = 0 then firstOrders else if i = 1 then secondOrders else [] := by
  match i with
  | 0 => rfl
  | 1 => rfl
  | i + 2 =>
    have : registers sideSpec.instrs = [0, 1, 0, 1] := by decide
    rw [ordersFor, this]
    simp [sideOrders]

theorem side_abides : TestAbides (.unique ∅) sideSpec true sideKeys sideOrders where
  nonempty := by simp [sideSpec]
  orders := by
    have h : ∀ n ∈ [1, 11, 2, 12], strptime (c!"2020-01-02T03:" ++ (if n < 10 then '0' :: natDec n else natDec n) ++ c!":00") =
        some ⟨2020, 1, 2, 3, n, 0⟩ := by decide +kernel
    have hdev : DeviceFor sideSpec true 1 ⟨device, [], ([7, 8] : Bytes), none, false, false, 8⟩ false closedSys :=
      ⟨rfl, by decide, _, _, rfl⟩
    exact .cons (instr_asks (h 1 (by simp)) rfl rfl hdev) (.cons (instr_asks (h 11 (by simp)) rfl rfl hdev)
      (.cons (instr_asks (h 2 (by simp)) rfl rfl hdev) (.cons (instr_asks (h 12 (by simp)) rfl rfl hdev) .nil)))
  rules := by
    intro i
    rw [side_orders]
    split
    · exact first_abide
    · split
      · exact ⟨second_abide.proper, second_abide.first, second_abide.restore, second_abide.kind, second_abide.dates,
          second_abide.ids.1, by simp⟩
      · exact abide_nil _
  cluster := by
    intro i a b ha hb
    rw [side_orders] at ha hb
    match i with
    | 0 =>
      cases ha
      cases hb
      exact ⟨rfl, by simp [order, Earlier]⟩
    | i + 1 => cases hb
  ids := ⟨by decide, by simp⟩

set_option maxRecDepth 100000 in
theorem side_runs : ∃ deps store, runTest sideSpec sideKeys true none = .ok (deps, store) := by
  have h : (runTest sideSpec sideKeys true none).toBool = true := by decide +kernel
  cases e : runTest sideSpec sideKeys true none with
  | error e' => rw [e] at h; cases h
  | ok p => exact ⟨_, _, rfl⟩

/-- The hypotheses of `run_test_accepted` can be met: there are four DEPs, and two registers with the counters 5 and 3. -/
example {modes : Nat → Mode} (hm : ∀ k, FileMode (modes k)) {j : Json} (hj : Cluster.fromJson j = .ok ⟨[], .unique ∅⟩) :
    ∃ deps store e c, runTest sideSpec sideKeys true none = .ok (deps, store) ∧
      toolSession (.unique ∅) (testJobs modes store 0 [.fresh, .fresh, .nth 0, .nth 1] deps) j = .ok e ∧
      Cluster.fromJson e = .ok c ∧ c.regs.map (·.counter) = [5, 3] := by
  obtain ⟨deps, store, h⟩ := side_runs
  obtain ⟨-, e, c, rs, h1, h2, h3, h4, -⟩ := run_test_accepted h (key := aes) (eq_of_isOk (by decide +kernel)) (by decide)
    (backend := .unique ∅) side_abides side_keys hm hj
  refine ⟨deps, store, e, c, h, h1, h2, ?_⟩
  obtain ⟨a, b, hab⟩ : ∃ a b, c.regs = [a, b] := by
    have h3 : c.regs.length = 2 := h3
    match hc : c.regs, h3 with
    | [a, b], _ => exact ⟨a, b, rfl⟩
  have ha := h4 0 a [0, 5] (by rw [hab]; rfl) (.cons (order_adds _ _ (by norm_num) _ _ _) (.cons (order_adds _ _ (by norm_num) _ _ _) .nil))
  have hb := h4 1 b [0, 3] (by rw [hab]; rfl) (.cons (order_adds _ _ (by norm_num) _ _ _) (.cons (order_adds _ _ (by norm_num) _ _ _) .nil))
  rw [hab]
  simp [ha, hb]

/-! ### An open system with certificates -/

def openSpec : TestSpec where
  aesKey := b64Encode false aes
  cashBoxId := c!"reg"
  companyId := c!"U:ATU12345678"
  numDevices := 1
  groups := true
  instrs := [instr 1 0 0 false false false kNoNew none, instr 2 1230 0 false false false kNoNew none,
    instr 3 999 0 false true false kNoNew none, instr 4 (-230) 0 false false true c!"NEW_DEP" none,
    instr 5 42 0 true false false kNoNew none, instr 6 10 0 false false false kNoNew none,
    instr 7 0 0 false false false c!"NEW_DEP" (some 0), instr 8 7 0 true false false kNoNew none]

/-- The certificate is signed with a certificate with serial 32. -/
def openKeys : List TestKey := [⟨device, [([0, 32, 1, 1] : Bytes)], ([7, 8] : Bytes), none, false, false, 1⟩]

theorem open_keys : KeysFit openSpec false openKeys where
  own := List.forall_mem_cons.mpr ⟨rfl, by simp⟩
  plain := by decide
  zda := by decide
  serials := by decide
  chain := by decide
  content := by decide
  direct := by decide
  decimal := by decide

theorem open_orders (i : Nat) : ordersFor openSpec.instrs orders i = if i = 0 then orders else [] := by
  match i with
  | 0 => rfl
  | i + 1 =>
    have : registers openSpec.instrs = [0, 0, 0, 0, 0, 0, 0, 0] := by decide
    rw [ordersFor, this]
    simp [orders]

theorem open_abides : TestAbides (.unique ∅) openSpec false openKeys orders where
  nonempty := by simp [openSpec]
  orders := by
    have h : ∀ n ∈ [1, 2, 3, 4, 5, 6, 7, 8], strptime (c!"2020-01-02T03:" ++ (if n < 10 then '0' :: natDec n else natDec n) ++ c!":00") =
        some ⟨2020, 1, 2, 3, n, 0⟩ := by decide +kernel
    have hok : DeviceFor openSpec false 0 ⟨device, [([0, 32, 1, 1] : Bytes)], ([7, 8] : Bytes), none, false, false, 1⟩ false sysOk :=
      ⟨by decide, by decide, _, _, rfl⟩
    have hbr : DeviceFor openSpec false 0 ⟨device, [([0, 32, 1, 1] : Bytes)], ([7, 8] : Bytes), none, false, false, 1⟩ true sysBroken :=
      ⟨by decide, by decide, _, _, rfl⟩
    exact .cons (instr_asks (h 1 (by simp)) rfl rfl hok) (.cons (instr_asks (h 2 (by simp)) rfl rfl hok)
      (.cons (instr_asks (h 3 (by simp)) rfl rfl hok) (.cons (instr_asks (h 4 (by simp)) rfl rfl hok)
      (.cons (instr_asks (h 5 (by simp)) rfl rfl hbr) (.cons (instr_asks (h 6 (by simp)) rfl rfl hok)
      (.cons (instr_asks (h 7 (by simp)) rfl rfl hok) (.cons (instr_asks (h 8 (by simp)) rfl rfl hbr) .nil)))))))
  rules := by
    intro i
    rw [open_orders]
    split
    · exact orders_abide
    · exact abide_nil _
  cluster := by
    intro i a b ha hb
    rw [open_orders] at hb
    cases hb
  ids := ⟨by decide, by simp⟩

set_option maxRecDepth 100000 in
theorem open_runs : ∃ deps store, runTest openSpec openKeys false none = .ok (deps, store) := by
  have h : (runTest openSpec openKeys false none).toBool = true := by decide +kernel
  cases e : runTest openSpec openKeys false none with
  | error e' => rw [e] at h; cases h
  | ok p => exact ⟨_, _, rfl⟩

/-- The hypotheses of `run_test_accepted` can be met with certificates and a signature system that fails. -/
example {modes : Nat → Mode} (hm : ∀ k, FileMode (modes k)) {j : Json} (hj : Cluster.fromJson j = .ok ⟨[], .unique ∅⟩) :
    ∃ deps store e, runTest openSpec openKeys false none = .ok (deps, store) ∧ deps.length = 3 ∧
      toolSession (.unique ∅) (testJobs modes store 0 [.fresh, .nth 0, .nth 0] deps) j = .ok e := by
  obtain ⟨deps, store, h⟩ := open_runs
  obtain ⟨h0, e, c, rs, h1, -⟩ := run_test_accepted h (key := aes) (eq_of_isOk (by decide +kernel)) (by decide)
    (backend := .unique ∅) open_abides open_keys hm hj
  exact ⟨deps, store, e, h, h0, h1⟩

end Demo

end RKSV
