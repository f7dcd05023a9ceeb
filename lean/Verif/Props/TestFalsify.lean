import Verif.Lemmas.TestFalsify
import Verif.Lemmas.TestHistory
import Verif.Props.Falsify
import Verif.Props.GroupErrors
import Verif.Props.TestVerify
/-
C96: a test case with a falsified receipt is refused with the exception announced for it.
-/
namespace RKSV

section
variable [PyEnv]

/-- What is known of every receipt made. -/
theorem TestResult.facts {x : TestCtx} {modes : Nat → Mode} {deps : List Json} {acts : List Act} {segs : List (Nat × Part)}
    {n : Nat} (h : TestResult x modes deps acts segs n) (hf : KeysFit x.spec x.closed x.keys) {backend : Used} {os : List Order}
    (ha : TestAbides backend x.spec x.closed x.keys os) (hz : 5 ≤ x.size ∧ x.size ≤ 16) :
    ∀ a ∈ acts, a.order.Proper ∧ ∃ reg, Facts reg a.order a.receipt := by
  intro a haa
  obtain rfl := orders_eq ha.orders h.instrs h.order
  obtain ⟨regs, -, hregs⟩ := h.run
  have hm : a ∈ actsOf acts a.reg := List.mem_filter.mpr ⟨haa, by simp⟩
  have hp : ∀ o ∈ (actsOf acts a.reg).map (·.order), o.Proper := by
    rw [← ordersFor_eq h.regs]
    exact (ha.rules a.reg).proper
  have := acts_facts (acts_session hf (fun b hb => h.order b (List.mem_filter.mp hb).1) hz hp
    (hregs.run a.reg _ (List.getElem?_eq_getElem (hregs.lt a haa)))) a hm
  exact ⟨hp _ (List.mem_map_of_mem hm), _, this⟩

theorem TestResult.valid {x : TestCtx} {modes : Nat → Mode} {deps : List Json} {acts : List Act} {segs : List (Nat × Part)}
    {n : Nat} (h : TestResult x modes deps acts segs n) (hv : ∀ a ∈ acts, Entry.Valid (a.receipt.toJWS R1, a.receipt)) :
    (history segs).map (·.2) = acts.map (fun a => (a.receipt.toJWS R1, a.receipt)) ∧
    ∀ p ∈ segs, ∀ y ∈ partEntries p.2, y.Valid := by
  have e : history segs = acts.map fun a => (a.reg, (a.receipt.toJWS R1, a.receipt)) := by
    unfold history
    rw [← h.recs, List.map_map]
    rfl
  refine ⟨by rw [e, List.map_map]; rfl, ?_⟩
  intro p hp y hy
  have : (p.1, y) ∈ history segs := by
    obtain ⟨r, hr, rfl⟩ := List.mem_map.mp hy
    have : (p.1, r) ∈ tagged segs := List.mem_flatMap.mpr ⟨p, hp, List.mem_map_of_mem hr⟩
    exact List.mem_map_of_mem (f := fun t : Nat × Receipt × Str => (t.1, (t.2.1.toJWS t.2.2, t.2.1))) this
  rw [e] at this
  obtain ⟨a, h1, h2⟩ := List.mem_map.mp this
  rw [← (Prod.mk.inj h2).2]
  exact hv a h1

omit [PyEnv] in
theorem flatMap_texts {deps : List Json} {bs : List (List Bytes)} (h : List.Forall₂ (fun d b => (depTexts d).map utf8Enc = b) deps bs) :
    (deps.flatMap depTexts).map utf8Enc = bs.flatten := by
  induction h with
  | nil => rfl
  | cons h _ ih => rw [List.flatMap_cons, List.map_append, ih, h, List.flatten_cons]

theorem VerifierFor.congr {ks : KeyStore} {g g' : DepGroup} {v : Verifier} (hc : g'.cert = g.cert) (hh : g'.chain = g.chain)
    (h : VerifierFor ks g v) : VerifierFor ks g' v := by
  cases h with
  | store h => exact .store (hc.trans h)
  | cert c h i d hr hs => exact .cert c (hc.trans h) i d (by rw [hh]; exact hr) hs

theorem nonempty_append (a b : List DepGroup) : nonempty (a ++ b) = nonempty a ++ nonempty b := by
  simp [nonempty]

theorem nonempty_cons {g : DepGroup} (h : g.recs ≠ []) (l : List DepGroup) : nonempty (g :: l) = g :: nonempty l := by
  simp [nonempty, h]

/-- Where the falsified receipt is, and what is before it. -/
structure Site (backend : Used) (spec : TestSpec) (pre : List Instr) (i : Instr) (v : Falsify) (key : Bytes) (ks : KeyStore)
    (k : TestKey) (o : Order) (n : Nat) (deps₀ deps : List Json) where
  D : List Json
  dep₀ : Json
  dep : Json
  D' : List Json
  honest : deps₀ = D ++ [dep₀]
  falsified : deps = D ++ dep :: D'
  link : ∀ seen n, registerIdx seen n dep = registerIdx seen n dep₀
  c : Cluster
  turn : VerifiedInTurn ks (some key) ⟨[], backend.fresh⟩ ((depRegisters spec.instrs).zip D) c
  H : List (Nat × Entry)
  knows : Knows backend.fresh H c
  c₁ : Cluster
  ps : Option Str
  s : RegState
  info : Info c (some (n : Int)) c₁ ps s
  saved : Option Entry
  last : Saved s saved
  before : List Entry
  valid : ∀ y ∈ before, y.Valid
  r : Receipt
  rules : Rules { verifier := deviceVerifier spec.groups ks k, key := some key, prevStart := ps } s saved c.used before (r.toJWS R1, r)
  readable : Entry.Valid (r.toJWS R1, r)
  texts : textsOf ((depRegisters spec.instrs).zip deps₀) n = (entriesOf H n ++ before).map (·.1) ++ [r.toJWS R1]
  start : ps = startBeforeText ((depRegisters spec.instrs).zip deps₀) n
  canon : ∀ y ∈ H.map (·.2) ++ before, y.1 = y.2.toJWS R1
  ids : (H.map (·.2) ++ before).map (·.2.receiptId) = pre.map (·.receiptId)
  id : r.receiptId = i.receiptId
  reg : CashRegister
  reg' : CashRegister
  reg2 : CashRegister
  m : Mangled
  size : 5 ≤ reg.size ∧ reg.size ≤ 16
  regKey : reg.key = key
  proper : o.Proper
  signed : SignedFor (deviceVerifier spec.groups ks k) o r
  made : reg.receipt o = (reg', .ok r)
  mangled : reg.receiptWith o v = (reg2, .ok m)
  text : (deps.flatMap depTexts)[pre.length]? = some (m.toJWS (v.algorithmPrefix.getD R1))
  refuse : ∀ e, Refused { verifier := deviceVerifier spec.groups ks k, key := some key, prevStart := ps } s saved c.used before
    (utf8Enc (m.toJWS (v.algorithmPrefix.getD R1))) e →
    verifyDEP ks (some key) c (some (n : Int)) (dictParse 1 dep 0) = (c₁, .error e)

theorem test_site {spec : TestSpec} {keys : List TestKey} {closed : Bool} {tcSize : Option Nat} {pre post : List Instr} {i : Instr}
    {v : Falsify} {deps₀ deps : List Json} {store store' : Json} {key : Bytes} {backend : Used} {os : List Order} {ks : KeyStore}
    {k : TestKey} {o : Order} {n : Nat} (hi : spec.instrs = pre ++ [i]) (hp : ∀ j ∈ spec.instrs, j.override = {})
    (h : runTestFull spec keys closed tcSize = .ok (deps₀, store)) (hkey : loadB64Key spec.aesKey = .ok key)
    (hlen : key.length = 32) (ha : TestAbides backend spec closed keys os) (hf : KeysFit spec closed keys)
    (hks : readStoreFromJson store = .ok ks) (hk : keys[i.device]? = some k) (ho : i.Asks spec closed keys o)
    (hn : (depRegisters spec.instrs).getLast? = some n)
    (h' : runTestFull { spec with instrs := pre ++ { i with override := v } :: post } keys closed tcSize = .ok (deps, store')) :
    store' = store ∧ Nonempty (Site backend spec pre i v key ks k o n deps₀ deps) := by
  rw [runTestFull_plain hp] at h
  obtain ⟨hdoc, ks', cl, hks', hturn, -⟩ := test_in_turn h hkey hlen ha hf
  rw [hks] at hks'
  cases hks'
  unfold runTest at h
  unfold runTestFull at h'
  simp only [Res.bind_eq_ok, ensure_eq_ok, Except.ok.injEq, Prod.mk.injEq] at h h'
  obtain ⟨-, -, key1, hkey1, reg0, hreg, ks1, hks1, s4, hs, deps1, hd, rfl, rfl⟩ := h
  obtain ⟨-, -, key2, hkey2, reg2, hreg2, ks2, hks2, F', hs', deps2, hd', rfl, rfl⟩ := h'
  rw [hkey] at hkey1
  cases hkey1
  have hkey2 : loadB64Key spec.aesKey = .ok key2 := hkey2
  rw [hkey] at hkey2
  cases hkey2
  have hreg2 : CashRegister.make spec.cashBoxId none 0 key (spec.counterSize tcSize) = .ok reg2 := hreg2
  rw [hreg] at hreg2
  cases hreg2
  rw [putDevices_instrs, hks1] at hks2
  cases hks2
  refine ⟨rfl, ?_⟩
  rw [stepsFull_instrs] at hs'
  have hsF : TestCtx.stepsFull ⟨spec, closed, keys, key, spec.counterSize tcSize⟩ { regs := [reg0] }
    (pre ++ { i with override := v } :: post) = .ok F' := hs'
  have hdF : TestCtx.finishFull ⟨spec, closed, keys, key, spec.counterSize tcSize⟩ F' = .ok deps2 := hd'
  clear hs' hd'
  obtain ⟨size, hsize⟩ : ∃ size, spec.counterSize tcSize = size := ⟨_, rfl⟩
  rw [hsize] at hreg hs hd hsF hdF
  unfold CashRegister.make at hreg
  simp only [Res.bind_eq_ok, ensure_eq_ok, Except.ok.injEq] at hreg
  obtain ⟨-, hz, rfl⟩ := hreg
  obtain ⟨x, hx⟩ : ∃ x : TestCtx, x = ⟨spec, closed, keys, key, size⟩ := ⟨_, rfl⟩
  have x1 : x.spec = spec := by rw [hx]
  have x2 : x.closed = closed := by rw [hx]
  have x3 : x.keys = keys := by rw [hx]
  have x4 : x.key = key := by rw [hx]
  have x5 : x.size = size := by rw [hx]
  rw [← hx] at hs hd hsF hdF
  clear hx
  subst x1 x2 x3 x4 x5
  have hsize' : 5 ≤ x.size ∧ x.size ≤ 16 := by omega
  have homit : ∀ k ∈ x.keys, k.omitSign = false := fun k hk => (hf.plain k hk).2.1
  -- the honest test
  let modes : Nat → Mode := fun _ => { order := Finset.toList }
  have hmodes : ∀ k, FileMode (modes k) := fun k => ⟨le_refl _, fun s => Finset.toList_toFinset s, .inl rfl⟩
  obtain ⟨acts, segs, nr, c, p, g, hr, hpg, hgr, hsd, hcur, hregs, hextra⟩ := loop_result_last modes homit ha.nonempty hs hd
  obtain ⟨st1, st2⟩ := test_store (putDevices_store hf.plain hks1) hkey
  rw [hks] at st2
  cases st2
  have hfacts := hr.facts hf ha hsize'
  obtain ⟨hhist, hvalid⟩ := hr.valid fun a h => (hfacts a h).2.choose_spec.valid
  have hgood : ∀ q ∈ segs ++ [(c, p)], q.2.Good ∧ ∀ y ∈ partEntries q.2, y.Valid := by
    intro q hq
    refine ⟨?_, hvalid q hq⟩
    have hm : FileMode q.2.mode := by
      obtain ⟨j, hj⟩ := List.getElem?_of_mem hq
      rw [hr.mode j q hj]
      exact hmodes j
    exact (hr.parts q hq).1.good hf (hr.parts q hq).2 hm
  have hdr := hr.depRegisters ha.nonempty
  have hnc : n = c := by
    rw [← hdr] at hn
    simpa using hn.symm
  subst hnc
  have hzip : (depRegisters x.spec.instrs).zip deps1 =
      (segs ++ [(n, p)]).map fun q => (q.1, exportDEP q.2.groups q.2.extra) := by
    rw [hr.deps, ← hdr, List.zip_map']
  -- the step
  rw [hi, steps_append] at hs
  simp only [Res.bind_eq_ok] at hs
  obtain ⟨s, hs1, hs2⟩ := hs
  simp only [TestCtx.steps, Res.bind_eq_ok] at hs2
  obtain ⟨s5, hs2, hs3⟩ := hs2
  cases hs3
  rw [stepsFull_append] at hsF
  have hco : Coherent { fresh := (⟨x.spec.cashBoxId, none, 0, x.key, x.size⟩ : CashRegister) } := ⟨by simp [truthy], by simp⟩
  have hpl := steps_plain (x := x) (l := pre) hco (fun _ => rfl) fun j hj => hp j (by rw [hi]; simp [hj])
  rw [hs1] at hpl
  rw [show ({ regs := [(⟨x.spec.cashBoxId, none, 0, x.key, x.size⟩ : CashRegister)] } : FullState) =
    TestState.full { fresh := (⟨x.spec.cashBoxId, none, 0, x.key, x.size⟩ : CashRegister) } from rfl, hpl] at hsF
  simp only [Except.map, Res.ok_bind, TestCtx.stepsFull, Res.bind_eq_ok] at hsF
  obtain ⟨F, hF, hFp⟩ := hsF
  obtain ⟨hco1, hn1⟩ := steps_coherent hco (fun _ => rfl) hs1
  obtain ⟨s3, o', reg, reg', reg2, r, m, c', q1, q2, q3, q4, q5, q6, q7, q8, q9, q10, f1, f2, f3, f4, f5⟩ :=
    step_both hco1 hn1 hs2 hF
  obtain rfl := asks_order ho q1
  rw [hcur] at q4
  cases q4
  -- the DEPs before
  rw [hzip, List.map_append] at hturn
  obtain ⟨cb, hv1, hv2⟩ := VerifiedInTurn.append.mp hturn
  have hKn : Knows backend.fresh (history segs) cb := by
    have := (knows_new backend.fresh).deps (fun q hq => hgood q (by simp [hq])) hv1
    rwa [List.nil_append] at this
  have hgp := hgood (n, p) (by simp)
  simp only at hgp
  obtain ⟨hv3, hacc⟩ : ∃ cl, DepAccepted ks (some x.key) cb (some (n : Int)) (nonempty (p.groups.map SGroup.asRead)) cl := by
    rw [List.map_cons] at hv2
    cases hv2 with
    | cons _ c₂ _ _ _ _ h t => exact ⟨c₂, (dep_accepted_iff hgp.1.json hgp.1.hasReceipts).mp h⟩
  -- the groups of the honest DEP
  rw [q7] at hpg
  rw [q6] at hgr
  have e3 : exportMangled (s4.full.groups ++ [x.groupOf i.device s4.full.recs]) s4.full.addTurnover = exportDEP p.groups p.extra := by
    have e1 := finishFull_eq (F := s4.full) homit q10 (by rw [finish_plain]; exact hd)
    have e2 := hr.deps
    rw [e1, List.map_append] at e2
    have e3 := (List.append_inj' e2 rfl).2
    simpa only [List.map_cons, List.map_nil, List.cons.injEq, and_true] using e3
  have hcert : g.asRead.cert = (x.groupOf i.device []).cert ∧ g.asRead.chain = (x.groupOf i.device []).chain := by
    have j1 := hgp.1.json
    rw [← e3] at j1
    have j2 := exportMangled_json (gs := s4.full.groups ++ [x.groupOf i.device s4.full.recs]) (extra := s4.full.addTurnover) (by
      intro g' hg'
      rcases List.mem_append.mp hg' with hg' | hg'
      · obtain ⟨g1, hg1, rfl⟩ := List.mem_map.mp hg'
        intro c hc
        exact hgp.1.writable g1 (by rw [hpg, ← q7]; simp [hg1]) c hc
      · rw [List.mem_singleton.mp hg']
        exact groupOf_certs hf.content _ _) (FullState.extraOk (s := s4.full) hextra)
    have j3 := depJson_unique j1 j2
    rw [hpg, List.map_append, List.map_append] at j3
    have j4 := (List.append_inj' j3 rfl).2
    simp only [List.map_cons, List.map_nil, List.cons.injEq, and_true] at j4
    rw [j4, groupOf_frame x _ _ []]
    exact ⟨rfl, rfl⟩
  -- the falsified DEP
  have hst : Stays x s3.deps (s3.groups.map plainGroup) F.recs i.device F.extra F :=
    .writing [] f3 f2 (by simp) (fun _ => f5) rfl
  obtain ⟨hst1, ⟨d1, hd1⟩, hex1⟩ := hst.steps homit hf.content f5 (by rw [f4, ← q9]; exact hextra) hFp
  obtain ⟨rest, B, extra, D', hdeps, hB, hextra', hlinks⟩ := hst1.finish homit hf.content hd1 hex1 hdF
  let alg := v.algorithmPrefix.getD R1
  let gF : DepGroup := mangledDep (x.groupOf i.device (F.recs ++ rest))
  let bytes3 : List Bytes := s3.recs.map fun r => utf8Enc (r.1.toJWS r.2)
  let restBytes : List Bytes := rest.map fun r => utf8Enc (Mangled.text r)
  let E0 : List Entry := s3.recs.map fun r => (r.1.toJWS r.2, r.1)
  have hgFr : gF.recs = bytes3 ++ utf8Enc (m.toJWS alg) :: restBytes := by
    show ((x.groupOf i.device (F.recs ++ rest)).recs.map fun r => utf8Enc (Mangled.text r)) = _
    rw [groupOf_recs, f1]
    simp only [List.map_append, List.map_map, List.map_cons, List.map_nil, List.append_assoc, List.cons_append, List.nil_append]
    rfl
  have hgFc : gF.cert = g.asRead.cert ∧ gF.chain = g.asRead.chain := by
    rw [hcert.1, hcert.2]
    show (x.groupOf i.device (F.recs ++ rest)).cert = _ ∧ (x.groupOf i.device (F.recs ++ rest)).chain = _
    rw [groupOf_frame x _ _ []]
    exact ⟨rfl, rfl⟩
  have hpe : partEntries p = (s3.groups.flatMap (·.recs)).map (fun r => (r.1.toJWS r.2, r.1)) ++ (E0 ++ [(r.toJWS R1, r)]) := by
    simp only [partEntries, hpg, List.flatMap_append, List.flatMap_cons, List.flatMap_nil, List.append_nil, hgr, List.map_append,
      E0, List.map_cons, List.map_nil]
  have hvp := hgp.2
  rw [hpe] at hvp
  have hj : DepJson (exportMangled (s3.groups.map plainGroup ++ x.groupOf i.device (F.recs ++ rest) :: B) extra)
      (s3.groups.map SGroup.asRead ++ gF :: B.map mangledDep) := by
    have := exportMangled_json (gs := s3.groups.map plainGroup ++ x.groupOf i.device (F.recs ++ rest) :: B) (by
      intro g' hg'
      rcases List.mem_append.mp hg' with hg' | hg'
      · obtain ⟨g1, hg1, rfl⟩ := List.mem_map.mp hg'
        intro c hc
        exact hgp.1.writable g1 (by rw [hpg]; simp [hg1]) c hc
      · rcases List.mem_cons.mp hg' with rfl | hg'
        · exact groupOf_certs hf.content _ _
        · exact hB g' hg') hextra'
    rw [List.map_append, List.map_map, List.map_cons] at this
    rw [show (mangledDep ∘ plainGroup) = SGroup.asRead from funext fun g => mangledDep_plain g] at this
    exact this
  have hrg : g.asRead.recs = bytes3 ++ [utf8Enc (r.toJWS R1)] := by
    show (g.recs.map fun r => utf8Enc (r.1.toJWS r.2)) = _
    rw [hgr]
    simp [bytes3]
  have hne1 : nonempty (p.groups.map SGroup.asRead) = nonempty (s3.groups.map SGroup.asRead) ++ [g.asRead] := by
    rw [hpg, List.map_append, nonempty_append, List.map_cons, List.map_nil, nonempty_cons (by rw [hrg]; simp)]
    rfl
  have hne2 : nonempty (s3.groups.map SGroup.asRead ++ gF :: B.map mangledDep) =
      nonempty (s3.groups.map SGroup.asRead) ++ gF :: nonempty (B.map mangledDep) := by
    rw [nonempty_append, nonempty_cons (by rw [hgFr]; simp)]
  rw [hne1] at hacc
  cases hacc with
  | mk c₁ ps st s' used' j saved E info index last certs reads rules after ids =>
    have hEall := reads_unique reads.reads (h' := partEntries p) (by
      rw [← hne1, flatMap_nonempty]
      exact partEntries_reads hgp.2)
    obtain ⟨a, b, rfl, ra, rb⟩ := reads.split
    obtain ⟨vg, hvg, rfl⟩ : ∃ vg, VerifierFor ks g.asRead vg ∧ b = (E0 ++ [(r.toJWS R1, r)]).map fun x => (x, vg) := by
      cases rb with
      | cons _ vg hg _ _ hv hrd ht =>
        cases ht
        refine ⟨vg, hv, ?_⟩
        rw [List.append_nil, reads_unique hrd (h' := E0 ++ [(r.toJWS R1, r)]) ⟨?_, fun y hy => hvp y (by simp only [List.mem_append] at hy ⊢; exact .inr hy)⟩]
        rw [hrg]
        simp [E0, bytes3]
    have hb1 : ((a ++ (E0 ++ [(r.toJWS R1, r)]).map fun x => (x, vg)).map (·.1)) = a.map (·.1) ++ E0 ++ [(r.toJWS R1, r)] := by
      simp [Function.comp_def]
    rw [hb1] at hEall
    -- the last receipt
    have hids : (history (segs ++ [(n, p)])).map (·.2.2.receiptId) = x.spec.instrs.map (·.receiptId) := by
      have := congrArg (List.map fun y : Entry => y.2.receiptId) hhist
      rw [List.map_map, List.map_map] at this
      rw [show ((history (segs ++ [(n, p)])).map (·.2.2.receiptId)) = List.map ((fun y : Entry => y.2.receiptId) ∘ fun x => x.2) (history (segs ++ [(n, p)])) from rfl,
        this, ← hr.instrs, List.map_map]
      apply List.map_congr_left
      intro act hact
      obtain ⟨-, rg, fx⟩ := hfacts act hact
      obtain ⟨dt, k', -, -, e⟩ := order_ok (hr.order act hact)
      show act.receipt.receiptId = act.instr.receiptId
      rw [fx.receiptId, e]
    have hids2 : ((history segs).map (·.2) ++ (a.map (·.1) ++ E0)).map (·.2.receiptId) ++ [r.receiptId] =
        pre.map (·.receiptId) ++ [i.receiptId] := by
      rw [hi, List.map_append, history_append, history_one, ← hEall] at hids
      simp only [List.map_append, List.map_map, List.map_cons, List.map_nil, List.append_assoc] at hids ⊢
      exact hids
    obtain ⟨hid1, hid2⟩ := List.append_inj' hids2 rfl
    obtain ⟨acts', act, rfl⟩ : ∃ acts' act, acts = acts' ++ [act] := by
      have : acts ≠ [] := by
        rintro rfl
        have := hr.instrs
        rw [hi] at this
        simp at this
      exact ⟨acts.dropLast, acts.getLast this, (List.dropLast_append_getLast this).symm⟩
    have hact1 : act.instr = i := by
      have := hr.instrs
      rw [hi, List.map_append] at this
      simpa using (List.append_inj' this rfl).2
    have hact2 : act.reg = n ∧ act.receipt = r := by
      have h1 := hr.recs
      have h2 : tagged (segs ++ [(n, p)]) = (tagged segs ++ (s3.groups.flatMap (·.recs)).map (n, ·) ++ s3.recs.map (n, ·)) ++ [(n, r, R1)] := by
        simp only [tagged, List.flatMap_append, List.flatMap_cons, List.flatMap_nil, hpg, hgr, List.map_append, List.append_nil,
          List.map_cons, List.map_nil, List.append_assoc]
      rw [h2, List.map_append] at h1
      have := (List.append_inj' h1 rfl).2
      simp only [List.map_cons, List.map_nil, List.cons.injEq, Prod.mk.injEq, and_true] at this
      exact this
    have hact3 : act.order = o := (asks_order (hact1 ▸ ho) (hr.order act (by simp))).symm
    have hmem : act ∈ actsOf (acts' ++ [act]) n := List.mem_filter.mpr ⟨by simp, by simp [hact2.1]⟩
    have hrun := hregs.run n _ q5
    have hordn : ∀ b ∈ actsOf (acts' ++ [act]) n, x.order b.instr = .ok b.order := fun b hb => hr.order b (List.mem_filter.mp hb).1
    have hsess := acts_session hf hordn hsize' (fun o ho => by
      obtain ⟨b, hb, rfl⟩ := List.mem_map.mp ho
      exact (hfacts b (List.mem_filter.mp hb).1).1) hrun
    obtain ⟨-, -, hck, hcs⟩ := receipt_chained q2
    -- the verifier
    obtain ⟨vg', hvg', hsig⟩ := group_signed hf (putDevices_store hf.plain hks1) hordn hrun (hr.parts (n, p) (by simp)).1
      (g := g) (by show g ∈ p.groups; rw [hpg]; simp)
    obtain rfl := VerifierFor.unique rfl hvg hvg'
    have hsigned : SignedFor vg o r := by
      refine hsig o r ?_ (by rw [hgr]; simp; exact .inr rfl)
      rw [List.zip_map', ← hact3, ← hact2.2]
      exact List.mem_map_of_mem (f := fun a : Act => (a.order, a.receipt)) hmem
    have hvgd : vg = deviceVerifier x.spec.groups ks k := by
      have hc := hcert.1
      unfold TestCtx.groupOf at hc
      unfold deviceVerifier
      cases hgs : x.spec.groups with
      | true =>
        rw [hgs, hk] at hc
        cases hvg with
        | store h => rw [hc] at h; cases h
        | cert c h => rw [hc] at h; cases h; rfl
      | false =>
        rw [hgs] at hc
        cases hvg with
        | store h => rfl
        | cert c h => rw [hc] at h; cases h
    subst hvgd
    have hrules : Rules { verifier := deviceVerifier x.spec.groups ks k, key := some x.key, prevStart := ps } st saved cb.used
        (a.map (·.1) ++ E0) (r.toJWS R1, r) := by
      have := rules (a ++ E0.map fun y => (y, deviceVerifier x.spec.groups ks k)) (r.toJWS R1, r) (deviceVerifier x.spec.groups ks k) [] (by simp)
      simpa [Function.comp_def] using this
    have hvb : ∀ y ∈ a.map (·.1) ++ E0, y.Valid := by
      intro y hy
      refine hgp.2 y ?_
      rw [← hEall]
      exact List.mem_append_left _ hy
    have hlenH : (history segs).length + (a.map (·.1) ++ E0).length = pre.length := by
      have := congrArg List.length hid1
      simpa using this
    -- the texts
    have hD : s3.deps.flatMap depTexts = (history segs).map (·.2.1) := by
      rw [← q8, hsd]
      have hg1 : ∀ q ∈ segs, q.2.Good ∧ ∀ y ∈ partEntries q.2, y.Valid := fun q hq => hgood q (by simp [hq])
      clear * - hg1
      induction segs with
      | nil => rfl
      | cons q segs ih =>
        rw [List.map_cons, List.flatMap_cons, ih fun q' hq => hg1 q' (by simp [hq]), history_cons, List.map_append]
        congr 1
        apply utf8Enc_map_injective
        rw [depTexts_json (hg1 q (by simp)).1.json, (partEntries_reads (hg1 q (by simp)).2).1, List.map_map, List.map_map]
        rfl
    have hraw : (nonempty (s3.groups.map SGroup.asRead)).flatMap (·.recs) ++ bytes3 = ((a.map (·.1) ++ E0).map (·.1)).map utf8Enc := by
      rw [ra.reads.1]
      simp [bytes3, E0, Function.comp_def]
    have hT : ∃ T, depTexts (exportMangled (s3.groups.map plainGroup ++ x.groupOf i.device (F.recs ++ rest) :: B) extra) =
        (a.map (·.1) ++ E0).map (·.1) ++ m.toJWS alg :: T := by
      have h1 := depTexts_json hj
      rw [List.flatMap_append, List.flatMap_cons, ← flatMap_nonempty, hgFr, List.append_assoc bytes3, ← List.append_assoc, hraw] at h1
      obtain ⟨t1, t2, e1, e2, e3⟩ := List.map_eq_append_iff.mp h1
      rw [List.cons_append] at e3
      obtain ⟨t3, t4, rfl, e4, e5⟩ := List.map_eq_cons_iff.mp e3
      refine ⟨t4, ?_⟩
      rw [e1, utf8Enc_map_injective e2, utf8Enc_injective e4]
    obtain ⟨T, hT⟩ := hT
    refine ⟨{
      D := s3.deps
      dep₀ := exportDEP p.groups p.extra
      dep := exportMangled (s3.groups.map plainGroup ++ x.groupOf i.device (F.recs ++ rest) :: B) extra
      D' := D'
      honest := by rw [hr.deps, List.map_append, ← hsd, q8]; rfl
      falsified := hdeps
      link := ?link
      c := cb
      turn := ?turn
      H := history segs
      knows := hKn
      c₁ := c₁
      ps := ps
      s := st
      info := info
      saved := saved
      last := last
      before := a.map (·.1) ++ E0
      valid := hvb
      r := r
      rules := hrules
      readable := hgp.2 _ (by rw [← hEall]; simp)
      texts := ?texts
      start := ?start
      canon := ?canon
      ids := hid1
      id := by simpa using hid2
      reg := reg
      reg' := reg'
      reg2 := reg2
      m := m
      size := by rw [← hcs, hsess.size]; exact hsize'
      regKey := by rw [← hck, hsess.key]; rfl
      proper := by rw [← hact3]; exact (hfacts act (by simp)).1
      signed := hsigned
      made := q2
      mangled := q3
      text := ?text
      refuse := ?refuse }⟩
    case link =>
      intro seen n
      rw [← e3]
      refine registerIdx_links (fun d k hk => ?_) _ _ _ _
      rw [hlinks d k hk, s4.full.sameLinks d k hk]
      show Dict.get? (Dict.update d F.extra) k = Dict.get? (Dict.update d s4.extra) k
      rw [f4, q9]
    case turn =>
      have e : (depRegisters x.spec.instrs).zip s3.deps = segs.map fun q => (q.1, exportDEP q.2.groups q.2.extra) := by
        rw [← q8, hsd, ← hdr, List.map_append, ← List.append_nil (List.map _ segs),
          ← List.append_nil (segs.map fun q => exportDEP q.2.groups q.2.extra)]
        rw [List.append_nil, List.zip_append (by simp), List.zip_map']
        simp
      rw [e]
      exact hv1
    case canon =>
      intro y hy
      have hy : y ∈ (history (segs ++ [(n, p)])).map (·.2) := by
        rw [history_append, List.map_append, history_one, List.map_map, ← hEall]
        rcases List.mem_append.mp hy with hy | hy
        · exact List.mem_append_left _ hy
        · refine List.mem_append_right _ ?_
          simp only [Function.comp_def, List.map_id']
          exact List.mem_append_left _ hy
      rw [hhist] at hy
      obtain ⟨b, -, rfl⟩ := List.mem_map.mp hy
      rfl
    case texts =>
      rw [hzip, textsOf_segs hgood, history_append, entriesOf_append, history_one, entriesOf_same, ← hEall]
      simp
    case start =>
      rw [info.before hKn]
      unfold startBeforeText
      split
      · rfl
      · rename_i h0
        rw [hzip, textsOf_segs hgood, history_append, entriesOf_append, history_one, entriesOf_other (by omega), List.append_nil,
          List.head?_map]
    case text =>
      rw [hdeps, List.flatMap_append, List.flatMap_cons, hD, hT, ← hlenH]
      rw [List.getElem?_append_right (by simp), List.append_assoc, List.getElem?_append_right (by simp)]
      simp
      rfl
    case refuse =>
      intro e he
      refine (dep_refused_iff hj ⟨gF, by simp, by rw [hgFr]; simp⟩ info).mpr ?_
      rw [hne2]
      refine .receipt saved _ gF _ a (deviceVerifier x.spec.groups ks k) bytes3 E0 _ restBytes e rfl ?_ last ra
        (hvg.congr hgFc.1 hgFc.2) hgFr ⟨by simp [bytes3, E0, Function.comp_def], fun y hy => hvb y (by simp [hy])⟩ ?_ he
      · rcases certs with h | h
        · left
          rw [List.length_append] at h
          exact List.length_eq_zero_iff.mp (by simpa using h)
        · right
          intro y hy
          rcases List.mem_append.mp hy with hy | hy
          · exact h y (by simp [hy])
          · rw [List.mem_singleton.mp hy, hgFc.1]
            exact h _ (by simp)
      · intro pre' y v' post' e'
        refine rules pre' y v' (post' ++ [((r.toJWS R1, r), deviceVerifier x.spec.groups ks k)]) ?_
        rw [List.map_append, ← List.append_assoc, e']
        simp

theorem Announced.prefix {c : GroupCtx} {used : Used} {rs : List Receipt} {o : Order} {r x : Receipt} {v : Falsify} {e : Err}
    (h : Announced c used rs o r x v e) : v.algorithmPrefix = none := by
  cases h <;> rfl

/-- C96: if a receipt of a test case that follows the rules otherwise is falsified, the DEPs before the one with this receipt
are accepted, and the one with it is refused with the exception announced for the falsification, whatever follows.
`deps₀` are the DEPs without the falsification, up to this receipt. -/
theorem test_falsified_refused {spec : TestSpec} {keys : List TestKey} {closed : Bool} {tcSize : Option Nat}
    {pre post : List Instr} {i : Instr} {v : Falsify} {deps₀ deps : List Json} {store store' : Json} {key : Bytes}
    {backend : Used} {os : List Order} {ks : KeyStore} {k : TestKey} {o : Order} {n : Nat} {H : List Entry} {t₀ t : Str}
    {r x : Receipt} {e : Err} (hi : spec.instrs = pre ++ [i]) (hp : ∀ j ∈ spec.instrs, j.override = {})
    (h : runTestFull spec keys closed tcSize = .ok (deps₀, store)) (hkey : loadB64Key spec.aesKey = .ok key)
    (hlen : key.length = 32) (ha : TestAbides backend spec closed keys os) (hf : KeysFit spec closed keys)
    (hks : readStoreFromJson store = .ok ks) (hk : keys[i.device]? = some k) (hdam : i.damaged = false)
    (ho : i.Asks spec closed keys o) (hn : (depRegisters spec.instrs).getLast? = some n)
    (hH : Kept ((depRegisters spec.instrs).zip deps₀) n (H ++ [(t₀, r)]))
    (h' : runTestFull { spec with instrs := pre ++ { i with override := v } :: post } keys closed tcSize = .ok (deps, store'))
    (ht : (deps.flatMap depTexts)[pre.length]? = some t) (hx : Entry.Valid (t, x))
    (hann : Announced ⟨deviceVerifier spec.groups ks k, some key, startBeforeText ((depRegisters spec.instrs).zip deps₀) n⟩
      (usedIds backend pre) (H.map (·.2)) o r x v e) :
    store' = store ∧ ∃ D dep₀ dep D' c c', deps₀ = D ++ [dep₀] ∧ deps = D ++ dep :: D' ∧
      VerifiedInTurn ks (some key) ⟨[], backend.fresh⟩ ((depRegisters spec.instrs).zip D) c ∧
      (∀ seen m, registerIdx seen m dep = registerIdx seen m dep₀) ∧
      verifyDEP ks (some key) c (some (n : Int)) (dictParse 1 dep 0) = (c', .error e) := by
  obtain ⟨rfl, ⟨S⟩⟩ := test_site hi hp h hkey hlen ha hf hks hk ho hn h'
  refine ⟨rfl, S.D, S.dep₀, S.dep, S.D', S.c, S.c₁, S.honest, S.falsified, S.turn, S.link, S.refuse e ?_⟩
  have halg := hann.prefix
  have etext := S.text
  rw [ht, halg] at etext
  have etext : t = S.m.toJWS c!"R1" := Option.some.inj etext
  subst etext
  rw [halg]
  -- the receipts before
  obtain ⟨hH1, hH2⟩ := hH
  have hval : ∀ y ∈ entriesOf S.H n ++ S.before, y.Valid := by
    intro y hy
    rcases List.mem_append.mp hy with hy | hy
    · obtain ⟨p, hp, rfl⟩ := List.mem_map.mp (mem_entriesOf hy)
      exact S.knows.valid p hp
    · exact S.valid y hy
  have hall : ∀ y ∈ entriesOf S.H n ++ S.before, y ∈ S.H.map (·.2) ++ S.before := by
    intro y hy
    rcases List.mem_append.mp hy with hy | hy
    · exact List.mem_append_left _ (mem_entriesOf hy)
    · exact List.mem_append_right _ hy
  have hHE : H ++ [(t₀, r)] = (entriesOf S.H n ++ S.before) ++ [(S.r.toJWS R1, S.r)] := by
    refine reads_unique (g := (textsOf ((depRegisters spec.instrs).zip deps₀) n).map utf8Enc) ⟨by rw [hH1, List.map_map]; rfl, hH2⟩
      ⟨by rw [S.texts]; simp [Function.comp_def], ?_⟩
    intro y hy
    rcases List.mem_append.mp hy with hy | hy
    · exact hval y hy
    · rw [List.mem_singleton.mp hy]
      exact S.readable
  obtain ⟨rfl, hlast⟩ := List.append_inj' hHE rfl
  obtain ⟨rfl, rfl⟩ : t₀ = S.r.toJWS R1 ∧ r = S.r := by simpa using hlast
  obtain ⟨hs1, hs2⟩ := S.knows.saved S.info S.last
  have hpred : predecessor S.saved S.before = (entriesOf S.H n ++ S.before).getLast? := by
    rw [predecessor, hs1, List.getLast?_append]
  -- the device
  obtain ⟨z, sr, hsys⟩ : ∃ z s, o.sys = .working z s k.priv := by
    obtain ⟨k', hk', hd⟩ := ho.device
    rw [hk] at hk'
    cases hk'
    have := hd.2.2
    rw [hdam] at this
    exact this
  have hfresh := freshIds_last (a := pre.map (·.receiptId)) (i := i.receiptId) (by
    have := ha.ids
    rwa [hi, List.map_append] at this)
  refine .fault (S.m.toJWS c!"R1", x) e rfl hx ?_
  rw [← S.start] at hann
  refine falsified_fault S.size S.proper S.signed hsys S.made S.mangled hx ?_ S.rules ?_ ?_ ?_ ?_ hann
  · rintro k' ⟨⟩
    exact ⟨S.regKey.symm, hlen⟩
  · rw [hpred, List.getLast?_eq_none_iff, List.map_eq_nil_iff]
  · intro y hy
    rw [hpred]
    rw [List.getLast?_map] at hy
    obtain ⟨z, hz, rfl⟩ := Option.map_eq_some_iff.mp hy
    rw [hz]
    rw [← S.canon z (hall z (List.mem_of_getLast? hz))]
  · intro t' ids hu hor
    have hmem : ∃ y ∈ S.H.map (·.2) ++ S.before, y.2.receiptId = t' := by
      rcases hor with h1 | ⟨y, hy, h1⟩
      · unfold usedIds at hu
        split at hu
        · cases hu
          rw [List.mem_toFinset, ← S.ids] at h1
          obtain ⟨y, hy, e1⟩ := List.mem_map.mp h1
          exact ⟨y, hy, e1⟩
        · cases hu
      · obtain ⟨w, hw, rfl⟩ := List.mem_map.mp hy
        exact ⟨w, hall w hw, h1⟩
    have hb : ∃ ids0, backend = .unique ids0 := by
      unfold usedIds at hu
      split at hu
      · exact ⟨_, rfl⟩
      · cases hu
    obtain ⟨ids0, rfl⟩ := hb
    have hused := usedAfter_addAll (.unique ∅) (S.H.map (·.2))
    have hc := S.knows.used
    rw [show (Used.unique ids0).fresh = .unique ∅ from rfl] at hc
    rw [← hc] at hused
    refine ⟨_, hused, ?_⟩
    obtain ⟨y, hy, rfl⟩ := hmem
    rcases List.mem_append.mp hy with hy | hy
    · left
      rw [Finset.empty_union, List.mem_toFinset]
      exact List.mem_map_of_mem (f := fun y : Entry => y.2.receiptId) hy
    · exact .inr ⟨y, hy, rfl⟩
  · intro hid hst
    obtain ⟨y, hy, ey⟩ : ∃ y ∈ entriesOf S.H n ++ S.before, y.1 = S.m.toJWS c!"R1" := by
      split at hst
      · obtain ⟨y, hy, e1⟩ := Option.map_eq_some_iff.mp hst
        exact ⟨y, List.mem_append_right _ (List.mem_of_mem_head? hy), e1⟩
      · rw [hs2] at hst
        obtain ⟨y, hy, e1⟩ := Option.map_eq_some_iff.mp hst
        exact ⟨y, List.mem_append_left _ (List.mem_of_mem_head? hy), e1⟩
    have e2 : y = (S.m.toJWS c!"R1", x) := (hval y hy).unique hx ey
    refine hfresh y.2.receiptId ?_ (by rw [e2]; show x.receiptId = _; rw [hid, S.id])
    rw [← S.ids]
    exact List.mem_map_of_mem (f := fun y : Entry => y.2.receiptId) (hall y hy)

/-- C96: the same for falsifications that leave something that cannot be read. -/
theorem test_unreadable_refused {spec : TestSpec} {keys : List TestKey} {closed : Bool} {tcSize : Option Nat}
    {pre post : List Instr} {i : Instr} {v : Falsify} {deps₀ deps : List Json} {store store' : Json} {key : Bytes}
    {backend : Used} {os : List Order} {ks : KeyStore} {k : TestKey} {o : Order} {n : Nat} {e : Err}
    (hi : spec.instrs = pre ++ [i]) (hp : ∀ j ∈ spec.instrs, j.override = {})
    (h : runTestFull spec keys closed tcSize = .ok (deps₀, store)) (hkey : loadB64Key spec.aesKey = .ok key)
    (hlen : key.length = 32) (ha : TestAbides backend spec closed keys os) (hf : KeysFit spec closed keys)
    (hks : readStoreFromJson store = .ok ks) (hk : keys[i.device]? = some k) (hdam : i.damaged = false)
    (ho : i.Asks spec closed keys o) (hn : (depRegisters spec.instrs).getLast? = some n)
    (h' : runTestFull { spec with instrs := pre ++ { i with override := v } :: post } keys closed tcSize = .ok (deps, store'))
    (hann : AnnouncedUnreadable v e) :
    store' = store ∧ ∃ D dep₀ dep D' c c', deps₀ = D ++ [dep₀] ∧ deps = D ++ dep :: D' ∧
      VerifiedInTurn ks (some key) ⟨[], backend.fresh⟩ ((depRegisters spec.instrs).zip D) c ∧
      (∀ seen m, registerIdx seen m dep = registerIdx seen m dep₀) ∧
      verifyDEP ks (some key) c (some (n : Int)) (dictParse 1 dep 0) = (c', .error e) := by
  obtain ⟨rfl, ⟨S⟩⟩ := test_site hi hp h hkey hlen ha hf hks hk ho hn h'
  refine ⟨rfl, S.D, S.dep₀, S.dep, S.D', S.c, S.c₁, S.honest, S.falsified, S.turn, S.link, S.refuse e ?_⟩
  obtain ⟨z, sr, hsys⟩ : ∃ z s, o.sys = .working z s k.priv := by
    obtain ⟨k', hk', hd⟩ := ho.device
    rw [hk] at hk'
    cases hk'
    have := hd.2.2
    rw [hdam] at this
    exact this
  exact .receipt _ e rfl (falsified_unread (c := ⟨deviceVerifier spec.groups ks k, some key, none⟩) S.size S.proper S.signed hsys
    S.made S.mangled hann)

/-! ### The test driver -/

theorem registerIdxs_length {l : List Json} {a b : List Nat} {n m : Nat} (h : registerIdxs a n l = .ok (b, m)) :
    b.length = a.length + l.length := by
  induction l generalizing a n with
  | nil =>
    cases h
    rfl
  | cons d l ih =>
    simp only [registerIdxs, Res.bind_eq_ok] at h
    obtain ⟨⟨a', n₂⟩, h3, h4⟩ := h
    obtain ⟨-, k, rfl⟩ := registerIdx_obj h3
    rw [ih h4]
    simp
    omega

/-- Whoever reports success has met the refused DEP. -/
theorem driver_refused {backend : Used} {d : Driver} {spec : TestSpec} {keys : List TestKey} {closed : Bool}
    {expected : Option (Err → Bool)} {D D' : List Json} {dep : Json} {store : Json} {key : Bytes} {ks : KeyStore}
    {R : List Nat} {n m : Nat} {c c' : Cluster} {e : Err}
    (hrun : runTestFull spec keys closed none = .ok (D ++ dep :: D', store)) (hkey : loadB64Key spec.aesKey = .ok key)
    (hks : readStoreFromJson store = .ok ks) (hlen : R.length = D.length)
    (hr : registerIdxs [] 0 (D ++ [dep]) = .ok (R ++ [n], m))
    (hturn : VerifiedInTurn ks (some key) ⟨[], backend⟩ (R.zip D) c)
    (href : verifyDEP ks (some key) c (some (n : Int)) (dictParse 1 dep 0) = (c', .error e))
    (h : testVerify backend d spec keys closed expected = .ok) : ∃ p, expected = some p ∧ p e = true := by
  have hmore : ∀ {P : List Json} {idxs : List Nat} {m' : Nat} {c₁ : Cluster}, registerIdxs [] 0 (D ++ dep :: P) = .ok (idxs, m') →
      ¬VerifiedInTurn ks (some key) ⟨[], backend⟩ (idxs.zip (D ++ dep :: P)) c₁ := by
    intro P idxs m' c₁ h1 h2
    rw [List.append_cons] at h1
    obtain ⟨a', n', q1, q2⟩ := registerIdxs_append h1
    rw [hr] at q1
    cases q1
    obtain ⟨t, rfl⟩ := registerIdxs_extends q2
    rw [List.append_assoc, List.zip_append hlen] at h2
    obtain ⟨c₃, v1, v2⟩ := VerifiedInTurn.append.mp h2
    obtain rfl := v1.unique hturn
    cases v2 with
    | cons _ _ _ _ _ _ v3 _ =>
      rw [href] at v3
      cases v3
  cases expected with
  | none =>
    exfalso
    obtain ⟨deps, store', key', ks', idxs, m', c₁, h1, h2, h3, h4, h5, -⟩ := test_case_accepted h
    rw [hrun] at h1
    cases h1
    rw [hkey] at h2
    cases h2
    rw [hks] at h3
    cases h3
    exact hmore h4 h5
  | some p =>
    refine ⟨p, rfl, ?_⟩
    obtain ⟨pre, dep', post, store', key', ks', idxs, i, m', c₁, c₂, e', h1, h2, h3, h4, h5, h6, h7, h8, -⟩ := test_case_refused h
    rw [hrun] at h1
    obtain ⟨hdeps, rfl⟩ := Prod.mk.inj (Except.ok.inj h1)
    rw [hkey] at h2
    cases h2
    rw [hks] at h3
    cases h3
    rcases List.append_eq_append_iff.mp hdeps with ⟨l, hl1, hl2⟩ | ⟨l, hl1, hl2⟩
    · rcases l with _ | ⟨y, l⟩
      · rw [List.append_nil] at hl1
        subst hl1
        simp only [List.nil_append, List.cons.injEq] at hl2
        obtain ⟨rfl, -⟩ := hl2
        rw [hr] at h4
        obtain ⟨h9, -⟩ := Prod.mk.inj (Except.ok.inj h4)
        obtain ⟨rfl, h10⟩ := List.append_inj' h9 rfl
        obtain rfl : n = i := by simpa using h10
        obtain rfl := hturn.unique h6
        rw [href] at h7
        cases h7
        exact h8
      · exfalso
        simp only [List.cons_append, List.cons.injEq] at hl2
        obtain ⟨rfl, -⟩ := hl2
        subst hl1
        obtain ⟨a, k, q1, q2⟩ := registerIdxs_append h4
        obtain ⟨t, ht⟩ := registerIdxs_extends q2
        have l1 := registerIdxs_length q1
        obtain ⟨rfl, -⟩ := List.append_inj ht (by simpa [h5] using l1.symm)
        exact hmore q1 h6
    · rcases l with _ | ⟨y, l⟩
      · rw [List.append_nil] at hl1
        subst hl1
        simp only [List.nil_append, List.cons.injEq] at hl2
        obtain ⟨rfl, -⟩ := hl2
        rw [hr] at h4
        obtain ⟨h9, -⟩ := Prod.mk.inj (Except.ok.inj h4)
        obtain ⟨rfl, h10⟩ := List.append_inj' h9 rfl
        obtain rfl : n = i := by simpa using h10
        obtain rfl := hturn.unique h6
        rw [href] at h7
        cases h7
        exact h8
      · exfalso
        simp only [List.cons_append, List.cons.injEq] at hl2
        obtain ⟨rfl, -⟩ := hl2
        subst hl1
        rw [show pre ++ dep' :: l ++ [dep] = (pre ++ [dep']) ++ (l ++ [dep]) by simp] at hr
        obtain ⟨a, k, q1, q2⟩ := registerIdxs_append hr
        rw [h4] at q1
        cases q1
        obtain ⟨t, ht⟩ := registerIdxs_extends q2
        have hne : t ≠ [] := by
          rintro rfl
          have := congrArg List.length ht
          simp [h5, hlen] at this
        obtain ⟨t', n', rfl⟩ : ∃ t' n', t = t' ++ [n'] := ⟨_, _, (List.dropLast_append_getLast hne).symm⟩
        rw [← List.append_assoc] at ht
        obtain ⟨rfl, -⟩ := List.append_inj' ht rfl
        rw [List.append_assoc, List.zip_append h5] at hturn
        obtain ⟨c₃, v1, v2⟩ := VerifiedInTurn.append.mp hturn
        obtain rfl := v1.unique h6
        cases v2 with
        | cons _ _ _ _ _ _ v3 _ =>
          rw [h7] at v3
          cases v3

omit [PyEnv] in
theorem registerIdxs_snoc {l : List Json} {a b : List Nat} {n m : Nat} {dep : Json} (h : registerIdxs a n l = .ok (b, m)) :
    registerIdxs a n (l ++ [dep]) = registerIdx b m dep := by
  induction l generalizing a n with
  | nil =>
    cases h
    simp only [List.nil_append, registerIdxs]
    cases registerIdx b m dep <;> rfl
  | cons d l ih =>
    simp only [registerIdxs, Res.bind_eq_ok] at h
    obtain ⟨⟨a', n₂⟩, h3, h4⟩ := h
    simp only [List.cons_append, registerIdxs, h3, Res.ok_bind]
    exact ih h4

theorem testDeps_append {f : Nat → Cluster → Nat → Json → Res (Option Cluster)} {seen seen' : List Nat} {n n' : Nat} {c c' : Cluster}
    {l l' : List Json} (hr : registerIdxs seen n l = .ok (seen', n')) (h : testDeps f seen n c l = .ok (some c')) :
    testDeps f seen n c (l ++ l') = testDeps f seen' n' c' l' := by
  induction l generalizing seen n c with
  | nil =>
    cases hr
    cases h
    rfl
  | cons dep l ih =>
    simp only [registerIdxs, Res.bind_eq_ok] at hr
    obtain ⟨⟨a, k⟩, h1, h2⟩ := hr
    obtain ⟨-, i, rfl⟩ := registerIdx_obj h1
    obtain ⟨c₁, c₂, q1, q2, q3⟩ := (testDeps_cons h1).mp h
    simp only [List.cons_append, testDeps, h1, Res.ok_bind, List.getLast?_append, List.getLast?_singleton, Option.some_or, orErr, q1, q2]
    exact ih h2 q3

theorem plain_reported {spec : TestSpec} {keys : List TestKey} {closed : Bool} {backend : Used} {d₀ : Driver} {D D' : List Json}
    {dep₀ dep : Json} {store : Json} {key : Bytes} {ks : KeyStore} {n : Nat} {c c' : Cluster} {e : Err}
    (hp : ∀ j ∈ spec.instrs, j.override = {})
    (h : runTestFull spec keys closed none = .ok (D ++ [dep₀], store)) (hkey : loadB64Key spec.aesKey = .ok key)
    (hks : readStoreFromJson store = .ok ks) (hne : spec.instrs ≠ []) (ht : StartedInTurn (depRegisters spec.instrs))
    (hn : (depRegisters spec.instrs).getLast? = some n) (hpass : testVerify backend d₀ spec keys closed none = .ok)
    (h3 : VerifiedInTurn ks (some key) ⟨[], backend⟩ ((depRegisters spec.instrs).zip D) c)
    (h4 : ∀ seen m, registerIdx seen m dep = registerIdx seen m dep₀)
    (h5 : verifyDEP ks (some key) c (some (n : Int)) (dictParse 1 dep 0) = (c', .error e)) (expected : Option (Err → Bool)) :
    testOnce backend testPlain spec.aesKey expected (D ++ dep :: D') store = verdict expected e := by
  obtain ⟨deps, store', key', ks', idxs, m', c₁, q1, q2, q3, q4, q5, q6⟩ := test_case_accepted hpass
  rw [h] at q1
  cases q1
  rw [hkey] at q2
  cases q2
  rw [hks] at q3
  cases q3
  obtain ⟨m, hr⟩ := test_registers_partial hne (by rw [← runTestFull_plain hp]; exact h) ht
  rw [hr] at q4
  obtain rfl : depRegisters spec.instrs = idxs := by simpa using (Prod.mk.inj (Except.ok.inj q4)).1
  obtain ⟨R, hR⟩ : ∃ R, depRegisters spec.instrs = R ++ [n] := by
    obtain ⟨l, hl⟩ := List.getLast?_eq_some_iff.mp hn
    exact ⟨l, hl⟩
  rw [hR] at hr h3 q5 q6
  have hlen : R.length = D.length := by
    have := registerIdxs_length hr
    simpa using this
  rw [← List.append_nil D, List.zip_append hlen, List.zip_nil_right, List.append_nil] at h3
  obtain ⟨a, m', r1, r2⟩ := registerIdxs_append hr
  obtain ⟨-, r3⟩ : True ∧ registerIdx a m' dep₀ = .ok (R ++ [n], m) := ⟨trivial, by
    simp only [registerIdxs, Res.bind_eq_ok] at r2
    obtain ⟨⟨b, k⟩, r2, r4⟩ := r2
    cases r4
    exact r2⟩
  obtain ⟨-, i, r4⟩ := registerIdx_obj r3
  obtain ⟨rfl, r5⟩ := List.append_inj' r4 rfl
  obtain rfl : n = i := by simpa using r5
  have hD : testDeps (testPlain ks (some key)) [] 0 ⟨[], backend⟩ D = .ok (some c) := by
    refine (testDeps_iff (idxs := R) (by simpa using r1)).mpr ⟨h3, ?_⟩
    intro pre p post c₂ e1 e2
    refine q6 pre p (post ++ [(n, dep₀)]) c₂ ?_ e2
    rw [List.zip_append hlen, e1]
    simp
  have hrun : testDeps (testPlain ks (some key)) [] 0 ⟨[], backend⟩ (D ++ dep :: D') = .error e := by
    rw [testDeps_append r1 hD]
    simp only [testDeps, h4, r3, Res.ok_bind, List.getLast?_append, List.getLast?_singleton, Option.some_or, orErr, testPlain, h5,
      Res.error_bind]
  unfold testOnce verdict
  simp only [hkey, hks, Res.ok_bind, hrun]
  have := isVerify_iff e
  by_cases ho : e ∈ otherExceptions
  · rw [if_pos ho, if_neg (by rw [this]; simpa using ho)]
  · rw [if_neg ho, if_pos (this.mpr ho)]
    cases expected <;> rfl

/-- C96: if the test case up to the falsified receipt passes, the driver ends with the exception announced when it verifies
the DEPs without parsing them before. -/
theorem test_falsified_verdict {spec : TestSpec} {keys : List TestKey} {closed : Bool}
    {pre post : List Instr} {i : Instr} {v : Falsify} {deps₀ deps : List Json} {store store' : Json} {key : Bytes}
    {backend : Used} {os : List Order} {ks : KeyStore} {k : TestKey} {o : Order} {n : Nat} {H : List Entry} {t₀ t : Str}
    {r x : Receipt} {e : Err} (hi : spec.instrs = pre ++ [i]) (hp : ∀ j ∈ spec.instrs, j.override = {})
    (h : runTestFull spec keys closed none = .ok (deps₀, store)) (hkey : loadB64Key spec.aesKey = .ok key)
    (hlen : key.length = 32) (ha : TestAbides backend spec closed keys os) (hf : KeysFit spec closed keys)
    (hks : readStoreFromJson store = .ok ks) (hk : keys[i.device]? = some k) (hdam : i.damaged = false)
    (ho : i.Asks spec closed keys o) (hn : (depRegisters spec.instrs).getLast? = some n)
    (hH : Kept ((depRegisters spec.instrs).zip deps₀) n (H ++ [(t₀, r)]))
    (h' : runTestFull { spec with instrs := pre ++ { i with override := v } :: post } keys closed none = .ok (deps, store'))
    (ht : (deps.flatMap depTexts)[pre.length]? = some t) (hx : Entry.Valid (t, x))
    (hann : Announced ⟨deviceVerifier spec.groups ks k, some key, startBeforeText ((depRegisters spec.instrs).zip deps₀) n⟩
      (usedIds backend pre) (H.map (·.2)) o r x v e)
    (ht' : StartedInTurn (depRegisters spec.instrs)) {d₀ : Driver} (hpass : testVerify backend.fresh d₀ spec keys closed none = .ok) (expected : Option (Err → Bool)) :
    testOnce backend.fresh testPlain spec.aesKey expected deps store' = verdict expected e := by
  obtain ⟨rfl, D, dep₀, dep, D', c, c', h1, h2, h3, h4, h5⟩ := test_falsified_refused hi hp h hkey hlen ha hf hks hk hdam ho hn hH h' ht hx hann
  subst h1 h2
  exact plain_reported hp h hkey hks ha.nonempty ht' hn hpass h3 h4 h5 expected

/-- C96: the same if the receipt cannot be read. -/
theorem test_unreadable_verdict {spec : TestSpec} {keys : List TestKey} {closed : Bool}
    {pre post : List Instr} {i : Instr} {v : Falsify} {deps₀ deps : List Json} {store store' : Json} {key : Bytes}
    {backend : Used} {os : List Order} {ks : KeyStore} {k : TestKey} {o : Order} {n : Nat} {e : Err}
    (hi : spec.instrs = pre ++ [i]) (hp : ∀ j ∈ spec.instrs, j.override = {})
    (h : runTestFull spec keys closed none = .ok (deps₀, store)) (hkey : loadB64Key spec.aesKey = .ok key)
    (hlen : key.length = 32) (ha : TestAbides backend spec closed keys os) (hf : KeysFit spec closed keys)
    (hks : readStoreFromJson store = .ok ks) (hk : keys[i.device]? = some k) (hdam : i.damaged = false)
    (ho : i.Asks spec closed keys o) (hn : (depRegisters spec.instrs).getLast? = some n)
    (h' : runTestFull { spec with instrs := pre ++ { i with override := v } :: post } keys closed none = .ok (deps, store'))
    (hann : AnnouncedUnreadable v e)
    (ht' : StartedInTurn (depRegisters spec.instrs)) {d₀ : Driver} (hpass : testVerify backend.fresh d₀ spec keys closed none = .ok) (expected : Option (Err → Bool)) :
    testOnce backend.fresh testPlain spec.aesKey expected deps store' = verdict expected e := by
  obtain ⟨rfl, D, dep₀, dep, D', c, c', h1, h2, h3, h4, h5⟩ := test_unreadable_refused hi hp h hkey hlen ha hf hks hk hdam ho hn h' hann
  subst h1 h2
  exact plain_reported hp h hkey hks ha.nonempty ht' hn hpass h3 h4 h5 expected

/-- C96: the test driver reports success for such a test case only if the exception announced is expected. -/
theorem test_falsified_driver {spec : TestSpec} {keys : List TestKey} {closed : Bool}
    {pre post : List Instr} {i : Instr} {v : Falsify} {deps₀ deps : List Json} {store store' : Json} {key : Bytes}
    {backend : Used} {os : List Order} {ks : KeyStore} {k : TestKey} {o : Order} {n : Nat} {H : List Entry} {t₀ t : Str}
    {r x : Receipt} {e : Err} (hi : spec.instrs = pre ++ [i]) (hp : ∀ j ∈ spec.instrs, j.override = {})
    (h : runTestFull spec keys closed none = .ok (deps₀, store)) (hkey : loadB64Key spec.aesKey = .ok key)
    (hlen : key.length = 32) (ha : TestAbides backend spec closed keys os) (hf : KeysFit spec closed keys)
    (hks : readStoreFromJson store = .ok ks) (hk : keys[i.device]? = some k) (hdam : i.damaged = false)
    (ho : i.Asks spec closed keys o) (hn : (depRegisters spec.instrs).getLast? = some n)
    (hH : Kept ((depRegisters spec.instrs).zip deps₀) n (H ++ [(t₀, r)]))
    (h' : runTestFull { spec with instrs := pre ++ { i with override := v } :: post } keys closed none = .ok (deps, store'))
    (ht : (deps.flatMap depTexts)[pre.length]? = some t) (hx : Entry.Valid (t, x))
    (hann : Announced ⟨deviceVerifier spec.groups ks k, some key, startBeforeText ((depRegisters spec.instrs).zip deps₀) n⟩
      (usedIds backend pre) (H.map (·.2)) o r x v e)
    (ht' : StartedInTurn (depRegisters spec.instrs)) (d : Driver) (expected : Option (Err → Bool))
    (hok : testVerify backend.fresh d { spec with instrs := pre ++ { i with override := v } :: post } keys closed expected = .ok) :
    ∃ p, expected = some p ∧ p e = true := by
  obtain ⟨rfl, D, dep₀, dep, D', c, c', h1, h2, h3, h4, h5⟩ := test_falsified_refused hi hp h hkey hlen ha hf hks hk hdam ho hn hH h' ht hx hann
  subst h1 h2
  rw [runTestFull_plain hp] at h
  obtain ⟨m, hr⟩ := test_registers_partial ha.nonempty h ht'
  obtain ⟨R, hR⟩ : ∃ R, depRegisters spec.instrs = R ++ [n] := by
    obtain ⟨l, hl⟩ := List.getLast?_eq_some_iff.mp hn
    exact ⟨l, hl⟩
  rw [hR] at hr h3
  have hlen' : R.length = D.length := by
    have := registerIdxs_length hr
    simpa using this
  rw [← List.append_nil D, List.zip_append hlen', List.zip_nil_right, List.append_nil] at h3
  refine driver_refused (m := m) h' hkey hks hlen' ?_ h3 h5 hok
  obtain ⟨a, m', q1, q2⟩ := registerIdxs_append hr
  rw [registerIdxs_snoc q1, h4]
  simpa [registerIdxs] using q2

/-- C96: the same if the receipt cannot be read. -/
theorem test_unreadable_driver {spec : TestSpec} {keys : List TestKey} {closed : Bool}
    {pre post : List Instr} {i : Instr} {v : Falsify} {deps₀ deps : List Json} {store store' : Json} {key : Bytes}
    {backend : Used} {os : List Order} {ks : KeyStore} {k : TestKey} {o : Order} {n : Nat} {e : Err}
    (hi : spec.instrs = pre ++ [i]) (hp : ∀ j ∈ spec.instrs, j.override = {})
    (h : runTestFull spec keys closed none = .ok (deps₀, store)) (hkey : loadB64Key spec.aesKey = .ok key)
    (hlen : key.length = 32) (ha : TestAbides backend spec closed keys os) (hf : KeysFit spec closed keys)
    (hks : readStoreFromJson store = .ok ks) (hk : keys[i.device]? = some k) (hdam : i.damaged = false)
    (ho : i.Asks spec closed keys o) (hn : (depRegisters spec.instrs).getLast? = some n)
    (h' : runTestFull { spec with instrs := pre ++ { i with override := v } :: post } keys closed none = .ok (deps, store'))
    (hann : AnnouncedUnreadable v e)
    (ht' : StartedInTurn (depRegisters spec.instrs)) (d : Driver) (expected : Option (Err → Bool))
    (hok : testVerify backend.fresh d { spec with instrs := pre ++ { i with override := v } :: post } keys closed expected = .ok) :
    ∃ p, expected = some p ∧ p e = true := by
  obtain ⟨rfl, D, dep₀, dep, D', c, c', h1, h2, h3, h4, h5⟩ := test_unreadable_refused hi hp h hkey hlen ha hf hks hk hdam ho hn h' hann
  subst h1 h2
  rw [runTestFull_plain hp] at h
  obtain ⟨m, hr⟩ := test_registers_partial ha.nonempty h ht'
  obtain ⟨R, hR⟩ : ∃ R, depRegisters spec.instrs = R ++ [n] := by
    obtain ⟨l, hl⟩ := List.getLast?_eq_some_iff.mp hn
    exact ⟨l, hl⟩
  rw [hR] at hr h3
  have hlen' : R.length = D.length := by
    have := registerIdxs_length hr
    simpa using this
  rw [← List.append_nil D, List.zip_append hlen', List.zip_nil_right, List.append_nil] at h3
  refine driver_refused (m := m) h' hkey hks hlen' ?_ h3 h5 hok
  obtain ⟨a, m', q1, q2⟩ := registerIdxs_append hr
  rw [registerIdxs_snoc q1, h4]
  simpa [registerIdxs] using q2

end

namespace Demo

attribute [local instance] env

/-- The test case of two registers up to the second receipt of the first one. -/
def threeSpec : TestSpec := { sideSpec with instrs := sideSpec.instrs.take 2 ++ [instr 2 5 1 false false false c!"NEW_DEP" (some 0)] }

/-- Another chaining value in this receipt. -/
def unchained : Falsify := { previousChain := some c!"AAECAwQFBgc=" }

def unchainedSpec : TestSpec := { threeSpec with
  instrs := sideSpec.instrs.take 2 ++ { instr 2 5 1 false false false c!"NEW_DEP" (some 0) with override := unchained } ::
    sideSpec.instrs.drop 3 }

def runsTo (spec : TestSpec) (p : List Json → Json → Bool) : Bool :=
  match runTestFull spec sideKeys true none with
  | .ok (deps, store) => p deps store
  | .error _ => false

theorem of_runsTo {spec : TestSpec} {p : List Json → Json → Bool} (h : runsTo spec p = true) :
    ∃ deps store, runTestFull spec sideKeys true none = .ok (deps, store) ∧ p deps store = true := by
  unfold runsTo at h
  split at h
  · rename_i deps store e; exact ⟨deps, store, e, h⟩
  · cases h

/-- The receipt with a text. -/
def readText (t : Str) : Option Entry :=
  match fromJWS t with
  | .ok (r, a) => if a = c!"R1" then some (t, r) else none
  | .error _ => none

theorem readText_valid {t : Str} {y : Entry} (h : readText t = some y) : y.1 = t ∧ y.Valid := by
  unfold readText at h
  split at h
  · rename_i r a e
    split at h
    · rename_i ea
      cases h
      exact ⟨rfl, by rw [Entry.Valid, e, ea]⟩
    · cases h
  · cases h

/-- The two receipts of the register; the second one is chained to the first. -/
def twoTexts (l : List Str) : Bool :=
  match l with
  | [a, b] =>
    match readText a, readText b with
    | some _, some y => decide (y.2.previousChain ≠ c!"AAECAwQFBgc=")
    | _, _ => false
  | _ => false

theorem of_twoTexts {l : List Str} (h : twoTexts l = true) :
    ∃ a b : Entry, l = [a.1, b.1] ∧ a.Valid ∧ b.Valid ∧ b.2.previousChain ≠ c!"AAECAwQFBgc=" := by
  unfold twoTexts at h
  split at h
  · rename_i s t
    split at h
    · rename_i x y hx hy
      obtain ⟨rfl, vx⟩ := readText_valid hx
      obtain ⟨rfl, vy⟩ := readText_valid hy
      exact ⟨x, y, rfl, vx, vy, by simpa using h⟩
    · cases h
  · cases h

theorem three_registers : depRegisters threeSpec.instrs = [0, 1, 0] := by decide

set_option maxRecDepth 100000 in
theorem three_runs : runsTo threeSpec (fun deps store =>
    twoTexts (textsOf (List.zip [0, 1, 0] deps) 0) && (readStoreFromJson store).toBool) = true := by decide +kernel

set_option maxRecDepth 100000 in
theorem unchained_runs : runsTo unchainedSpec (fun deps _ =>
    decide (deps.length = 4) && match (deps.flatMap depTexts)[2]? with
    | some t => (readText t).isSome
    | none => false) = true := by decide +kernel

theorem three_abides : TestAbides (.unique ∅) threeSpec true sideKeys (sideOrders.take 3) :=
  side_abides.prefix (l := threeSpec.instrs) (l' := sideSpec.instrs.drop 3) rfl (by simp [threeSpec])

theorem three_keys : KeysFit threeSpec true sideKeys := side_keys.instrs _

theorem side_key_read : loadB64Key sideSpec.aesKey = .ok aes := eq_of_isOk (by decide +kernel)

theorem three_asks : (instr 2 5 1 false false false c!"NEW_DEP" (some 0)).Asks threeSpec true sideKeys (order 2 5 closedSys false false) :=
  instr_asks (k := ⟨device, [], ([7, 8] : Bytes), none, false, false, 8⟩) (by decide +kernel) rfl rfl ⟨rfl, by decide, _, _, rfl⟩

theorem three_key : sideKeys[(instr 2 5 1 false false false c!"NEW_DEP" (some 0)).device]? =
    some ⟨device, [], ([7, 8] : Bytes), none, false, false, 8⟩ := rfl

/-- The hypotheses of the theorems can be met. -/
theorem unchained_meets : ∃ deps₀ deps store store' ks, ∃ a b y : Entry,
    runTestFull threeSpec sideKeys true none = .ok (deps₀, store) ∧ runTestFull unchainedSpec sideKeys true none = .ok (deps, store') ∧
    readStoreFromJson store = .ok ks ∧ deps.length = 4 ∧ Kept ((depRegisters threeSpec.instrs).zip deps₀) 0 ([a] ++ [(b.1, b.2)]) ∧
    (deps.flatMap depTexts)[2]? = some y.1 ∧ Entry.Valid (y.1, y.2) ∧
    Announced ⟨deviceVerifier threeSpec.groups ks ⟨device, [], ([7, 8] : Bytes), none, false, false, 8⟩, some aes,
      startBeforeText ((depRegisters threeSpec.instrs).zip deps₀) 0⟩ (usedIds (.unique ∅) (sideSpec.instrs.take 2)) (List.map (·.2) [a])
      (order 2 5 closedSys false false) b.2 y.2 unchained .chaining := by
  obtain ⟨deps₀, store, h1, h2⟩ := of_runsTo three_runs
  obtain ⟨deps, store', h3, h4⟩ := of_runsTo unchained_runs
  simp only [Bool.and_eq_true, decide_eq_true_eq] at h2 h4
  obtain ⟨a, b, e1, va, vb, hne⟩ := of_twoTexts h2.1
  obtain ⟨ks, hks⟩ : ∃ ks, readStoreFromJson store = .ok ks := by
    cases e : readStoreFromJson store with
    | error e' => rw [e] at h2; cases h2.2
    | ok ks => exact ⟨ks, rfl⟩
  obtain ⟨t, y, ht, hy⟩ : ∃ t y, (deps.flatMap depTexts)[2]? = some t ∧ readText t = some y := by
    obtain ⟨-, h4⟩ := h4
    split at h4
    · rename_i t e
      obtain ⟨y, hy⟩ := Option.isSome_iff_exists.mp h4
      exact ⟨t, y, e, hy⟩
    · cases h4
  obtain ⟨rfl, vy⟩ := readText_valid hy
  exact ⟨deps₀, deps, store, store', ks, a, b, y, h1, h3, hks, h4.1,
    ⟨by rw [three_registers, e1]; rfl, by simp; exact ⟨va, vb⟩⟩, ht, vy, .chain _ (by simp) hne.symm⟩

/-- Of four DEPs the third one, which has the falsified receipt, is refused. -/
example : ∃ deps store ks D dep D' c c', runTestFull unchainedSpec sideKeys true none = .ok (deps, store) ∧
    readStoreFromJson store = .ok ks ∧ deps = D ++ dep :: D' ∧ D.length = 2 ∧ D'.length = 1 ∧
    VerifiedInTurn ks (some aes) ⟨[], .unique ∅⟩ (List.zip [0, 1, 0] D) c ∧
    verifyDEP ks (some aes) c (some 0) (dictParse 1 dep 0) = (c', .error .chaining) := by
  obtain ⟨deps₀, deps, store, store', ks, a, b, y, h1, h3, hks, hl4, hk, ht, vy, hann⟩ := unchained_meets
  obtain ⟨rfl, D, dep₀, dep, D', c, c', g1, g2, g3, -, g4⟩ := test_falsified_refused (pre := sideSpec.instrs.take 2)
    (post := sideSpec.instrs.drop 3) rfl (by decide +kernel) h1 side_key_read (by decide) three_abides three_keys hks
    three_key rfl three_asks (by rw [three_registers]; rfl) hk h3 ht vy hann
  have hl : deps₀.length = 3 := by
    have := (links_result (spec := threeSpec) three_abides.nonempty (by rw [← runTestFull_plain (by decide +kernel)]; exact h1)).1
    rwa [three_registers] at this
  have l1 : D.length = 2 := by
    rw [g1] at hl
    simpa using hl
  refine ⟨deps, _, ks, D, dep, D', c, c', h3, hks, g2, l1, ?_, g3, g4⟩
  rw [g2] at hl4
  simp at hl4
  omega

theorem three_started : StartedInTurn (depRegisters threeSpec.instrs) := by
  rw [three_registers]
  intro k r hk hq
  match k with
  | 0 => cases hk; rfl
  | 1 => cases hk; exact absurd rfl (hq 0 (by omega))
  | k + 2 => cases hk

/-- The driver does not accept it if another exception is expected, nor if none is. -/
example (d : Driver) (expected : Option (Err → Bool)) (h : ∀ p, expected = some p → p .chaining = false) :
    testVerify (.unique ∅) d unchainedSpec sideKeys true expected ≠ .ok := by
  obtain ⟨deps₀, deps, store, store', ks, a, b, y, h1, h3, hks, -, hk, ht, vy, hann⟩ := unchained_meets
  intro hok
  obtain ⟨p, e1, e2⟩ := test_falsified_driver (pre := sideSpec.instrs.take 2) (post := sideSpec.instrs.drop 3) (backend := .unique ∅)
    rfl (by decide +kernel) h1 side_key_read (by decide) three_abides three_keys hks
    three_key rfl three_asks (by rw [three_registers]; rfl) hk h3 ht vy hann three_started d expected hok
  rw [h p e1] at e2
  cases e2

set_option maxRecDepth 100000 in
/-- If it is expected it does. -/
theorem unchained_passes : testVerify (.unique ∅) ⟨.alone, 1, fun _ => 2⟩ unchainedSpec sideKeys true (some (· == .chaining)) = .ok := by
  decide +kernel

set_option maxRecDepth 100000 in
theorem three_passes : testVerify (.unique ∅) ⟨.alone, 1, fun _ => 2⟩ threeSpec sideKeys true none = .ok := by
  decide +kernel

/-- The first way of verification ends with the exception announced. -/
example : ∃ deps store, runTestFull unchainedSpec sideKeys true none = .ok (deps, store) ∧
    ∀ expected, testOnce (.unique ∅) testPlain unchainedSpec.aesKey expected deps store = verdict expected .chaining := by
  obtain ⟨deps₀, deps, store, store', ks, a, b, y, h1, h3, hks, -, hk, ht, vy, hann⟩ := unchained_meets
  refine ⟨deps, store', h3, fun expected => ?_⟩
  have := test_falsified_verdict (spec := threeSpec) (pre := sideSpec.instrs.take 2) (post := sideSpec.instrs.drop 3) (backend := .unique ∅)
    rfl (by decide +kernel) h1 side_key_read (by decide) three_abides three_keys hks
    three_key rfl three_asks (by rw [three_registers]; rfl) hk h3 ht vy hann three_started three_passes expected
  exact this

end Demo

end RKSV
