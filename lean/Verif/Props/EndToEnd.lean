import Verif.Spec.EndToEnd
import Verif.Props.DepRules
import Verif.Props.CashRegHistory
import Verif.Props.Export
/-
Property C84: receipts on their way from the register over the exporter to verify.py.
-/
namespace RKSV

section
variable [PyEnv]

theorem asRead_eq (g : SGroup (Receipt × Str)) : g.asRead = g.toDep := rfl

theorem export_arrays (gs : List (SGroup (Receipt × Str))) {extra : Dict Json}
    (hx : c!"Belege-Gruppe" ∉ extra.keys) : NoTextReceipts (exportDEP gs extra) := by
  intro root js d v e hj hd hv
  unfold exportDEP at e
  cases e
  rw [update_get? _ _ _ hx] at hj
  have : js = gs.map exportGroup := by
    simp only [Dict.get?, kGroups, if_pos, Option.some.injEq, Json.arr.injEq] at hj
    exact hj.symm
  subst this
  obtain ⟨g, -, e⟩ := List.mem_map.mp hd
  unfold exportGroup at e
  cases e
  have : v = .arr (g.recs.map fun r => .str (r.1.toJWS r.2)) := by
    have h2 : Dict.get? [(kCert, Json.str (match g.cert with | none => [] | some c => exportCertToPEM c)),
      (kCerts, .arr (g.chain.map fun c => .str (exportCertToPEM c))),
      (kRecs, .arr (g.recs.map fun r => .str (r.1.toJWS r.2)))] c!"Belege-kompakt" =
        some (.arr (g.recs.map fun r => .str (r.1.toJWS r.2))) := rfl
    exact (Option.some.inj (h2.symm.trans hv)).symm
  subst this
  simp

theorem Part.Good.json {p : Part} (h : p.Good) :
    DepJson (exportDEP p.groups p.extra) (p.groups.map SGroup.asRead) := export_json h.writable h.extra

theorem asRead_recs (g : SGroup (Receipt × Str)) : g.asRead.recs ≠ [] ↔ g.recs ≠ [] := by
  simp [SGroup.asRead]

theorem Part.Good.hasReceipts {p : Part} (h : p.Good) : ∃ g ∈ p.groups.map SGroup.asRead, g.recs ≠ [] := by
  obtain ⟨g, hg, hr⟩ := h.some
  exact ⟨_, List.mem_map_of_mem hg, (asRead_recs g).mpr hr⟩

theorem nonempty_asRead (gs : List (SGroup (Receipt × Str))) :
    nonempty (gs.map SGroup.asRead) = (gs.filter fun g => g.recs ≠ []).map SGroup.asRead := by
  unfold nonempty
  rw [List.filter_map]
  congr 1
  apply List.filter_congr
  intro g _
  simp [SGroup.asRead]

theorem signCert_unique {s : Str} {c c' : Option Cert} (h : SignCert s c) (h' : SignCert s c') : c = c' := by
  cases h with
  | none =>
    cases h' with
    | none => rfl
    | some _ c hs => exact absurd rfl hs
  | some _ c hs h =>
    cases h' with
    | none => exact absurd rfl hs
    | some _ c' _ h' => rw [Option.some.inj ((Eq.symm h).trans h')]

theorem groupJson_unique {j : Json} {g g' : DepGroup} (h : GroupJson j g) (h' : GroupJson j g') : g = g' := by
  cases h with
  | mk d rs s cs cert chain hr hs hc h1 h2 =>
    cases h' with
    | mk _ rs' s' cs' cert' chain' hr' hs' hc' h1' h2' =>
      have inj : Function.Injective Json.str := fun a b e => by cases e; rfl
      rw [hr] at hr'; rw [hs] at hs'; rw [hc] at hc'
      have e1 : rs = rs' := List.map_injective_iff.mpr inj (Json.arr.inj (Option.some.inj hr'))
      have e2 : s = s' := Json.str.inj (Option.some.inj hs')
      have e3 : cs = cs' := List.map_injective_iff.mpr inj (Json.arr.inj (Option.some.inj hc'))
      subst e1 e2 e3
      rw [signCert_unique h1 h1']
      have : chain = chain' := by
        clear hc hc' h1 h1'
        induction h2 generalizing chain' with
        | nil => cases h2'; rfl
        | cons a _ ih =>
          cases h2' with
          | cons a' b' => rw [Option.some.inj ((Eq.symm a).trans a'), ih _ b']
      rw [this]

theorem depJson_unique {j : Json} {gs gs' : List DepGroup} (h : DepJson j gs) (h' : DepJson j gs') : gs = gs' := by
  cases h with
  | mk root js _ h hg =>
    cases h' with
    | mk _ js' _ h' hg' =>
      rw [h] at h'
      have : js = js' := by simpa using h'
      subst this
      clear h h'
      induction hg generalizing gs' with
      | nil => cases hg'; rfl
      | cons h1 _ ih =>
        cases hg' with
        | cons h1' h2' => rw [groupJson_unique h1 h1', ih h2']

theorem depJson_unique_export {p : Part} (h : p.Good) {gs : List DepGroup} (hd : DepJson (exportDEP p.groups p.extra) gs) :
    gs = p.groups.map SGroup.asRead := depJson_unique hd h.json

theorem Part.Good.packable {p : Part} (h : p.Good) :
    (nonempty (p.groups.map SGroup.asRead)).length ≤ 1 ∨ ∀ g ∈ nonempty (p.groups.map SGroup.asRead), g.cert ≠ none := by
  rw [nonempty_asRead, List.length_map]
  rcases h.certs with h | h
  · exact .inl h
  · right
    intro g hg
    obtain ⟨g, hg', rfl⟩ := List.mem_map.mp hg
    obtain ⟨hg', hr⟩ := List.mem_filter.mp hg'
    exact h g hg' (by simpa using hr)

theorem Part.Good.doc {p : Part} (h : p.Good) : GoodDoc (exportDEP p.groups p.extra) := by
  refine ⟨export_plain _ h.extra h.names, export_arrays _ h.extra, ?_⟩
  intro gs hd
  rw [depJson_unique_export h hd]
  rcases h.packable with hp | hp
  · exact .inl hp
  · right
    intro g hg hr
    exact hp g (List.mem_filter.mpr ⟨hg, by simpa using hr⟩)

theorem Part.Good.goodMode {p : Part} (h : p.Good) : GoodMode p.mode (exportDEP p.groups p.extra) := by
  refine ⟨h.procs, h.order, ?_⟩
  rcases h.pipe with hp | hp | hp
  · exact .inl hp
  · exact .inr (.inl hp)
  · refine .inr (.inr ⟨export_certs_first _ h.extra, ?_⟩)
    intro gs hd g hg
    rw [depJson_unique_export h hd] at hg
    obtain ⟨g, hg', rfl⟩ := List.mem_map.mp hg
    exact hp g hg'

/-- One DEP of a register, when more may follow. -/
theorem part_step {p : Part} (hp : p.Good) {ks : KeyStore} {key : Option Bytes} {store : Json}
    (hkey : loadKeyFromJson store = .ok key) (hks : readStoreFromJson store = .ok ks)
    {backend : Used} {c c₁ : Cluster} {j : Json} (hj : Cluster.fromJson j = .ok c) (hset : Settled c)
    {i : Nat} (hsel : Selects c p.sel i) {ps : Option Str} {s : RegState} (hi : Info c (some (i : Int)) c₁ ps s)
    {saved : Option Entry} (hs : Saved s saved) {h rest : List CheckedEntry}
    (hr : DepReads ks (nonempty (p.groups.map SGroup.asRead)) h) (hv : ∀ y ∈ h, y.1.Valid)
    (hall : DepRules key ps s saved c.used (h ++ rest)) :
    ∃ s₁ u₁, verifyTool backend p.mode p.sel store (exportDEP p.groups p.extra) (some j) =
        .ok (some (Cluster.toJson p.mode.order ⟨c₁.regs.set i s₁, u₁⟩)) ∧
      Settled ⟨c₁.regs.set i s₁, u₁⟩ ∧
      DepAfter key s saved h s₁ ∧ UsedAfter c.used (h.map (·.1)) u₁ ∧
      Saved s₁ (predecessor saved (h.map (·.1))) ∧
      DepRules key ps s₁ (predecessor saved (h.map (·.1))) u₁ rest := by
  obtain ⟨s₁, ha⟩ : ∃ s₁, DepAfter key s saved h s₁ := ⟨_, (after_iff (used := c.used)).mpr rfl⟩
  have hu : UsedAfter c.used (h.map (·.1)) (addAll c.used (h.map (·.1))) := usedAfter_iff.mpr rfl
  have hacc : DepAccepted ks key c (some (i : Int)) (nonempty (p.groups.map SGroup.asRead))
      ⟨c₁.regs.set i s₁, addAll c.used (h.map (·.1))⟩ := by
    refine .mk c₁ ps s s₁ _ i saved h hi (.inl rfl) hs hp.packable hr ?_ ha hu
    intro pre x v post e
    exact hall pre x v (post ++ rest) (by rw [e]; simp)
  refine ⟨s₁, _, ?_, ?_, ha, hu, After.saved ha hs ?_, ?_⟩
  · exact (verify_tool_rules hp.goodMode hp.doc hp.json hp.hasReceipts hj hset).mpr
      ⟨key, ks, _, hkey, hks, ⟨i, hsel, hacc⟩, rfl⟩
  · have := (dep_accepted_iff hp.json hp.hasReceipts).mpr hacc
    exact settled_kept hset (accepted_receipts hp.doc this) this
  · intro x hx
    obtain ⟨y, hy, rfl⟩ := List.mem_map.mp hx
    exact hv y hy
  · intro pre x v post e
    rw [rules_append (c := ⟨.fromKeyStore [], key, none⟩) (c' := ⟨v, key, ps⟩) rfl ha hu, ← List.map_append]
    exact hall (h ++ pre) x v post (by rw [e]; simp)

theorem depAfter_nil (key : Option Bytes) (s : RegState) (saved : Option Entry) : DepAfter key s saved [] s := by
  refine ⟨by simp, by simp, by simp [sold], ?_, by simp⟩
  constructor
  · intro h; exact .saved h
  · intro hd
    simp only [List.map_nil] at hd
    generalize e : ([] : List Entry) = l at hd
    cases hd with
    | saved h => exact h
    | late => simp at e

omit [PyEnv] in
/-- The state of a register does not matter for what is known about it otherwise. -/
theorem info_set {c c₁ : Cluster} {i : Nat} {ps : Option Str} {s s₁ : RegState} {u : Used}
    (h : Info c (some (i : Int)) c₁ ps s) (hi : c.regs[i]? = some s) :
    Info ⟨c.regs.set i s₁, u⟩ (some (i : Int)) ⟨c.regs.set i s₁, u⟩ ps s₁ := by
  have hlt := (List.getElem?_eq_some_iff.mp hi).1
  generalize e : some (i : Int) = idx at h
  cases h with
  | new _ h hl =>
    subst e
    rcases h with h | h
    · cases h
    · have : i = c.regs.length := by simpa using h
      omega
  | first r h =>
    have : i = 0 := by simpa using e
    subst this
    exact .first _ (by simp [hlt])
  | later k p r hp h =>
    have : i = k + 1 := by simp at e; omega
    subst this
    have := Info.later (c := ⟨c.regs.set (k + 1) s₁, u⟩) k p s₁ (by simp [hp]) (by simp [hlt])
    simpa using this

/-- The DEPs of a register that is known already. -/
theorem parts_session {ks : KeyStore} {key : Option Bytes} {store : Json}
    (hkey : loadKeyFromJson store = .ok key) (hks : readStoreFromJson store = .ok ks) {backend : Used}
    {ps : Option Str} {i : Nat} {parts : List Part} {hs : List (List CheckedEntry)}
    (hparts : List.Forall₂ (fun p h => p.Good ∧ DepReads ks (nonempty (p.groups.map SGroup.asRead)) h ∧
      ∀ y ∈ h, y.1.Valid) parts hs) :
    ∀ {c : Cluster} {j : Json}, Cluster.fromJson j = .ok c → Settled c →
      (∀ p ∈ parts, p.sel = .nth i ∨ p.sel = .last ∧ c.regs.length = i + 1) →
      ∀ {s : RegState} {saved : Option Entry}, c.regs[i]? = some s → Info c (some (i : Int)) c ps s → Saved s saved →
      DepRules key ps s saved c.used hs.flatten →
      ∃ e s' u', toolSession backend (parts.map (·.job store)) j = .ok e ∧
        Cluster.fromJson e = .ok ⟨c.regs.set i s', u'⟩ ∧ DepAfter key s saved hs.flatten s' ∧
        UsedAfter c.used (hs.flatten.map (·.1)) u' := by
  induction hparts with
  | nil =>
    intro c j hj _ _ s saved hi _ _ _
    refine ⟨j, s, c.used, rfl, ?_, depAfter_nil key s saved, usedAfter_iff.mpr rfl⟩
    obtain ⟨hlt, rfl⟩ := List.getElem?_eq_some_iff.mp hi
    rw [hj, List.set_getElem_self]
  | @cons p h parts hs hp hrest ih =>
    intro c j hj hset hsel s saved hi hinfo hsv hall
    obtain ⟨hp, hr, hv⟩ := hp
    rw [List.flatten_cons] at hall
    have hsel1 : Selects c p.sel i := by
      rcases hsel p (by simp) with e | ⟨e, h⟩
      · rw [e]; exact .nth i
      · rw [e]; exact .last i h
    obtain ⟨s₁, u₁, h1, h2, h3, h4, h5, h6⟩ := part_step hp hkey hks (backend := backend) hj hset hsel1 hinfo hsv hr hv hall
    have hlt := (List.getElem?_eq_some_iff.mp hi).1
    have hi₁ : (⟨c.regs.set i s₁, u₁⟩ : Cluster).regs[i]? = some s₁ := by simp [hlt]
    obtain ⟨e, s', u', k1, k2, k3, k4⟩ := ih (state_json_round_trip _ hp.order _) h2 (by
      intro q hq
      rw [List.length_set]
      exact hsel q (by simp [hq])) hi₁ (info_set hinfo hi) h5 h6
    refine ⟨e, s', u', ?_, ?_, ?_, ?_⟩
    · simp only [List.map_cons, Part.job, toolSession, Res.bind_eq_ok, orErr_eq_ok]
      exact ⟨_, h1, _, rfl, k1⟩
    · rw [k2]
      simp
    · unfold DepAfter at k3 h3 ⊢
      rw [List.flatten_cons, List.map_append]
      exact (after_append h3).mp k3
    · rw [usedAfter_iff, List.flatten_cons, List.map_append, addAll_append, usedAfter_iff.mp k4, usedAfter_iff.mp h4]

/-- The groups of a DEP as the verifier reads them. -/
theorem part_reads {ks : KeyStore} {os : List Order} {rs : List Receipt} {gs : List (SGroup (Receipt × Str))}
    (hsig : ∀ g ∈ gs, g.recs ≠ [] → GroupSigned ks os rs g)
    (hval : ∀ g ∈ gs, ∀ r ∈ g.recs, r.2 = R1 ∧ Entry.Valid (r.1.toJWS R1, r.1)) :
    ∃ h : List CheckedEntry, DepReads ks (nonempty (gs.map SGroup.asRead)) h ∧
      h.map (·.1) = (gs.flatMap (·.recs)).map (fun r => (r.1.toJWS R1, r.1)) ∧
      ∀ y ∈ h, ∀ o, (o, y.1.2) ∈ os.zip rs → SignedFor y.2 o y.1.2 := by
  rw [nonempty_asRead]
  induction gs with
  | nil => exact ⟨[], .nil, rfl, by simp⟩
  | cons g gs ih =>
    obtain ⟨h, h1, h2, h3⟩ := ih (fun g hg => hsig g (by simp [hg])) (fun g hg => hval g (by simp [hg]))
    by_cases hr : g.recs = []
    · refine ⟨h, ?_, ?_, h3⟩
      · rw [List.filter_cons_of_neg (by simpa using hr)]
        exact h1
      · rw [h2]
        simp [hr]
    · obtain ⟨v, hv, hs⟩ := hsig g (by simp) hr
      have hv1 := hval g (by simp)
      refine ⟨(g.recs.map fun r => (r.1.toJWS R1, r.1)).map (fun x => (x, v)) ++ h, ?_, ?_, ?_⟩
      · rw [List.filter_cons_of_pos (by simpa using hr), List.map_cons]
        refine .cons _ v _ _ _ hv ⟨?_, ?_⟩ h1
        · simp only [SGroup.asRead, List.map_map]
          refine List.map_congr_left fun r hr => ?_
          simp [(hv1 r hr).1]
        · intro x hx
          obtain ⟨r, hr, rfl⟩ := List.mem_map.mp hx
          exact (hv1 r hr).2
      · rw [List.map_append, h2]
        simp [Function.comp_def]
      · intro y hy o ho
        rcases List.mem_append.mp hy with hy | hy
        · obtain ⟨x, hx, rfl⟩ := List.mem_map.mp hy
          obtain ⟨r, hr, rfl⟩ := List.mem_map.mp hx
          refine hs o r.1 ho ?_
          have := (hv1 r hr).1
          rw [show c!"R1" = R1 from rfl, ← this]
          exact hr
        · exact h3 y hy o ho

theorem parts_reads {ks : KeyStore} {os : List Order} {rs : List Receipt} {parts : List Part}
    (hgood : ∀ p ∈ parts, p.Good)
    (hsig : ∀ p ∈ parts, ∀ g ∈ p.groups, g.recs ≠ [] → GroupSigned ks os rs g)
    (hval : ∀ r ∈ receiptsOf parts, r.2 = R1 ∧ Entry.Valid (r.1.toJWS R1, r.1)) :
    ∃ hs : List (List CheckedEntry), List.Forall₂ (fun p h => p.Good ∧
        DepReads ks (nonempty (p.groups.map SGroup.asRead)) h ∧ ∀ y ∈ h, y.1.Valid) parts hs ∧
      hs.flatten.map (·.1) = (receiptsOf parts).map (fun r => (r.1.toJWS R1, r.1)) ∧
      ∀ y ∈ hs.flatten, ∀ o, (o, y.1.2) ∈ os.zip rs → SignedFor y.2 o y.1.2 := by
  induction parts with
  | nil => exact ⟨[], .nil, rfl, by simp⟩
  | cons p parts ih =>
    simp only [receiptsOf, List.flatMap_cons, List.mem_append] at hval ih
    obtain ⟨hs, h1, h2, h3⟩ := ih (fun g hg => hgood g (by simp [hg])) (fun g hg => hsig g (by simp [hg]))
      (fun r hr => hval r (.inr hr))
    obtain ⟨h, k1, k2, k3⟩ := part_reads (hsig p (by simp)) (fun g hg r hr =>
      hval r (.inl (List.mem_flatMap.mpr ⟨g, hg, hr⟩)))
    refine ⟨h :: hs, .cons ⟨hgood p (by simp), k1, ?_⟩ h1, ?_, ?_⟩
    · intro y hy
      have : y.1 ∈ h.map (·.1) := List.mem_map_of_mem hy
      rw [k2] at this
      obtain ⟨r, hr, e⟩ := List.mem_map.mp this
      rw [← e]
      exact (hval r (.inl hr)).2
    · rw [List.flatten_cons, List.map_append, k2, h2]
      simp [receiptsOf]
    · intro y hy o ho
      rw [List.flatten_cons] at hy
      rcases List.mem_append.mp hy with hy | hy
      · exact k3 y hy o ho
      · exact h3 y hy o ho

theorem run_length {reg reg' : CashRegister} {os : List Order} {rs : List Receipt}
    (h : reg.run os = (reg', some rs)) : os.length = rs.length := by
  induction os generalizing reg rs with
  | nil => simp only [CashRegister.run, Prod.mk.injEq, Option.some.injEq] at h; simp [← h.2]
  | cons o os ih =>
    obtain ⟨reg1, r, rs', rfl, h1, h2⟩ := run_cons.mp h
    simp [ih h2]

/-- C84: the receipts a new register makes for the orders of an owner who obeys the rules, cut into groups and
DEPs in any way, exported and verified one DEP after the other, in any mode and with the state saved in between, are
accepted; and in the end the state has a new register that agrees with the real one. -/
theorem register_session {ks : KeyStore} {key : Option Bytes} {store : Json}
    (hkey : loadKeyFromJson store = .ok key) (hks : readStoreFromJson store = .ok ks) {backend : Used}
    {c : Cluster} {j : Json} (hj : Cluster.fromJson j = .ok c) (hset : Settled c)
    {reg reg' : CashRegister} {os : List Order} {rs : List Receipt} (hrun : reg.run os = (reg', some rs))
    (hz : 5 ≤ reg.size ∧ reg.size ≤ 16) (ho : RuleAbiding c.used os) (hnew : NewRegister c reg os)
    (hk : ∀ k, key = some k → k = reg.key ∧ k.length = 32)
    {p : Part} {parts : List Part} (hgood : ∀ q ∈ p :: parts, q.Good)
    (hrecs : receiptsOf (p :: parts) = rs.map fun r => (r, c!"R1"))
    (hfirst : p.sel = .fresh) (hrest : ∀ q ∈ parts, q.sel = .last ∨ q.sel = .nth c.regs.length)
    (hsig : ∀ q ∈ p :: parts, ∀ g ∈ q.groups, g.recs ≠ [] → GroupSigned ks os rs g) :
    ∃ e s u, toolSession backend ((p :: parts).map (·.job store)) j = .ok e ∧
      Cluster.fromJson e = .ok ⟨c.regs ++ [s], u⟩ ∧ Agrees key rs reg' s ∧
      UsedAfter c.used (rs.map fun r => (r.toJWS c!"R1", r)) u := by
  -- the register before
  obtain ⟨ps, hps, hlast, hst, hc0⟩ : ∃ ps, ps = c.regs.getLast?.bind (·.start) ∧
      (∀ r, c.regs.getLast? = some r → ∃ t, r.start = some t ∧ t ≠ []) ∧
      (∀ v, Starts ⟨v, key, ps⟩ reg os) ∧ reg.counter = 0 := by
    cases hnew with
    | alone h h1 h2 => exact ⟨none, by simp [h], by simp [h], fun v => .alone h1 (.inl rfl), h2⟩
    | cluster q h y hv hp h1 h2 hr hz ho =>
      refine ⟨some y.1, by simp [h, hp], ?_, fun v => .cluster y hv h1 rfl hr hz ho, h2⟩
      intro r hr
      rw [h] at hr
      cases hr
      exact ⟨_, hp, hv.ne_nil⟩
  have hlen := run_length hrun
  -- every receipt is in some group
  have hsign : List.Forall₂ (fun o r => ∃ v, SignedFor v o r) os rs := by
    rw [List.forall₂_iff_zip]
    refine ⟨hlen, fun {o r} hor => ?_⟩
    have hr : r ∈ rs := (List.of_mem_zip hor).2
    have : (r, c!"R1") ∈ receiptsOf (p :: parts) := by rw [hrecs]; exact List.mem_map_of_mem hr
    obtain ⟨q, hq, hg⟩ := List.mem_flatMap.mp this
    obtain ⟨g, hg, hr⟩ := List.mem_flatMap.mp hg
    obtain ⟨v, -, hv⟩ := hsig q hq g hg (List.ne_nil_of_mem hr)
    exact ⟨v, hv o r hor hr⟩
  have se := run_session hrun hz ho.proper hsign
  obtain ⟨hs, h1, h2, h3⟩ := parts_reads hgood hsig (by
    intro r hr
    rw [hrecs] at hr
    obtain ⟨r, hr', rfl⟩ := List.mem_map.mp hr
    exact ⟨rfl, facts_valid se.facts r hr'⟩)
  have h2' : hs.flatten.map (·.1) = entries rs := by
    rw [h2, hrecs]
    simp [entries]
  have hall : DepRules key ps {} none c.used hs.flatten := by
    intro pre x v post e
    have e' : entries rs = pre.map (·.1) ++ x :: post.map (·.1) := by
      rw [← h2', e]
      simp
    obtain ⟨pre', rest, rfl, e1, e2⟩ := List.map_eq_append_iff.mp e'
    obtain ⟨r, post', rfl, rfl, e3⟩ := List.map_eq_cons_iff.mp e2
    rw [← e1]
    refine session_rule_at (c := ⟨v, key, ps⟩) hrun hz ho hsign (hst v) rfl (.inl rfl) hc0.symm hk ?_
    intro o ho
    refine h3 ((r.toJWS R1, r), v) (by rw [e]; simp) o ?_
    rw [List.mem_iff_getElem?]
    refine ⟨pre'.length, ?_⟩
    rw [List.getElem?_zip_eq_some]
    exact ⟨ho, by simp⟩
  cases h1 with
  | @cons _ h _ hs hp1 hps1 =>
    obtain ⟨hp, hr, hv⟩ := hp1
    rw [List.flatten_cons] at hall
    have hinfo : Info c (some (c.regs.length : Int)) ⟨c.regs ++ [({} : RegState)], c.used⟩ ps {} := by
      rw [hps]
      exact .new _ (.inr rfl) hlast
    obtain ⟨s₁, u₁, k1, k2, k3, k4, k5, k6⟩ := part_step hp hkey hks (backend := backend) hj hset
      (by rw [hfirst]; exact .fresh) hinfo (.none (.inl rfl)) hr hv hall
    have hset1 : (c.regs ++ [({} : RegState)]).set c.regs.length s₁ = c.regs ++ [s₁] := by simp
    rw [hset1] at k1 k2
    have hinfo1 : Info ⟨c.regs ++ [s₁], u₁⟩ (some (c.regs.length : Int)) ⟨c.regs ++ [s₁], u₁⟩ ps s₁ := by
      rcases List.eq_nil_or_concat c.regs with e | ⟨l, z, e⟩
      · rw [hps, e]
        exact .first _ rfl
      · rw [hps, e]
        have := Info.later (c := ⟨l ++ [z] ++ [s₁], u₁⟩) l.length z s₁ (by simp) (by simp)
        simpa using this
    obtain ⟨e, s, u, j1, j2, j3, j4⟩ := parts_session hkey hks (backend := backend) hps1
      (state_json_round_trip _ hp.order _) k2 (i := c.regs.length) (by
        intro q hq
        rcases hrest q hq with e | e
        · exact .inr ⟨e, by simp⟩
        · exact .inl e) (by simp) hinfo1 k5 k6
    refine ⟨e, s, u, ?_, ?_, ?_, ?_⟩
    · simp only [List.map_cons, Part.job, toolSession, Res.bind_eq_ok, orErr_eq_ok]
      exact ⟨_, k1, _, rfl, j1⟩
    · rw [j2]
      simp
    · have ha : DepAfter key {} none (h ++ hs.flatten) s := by
        unfold DepAfter at j3 k3 ⊢
        rw [List.map_append]
        exact (after_append k3).mp j3
      unfold DepAfter at ha
      rw [List.flatten_cons] at h2'
      rw [h2'] at ha
      refine ⟨?_, ?_, ?_⟩
      · rw [ha.start]
        cases rs with
        | nil => simp [entries]
        | cons r rs => simp [entries, R1]
      · have hne : rs ≠ [] := by
          rintro rfl
          obtain ⟨g, hg, hr⟩ := hp.some
          obtain ⟨r, hr⟩ := List.exists_mem_of_ne_nil _ hr
          have : r ∈ receiptsOf (p :: parts) :=
            List.mem_flatMap.mpr ⟨p, by simp, List.mem_flatMap.mpr ⟨g, hg, hr⟩⟩
          rw [hrecs] at this
          simp at this
        rw [ha.last, se.last]
        obtain ⟨q, x, rfl⟩ : ∃ q x, rs = q ++ [x] := ⟨_, _, (List.dropLast_append_getLast hne).symm⟩
        simp [entries]
      · intro hkn
        rw [ha.counter, if_neg hkn, se.counter, hc0]
    · have : (rs.map fun r => (r.toJWS c!"R1", r)) = entries rs := rfl
      rw [this, ← h2', usedAfter_iff, List.flatten_cons, List.map_append, addAll_append, usedAfter_iff.mp j4,
        usedAfter_iff.mp k4]

omit [PyEnv] in
theorem usedAfter_unique {used : Used} {h : List Entry} {u u' : Used} (a : UsedAfter used h u)
    (b : UsedAfter used h u') : u = u' := by
  rw [usedAfter_iff] at a b
  rw [a, b]

theorem toolSession_append {backend : Used} {l l' : List (Mode × Job)} {j e e' : Json}
    (h : toolSession backend l j = .ok e) (h' : toolSession backend l' e = .ok e') :
    toolSession backend (l ++ l') j = .ok e' := by
  induction l generalizing j with
  | nil => cases h; exact h'
  | cons x l ih =>
    obtain ⟨m, job⟩ := x
    simp only [List.cons_append, toolSession, Res.bind_eq_ok] at h ⊢
    obtain ⟨out, h1, k, h2, h3⟩ := h
    exact ⟨out, h1, k, h2, ih h3⟩

/-- A session keeps the state settled. -/
theorem toolSession_settled {backend : Used} {l : List (Mode × Job)} {j e : Json} {c c' : Cluster}
    (hm : ∀ x ∈ l, GoodMode x.1 x.2.dep) (hd : ∀ x ∈ l, GoodDoc x.2.dep) (hj : Cluster.fromJson j = .ok c)
    (hset : Settled c) (h : toolSession backend l j = .ok e) (he : Cluster.fromJson e = .ok c') : Settled c' := by
  induction l generalizing j c with
  | nil =>
    cases h
    rw [hj] at he
    cases he
    exact hset
  | cons x l ih =>
    obtain ⟨m, job⟩ := x
    have gm := hm _ List.mem_cons_self
    have gd := hd _ List.mem_cons_self
    simp only [toolSession, Res.bind_eq_ok, orErr_eq_ok] at h
    obtain ⟨out, h1, k, rfl, h2⟩ := h
    obtain ⟨key, ks, d, hkey, hks, hv, eq⟩ := (verifyTool_some gm gd hj hset).mp h1
    cases eq
    exact ih (fun x hx => hm x (by simp [hx])) (fun x hx => hd x (by simp [hx]))
      (state_json_round_trip _ gm.order d) (settled_kept hset (accepted_receipts gd hv) hv) h2

theorem Life.Good.nonempty {ks : KeyStore} {key : Option Bytes} {prev : Option Receipt} {used : Used} {n : Nat}
    {l : Life} (h : l.Good ks key prev used n) : l.receipts ≠ [] := by
  intro e
  obtain ⟨g, hg, hr⟩ := (h.parts l.first (by simp)).some
  obtain ⟨r, hr⟩ := List.exists_mem_of_ne_nil _ hr
  have : r ∈ receiptsOf (l.first :: l.parts) :=
    List.mem_flatMap.mpr ⟨l.first, by simp, List.mem_flatMap.mpr ⟨g, hg, hr⟩⟩
  rw [h.receipts, e] at this
  simp at this

theorem Life.Good.valid {ks : KeyStore} {key : Option Bytes} {prev : Option Receipt} {used : Used} {n : Nat}
    {l : Life} (h : l.Good ks key prev used n) : ∀ r ∈ l.receipts, Entry.Valid (r.toJWS R1, r) := by
  refine facts_valid (run_session h.run h.size h.rules.proper ?_).facts
  rw [List.forall₂_iff_zip]
  refine ⟨run_length h.run, fun {o r} hor => ?_⟩
  have hr : r ∈ l.receipts := (List.of_mem_zip hor).2
  have : (r, c!"R1") ∈ receiptsOf (l.first :: l.parts) := by rw [h.receipts]; exact List.mem_map_of_mem hr
  obtain ⟨q, hq, hg⟩ := List.mem_flatMap.mp this
  obtain ⟨g, hg, hr⟩ := List.mem_flatMap.mp hg
  obtain ⟨v, -, hv⟩ := h.signed q hq g hg (List.ne_nil_of_mem hr)
  exact ⟨v, hv o r hor hr⟩

/-- C85: the registers of a cluster, one after the other, each as in C84. -/
theorem cluster_session {ks : KeyStore} {key : Option Bytes} {store : Json}
    (hkey : loadKeyFromJson store = .ok key) (hks : readStoreFromJson store = .ok ks) {backend : Used} {j : Json}
    (hj : Cluster.fromJson j = .ok ⟨[], backend.fresh⟩) {lives : List Life}
    (h : Lives ks key none backend.fresh 0 lives) :
    ∃ e c, toolSession backend (lives.flatMap (·.jobs store)) j = .ok e ∧ Cluster.fromJson e = .ok c ∧
      List.Forall₂ (fun l s => Agrees key l.receipts l.reg' s) lives c.regs := by
  suffices H : ∀ (lives : List Life) (prev : Option Receipt) (c : Cluster) (j : Json), Cluster.fromJson j = .ok c →
      Settled c → Lives ks key prev c.used c.regs.length lives → (prev = none → c.regs = []) →
      (∀ y, prev = some y → Entry.Valid (y.toJWS R1, y) ∧
        ∃ p, c.regs.getLast? = some p ∧ p.start = some (y.toJWS R1)) →
      ∃ e c', toolSession backend (lives.flatMap (·.jobs store)) j = .ok e ∧ Cluster.fromJson e = .ok c' ∧
        ∃ ss, c'.regs = c.regs ++ ss ∧ List.Forall₂ (fun l s => Agrees key l.receipts l.reg' s) lives ss by
    obtain ⟨e, c', h1, h2, ss, h3, h4⟩ := H lives none _ j hj (settled_new backend) h (fun _ => rfl) (by simp)
    exact ⟨e, c', h1, h2, by rw [h3]; exact h4⟩
  clear h hj j lives
  intro lives
  induction lives with
  | nil =>
    intro prev c j hj _ _ _ _
    exact ⟨j, c, rfl, hj, [], by simp, .nil⟩
  | cons l lives ih =>
    intro prev c j hj hset hl h0 h1
    cases hl with
    | cons _ _ used' _ _ _ g hu hrest =>
      have hnew : NewRegister c l.reg l.orders := by
        cases prev with
        | none => exact .alone (h0 rfl) (g.alone rfl) g.counter
        | some y =>
          obtain ⟨hv, p, hp, hst⟩ := h1 y rfl
          obtain ⟨k1, k2, k3, k4⟩ := g.cluster y rfl
          exact .cluster p hp (y.toJWS R1, y) hv hst k1 g.counter k2 k3 k4
      obtain ⟨e, s, u, k1, k2, k3, k4⟩ := register_session hkey hks (backend := backend) hj hset g.run g.size g.rules
        hnew g.key g.parts g.receipts g.new g.same g.signed
      obtain rfl := usedAfter_unique hu k4
      have hset' : Settled ⟨c.regs ++ [s], used'⟩ := by
        refine toolSession_settled ?_ ?_ hj hset k1 k2
        · intro x hx
          obtain ⟨q, hq, rfl⟩ := List.mem_map.mp hx
          exact (g.parts q hq).goodMode
        · intro x hx
          obtain ⟨q, hq, rfl⟩ := List.mem_map.mp hx
          exact (g.parts q hq).doc
      obtain ⟨r, rs, hrs⟩ := List.exists_cons_of_ne_nil g.nonempty
      obtain ⟨e', c', m1, m2, ss, m3, m4⟩ := ih l.receipts.head? ⟨c.regs ++ [s], used'⟩ e k2 hset'
        (by simpa using hrest) (by simp [hrs]) (by
          intro y hy
          rw [hrs] at hy
          cases hy
          refine ⟨g.valid r (by simp [hrs]), s, by simp, ?_⟩
          rw [k3.start, hrs]
          rfl)
      refine ⟨e', c', ?_, m2, s :: ss, by rw [m3]; simp, .cons k3 m4⟩
      rw [List.flatMap_cons]
      exact toolSession_append k1 m1

/-- C84 without a state: the first DEP of a register that is the first one. -/
theorem register_new {ks : KeyStore} {key : Option Bytes} {store : Json}
    (hkey : loadKeyFromJson store = .ok key) (hks : readStoreFromJson store = .ok ks) {backend : Used}
    {reg reg' : CashRegister} {os : List Order} {rs : List Receipt} (hrun : reg.run os = (reg', some rs))
    (hz : 5 ≤ reg.size ∧ reg.size ≤ 16) (ho : RuleAbiding backend.fresh os)
    (hlast : reg.last = none ∨ reg.last = some []) (hcounter : reg.counter = 0)
    (hk : ∀ k, key = some k → k = reg.key ∧ k.length = 32)
    {p : Part} (hgood : p.Good) (hsel : p.sel = .fresh) (hrecs : receiptsOf [p] = rs.map fun r => (r, c!"R1"))
    (hsig : ∀ g ∈ p.groups, g.recs ≠ [] → GroupSigned ks os rs g) :
    verifyTool backend.fresh p.mode p.sel store (exportDEP p.groups p.extra) none = .ok none := by
  have hj := state_json_round_trip p.mode.order hgood.order ⟨[], backend.fresh⟩
  obtain ⟨e, -, -, h, -⟩ := register_session hkey hks (backend := backend) hj (settled_new backend) hrun hz ho
    (.alone rfl hlast hcounter) hk (p := p) (parts := []) (by simpa using hgood) hrecs hsel (by simp)
    (by simpa using hsig)
  simp only [List.map_cons, List.map_nil, Part.job, toolSession, Res.bind_eq_ok, orErr_eq_ok] at h
  obtain ⟨out, h, -⟩ := h
  obtain ⟨key', ks', c', h1, h2, ⟨i, hi, a⟩, -⟩ :=
    (verify_tool_rules hgood.goodMode hgood.doc hgood.json hgood.hasReceipts hj (settled_new backend)).mp h
  rw [hsel] at hi ⊢
  cases hi
  exact (verify_tool_rules_new hgood.goodMode hgood.doc hgood.json hgood.hasReceipts (.inl rfl)).mpr
    ⟨key', ks', c', h1, h2, accepted_none.mpr a⟩

end

/-! ### A closed system with two registers -/

namespace Demo

attribute [local instance] env

def firstReceipts : List Receipt := ((register.run firstOrders).2).getD []

theorem first_run : register.run firstOrders = ((register.run firstOrders).1, some firstReceipts) :=
  Prod.ext rfl (show (register.run firstOrders).2 = some firstReceipts by
    have h : ((register.run firstOrders).2).isSome = true := by decide +kernel
    obtain ⟨x, hx⟩ := Option.isSome_iff_exists.mp h
    rw [firstReceipts, hx]; rfl)

/-- A DEP with one group without certificate. -/
def closedPart (m : Mode) (sel : Select) (rs : List Receipt) : Part := ⟨m, sel, [⟨rs.map (·, R1), none, []⟩], []⟩

/-- The first register, with a DEP for each receipt. -/
def firstLife (m₁ m₂ : Mode) : Life := ⟨register, firstOrders, firstReceipts, (register.run firstOrders).1,
  closedPart m₁ .fresh (firstReceipts.take 1), [closedPart m₂ .last (firstReceipts.drop 1)]⟩

/-- The second register. -/
def secondLife (m : Mode) : Life := ⟨secondRegister, secondOrders, secondReceipts, (secondRegister.run secondOrders).1,
  closedPart m .fresh secondReceipts, []⟩

theorem closedPart_good {m : Mode} {sel : Select} {rs : List Receipt} (h : rs ≠ []) (hp : 1 ≤ m.nprocs)
    (ho : ∀ s, (m.order s).toFinset = s) (hf : m.seekable = true ∨ m.chunksize = 0) : (closedPart m sel rs).Good where
  extra := by simp [closedPart, Dict.keys]
  names := by simp [closedPart, Dict.keys]
  some := ⟨_, List.mem_singleton.mpr rfl, by simpa using h⟩
  writable := by
    intro g hg c hc
    rw [List.mem_singleton.mp hg] at hc
    cases hc
  certs := .inl (List.length_filter_le _ _)
  procs := hp
  order := ho
  pipe := by
    rcases hf with h | h
    · exact .inl h
    · exact .inr (.inl h)

theorem first_abide : RuleAbiding (.unique ∅) firstOrders where
  proper := by
    intro o ho
    simp only [firstOrders, List.mem_cons, List.not_mem_nil, or_false] at ho
    rcases ho with rfl | rfl <;> exact order_proper _ _ (by norm_num) _ _ _ (by norm_num) (by decide)
  first := by
    intro o ho
    cases ho
    exact ⟨id, order_zero _ _⟩
  restore := by
    intro pre a b c post e
    have := congrArg List.length e
    simp [firstOrders] at this
    omega
  kind := by
    intro a ha b hb
    simp only [firstOrders, List.mem_cons, List.not_mem_nil, or_false] at ha hb
    rcases ha with rfl | rfl <;> rcases hb with rfl | rfl <;> decide
  dates := by simp [firstOrders, order, Earlier]
  ids := ⟨by decide, by decide⟩

theorem closed_signed {os : List Order} {rs : List Receipt} (ho : ∀ o ∈ os, o.sys = closedSys)
    (hr : ∀ r ∈ rs, r.zda = c!"AT0" ∧ r.certSerial = closedId) {g : SGroup (Receipt × Str)} (hc : g.cert = none) :
    GroupSigned closedStore os rs g := by
  refine ⟨_, .store hc, fun o r hor _ => ?_⟩
  obtain ⟨h1, h2⟩ := hr r (List.of_mem_zip hor).2
  have hk : KeyFor (.fromKeyStore closedStore) r (pubOf ([7, 8] : Bytes)) :=
    .closedStore closedStore h1 rfl rfl (by rw [h2]; rfl)
  unfold SignedFor
  rw [ho o (List.of_mem_zip hor).1]
  exact hk

theorem first_closed : ∀ r ∈ firstReceipts, r.zda = c!"AT0" ∧ r.certSerial = closedId := by decide +kernel

theorem second_closed : ∀ r ∈ secondReceipts, r.zda = c!"AT0" ∧ r.certSerial = closedId := by decide +kernel

theorem first_head : ∃ y, firstReceipts.head? = some y ∧ y.registerId = secondRegister.registerId ∧
    y.zda = c!"AT0" ∧ y.dateTime = ⟨2020, 1, 2, 3, 1, 0⟩ := by
  have : firstReceipts.head?.any (fun y => decide (y.registerId = secondRegister.registerId ∧ y.zda = c!"AT0" ∧
    y.dateTime = ⟨2020, 1, 2, 3, 1, 0⟩)) = true := by decide +kernel
  obtain ⟨y, hy, h⟩ := of_any this
  exact ⟨y, hy, of_decide_eq_true h⟩

theorem lives_good {m₁ m₂ m₃ : Mode} (h₁ : FileMode m₁) (h₂ : FileMode m₂) (h₃ : FileMode m₃) :
    Lives closedStore (some aes) none (.unique ∅) 0 [firstLife m₁ m₂, secondLife m₃] := by
  have l1 : firstReceipts.length = 2 := by decide +kernel
  have l2 : secondReceipts.length = 2 := by decide +kernel
  have n1 : firstReceipts.take 1 ≠ [] := by intro e; have := congrArg List.length e; simp [l1] at this
  have n2 : firstReceipts.drop 1 ≠ [] := by intro e; have := congrArg List.length e; simp [l1] at this
  have n3 : secondReceipts ≠ [] := by intro e; have := congrArg List.length e; simp [l2] at this
  refine .cons _ _ (.unique {c!"R1", c!"R2"}) _ _ _ ?_ ?_ (.cons _ _ _ _ _ _ ?_ (usedAfter_iff.mpr rfl) (.nil _ _ _))
  · refine ⟨fun _ => .inl rfl, by simp, rfl, ⟨(by decide : 5 ≤ register.size), (by decide : register.size ≤ 16)⟩, first_abide, first_run, ?_, ?_, ?_, ?_, rfl, ?_⟩
    · intro k hk; cases hk; exact ⟨rfl, by decide⟩
    · intro q hq g hg _
      have hc : g.cert = none := by
        simp only [firstLife, List.mem_cons, List.not_mem_nil, or_false] at hq
        rcases hq with rfl | rfl <;> rw [List.mem_singleton.mp hg]
      exact closed_signed (by simp [firstLife, firstOrders, order]) first_closed hc
    · intro q hq
      simp only [firstLife, List.mem_cons, List.not_mem_nil, or_false] at hq
      rcases hq with rfl | rfl
      · exact closedPart_good n1 h₁.procs h₁.order h₁.file
      · exact closedPart_good n2 h₂.procs h₂.order h₂.file
    · show (firstReceipts.take 1).map (·, R1) ++ [] ++ ((firstReceipts.drop 1).map (·, R1) ++ [] ++ []) = _
      rw [List.append_nil, List.append_nil, List.append_nil, ← List.map_append, List.take_append_drop]
      rfl
    · intro q hq
      simp only [firstLife, List.mem_cons, List.not_mem_nil, or_false] at hq
      subst hq
      exact .inl rfl
  · have : (firstReceipts.map (·.receiptId)) = [c!"R1", c!"R2"] := by decide +kernel
    show _ = _
    simp only [firstLife, List.map_map]
    have e : ((fun x : Entry => x.2.receiptId) ∘ fun r : Receipt => (r.toJWS c!"R1", r)) = (·.receiptId) := rfl
    rw [e, this]
    decide
  · obtain ⟨y, hy, p1, p2, p3⟩ := first_head
    refine ⟨?_, ?_, rfl, ⟨(by decide : 5 ≤ secondRegister.size), (by decide : secondRegister.size ≤ 16)⟩, second_abide, second_run, ?_, ?_, ?_, ?_, rfl, ?_⟩
    · intro h
      simp only [firstLife] at h
      rw [hy] at h
      cases h
    · intro z hz
      simp only [firstLife] at hz
      rw [hy] at hz
      cases hz
      refine ⟨?_, p1, p2, ?_⟩
      · have : firstTexts = firstReceipts.map fun r => r.toJWS R1 := rfl
        show firstTexts.head? = _
        rw [this, List.head?_map, hy]
        rfl
      · intro o ho
        cases ho
        refine ⟨rfl, ?_⟩
        rw [p3]
        simp [order, Earlier]
    · intro k hk; cases hk; exact ⟨rfl, by decide⟩
    · intro q hq g hg _
      have hc : g.cert = none := by
        simp only [secondLife, List.mem_cons, List.not_mem_nil, or_false] at hq
        subst hq
        rw [List.mem_singleton.mp hg]
      exact closed_signed (by simp [secondLife, secondOrders, order]) second_closed hc
    · intro q hq
      simp only [secondLife, List.mem_cons, List.not_mem_nil, or_false] at hq
      subst hq
      exact closedPart_good n3 h₃.procs h₃.order h₃.file
    · show secondReceipts.map (·, R1) ++ [] ++ [] = _
      simp only [List.append_nil]
      rfl
    · simp [secondLife]

/-- The hypotheses of `cluster_session` can be met. -/
example {m₁ m₂ m₃ : Mode} (h₁ : FileMode m₁) (h₂ : FileMode m₂) (h₃ : FileMode m₃) :
    ∃ e c, toolSession (.unique ∅) ([firstLife m₁ m₂, secondLife m₃].flatMap
        (·.jobs (closedStore.toJson (some (b64Encode false aes))))) (empty.toJson m₁.order) = .ok e ∧
      Cluster.fromJson e = .ok c ∧
      List.Forall₂ (fun l s => Agrees (some aes) l.receipts l.reg' s) [firstLife m₁ m₂, secondLife m₃] c.regs :=
  cluster_session (backend := .unique ∅) rfl rfl (state_json_round_trip _ h₁.order _) (lives_good h₁ h₂ h₃)

end Demo

end RKSV
