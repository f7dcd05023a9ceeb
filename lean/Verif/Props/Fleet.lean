import Verif.Spec.Fleet
import Verif.Props.EndToEnd
/-
C88: registers of a cluster that work side by side.
-/
namespace RKSV

section
variable [PyEnv]

/-- Which IDs are used matters for the rule about IDs only. -/
theorem Rules.used {c : GroupCtx} {s : RegState} {saved : Option Entry} {u u' : Used} {pre : List Entry} {x : Entry}
    (h : Rules c s saved u pre x) (hf : FreshId u' pre x.2.receiptId) : Rules c s saved u' pre x :=
  ⟨h.auth, h.restore, h.initial, h.same, fun _ => hf, h.chainOverride, h.chainBefore, h.chainFirst, h.counter⟩

/-- New IDs stay new. -/
theorem freshIds_split {used u : Used} {h : List Entry} {ids : List Str}
    (hf : FreshIds used (h.map (·.2.receiptId) ++ ids)) (hu : UsedAfter used h u) :
    (∀ pre x post, h = pre ++ x :: post → FreshId used pre x.2.receiptId) ∧ FreshIds u ids := by
  cases used with
  | unique old =>
    obtain ⟨h1, h2⟩ := hf
    rw [List.nodup_append] at h1
    obtain ⟨n1, n2, n3⟩ := h1
    simp only [UsedAfter] at hu
    subst hu
    refine ⟨?_, n2, ?_⟩
    · rintro pre x post rfl
      refine ⟨h2 _ (by simp), ?_⟩
      intro y hy e
      rw [List.map_append, List.nodup_append] at n1
      exact n1.2.2 y.2.receiptId (List.mem_map_of_mem hy) x.2.receiptId (by simp) e
    · intro i hi
      simp only [Finset.mem_union, List.mem_toFinset, not_or]
      exact ⟨h2 i (by simp [hi]), fun hm => n3 i hm i hi rfl⟩
  | sorted lo hi =>
    simp only [UsedAfter] at hu
    subst hu
    refine ⟨?_, ?_⟩
    · rintro pre x post rfl m hm
      refine hf (pre.map (·.2.receiptId)) x.2.receiptId (post.map (·.2.receiptId) ++ ids) (by simp) m ?_
      rw [List.getLast?_map]
      exact hm
    · intro pre a post e m hm
      refine hf (h.map (·.2.receiptId) ++ pre) a post (by rw [e]; simp) m ?_
      rw [List.getLast?_append, List.getLast?_map, Option.or_assoc]
      exact hm

/-- A DEP and its receipts as they are read. -/
def PartReads (ks : KeyStore) (p : Part) (h : List CheckedEntry) : Prop :=
  p.Good ∧ DepReads ks (nonempty (p.groups.map SGroup.asRead)) h ∧ (∀ y ∈ h, y.1.Valid) ∧
    h.map (·.1) = (receiptsOf [p]).map (fun r => (r.1.toJWS R1, r.1))

theorem PartReads.ne_nil {ks : KeyStore} {p : Part} {h : List CheckedEntry} (hp : PartReads ks p h) : h ≠ [] := by
  obtain ⟨hg, -, -, hm⟩ := hp
  rintro rfl
  obtain ⟨g, hg, hr⟩ := hg.some
  obtain ⟨r, hr⟩ := List.exists_mem_of_ne_nil _ hr
  have : r ∈ receiptsOf [p] := List.mem_flatMap.mpr ⟨p, by simp, List.mem_flatMap.mpr ⟨g, hg, hr⟩⟩
  rw [List.map_nil] at hm
  rw [List.map_eq_nil_iff.mp hm.symm] at this
  cases this

/-- What is known about a register: the receipts verified, and those to come. -/
def Running (ks : KeyStore) (key : Option Bytes) (ps : Option Str) (full past : List CheckedEntry) (parts : List Part)
    (s : RegState) : Prop :=
  ∃ u hs, full = past ++ hs.flatten ∧ DepAfter key {} none past s ∧ Saved s (predecessor none (past.map (·.1))) ∧
    DepRules key ps s (predecessor none (past.map (·.1))) u hs.flatten ∧ List.Forall₂ (PartReads ks) parts hs

/-- A DEP of a register. -/
theorem running_step {ks : KeyStore} {key : Option Bytes} {store : Json}
    (hkey : loadKeyFromJson store = .ok key) (hks : readStoreFromJson store = .ok ks) {backend : Used}
    {c c₁ : Cluster} {j : Json} (hj : Cluster.fromJson j = .ok c) (hset : Settled c)
    {p : Part} {i : Nat} (hsel : Selects c p.sel i) {ps : Option Str} {s : RegState}
    (hi : Info c (some (i : Int)) c₁ ps s) {full past : List CheckedEntry} {parts : List Part}
    (hr : Running ks key ps full past (p :: parts) s) {ids : List Str}
    (hids : FreshIds c.used ((receiptsOf [p]).map (·.1.receiptId) ++ ids)) :
    ∃ s₁ u₁ past₁, verifyTool backend p.mode p.sel store (exportDEP p.groups p.extra) (some j) =
        .ok (some (Cluster.toJson p.mode.order ⟨c₁.regs.set i s₁, u₁⟩)) ∧
      Cluster.fromJson (Cluster.toJson p.mode.order ⟨c₁.regs.set i s₁, u₁⟩) = .ok ⟨c₁.regs.set i s₁, u₁⟩ ∧
      Settled ⟨c₁.regs.set i s₁, u₁⟩ ∧ past₁ ≠ [] ∧ Running ks key ps full past₁ parts s₁ ∧
      UsedAfter c.used ((receiptsOf [p]).map (fun r => (r.1.toJWS R1, r.1))) u₁ ∧ FreshIds u₁ ids := by
  obtain ⟨u, hs, efull, ha, hsv, hall, hf⟩ := hr
  cases hf with
  | @cons _ h _ hs hp hrest =>
    have hne := hp.ne_nil
    obtain ⟨hp, hr, hv, hm⟩ := hp
    have hmap : (receiptsOf [p]).map (·.1.receiptId) = (h.map (·.1)).map (·.2.receiptId) := by
      rw [hm]; simp
    rw [hmap] at hids
    rw [List.flatten_cons] at hall efull
    have hall' : DepRules key ps s (predecessor none (past.map (·.1))) c.used (h ++ []) := by
      intro pre x v post e
      rw [List.append_nil] at e
      refine (hall pre x v (post ++ hs.flatten) (by rw [e]; simp)).used ?_
      exact (freshIds_split hids (usedAfter_iff.mpr rfl)).1 (pre.map (·.1)) x (post.map (·.1)) (by rw [e]; simp)
    obtain ⟨s₁, u₁, k1, k2, k3, k4, k5, -⟩ := part_step hp hkey hks (backend := backend) hj hset hsel hi hsv hr hv hall'
    have epred : predecessor (predecessor none (past.map (·.1))) (h.map (·.1)) =
        predecessor none ((past ++ h).map (·.1)) := by
      rw [List.map_append, predecessor_append]
    refine ⟨s₁, u₁, past ++ h, k1, state_json_round_trip _ hp.order _, k2, by simp [hne],
      ⟨addAll u (h.map (·.1)), hs, by rw [efull]; simp, ?_, ?_, ?_, hrest⟩, by rw [← hm]; exact k4,
      (freshIds_split hids k4).2⟩
    · unfold DepAfter at k3 ha ⊢
      rw [List.map_append]
      exact (after_append ha).mp k3
    · rw [← epred]; exact k5
    · intro pre x v post e
      rw [← epred, rules_append (c := ⟨.fromKeyStore [], key, none⟩) (c' := ⟨v, key, ps⟩) rfl k3 (usedAfter_iff.mpr rfl),
        ← List.map_append]
      exact hall (h ++ pre) x v post (by rw [e]; simp)

theorem partsOf_cons_self (i : Nat) (p : Part) (l : List (Nat × Part)) : partsOf ((i, p) :: l) i = p :: partsOf l i := by
  simp [partsOf]

theorem partsOf_cons_ne {i k : Nat} (h : k ≠ i) (p : Part) (l : List (Nat × Part)) :
    partsOf ((i, p) :: l) k = partsOf l k := by
  simp [partsOf, Ne.symm h]

theorem Running.start {ks : KeyStore} {key : Option Bytes} {ps : Option Str} {full past : List CheckedEntry}
    {parts : List Part} {s : RegState} (h : Running ks key ps full past parts s) (hne : past ≠ []) :
    ∃ x, full.head? = some x ∧ s.start = some x.1.1 := by
  obtain ⟨u, hs, e, ha, -⟩ := h
  obtain ⟨x, l, rfl⟩ := List.exists_cons_of_ne_nil hne
  exact ⟨x, by simp [e], by rw [ha.start]; simp⟩

/-- The runs, one after the other. -/
theorem fleet_run {ks : KeyStore} {key : Option Bytes} {store : Json}
    (hkey : loadKeyFromJson store = .ok key) (hks : readStoreFromJson store = .ok ks) {backend : Used}
    {full : Nat → List CheckedEntry} {ps : Nat → Option Str} (hps0 : ps 0 = none)
    (hps : ∀ i x, (full i).head? = some x → ps (i + 1) = some x.1.1 ∧ x.1.1 ≠ [])
    {sched : List (Nat × Part)} {n : Nat} (hsched : Scheduled n sched) :
    ∀ {c : Cluster} {j : Json}, Cluster.fromJson j = .ok c → Settled c → c.regs.length = n →
      (∀ i s, c.regs[i]? = some s → ∃ past, past ≠ [] ∧ Running ks key (ps i) (full i) past (partsOf sched i) s) →
      (∀ i, n ≤ i → Running ks key (ps i) (full i) [] (partsOf sched i) {}) →
      FreshIds c.used (scheduledIds sched) →
      ∃ e c', toolSession backend (sched.map (·.2.job store)) j = .ok e ∧ Cluster.fromJson e = .ok c' ∧
        (∀ i s, c'.regs[i]? = some s → full i ≠ [] ∧ DepAfter key {} none (full i) s) ∧
        (∀ i, c'.regs.length ≤ i → full i = []) ∧
        UsedAfter c.used (sched.flatMap fun x => (receiptsOf [x.2]).map (fun r => (r.1.toJWS R1, r.1))) c'.used := by
  induction hsched with
  | nil n =>
    intro c j hj hset hn hrun hwait hids
    refine ⟨j, c, rfl, hj, ?_, ?_, usedAfter_iff.mpr rfl⟩
    · intro i s hs
      obtain ⟨past, hne, u, hs, e, ha, -, -, hf⟩ := hrun i s hs
      cases hf
      rw [e]
      simpa using ⟨hne, ha⟩
    · intro i hi
      obtain ⟨u, hs, e, -, -, -, hf⟩ := hwait i (by omega)
      cases hf
      exact e
  | fresh n p l hs hl ih =>
    intro c j hj hset hn hrun hwait hids
    subst hn
    have hstart : ∀ i s, c.regs[i]? = some s → s.start = ps (i + 1) ∧ ∃ t, s.start = some t ∧ t ≠ [] := by
      intro i s hs
      obtain ⟨past, hne, hr⟩ := hrun i s hs
      obtain ⟨x, h1, h2⟩ := hr.start hne
      obtain ⟨h3, h4⟩ := hps i x h1
      exact ⟨by rw [h2, h3], _, h2, h4⟩
    have hw := hwait c.regs.length (le_refl _)
    rw [partsOf_cons_self] at hw
    have hinfo : Info c (some (c.regs.length : Int)) ⟨c.regs ++ [({} : RegState)], c.used⟩ (ps c.regs.length) {} := by
      have : ps c.regs.length = c.regs.getLast?.bind (·.start) := by
        rw [List.getLast?_eq_getElem?]
        rcases Nat.eq_zero_or_pos c.regs.length with e | e
        · rw [e, hps0, List.eq_nil_of_length_eq_zero e]; rfl
        · obtain ⟨k, hk⟩ : ∃ k, c.regs.length = k + 1 := ⟨c.regs.length - 1, by omega⟩
          have hlt : k < c.regs.length := by omega
          rw [hk, Nat.add_sub_cancel, List.getElem?_eq_getElem hlt]
          exact (hstart k _ (List.getElem?_eq_getElem hlt)).1.symm
      rw [this]
      refine .new _ (.inr rfl) ?_
      intro r hr
      rw [List.getLast?_eq_getElem?] at hr
      exact (hstart _ _ hr).2
    obtain ⟨s₁, u₁, past₁, k1, k2, k3, k4, k5, k6, k7⟩ := running_step hkey hks (backend := backend) hj hset
      (by rw [hs]; exact .fresh) hinfo hw (ids := scheduledIds l) hids
    have hset1 : (c.regs ++ [({} : RegState)]).set c.regs.length s₁ = c.regs ++ [s₁] := by simp
    rw [hset1] at k1 k2 k3
    obtain ⟨e, c', j1, j2, j3, j4, j5⟩ := ih k2 k3 (by simp) (by
      intro i s hs
      rcases Nat.lt_trichotomy i c.regs.length with h | h | h
      · rw [List.getElem?_append_left h] at hs
        have := hrun i s hs
        rwa [partsOf_cons_ne (by omega)] at this
      · subst h
        rw [List.getElem?_concat_length] at hs
        cases hs
        exact ⟨past₁, k4, k5⟩
      · rw [List.getElem?_eq_none (by simp; omega)] at hs
        cases hs) (by
      intro i hi
      have := hwait i (by omega)
      rwa [partsOf_cons_ne (by omega)] at this) k7
    refine ⟨e, c', ?_, j2, j3, j4, ?_⟩
    · simp only [List.map_cons, Part.job, toolSession, Res.bind_eq_ok, orErr_eq_ok]
      exact ⟨_, k1, _, rfl, j1⟩
    · rw [usedAfter_iff, List.flatMap_cons, addAll_append, usedAfter_iff.mp j5, usedAfter_iff.mp k6]
  | known n i p l hi hs hl ih =>
    intro c j hj hset hn hrun hwait hids
    subst hn
    obtain ⟨s, hs'⟩ : ∃ s, c.regs[i]? = some s := ⟨_, List.getElem?_eq_getElem hi⟩
    obtain ⟨past, hne, hw⟩ := hrun i s hs'
    rw [partsOf_cons_self] at hw
    have hinfo : Info c (some (i : Int)) c (ps i) s := by
      cases i with
      | zero => rw [hps0]; exact .first _ hs'
      | succ k =>
        obtain ⟨q, hq⟩ : ∃ q, c.regs[k]? = some q := ⟨_, List.getElem?_eq_getElem (by omega)⟩
        obtain ⟨past', hne', hr'⟩ := hrun k q hq
        obtain ⟨x, h1, h2⟩ := hr'.start hne'
        rw [(hps k x h1).1, ← h2]
        exact .later k q s hq hs'
    have hsel : Selects c p.sel i := by
      rcases hs with e | ⟨e, h⟩ <;> rw [e]
      · exact .nth i
      · exact .last i h
    obtain ⟨s₁, u₁, past₁, k1, k2, k3, k4, k5, k6, k7⟩ := running_step hkey hks (backend := backend) hj hset
      hsel hinfo hw (ids := scheduledIds l) hids
    obtain ⟨e, c', j1, j2, j3, j4, j5⟩ := ih k2 k3 (by simp) (by
      intro k s hs
      by_cases h : k = i
      · subst h
        simp only [List.getElem?_set_self hi, Option.some.injEq] at hs
        subst hs
        exact ⟨past₁, k4, k5⟩
      · simp only [List.getElem?_set_ne (Ne.symm h)] at hs
        have := hrun k s hs
        rwa [partsOf_cons_ne h] at this) (by
      intro k hk
      have := hwait k hk
      rwa [partsOf_cons_ne (by omega)] at this) k7
    refine ⟨e, c', ?_, j2, j3, j4, ?_⟩
    · simp only [List.map_cons, Part.job, toolSession, Res.bind_eq_ok, orErr_eq_ok]
      exact ⟨_, k1, _, rfl, j1⟩
    · rw [usedAfter_iff, List.flatMap_cons, addAll_append, usedAfter_iff.mp j5, usedAfter_iff.mp k6]

/-! ### The registers -/

theorem Life.Member.signedFor {ks : KeyStore} {key : Option Bytes} {prev : Option Receipt} {l : Life}
    (h : l.Member ks key prev) : List.Forall₂ (fun o r => ∃ v, SignedFor v o r) l.orders l.receipts := by
  rw [List.forall₂_iff_zip]
  refine ⟨run_length h.run, fun {o r} hor => ?_⟩
  have hr : r ∈ l.receipts := (List.of_mem_zip hor).2
  have : (r, c!"R1") ∈ receiptsOf (l.first :: l.parts) := by rw [h.receipts]; exact List.mem_map_of_mem hr
  obtain ⟨q, hq, hg⟩ := List.mem_flatMap.mp this
  obtain ⟨g, hg, hr⟩ := List.mem_flatMap.mp hg
  obtain ⟨v, -, hv⟩ := h.signed q hq g hg (List.ne_nil_of_mem hr)
  exact ⟨v, hv o r hor hr⟩

theorem Life.Member.valid {ks : KeyStore} {key : Option Bytes} {prev : Option Receipt} {l : Life}
    (h : l.Member ks key prev) : ∀ r ∈ l.receipts, Entry.Valid (r.toJWS R1, r) :=
  facts_valid (run_session h.run h.size h.rules.proper h.signedFor).facts

theorem partReads_of {ks : KeyStore} {os : List Order} {rs : List Receipt} {parts : List Part}
    (hgood : ∀ p ∈ parts, p.Good)
    (hsig : ∀ p ∈ parts, ∀ g ∈ p.groups, g.recs ≠ [] → GroupSigned ks os rs g)
    (hval : ∀ r ∈ receiptsOf parts, r.2 = R1 ∧ Entry.Valid (r.1.toJWS R1, r.1)) :
    ∃ hs : List (List CheckedEntry), List.Forall₂ (PartReads ks) parts hs ∧
      hs.flatten.map (·.1) = (receiptsOf parts).map (fun r => (r.1.toJWS R1, r.1)) ∧
      ∀ y ∈ hs.flatten, ∀ o, (o, y.1.2) ∈ os.zip rs → SignedFor y.2 o y.1.2 := by
  induction parts with
  | nil => exact ⟨[], .nil, rfl, by simp⟩
  | cons p parts ih =>
    simp only [receiptsOf, List.flatMap_cons, List.mem_append] at hval ih
    obtain ⟨hs, h1, h2, h3⟩ := ih (fun g hg => hgood g (by simp [hg])) (fun g hg => hsig g (by simp [hg]))
      (fun r hr => hval r (.inr hr))
    obtain ⟨h, k1, k2, k3⟩ := part_reads (hsig p (by simp)) (fun g hg r hr =>
      hval r (.inl (List.mem_flatMap.mpr ⟨g, hg, hr⟩)))
    refine ⟨h :: hs, .cons ⟨hgood p (by simp), k1, ?_, by simpa [receiptsOf] using k2⟩ h1, ?_, ?_⟩
    · intro y hy
      have : y.1 ∈ h.map (·.1) := List.mem_map_of_mem hy
      rw [k2] at this
      obtain ⟨r, hr, e⟩ := List.mem_map.mp this
      rw [← e]
      exact (hval r (.inl hr)).2
    · rw [List.flatten_cons, List.map_append, h2, k2]
      simp [receiptsOf]
    · intro y hy o ho
      rw [List.flatten_cons] at hy
      rcases List.mem_append.mp hy with hy | hy
      · exact k3 y hy o ho
      · exact h3 y hy o ho

/-- A register that was not started. -/
theorem Life.Member.waiting {ks : KeyStore} {key : Option Bytes} {prev : Option Receipt} {l : Life}
    (h : l.Member ks key prev) (hprev : ∀ y, prev = some y → Entry.Valid (y.toJWS R1, y)) :
    ∃ full : List CheckedEntry, full.map (·.1) = entries l.receipts ∧
      Running ks key (prev.map (·.toJWS R1)) full [] (l.first :: l.parts) {} := by
  have hst : ∀ v, Starts ⟨v, key, prev.map (·.toJWS R1)⟩ l.reg l.orders := by
    intro v
    cases prev with
    | none => exact .alone (h.alone rfl) (.inl rfl)
    | some y =>
      obtain ⟨k1, k2, k3, k4⟩ := h.cluster y rfl
      exact .cluster (y.toJWS R1, y) (hprev y rfl) k1 rfl k2 k3 k4
  obtain ⟨hs, h1, h2, h3⟩ := partReads_of h.parts h.signed (by
    intro r hr
    rw [h.receipts] at hr
    obtain ⟨r, hr', rfl⟩ := List.mem_map.mp hr
    exact ⟨rfl, h.valid r hr'⟩)
  have h2' : hs.flatten.map (·.1) = entries l.receipts := by
    rw [h2, h.receipts]
    simp [entries]
  refine ⟨hs.flatten, h2', .unique ∅, hs, rfl, depAfter_nil _ _ _, .none (.inl rfl), ?_, h1⟩
  intro pre x v post e
  have e' : entries l.receipts = pre.map (·.1) ++ x :: post.map (·.1) := by
    rw [← h2', e]
    simp
  obtain ⟨pre', rest, e0, e1, e2⟩ := List.map_eq_append_iff.mp e'
  obtain ⟨r, post', rfl, rfl, e3⟩ := List.map_eq_cons_iff.mp e2
  rw [← e1]
  have hrun := h.run
  have hsg := h.signedFor
  rw [e0] at hrun hsg
  refine session_rule_at (c := ⟨v, key, prev.map (·.toJWS R1)⟩) (s := {}) hrun h.size h.rules hsg (hst v) rfl (.inl rfl)
    h.counter.symm h.key ?_
  intro o ho
  refine h3 ((r.toJWS R1, r), v) (by rw [e]; simp) o ?_
  rw [List.mem_iff_getElem?]
  refine ⟨pre'.length, ?_⟩
  rw [List.getElem?_zip_eq_some]
  exact ⟨ho, by rw [e0]; simp⟩

theorem Life.Member.agrees {ks : KeyStore} {key : Option Bytes} {prev : Option Receipt} {l : Life}
    (h : l.Member ks key prev) {full : List CheckedEntry} (hf : full.map (·.1) = entries l.receipts)
    (hne : full ≠ []) {s : RegState} (ha : DepAfter key {} none full s) : Agrees key l.receipts l.reg' s := by
  have se := run_session h.run h.size h.rules.proper h.signedFor
  unfold DepAfter at ha
  rw [hf] at ha
  have hr : l.receipts ≠ [] := by
    intro e
    rw [e] at hf
    exact hne (List.map_eq_nil_iff.mp hf)
  refine ⟨?_, ?_, ?_⟩
  · rw [ha.start]
    cases hrs : l.receipts with
    | nil => exact absurd hrs hr
    | cons r rs => simp [entries, R1]
  · rw [ha.last, se.last]
    obtain ⟨q, x, e⟩ : ∃ q x, l.receipts = q ++ [x] := ⟨_, _, (List.dropLast_append_getLast hr).symm⟩
    simp [entries, e]
  · intro hkn
    rw [ha.counter, if_neg hkn, se.counter, h.counter]

/-- C88: the registers of a cluster work side by side: their DEPs are verified in any order in which those of each register come
one after the other, and the first ones in the order of the registers.  All are accepted, and in the end the state has
the registers as they are. -/
theorem fleet_session {ks : KeyStore} {key : Option Bytes} {store : Json}
    (hkey : loadKeyFromJson store = .ok key) (hks : readStoreFromJson store = .ok ks) {backend : Used} {j : Json}
    (hj : Cluster.fromJson j = .ok ⟨[], backend.fresh⟩) {lives : List Life}
    (hlives : ∀ (i : Nat) (l : Life), lives[i]? = some l → l.Member ks key (startBefore lives i))
    {sched : List (Nat × Part)} (hparts : ∀ (i : Nat) (l : Life), lives[i]? = some l → partsOf sched i = l.first :: l.parts)
    (hmem : ∀ x ∈ sched, x.1 < lives.length) (hsched : Scheduled 0 sched)
    (hids : FreshIds backend.fresh (scheduledIds sched)) :
    ∃ e c, toolSession backend (sched.map (·.2.job store)) j = .ok e ∧ Cluster.fromJson e = .ok c ∧
      List.Forall₂ (fun l s => Agrees key l.receipts l.reg' s) lives c.regs ∧
      UsedAfter backend.fresh (sched.flatMap fun x => (receiptsOf [x.2]).map (fun r => (r.1.toJWS c!"R1", r.1))) c.used := by
  -- the receipts of each register
  have hvalid : ∀ i y, startBefore lives i = some y → Entry.Valid (y.toJWS R1, y) := by
    intro i y hy
    unfold startBefore at hy
    split at hy
    · cases hy
    · obtain ⟨l, hl, hh⟩ := Option.bind_eq_some_iff.mp hy
      exact (hlives _ l hl).valid y (List.mem_of_mem_head? hh)
  have hfull : ∀ i, ∃ full : List CheckedEntry, (∀ l, lives[i]? = some l → full.map (·.1) = entries l.receipts) ∧
      (lives[i]? = none → full = []) ∧
      Running ks key ((startBefore lives i).map (·.toJWS R1)) full [] (partsOf sched i) {} := by
    intro i
    cases hl : lives[i]? with
    | none =>
      refine ⟨[], by simp, by simp, .unique ∅, [], rfl, depAfter_nil _ _ _, .none (.inl rfl), ?_, ?_⟩
      · intro pre x v post e
        simp at e
      · have : partsOf sched i = [] := by
          rw [partsOf, List.map_eq_nil_iff, List.filter_eq_nil_iff]
          intro x hx e
          have := hmem x hx
          rw [List.getElem?_eq_none_iff] at hl
          simp only [decide_eq_true_eq] at e
          omega
        rw [this]
        exact .nil
    | some l =>
      obtain ⟨full, h1, h2⟩ := (hlives i l hl).waiting (hvalid i)
      refine ⟨full, ?_, by simp, ?_⟩
      · intro l' e
        cases e
        exact h1
      · rw [hparts i l hl]
        exact h2
  choose full hf1 hf2 hf3 using hfull
  obtain ⟨e, c, h1, h2, h3, h4, h5⟩ := fleet_run hkey hks (backend := backend) (full := full)
    (ps := fun i => (startBefore lives i).map (·.toJWS R1)) rfl (by
      intro i x hx
      cases hl : lives[i]? with
      | none => rw [hf2 i hl] at hx; cases hx
      | some l =>
        have e := hf1 i l hl
        obtain ⟨y, t, hy⟩ : ∃ y t, full i = y :: t := by
          cases hfi : full i with
          | nil => rw [hfi] at hx; cases hx
          | cons y t => exact ⟨y, t, rfl⟩
        rw [hy] at hx e
        cases hx
        obtain ⟨r, rs, er, e1, -⟩ := List.map_eq_cons_iff.mp e.symm
        have hs : startBefore lives (i + 1) = some r := by simp [startBefore, hl, er]
        refine ⟨?_, ?_⟩
        · simp [hs, ← e1]
        · have e1 : (r.toJWS R1, r) = x.1 := e1
          rw [← e1]
          exact (hvalid _ r hs).ne_nil) hsched hj (settled_new backend) rfl (by simp) (fun i _ => hf3 i) hids
  refine ⟨e, c, h1, h2, ?_, h5⟩
  have hne : ∀ i l, lives[i]? = some l → full i ≠ [] := by
    intro i l hl e
    have := hf1 i l hl
    obtain ⟨u, hs, k1, -, -, -, k2⟩ := hf3 i
    rw [hparts i l hl] at k2
    cases k2 with
    | cons hp _ =>
      rw [e] at k1
      have := congrArg List.length k1
      have hn := List.length_pos_iff.mpr hp.ne_nil
      simp at this
      omega
  rw [List.forall₂_iff_get]
  have hlen : lives.length = c.regs.length := by
    by_contra hcon
    rcases Nat.lt_or_gt_of_ne hcon with h | h
    · have := (h3 lives.length _ (List.getElem?_eq_getElem h)).1
      exact this (hf2 _ (List.getElem?_eq_none (le_refl _)))
    · exact hne _ _ (List.getElem?_eq_getElem h) (h4 _ (le_refl _))
  refine ⟨hlen, fun i hi hi' => ?_⟩
  have e1 := List.getElem?_eq_getElem hi
  obtain ⟨k1, k2⟩ := h3 i _ (List.getElem?_eq_getElem hi')
  exact (hlives i _ e1).agrees (hf1 i _ e1) k1 k2

end

/-! ### Two registers side by side -/

namespace Demo

attribute [local instance] env

/-- The first register; its second DEP is verified after the one of the second register. -/
def sideLife (m₁ m₂ : Mode) : Life := ⟨register, firstOrders, firstReceipts, (register.run firstOrders).1,
  closedPart m₁ .fresh (firstReceipts.take 1), [closedPart m₂ (.nth 0) (firstReceipts.drop 1)]⟩

def sideSchedule (m₁ m₂ m₃ : Mode) : List (Nat × Part) :=
  [(0, (sideLife m₁ m₃).first), (1, (secondLife m₂).first), (0, closedPart m₃ (.nth 0) (firstReceipts.drop 1))]

theorem side_members {m₁ m₂ m₃ : Mode} (h₁ : FileMode m₁) (h₂ : FileMode m₂) (h₃ : FileMode m₃) (i : Nat) (l : Life)
    (hl : [sideLife m₁ m₃, secondLife m₂][i]? = some l) :
    l.Member closedStore (some aes) (startBefore [sideLife m₁ m₃, secondLife m₂] i) := by
  have l1 : firstReceipts.length = 2 := by decide +kernel
  have n1 : firstReceipts.take 1 ≠ [] := by intro e; have := congrArg List.length e; simp [l1] at this
  have n2 : firstReceipts.drop 1 ≠ [] := by intro e; have := congrArg List.length e; simp [l1] at this
  have h := lives_good h₁ h₃ h₂
  cases h with
  | cons _ _ _ _ _ _ g1 u1 hrest =>
    cases hrest with
    | cons _ _ _ _ _ _ g2 u2 _ =>
      match i, hl with
      | 0, hl =>
        cases hl
        refine ⟨g1.alone, by simp [startBefore], g1.counter, g1.size, first_abide, g1.run, g1.key, ?_, ?_, ?_⟩
        · intro q hq g hg _
          have hc : g.cert = none := by
            simp only [sideLife, List.mem_cons, List.not_mem_nil, or_false] at hq
            rcases hq with rfl | rfl <;> rw [List.mem_singleton.mp hg]
          exact closed_signed (by simp [sideLife, firstOrders, order]) first_closed hc
        · intro q hq
          simp only [sideLife, List.mem_cons, List.not_mem_nil, or_false] at hq
          rcases hq with rfl | rfl
          · exact closedPart_good n1 h₁.procs h₁.order h₁.file
          · exact closedPart_good n2 h₃.procs h₃.order h₃.file
        · exact g1.receipts
      | 1, hl =>
        cases hl
        exact ⟨g2.alone, g2.cluster, g2.counter, g2.size,
          ⟨second_abide.proper, second_abide.first, second_abide.restore, second_abide.kind, second_abide.dates,
            second_abide.ids.1, by simp⟩, g2.run, g2.key, g2.signed, g2.parts, g2.receipts⟩

/-- The hypotheses of `fleet_session` can be met. -/
example {m₁ m₂ m₃ : Mode} (h₁ : FileMode m₁) (h₂ : FileMode m₂) (h₃ : FileMode m₃) {j : Json}
    (hj : Cluster.fromJson j = .ok ⟨[], .unique ∅⟩) : ∃ e c,
    toolSession (.unique ∅) ((sideSchedule m₁ m₂ m₃).map
      (·.2.job (closedStore.toJson (some (b64Encode false aes))))) j = .ok e ∧ Cluster.fromJson e = .ok c ∧
      List.Forall₂ (fun l s => Agrees (some aes) l.receipts l.reg' s) [sideLife m₁ m₃, secondLife m₂] c.regs ∧
      UsedAfter (.unique ∅) ((sideSchedule m₁ m₂ m₃).flatMap fun x =>
        (receiptsOf [x.2]).map (fun r => (r.1.toJWS c!"R1", r.1))) c.used := by
  refine fleet_session (ks := closedStore) rfl rfl (backend := .unique ∅) hj (side_members h₁ h₂ h₃) ?_ ?_ ?_ ?_
  · intro i l hl
    match i, hl with
    | 0, hl => cases hl; rfl
    | 1, hl => cases hl; rfl
  · simp [sideSchedule]
  · exact .fresh _ _ _ rfl (.fresh _ _ _ rfl (.known _ _ _ _ (by norm_num) (.inl rfl) (.nil _)))
  · have : scheduledIds (sideSchedule m₁ m₂ m₃) = [c!"R1", c!"R11", c!"R12", c!"R2"] := by
      have : scheduledIds (sideSchedule m₁ m₂ m₃) = (firstReceipts.take 1).map (·.receiptId) ++
          (secondReceipts.map (·.receiptId) ++ (firstReceipts.drop 1).map (·.receiptId)) := by
        simp [scheduledIds, sideSchedule, receiptsOf, sideLife, secondLife, closedPart, Function.comp_def]
      rw [this]
      decide +kernel
    rw [this]
    exact ⟨by decide, by simp [Used.fresh]⟩

end Demo

end RKSV
