import Verif.Props.Predict
import Verif.Model.VerifyDEP
import Verif.Lemmas.SortedIds
/-
Lemmas about verification in packages: the used IDs can be kept apart, and the start receipt and
empty chaining values in the state do not matter.
-/
namespace RKSV

section
variable [PyEnv]

/-! ### Used IDs -/

/-- The IDs of the receipts pass the check one after the other; the first one only if `flag`. -/
def Checked (flag : Prop) (used : Used) (h : List Entry) : Prop :=
  ∀ pre x post, h = pre ++ x :: post → (flag ∨ pre ≠ []) →
    (addAll used pre).check x.2.receiptId = .ok ()

/-- The first receipt is compared with a receipt before it. -/
def Checks (ps : Option Str) (s : RegState) : Prop := ¬Blank s.last ∨ ¬Blank ps

theorem before_exists {s : RegState} {saved : Option Entry} {ps : Option Str} (hs : Saved s saved)
    {pre : List Entry} (h : ∃ y, Before ps saved pre y) : Checks ps s ∨ pre ≠ [] := by
  obtain ⟨y, hy⟩ := h
  cases hy with
  | previous hp =>
    unfold predecessor at hp
    by_cases hpre : pre = []
    · left; left
      subst hpre
      intro hb
      rw [hs.of_blank hb] at hp
      cases hp
    · exact .inr hpre
  | cluster hp hps hn hv =>
    left; right
    rw [hps]
    simp [Blank, hn]

theorem before_of_checks {c : GroupCtx} {s : RegState} {saved : Option Entry} {used : Used}
    (hs : Saved s saved) {pre : List Entry} {x : Entry} (hr : Rules c s saved used pre x)
    (h : Checks c.prevStart s ∨ pre ≠ []) : ∃ y, Before c.prevStart saved pre y := by
  cases hp : predecessor saved pre with
  | some y => exact ⟨y, .previous y hp⟩
  | none =>
    unfold predecessor at hp
    rcases h with (h | h) | h
    · cases hs with
      | none hb => exact absurd hb h
      | some z => cases hl : pre.getLast? <;> rw [hl] at hp <;> cases hp
    · rw [blank_iff] at h
      obtain ⟨t, ht, hn⟩ := truthy_iff.mp (by simpa using h)
      obtain ⟨-, -, hi⟩ := hr.initial hp
      obtain ⟨-, p, hpv, -⟩ := hi t ht hn
      exact ⟨(t, p), .cluster _ hp ht hn hpv⟩
    · have : pre.getLast? ≠ none := by simpa using h
      cases hl : pre.getLast? with
      | none => exact absurd hl this
      | some y => rw [hl] at hp; cases hp

/-- The verdict on the used IDs is independent of everything else. -/
theorem group_used {c : GroupCtx} (hv : c.verifier.cert ≠ none ∨ c.verifier.keyStore ≠ none)
    {s s' : RegState} {used used' : Used} {g : List Bytes}
    (ok : verifyGroup c s used g = .ok (s', used')) :
    ∃ h, Reads g h ∧ used' = addAll used h ∧ Checked (Checks c.prevStart s) used h ∧
      ∀ u, Checked (Checks c.prevStart s) u h → verifyGroup c s u g = .ok (s', addAll u h) := by
  obtain ⟨saved, h, hs, hr, hall, ha, hu⟩ := (group_accepted_iff hv).mp ok
  refine ⟨h, hr, usedAfter_iff.mp hu, ?_, ?_⟩
  · intro pre x post e hf
    have := hall pre x post e
    exact check_addAll.mpr (this.fresh (before_of_checks hs this hf))
  · intro u hc
    refine (group_accepted_iff hv).mpr ⟨saved, h, hs, hr, ?_, ha, usedAfter_iff.mpr rfl⟩
    intro pre x post e
    have r := hall pre x post e
    exact
      { auth := r.auth
        restore := r.restore
        initial := r.initial
        same := r.same
        fresh := fun hb => check_addAll.mp (hc pre x post e (before_exists hs hb))
        chainOverride := r.chainOverride
        chainBefore := r.chainBefore
        chainFirst := r.chainFirst
        counter := r.counter }

omit [PyEnv] in
theorem addAll_nil (u : Used) : addAll u [] = u := rfl

theorem checked_append {flag flag' : Prop} {u : Used} {a b : List Entry}
    (hf : flag' ↔ flag ∨ a ≠ []) :
    Checked flag u (a ++ b) ↔ Checked flag u a ∧ Checked flag' (addAll u a) b := by
  constructor
  · intro h
    refine ⟨fun pre x post e hp => h pre x (post ++ b) (by rw [e]; simp) hp, ?_⟩
    intro pre x post e hp
    rw [← addAll_append]
    apply h (a ++ pre) x post (by rw [e]; simp)
    rcases hp with hp | hp
    · rcases hf.mp hp with hp | hp
      · exact .inl hp
      · right; simp [hp]
    · right; simp [hp]
  · rintro ⟨h1, h2⟩ pre x post e hp
    rcases List.append_eq_append_iff.mp e with ⟨c, e1, e2⟩ | ⟨c, e1, e2⟩
    · subst e1
      rw [addAll_append]
      apply h2 c x post e2
      rcases hp with hp | hp
      · exact .inl (hf.mpr (.inl hp))
      · by_cases hc : c = []
        · left; apply hf.mpr; right; intro ha; subst ha; subst hc; exact hp rfl
        · exact .inr hc
    · cases c with
      | nil =>
        simp only [List.append_nil] at e1
        subst e1
        simp only [List.nil_append] at e2
        have := h2 [] x post e2.symm
        rw [addAll_nil] at this
        apply this
        left; exact hf.mpr hp
      | cons z c =>
        simp only [List.cons_append, List.cons.injEq] at e2
        obtain ⟨rfl, rfl⟩ := e2
        exact h1 pre x c e1 hp

/-- Every verifier of the list has a certificate or a key store. -/
def Able (P : List (List Bytes × Verifier)) : Prop :=
  ∀ p ∈ P, p.2.cert ≠ none ∨ p.2.keyStore ≠ none

theorem last_after {c : GroupCtx} (hv : c.verifier.cert ≠ none ∨ c.verifier.keyStore ≠ none)
    {s s' : RegState} {used used' : Used} {g : List Bytes} {h : List Entry} (hr : Reads g h)
    (ok : verifyGroup c s used g = .ok (s', used')) :
    Checks c.prevStart s' ↔ Checks c.prevStart s ∨ h ≠ [] := by
  obtain ⟨saved, h', hs, hr', hall, ha, hu⟩ := (group_accepted_iff hv).mp ok
  cases reads_unique hr hr'
  unfold Checks
  have hl := ha.last
  cases e : h.getLast? with
  | none =>
    rw [e] at hl
    rw [List.getLast?_eq_none_iff] at e
    subst e
    have hl : s'.last = s.last := hl
    rw [hl]; simp
  | some z =>
    rw [e] at hl
    have hl : s'.last = some z.1 := hl
    have hz := (hr.2 z (List.mem_of_getLast? e)).ne_nil
    have hn : h ≠ [] := by rintro rfl; cases e
    simp [hl, Blank, hn, hz]

/-- ... also for several groups. -/
theorem groups_used {key : Option Bytes} {ps : Option Str} {P : List (List Bytes × Verifier)}
    (hP : Able P) {s s' : RegState} {used used' : Used}
    (ok : verifyGroups key ps s used P = .ok (s', used')) :
    ∃ h, Reads (P.map (·.1)).flatten h ∧ used' = addAll used h ∧ Checked (Checks ps s) used h ∧
      (Checks ps s' ↔ Checks ps s ∨ h ≠ []) ∧
      ∀ u, Checked (Checks ps s) u h → verifyGroups key ps s u P = .ok (s', addAll u h) := by
  induction P generalizing s used with
  | nil =>
    cases ok
    refine ⟨[], ⟨rfl, by simp⟩, rfl, ?_, by simp, fun u _ => rfl⟩
    intro pre x post e
    simp at e
  | cons p P ih =>
    obtain ⟨g, v⟩ := p
    simp only [verifyGroups, Res.bind_eq_ok] at ok
    obtain ⟨⟨s1, u1⟩, h1, h2⟩ := ok
    have hv := hP (g, v) (by simp)
    have hla := fun h hr => last_after (c := ⟨v, key, ps⟩) hv (h := h) hr h1
    obtain ⟨a, hra, rfl, hca, hga⟩ := group_used (c := ⟨v, key, ps⟩) hv h1
    obtain ⟨b, hrb, rfl, hcb, hlb, hgb⟩ := ih (fun q hq => hP q (by simp [hq])) h2
    have hf := hla a hra
    refine ⟨a ++ b, ⟨?_, ?_⟩, (addAll_append used a b).symm, (checked_append hf).mpr ⟨hca, hcb⟩, ?_, ?_⟩
    · simp only [List.map_cons, List.flatten_cons, List.map_append]
      rw [hra.1, hrb.1]
    · intro x hx
      rcases List.mem_append.mp hx with hx | hx
      · exact hra.2 x hx
      · exact hrb.2 x hx
    · rw [hlb, hf]; simp; tauto
    · intro u hc
      obtain ⟨hc1, hc2⟩ := (checked_append hf).mp hc
      simp only [verifyGroups, Res.bind_eq_ok]
      exact ⟨_, hga u hc1, by rw [addAll_append]; exact hgb _ hc2⟩

/-! ### Merging -/

/-- Merging the IDs of a package succeeds exactly if they could have been checked one by one. -/
theorem merge_iff {used w : Used} {h : List Entry} (hin : Checked False used.fresh h) :
    used.mergeOne (addAll used.fresh h) = .ok w ↔ Checked True used h ∧ w = addAll used h := by
  have hfresh := usedAfter_addAll used.fresh h
  have hused := usedAfter_addAll used h
  cases used with
  | unique ids =>
    simp only [Used.fresh, UsedAfter, Finset.empty_union] at hfresh hused
    simp only [Used.fresh]
    rw [hfresh, hused]
    simp only [Used.mergeOne, Res.bind_eq_ok, ensure_eq_ok, Except.ok.injEq]
    constructor
    · rintro ⟨-, hd, rfl⟩
      refine ⟨?_, rfl⟩
      intro pre x post e _
      rw [check_addAll]
      refine ⟨?_, ?_⟩
      · intro hx
        refine Finset.disjoint_left.mp hd hx ?_
        rw [e]; simp
      · intro y hy hxy
        have := hin pre x post e (.inr (by rintro rfl; cases hy))
        rw [check_addAll] at this
        exact this.2 y hy hxy
    · rintro ⟨hc, rfl⟩
      refine ⟨(), ?_, rfl⟩
      rw [Finset.disjoint_right]
      intro i hi
      simp only [List.mem_toFinset, List.mem_map] at hi
      obtain ⟨x, hx, rfl⟩ := hi
      obtain ⟨pre, post, e⟩ := List.append_of_mem hx
      have := hc pre x post e (.inl trivial)
      rw [check_addAll] at this
      exact this.1
  | sorted lo hi =>
    simp only [Used.fresh, UsedAfter, Option.none_or, Option.or_none] at hfresh hused
    simp only [Used.fresh]
    rw [hfresh, hused]
    cases h with
    | nil =>
      simp only [List.head?_nil, List.getLast?_nil, Option.map_none, Used.mergeOne,
        Except.ok.injEq, Option.or_none, Option.none_or]
      constructor
      · rintro rfl
        exact ⟨fun pre x post e => by simp at e, rfl⟩
      · rintro ⟨-, rfl⟩; rfl
    | cons x h =>
      obtain ⟨z, hz⟩ : ∃ z, (x :: h).getLast? = some z := ⟨_, List.getLast?_eq_some_getLast (by simp)⟩
      rw [hz]
      simp only [List.head?_cons, Option.map_some, Used.mergeOne, Res.bind_eq_ok, Except.ok.injEq,
        Option.some_or]
      have hadd : ((Used.sorted lo hi).add x.2.receiptId).add z.2.receiptId =
          .sorted (lo.or (some x.2.receiptId)) (some z.2.receiptId) := by
        cases lo <;> simp [Used.add]
      rw [hadd]
      constructor
      · rintro ⟨_, hc, rfl⟩
        refine ⟨?_, rfl⟩
        intro pre y post e _
        cases pre with
        | nil =>
          simp only [List.nil_append, List.cons.injEq] at e
          rw [← e.1]; exact hc
        | cons w pre =>
          have := hin (w :: pre) y post e (.inr (by simp))
          rw [check_addAll] at this ⊢
          intro m hm
          apply this m
          obtain ⟨q, hq⟩ : ∃ q, (w :: pre).getLast? = some q := ⟨_, List.getLast?_eq_some_getLast (by simp)⟩
          rw [hq] at hm ⊢
          exact hm
      · rintro ⟨hc, rfl⟩
        exact ⟨(), hc [] x h rfl (.inl trivial), rfl⟩

theorem checked_fresh {flag : Prop} {used : Used} {h : List Entry} (hc : Checked flag used h) :
    Checked False used.fresh h := by
  intro pre x post e hp
  have hn : pre ≠ [] := by rcases hp with hp | hp; cases hp; exact hp
  have := hc pre x post e (.inr hn)
  rw [check_addAll] at this ⊢
  cases used with
  | unique ids => exact ⟨by simp, this.2⟩
  | sorted lo hi =>
    obtain ⟨q, hq⟩ : ∃ q, pre.getLast? = some q := ⟨_, List.getLast?_eq_some_getLast hn⟩
    simp only [FreshId, Used.fresh] at this ⊢
    rw [hq] at this ⊢
    exact this

/-- With no IDs used before, the first receipt always passes. -/
theorem checked_fresh_true {used : Used} {h : List Entry} (hc : Checked False used.fresh h) :
    Checked True used.fresh h := by
  intro pre x post e _
  by_cases hn : pre = []
  · subst hn
    cases used <;> simp [Used.fresh, addAll, Used.check]
  · exact hc pre x post e (.inr hn)

omit [PyEnv] in
theorem fresh_fresh (u : Used) : u.fresh.fresh = u.fresh := by cases u <;> rfl

omit [PyEnv] in
theorem addAll_fresh (u : Used) (h : List Entry) : (addAll u h).fresh = u.fresh := by
  have := usedAfter_addAll u h
  cases u <;> simp only [UsedAfter] at this <;> rw [this] <;> rfl

theorem Checked.weaken {f f' : Prop} {u : Used} {h : List Entry} (hc : Checked f u h) (hf : f' → f) :
    Checked f' u h := fun pre x post e hp => hc pre x post e (hp.imp_left hf)

/-! ### States that make no difference -/

/-- The states agree in everything but the start receipt. -/
structure Similar (s t : RegState) : Prop where
  last : s.last = t.last
  counter : s.counter = t.counter
  needRestore : s.needRestore = t.needRestore
  chain : ∀ v, v ≠ [] → (s.chainNext = some v ↔ t.chainNext = some v)

omit [PyEnv] in
theorem Similar.refl (s : RegState) : Similar s s := ⟨rfl, rfl, rfl, fun _ _ => Iff.rfl⟩

omit [PyEnv] in
theorem Similar.symm {s t : RegState} (h : Similar s t) : Similar t s :=
  ⟨h.last.symm, h.counter.symm, h.needRestore.symm, fun v hv => (h.chain v hv).symm⟩

theorem Similar.saved {s t : RegState} (h : Similar s t) {saved : Option Entry} (hs : Saved s saved) :
    Saved t saved := by
  cases hs with
  | none hb => exact .none (by rw [← h.last]; exact hb)
  | some x hl hn hv => exact .some x (by rw [← h.last]; exact hl) hn hv

theorem Similar.restoreDue {s t : RegState} (h : Similar s t) {saved : Option Entry} {pre : List Entry}
    (hr : RestoreDue s saved pre) : RestoreDue t saved pre := by
  cases hr with
  | saved hn => exact .saved (by rw [← h.needRestore]; exact hn)
  | late pre p y hp hu hs hn => exact .late pre p y hp hu hs hn

omit [PyEnv] in
theorem Similar.override {s t : RegState} (h : Similar s t) {pre : List Entry} {v : Str} :
    Override s pre v ↔ Override t pre v := by
  unfold Override
  constructor
  · rintro ⟨a, b, c⟩; exact ⟨a, (h.chain v c).mp b, c⟩
  · rintro ⟨a, b, c⟩; exact ⟨a, (h.chain v c).mpr b, c⟩

/-- Similar states lead to the same verdicts and to similar states. -/
theorem similar_group {c : GroupCtx} (hv : c.verifier.cert ≠ none ∨ c.verifier.keyStore ≠ none)
    {s t s' : RegState} (h : Similar s t) {used used' : Used} {g : List Bytes}
    (ok : verifyGroup c s used g = .ok (s', used')) :
    ∃ t', verifyGroup c t used g = .ok (t', used') ∧ Similar s' t' := by
  obtain ⟨saved, es, hs, hr, hall, ha, hu⟩ := (group_accepted_iff hv).mp ok
  classical
  let t' : RegState :=
    { last := (es.getLast?.map (·.1)).or t.last
      start := if saved = none ∧ es ≠ [] then es.head?.map (·.1) else t.start
      counter := if c.key = none then t.counter else t.counter + sold es
      needRestore := s'.needRestore
      chainNext := if es = [] ∨ t.chainNext = some [] then t.chainNext else none }
  refine ⟨t', (group_accepted_iff hv).mpr ⟨saved, es, h.saved hs, hr, ?_, ?_, hu⟩, ?_⟩
  · intro pre x post e
    have r := hall pre x post e
    exact
      { auth := r.auth
        restore := fun hd => r.restore (h.symm.restoreDue hd)
        initial := r.initial
        same := r.same
        fresh := r.fresh
        chainOverride := fun v hv => r.chainOverride v (h.override.mpr hv)
        chainBefore := fun hn => r.chainBefore (by simpa only [h.override] using hn)
        chainFirst := fun hn => r.chainFirst (by simpa only [h.override] using hn)
        counter := by rw [← h.counter]; exact r.counter }
  · exact ⟨rfl, by simp only [t'], rfl, ha.needRestore.trans ⟨h.restoreDue, h.symm.restoreDue⟩, rfl⟩
  · refine ⟨?_, ?_, rfl, ?_⟩
    · rw [ha.last, h.last]
    · rw [ha.counter, h.counter]
    · intro v hv
      rw [ha.chainNext]
      simp only [t']
      by_cases he : es = []
      · simp only [he, true_or, if_true]
        exact h.chain v hv
      · simp only [he, false_or]
        constructor
        · split
          · rename_i e; rw [e]; intro q; cases q; exact absurd rfl hv
          · intro q; cases q
        · split
          · rename_i e; rw [e]; intro q; cases q; exact absurd rfl hv
          · intro q; cases q

/-- A relation between the states of the sequential and of the parallel verification that is good
enough: same verdicts, and prediction agrees with verification. -/
structure Simulates (key : Option Bytes) (ps : Option Str) (R : RegState → RegState → Prop) : Prop where
  symm : ∀ s t, R s t → R t s
  verify : ∀ (v : Verifier), (v.cert ≠ none ∨ v.keyStore ≠ none) → ∀ s t, R s t → ∀ used g s' used',
    verifyGroup ⟨v, key, ps⟩ s used g = .ok (s', used') →
      ∃ t', verifyGroup ⟨v, key, ps⟩ t used g = .ok (t', used') ∧ R s' t'
  predict : ∀ (v : Verifier), (v.cert ≠ none ∨ v.keyStore ≠ none) → ∀ s t, R s t → ∀ used g s' used',
    verifyGroup ⟨v, key, ps⟩ s used g = .ok (s', used') → ∃ p, t.fromGroup g key = .ok p ∧ R s' p

theorem simulates_consistent (key : Option Bytes) (ps : Option Str) :
    Simulates key ps fun s t => s = t ∧ Consistent s where
  symm := by rintro s _ ⟨rfl, h⟩; exact ⟨rfl, h⟩
  verify := by
    rintro v hv s _ ⟨rfl, h⟩ used g s' used' ok
    exact ⟨s', ok, rfl, consistent_kept (c := ⟨v, key, ps⟩) hv h ok⟩
  predict := by
    rintro v hv s _ ⟨rfl, h⟩ used g s' used' ok
    exact ⟨s', predicted_eq_verified (c := ⟨v, key, ps⟩) hv h ok, rfl,
      consistent_kept (c := ⟨v, key, ps⟩) hv h ok⟩

theorem simulates_similar (key : Option Bytes) (ps : Option Str) : Simulates key ps Similar where
  symm := fun _ _ h => h.symm
  verify := fun v hv s t h used g s' used' ok => similar_group (c := ⟨v, key, ps⟩) hv h ok
  predict := by
    intro v hv s t h used g s' used' ok
    obtain ⟨t', ok', h'⟩ := similar_group (c := ⟨v, key, ps⟩) hv h ok
    obtain ⟨saved, es, hs, ⟨hg, hval⟩, hall, ha, -⟩ := (group_accepted_iff (c := ⟨v, key, ps⟩) hv).mp ok'
    cases es with
    | nil =>
      subst hg
      have : t' = t := by
        unfold verifyGroup at ok'
        rw [Res.bind_eq_ok] at ok'
        obtain ⟨po, -, ok'⟩ := ok'
        cases ok'
        rfl
      subst this
      exact ⟨t', rfl, h'⟩
    | cons x es =>
      simp only [List.map_cons] at hg
      subst hg
      refine ⟨_, predicted_state (c := ⟨v, key, ps⟩) hv ok', ?_⟩
      refine ⟨h'.last, h'.counter, h'.needRestore, ?_⟩
      intro v hv
      rw [h'.chain v hv, ha.chainNext]
      simp only [List.cons_ne_nil, false_or]
      constructor
      · split
        · rename_i e; rw [e]; intro q; cases q; exact absurd rfl hv
        · exact id
      · intro q; cases q

/-! ### Lists of groups and packages -/

theorem verifyGroups_append (key : Option Bytes) (ps : Option Str) (s : RegState) (used : Used)
    (P Q : List (List Bytes × Verifier)) :
    verifyGroups key ps s used (P ++ Q) =
      (do let (s, used) ← verifyGroups key ps s used P; verifyGroups key ps s used Q) := by
  induction P generalizing s used with
  | nil => simp [verifyGroups, Res.ok_bind]
  | cons p P ih =>
    obtain ⟨g, v⟩ := p
    simp only [List.cons_append, verifyGroups]
    cases verifyGroup ⟨v, key, ps⟩ s used g with
    | error e => rfl
    | ok x => simp only [Res.ok_bind, ih]

theorem Simulates.groups {key : Option Bytes} {ps : Option Str} {R : RegState → RegState → Prop}
    (hR : Simulates key ps R) {P : List (List Bytes × Verifier)} (hP : Able P) {s t s' : RegState}
    (h : R s t) {used used' : Used} (ok : verifyGroups key ps s used P = .ok (s', used')) :
    (∃ t', verifyGroups key ps t used P = .ok (t', used') ∧ R s' t') ∧
      ∃ p, predictGroups key t P = .ok p ∧ R s' p := by
  induction P generalizing s t used with
  | nil =>
    cases ok
    exact ⟨⟨t, rfl, h⟩, ⟨t, rfl, h⟩⟩
  | cons p P ih =>
    obtain ⟨g, v⟩ := p
    simp only [verifyGroups, Res.bind_eq_ok] at ok
    obtain ⟨⟨s1, u1⟩, h1, h2⟩ := ok
    have hv := hP (g, v) (by simp)
    have hP' : Able P := fun q hq => hP q (by simp [hq])
    obtain ⟨t1, e1, r1⟩ := hR.verify v hv s t h used g s1 u1 h1
    obtain ⟨p1, f1, q1⟩ := hR.predict v hv s t h used g s1 u1 h1
    obtain ⟨⟨t2, e2, r2⟩, -⟩ := ih hP' r1 h2
    obtain ⟨-, ⟨p2, f2, q2⟩⟩ := ih hP' q1 h2
    refine ⟨⟨t2, ?_, r2⟩, ⟨p2, ?_, q2⟩⟩
    · simp only [verifyGroups, e1, Res.ok_bind]; exact e2
    · simp only [predictGroups, f1, Res.ok_bind]; exact f2

/-- The tasks ended like this. -/
def Done (key : Option Bytes) (ps : Option Str) (used : Used) (ts : List Task)
    (rs : List (RegState × Used)) : Prop :=
  List.Forall₂ (fun t r => verifyGroups key ps t.state used t.groups = .ok r) ts rs

theorem runPool_iff {pick : List Err → Err} {key : Option Bytes} {ps : Option Str} {used : Used}
    {ts : List Task} {rs : List (RegState × Used)} :
    runPool pick key ps used ts = .ok rs ↔ Done key ps used ts rs := by
  have aux : ∀ ts : List Task, (∃ rs, Done key ps used ts rs ∧
      errorsOf (ts.map fun t => verifyGroups key ps t.state used t.groups) = [] ∧
      valuesOf (ts.map fun t => verifyGroups key ps t.state used t.groups) = rs) ∨
      (errorsOf (ts.map fun t => verifyGroups key ps t.state used t.groups) ≠ [] ∧
        ¬∃ rs, Done key ps used ts rs) := by
    intro ts
    induction ts with
    | nil => exact .inl ⟨[], .nil, rfl, rfl⟩
    | cons t ts ih =>
      cases hr : verifyGroups key ps t.state used t.groups with
      | error e =>
        right
        refine ⟨by simp [hr, errorsOf], ?_⟩
        rintro ⟨rs, hd⟩
        cases hd with
        | cons h1 h2 => rw [hr] at h1; cases h1
      | ok r =>
        rcases ih with ⟨rs, hd, h1, h2⟩ | ⟨h1, h2⟩
        · left
          exact ⟨r :: rs, .cons hr hd, by simp [hr, errorsOf, h1], by simp [hr, valuesOf, h2]⟩
        · right
          refine ⟨by simpa [hr, errorsOf] using h1, ?_⟩
          rintro ⟨rs, hd⟩
          cases hd with
          | cons h3 h4 => exact h2 ⟨_, h4⟩
  unfold runPool
  simp only
  rcases aux ts with ⟨rs', hd, h1, h2⟩ | ⟨h1, h2⟩
  · rw [h1, h2]
    simp only [Except.ok.injEq]
    constructor
    · rintro rfl; exact hd
    · intro hd'
      clear h1 h2
      induction hd generalizing rs with
      | nil => cases hd'; rfl
      | cons a b ih =>
        cases hd' with
        | cons c d =>
          rw [a] at c
          cases c
          rw [ih d]
  · constructor
    · cases he : errorsOf (ts.map fun t => verifyGroups key ps t.state used t.groups) with
      | nil => exact absurd he h1
      | cons e es => intro q; cases q
    · intro hd; exact absurd ⟨_, hd⟩ h2

theorem collect_iff {pick : List Err → Err} {key : Option Bytes} {ps : Option Str} {used w : Used}
    {ts : List Task} {r : RegState} :
    collect (.pool pick) key ps used ts = .ok (r, w) ↔ ∃ rs, Done key ps used.fresh ts rs ∧
      used.merge (rs.map (·.2)) = .ok w ∧ rs.getLast?.map (·.1) = some r := by
  simp only [collect, runTasks, Res.bind_eq_ok, runPool_iff, orErr_eq_ok, Except.ok.injEq, Prod.mk.injEq]
  constructor
  · rintro ⟨_, ⟨rs, hd, rfl⟩, w', hm, r', hr, rfl, rfl⟩
    exact ⟨rs, hd, hm, by simpa using hr⟩
  · rintro ⟨rs, hd, hm, hr⟩
    exact ⟨_, ⟨rs, hd, rfl⟩, w, hm, r, by simpa using hr, rfl, rfl⟩

/-- Packages whose results can be merged could have been verified one after the other. -/
theorem packages_sound {key : Option Bytes} {ps : Option Str} {R : RegState → RegState → Prop}
    (hR : Simulates key ps R) {pkgs : List (List (List Bytes × Verifier))} (hP : ∀ P ∈ pkgs, Able P)
    {s t : RegState} (h : R s t) {used w : Used} {ts : List Task}
    (hts : prepareTasks key t pkgs = .ok ts) {rs : List (RegState × Used)}
    (hd : Done key ps used.fresh ts rs) (hm : used.merge (rs.map (·.2)) = .ok w) :
    ∃ s' es, verifyGroups key ps s used pkgs.flatten = .ok (s', w) ∧
      Reads (pkgs.flatten.map (·.1)).flatten es ∧ Checked True used es ∧
      (pkgs ≠ [] → ∃ r, rs.getLast?.map (·.1) = some r ∧ R s' r) := by
  induction pkgs generalizing s t used ts rs with
  | nil =>
    cases hts
    cases hd
    cases hm
    exact ⟨s, [], rfl, ⟨rfl, by simp⟩, fun pre x post e => by simp at e, fun hn => absurd rfl hn⟩
  | cons P pkgs ih =>
    simp only [prepareTasks, Res.bind_eq_ok] at hts
    obtain ⟨t1, ht1, ts', hts', hts⟩ := hts
    cases hts
    cases hd with
    | @cons _ r _ rs h1 h2 =>
    obtain ⟨r1, u1⟩ := r
    have hPa := hP P (by simp)
    simp only at h1
    obtain ⟨⟨s1, e1, q1⟩, -⟩ := hR.groups hPa (hR.symm _ _ h) h1
    obtain ⟨-, p1, hp1, rp1⟩ := hR.groups hPa h e1
    rw [ht1] at hp1
    cases hp1
    obtain ⟨a, hra, rfl, hca, -, hga⟩ := groups_used hPa e1
    simp only [List.map_cons, Used.merge, Res.bind_eq_ok] at hm
    obtain ⟨w1, hw1, hm⟩ := hm
    obtain ⟨hc1, rfl⟩ := (merge_iff (hca.weaken False.elim)).mp hw1
    rw [← addAll_fresh used a] at h2
    obtain ⟨s', b, e2, hrb, hcb, hl⟩ := ih (fun Q hQ => hP Q (by simp [hQ])) rp1 hts' h2 hm
    refine ⟨s', a ++ b, ?_, ?_, (checked_append (flag' := True) (by simp)).mpr ⟨hc1, hcb⟩, ?_⟩
    · rw [List.flatten_cons, verifyGroups_append, hga used (hc1.weaken fun _ => trivial), Res.ok_bind]
      exact e2
    · simp only [List.flatten_cons, List.map_append, List.flatten_append]
      refine ⟨by rw [hra.1, hrb.1, List.map_append], ?_⟩
      intro x hx
      rcases List.mem_append.mp hx with hx | hx
      · exact hra.2 x hx
      · exact hrb.2 x hx
    · intro _
      by_cases hn : pkgs = []
      · subst hn
        cases hts'
        cases h2
        simp only [List.flatten_nil, verifyGroups, Except.ok.injEq, Prod.mk.injEq] at e2
        refine ⟨r1, rfl, ?_⟩
        rw [← e2.1]
        exact hR.symm _ _ q1
      · obtain ⟨r, hr, hrr⟩ := hl hn
        refine ⟨r, ?_, hrr⟩
        rw [List.getLast?_cons]
        cases he : rs.getLast? with
        | none => rw [he] at hr; cases hr
        | some z => rw [he] at hr; simpa using hr

/-- Groups that can be verified one after the other can be verified as packages. -/
theorem packages_complete {key : Option Bytes} {ps : Option Str} {R : RegState → RegState → Prop}
    (hR : Simulates key ps R) {pkgs : List (List (List Bytes × Verifier))} (hP : ∀ P ∈ pkgs, Able P)
    {s t s' : RegState} (h : R s t) {used w : Used} {es : List Entry}
    (ok : verifyGroups key ps s used pkgs.flatten = .ok (s', w))
    (hr : Reads (pkgs.flatten.map (·.1)).flatten es) (hc : Checked True used es) :
    ∃ ts rs, prepareTasks key t pkgs = .ok ts ∧ Done key ps used.fresh ts rs ∧
      used.merge (rs.map (·.2)) = .ok w ∧
      (pkgs ≠ [] → ∃ r, rs.getLast?.map (·.1) = some r ∧ R s' r) := by
  induction pkgs generalizing s t used es with
  | nil =>
    simp only [List.flatten_nil, verifyGroups, Except.ok.injEq, Prod.mk.injEq] at ok
    obtain ⟨rfl, rfl⟩ := ok
    exact ⟨[], [], rfl, .nil, rfl, fun hn => absurd rfl hn⟩
  | cons P pkgs ih =>
    rw [List.flatten_cons, verifyGroups_append, Res.bind_eq_ok] at ok
    obtain ⟨⟨s1, u1⟩, ok1, ok2⟩ := ok
    have hPa := hP P (by simp)
    obtain ⟨a, hra, rfl, hca, -, hga⟩ := groups_used hPa ok1
    have hPb : Able pkgs.flatten := by
      intro q hq
      obtain ⟨Q, hQ, hq⟩ := List.mem_flatten.mp hq
      exact hP Q (by simp [hQ]) q hq
    obtain ⟨b, hrb, -, hcb, -, -⟩ := groups_used hPb ok2
    have he : es = a ++ b := by
      refine reads_unique hr ⟨?_, ?_⟩
      · simp only [List.flatten_cons, List.map_append, List.flatten_append]
        rw [hra.1, hrb.1]
      · intro x hx
        rcases List.mem_append.mp hx with hx | hx
        · exact hra.2 x hx
        · exact hrb.2 x hx
    subst he
    obtain ⟨hc1, hc2⟩ := (checked_append (flag' := True) (by simp)).mp hc
    have hin := checked_fresh hc1
    have e1 := hga used.fresh ((checked_fresh_true hin).weaken fun _ => trivial)
    obtain ⟨⟨r1, f1, q1⟩, p1, hp1, rp1⟩ := hR.groups hPa h e1
    obtain ⟨ts, rs, hts, hd, hm, hl⟩ := ih (fun Q hQ => hP Q (by simp [hQ])) rp1 ok2 hrb hc2
    refine ⟨⟨P, t⟩ :: ts, (r1, addAll used.fresh a) :: rs, ?_, .cons f1 ?_, ?_, ?_⟩
    · simp only [prepareTasks, hp1, hts, Res.ok_bind]
    · rw [addAll_fresh] at hd; exact hd
    · simp only [List.map_cons, Used.merge]
      rw [(merge_iff hin).mpr ⟨hc1, rfl⟩, Res.ok_bind]
      exact hm
    · intro _
      by_cases hn : pkgs = []
      · subst hn
        simp only [List.flatten_nil, verifyGroups, Except.ok.injEq, Prod.mk.injEq] at ok2
        simp only [prepareTasks, Except.ok.injEq] at hts
        subst hts
        cases hd
        exact ⟨r1, rfl, by rw [← ok2.1]; exact q1⟩
      · obtain ⟨r, hr, hrr⟩ := hl hn
        refine ⟨r, ?_, hrr⟩
        rw [List.getLast?_cons]
        cases he : rs.getLast? with
        | none => rw [he] at hr; cases hr
        | some z => rw [he] at hr; simpa using hr

/-! ### Batches -/

omit [PyEnv] in
theorem mapRes_append {α β : Type} (f : α → Res β) (a b : List α) :
    mapRes f (a ++ b) = (do let x ← mapRes f a; let y ← mapRes f b; .ok (x ++ y)) := by
  induction a with
  | nil =>
    simp only [List.nil_append, mapRes, Res.ok_bind]
    cases mapRes f b <;> rfl
  | cons z a ih =>
    simp only [List.cons_append, mapRes, ih]
    cases f z with
    | error e => rfl
    | ok v =>
      simp only [Res.ok_bind]
      cases mapRes f a with
      | error e => rfl
      | ok x =>
        simp only [Res.ok_bind]
        cases mapRes f b <;> rfl

omit [PyEnv] in
theorem batchesAux_flatten {α : Type} (nprocs : Int) (acc cs : List α) :
    (batchesAux nprocs false acc cs).flatten = acc ++ cs := by
  induction cs generalizing acc with
  | nil =>
    unfold batchesAux
    by_cases h : acc = [] <;> simp [h]
  | cons c cs ih =>
    unfold batchesAux
    split
    · simp [ih]
    · simp [ih]

omit [PyEnv] in
theorem batchesAux_prefix {α : Type} (nprocs : Int) (f : Bool) (acc cs : List α) :
    (batchesAux nprocs f acc cs).flatten <+: acc ++ cs := by
  induction cs generalizing acc with
  | nil =>
    unfold batchesAux
    split <;> simp
  | cons c cs ih =>
    unfold batchesAux
    split
    · have := ih []
      rw [List.nil_append] at this
      simp only [List.flatten_cons]
      rw [show acc ++ c :: cs = (acc ++ [c]) ++ cs by simp]
      exact (List.prefix_append_right_inj _).mpr this
    · have := ih (acc ++ [c])
      simpa using this

omit [PyEnv] in
theorem batchesAux_mem {α : Type} (nprocs : Int) (f : Bool) (acc cs : List α)
    (ha : acc = [] ∨ (acc.length : Int) < nprocs) :
    ∀ b ∈ batchesAux nprocs f acc cs, b ≠ [] ∧ ((b.length : Int) ≤ nprocs ∨ b.length = 1) := by
  induction cs generalizing acc with
  | nil =>
    unfold batchesAux
    intro b hb
    split at hb
    · cases hb
    · rename_i h
      rw [List.mem_singleton] at hb
      subst hb
      have hn : b ≠ [] := fun e => h (.inl e)
      exact ⟨hn, .inl (by rcases ha with e | e; exact absurd e hn; omega)⟩
  | cons c cs ih =>
    unfold batchesAux
    intro b hb
    split at hb
    · rename_i h
      rcases List.mem_cons.mp hb with rfl | hb
      · refine ⟨by simp, ?_⟩
        rcases ha with rfl | e
        · right; rfl
        · left; simp; omega
      · exact ih [] (.inl rfl) b hb
    · rename_i h
      exact ih (acc ++ [c]) (.inr (by omega)) b hb

theorem packageAll_able {ks : KeyStore} {gs : List DepGroup} {P : List (List Bytes × Verifier)}
    (h : packageAll ks gs = .ok P) : Able P := by
  induction gs generalizing P with
  | nil => cases h; intro p hp; cases hp
  | cons g gs ih =>
    simp only [packageAll, Res.bind_eq_ok, orErr_eq_ok] at h
    obtain ⟨c, -, -, -, rest, hr, h⟩ := h
    cases h
    intro p hp
    rcases List.mem_cons.mp hp with rfl | hp
    · left; simp [Verifier.fromCert]
    · exact ih hr p hp

theorem packageChunk_able {ks : KeyStore} {c : Chunk} {P : List (List Bytes × Verifier)}
    (h : packageChunk ks c = .ok P) : Able P := by
  unfold packageChunk at h
  split at h
  · rename_i g
    split at h
    · cases h
      intro p hp
      rw [List.mem_singleton] at hp
      subst hp
      right; simp [Verifier.fromKeyStore]
    · simp only [Res.bind_eq_ok] at h
      obtain ⟨-, -, h⟩ := h
      cases h
      intro p hp
      rw [List.mem_singleton] at hp
      subst hp
      left; simp [Verifier.fromCert]
  · exact packageAll_able h

theorem mapRes_able {ks : KeyStore} {cs : List Chunk} {pkgs : List (List (List Bytes × Verifier))}
    (h : mapRes (packageChunk ks) cs = .ok pkgs) : ∀ P ∈ pkgs, Able P := by
  rw [mapRes_iff] at h
  induction h with
  | nil => intro P hP; cases hP
  | cons h1 h2 ih =>
    intro P hP
    rcases List.mem_cons.mp hP with rfl | hP
    · exact packageChunk_able h1
    · exact ih P hP

theorem prepareTasks_length {key : Option Bytes} {s : RegState}
    {pkgs : List (List (List Bytes × Verifier))} {ts : List Task}
    (h : prepareTasks key s pkgs = .ok ts) : ts.length = pkgs.length := by
  induction pkgs generalizing s ts with
  | nil => cases h; rfl
  | cons P pkgs ih =>
    simp only [prepareTasks, Res.bind_eq_ok] at h
    obtain ⟨t1, -, ts', hts', h⟩ := h
    cases h
    simp [ih hts']

omit [PyEnv] in
/-- The work is done by a pool, or there is just one package at a time. -/
def Separate (w : Workers) (n : Nat) : Prop := (∃ pick, w = .pool pick) ∨ n ≤ 1

theorem collect_separate {wk : Workers} {key : Option Bytes} {ps : Option Str} {used w : Used}
    {ts : List Task} (hw : Separate wk ts.length) {r : RegState} :
    collect wk key ps used ts = .ok (r, w) ↔ ∃ rs, Done key ps used.fresh ts rs ∧
      used.merge (rs.map (·.2)) = .ok w ∧ rs.getLast?.map (·.1) = some r := by
  cases wk with
  | pool pick => exact collect_iff
  | alone =>
    rcases hw with ⟨_, h⟩ | hw
    · cases h
    · match ts with
      | [] =>
        constructor
        · intro h; simp [collect, runTasks, runShared, Used.merge, orErr, Res.ok_bind] at h
        · rintro ⟨rs, hd, -, hl⟩; cases hd; cases hl
      | [t] =>
        simp only [collect, runTasks, runShared, Res.bind_eq_ok, orErr_eq_ok, Except.ok.injEq,
          Prod.mk.injEq]
        constructor
        · rintro ⟨_, ⟨_, ⟨⟨s, u⟩, h1, _, rfl, rfl⟩, rfl⟩, w', hm, r', hr, rfl, rfl⟩
          exact ⟨[(s, u)], .cons h1 .nil, hm, hr⟩
        · rintro ⟨rs, hd, hm, hl⟩
          cases hd with
          | @cons _ r _ _ h1 h2 =>
          cases h2
          obtain ⟨s, u⟩ := r
          exact ⟨_, ⟨_, ⟨(s, u), h1, _, rfl, rfl⟩, rfl⟩, w, hm, r, hl, rfl, rfl⟩
      | _ :: _ :: _ => simp at hw

theorem reads_append {es a b : List Entry}
    {g1 g2 : List Bytes} (h : Reads (g1 ++ g2) es) (ha : Reads g1 a) (hb : Reads g2 b) :
    es = a ++ b := by
  refine reads_unique h ⟨by rw [ha.1, hb.1, List.map_append], ?_⟩
  intro x hx
  rcases List.mem_append.mp hx with hx | hx
  · exact ha.2 x hx
  · exact hb.2 x hx

theorem batches_sound {wk : Workers} {ks : KeyStore} {key : Option Bytes} {ps : Option Str}
    {R : RegState → RegState → Prop} (hR : Simulates key ps R)
    {bs : List (List Chunk)} (hbs : ∀ b ∈ bs, b ≠ [] ∧ Separate wk b.length)
    {pk : List (List (List Bytes × Verifier))} (hpk : pk ≠ []) (hsep : Separate wk pk.length)
    (hP : ∀ P ∈ pk, Able P)
    {s t t' r : RegState} (h : R s t) {used w : Used} {ts : List Task}
    (hts : prepareTasks key t pk = .ok ts) {err : Option Err}
    (hrun : runBatches wk ks key ps t' used (some ts) err bs = .ok (r, w)) :
    err = none ∧ ∃ pkgs s' es, mapRes (packageChunk ks) bs.flatten = .ok pkgs ∧
      verifyGroups key ps s used (pk ++ pkgs).flatten = .ok (s', w) ∧
      Reads ((pk ++ pkgs).flatten.map (·.1)).flatten es ∧ Checked True used es ∧ R s' r := by
  induction bs generalizing pk s t t' used ts with
  | nil =>
    cases err with
    | some e => cases hrun
    | none =>
      refine ⟨rfl, [], ?_⟩
      simp only [runBatches] at hrun
      rw [collect_separate (by rw [prepareTasks_length hts]; exact hsep)] at hrun
      obtain ⟨rs, hd, hm, hl⟩ := hrun
      obtain ⟨s', es, h1, h2, h3, h4⟩ := packages_sound hR hP h hts hd hm
      obtain ⟨r', hr', hrr⟩ := h4 hpk
      rw [hl] at hr'
      cases hr'
      exact ⟨s', es, rfl, by simpa using h1, by simpa using h2, h3, hrr⟩
  | cons b bs ih =>
    simp only [runBatches, collectPending, Res.bind_eq_ok] at hrun
    obtain ⟨pkb, hpb, ⟨t1, u1⟩, hcol, ts1, hts1, hrun⟩ := hrun
    rw [collect_separate (by rw [prepareTasks_length hts]; exact hsep)] at hcol
    obtain ⟨rs, hd, hm, hl⟩ := hcol
    obtain ⟨s1, es1, h1, h2, h3, h4⟩ := packages_sound hR hP h hts hd hm
    obtain ⟨r', hr', hrr⟩ := h4 hpk
    rw [hl] at hr'
    cases hr'
    have hlen : b.length = pkb.length := (mapRes_iff.mp hpb).length_eq
    have hb := hbs b (by simp)
    have hne : pkb ≠ [] := by
      intro e
      subst e
      exact hb.1 (List.length_eq_zero_iff.mp hlen)
    obtain ⟨he, pkgs, s', es2, k1, k2, k3, k4, k5⟩ := ih (fun c hc => hbs c (by simp [hc])) hne
      (hlen ▸ hb.2) (mapRes_able hpb) hrr hts1 hrun
    have hPf : Able pk.flatten := by
      intro q hq
      obtain ⟨Q, hQ, hq⟩ := List.mem_flatten.mp hq
      exact hP Q hQ q hq
    obtain ⟨es1', hr1, hu1, -, -, -⟩ := groups_used hPf h1
    cases reads_unique h2 hr1
    refine ⟨he, pkb ++ pkgs, s', es1 ++ es2, ?_, ?_, ?_, ?_, k5⟩
    · rw [List.flatten_cons, mapRes_append, hpb, k1]; rfl
    · rw [List.flatten_append, verifyGroups_append, h1, Res.ok_bind]; exact k2
    · rw [List.flatten_append, List.map_append, List.flatten_append]
      refine ⟨by rw [h2.1, k3.1, List.map_append], ?_⟩
      intro x hx
      rcases List.mem_append.mp hx with hx | hx
      · exact h2.2 x hx
      · exact k3.2 x hx
    · rw [checked_append (flag' := True) (by simp), ← hu1]
      exact ⟨h3, k4⟩

theorem batches_complete {wk : Workers} {ks : KeyStore} {key : Option Bytes} {ps : Option Str}
    {R : RegState → RegState → Prop} (hR : Simulates key ps R)
    {bs : List (List Chunk)} (hbs : ∀ b ∈ bs, b ≠ [] ∧ Separate wk b.length)
    {pk pkgs : List (List (List Bytes × Verifier))} (hpk : pk ≠ []) (hsep : Separate wk pk.length)
    (hP : ∀ P ∈ pk, Able P) (hpkgs : mapRes (packageChunk ks) bs.flatten = .ok pkgs)
    {s t t' s' : RegState} (h : R s t) {used w : Used} {es : List Entry}
    (ok : verifyGroups key ps s used (pk ++ pkgs).flatten = .ok (s', w))
    (hr : Reads ((pk ++ pkgs).flatten.map (·.1)).flatten es) (hc : Checked True used es) :
    ∃ ts r, prepareTasks key t pk = .ok ts ∧
      runBatches wk ks key ps t' used (some ts) none bs = .ok (r, w) ∧ R s' r := by
  induction bs generalizing pk pkgs s t t' used es with
  | nil =>
    simp only [List.flatten_nil, mapRes, Except.ok.injEq] at hpkgs
    subst hpkgs
    rw [List.append_nil] at ok hr
    obtain ⟨ts, rs, h1, h2, h3, h4⟩ := packages_complete hR hP h ok hr hc
    obtain ⟨r, h5, h6⟩ := h4 hpk
    refine ⟨ts, r, h1, ?_, h6⟩
    simp only [runBatches]
    exact (collect_separate (by rw [prepareTasks_length h1]; exact hsep)).mpr ⟨rs, h2, h3, h5⟩
  | cons b bs ih =>
    rw [List.flatten_cons, mapRes_append] at hpkgs
    simp only [Res.bind_eq_ok, Except.ok.injEq] at hpkgs
    obtain ⟨pkb, hpb, pks, hps, rfl⟩ := hpkgs
    rw [List.flatten_append, verifyGroups_append, Res.bind_eq_ok] at ok
    obtain ⟨⟨s1, u1⟩, ok1, ok2⟩ := ok
    have hPf : Able pk.flatten := by
      intro q hq
      obtain ⟨Q, hQ, hq⟩ := List.mem_flatten.mp hq
      exact hP Q hQ q hq
    have hPb : Able (pkb ++ pks).flatten := by
      intro q hq
      obtain ⟨Q, hQ, hq⟩ := List.mem_flatten.mp hq
      rcases List.mem_append.mp hQ with hQ | hQ
      · exact mapRes_able hpb Q hQ q hq
      · exact mapRes_able hps Q hQ q hq
    obtain ⟨a, hra, rfl, -, -, -⟩ := groups_used hPf ok1
    obtain ⟨c, hrc, -, -, -, -⟩ := groups_used hPb ok2
    rw [List.flatten_append, List.map_append, List.flatten_append] at hr
    cases reads_append hr hra hrc
    obtain ⟨hc1, hc2⟩ := (checked_append (flag' := True) (by simp)).mp hc
    obtain ⟨ts, rs, h1, h2, h3, h4⟩ := packages_complete hR hP h ok1 hra hc1
    obtain ⟨r1, h5, h6⟩ := h4 hpk
    have hlen : b.length = pkb.length := (mapRes_iff.mp hpb).length_eq
    have hb := hbs b (by simp)
    have hne : pkb ≠ [] := by
      intro e
      subst e
      exact hb.1 (List.length_eq_zero_iff.mp hlen)
    obtain ⟨ts1, r, k1, k2, k3⟩ := ih (t' := r1) (fun c hc => hbs c (by simp [hc])) hne (hlen ▸ hb.2)
      (mapRes_able hpb) hps h6 ok2 hrc hc2
    refine ⟨ts, r, h1, ?_, k3⟩
    simp only [runBatches, collectPending, Res.bind_eq_ok]
    exact ⟨pkb, hpb, (r1, _),
      (collect_separate (by rw [prepareTasks_length h1]; exact hsep)).mpr ⟨rs, h2, h3, h5⟩, ts1, k1, k2⟩

end

end RKSV
