import Verif.Spec.DepRules
import Verif.Props.Resume
import Verif.Props.ChunkSize
import Verif.Props.VerifyTool
/-
Property C83: the verdict on a whole DEP.
-/
namespace RKSV

section
variable [PyEnv]

/-- The receipts of the groups in order, each with the verifier of its group. -/
def ReadsAll (P : List (List Bytes × Verifier)) (h : List CheckedEntry) : Prop :=
  (P.flatMap fun p => p.1.map fun b => (b, p.2)) = h.map (fun y => (utf8Enc y.1.1, y.2)) ∧ ∀ y ∈ h, y.1.Valid

omit [PyEnv] in
theorem predecessor_append (saved : Option Entry) (a b : List Entry) :
    predecessor (predecessor saved a) b = predecessor saved (a ++ b) := by
  unfold predecessor
  rw [List.getLast?_append, Option.or_assoc]

theorem After.congr {c c' : GroupCtx} (hk : c.key = c'.key) {s s' : RegState} {saved : Option Entry} {h : List Entry}
    (a : After c s saved h s') : After c' s saved h s' :=
  ⟨a.last, a.start, by rw [← hk]; exact a.counter, a.needRestore, a.chainNext⟩

/-- The saved receipt after a group. -/
theorem After.saved {c : GroupCtx} {s s' : RegState} {saved : Option Entry} {h : List Entry}
    (a : After c s saved h s') (hs : Saved s saved) (hv : ∀ x ∈ h, x.Valid) : Saved s' (predecessor saved h) := by
  unfold predecessor
  rcases List.eq_nil_or_concat h with rfl | ⟨q, x, rfl⟩
  · have hl : s'.last = s.last := by simpa using a.last
    cases hs with
    | none h => exact .none (by rw [hl]; exact h)
    | some x h1 h2 h3 => exact .some x (by rw [hl]; exact h1) h2 h3
  · have hl : s'.last = some x.1 := by simpa using a.last
    have hx : x.Valid := hv x (by simp)
    simpa using Saved.some x hl hx.ne_nil hx

theorem restoreDue_append {c : GroupCtx} {s s' : RegState} {saved : Option Entry} {h : List Entry}
    (a : After c s saved h s') (b : List Entry) :
    RestoreDue s' (predecessor saved h) b ↔ RestoreDue s saved (h ++ b) := by
  rcases List.eq_nil_or_concat b with rfl | ⟨q, x, rfl⟩
  · rw [List.append_nil, ← a.needRestore]
    constructor
    · intro hd
      generalize e : ([] : List Entry) = l at hd
      cases hd with
      | saved h => exact h
      | late => simp at e
    · exact .saved
  · rw [List.concat_eq_append, ← List.append_assoc, restoreDue_snoc, restoreDue_snoc, predecessor_append]

/-- The rules for a receipt of a later group. -/
theorem rules_append {c c' : GroupCtx} (hk : c.key = c'.key) {s s' : RegState} {saved : Option Entry} {used used' : Used}
    {h : List Entry} (a : After c s saved h s') (hu : UsedAfter used h used') (pre : List Entry) (x : Entry) :
    Rules c' s' (predecessor saved h) used' pre x ↔ Rules c' s saved used (h ++ pre) x := by
  have hb : ∀ y, Before c'.prevStart (predecessor saved h) pre y ↔ Before c'.prevStart saved (h ++ pre) y := by
    intro y
    constructor
    · intro hb
      cases hb with
      | previous e => exact .previous _ (by rw [← predecessor_append]; exact e)
      | cluster e h1 h2 h3 => exact .cluster _ (by rw [← predecessor_append]; exact e) h1 h2 h3
    · intro hb
      cases hb with
      | previous e => exact .previous _ (by rw [predecessor_append]; exact e)
      | cluster e h1 h2 h3 => exact .cluster _ (by rw [predecessor_append]; exact e) h1 h2 h3
  have ho : ∀ v, Override s' pre v ↔ Override s (h ++ pre) v := by
    intro v
    unfold Override
    rw [a.chainNext]
    constructor
    · rintro ⟨rfl, h1, h2⟩
      split at h1
      · rename_i hc
        rcases hc with rfl | hc
        · exact ⟨rfl, h1, h2⟩
        · rw [hc] at h1; cases h1; exact absurd rfl h2
      · cases h1
    · rintro ⟨h0, h1, h2⟩
      obtain ⟨rfl, rfl⟩ := List.append_eq_nil_iff.mp h0
      exact ⟨rfl, by simp [h1], h2⟩
  have hf : FreshId used' pre x.2.receiptId ↔ FreshId used (h ++ pre) x.2.receiptId := by
    rw [← check_addAll, ← check_addAll, addAll_append, ← usedAfter_iff.mp hu]
  have hc : ∀ k, c'.key = some k → s'.counter + sold (pre ++ [x]) = s.counter + sold ((h ++ pre) ++ [x]) := by
    intro k e
    rw [a.counter, hk, e, List.append_assoc, sold_append h]
    simp [add_assoc]
  constructor
  · intro R
    refine ⟨R.auth, ?_, ?_, ?_, ?_, ?_, ?_, ?_, ?_⟩
    · rw [← restoreDue_append a]; exact R.restore
    · rw [← predecessor_append]; exact R.initial
    · intro y hy; exact R.same y ((hb y).mpr hy)
    · rintro ⟨y, hy⟩; exact hf.mp (R.fresh ⟨y, (hb y).mpr hy⟩)
    · intro v hv; exact R.chainOverride v ((ho v).mpr hv)
    · intro hn y hy
      exact R.chainBefore (fun ⟨v, hv⟩ => hn ⟨v, (ho v).mp hv⟩) y ((hb y).mpr hy)
    · intro hn hy
      exact R.chainFirst (fun ⟨v, hv⟩ => hn ⟨v, (ho v).mp hv⟩) (fun ⟨y, e⟩ => hy ⟨y, (hb y).mp e⟩)
    · intro k e ht
      obtain ⟨h1, h2, h3⟩ := R.counter k e ht
      exact ⟨h1, h2, by rw [← hc k e]; exact h3⟩
  · intro R
    refine ⟨R.auth, ?_, ?_, ?_, ?_, ?_, ?_, ?_, ?_⟩
    · rw [restoreDue_append a]; exact R.restore
    · rw [predecessor_append]; exact R.initial
    · intro y hy; exact R.same y ((hb y).mp hy)
    · rintro ⟨y, hy⟩; exact hf.mpr (R.fresh ⟨y, (hb y).mp hy⟩)
    · intro v hv; exact R.chainOverride v ((ho v).mp hv)
    · intro hn y hy
      exact R.chainBefore (fun ⟨v, hv⟩ => hn ⟨v, (ho v).mpr hv⟩) y ((hb y).mp hy)
    · intro hn hy
      exact R.chainFirst (fun ⟨v, hv⟩ => hn ⟨v, (ho v).mpr hv⟩) (fun ⟨y, e⟩ => hy ⟨y, (hb y).mpr e⟩)
    · intro k e ht
      obtain ⟨h1, h2, h3⟩ := R.counter k e ht
      exact ⟨h1, h2, by rw [hc k e]; exact h3⟩

/-- The state after two groups. -/
theorem after_append {c : GroupCtx} {s s₁ s₂ : RegState} {saved : Option Entry} {a b : List Entry}
    (ha : After c s saved a s₁) : After c s₁ (predecessor saved a) b s₂ ↔ After c s saved (a ++ b) s₂ := by
  have h1 : ∀ l, (b.getLast?.map (·.1)).or s₁.last = l ↔ ((a ++ b).getLast?.map (·.1)).or s.last = l := by
    intro l
    rw [ha.last, List.getLast?_append]
    cases b.getLast? <;> cases a.getLast? <;> simp
  have h2 : (if predecessor saved a = none ∧ b ≠ [] then b.head?.map (·.1) else s₁.start) =
      if saved = none ∧ a ++ b ≠ [] then (a ++ b).head?.map (·.1) else s.start := by
    rw [ha.start]
    cases a with
    | nil => simp [predecessor]
    | cons x a => simp [predecessor, List.getLast?_cons]
  have h3 : (if c.key = none then s₁.counter else s₁.counter + sold b) =
      if c.key = none then s.counter else s.counter + sold (a ++ b) := by
    rw [ha.counter, sold_append]
    by_cases hk : c.key = none <;> simp [hk, add_assoc]
  have h4 : (if b = [] ∨ s₁.chainNext = some [] then s₁.chainNext else none) =
      if a ++ b = [] ∨ s.chainNext = some [] then s.chainNext else none := by
    rw [ha.chainNext]
    cases a with
    | nil => simp
    | cons x a =>
      by_cases hc : s.chainNext = some [] <;> simp [hc]
  constructor
  · intro h
    exact ⟨((h1 _).mp h.last.symm).symm, h.start.trans h2, h.counter.trans h3,
      h.needRestore.trans (restoreDue_append ha b), h.chainNext.trans h4⟩
  · intro h
    exact ⟨((h1 _).mpr h.last.symm).symm, h.start.trans h2.symm, h.counter.trans h3.symm,
      h.needRestore.trans (restoreDue_append ha b).symm, h.chainNext.trans h4.symm⟩

/-- C83 for groups with their verifiers: they are accepted with a certain resulting state exactly if the receipts of all
groups together obey the rules and the state is the one described. -/
theorem groups_accepted_iff {key : Option Bytes} {ps : Option Str} {s s' : RegState} {used used' : Used}
    {P : List (List Bytes × Verifier)} (hP : Able P) (hne : P ≠ []) :
    verifyGroups key ps s used P = .ok (s', used') ↔
      ∃ saved h, Saved s saved ∧ ReadsAll P h ∧ DepRules key ps s saved used h ∧ DepAfter key s saved h s' ∧
        UsedAfter used (h.map (·.1)) used' := by
  have key' : ∀ (P : List (List Bytes × Verifier)) (s : RegState) (used : Used) (saved : Option Entry), Able P →
      Saved s saved → (verifyGroups key ps s used P = .ok (s', used') ↔ ∃ h, ReadsAll P h ∧
        DepRules key ps s saved used h ∧ DepAfter key s saved h s' ∧ UsedAfter used (h.map (·.1)) used') := by
    intro P
    induction P with
    | nil =>
      intro s used saved _ hs
      simp only [verifyGroups, Except.ok.injEq, Prod.mk.injEq]
      constructor
      · rintro ⟨rfl, rfl⟩
        refine ⟨[], ⟨rfl, by simp⟩, fun pre x v post e => by simp at e, ?_, usedAfter_iff.mpr rfl⟩
        refine ⟨by simp, by simp, by simp [sold], ?_, by simp⟩
        constructor
        · exact .saved
        · intro hd
          simp only [List.map_nil] at hd
          generalize e : ([] : List Entry) = l at hd
          cases hd with
          | saved h => exact h
          | late => simp at e
      · rintro ⟨h, ⟨h1, -⟩, -, ha, hu⟩
        have : h = [] := by simpa using h1.symm
        subst this
        refine ⟨?_, (usedAfter_iff.mp hu).symm⟩
        obtain ⟨st, la, co, ne, ch⟩ := s
        obtain ⟨st', la', co', ne', ch'⟩ := s'
        have b1 := ha.last
        have b2 := ha.start
        have b3 := ha.counter
        have b4 := ha.needRestore
        have b5 := ha.chainNext
        have b6 : RestoreDue ⟨st, la, co, ne, ch⟩ saved [] ↔ ne = true := by
          constructor
          · intro hd
            generalize e : ([] : List Entry) = l at hd
            cases hd with
            | saved h => exact h
            | late => simp at e
          · intro h; exact .saved h
        simp only [List.map_nil] at b4
        rw [b6] at b4
        simp [sold] at b1 b2 b3 b5
        simp only [RegState.mk.injEq]
        refine ⟨b2.symm, b1.symm, b3.symm, ?_, b5.symm⟩
        cases ne <;> cases ne' <;> simp_all
    | cons p P ih =>
      intro s used saved hP hs
      obtain ⟨g, v⟩ := p
      have hv := hP (g, v) (by simp)
      have hP' : Able P := fun p hp => hP p (by simp [hp])
      simp only [verifyGroups, Res.bind_eq_ok]
      constructor
      · rintro ⟨⟨s₁, u₁⟩, h1, h2⟩
        obtain ⟨saved', h, hs', hr, hall, ha, hu⟩ := (group_accepted_iff (c := ⟨v, key, ps⟩) hv).mp h1
        have := saved_unique hs' hs
        subst this
        obtain ⟨h', hr', hall', ha', hu'⟩ := (ih s₁ u₁ _ hP' (ha.saved hs hr.2)).mp h2
        refine ⟨h.map (·, v) ++ h', ⟨?_, ?_⟩, ?_, ?_, ?_⟩
        · rw [List.flatMap_cons, List.map_append, hr'.1, hr.1]
          simp [Function.comp_def]
        · intro y hy
          rcases List.mem_append.mp hy with hy | hy
          · obtain ⟨x, hx, rfl⟩ := List.mem_map.mp hy
            exact hr.2 x hx
          · exact hr'.2 y hy
        · intro pre x w post e
          rcases List.append_eq_append_iff.mp e with ⟨q, rfl, e2⟩ | ⟨q, e1, e2⟩
          · have := (rules_append (c := ⟨v, key, ps⟩) (c' := ⟨w, key, ps⟩) rfl ha hu _ _).mp (hall' q x w post e2)
            rw [List.map_append, List.map_map]
            simpa [Function.comp_def] using this
          · cases q with
            | nil =>
              simp only [List.append_nil] at e1
              have e3 : h' = [] ++ (x, w) :: post := by simpa using e2.symm
              have := (rules_append (c := ⟨v, key, ps⟩) (c' := ⟨w, key, ps⟩) rfl ha hu _ _).mp (hall' [] x w post e3)
              rw [← e1, List.map_map]
              simpa [Function.comp_def] using this
            | cons y q =>
              simp only [List.cons_append, List.cons.injEq] at e2
              obtain ⟨rfl, rfl⟩ := e2
              obtain ⟨a, b, rfl, ea, eb⟩ := List.map_eq_append_iff.mp e1
              obtain ⟨z, b', rfl, ez, -⟩ := List.map_eq_cons_iff.mp eb
              cases ez
              have := hall a x b' rfl
              rw [← ea, List.map_map]
              simpa [Function.comp_def] using this
        · unfold DepAfter at ha' ⊢
          rw [List.map_append, List.map_map]
          have := (after_append (After.congr (c := ⟨v, key, ps⟩) (c' := ⟨.fromKeyStore [], key, none⟩) rfl ha)).mp ha'
          simpa [Function.comp_def] using this
        · rw [usedAfter_iff, List.map_append, List.map_map, addAll_append, usedAfter_iff.mp hu', usedAfter_iff.mp hu]
          simp [Function.comp_def]
      · rintro ⟨H, ⟨hr1, hr2⟩, hall, ha, hu⟩
        rw [List.flatMap_cons] at hr1
        obtain ⟨H₁, H₂, rfl, e1, e2⟩ := List.map_eq_append_iff.mp hr1.symm
        have hH : H₁ = (H₁.map (·.1)).map (·, v) := by
          rw [List.map_map]
          refine (List.map_id' H₁).symm.trans (List.map_congr_left fun y hy => ?_)
          have : (utf8Enc y.1.1, y.2) ∈ g.map fun b => (b, v) := by rw [← e1]; exact List.mem_map_of_mem hy
          obtain ⟨b, -, eb⟩ := List.mem_map.mp this
          cases eb
          rfl
        have hr : Reads g (H₁.map (·.1)) := by
          refine ⟨?_, ?_⟩
          · have := congrArg (List.map Prod.fst) e1
            simpa [Function.comp_def] using this.symm
          · intro x hx
            obtain ⟨y, hy, rfl⟩ := List.mem_map.mp hx
            exact hr2 y (by simp [hy])
        obtain ⟨s₁, ha₁⟩ : ∃ s₁, After ⟨v, key, ps⟩ s saved (H₁.map (·.1)) s₁ := ⟨_, (after_iff (used := used)).mpr rfl⟩
        have hu₁ : UsedAfter used (H₁.map (·.1)) (addAll used (H₁.map (·.1))) := usedAfter_iff.mpr rfl
        refine ⟨(s₁, addAll used (H₁.map (·.1))), (group_accepted_iff (c := ⟨v, key, ps⟩) hv).mpr
          ⟨saved, H₁.map (·.1), hs, hr, ?_, ha₁, hu₁⟩, (ih _ _ _ hP' (ha₁.saved hs hr.2)).mpr
          ⟨H₂, ⟨e2.symm, fun y hy => hr2 y (by simp [hy])⟩, ?_, ?_, ?_⟩⟩
        · intro pre x post e
          have e' : H₁ = pre.map (·, v) ++ (x, v) :: post.map (·, v) := by rw [hH, e]; simp
          have := hall (pre.map (·, v)) x v (post.map (·, v) ++ H₂) (by rw [e']; simp)
          simpa [Function.comp_def] using this
        · intro pre x w post e
          rw [rules_append (c := ⟨v, key, ps⟩) (c' := ⟨w, key, ps⟩) rfl ha₁ hu₁, ← List.map_append]
          exact hall (H₁ ++ pre) x w post (by rw [e]; simp)
        · unfold DepAfter at ha ⊢
          rw [after_append (After.congr (c := ⟨v, key, ps⟩) (c' := ⟨.fromKeyStore [], key, none⟩) rfl ha₁), ← List.map_append]
          exact ha
        · rw [usedAfter_iff, ← addAll_append, ← List.map_append]
          exact usedAfter_iff.mp hu
  constructor
  · intro h
    have hsv : ∃ saved, Saved s saved := by
      cases P with
      | nil => exact absurd rfl hne
      | cons p P =>
        obtain ⟨g, v⟩ := p
        simp only [verifyGroups, Res.bind_eq_ok] at h
        obtain ⟨⟨s₁, u₁⟩, h1, -⟩ := h
        obtain ⟨saved, -, hs, -⟩ := (group_accepted_iff (c := ⟨v, key, ps⟩) (hP (g, v) (by simp))).mp h1
        exact ⟨saved, hs⟩
    obtain ⟨saved, hs⟩ := hsv
    obtain ⟨h', h2⟩ := (key' P s used saved hP hs).mp h
    exact ⟨saved, h', hs, h2⟩
  · rintro ⟨saved, h, hs, h2⟩
    exact (key' P s used saved hP hs).mpr ⟨h, h2⟩

theorem packageOne_verifier {ks : KeyStore} {g : DepGroup} {r : List Bytes} {v : Verifier} :
    packageOne ks g = .ok (r, v) ↔ r = g.recs ∧ VerifierFor ks g v := by
  obtain ⟨recs, cert, chain⟩ := g
  unfold packageOne
  cases cert with
  | none =>
    simp only [Except.ok.injEq, Prod.mk.injEq]
    constructor
    · rintro ⟨rfl, rfl⟩
      exact ⟨rfl, .store rfl⟩
    · rintro ⟨rfl, h⟩
      cases h with
      | store => exact ⟨rfl, rfl⟩
      | cert c h => cases h
  | some c =>
    simp only [Res.bind_eq_ok, Except.ok.injEq, Prod.mk.injEq]
    constructor
    · rintro ⟨_, hv, rfl, rfl⟩
      obtain ⟨i, d, hr, hs⟩ := (cert_trusted_iff ks c chain).mp hv
      exact ⟨rfl, .cert c rfl i d hr hs⟩
    · rintro ⟨rfl, h⟩
      cases h with
      | store h => cases h
      | cert c' h i d hr hs =>
        cases h
        exact ⟨(), (cert_trusted_iff ks c chain).mpr ⟨i, d, hr, hs⟩, rfl, rfl⟩

theorem readsAll_cons {g : List Bytes} {v : Verifier} {P : List (List Bytes × Verifier)} {H : List CheckedEntry} :
    ReadsAll ((g, v) :: P) H ↔ ∃ hg h, H = hg.map (fun x => (x, v)) ++ h ∧ Reads g hg ∧ ReadsAll P h := by
  constructor
  · rintro ⟨hr1, hr2⟩
    rw [List.flatMap_cons] at hr1
    obtain ⟨H₁, H₂, rfl, e1, e2⟩ := List.map_eq_append_iff.mp hr1.symm
    refine ⟨H₁.map (·.1), H₂, ?_, ⟨?_, ?_⟩, e2.symm, fun y hy => hr2 y (by simp [hy])⟩
    · congr 1
      rw [List.map_map]
      refine (List.map_id' H₁).symm.trans (List.map_congr_left fun y hy => ?_)
      have : (utf8Enc y.1.1, y.2) ∈ g.map fun b => (b, v) := by rw [← e1]; exact List.mem_map_of_mem hy
      obtain ⟨b, -, eb⟩ := List.mem_map.mp this
      cases eb
      rfl
    · have := congrArg (List.map Prod.fst) e1
      simpa [Function.comp_def] using this.symm
    · intro x hx
      obtain ⟨y, hy, rfl⟩ := List.mem_map.mp hx
      exact hr2 y (by simp [hy])
  · rintro ⟨hg, h, rfl, ⟨rfl, h1⟩, h2, h3⟩
    refine ⟨?_, ?_⟩
    · rw [List.flatMap_cons, h2]
      simp [Function.comp_def]
    · intro y hy
      rcases List.mem_append.mp hy with hy | hy
      · obtain ⟨x, hx, rfl⟩ := List.mem_map.mp hy
        exact h1 x hx
      · exact h3 y hy

theorem depReads_iff {ks : KeyStore} {gs : List DepGroup} {h : List CheckedEntry} :
    DepReads ks gs h ↔ ∃ P, mapRes (packageOne ks) gs = .ok P ∧ ReadsAll P h := by
  induction gs generalizing h with
  | nil =>
    simp only [mapRes, Except.ok.injEq, exists_eq_left']
    constructor
    · intro a
      cases a
      exact ⟨rfl, by simp⟩
    · rintro ⟨a, -⟩
      have : h = [] := by simpa using a.symm
      subst this
      exact .nil
  | cons g gs ih =>
    simp only [mapRes, Res.bind_eq_ok, Except.ok.injEq]
    constructor
    · intro a
      cases a with
      | cons _ v hg _ h hv hr ht =>
        obtain ⟨P, hP, hh⟩ := ih.mp ht
        exact ⟨_, ⟨_, packageOne_verifier.mpr ⟨rfl, hv⟩, P, hP, rfl⟩, readsAll_cons.mpr ⟨hg, h, rfl, hr, hh⟩⟩
    · rintro ⟨_, ⟨⟨r, v⟩, h1, P, hP, rfl⟩, hh⟩
      obtain ⟨rfl, hv⟩ := packageOne_verifier.mp h1
      obtain ⟨hg, h, rfl, hr, hh⟩ := readsAll_cons.mp hh
      exact .cons g v hg gs h hv hr (ih.mpr ⟨P, hP, hh⟩)

/-- C83: a DEP is accepted exactly if its receipts, in order and whatever groups they are in, obey the rules, each
with the verifier of its group; and the state afterwards is the one the rules give. -/
theorem dep_accepted_iff {doc : Json} {gs : List DepGroup} (hd : DepJson doc gs) (hsome : ∃ g ∈ gs, g.recs ≠ [])
    {ks : KeyStore} {key : Option Bytes} {c c' : Cluster} {idx : Option Int} :
    verifyDEP ks key c idx (dictParse 1 doc 0) = (c', .ok ()) ↔ DepAccepted ks key c idx (nonempty gs) c' := by
  have hflat : ((gs.filter fun g => g.recs ≠ []).map fun g => [g]).flatten = nonempty gs := by
    unfold nonempty
    generalize (gs.filter fun g => g.recs ≠ []) = l
    induction l with
    | nil => rfl
    | cons g l ih => simp [ih]
  have hne : nonempty gs ≠ [] := by
    obtain ⟨g, hg, hr⟩ := hsome
    exact List.ne_nil_of_mem (List.mem_filter.mpr ⟨hg, by simpa using hr⟩)
  rw [verifyDEP_iff, dict_chunks_zero hd (nparts := 1) (le_refl _) hsome]
  simp only [hflat, true_and]
  constructor
  · rintro ⟨c₁, ps, s, P, s', u', i, hi, hp, hv, hri, hidx, rfl⟩
    obtain ⟨hpk, hm⟩ := packageChunk_iff.mp hp
    have hP : P ≠ [] := by
      rintro rfl
      have := (mapRes_iff.mp hm).length_eq
      exact hne (List.length_eq_zero_iff.mp this)
    obtain ⟨saved, h, hs, hr, hall, ha, hu⟩ := (groups_accepted_iff (packageChunk_able hp) hP).mp hv
    exact .mk c₁ ps s s' u' i saved h hi hidx hs hpk (depReads_iff.mpr ⟨P, hm, hr⟩) hall ha hu
  · intro a
    cases a with
    | mk c₁ ps s s' u' i saved h hi hidx hs hpk hr hall ha hu =>
      obtain ⟨P, hm, hr⟩ := depReads_iff.mp hr
      have hp := packageChunk_iff.mpr ⟨hpk, hm⟩
      have hP : P ≠ [] := by
        rintro rfl
        have := (mapRes_iff.mp hm).length_eq
        exact hne (List.length_eq_zero_iff.mp this)
      refine ⟨c₁, ps, s, P, s', u', i, hi, hp, (groups_accepted_iff (packageChunk_able hp) hP).mpr
        ⟨saved, h, hs, hr, hall, ha, hu⟩, ?_, hidx, rfl⟩
      cases hi with
      | new _ h0 _ =>
        have : i = c.regs.length := by
          rcases hidx with e | ⟨-, e⟩
          · rcases h0 with h0 | h0
            · rw [h0] at e; cases e
            · rw [h0] at e; simpa using e.symm
          · exact e
        subst this
        simp
      | first _ h0 =>
        rcases hidx with e | ⟨e, -⟩
        · have : i = 0 := by simpa using e.symm
          subst this
          exact h0
        · cases e
      | later j p _ hp h0 =>
        rcases hidx with e | ⟨e, -⟩
        · have : i = j + 1 := by simp at e; omega
          subst this
          exact h0
        · cases e

theorem DepRules.at {key : Option Bytes} {ps : Option Str} {s : RegState} {saved : Option Entry} {used : Used}
    {h : List CheckedEntry} (hall : DepRules key ps s saved used h) {pre post : List Entry} {x : Entry}
    (e : h.map (·.1) = pre ++ x :: post) : ∃ v, (x, v) ∈ h ∧ Rules ⟨v, key, ps⟩ s saved used pre x := by
  obtain ⟨a, b, rfl, rfl, hb⟩ := List.map_eq_append_iff.mp e
  obtain ⟨⟨y, v⟩, b', rfl, rfl, -⟩ := List.map_eq_cons_iff.mp hb
  exact ⟨v, by simp, hall a y v b' rfl⟩

/-- C83: what holds for the receipts of an accepted DEP, seen as one sequence across its groups. -/
theorem dep_history {ks : KeyStore} {key : Option Bytes} {c c' : Cluster} {idx : Option Int} {gs : List DepGroup}
    (a : DepAccepted ks key c idx gs c') :
    ∃ c₁ ps s, Info c idx c₁ ps s ∧ ∃ h, DepReads ks gs h ∧
      -- each receipt is signed with the key the verifier of its group has for it, or marked as unsigned
      (∀ x v, (x, v) ∈ h → (¬Unsigned x.2 ∧ ∃ k, KeyFor v x.2 k ∧ SignatureValid x.2 k) ∨
        (Unsigned x.2 ∧ ¬WrongCert v x.2)) ∧
      -- each is chained to the exact text of the one before
      (∀ pre x y post, h.map (·.1) = pre ++ x :: y :: post → y.2.previousChain = chainValue x.1) ∧
      -- the IDs are unique
      (∀ ids, c.used = .unique ids → (h.map (·.1.2.receiptId)).Nodup) ∧
      -- with a key, each standard receipt has the old counter plus everything sold since
      (∀ k, key = some k → ∀ pre x post, h.map (·.1) = pre ++ x :: post → ¬Training x.2 → ¬Reversal x.2 →
        x.2.decryptTurnoverCounter k = .ok (s.counter + sold (pre ++ [x]))) ∧
      -- the first or second signed receipt after a failure is a signed zero receipt
      (∀ pre a b x post, h.map (·.1) = pre ++ a :: b :: x :: post → Unsigned a.2 → ¬Unsigned b.2 →
        ¬StandardNull b.2 → ¬Unsigned x.2 ∧ StandardNull x.2) ∧
      -- they are from one register and one kind of system, and time does not go backwards
      (∀ pre x mid y post, h.map (·.1) = pre ++ x :: (mid ++ y :: post) → x.2.registerId = y.2.registerId ∧
        (x.2.zda = c!"AT0" ↔ y.2.zda = c!"AT0") ∧ ¬Earlier y.2.dateTime x.2.dateTime) ∧
      -- a new register starts with a signed zero receipt
      ∀ x post, h.map (·.1) = x :: post → Blank s.last → ¬Unsigned x.2 ∧ StandardNull x.2 ∧
        (Blank s.chainNext → Blank ps → x.2.previousChain = chainValue x.2.registerId) := by
  cases a with
  | mk c₁ ps s s' u' i saved h hi hidx hs hpk hr hall ha hu =>
    have prev : ∀ pre x y post, h.map (·.1) = pre ++ x :: y :: post → ∃ v,
        Rules ⟨v, key, ps⟩ s saved c.used (pre ++ [x]) y ∧ Before ps saved (pre ++ [x]) x := by
      intro pre x y post e
      obtain ⟨v, -, R⟩ := hall.at (pre := pre ++ [x]) (x := y) (post := post) (by simp [e])
      exact ⟨v, R, .previous _ (predecessor_snoc saved pre x)⟩
    refine ⟨c₁, ps, s, hi, h, hr, ?_, ?_, ?_, ?_, ?_, ?_, ?_⟩
    · intro x v hx
      obtain ⟨pre, post, e⟩ := List.append_of_mem hx
      exact (hall pre x v post e).auth
    · intro pre x y post e
      obtain ⟨v, R, hb⟩ := prev pre x y post e
      refine R.chainBefore ?_ x hb
      rintro ⟨v, h1, -⟩
      simp at h1
    · intro ids hids
      have hf : ∀ pre x post, h.map (·.1) = pre ++ x :: post → ∀ y ∈ pre, y.2.receiptId ≠ x.2.receiptId := by
        intro pre x post e
        rcases List.eq_nil_or_concat pre with rfl | ⟨pre, z, rfl⟩
        · simp
        · obtain ⟨v, R, hb⟩ := prev pre z x post (by simpa using e)
          have := R.fresh ⟨_, hb⟩
          rw [hids] at this
          simpa using this.2
      have : h.map (·.1.2.receiptId) = (h.map (·.1)).map (·.2.receiptId) := by simp
      rw [this]
      generalize h.map (·.1) = H at hf
      induction H using List.reverseRecOn with
      | nil => simp
      | append_singleton l x ih =>
        rw [List.map_append, List.nodup_append]
        refine ⟨ih ?_, by simp, ?_⟩
        · intro pre y post e
          exact hf pre y (post ++ [x]) (by simp [e])
        · intro a ha b hb e
          simp only [List.map_cons, List.map_nil, List.mem_singleton] at hb
          obtain ⟨y, hy, rfl⟩ := List.mem_map.mp ha
          exact hf l x [] rfl y hy (e.trans hb)
    · intro k hk pre x post e h1 h2
      obtain ⟨v, -, R⟩ := hall.at e
      exact (R.counter k hk h1).2.2 h2
    · intro pre a b x post e h1 h2 h3
      obtain ⟨v, -, R⟩ := hall.at (pre := pre ++ [a] ++ [b]) (x := x) (post := post) (by simp [e])
      exact R.restore (restoreDue_snoc.mpr ⟨h2, h3, a, predecessor_snoc saved pre a, h1⟩)
    · have step : ∀ (mid : List Entry) (pre : List Entry) (x y : Entry) (post : List Entry),
          h.map (·.1) = pre ++ x :: (mid ++ y :: post) → x.2.registerId = y.2.registerId ∧
            (x.2.zda = c!"AT0" ↔ y.2.zda = c!"AT0") ∧ ¬Earlier y.2.dateTime x.2.dateTime := by
        intro mid
        induction mid with
        | nil =>
          intro pre x y post e
          obtain ⟨v, R, hb⟩ := prev pre x y post e
          exact R.same x hb
        | cons m mid ih =>
          intro pre x y post e
          obtain ⟨v, R, hb⟩ := prev pre x m _ e
          obtain ⟨h1, h2, h3⟩ := R.same x hb
          obtain ⟨k1, k2, k3⟩ := ih (pre ++ [x]) m y post (by simp [e])
          refine ⟨h1.trans k1, h2.trans k2, ?_⟩
          unfold Earlier at *
          omega
      exact fun pre x mid y post e => step mid pre x y post e
    · intro x post e hb
      have := hs.of_blank hb
      subst this
      obtain ⟨v, -, R⟩ := hall.at (pre := []) e
      obtain ⟨h1, h2, -⟩ := R.initial rfl
      refine ⟨h1, h2, fun hn hps => R.chainFirst ?_ ?_⟩
      · rintro ⟨v, -, h1, h2⟩
        rcases hn with hn | hn <;> rw [hn] at h1 <;> simp_all
      · rintro ⟨y, hy⟩
        cases hy with
        | previous h => cases h
        | cluster _ h1 h2 => rcases hps with h | h <;> rw [h] at h1 <;> simp_all

omit [PyEnv] in
theorem info_none {c c₁ : Cluster} {ps : Option Str} {s : RegState} :
    Info c none c₁ ps s ↔ Info c (some (c.regs.length : Int)) c₁ ps s := by
  constructor
  · intro h
    cases h with
    | new _ h hl => exact .new _ (.inr rfl) hl
  · intro h
    generalize e : some (c.regs.length : Int) = idx at h
    cases h with
    | new _ h hl => exact .new _ (.inl rfl) hl
    | first r h =>
      have : c.regs.length = 0 := by simpa using e
      have := (List.getElem?_eq_some_iff.mp h).1
      omega
    | later i p r hp h =>
      have : c.regs.length = i + 1 := by simp at e; omega
      have := (List.getElem?_eq_some_iff.mp h).1
      omega

theorem accepted_none {ks : KeyStore} {key : Option Bytes} {c c' : Cluster} {gs : List DepGroup} :
    DepAccepted ks key c none gs c' ↔ DepAccepted ks key c (some (c.regs.length : Int)) gs c' := by
  constructor
  · intro a
    cases a with
    | mk c₁ ps s s' u' i saved h hi hidx hs hpk hr hall ha hu =>
      refine .mk c₁ ps s s' u' i saved h (info_none.mp hi) ?_ hs hpk hr hall ha hu
      rcases hidx with e | ⟨-, rfl⟩
      · cases e
      · exact .inl rfl
  · intro a
    cases a with
    | mk c₁ ps s s' u' i saved h hi hidx hs hpk hr hall ha hu =>
      refine .mk c₁ ps s s' u' i saved h (info_none.mpr hi) ?_ hs hpk hr hall ha hu
      rcases hidx with e | ⟨e, -⟩
      · exact .inr ⟨rfl, by simpa using e.symm⟩
      · cases e

theorem accepted_index {ks : KeyStore} {key : Option Bytes} {c c' : Cluster} {n : Int} {gs : List DepGroup}
    (a : DepAccepted ks key c (some n) gs c') : ∃ i : Nat, n = i := by
  cases a with
  | mk c₁ ps s s' u' i saved h hi hidx =>
    rcases hidx with e | ⟨e, -⟩
    · exact ⟨i, Option.some.inj e⟩
    · cases e

/-- The register index of a run of the tool. -/
theorem accepted_select {ks : KeyStore} {key : Option Bytes} {c c' : Cluster} {gs : List DepGroup} {sel : Select} :
    DepAccepted ks key c (sel.index (some c)) gs c' ↔
      ∃ i : Nat, Selects c sel i ∧ DepAccepted ks key c (some (i : Int)) gs c' := by
  cases sel with
  | fresh =>
    simp only [Select.index, accepted_none]
    constructor
    · exact fun a => ⟨_, .fresh, a⟩
    · rintro ⟨i, h, a⟩
      cases h
      exact a
  | last =>
    simp only [Select.index]
    constructor
    · intro a
      obtain ⟨i, e⟩ := accepted_index a
      rw [e] at a
      exact ⟨i, .last i (by omega), a⟩
    · rintro ⟨i, h, a⟩
      cases h with
      | last _ h =>
        have : (c.regs.length : Int) - 1 = i := by omega
        rw [this]
        exact a
  | nth n =>
    simp only [Select.index]
    constructor
    · intro a
      obtain ⟨i, rfl⟩ := accepted_index a
      exact ⟨i, .nth i, a⟩
    · rintro ⟨i, h, a⟩
      cases h
      exact a

/-- C83 for `verify.py`: in every mode, a DEP is accepted against a saved state exactly if its receipts obey the
rules for the register selected, and the state written is the one the rules give. -/
theorem verify_tool_rules {m : Mode} {dep : Json} (hm : GoodMode m dep) (hd : GoodDoc dep) {gs : List DepGroup}
    (hj : DepJson dep gs) (hsome : ∃ g ∈ gs, g.recs ≠ []) {backend : Used} {sel : Select} {store : Json}
    {j : Json} {c : Cluster} (hc : Cluster.fromJson j = .ok c) (hset : Settled c) {out : Option Json} :
    verifyTool backend m sel store dep (some j) = .ok out ↔
      ∃ key ks c', loadKeyFromJson store = .ok key ∧ readStoreFromJson store = .ok ks ∧
        (∃ i : Nat, Selects c sel i ∧ DepAccepted ks key c (some (i : Int)) (nonempty gs) c') ∧
        out = some (c'.toJson m.order) := by
  rw [verifyTool_some hm hd hc hset]
  simp only [dep_accepted_iff hj hsome, accepted_select]

/-- C83 for `verify.py` without a state. -/
theorem verify_tool_rules_new {m : Mode} {dep : Json} (hm : GoodMode m dep) (hd : GoodDoc dep) {gs : List DepGroup}
    (hj : DepJson dep gs) (hsome : ∃ g ∈ gs, g.recs ≠ []) {backend : Used} {sel : Select}
    (hsel : sel = .fresh ∨ sel = .last ∨ sel = .nth 0) {store : Json} :
    verifyTool backend.fresh m sel store dep none = .ok none ↔
      ∃ key ks c', loadKeyFromJson store = .ok key ∧ readStoreFromJson store = .ok ks ∧
        DepAccepted ks key ⟨[], backend.fresh⟩ none (nonempty gs) c' := by
  rw [verifyTool_none hm hd]
  simp only [dep_accepted_iff hj hsome, true_and]
  have e : ∀ {ks key c'}, DepAccepted ks key ⟨[], backend.fresh⟩ (sel.index none) (nonempty gs) c' ↔
      DepAccepted ks key ⟨[], backend.fresh⟩ none (nonempty gs) c' := by
    intro ks key c'
    rcases hsel with rfl | rfl | rfl
    · rfl
    · rfl
    · rw [accepted_none]
      rfl
  simp only [e]

end

namespace Demo

attribute [local instance] env

set_option maxRecDepth 100000 in
/-- The day of the register in a DEP with two groups. -/
theorem dep_day_accepted : DepAccepted deviceStore (some aes) empty none dayGroups ⟨[final], .unique ids⟩ := by
  have h : nonempty dayGroups = dayGroups := by decide +kernel
  rw [← h]
  exact (dep_accepted_iff dayDoc_json ⟨dayGroups[0], by simp [dayGroups], by decide +kernel⟩).mp
    (eq_of_isDone (by decide +kernel))

end Demo

end RKSV
