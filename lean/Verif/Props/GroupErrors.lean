import Verif.Lemmas.GroupErrors
import Verif.Spec.DepErrors
import Verif.Props.DepRules
/-
Property C92: which exception is reported.
-/
namespace RKSV

section
variable [PyEnv]

/-- C92 for a single receipt: the rules (C31) are obeyed exactly if no fault is present. -/
theorem faultless_iff {c : GroupCtx} (hv : c.verifier.cert ≠ none ∨ c.verifier.keyStore ≠ none)
    {s : RegState} {saved : Option Entry} (hs : Saved s saved) {used : Used} {pre : List Entry}
    (hpre : ∀ x ∈ pre, x.Valid) {x : Entry} (hx : x.Valid) :
    Rules c s saved used pre x ↔ ∀ e, ¬FirstOf (faults c s saved used pre x) e := by
  have h1 := stepGroup_stage hv hs hpre hx (used := used)
  have h2 := fun l' => stepGroup_iff hv hs hpre (used := used) (b := utf8Enc x.1) (l' := l')
  constructor
  · intro hR e he
    have := (h1 e).mpr he
    rw [(h2 _).mpr ⟨x, rfl, hx, hR, rfl⟩] at this
    cases this
  · intro h
    cases hr : stepGroup c (loopAfter c s saved used pre) (utf8Enc x.1) with
    | ok l' =>
      obtain ⟨y, e, hy, hR, -⟩ := (h2 l').mp hr
      cases hx.unique hy (utf8Enc_injective e)
      exact hR
    | error e => exact absurd ((h1 e).mp hr) (h e)

/-- C92: the exception raised for a group is the one for the first fault of the first receipt that
breaks the rules. -/
theorem group_refused_iff {c : GroupCtx} (hv : c.verifier.cert ≠ none ∨ c.verifier.keyStore ≠ none)
    {s : RegState} {used : Used} {g : List Bytes} {e : Err} :
    verifyGroup c s used g = .error e ↔ GroupRefused c s used g e := by
  unfold verifyGroup
  simp only [Res.bind_eq_error, reduceCtorEq, and_false, exists_false, or_false]
  constructor
  · rintro (h | ⟨o, ho, h⟩)
    · rcases hl : s.last with _ | _ | ⟨a, t⟩
      · rw [hl] at h; cases h
      · rw [hl] at h; cases h
      · rw [hl] at h
        refine .state (a :: t) e hl (by simp) ?_
        simp only [loadLast] at h
        cases hj : fromJWS (a :: t) with
        | ok y => rw [hj] at h; cases h
        | error e' => rw [hj] at h; cases h; rfl
    · obtain ⟨saved, hs, rfl⟩ := loadLast_iff.mp ho
      rw [← loopAfter_nil (c := c) (used := used)] at h
      obtain ⟨a, h', b, post, rfl, hr, hall, href⟩ := (runGroup_error_iff hv hs (by simp)).mp h
      exact .receipt saved a h' b post e hs rfl hr (fun p x q e => by simpa using hall p x q e)
        (by simpa using href)
  · intro h
    cases h with
    | state t _ hl hn h =>
      left
      rcases t with _ | ⟨a, t⟩
      · exact absurd rfl hn
      · rw [hl]
        simp only [loadLast]
        rw [h]; rfl
    | receipt saved a pre b post _ hs hg hr hok h =>
      refine .inr ⟨_, loadLast_iff.mpr ⟨saved, hs, rfl⟩, ?_⟩
      rw [← loopAfter_nil (c := c) (used := used)]
      exact (runGroup_error_iff hv hs (by simp)).mpr ⟨a, pre, b, post, hg, hr,
        fun p x q e => by simpa using hok p x q e, by simpa using h⟩

/-- The variables of the loop when a group follows another. -/
theorem loopAfter_append {c c' : GroupCtx} (hk : c.key = c'.key) {s s' : RegState}
    {saved : Option Entry} {used used' : Used} {h : List Entry} (a : After c s saved h s')
    (hu : UsedAfter used h used') (pre : List Entry) :
    loopAfter c' s' (predecessor saved h) used' pre =
      { loopAfter c' s saved used (h ++ pre) with
        state := { (loopAfter c' s saved used (h ++ pre)).state with last := s'.last } } := by
  classical
  have ha : After c' s saved h s' := a.congr hk
  obtain ⟨s'', h2⟩ : ∃ s'', After c' s' (predecessor saved h) pre s'' :=
    ⟨_, (after_iff (used := used')).mpr rfl⟩
  have h3 := (after_append ha).mp h2
  have e2 := (after_iff (used := used')).mp h2
  have e3 := (after_iff (used := used)).mp h3
  rw [e2] at e3
  simp only [RegState.mk.injEq] at e3
  obtain ⟨e31, e32, e33, e34, e35⟩ := e3
  have hst : (loopAfter c' s' (predecessor saved h) used' pre).state =
      { (loopAfter c' s saved used (h ++ pre)).state with last := s'.last } := by
    rw [RegState.mk.injEq]
    exact ⟨e31, rfl, e33, e34, e35⟩
  have hus : (loopAfter c' s' (predecessor saved h) used' pre).used =
      (loopAfter c' s saved used (h ++ pre)).used := by
    simp only [loopAfter]
    rw [addAll_append, ← usedAfter_iff.mp hu]
  have hpo : (loopAfter c' s' (predecessor saved h) used' pre).prevObj =
      (loopAfter c' s saved used (h ++ pre)).prevObj := by
    simp only [loopAfter]
    rw [predecessor_append]
  calc loopAfter c' s' (predecessor saved h) used' pre
      = ⟨(loopAfter c' s' (predecessor saved h) used' pre).state,
          (loopAfter c' s' (predecessor saved h) used' pre).used,
          (loopAfter c' s' (predecessor saved h) used' pre).prev,
          (loopAfter c' s' (predecessor saved h) used' pre).prevObj⟩ := rfl
    _ = _ := by rw [hst, hus, e32, hpo]

/-- What is wrong with a receipt of a later group. -/
theorem refused_append {c c' : GroupCtx} (hk : c.key = c'.key)
    (hv : c'.verifier.cert ≠ none ∨ c'.verifier.keyStore ≠ none) {s s' : RegState}
    {saved : Option Entry} (hs : Saved s saved) {used used' : Used} {h : List Entry}
    (hh : ∀ x ∈ h, x.Valid) (a : After c s saved h s') (hu : UsedAfter used h used')
    {pre : List Entry} (hpre : ∀ x ∈ pre, x.Valid) {b : Bytes} {e : Err} :
    Refused c' s' (predecessor saved h) used' pre b e ↔ Refused c' s saved used (h ++ pre) b e := by
  have hs' : Saved s' (predecessor saved h) := a.saved hs hh
  rw [← stepGroup_error_iff hv hs' hpre, ← stepGroup_error_iff hv hs (by
    intro x hx
    rcases List.mem_append.mp hx with hx | hx
    · exact hh x hx
    · exact hpre x hx), loopAfter_append hk a hu, stepGroup_last]
  cases stepGroup c' (loopAfter c' s saved used (h ++ pre)) b <;> simp [Except.map]

/-- The exception for a group after others. -/
theorem later_group_iff {key : Option Bytes} {ps : Option Str} {v : Verifier}
    (hv : v.cert ≠ none ∨ v.keyStore ≠ none) {s s' : RegState} {saved : Option Entry}
    (hs : Saved s saved) {used used' : Used} {h : List CheckedEntry} (hh : ∀ y ∈ h, y.1.Valid)
    (hok : DepRules key ps s saved used h) (ha : DepAfter key s saved h s')
    (hu : UsedAfter used (h.map (·.1)) used') {g : List Bytes} {e : Err} :
    verifyGroup { verifier := v, key, prevStart := ps } s' used' g = .error e ↔
      ∃ a b post ha, g = a ++ b :: post ∧ Reads a ha ∧
        DepRules key ps s saved used (h ++ ha.map (fun x => (x, v))) ∧
        Refused { verifier := v, key, prevStart := ps } s saved used (h.map (·.1) ++ ha) b e := by
  have hh' : ∀ x ∈ h.map (·.1), x.Valid := by
    intro x hx
    obtain ⟨y, hy, rfl⟩ := List.mem_map.mp hx
    exact hh y hy
  have hs' : Saved s' (predecessor saved (h.map (·.1))) := After.saved ha hs hh'
  have hrules : ∀ ha : List Entry, DepRules key ps s saved used (h ++ ha.map (fun x => (x, v))) ↔
      AllRules { verifier := v, key, prevStart := ps } s' (predecessor saved (h.map (·.1))) used' ha := by
    intro H
    constructor
    · intro hd pre x post e
      rw [rules_append (c := { verifier := .fromKeyStore [], key, prevStart := none })
        (c' := { verifier := v, key, prevStart := ps }) rfl ha hu]
      have := hd (h ++ pre.map (fun x => (x, v))) x v (post.map (fun x => (x, v))) (by simp [e])
      simpa [Function.comp_def] using this
    · intro hd pre x w post e
      rcases List.append_eq_append_iff.mp e with ⟨q, rfl, e2⟩ | ⟨q, e1, e2⟩
      · obtain ⟨a, b, rfl, ea, eb⟩ := List.map_eq_append_iff.mp e2
        obtain ⟨z, b', rfl, ez, -⟩ := List.map_eq_cons_iff.mp eb
        cases ez
        have := hd a x b' rfl
        rw [rules_append (c := { verifier := .fromKeyStore [], key, prevStart := none })
        (c' := { verifier := v, key, prevStart := ps }) rfl ha hu] at this
        rw [← ea]
        simpa [Function.comp_def] using this
      · cases q with
        | nil =>
          simp only [List.append_nil] at e1
          subst e1
          simp only [List.nil_append] at e2
          obtain ⟨z, b', rfl, ez, -⟩ := List.map_eq_cons_iff.mp e2.symm
          cases ez
          have := hd [] x b' rfl
          rw [rules_append (c := { verifier := .fromKeyStore [], key, prevStart := none })
        (c' := { verifier := v, key, prevStart := ps }) rfl ha hu] at this
          simpa using this
        | cons y q =>
          simp only [List.cons_append, List.cons.injEq] at e2
          obtain ⟨rfl, -⟩ := e2
          exact hok pre x w q e1
  rw [group_refused_iff (c := { verifier := v, key, prevStart := ps }) hv]
  constructor
  · intro h'
    cases h' with
    | state t _ hl hn hj =>
      exfalso
      generalize predecessor saved (h.map (·.1)) = o at hs'
      cases hs' with
      | none h =>
        rcases h with h | h
        · rw [h] at hl; cases hl
        · rw [h] at hl; cases hl; exact hn rfl
      | some x h1 h2 h3 =>
        rw [h1] at hl; cases hl
        have h3 : fromJWS x.1 = .ok (x.2, c!"R1") := h3
        rw [h3] at hj; cases hj
    | receipt saved' a pre b post _ hsv hg hr hall href =>
      cases saved_unique hsv hs'
      exact ⟨a, b, post, pre, hg, hr, (hrules pre).mpr hall, (refused_append
        (c := { verifier := .fromKeyStore [], key, prevStart := none })
        (c' := { verifier := v, key, prevStart := ps }) rfl hv hs hh' ha hu hr.2).mp href⟩
  · rintro ⟨a, b, post, pre, hg, hr, hall, href⟩
    exact .receipt _ a pre b post e hs' hg hr ((hrules pre).mp hall) ((refused_append
        (c := { verifier := .fromKeyStore [], key, prevStart := none })
        (c' := { verifier := v, key, prevStart := ps }) rfl hv hs hh' ha hu hr.2).mpr href)

/-- The exceptions of the loop over the groups that follow one with a certificate. -/
theorem runDEP_false_error {ks : KeyStore} {key : Option Bytes} {ps : Option Str} {e : Err}
    {gs : List DepGroup} {s : RegState} {used : Used} :
    runDEP ks key ps (some false) s used gs = .error e ↔
      ∃ A g B P s' u', gs = A ++ g :: B ∧ (∀ a ∈ A, a.cert ≠ none) ∧
        mapRes (packageOne ks) A = .ok P ∧ verifyGroups key ps s used P = .ok (s', u') ∧
        (g.cert = none ∧ e = .noCertificateGiven ∨ ∃ c, g.cert = some c ∧
          (verifyCert ks c g.chain = .error e ∨ verifyCert ks c g.chain = .ok () ∧
            verifyGroup ⟨.fromCert c, key, ps⟩ s' u' g.recs = .error e)) := by
  induction gs generalizing s used with
  | nil => simp [runDEP]
  | cons g gs ih =>
    obtain ⟨recs, cert, chain⟩ := g
    cases cert with
    | none =>
      simp only [runDEP, Res.bind_eq_error, ensure_eq_error, ensure_eq_ok]
      constructor
      · rintro (h | ⟨_, _, h | ⟨_, h, _⟩⟩)
        · exact absurd h.1 (by simp)
        · exact ⟨[], _, gs, [], s, used, rfl, by simp, rfl, rfl, .inl ⟨rfl, h.2.symm⟩⟩
        · exact absurd rfl h
      · rintro ⟨A, g', B, P, s', u', e1, hA, hP, hv, h⟩
        rcases A with _ | ⟨a, A⟩
        · cases e1
          rcases h with ⟨-, rfl⟩ | ⟨c, h, -⟩
          · exact .inr ⟨(), by simp, .inl ⟨by simp, rfl⟩⟩
          · cases h
        · cases e1
          exact absurd rfl (hA _ List.mem_cons_self)
    | some c =>
      simp only [runDEP, Res.bind_eq_error, ensure_eq_error, ensure_eq_ok, ih]
      constructor
      · rintro (h | ⟨_, _, h | ⟨_, hc, h | ⟨⟨s1, u1⟩, h1, A, g', B, P, s', u', rfl, hA, hP, hv, h⟩⟩⟩)
        · exact absurd h.1 (by simp)
        · exact ⟨[], _, gs, [], s, used, rfl, by simp, rfl, rfl, .inr ⟨c, rfl, .inl h⟩⟩
        · exact ⟨[], _, gs, [], s, used, rfl, by simp, rfl, rfl, .inr ⟨c, rfl, .inr ⟨hc, h⟩⟩⟩
        · refine ⟨⟨recs, some c, chain⟩ :: A, g', B, (recs, .fromCert c) :: P, s', u', rfl, ?_, ?_, ?_, h⟩
          · intro a ha
            rcases List.mem_cons.mp ha with rfl | ha
            · simp
            · exact hA a ha
          · simp only [mapRes, packageOne, Res.bind_eq_ok, Except.ok.injEq]
            exact ⟨_, ⟨_, hc, rfl⟩, P, hP, rfl⟩
          · simp only [verifyGroups, Res.bind_eq_ok]
            exact ⟨_, h1, hv⟩
      · rintro ⟨A, g', B, P, s', u', e1, hA, hP, hv, h⟩
        refine .inr ⟨(), by simp, ?_⟩
        rcases A with _ | ⟨a, A⟩
        · cases e1
          cases hP
          cases hv
          rcases h with ⟨h, -⟩ | ⟨c', hc', h | ⟨h, h'⟩⟩
          · cases h
          · cases hc'
            exact .inl h
          · cases hc'
            exact .inr ⟨(), h, .inl h'⟩
        · simp only [List.cons_append, List.cons.injEq] at e1
          obtain ⟨rfl, rfl⟩ := e1
          simp only [mapRes, packageOne, Res.bind_eq_ok, Except.ok.injEq] at hP
          obtain ⟨_, ⟨_, hc, rfl⟩, P, hP, rfl⟩ := hP
          simp only [verifyGroups, Res.bind_eq_ok] at hv
          obtain ⟨⟨s1, u1⟩, h1, hv⟩ := hv
          exact .inr ⟨(), hc, .inr ⟨(s1, u1), h1, A, g', B, P, s', u', rfl,
            fun a ha => hA a (by simp [ha]), hP, hv, h⟩⟩

theorem packageOne_able {ks : KeyStore} {g : DepGroup} {p : List Bytes × Verifier}
    (h : packageOne ks g = .ok p) : p.2.cert ≠ none ∨ p.2.keyStore ≠ none := by
  obtain ⟨r, v⟩ := p
  cases (packageOne_verifier.mp h).2 with
  | store => exact .inr (by simp [Verifier.fromKeyStore])
  | cert => exact .inl (by simp [Verifier.fromCert])

/-- The exceptions of the loop over all groups. -/
theorem runDEP_error {ks : KeyStore} {key : Option Bytes} {ps : Option Str} {e : Err}
    {gs : List DepGroup} {s : RegState} {used : Used} :
    runDEP ks key ps none s used gs = .error e ↔
      ∃ A g B P s' u', gs = A ++ g :: B ∧ mapRes (packageOne ks) A = .ok P ∧
        verifyGroups key ps s used P = .ok (s', u') ∧
        (A ≠ [] ∧ ((∀ a ∈ A, a.cert ≠ none) ∧ g.cert = none ∨ ∃ a, A = [a] ∧ a.cert = none) ∧
            e = .noCertificateGiven ∨
          (∀ a ∈ A, a.cert ≠ none) ∧ (∃ c, g.cert = some c ∧ verifyCert ks c g.chain = .error e) ∨
          (A = [] ∨ ∀ x ∈ A ++ [g], x.cert ≠ none) ∧ ∃ v, packageOne ks g = .ok (g.recs, v) ∧
            verifyGroup ⟨v, key, ps⟩ s' u' g.recs = .error e) := by
  rcases gs with _ | ⟨g, gs⟩
  · simp [runDEP]
  obtain ⟨recs, cert, chain⟩ := g
  cases cert with
  | none =>
    simp only [runDEP, Res.bind_eq_error, ensure_eq_error, ensure_eq_ok]
    constructor
    · rintro (h | ⟨_, _, h | ⟨_, _, h | ⟨⟨s1, u1⟩, h1, h⟩⟩⟩)
      · exact absurd h.1 (by simp)
      · exact absurd h.1 (by simp)
      · exact ⟨[], _, gs, [], s, used, rfl, rfl, rfl, .inr (.inr ⟨.inl rfl, _, rfl, h⟩)⟩
      · rcases gs with _ | ⟨g', gs⟩
        · cases h
        · have he : e = .noCertificateGiven := by
            simp only [runDEP, Res.bind_eq_error, ensure_eq_error, ensure_eq_ok] at h
            rcases h with h | ⟨_, h, _⟩
            · exact h.2.symm
            · exact absurd rfl h
          refine ⟨[_], g', gs, [(recs, .fromKeyStore ks)], s1, u1, rfl, rfl, ?_,
            .inl ⟨by simp, .inr ⟨_, rfl, rfl⟩, he⟩⟩
          simp only [verifyGroups, Res.bind_eq_ok]
          exact ⟨_, h1, rfl⟩
    · rintro ⟨A, g', B, P, s', u', e1, hP, hv, h⟩
      refine .inr ⟨(), by simp, .inr ⟨(), by simp, ?_⟩⟩
      rcases A with _ | ⟨a, A⟩
      · cases e1
        cases hP
        cases hv
        rcases h with ⟨h, -⟩ | ⟨-, c, h, -⟩ | ⟨-, v, hpk, h⟩
        · exact absurd rfl h
        · cases h
        · cases hpk
          exact .inl h
      · simp only [List.cons_append, List.cons.injEq] at e1
        obtain ⟨rfl, rfl⟩ := e1
        rcases h with ⟨-, h, rfl⟩ | ⟨h, -⟩ | ⟨h, -⟩
        · obtain rfl : A = [] := by
            rcases h with h | ⟨a, h, -⟩
            · exact absurd rfl (h.1 _ List.mem_cons_self)
            · cases h; rfl
          cases hP
          simp only [verifyGroups, Res.bind_eq_ok, Except.ok.injEq] at hv
          obtain ⟨⟨s1, u1⟩, h1, -⟩ := hv
          refine .inr ⟨(s1, u1), h1, ?_⟩
          simp only [List.nil_append, runDEP, Res.bind_eq_error, ensure_eq_error]
          exact .inl ⟨by simp, trivial⟩
        · exact absurd rfl (h _ List.mem_cons_self)
        · rcases h with h | h
          · cases h
          · exact absurd rfl (h _ List.mem_cons_self)
  | some c =>
    simp only [runDEP, Res.bind_eq_error, ensure_eq_error, ensure_eq_ok, runDEP_false_error]
    constructor
    · rintro (h | ⟨_, _, h | ⟨_, hc, h | ⟨⟨s1, u1⟩, h1, A, g', B, P, s', u', rfl, hA, hP, hv, h⟩⟩⟩)
      · exact absurd h.1 (by simp)
      · exact ⟨[], _, gs, [], s, used, rfl, rfl, rfl, .inr (.inl ⟨by simp, c, rfl, h⟩)⟩
      · refine ⟨[], _, gs, [], s, used, rfl, rfl, rfl, .inr (.inr ⟨.inl rfl, .fromCert c, ?_, h⟩)⟩
        simp only [packageOne, Res.bind_eq_ok]
        exact ⟨_, hc, trivial⟩
      · have hA' : ∀ a ∈ (⟨recs, some c, chain⟩ : DepGroup) :: A, a.cert ≠ none := by
          intro a ha
          rcases List.mem_cons.mp ha with rfl | ha
          · simp
          · exact hA a ha
        refine ⟨⟨recs, some c, chain⟩ :: A, g', B, (recs, .fromCert c) :: P, s', u', rfl, ?_, ?_, ?_⟩
        · simp only [mapRes, packageOne, Res.bind_eq_ok, Except.ok.injEq]
          exact ⟨_, ⟨_, hc, rfl⟩, P, hP, rfl⟩
        · simp only [verifyGroups, Res.bind_eq_ok]
          exact ⟨_, h1, hv⟩
        · rcases h with ⟨h, rfl⟩ | ⟨c', hc', h | ⟨h, h'⟩⟩
          · exact .inl ⟨by simp, .inl ⟨hA', h⟩, rfl⟩
          · exact .inr (.inl ⟨hA', c', hc', h⟩)
          · refine .inr (.inr ⟨.inr ?_, .fromCert c', ?_, h'⟩)
            · intro x hx
              rcases List.mem_append.mp hx with hx | hx
              · exact hA' x hx
              · rw [List.mem_singleton.mp hx, hc']; simp
            · simp only [packageOne, hc', Res.bind_eq_ok]
              exact ⟨_, h, trivial⟩
    · rintro ⟨A, g', B, P, s', u', e1, hP, hv, h⟩
      refine .inr ⟨(), by simp, ?_⟩
      have key' : ∀ {v}, packageOne ks g' = .ok (g'.recs, v) → ∀ c', g'.cert = some c' →
          verifyCert ks c' g'.chain = .ok () ∧ v = .fromCert c' := by
        intro v hpk c' hc'
        simp only [packageOne, hc', Res.bind_eq_ok, Except.ok.injEq, Prod.mk.injEq] at hpk
        obtain ⟨_, h1, -, h2⟩ := hpk
        exact ⟨h1, h2.symm⟩
      rcases A with _ | ⟨a, A⟩
      · cases e1
        cases hP
        cases hv
        rcases h with ⟨h, -⟩ | ⟨-, c', h, h'⟩ | ⟨-, v, hpk, h⟩
        · exact absurd rfl h
        · cases h
          exact .inl h'
        · obtain ⟨h1, rfl⟩ := key' hpk c rfl
          exact .inr ⟨(), h1, .inl h⟩
      · simp only [List.cons_append, List.cons.injEq] at e1
        obtain ⟨rfl, rfl⟩ := e1
        simp only [mapRes, packageOne, Res.bind_eq_ok, Except.ok.injEq] at hP
        obtain ⟨_, ⟨_, hc, rfl⟩, P, hP, rfl⟩ := hP
        simp only [verifyGroups, Res.bind_eq_ok] at hv
        obtain ⟨⟨s1, u1⟩, h1, hv⟩ := hv
        have hsub : ∀ {q : DepGroup → Prop}, (∀ a ∈ (⟨recs, some c, chain⟩ : DepGroup) :: A, q a) →
            ∀ a ∈ A, q a := fun h a ha => h a (by simp [ha])
        refine .inr ⟨(), hc, .inr ⟨(s1, u1), h1, A, g', B, P, s', u', rfl, ?_, hP, hv, ?_⟩⟩
        · rcases h with ⟨-, ⟨h, -⟩ | ⟨a, h, h'⟩, -⟩ | ⟨h, -⟩ | ⟨h, -⟩
          · exact hsub h
          · cases h; cases h'
          · exact hsub h
          · rcases h with h | h
            · cases h
            · exact fun a ha => h a (by simp [ha])
        · rcases h with ⟨-, ⟨-, h⟩ | ⟨a, h, h'⟩, rfl⟩ | ⟨-, c', h, h'⟩ | ⟨h, v, hpk, h'⟩
          · exact .inl ⟨h, rfl⟩
          · cases h; cases h'
          · exact .inr ⟨c', h, .inl h'⟩
          · have hne : g'.cert ≠ none := by
              rcases h with h | h
              · cases h
              · exact h g' (by simp)
            obtain ⟨c', hc'⟩ := Option.ne_none_iff_exists'.mp hne
            obtain ⟨h2, rfl⟩ := key' hpk c' hc'
            exact .inr ⟨c', hc', .inr ⟨h2, h'⟩⟩

/-- C92 for the loop over the groups of a DEP. -/
theorem runDEP_error_iff {ks : KeyStore} {key : Option Bytes} {ps : Option Str} {e : Err}
    {gs : List DepGroup} {s : RegState} {used : Used} :
    runDEP ks key ps none s used gs = .error e ↔ DepRefused ks key ps s used gs e := by
  rw [runDEP_error]
  have able : ∀ {A : List DepGroup} {P}, mapRes (packageOne ks) A = .ok P → Able P := by
    intro A P hP p hp
    obtain ⟨g, -, hg⟩ := forall₂_mem_right (mapRes_iff.mp hP) hp
    exact packageOne_able hg
  have ne : ∀ {A : List DepGroup} {P}, mapRes (packageOne ks) A = .ok P → (A ≠ [] ↔ P ≠ []) := by
    intro A P hP
    have := (mapRes_iff.mp hP).length_eq
    rw [← List.length_pos_iff_ne_nil, ← List.length_pos_iff_ne_nil, this]
  have valid : ∀ {P h}, ReadsAll P h → ∀ y ∈ h, y.1.Valid := fun h => h.2
  -- the groups before
  have before : ∀ {A : List DepGroup} {P s' u'}, A ≠ [] → mapRes (packageOne ks) A = .ok P →
      verifyGroups key ps s used P = .ok (s', u') → ∃ saved h, Saved s saved ∧ DepReads ks A h ∧
        (∀ y ∈ h, y.1.Valid) ∧ DepRules key ps s saved used h ∧ DepAfter key s saved h s' ∧
        UsedAfter used (h.map (·.1)) u' := by
    intro A P s' u' hA hP hv
    obtain ⟨saved, h, hs, hr, hok, ha, hu⟩ := (groups_accepted_iff (able hP) ((ne hP).mp hA)).mp hv
    exact ⟨saved, h, hs, depReads_iff.mpr ⟨P, hP, hr⟩, hr.2, hok, ha, hu⟩
  have after : ∀ {A : List DepGroup} {saved h}, A ≠ [] → Saved s saved → DepReads ks A h →
      DepRules key ps s saved used h → ∃ P s' u', mapRes (packageOne ks) A = .ok P ∧
        verifyGroups key ps s used P = .ok (s', u') ∧ (∀ y ∈ h, y.1.Valid) ∧
        DepAfter key s saved h s' ∧ UsedAfter used (h.map (·.1)) u' := by
    intro A saved h hA hs hr hok
    obtain ⟨P, hP, hr⟩ := depReads_iff.mp hr
    obtain ⟨s', ha⟩ : ∃ s', DepAfter key s saved h s' := ⟨_, (after_iff (used := used)).mpr rfl⟩
    have hu : UsedAfter used (h.map (·.1)) (addAll used (h.map (·.1))) := usedAfter_iff.mpr rfl
    exact ⟨P, s', _, hP, (groups_accepted_iff (able hP) ((ne hP).mp hA)).mpr
      ⟨saved, h, hs, hr, hok, ha, hu⟩, hr.2, ha, hu⟩
  have rules : ∀ {saved : Option Entry} {v : Verifier} {h : List Entry},
      AllRules ⟨v, key, ps⟩ s saved used h ↔ DepRules key ps s saved used (h.map (fun x => (x, v))) := by
    intro saved v h
    constructor
    · intro hall pre x w post e
      obtain ⟨a, b, rfl, ea, eb⟩ := List.map_eq_append_iff.mp e
      obtain ⟨z, b', rfl, ez, -⟩ := List.map_eq_cons_iff.mp eb
      cases ez
      have := hall a x b' rfl
      rw [← ea]
      simpa [Function.comp_def] using this
    · intro hall pre x post e
      have := hall (pre.map (fun x => (x, v))) x v (post.map (fun x => (x, v))) (by simp [e])
      simpa [Function.comp_def] using this
  constructor
  · rintro ⟨A, g, B, P, s', u', rfl, hP, hv, h⟩
    by_cases hA : A = []
    · subst hA
      cases hP
      cases hv
      rcases h with ⟨h, -⟩ | ⟨-, c, hc, h⟩ | ⟨-, v, hpk, h⟩
      · exact absurd rfl h
      · exact .firstCert g B c e rfl hc h
      · have hvf := (packageOne_verifier.mp hpk).2
        cases (group_refused_iff (c := ⟨v, key, ps⟩) (packageOne_able hpk)).mp h with
        | state t _ ht hn h => exact .state g B v t e rfl hvf ht hn h
        | receipt saved a pre b post _ hs hg hr hok h =>
          exact .receipt saved [] g B [] v a pre b post e rfl (.inl rfl) hs .nil hvf hg hr
            (rules.mp hok) h
    · obtain ⟨saved, H, hs, hr, hval, hok, ha, hu⟩ := before hA hP hv
      rcases h with ⟨-, h, rfl⟩ | ⟨hcs, c, hc, h⟩ | ⟨hcs, v, hpk, h⟩
      · exact .noCert saved A g B H rfl hA hs hr hok h
      · exact .cert saved A g B H c e rfl hA hs hr hok hcs hc h
      · obtain ⟨a, b, post, pre, hg, hra, hall, href⟩ :=
          (later_group_iff (packageOne_able hpk) hs hval hok ha hu).mp h
        exact .receipt saved A g B H v a pre b post e rfl hcs hs hr (packageOne_verifier.mp hpk).2 hg hra
          hall href
  · intro h
    cases h with
    | noCert saved A g B H hgs hA hs hr hok hc =>
      obtain ⟨P, s', u', hP, hv, -⟩ := after hA hs hr hok
      exact ⟨A, g, B, P, s', u', hgs, hP, hv, .inl ⟨hA, hc, rfl⟩⟩
    | firstCert g B c _ hgs hc h =>
      exact ⟨[], g, B, [], s, used, hgs, rfl, rfl, .inr (.inl ⟨by simp, c, hc, h⟩)⟩
    | cert saved A g B H c _ hgs hA hs hr hok hcs hc h =>
      obtain ⟨P, s', u', hP, hv, -⟩ := after hA hs hr hok
      exact ⟨A, g, B, P, s', u', hgs, hP, hv, .inr (.inl ⟨hcs, c, hc, h⟩)⟩
    | state g B v t _ hgs hv ht hn h =>
      have hpk := packageOne_verifier.mpr ⟨rfl, hv⟩
      exact ⟨[], g, B, [], s, used, hgs, rfl, rfl, .inr (.inr ⟨.inl rfl, v, hpk,
        (group_refused_iff (c := ⟨v, key, ps⟩) (packageOne_able hpk)).mpr (.state t e ht hn h)⟩)⟩
    | receipt saved A g B H v a pre b post _ hgs hcs hs hr hv hg hra hok hb =>
      have hpk := packageOne_verifier.mpr ⟨rfl, hv⟩
      by_cases hA : A = []
      · subst hA
        cases hr
        exact ⟨[], g, B, [], s, used, hgs, rfl, rfl, .inr (.inr ⟨.inl rfl, v, hpk,
          (group_refused_iff (c := ⟨v, key, ps⟩) (packageOne_able hpk)).mpr
            (.receipt saved a pre b post e hs hg hra (rules.mpr hok) hb)⟩)⟩
      · have hokH : DepRules key ps s saved used H := by
          intro p x w q e
          exact hok p x w (q ++ pre.map (fun x => (x, v))) (by simp [e])
        obtain ⟨P, s', u', hP, hvg, hval, ha, hu⟩ := after hA hs hr hokH
        refine ⟨A, g, B, P, s', u', hgs, hP, hvg, .inr (.inr ⟨hcs, v, hpk, ?_⟩)⟩
        exact (later_group_iff (packageOne_able hpk) hs hval hokH ha hu).mpr
          ⟨a, b, post, pre, hg, hra, hok, hb⟩

/-- C92 for a DEP: which exception `verifyDEP` raises for a register. -/
theorem dep_refused_iff {doc : Json} {gs : List DepGroup} (hd : DepJson doc gs)
    (hsome : ∃ g ∈ gs, g.recs ≠ []) {ks : KeyStore} {key : Option Bytes} {c c₁ : Cluster}
    {idx : Option Int} {ps : Option Str} {s : RegState} (hi : Info c idx c₁ ps s) {e : Err} :
    verifyDEP ks key c idx (dictParse 1 doc 0) = (c₁, .error e) ↔
      DepRefused ks key ps s c.used (nonempty gs) e := by
  have hflat : ((gs.filter fun g => g.recs ≠ []).map fun g => [g]).flatten = nonempty gs := by
    unfold nonempty
    generalize (gs.filter fun g => g.recs ≠ []) = l
    induction l with
    | nil => rfl
    | cons g l ih => simp [ih]
  rw [dict_chunks_zero hd (nparts := 1) (le_refl _) hsome]
  unfold verifyDEP
  rw [getInfo_iff.mpr ⟨hi, rfl⟩, ← runDEP_error_iff]
  simp only [hflat]
  cases hr : runDEP ks key ps none s c.used (nonempty gs) with
  | error e' => simp
  | ok x =>
    obtain ⟨s', u'⟩ := x
    simp only [reduceCtorEq, iff_false]
    cases hup : c₁.updateInfo idx s' u' with
    | ok c' => simp
    | error e' =>
      obtain ⟨i, -, h, -⟩ := updateInfo_ok (r := s') (used := u') hi
      rw [h] at hup
      cases hup

/-- C92 for `verify.py` in one process and without chunks. -/
theorem verify_tool_reports {m : Mode} (hn : m.nprocs = 1) (h0 : m.chunksize = 0) {doc : Json}
    {gs : List DepGroup} (hd : DepJson doc gs) (hsome : ∃ g ∈ gs, g.recs ≠ []) {backend : Used}
    {sel : Select} {store : Json} {key : Option Bytes} {ks : KeyStore}
    (hkey : loadKeyFromJson store = .ok key) (hks : readStoreFromJson store = .ok ks)
    {j : Json} {c c₁ : Cluster} (hc : Cluster.fromJson j = .ok c) {ps : Option Str} {s : RegState}
    (hi : Info c (sel.index (some c)) c₁ ps s) {e : Err} :
    verifyTool backend m sel store doc (some j) = .error e ↔
      DepRefused ks key ps s c.used (nonempty gs) e := by
  rw [← dep_refused_iff hd hsome hi]
  unfold verifyTool toolVerify
  rw [hkey, Res.ok_bind, hks, Res.ok_bind]
  simp only [hc, Res.ok_bind, hn, h0, lt_irrefl, if_false, if_true]
  have hfst : ∀ r e, verifyDEP ks key c (sel.index (some c)) (dictParse 1 doc 0) = (r, .error e) → r = c₁ := by
    intro r e h
    unfold verifyDEP at h
    rw [getInfo_iff.mpr ⟨hi, rfl⟩] at h
    simp only at h
    split at h
    · cases h; rfl
    · split at h
      · cases h; rfl
      · split at h
        · cases h; rfl
        · cases h
  rcases hv : verifyDEP ks key c (sel.index (some c)) (dictParse 1 doc 0) with ⟨r, e' | u⟩
  · cases hfst r e' hv
    simp
  · simp

end

/-! ### Concrete cases -/

namespace Demo

attribute [local instance] env

/-- Compare a result with an exception. -/
def isErr {α : Type} (r : Res α) (e : Err) : Bool :=
  match r with
  | .ok _ => false
  | .error e' => decide (e' = e)

theorem eq_of_isErr {α : Type} {r : Res α} {e : Err} (h : isErr r e = true) : r = .error e := by
  cases r with
  | ok a => cases h
  | error e' => simp only [isErr, decide_eq_true_eq] at h; rw [h]

set_option maxRecDepth 100000 in
/-- A receipt is missing. -/
theorem gap_refused : GroupRefused ctx fresh (.unique ∅) (group.eraseIdx 4) .chaining :=
  (group_refused_iff ctx_verifier).mp (eq_of_isErr (by decide +kernel))

set_option maxRecDepth 100000 in
/-- A receipt is there twice; that its chaining value is wrong as well is not reported. -/
theorem twice_refused : GroupRefused ctx fresh (.unique ∅) (group.take 3 ++ group.drop 2)
    .duplicateReceiptId := (group_refused_iff ctx_verifier).mp (eq_of_isErr (by decide +kernel))

set_option maxRecDepth 100000 in
/-- The day without the start receipt. -/
theorem late_refused : GroupRefused ctx fresh (.unique ∅) (group.drop 1) .nonzeroTurnoverOnInitial :=
  (group_refused_iff ctx_verifier).mp (eq_of_isErr (by decide +kernel))

set_option maxRecDepth 100000 in
/-- The second register of the cluster without the first. -/
theorem alone_refused : GroupRefused ctx1 fresh (.unique ∅) (secondTexts.map shrinkReceipt)
    .invalidChainingOnInitial := (group_refused_iff ctx1_verifier).mp (eq_of_isErr (by decide +kernel))

set_option maxRecDepth 100000 in
/-- A counter that is off. -/
theorem counter_refused : GroupRefused ctx { fresh with counter := 1 } (.unique ∅) group
    .invalidTurnoverCounter := (group_refused_iff ctx_verifier).mp (eq_of_isErr (by decide +kernel))

/-- The day in a DEP with two groups, receipts missing in between. -/
def gapDoc : Json := .obj [(kGroups, .arr [groupRecsFirst (names (texts.take 3)) (exportCertToPEM device) [],
  groupRecsFirst (names (texts.drop 5)) (exportCertToPEM device) []])]

set_option maxRecDepth 100000 in
/-- Which exception is reported depends on the mode if several rules are broken: one receipt ID has been used
before and receipts are missing later on. -/
theorem mode_reports :
    isErr (toolVerify { chunksize := 0, order := fun _ => [] } deviceStore (some aes) ⟨[], .unique {c!"R2"}⟩ none
      gapDoc).2 .duplicateReceiptId = true ∧
    isErr (toolVerify { order := fun _ => [] } deviceStore (some aes) ⟨[], .unique {c!"R2"}⟩ none gapDoc).2
      .chaining = true := by
  decide +kernel

def gapGroups : List DepGroup :=
  [⟨(texts.take 3).map utf8Enc, some device, []⟩, ⟨(texts.drop 5).map utf8Enc, some device, []⟩]

theorem gapDoc_json : DepJson gapDoc gapGroups := by
  refine .mk _ _ _ rfl (.cons ?_ (.cons ?_ .nil))
  · exact .mk _ _ _ [] _ _ rfl rfl rfl (.some _ _ (by decide +kernel) (certOf_device _)) .nil
  · exact .mk _ _ _ [] _ _ rfl rfl rfl (.some _ _ (by decide +kernel) (certOf_device _)) .nil

set_option maxRecDepth 100000 in
/-- The receipt ID is the first fault of this DEP. -/
theorem gapDoc_refused : DepRefused deviceStore (some aes) none {} (.unique {c!"R2"}) (nonempty gapGroups)
    .duplicateReceiptId := by
  refine (dep_refused_iff (c := ⟨[], .unique {c!"R2"}⟩) gapDoc_json ⟨_, List.mem_cons_self, ?_⟩
      (Info.new none (.inl rfl) (by simp))).mp ?_
  · decide +kernel
  · exact Prod.ext (by decide +kernel) (eq_of_isErr (by decide +kernel))

end Demo

end RKSV
