import Verif.Lemmas.Dep
/-
Lemmas about verification that starts in the middle of a history.
-/
namespace RKSV

section
variable [PyEnv]

/-- `t` demands no more than `s`: it is a later state of the same register, but need not have the same
start receipt, may lack the demand for a restore receipt, and without a key may have another counter. -/
structure Weaker (key : Option Bytes) (s t : RegState) : Prop where
  nonblank : ¬Blank s.last
  last : s.last = t.last
  counter : key ≠ none → s.counter = t.counter
  needRestore : t.needRestore = true → s.needRestore = true
  chain : ∀ v, v ≠ [] → (s.chainNext = some v ↔ t.chainNext = some v)

omit [PyEnv] in
theorem Weaker.override {key : Option Bytes} {s t : RegState} (h : Weaker key s t) {pre : List Entry} {v : Str} :
    Override s pre v ↔ Override t pre v := by
  unfold Override
  constructor
  · rintro ⟨a, b, c⟩; exact ⟨a, (h.chain v c).mp b, c⟩
  · rintro ⟨a, b, c⟩; exact ⟨a, (h.chain v c).mpr b, c⟩

/-- Once there is a saved receipt the previous register does not matter. -/
theorem before_ps {ps ps' : Option Str} {x : Entry} {pre : List Entry} {y : Entry} :
    Before ps (some x) pre y ↔ Before ps' (some x) pre y := by
  have : ∀ {a b : Option Str}, Before a (some x) pre y → Before b (some x) pre y := by
    intro a b h
    cases h with
    | previous h => exact .previous y h
    | cluster h => simp [predecessor] at h
  exact ⟨this, this⟩

theorem weaker_group {v : Verifier} (hv : v.cert ≠ none ∨ v.keyStore ≠ none) {key : Option Bytes}
    {ps ps' : Option Str} {s t s' : RegState} (h : Weaker key s t) {used used' : Used} {g : List Bytes}
    (ok : verifyGroup ⟨v, key, ps⟩ s used g = .ok (s', used')) :
    ∃ t', verifyGroup ⟨v, key, ps'⟩ t used g = .ok (t', used') ∧ Weaker key s' t' ∧
      t'.start = t.start ∧ s'.start = s.start ∧
      (g ≠ [] → t'.needRestore = s'.needRestore) ∧
      (t.needRestore = s.needRestore → t'.needRestore = s'.needRestore) := by
  obtain ⟨saved, es, hs, hr, hall, ha, hu⟩ := (group_accepted_iff (c := ⟨v, key, ps⟩) hv).mp ok
  classical
  cases hs with
  | none hb => exact absurd hb h.nonblank
  | some x hl hn hx =>
  have hs : Saved t (some x) := .some x (by rw [← h.last]; exact hl) hn hx
  have due : ∀ pre, RestoreDue t (some x) pre → RestoreDue s (some x) pre := by
    intro pre hd
    cases hd with
    | saved hn => exact .saved (h.needRestore hn)
    | late pre p y hp hu hs hn => exact .late pre p y hp hu hs hn
  have due' : ∀ pre, pre ≠ [] → RestoreDue s (some x) pre → RestoreDue t (some x) pre := by
    intro pre hne hd
    cases hd with
    | saved hn => exact absurd rfl hne
    | late pre p y hp hu hs hn => exact .late pre p y hp hu hs hn
  let t' : RegState :=
    { last := (es.getLast?.map (·.1)).or t.last
      start := t.start
      counter := if key = none then t.counter else t.counter + sold es
      needRestore := decide (RestoreDue t (some x) es)
      chainNext := if es = [] ∨ t.chainNext = some [] then t.chainNext else none }
  have hnil : g ≠ [] → es ≠ [] := by
    rintro hg rfl
    exact hg hr.1
  refine ⟨t', (group_accepted_iff (c := ⟨v, key, ps'⟩) hv).mpr ⟨some x, es, hs, hr, ?_, ?_, hu⟩,
    ⟨?_, ?_, ?_, ?_, ?_⟩, rfl, ?_, ?_, ?_⟩
  · intro pre y post e
    have r := hall pre y post e
    have hc : ∀ k, key = some k → s.counter = t.counter := fun k hk => h.counter (by rw [hk]; simp)
    exact
      { auth := r.auth
        restore := fun hd => r.restore (due _ hd)
        initial := fun hp => by simp [predecessor] at hp
        same := fun z hz => r.same z (before_ps.mp hz)
        fresh := fun ⟨z, hz⟩ => r.fresh ⟨z, before_ps.mp hz⟩
        chainOverride := fun w hw => r.chainOverride w (h.override.mpr hw)
        chainBefore := fun hn z hz => r.chainBefore (by simpa only [h.override] using hn) z (before_ps.mp hz)
        chainFirst := fun hn hb => r.chainFirst (by simpa only [h.override] using hn)
          (fun ⟨z, hz⟩ => hb ⟨z, before_ps.mp hz⟩)
        counter := fun k hk => by rw [← hc k hk]; exact r.counter k hk }
  · exact ⟨rfl, by simp [t'], by simp only [t'], by simp [t'], rfl⟩
  · rw [ha.last]
    cases hz : es.getLast? with
    | none => simpa using h.nonblank
    | some z =>
      have := (hr.2 z (List.mem_of_getLast? hz)).ne_nil
      simp [Blank, this]
  · rw [ha.last, h.last]
  · intro hk
    have := ha.counter
    simp only [hk, if_false] at this
    rw [this, h.counter hk]
    simp [t', hk]
  · intro hd
    exact ha.needRestore.mpr (due _ (by simpa [t'] using hd))
  · intro w hw
    rw [ha.chainNext]
    simp only [t']
    by_cases he : es = []
    · simp only [he, true_or, if_true]
      exact h.chain w hw
    · simp only [he, false_or]
      constructor
      · split
        · rename_i e; rw [e]; intro q; cases q; exact absurd rfl hw
        · intro q; cases q
      · split
        · rename_i e; rw [e]; intro q; cases q; exact absurd rfl hw
        · intro q; cases q
  · rw [ha.start]; simp
  · intro hg
    rw [Bool.eq_iff_iff, ha.needRestore]
    simp only [t', decide_eq_true_eq]
    exact ⟨due _, due' _ (hnil hg)⟩
  · intro he
    rw [Bool.eq_iff_iff, ha.needRestore]
    simp only [t', decide_eq_true_eq]
    refine ⟨due _, fun hd => ?_⟩
    cases hd with
    | saved hn => exact .saved (by rw [he]; exact hn)
    | late pre p y hp hu' hs hn => exact .late pre p y hp hu' hs hn

theorem weaker_groups {key : Option Bytes} {ps ps' : Option Str} {P : List (List Bytes × Verifier)}
    (hP : Able P) {s t s' : RegState} (h : Weaker key s t) {used used' : Used}
    (ok : verifyGroups key ps s used P = .ok (s', used')) :
    ∃ t', verifyGroups key ps' t used P = .ok (t', used') ∧ Weaker key s' t' ∧
      t'.start = t.start ∧ s'.start = s.start ∧
      ((∃ p ∈ P, p.1 ≠ []) → t'.needRestore = s'.needRestore) ∧
      (t.needRestore = s.needRestore → t'.needRestore = s'.needRestore) := by
  induction P generalizing s t used with
  | nil =>
    cases ok
    exact ⟨t, rfl, h, rfl, rfl, by simp, id⟩
  | cons p P ih =>
    obtain ⟨g, v⟩ := p
    simp only [verifyGroups, Res.bind_eq_ok] at ok
    obtain ⟨⟨s1, u1⟩, h1, h2⟩ := ok
    obtain ⟨t1, k1, w1, a1, b1, c1, d1⟩ := weaker_group (ps' := ps') (hP (g, v) (by simp)) h h1
    obtain ⟨t2, k2, w2, a2, b2, c2, d2⟩ := ih (fun q hq => hP q (by simp [hq])) w1 h2
    refine ⟨t2, ?_, w2, a2.trans a1, b2.trans b1, ?_, fun he => d2 (d1 he)⟩
    · simp only [verifyGroups, Res.bind_eq_ok]
      exact ⟨(t1, u1), k1, k2⟩
    · rintro ⟨q, hq, hne⟩
      rcases List.mem_cons.mp hq with rfl | hq
      · exact d2 (c1 hne)
      · exact c2 ⟨q, hq, hne⟩

end

end RKSV
