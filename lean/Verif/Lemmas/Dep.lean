import Verif.Lemmas.Cluster
import Verif.Lemmas.Parallel
/-
Lemmas about the verification of whole DEPs.
-/
namespace RKSV

section
variable [PyEnv]

/-- A group with the verifier for it, whatever the other groups are. -/
def packageOne (ks : KeyStore) (g : DepGroup) : Res (List Bytes × Verifier) :=
  match g.cert with
  | none => .ok (g.recs, .fromKeyStore ks)
  | some c => do
    verifyCert ks c g.chain
    .ok (g.recs, .fromCert c)

/-- Groups without certificates have to be alone. -/
def Packable (gs : List DepGroup) : Prop := gs.length ≤ 1 ∨ ∀ g ∈ gs, g.cert ≠ none

theorem packageAll_iff {ks : KeyStore} {gs : List DepGroup} {P : List (List Bytes × Verifier)} :
    packageAll ks gs = .ok P ↔ (∀ g ∈ gs, g.cert ≠ none) ∧ mapRes (packageOne ks) gs = .ok P := by
  induction gs generalizing P with
  | nil => simp [packageAll, mapRes]
  | cons g gs ih =>
    obtain ⟨recs, cert, chain⟩ := g
    simp only [packageAll, mapRes, Res.bind_eq_ok, orErr_eq_ok, List.forall_mem_cons, ih]
    cases cert with
    | none => simp
    | some c =>
      simp only [packageOne, Res.bind_eq_ok, Except.ok.injEq, Option.some.injEq]
      constructor
      · rintro ⟨_, rfl, _, hv, rest, ⟨h1, h2⟩, rfl⟩
        exact ⟨⟨by simp, h1⟩, _, ⟨_, hv, rfl⟩, rest, h2, rfl⟩
      · rintro ⟨⟨-, h1⟩, _, ⟨_, hv, rfl⟩, rest, h2, rfl⟩
        exact ⟨c, rfl, _, hv, rest, ⟨h1, h2⟩, rfl⟩

theorem packageChunk_iff {ks : KeyStore} {gs : List DepGroup} {P : List (List Bytes × Verifier)} :
    packageChunk ks gs = .ok P ↔ Packable gs ∧ mapRes (packageOne ks) gs = .ok P := by
  rcases gs with _ | ⟨g, _ | ⟨g', gs⟩⟩
  · simp [packageChunk, packageAll, mapRes, Packable]
  · obtain ⟨recs, cert, chain⟩ := g
    cases cert with
    | none => simp [packageChunk, mapRes, packageOne, Packable]
    | some c =>
      simp only [packageChunk, mapRes, packageOne, Packable, Res.bind_eq_ok, Except.ok.injEq]
      constructor
      · rintro ⟨_, hv, rfl⟩
        exact ⟨.inl (by simp), _, ⟨_, hv, rfl⟩, _, rfl, rfl⟩
      · rintro ⟨-, _, ⟨_, hv, rfl⟩, _, rfl, rfl⟩
        exact ⟨_, hv, rfl⟩
  · have : packageChunk ks (g :: g' :: gs) = packageAll ks (g :: g' :: gs) := rfl
    rw [this, packageAll_iff]
    constructor
    · rintro ⟨h1, h2⟩; exact ⟨.inr h1, h2⟩
    · rintro ⟨h1 | h1, h2⟩
      · simp at h1
      · exact ⟨h1, h2⟩

theorem runDEP_true_iff {ks : KeyStore} {key : Option Bytes} {ps : Option Str} {s : RegState}
    {used : Used} {gs : List DepGroup} {x : RegState × Used} :
    runDEP ks key ps (some true) s used gs = .ok x ↔ gs = [] ∧ x = (s, used) := by
  cases gs with
  | nil => simp [runDEP, eq_comm]
  | cons g gs => simp [runDEP, Res.bind_eq_ok, ensure_eq_ok]

theorem runDEP_false_iff {ks : KeyStore} {key : Option Bytes} {ps : Option Str} {s : RegState}
    {used : Used} {gs : List DepGroup} {x : RegState × Used} :
    runDEP ks key ps (some false) s used gs = .ok x ↔
      ∃ P, packageAll ks gs = .ok P ∧ verifyGroups key ps s used P = .ok x := by
  induction gs generalizing s used with
  | nil => simp [runDEP, packageAll, verifyGroups]
  | cons g gs ih =>
    obtain ⟨recs, cert, chain⟩ := g
    cases cert with
    | none =>
      simp [runDEP, packageAll, Res.bind_eq_ok, ensure_eq_ok, orErr_eq_ok]
    | some c =>
      simp only [runDEP, packageAll, Res.bind_eq_ok, ensure_eq_ok, orErr_eq_ok, ih, Except.ok.injEq,
        Option.some.injEq]
      constructor
      · rintro ⟨_, -, _, hv, ⟨s1, u1⟩, h1, P, hP, hx⟩
        refine ⟨_, ⟨c, rfl, _, hv, P, hP, rfl⟩, ?_⟩
        simp only [verifyGroups, Res.bind_eq_ok]
        exact ⟨(s1, u1), h1, hx⟩
      · rintro ⟨_, ⟨_, rfl, _, hv, P, hP, rfl⟩, h⟩
        simp only [verifyGroups, Res.bind_eq_ok] at h
        obtain ⟨⟨s1, u1⟩, h1, hx⟩ := h
        exact ⟨(), by simp, _, hv, (s1, u1), h1, P, hP, hx⟩

/-- The loop of `verifyDEP` accepts exactly if the groups, taken as one chunk, can be packaged and are
accepted. -/
theorem runDEP_iff {ks : KeyStore} {key : Option Bytes} {ps : Option Str} {s : RegState}
    {used : Used} {gs : List DepGroup} {x : RegState × Used} :
    runDEP ks key ps none s used gs = .ok x ↔
      ∃ P, packageChunk ks gs = .ok P ∧ verifyGroups key ps s used P = .ok x := by
  cases gs with
  | nil => simp [runDEP, packageChunk, packageAll, verifyGroups]
  | cons g gs =>
    obtain ⟨recs, cert, chain⟩ := g
    cases cert with
    | none =>
      simp only [runDEP, Res.bind_eq_ok, ensure_eq_ok, runDEP_true_iff]
      constructor
      · rintro ⟨_, -, _, -, ⟨s1, u1⟩, h1, rfl, rfl⟩
        refine ⟨_, rfl, ?_⟩
        simp only [verifyGroups, Res.bind_eq_ok]
        exact ⟨(s1, u1), h1, rfl⟩
      · rintro ⟨P, hP, h⟩
        have hp := (packageChunk_iff.mp hP).1
        have : gs = [] := by
          rcases hp with hp | hp
          · simpa using hp
          · exact absurd rfl (hp _ List.mem_cons_self)
        subst this
        cases hP
        simp only [verifyGroups, Res.bind_eq_ok] at h
        obtain ⟨⟨s1, u1⟩, h1, hx⟩ := h
        exact ⟨(), by simp, (), by simp, (s1, u1), h1, rfl, (Except.ok.inj hx).symm⟩
    | some c =>
      simp only [runDEP, Res.bind_eq_ok, ensure_eq_ok, runDEP_false_iff]
      have hc : packageChunk ks (⟨recs, some c, chain⟩ :: gs) =
          packageAll ks (⟨recs, some c, chain⟩ :: gs) := by
        cases gs with
        | nil =>
          simp only [packageChunk, packageAll, orErr, Res.ok_bind]
        | cons g' gs => rfl
      rw [hc]
      simp only [packageAll, Res.bind_eq_ok, orErr_eq_ok, Option.some.injEq, Except.ok.injEq]
      constructor
      · rintro ⟨_, -, _, hv, ⟨s1, u1⟩, h1, P, hP, hx⟩
        refine ⟨_, ⟨c, rfl, _, hv, P, hP, rfl⟩, ?_⟩
        simp only [verifyGroups, Res.bind_eq_ok]
        exact ⟨(s1, u1), h1, hx⟩
      · rintro ⟨_, ⟨_, rfl, _, hv, P, hP, rfl⟩, h⟩
        simp only [verifyGroups, Res.bind_eq_ok] at h
        obtain ⟨⟨s1, u1⟩, h1, hx⟩ := h
        exact ⟨(), by simp, _, hv, (s1, u1), h1, P, hP, hx⟩

/-- When `verifyDEP` succeeds. -/
theorem verifyDEP_iff {ks : KeyStore} {key : Option Bytes} {c c' : Cluster} {idx : Option Int}
    {dep : Stream} : verifyDEP ks key c idx dep = (c', .ok ()) ↔
      dep.err = none ∧ ∃ (c₁ : Cluster) (ps : Option Str) (s : RegState) (P : List (List Bytes × Verifier))
        (s' : RegState) (u' : Used) (i : Nat), Info c idx c₁ ps s ∧
        packageChunk ks dep.chunks.flatten = .ok P ∧
        verifyGroups key ps s c.used P = .ok (s', u') ∧
        c₁.regs[i]? = some s ∧ (idx = some (i : Int) ∨ idx = none ∧ i = c.regs.length) ∧
        c' = ⟨c₁.regs.set i s', u'⟩ := by
  unfold verifyDEP
  rcases hg : c.getInfo idx with ⟨c₁, e | ⟨ps, s, used⟩⟩
  · simp only [Prod.mk.injEq, reduceCtorEq, and_false, false_iff, not_and, not_exists]
    intro _ c₁ ps s P s' u' i hi
    have := getInfo_iff.mpr ⟨hi, rfl⟩
    rw [hg] at this
    cases this
  · obtain ⟨hi, rfl⟩ := getInfo_iff.mp hg
    have det : ∀ c₂ ps₂ s₂, Info c idx c₂ ps₂ s₂ → c₂ = c₁ ∧ ps₂ = ps ∧ s₂ = s := by
      intro c₂ ps₂ s₂ h
      have := getInfo_iff.mpr ⟨h, rfl⟩
      rw [hg] at this
      simp only [Prod.mk.injEq, Except.ok.injEq, and_true] at this
      exact ⟨this.1.symm, this.2.1.symm, this.2.2.symm⟩
    simp only
    cases hr : runDEP ks key ps none s c.used dep.chunks.flatten with
    | error e =>
      simp only [Prod.mk.injEq, reduceCtorEq, and_false, false_iff, not_and, not_exists]
      intro _ c₂ ps₂ s₂ P s' u' i h2 hp hv
      obtain ⟨rfl, rfl, rfl⟩ := det _ _ _ h2
      rw [runDEP_iff.mpr ⟨P, hp, hv⟩] at hr
      cases hr
    | ok x =>
      obtain ⟨s', u'⟩ := x
      simp only
      cases he : dep.err with
      | some e => simp
      | none =>
        obtain ⟨i, hri, hup, hidx⟩ := updateInfo_ok (r := s') (used := u') hi
        simp only [hup, Prod.mk.injEq, and_true, true_and]
        constructor
        · rintro rfl
          obtain ⟨P, hp, hv⟩ := runDEP_iff.mp hr
          exact ⟨c₁, ps, s, P, s', u', i, hi, hp, hv, hri, hidx, rfl⟩
        · rintro ⟨c₂, ps₂, s₂, P, s₃, u₃, j, h2, hp, hv, hj, hidx', rfl⟩
          obtain ⟨rfl, rfl, rfl⟩ := det _ _ _ h2
          rw [runDEP_iff.mpr ⟨P, hp, hv⟩] at hr
          cases hr
          have : i = j := by
            rcases hidx with rfl | ⟨rfl, rfl⟩
            · rcases hidx' with h | ⟨h, -⟩
              · simpa using h
              · cases h
            · rcases hidx' with h | ⟨-, rfl⟩
              · cases h
              · rfl
          rw [this]

omit [PyEnv] in
theorem Info.det {c c₁ c₂ : Cluster} {idx : Option Int} {ps ps₂ : Option Str} {s s₂ : RegState}
    (h : Info c idx c₁ ps s) (h' : Info c idx c₂ ps₂ s₂) : c₂ = c₁ ∧ ps₂ = ps ∧ s₂ = s := by
  have h1 := getInfo_iff.mpr ⟨h, rfl⟩
  have h2 := getInfo_iff.mpr ⟨h', rfl⟩
  rw [h1] at h2
  simp only [Prod.mk.injEq, Except.ok.injEq, and_true] at h2
  exact ⟨h2.1.symm, h2.2.1.symm, h2.2.2.symm⟩

omit [PyEnv] in
/-- After an update the register is found again at its index, with the same previous register. -/
theorem Info.again {c c₁ : Cluster} {idx : Option Int} {ps : Option Str} {s s' : RegState} {u : Used}
    {i : Nat} (h : Info c idx c₁ ps s) (hi : c₁.regs[i]? = some s)
    (hidx : idx = some (i : Int) ∨ idx = none ∧ i = c.regs.length) :
    Info ⟨c₁.regs.set i s', u⟩ (some (i : Int)) ⟨c₁.regs.set i s', u⟩ ps s' := by
  have hlt := (List.getElem?_eq_some_iff.mp hi).1
  have hget : (c₁.regs.set i s')[i]? = some s' := by
    simp [hlt]
  cases h with
  | new _ h hl =>
    have e : i = c.regs.length := by
      rcases hidx with rfl | ⟨-, h'⟩
      · rcases h with h | h
        · cases h
        · simpa using h
      · exact h'
    subst e
    rcases List.eq_nil_or_concat c.regs with hn | ⟨l, z, hn⟩
    · simp only [hn] at hget ⊢
      exact .first s' hget
    · simp only [hn] at hget ⊢
      have := Info.later (c := ⟨((l.concat z) ++ [({} : RegState)]).set (l.concat z).length s', u⟩) l.length z s' (by
        simp) (by simp)
      simpa using this
  | first _ h =>
    have e : i = 0 := by
      rcases hidx with h | ⟨h, -⟩
      · simpa using h.symm
      · cases h
    subst e
    exact .first s' hget
  | later n p _ hp h =>
    have e : i = n + 1 := by
      rcases hidx with h | ⟨h, -⟩
      · have := (Option.some.inj h).symm
        exact_mod_cast this
      · cases h
    subst e
    refine .later n p s' ?_ hget
    simp only
    rw [List.getElem?_set_ne (by omega)]
    exact hp

end

end RKSV
