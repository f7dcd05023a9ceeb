import Verif.Props.DepParser
import Verif.Props.Resume
/-
Property C38: the chunk size does not matter.
-/
namespace RKSV

section
variable [PyEnv]

/-- The chunks hold the receipts of the groups in order, each with the certificates of its group. -/
def Chunked (gs : List DepGroup) (chunks : List Chunk) : Prop :=
  ∃ Ts, Ts.flatten = numbered 0 gs ∧ List.Forall₂ (Grouped gs) Ts chunks

/-- Receipts with their verifiers. -/
def single (x : Bytes × Verifier) : List Bytes × Verifier := ([x.1], x.2)

def spread (P : List (List Bytes × Verifier)) : List (Bytes × Verifier) :=
  P.flatMap fun p => p.1.map fun r => (r, p.2)

/-- Verifying groups is verifying their receipts. -/
theorem groups_spread {key : Option Bytes} {ps : Option Str} {s : RegState} {used : Used}
    {P : List (List Bytes × Verifier)} (hP : ∀ p ∈ P, p.1 ≠ []) :
    verifyGroups key ps s used P = verifyGroups key ps s used ((spread P).map single) := by
  have one : ∀ (v : Verifier) (l : List Bytes), l ≠ [] → ∀ (pre post : List (List Bytes × Verifier)),
      verifyGroups key ps s used (pre ++ (l, v) :: post) =
        verifyGroups key ps s used (pre ++ (l.map fun r => ([r], v)) ++ post) := by
    intro v l
    induction l with
    | nil => intro h; exact absurd rfl h
    | cons r l ih =>
      intro _ pre post
      cases hl : l with
      | nil => simp
      | cons r' l' =>
        rw [show r :: r' :: l' = [r] ++ l by rw [hl]; rfl, groups_join]
        have := ih (by simp [hl]) (pre ++ [([r], v)]) post
        rw [List.append_assoc, List.singleton_append] at this
        rw [this, hl]
        simp
  have key2 : ∀ (P pre : List (List Bytes × Verifier)), (∀ p ∈ P, p.1 ≠ []) →
      verifyGroups key ps s used (pre ++ P) = verifyGroups key ps s used (pre ++ (spread P).map single) := by
    intro P
    induction P with
    | nil => intro pre _; rfl
    | cons p P ih =>
      intro pre hP
      rw [one p.2 p.1 (hP p (by simp)) pre P, ih _ (fun q hq => hP q (by simp [hq]))]
      congr 1
      simp [spread, single, Function.comp_def]
  simpa using key2 P [] hP

/-- The receipt of this group is verified with this verifier. -/
def Signed (ks : KeyStore) (gs : List DepGroup) (x : Nat × Bytes) (y : Bytes × Verifier) : Prop :=
  y.1 = x.2 ∧ ∃ g rs, gs[x.1]? = some g ∧ packageOne ks g = .ok (rs, y.2)

theorem packageOne_iff {ks : KeyStore} {g : DepGroup} {x : List Bytes × Verifier} :
    packageOne ks g = .ok x ↔ x.1 = g.recs ∧ ∃ rs, packageOne ks g = .ok (rs, x.2) := by
  obtain ⟨a, b⟩ := x
  unfold packageOne
  split
  · simp only [Except.ok.injEq, Prod.mk.injEq]
    constructor
    · rintro ⟨rfl, rfl⟩; exact ⟨rfl, _, rfl, rfl⟩
    · rintro ⟨rfl, _, -, rfl⟩; exact ⟨rfl, rfl⟩
  · simp only [Res.bind_eq_ok, Except.ok.injEq, Prod.mk.injEq]
    constructor
    · rintro ⟨u, h, rfl, rfl⟩; exact ⟨rfl, _, u, h, rfl, rfl⟩
    · rintro ⟨rfl, _, u, h, -, rfl⟩; exact ⟨u, h, rfl, rfl⟩

theorem packageOne_recs' {ks : KeyStore} {rs rs' : List Bytes} {cert : Option Cert} {chain : List Cert}
    {v : Verifier} : packageOne ks ⟨rs, cert, chain⟩ = .ok (rs, v) ↔
      packageOne ks ⟨rs', cert, chain⟩ = .ok (rs', v) := by
  cases cert <;> simp [packageOne, Res.bind_eq_ok]

theorem forall₂_signed {ks : KeyStore} {gs : List DepGroup} {i : Nat} {g : DepGroup} (hg : gs[i]? = some g)
    {recs : List Bytes} (hr : recs ≠ []) {F : List (Bytes × Verifier)} :
    List.Forall₂ (Signed ks gs) (recs.map fun r => (i, r)) F ↔
      ∃ v rs, packageOne ks g = .ok (rs, v) ∧ F = recs.map fun r => (r, v) := by
  induction recs generalizing F with
  | nil => exact absurd rfl hr
  | cons r recs ih =>
    rw [List.map_cons]
    constructor
    · intro h
      obtain ⟨⟨a, v⟩, F, ⟨h1, g', rs, h2, h3⟩, h4, rfl⟩ := List.forall₂_cons_left_iff.mp h
      simp only at h1 h2 h3
      subst h1
      rw [hg] at h2
      cases h2
      by_cases hn : recs = []
      · subst hn
        cases h4
        exact ⟨v, rs, h3, rfl⟩
      · obtain ⟨v', rs', h5, rfl⟩ := (ih hn).mp h4
        rw [h3] at h5
        cases h5
        exact ⟨v, rs, h3, rfl⟩
    · rintro ⟨v, rs, h, rfl⟩
      refine .cons ⟨rfl, g, rs, hg, h⟩ ?_
      by_cases hn : recs = []
      · subst hn; exact .nil
      · exact (ih hn).mpr ⟨v, rs, h, rfl⟩

omit [PyEnv] in
theorem forall₂_append_left {α β : Type} {R : α → β → Prop} {a b : List α} {l : List β} :
    List.Forall₂ R (a ++ b) l ↔ ∃ l₁ l₂, List.Forall₂ R a l₁ ∧ List.Forall₂ R b l₂ ∧ l = l₁ ++ l₂ := by
  constructor
  · intro h
    induction a generalizing l with
    | nil => exact ⟨[], l, .nil, h, rfl⟩
    | cons x a ih =>
      obtain ⟨y, l, h1, h2, rfl⟩ := List.forall₂_cons_left_iff.mp h
      obtain ⟨l₁, l₂, h3, h4, rfl⟩ := ih h2
      exact ⟨y :: l₁, l₂, .cons h1 h3, h4, rfl⟩
  · rintro ⟨l₁, l₂, h1, h2, rfl⟩
    exact List.rel_append h1 h2

/-- Packaging groups gives their receipts the verifiers. -/
theorem grouped_package {ks : KeyStore} {gs : List DepGroup} {T : List (Nat × Bytes)} {c : Chunk}
    (h : Grouped gs T c) {F : List (Bytes × Verifier)} :
    (∃ P, mapRes (packageOne ks) c = .ok P ∧ spread P = F) ↔ List.Forall₂ (Signed ks gs) T F := by
  induction h generalizing F with
  | nil =>
    simp only [mapRes, Except.ok.injEq, List.forall₂_nil_left_iff]
    constructor
    · rintro ⟨_, rfl, rfl⟩; rfl
    · rintro rfl; exact ⟨_, rfl, rfl⟩
  | snoc T c i g recs h hlt hg hr ih =>
    rw [forall₂_append_left]
    constructor
    · rintro ⟨P, hP, rfl⟩
      simp only [mapRes_append, mapRes, Res.bind_eq_ok, Except.ok.injEq] at hP
      obtain ⟨A, hA, _, ⟨⟨rs, v⟩, hz, _, rfl, rfl⟩, rfl⟩ := hP
      have hrs := (packageOne_iff.mp hz).1
      simp only at hrs
      subst hrs
      refine ⟨spread A, rs.map fun r => (r, v), ih.mp ⟨A, hA, rfl⟩, ?_, by simp [spread]⟩
      exact (forall₂_signed hg hr).mpr ⟨v, _, packageOne_recs'.mp hz, rfl⟩
    · rintro ⟨F₁, F₂, h1, h2, rfl⟩
      obtain ⟨A, hA, rfl⟩ := ih.mpr h1
      obtain ⟨v, rs, h3, rfl⟩ := (forall₂_signed hg hr).mp h2
      refine ⟨A ++ [(recs, v)], ?_, by simp [spread]⟩
      simp only [mapRes_append, mapRes, Res.bind_eq_ok, Except.ok.injEq]
      have hrs := (packageOne_iff.mp h3).1
      simp only at hrs
      subst hrs
      exact ⟨A, hA, _, ⟨_, packageOne_recs'.mp h3, _, rfl, rfl⟩, rfl⟩

theorem chunked_package {ks : KeyStore} {gs : List DepGroup} {Ts : List (List (Nat × Bytes))}
    {chunks : List Chunk} (h : List.Forall₂ (Grouped gs) Ts chunks) {F : List (Bytes × Verifier)} :
    (∃ P, mapRes (packageOne ks) chunks.flatten = .ok P ∧ spread P = F) ↔
      List.Forall₂ (Signed ks gs) Ts.flatten F := by
  induction h generalizing F with
  | nil =>
    simp only [List.flatten_nil, mapRes, Except.ok.injEq, List.forall₂_nil_left_iff]
    constructor
    · rintro ⟨_, rfl, rfl⟩; rfl
    · rintro rfl; exact ⟨_, rfl, rfl⟩
  | cons hT _ ih =>
    rw [List.flatten_cons, List.flatten_cons, forall₂_append_left]
    constructor
    · rintro ⟨P, hP, rfl⟩
      simp only [mapRes_append, Res.bind_eq_ok, Except.ok.injEq] at hP
      obtain ⟨A, hA, B, hB, rfl⟩ := hP
      exact ⟨_, _, (grouped_package hT).mp ⟨A, hA, rfl⟩, ih.mp ⟨B, hB, rfl⟩, by simp [spread]⟩
    · rintro ⟨F₁, F₂, h1, h2, rfl⟩
      obtain ⟨A, hA, rfl⟩ := (grouped_package hT).mpr h1
      obtain ⟨B, hB, rfl⟩ := ih.mpr h2
      refine ⟨A ++ B, ?_, by simp [spread]⟩
      simp only [mapRes_append, Res.bind_eq_ok, Except.ok.injEq]
      exact ⟨A, hA, B, hB, rfl⟩

omit [PyEnv] in
theorem forall₂_mem_right {α β : Type} {R : α → β → Prop} {a : List α} {l : List β} (h : List.Forall₂ R a l)
    {y : β} (hy : y ∈ l) : ∃ x ∈ a, R x y := by
  induction h with
  | nil => cases hy
  | @cons x y' a l h _ ih =>
    rcases List.mem_cons.mp hy with rfl | hy
    · exact ⟨x, by simp, h⟩
    · obtain ⟨x, hx, h⟩ := ih hy
      exact ⟨x, by simp [hx], h⟩

/-- The chunks are packaged one by one. -/
theorem packages_iff {ks : KeyStore} {chunks : List Chunk} {Q : List (List Bytes × Verifier)} :
    (∃ pkgs, mapRes (packageChunk ks) chunks = .ok pkgs ∧ pkgs.flatten = Q) ↔
      (∀ c ∈ chunks, Packable c) ∧ mapRes (packageOne ks) chunks.flatten = .ok Q := by
  induction chunks generalizing Q with
  | nil =>
    simp only [mapRes, Except.ok.injEq, List.flatten_nil, List.not_mem_nil, false_implies, implies_true, true_and]
    constructor
    · rintro ⟨_, rfl, rfl⟩; rfl
    · rintro rfl; exact ⟨_, rfl, rfl⟩
  | cons c chunks ih =>
    simp only [mapRes, Res.bind_eq_ok, Except.ok.injEq, List.flatten_cons, mapRes_append, List.forall_mem_cons]
    constructor
    · rintro ⟨_, ⟨P, hP, pkgs, hpk, rfl⟩, rfl⟩
      obtain ⟨h1, h2⟩ := packageChunk_iff.mp hP
      obtain ⟨h3, h4⟩ := ih.mp ⟨pkgs, hpk, rfl⟩
      exact ⟨⟨h1, h3⟩, P, h2, _, h4, rfl⟩
    · rintro ⟨⟨h1, h3⟩, P, h2, R, h4, rfl⟩
      obtain ⟨pkgs, hpk, rfl⟩ := ih.mpr ⟨h3, h4⟩
      exact ⟨_, ⟨P, packageChunk_iff.mpr ⟨h1, h2⟩, pkgs, hpk, rfl⟩, rfl⟩

theorem grouped_nil {gs : List DepGroup} {c : Chunk} (h : Grouped gs [] c) : c = [] :=
  grouped_unique h .nil

/-- If there is only one group, no chunk has two. -/
theorem one_group {gs : List DepGroup} {Ts : List (List (Nat × Bytes))} {chunks : List Chunk}
    (hTs : Ts.flatten = numbered 0 gs) (h : List.Forall₂ (Grouped gs) Ts chunks)
    (h1 : (gs.filter fun g => g.recs ≠ []).length ≤ 1) : ∀ c ∈ chunks, c.length ≤ 1 := by
  obtain ⟨i, hi⟩ : ∃ i, ∀ x ∈ numbered 0 gs, x.1 = i := by
    have hall := grouped_all gs
    generalize (gs.filter fun g => g.recs ≠ []) = l at h1 hall
    generalize numbered 0 gs = T at hall
    cases hall with
    | nil => exact ⟨0, by simp⟩
    | snoc T c i g recs h hlt hg hr =>
      have : c = [] := by
        rw [List.length_append, List.length_singleton] at h1
        exact List.length_eq_zero_iff.mp (by omega)
      subst this
      have hT : T = [] := by
        have := h.length
        simpa [eq_comm] using this
      subst hT
      exact ⟨i, by simp⟩
  intro c hc
  obtain ⟨T, hT, hg⟩ := forall₂_mem_right h hc
  have hTi : ∀ x ∈ T, x.1 = i := fun x hx => hi x (hTs ▸ List.mem_flatten.mpr ⟨T, hT, hx⟩)
  cases hg with
  | nil => simp
  | snoc T c j g recs h hlt hg hr =>
    have hj : j = i := by
      obtain ⟨r, hr⟩ := List.exists_mem_of_ne_nil recs hr
      exact hTi (j, r) (by simp [hr])
    have hT0 : T = [] := by
      cases T with
      | nil => rfl
      | cons x T =>
        have h1 := hlt x (by simp)
        have h2 := hTi x (by simp)
        omega
    subst hT0
    rw [grouped_nil h]
    simp

/-- C38 as far as it holds: a DEP is accepted in one go by `verifyDEP` exactly if it is accepted in chunks
by `verifyParsedDEP`, with the same state as result, provided that the ID of the first receipt is new and
no certificate is missing (unless there is only one group). -/
theorem chunk_size_partial {gs : List DepGroup} {whole parts : Stream}
    (hw : whole = ⟨(gs.filter fun g => g.recs ≠ []).map fun g => [g], none⟩)
    (hp : Chunked gs parts.chunks) (hne : parts.chunks ≠ []) (he : parts.err = none)
    {wk : Workers} {nprocs : Int} (hwk : (∃ pick, wk = .pool pick) ∨ nprocs ≤ 1)
    {ks : KeyStore} {key : Option Bytes} {c c' : Cluster} (hc : ∀ r ∈ c.regs, Consistent r) {idx : Option Int} :
    verifyDEP ks key c idx whole = (c', .ok ()) ∧ FirstFresh c.used (gs.flatMap (·.recs)) ↔
      verifyParsedDEP wk nprocs ks key c idx parts = (c', .ok ()) ∧
        ((gs.filter fun g => g.recs ≠ []).length ≤ 1 ∨ ∀ g ∈ gs, g.recs ≠ [] → g.cert ≠ none) := by
  obtain ⟨chunks, err⟩ := parts
  simp only at hp hne he
  subst he
  obtain ⟨Ts, hTs, hall⟩ := hp
  subst hw
  rw [verifyDEP_iff, parallel_iff hwk hc]
  have hflat : ((gs.filter fun g => g.recs ≠ []).map fun g => [g]).flatten = gs.filter fun g => g.recs ≠ [] := by
    generalize (gs.filter fun g => g.recs ≠ []) = l
    induction l with
    | nil => rfl
    | cons g l ih => simp [ih]
  have hmem : ∀ {p : DepGroup → Prop}, (∀ g ∈ gs.filter fun g => g.recs ≠ [], p g) ↔
      ∀ g ∈ gs, g.recs ≠ [] → p g := by
    intro p
    simp [List.mem_filter]
  simp only [hflat]
  -- receipts and their verifiers
  have hA := fun F => grouped_package (ks := ks) (F := F) (grouped_all gs)
  have hB := fun F => chunked_package (ks := ks) (F := F) hall
  rw [hTs] at hB
  have hrecs : ∀ {P : List (List Bytes × Verifier)} {F : List (Bytes × Verifier)},
      List.Forall₂ (Signed ks gs) (numbered 0 gs) F → spread P = F →
      (P.map (·.1)).flatten = gs.flatMap (·.recs) := by
    intro P F hF hs
    have h1 : (P.map (·.1)).flatten = (spread P).map (·.1) := by
      simp [spread, List.flatMap_def, List.map_flatten, Function.comp_def]
    have h2 : F.map (·.1) = (numbered 0 gs).map (·.2) := by
      clear hs h1 hA hB
      generalize numbered 0 gs = T at hF
      induction hF with
      | nil => rfl
      | cons h _ ih => simp [ih, h.1]
    rw [h1, hs, h2, numbered_recs]
  have hneA : ∀ {P : List (List Bytes × Verifier)},
      mapRes (packageOne ks) (gs.filter fun g => g.recs ≠ []) = .ok P → ∀ p ∈ P, p.1 ≠ [] := by
    intro P hP p hp
    obtain ⟨g, hg, hgp⟩ := forall₂_mem_right (mapRes_iff.mp hP) hp
    rw [(packageOne_iff.mp hgp).1]
    have := (List.mem_filter.mp hg).2
    simpa using this
  have hneB : ∀ {P : List (List Bytes × Verifier)},
      mapRes (packageOne ks) chunks.flatten = .ok P → ∀ p ∈ P, p.1 ≠ [] := by
    intro P hP p hp
    obtain ⟨g, hg, hgp⟩ := forall₂_mem_right (mapRes_iff.mp hP) hp
    rw [(packageOne_iff.mp hgp).1]
    obtain ⟨ch, hch, hg⟩ := List.mem_flatten.mp hg
    obtain ⟨T, -, hT⟩ := forall₂_mem_right hall hch
    exact (hT.nonempty _ hg).1
  have hpack : Packable (gs.filter fun g => g.recs ≠ []) ↔
      ((gs.filter fun g => g.recs ≠ []).length ≤ 1 ∨ ∀ g ∈ gs, g.recs ≠ [] → g.cert ≠ none) := by
    unfold Packable
    rw [hmem]
  have hpieces : ((gs.filter fun g => g.recs ≠ []).length ≤ 1 ∨ ∀ g ∈ gs, g.recs ≠ [] → g.cert ≠ none) →
      ∀ c ∈ chunks, Packable c := by
    rintro (h | h) c hcm
    · exact .inl (one_group hTs hall h c hcm)
    · refine .inr fun p hp => ?_
      -- the group of the piece has a receipt
      obtain ⟨T, hT, hgr⟩ := forall₂_mem_right hall hcm
      have hsub : ∀ x ∈ T, x ∈ numbered 0 gs := fun x hx => hTs ▸ List.mem_flatten.mpr ⟨_, hT, hx⟩
      have hin : ∀ (k : Nat) (gs : List DepGroup) x, x ∈ numbered k gs → ∃ g, k ≤ x.1 ∧ gs[x.1 - k]? = some g ∧
          x.2 ∈ g.recs := by
        intro k gs
        induction gs generalizing k with
        | nil => simp [numbered]
        | cons g gs ih =>
          intro x hx
          rcases List.mem_append.mp hx with hx | hx
          · obtain ⟨r, hr, rfl⟩ := List.mem_map.mp hx
            exact ⟨g, le_refl _, by simp, hr⟩
          · obtain ⟨g', h1, h2, h3⟩ := ih (k + 1) x hx
            refine ⟨g', by omega, ?_, h3⟩
            rw [show x.1 - k = (x.1 - (k + 1)) + 1 by omega, List.getElem?_cons_succ]
            exact h2
      have key : ∀ {T : List (Nat × Bytes)} {c : Chunk}, Grouped gs T c → (∀ x ∈ T, x ∈ numbered 0 gs) →
          ∀ p ∈ c, p.cert ≠ none := by
        intro T c hg
        induction hg with
        | nil => simp
        | snoc T c j g recs h' hlt hg hr ih =>
          intro hs p hp
          rcases List.mem_append.mp hp with hp | hp
          · exact ih (fun x hx => hs x (by simp [hx])) p hp
          · rw [List.mem_singleton] at hp
            subst hp
            obtain ⟨r, hr⟩ := List.exists_mem_of_ne_nil recs hr
            obtain ⟨g', -, h3, h4⟩ := hin 0 gs (j, r) (hs _ (by simp [hr]))
            simp only [Nat.sub_zero] at h3
            rw [hg] at h3
            cases h3
            exact h g (List.mem_of_getElem? hg) (List.ne_nil_of_mem h4)
      exact key hgr hsub p hp
  constructor
  · rintro ⟨⟨-, c₁, ps, s, P, s', u', i, hinfo, hP, hv, hi, hidx, rfl⟩, hff⟩
    obtain ⟨hpk, hP⟩ := packageChunk_iff.mp hP
    have hcond := hpack.mp hpk
    have hF := (hA _).mp ⟨P, hP, rfl⟩
    obtain ⟨Q, hQ, hs⟩ := (hB _).mpr hF
    obtain ⟨pkgs, hpkgs, rfl⟩ := packages_iff.mpr ⟨hpieces hcond, hQ⟩
    obtain ⟨j, hrj, hup, hjdx⟩ := updateInfo_ok (r := s') (used := u') hinfo
    have hij : j = i := by
      rcases hidx with rfl | ⟨rfl, rfl⟩
      · rcases hjdx with h | ⟨h, -⟩
        · simpa using h.symm
        · cases h
      · rcases hjdx with h | ⟨-, h⟩
        · cases h
        · exact h
    subst hij
    refine ⟨⟨hne, c₁, ps, s, c.used, pkgs, s', u', s', getInfo_iff.mpr ⟨hinfo, rfl⟩, hpkgs, ?_, ?_, rfl, hup⟩, hcond⟩
    · rw [groups_spread (hneB hQ), hs, ← groups_spread (hneA hP)]
      exact hv
    · rw [hrecs hF hs]
      exact hff
  · rintro ⟨⟨-, c₁, ps, s, used, pkgs, s', u', r, hg, hpkgs, hv, hff, rfl, hup⟩, hcond⟩
    obtain ⟨hinfo, rfl⟩ := getInfo_iff.mp hg
    obtain ⟨-, hQ⟩ := packages_iff.mp ⟨pkgs, hpkgs, rfl⟩
    have hF := (hB _).mp ⟨_, hQ, rfl⟩
    obtain ⟨P, hP, hs⟩ := (hA _).mpr hF
    obtain ⟨j, hrj, hup', hjdx⟩ := updateInfo_ok (r := s') (used := u') hinfo
    rw [hup] at hup'
    cases hup'
    refine ⟨⟨trivial, c₁, ps, s, P, s', u', j, hinfo, packageChunk_iff.mpr ⟨hpack.mpr hcond, hP⟩, ?_, hrj, hjdx, rfl⟩, ?_⟩
    · rw [groups_spread (hneA hP), hs, ← groups_spread (hneB hQ)]
      exact hv
    · rw [← hrecs hF rfl]
      exact hff

/-- A chunk taken apart into its groups. -/
theorem grouped_apart {gs : List DepGroup} {T : List (Nat × Bytes)} {c : Chunk} (h : Grouped gs T c) :
    ∃ Ts, Ts.flatten = T ∧ List.Forall₂ (Grouped gs) Ts (c.map fun g => [g]) := by
  induction h with
  | nil => exact ⟨[], rfl, .nil⟩
  | snoc T c i g recs h hlt hg hr ih =>
    obtain ⟨Ts, rfl, h2⟩ := ih
    refine ⟨Ts ++ [recs.map fun r => (i, r)], by simp, ?_⟩
    rw [List.map_append]
    exact List.rel_append h2 (.cons (Grouped.snoc [] [] i g recs .nil (by simp) hg hr) .nil)

/-- The chunks of the parsers. -/
theorem dict_chunked {j : Json} {gs : List DepGroup} (h : DepJson j gs) (nparts n : Nat)
    (hsome : ∃ g ∈ gs, g.recs ≠ []) : ∃ chunks, dictParse nparts j n = ⟨chunks, none⟩ ∧ chunks ≠ [] ∧
      Chunked gs chunks := by
  have pos : ∀ n, n ≠ 0 → ∃ chunks, dictParse nparts j n = ⟨chunks, none⟩ ∧ chunks ≠ [] ∧ Chunked gs chunks := by
    intro n hn
    obtain ⟨chunks, Ts, h1, h2, h3⟩ := dict_chunks h (nparts := nparts) hn hsome
    refine ⟨chunks, h1, ?_, Ts, h2.1, h3⟩
    rintro rfl
    rw [dictParse_json h hn] at h1
    split at h1
    · cases h1
    · rename_i hne
      exact hne (congrArg Stream.chunks h1)
  by_cases hn : n = 0
  · subst hn
    by_cases hp : 1 < nparts
    · obtain ⟨n, h1, -, h0⟩ := dict_part_size h hp hsome
      rw [h0]
      exact pos n h1
    · refine ⟨_, dict_chunks_zero h (by omega) hsome, ?_, grouped_apart (grouped_all gs)⟩
      obtain ⟨g, hg, hne⟩ := hsome
      intro e
      have := List.filter_eq_nil_iff.mp (List.map_eq_nil_iff.mp e) g hg
      simp [hne] at this
  · exact pos n hn

/-- C38 for the parsers of whole documents and of files. -/
theorem chunk_size_doc_partial {doc : Json} {gs : List DepGroup} (h : DepJson doc gs)
    (hsome : ∃ g ∈ gs, g.recs ≠ []) (hcert : ∀ g ∈ gs, g.cert ≠ none) {parts : Stream} {nparts n : Nat}
    (hparts : parts = dictParse nparts doc n ∨ PlainDoc doc ∧ parts = fileParse doc n)
    {wk : Workers} {nprocs : Int} (hwk : (∃ pick, wk = .pool pick) ∨ nprocs ≤ 1)
    {ks : KeyStore} {key : Option Bytes} {c c' : Cluster} (hc : ∀ r ∈ c.regs, Consistent r)
    {idx : Option Int} (hf : FirstFresh c.used (gs.flatMap (·.recs))) :
    verifyParsedDEP wk nprocs ks key c idx parts = (c', .ok ()) ↔
      verifyDEP ks key c idx (dictParse 1 doc 0) = (c', .ok ()) := by
  obtain ⟨chunks, rfl, h2, h3⟩ : ∃ chunks, parts = ⟨chunks, none⟩ ∧ chunks ≠ [] ∧ Chunked gs chunks := by
    rcases hparts with rfl | ⟨hp, rfl⟩
    · exact dict_chunked h _ _ hsome
    · by_cases hn : n = 0
      · subst hn
        rw [file_single_chunk h hp hsome]
        exact ⟨_, rfl, by simp, [numbered 0 gs], by simp, .cons (grouped_all gs) .nil⟩
      · rw [file_eq_dict (nparts := 1) h hp hn]
        exact dict_chunked h _ _ hsome
  have := chunk_size_partial (ks := ks) (key := key) (c := c) (c' := c') (idx := idx)
    (dict_chunks_zero h (nparts := 1) (le_refl _) hsome) (parts := ⟨chunks, none⟩) h3 h2 rfl hwk hc
  constructor
  · exact fun hv => (this.mpr ⟨hv, .inr fun g hg _ => hcert g hg⟩).1
  · exact fun hv => (this.mp ⟨hv, hf⟩).1

end

namespace Demo

attribute [local instance] env

/-- The day of the register in two groups. -/
def dayDoc : Json := .obj [(kGroups, .arr [groupRecsFirst (names (texts.take 3)) (exportCertToPEM device) [],
  groupRecsFirst (names (texts.drop 3)) (exportCertToPEM device) []])]

def dayGroups : List DepGroup :=
  [⟨(texts.take 3).map utf8Enc, some device, []⟩, ⟨(texts.drop 3).map utf8Enc, some device, []⟩]

theorem dayDoc_json : DepJson dayDoc dayGroups := by
  refine .mk _ _ _ rfl (.cons ?_ (.cons ?_ .nil))
  · exact .mk _ _ _ [] _ _ rfl rfl rfl (.some _ _ (by decide +kernel) (certOf_device _)) .nil
  · exact .mk _ _ _ [] _ _ rfl rfl rfl (.some _ _ (by decide +kernel) (certOf_device _)) .nil

theorem dayDoc_plain : PlainDoc dayDoc := by
  refine .mk _ (by decide +kernel) ?_ ?_
  · simp only [Dict.keys, List.map_cons, List.map_nil, List.mem_cons, List.not_mem_nil, or_false]
    rintro k rfl
    decide +kernel
  · intro js h d hd
    cases h
    simp only [List.mem_cons, List.not_mem_nil, or_false] at hd
    rcases hd with hd | hd <;> cases hd <;> simp only [Dict.keys, List.map_cons, List.map_nil] <;> decide +kernel

set_option maxRecDepth 100000 in
theorem dayDoc_ok : verifyDEP deviceStore (some aes) empty none (dictParse 1 dayDoc 0) =
    (⟨[final], .unique ids⟩, .ok ()) :=
  eq_of_isDone (by decide +kernel)

/-- So it is accepted with any chunk size, from memory or from a file, with any pool. -/
example (n nparts : Nat) (pick : List Err → Err) (nprocs : Int) :
    verifyParsedDEP (.pool pick) nprocs deviceStore (some aes) empty none (dictParse nparts dayDoc n) =
      (⟨[final], .unique ids⟩, .ok ()) ∧
    verifyParsedDEP (.pool pick) nprocs deviceStore (some aes) empty none (fileParse dayDoc n) =
      (⟨[final], .unique ids⟩, .ok ()) := by
  have hs : ∃ g ∈ dayGroups, g.recs ≠ [] := ⟨_, List.mem_cons_self, by
    intro h
    have : (List.isEmpty ((texts.take 3).map utf8Enc)) = true := by simpa using h
    exact absurd this (by decide +kernel)⟩
  have hc : ∀ g ∈ dayGroups, g.cert ≠ none := by simp [dayGroups]
  exact ⟨(chunk_size_doc_partial dayDoc_json hs hc (.inl rfl) (.inl ⟨_, rfl⟩) (by simp [empty])
      (firstFresh_of_fresh (.unique ∅) _)).mpr dayDoc_ok,
    (chunk_size_doc_partial (nparts := 1) dayDoc_json hs hc (.inr ⟨dayDoc_plain, rfl⟩) (.inl ⟨_, rfl⟩) (by simp [empty])
      (firstFresh_of_fresh (.unique ∅) _)).mpr dayDoc_ok⟩

def closedDoc : Json := .obj [(kGroups, .arr [groupOf (names (firstTexts.take 1)) [] [],
  groupOf (names (firstTexts.drop 1)) [] []])]

set_option maxRecDepth 100000 in
/-- C38 is false: two groups without certificate are rejected in one go and with chunks of two
receipts, but accepted with chunks of one receipt. -/
theorem chunk_size_matters :
    (verifyDEP closedStore (some aes) empty none (dictParse 1 closedDoc 0)).2 = .error .noCertificateGiven ∧
    (verifyParsedDEP .alone 1 closedStore (some aes) empty none (dictParse 1 closedDoc 2)).2 =
      .error .noCertificateGiven ∧
    isOk (verifyParsedDEP .alone 1 closedStore (some aes) empty none (dictParse 1 closedDoc 1)).2 () = true := by
  decide +kernel

end Demo

end RKSV
