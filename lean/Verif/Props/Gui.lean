import Verif.Model.Gui
import Verif.Props.Balance
import Verif.Props.Parallel
import Verif.Lemmas.Dep
/-
Property C70: verification in the graphical tool.
-/
namespace RKSV

section
variable [PyEnv]

theorem guiLoad_ok {doc : Json} {gs : List DepGroup} (h : DepJson doc gs) (hsome : ∃ g ∈ gs, g.recs ≠ []) :
    guiLoad doc = .ok (gs.filter fun g => g.recs ≠ []) := by
  unfold guiLoad
  rw [dict_chunks_zero h (by omega) hsome]
  simp only
  have : ∀ l : List DepGroup, mapRes (fun c : Chunk => orErr c.head? .indexError) (l.map fun g => [g]) = .ok l := by
    intro l
    induction l with
    | nil => rfl
    | cons g l ih =>
      rw [List.map_cons, mapRes, ih]
      rfl
  rw [this]
  rfl

theorem guiMain_iff {key : Option Bytes} {ts : List Task} {us : List Used} :
    guiMain key ts = .ok us ↔ ∃ rs, Done key none (.unique ∅) ts rs ∧ us = rs.map (·.2) := by
  unfold guiMain Done
  rw [mapRes_iff]
  constructor
  · intro h
    induction h with
    | nil => exact ⟨[], .nil, rfl⟩
    | cons h1 h2 ih =>
      obtain ⟨rs, hr, rfl⟩ := ih
      rw [guiMainTask, Res.bind_eq_ok] at h1
      obtain ⟨⟨s, u⟩, h1, h3⟩ := h1
      refine ⟨(s, u) :: rs, .cons h1 hr, ?_⟩
      simp only [Except.ok.injEq] at h3
      rw [← h3]
      rfl
  · rintro ⟨rs, hr, rfl⟩
    induction hr with
    | nil => exact .nil
    | cons h1 h2 ih =>
      refine .cons ?_ ih
      rw [guiMainTask, h1]
      rfl

theorem numberVerifiers_snd (gs : List (List Bytes × Verifier)) :
    (numberVerifiers gs).map (fun g => (g.1, g.2.2)) = gs := by
  unfold numberVerifiers
  rw [List.map_map]
  have : ((fun g : List Bytes × (Nat × Verifier) => (g.1, g.2.2)) ∘ fun x : (List Bytes × Verifier) × Nat =>
      (x.1.1, (x.2, x.1.2))) = Prod.fst := rfl
  rw [this, List.zipIdx_map_fst]

theorem numberVerifiers_identified (gs : List (List Bytes × Verifier)) :
    Identified Prod.fst ((numberVerifiers gs).map (·.2)) := by
  have key : ∀ v ∈ (numberVerifiers gs).map (·.2), ∃ g, gs[v.1]? = some (g, v.2) := by
    intro v hv
    unfold numberVerifiers at hv
    rw [List.map_map] at hv
    obtain ⟨⟨⟨g, w⟩, i⟩, hm, rfl⟩ := List.mem_map.mp hv
    exact ⟨g, by simpa using List.mem_zipIdx_iff_getElem?.mp hm⟩
  intro a ha b hb e
  obtain ⟨i, v⟩ := a
  obtain ⟨j, w⟩ := b
  obtain ⟨g, hg⟩ := key _ ha
  obtain ⟨g', hg'⟩ := key _ hb
  simp only at e hg hg'
  subst e
  rw [hg] at hg'
  cases hg'
  rfl

theorem guiShow_ok {dep : List DepGroup} {h : List Entry} (hr : Reads (dep.map (·.recs)).flatten h) :
    guiShow dep = .ok () := by
  have h1 : ∀ r ∈ (dep.map (·.recs)).flatten, ∃ x, expandReceipt r >>= fromJWS = .ok x := by
    intro r hm
    rw [hr.1] at hm
    obtain ⟨x, hx, rfl⟩ := List.mem_map.mp hm
    refine ⟨(x.2, c!"R1"), ?_⟩
    rw [expandReceipt_iff.mpr rfl, Res.ok_bind]
    exact hr.2 x hx
  have h2 : ∀ l : List Bytes, (∀ r ∈ l, ∃ x, expandReceipt r >>= fromJWS = .ok x) →
      ∃ xs, mapRes (fun r => expandReceipt r >>= fromJWS) l = .ok xs := by
    intro l hl
    induction l with
    | nil => exact ⟨[], rfl⟩
    | cons r l ih =>
      obtain ⟨x, hx⟩ := hl r (by simp)
      obtain ⟨xs, hxs⟩ := ih fun r hr => hl r (by simp [hr])
      exact ⟨x :: xs, by simp only [mapRes, hx, hxs, Res.ok_bind]⟩
  have h3 : ∃ xs, mapRes (fun g : DepGroup => mapRes (fun r => expandReceipt r >>= fromJWS) g.recs) dep = .ok xs := by
    have : ∀ g ∈ dep, ∀ r ∈ g.recs, ∃ x, expandReceipt r >>= fromJWS = .ok x := fun g hg r hr =>
      h1 r (List.mem_flatten.mpr ⟨g.recs, List.mem_map.mpr ⟨g, hg, rfl⟩, hr⟩)
    clear h1 hr
    induction dep with
    | nil => exact ⟨[], rfl⟩
    | cons g dep ih =>
      obtain ⟨x, hx⟩ := h2 g.recs (this g (by simp))
      obtain ⟨xs, hxs⟩ := ih fun g hg => this g (by simp [hg])
      exact ⟨x :: xs, by simp only [mapRes, hx, hxs, Res.ok_bind]⟩
  obtain ⟨xs, h3⟩ := h3
  unfold guiShow
  rw [h3]
  rfl

/-- The tasks of the tool accept exactly if the groups are accepted one after the other. -/
theorem guiTasks_iff {ks : KeyStore} {key : Option Bytes} {nprocs : Nat} (hn : nprocs ≠ 0) {dep : List DepGroup}
    (hne : dep ≠ []) (hall : ∀ g ∈ dep, g.recs ≠ []) :
    (∃ ts us u, guiPrepare ks key nprocs dep = .ok ts ∧ guiMain key ts = .ok us ∧ guiFinalize us = .ok u) ↔
      ∃ P x, packageChunk ks dep = .ok P ∧ verifyGroups key none {} (.unique ∅) P = .ok x := by
  have main : ∀ P, packageChunk ks dep = .ok P → ∃ pkgs,
      balanceGroups Prod.fst (numberVerifiers P) nprocs = .ok pkgs ∧ pkgs ≠ [] ∧
      (∀ q ∈ pkgs.map (fun p => p.map fun g => (g.1, g.2.2)), Able q) ∧
      ∀ (s : RegState) (used : Used), verifyGroups key none s used
        ((pkgs.map fun p => p.map fun g => (g.1, g.2.2)).flatten) = verifyGroups key none s used P := by
    intro P hP
    have hrecs := packageChunk_recs hP
    have hPall : ∀ g ∈ P, g.1 ≠ [] := by
      intro g hg
      have : g.1 ∈ dep.map (·.recs) := by rw [← hrecs]; exact List.mem_map.mpr ⟨g, hg, rfl⟩
      obtain ⟨d, hd, e⟩ := List.mem_map.mp this
      exact e ▸ hall d hd
    have hPne : P ≠ [] := by
      rintro rfl
      simp only [List.map_nil] at hrecs
      exact hne (List.map_eq_nil_iff.mp hrecs.symm)
    have hsnd := numberVerifiers_snd P
    have hNall : ∀ g ∈ numberVerifiers P, g.1 ≠ [] := by
      intro g hg
      refine hPall (g.1, g.2.2) ?_
      rw [← hsnd]
      exact List.mem_map.mpr ⟨g, hg, rfl⟩
    have hNsome : ∃ g ∈ numberVerifiers P, g.1 ≠ [] := by
      have : numberVerifiers P ≠ [] := by
        intro e
        rw [e] at hsnd
        exact hPne hsnd.symm
      obtain ⟨g, hg⟩ := List.exists_mem_of_ne_nil _ this
      exact ⟨g, hg, hNall g hg⟩
    have hid := numberVerifiers_identified P
    obtain ⟨pkgs, k, h1, -, h3, h4, -⟩ := balance_ok hn hid hNsome
    refine ⟨pkgs, h1, ?_, ?_, ?_⟩
    · rintro rfl
      simp only [List.flatten_nil, List.flatMap_nil] at h3
      obtain ⟨g, hg, hgn⟩ := hNsome
      have := List.flatMap_eq_nil_iff.mp h3.symm g hg
      exact hgn (List.map_eq_nil_iff.mp this)
    · intro q hq g hg
      obtain ⟨p, hp, rfl⟩ := List.mem_map.mp hq
      obtain ⟨x, hx, rfl⟩ := List.mem_map.mp hg
      have hable := packageChunk_able hP
      have hxne := (h4 p hp).2.2 x hx
      obtain ⟨r, hr⟩ := List.exists_mem_of_ne_nil _ hxne
      have : (r, x.2) ∈ (numberVerifiers P).flatMap fun g => g.1.map fun r => (r, g.2) := by
        rw [← h3, List.mem_flatMap]
        exact ⟨x, List.mem_flatten.mpr ⟨p, hp, hx⟩, List.mem_map.mpr ⟨r, hr, rfl⟩⟩
      obtain ⟨y, hy, hm⟩ := List.mem_flatMap.mp this
      obtain ⟨r', -, e⟩ := List.mem_map.mp hm
      simp only [Prod.mk.injEq] at e
      have hyP : (y.1, y.2.2) ∈ P := by rw [← hsnd]; exact List.mem_map.mpr ⟨y, hy, rfl⟩
      have := hable _ hyP
      simp only at this ⊢
      rw [← e.2]
      exact this
    · intro s used
      have := balance_verify hid h1 hn hNall Prod.snd key none s used
      rw [hsnd] at this
      rw [← this, List.map_flatten]
  have hR := simulates_similar key none
  unfold guiPrepare guiFinalize
  constructor
  · rintro ⟨ts, us, u, hp, hm, hf⟩
    simp only [Res.bind_eq_ok] at hp
    obtain ⟨P, hP, pkgs, hb, ht⟩ := hp
    obtain ⟨pkgs', hb', hne', hab, hv⟩ := main P hP
    rw [hb] at hb'
    cases hb'
    obtain ⟨rs, hd, rfl⟩ := guiMain_iff.mp hm
    obtain ⟨s', es, h1, -⟩ := packages_sound hR hab (Similar.refl _) (used := .unique ∅) ht hd hf
    rw [hv] at h1
    exact ⟨P, _, hP, h1⟩
  · rintro ⟨P, ⟨s', w⟩, hP, hx⟩
    obtain ⟨pkgs, hb, hne', hab, hv⟩ := main P hP
    rw [← hv] at hx
    have hab' : Able ((pkgs.map fun p => p.map fun g => (g.1, g.2.2)).flatten) := by
      intro q hq
      obtain ⟨Q, hQ, hq⟩ := List.mem_flatten.mp hq
      exact hab Q hQ q hq
    obtain ⟨es, hr, -, hc, -, -⟩ := groups_used hab' hx
    have hc' : Checked True (.unique ∅) es :=
      (checked_true_iff hr hc).mpr (firstFresh_of_fresh (.unique ∅) _)
    obtain ⟨ts, rs, h1, h2, h3, -⟩ := packages_complete hR hab (Similar.refl {}) hx hr hc'
    exact ⟨ts, _, w, by simp only [hP, hb, Res.ok_bind]; exact h1, guiMain_iff.mpr ⟨rs, h2, rfl⟩, h3⟩

/-- C70: the tool shows "Valid DEP" for a DEP exactly if `verifyDEP` accepts it for a register without
history, however many processes there are. -/
theorem gui_verdict {ks : KeyStore} {key : Option Bytes} {nprocs : Nat} (hn : nprocs ≠ 0) {doc : Json}
    {gs : List DepGroup} (h : DepJson doc gs) :
    guiVerify ks key nprocs doc = .ok () ↔
      ∃ c', verifyDEP ks key ⟨[], .unique ∅⟩ none (dictParse 1 doc 0) = (c', .ok ()) := by
  by_cases hsome : ∃ g ∈ gs, g.recs ≠ []
  · have hload := guiLoad_ok h hsome
    rw [dict_chunks_zero h (le_refl _) hsome]
    generalize hd : (gs.filter fun g => g.recs ≠ []) = dep at *
    have hne : dep ≠ [] := by
      obtain ⟨g, hg, hr⟩ := hsome
      rw [← hd]
      intro e
      have := List.filter_eq_nil_iff.mp e g hg
      simp [hr] at this
    have hall : ∀ g ∈ dep, g.recs ≠ [] := by
      intro g hg
      rw [← hd, List.mem_filter] at hg
      simpa using hg.2
    have hfl : (dep.map fun g => [g]).flatten = dep := by
      rw [← List.flatMap_def, List.flatMap_singleton']
    simp only [verifyDEP_iff, hfl, true_and]
    constructor
    · intro hg
      unfold guiVerify at hg
      simp only [hload, Res.ok_bind, Res.bind_eq_ok] at hg
      obtain ⟨_, -, ts, h1, us, h2, u, h3, -⟩ := hg
      obtain ⟨P, ⟨s', u'⟩, hP, hx⟩ := (guiTasks_iff hn hne hall).mp ⟨ts, us, u, h1, h2, h3⟩
      obtain ⟨c₁, hi⟩ : ∃ c₁ : Cluster, Info ⟨[], .unique ∅⟩ none c₁ none {} ∧
          c₁.regs[0]? = some ({} : RegState) :=
        ⟨_, (getInfo_iff.mp rfl).1, rfl⟩
      exact ⟨_, c₁, none, {}, P, s', u', 0, hi.1, hP, hx, hi.2, by simp, rfl⟩
    · rintro ⟨c', c₁, ps, s, P, s', u', i, hi, hP, hx, hs, -, -⟩
      have := getInfo_iff.mpr ⟨hi, rfl⟩
      cases this
      have hr := groups_used (packageChunk_able hP) hx
      obtain ⟨es, hr, -⟩ := hr
      rw [packageChunk_recs hP] at hr
      obtain ⟨ts, us, u, h1, h2, h3⟩ := (guiTasks_iff hn hne hall).mpr ⟨P, _, hP, hx⟩
      unfold guiVerify
      simp only [hload, guiShow_ok hr, h1, h2, h3, Res.ok_bind]
  · have hnone : ∀ g ∈ gs, g.recs = [] := by
      intro g hg
      by_contra hne
      exact hsome ⟨g, hg, hne⟩
    have := dict_no_receipts h (nparts := 1) (n := 0) hnone
    rw [this]
    constructor
    · intro hg
      unfold guiVerify guiLoad at hg
      rw [this] at hg
      cases hg
    · rintro ⟨c', hv⟩
      rw [verifyDEP_iff] at hv
      cases hv.1

end

namespace Demo

attribute [local instance] env

/-- The day of the register is valid with any number of processes. -/
example (nprocs : Nat) (hn : nprocs ≠ 0) : guiVerify deviceStore (some aes) nprocs dayDoc = .ok () :=
  (gui_verdict hn dayDoc_json).mpr ⟨_, dayDoc_ok⟩

/-- Two groups without certificate are not. -/
example : guiVerify closedStore (some aes) 2 closedDoc = .error .noCertificateGiven := by
  decide +kernel

end Demo

end RKSV
