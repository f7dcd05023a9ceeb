import Verif.Model.Balance
import Verif.Props.ChunkSize
/-
Property C56: distribution of work.
-/
namespace RKSV

/-- A list cut into pieces. -/
theorem slices_cut {α : Type} {k : Nat} (hk : k ≠ 0) (l : List α) :
    ∃ ps, slices k l = .ok ps ∧ CutEvery k l ps ∧ ps.length = (l.length + k - 1) / k := by
  refine ⟨_, if_neg hk, ⟨?_, ?_⟩, by simp⟩
  · generalize hm : (l.length + k - 1) / k = m
    have hlen : l.length ≤ m * k := by
      have := Nat.div_add_mod (l.length + k - 1) k
      have hlt := Nat.mod_lt (l.length + k - 1) (Nat.pos_of_ne_zero hk)
      rw [hm, Nat.mul_comm] at this
      omega
    have : ∀ m, (((List.range m).map fun i => (l.drop (i * k)).take k).flatten) = l.take (m * k) := by
      intro m
      induction m with
      | zero => simp
      | succ m ih =>
        rw [List.range_succ, List.map_append, List.flatten_append, ih, List.map_singleton,
          List.flatten_singleton, Nat.succ_mul, List.take_add]
    rw [this, List.take_of_length_le hlen]
  · intro pre p post e
    have hget : (List.map (fun i => (l.drop (i * k)).take k) (List.range ((l.length + k - 1) / k)))[pre.length]? =
        some p := by rw [e]; simp
    rw [List.getElem?_map, Option.map_eq_some_iff] at hget
    obtain ⟨i, hi, rfl⟩ := hget
    obtain ⟨hlt, rfl⟩ := List.getElem?_eq_some_iff.mp hi
    rw [List.length_range] at hlt
    rw [List.getElem_range]
    have h1 : pre.length * k < l.length := by
      have := (Nat.lt_iff_add_one_le.mp hlt)
      have h2 := (Nat.le_div_iff_mul_le (Nat.pos_of_ne_zero hk)).mp this
      rw [Nat.succ_mul] at h2
      omega
    refine ⟨?_, by simp, ?_⟩
    · intro e
      have := congrArg List.length e
      simp only [List.length_take, List.length_drop, List.length_nil] at this
      omega
    · intro hpost
      have h3 : pre.length + 1 < (l.length + k - 1) / k := by
        have := congrArg List.length e
        simp only [List.length_map, List.length_range, List.length_append, List.length_cons] at this
        have := List.length_pos_iff.mpr hpost
        omega
      have h4 := (Nat.le_div_iff_mul_le (Nat.pos_of_ne_zero hk)).mp h3
      rw [Nat.succ_mul, Nat.succ_mul] at h4
      simp only [List.length_take, List.length_drop]
      omega

/-- Objects with the same identity are the same. -/
def Identified {V I : Type} (ident : V → I) (vs : List V) : Prop :=
  ∀ v ∈ vs, ∀ v' ∈ vs, ident v = ident v' → v = v'

theorem groupRuns_mem {α V I : Type} [DecidableEq I] {ident : V → I} (l : List (α × V)) :
    ∀ g ∈ groupRuns ident l, g.2 ∈ l.map (·.2) := by
  induction l with
  | nil => simp [groupRuns]
  | cons x l ih =>
    obtain ⟨r, v⟩ := x
    unfold groupRuns
    split
    · simp
    · rename_i rs v' gs e
      rw [e] at ih
      have hv' : v' ∈ l.map (·.2) := ih _ (List.mem_cons_self ..)
      have hgs : ∀ g ∈ gs, g.2 ∈ l.map (·.2) := fun g hg => ih g (List.mem_cons_of_mem _ hg)
      split
      all_goals
        intro g hg
        simp only [List.mem_cons] at hg
        rw [List.map_cons, List.mem_cons]
      · rcases hg with rfl | hg
        · exact .inl rfl
        · exact .inr (hgs g hg)
      · rcases hg with rfl | rfl | hg
        · exact .inl rfl
        · exact .inr hv'
        · exact .inr (hgs g hg)

theorem groupRuns_spread {α V I : Type} [DecidableEq I] {ident : V → I} (l : List (α × V))
    (hi : Identified ident (l.map (·.2))) :
    ((groupRuns ident l).flatMap fun g => g.1.map fun r => (r, g.2)) = l := by
  induction l with
  | nil => rfl
  | cons x l ih =>
    obtain ⟨r, v⟩ := x
    have ih := ih fun a ha b hb => hi a (by simp at ha ⊢; exact .inr ha) b (by simp at hb ⊢; exact .inr hb)
    unfold groupRuns
    split
    · rename_i e
      rw [e] at ih
      rw [← ih]
      rfl
    · rename_i rs v' gs e
      have hm : v' ∈ l.map (·.2) := groupRuns_mem (ident := ident) l _ (by rw [e]; exact List.mem_cons_self ..)
      rw [e] at ih
      split
      · rename_i hv
        have hv := hi v (by simp) v' (List.mem_cons_of_mem _ hm) hv
        subst hv
        rw [← ih]
        simp
      · rw [← ih]
        simp

/-- Neighbouring groups have different verifiers. -/
def Apart {α V I : Type} (ident : V → I) : List (List α × V) → Prop
  | [] => True
  | [_] => True
  | a :: b :: l => ident a.2 ≠ ident b.2 ∧ Apart ident (b :: l)

theorem groupRuns_apart {α V I : Type} [DecidableEq I] {ident : V → I} (l : List (α × V)) :
    Apart ident (groupRuns ident l) ∧ ∀ g ∈ groupRuns ident l, g.1 ≠ [] := by
  induction l with
  | nil => exact ⟨trivial, by simp [groupRuns]⟩
  | cons x l ih =>
    obtain ⟨r, v⟩ := x
    unfold groupRuns
    split
    · exact ⟨trivial, by simp⟩
    · rename_i rs v' gs e
      rw [e] at ih
      obtain ⟨h1, h2⟩ := ih
      split
      · rename_i hv
        refine ⟨?_, ?_⟩
        · cases gs with
          | nil => trivial
          | cons g gs => exact ⟨hv ▸ h1.1, h1.2⟩
        · intro g hg
          rcases List.mem_cons.mp hg with rfl | hg
          · simp
          · exact h2 g (by simp [hg])
      · rename_i hv
        refine ⟨⟨hv, h1⟩, ?_⟩
        intro g hg
        rcases List.mem_cons.mp hg with rfl | hg
        · simp
        · exact h2 g hg

/-- C56: a work list with receipts is cut into at most `nprocs` packages.  Their receipts with their
verifiers are those of the work list in the same order, all packages but the last have the same size,
the last one is not larger, and neither packages nor groups are empty. -/
theorem balance_ok {α V I : Type} [DecidableEq I] {ident : V → I} {groups : List (List α × V)} {nprocs : Nat}
    (hn : nprocs ≠ 0) (hi : Identified ident (groups.map (·.2))) (hsome : ∃ g ∈ groups, g.1 ≠ []) :
    ∃ pkgs k, balanceGroups ident groups nprocs = .ok pkgs ∧ pkgs.length ≤ nprocs ∧
      (pkgs.flatten.flatMap fun g => g.1.map fun r => (r, g.2)) =
        (groups.flatMap fun g => g.1.map fun r => (r, g.2)) ∧
      (∀ p ∈ pkgs, p ≠ [] ∧ Apart ident p ∧ ∀ g ∈ p, g.1 ≠ []) ∧
      ∀ pre p post, pkgs = pre ++ p :: post →
        (p.map fun g => g.1.length).sum ≤ k ∧ (post ≠ [] → (p.map fun g => g.1.length).sum = k) := by
  unfold balanceGroups
  generalize hr : (groups.flatMap fun g => g.1.map fun r => (r, g.2)) = recs
  have hpos : 0 < recs.length := by
    obtain ⟨g, hg, hne⟩ := hsome
    obtain ⟨r, hrm⟩ := List.exists_mem_of_ne_nil _ hne
    refine List.length_pos_of_mem (a := (r, g.2)) ?_
    rw [← hr, List.mem_flatMap]
    exact ⟨g, hg, List.mem_map.mpr ⟨r, hrm, rfl⟩⟩
  have hk : (recs.length + nprocs - 1) / nprocs ≠ 0 := by
    have := Nat.div_add_mod (recs.length + nprocs - 1) nprocs
    have hlt := Nat.mod_lt (recs.length + nprocs - 1) (Nat.pos_of_ne_zero hn)
    intro h0
    rw [h0] at this
    omega
  obtain ⟨ps, h1, h2, h3⟩ := slices_cut hk recs
  have hid : ∀ p ∈ ps, Identified ident (p.map (·.2)) := by
    have hmem : ∀ p ∈ ps, ∀ v ∈ p.map (·.2), v ∈ groups.map (·.2) := by
      intro p hp v hv
      obtain ⟨x, hx, rfl⟩ := List.mem_map.mp hv
      have : x ∈ recs := by rw [← h2.1]; exact List.mem_flatten.mpr ⟨p, hp, hx⟩
      rw [← hr, List.mem_flatMap] at this
      obtain ⟨g, hg, hx⟩ := this
      obtain ⟨r, -, rfl⟩ := List.mem_map.mp hx
      exact List.mem_map.mpr ⟨g, hg, rfl⟩
    exact fun p hp a ha b hb => hi a (hmem p hp a ha) b (hmem p hp b hb)
  refine ⟨ps.map (groupRuns ident), (recs.length + nprocs - 1) / nprocs, ?_, ?_, ?_, ?_, ?_⟩
  · simp only [h1, Res.ok_bind]
  · rw [List.length_map, h3, Nat.div_le_iff_le_mul_add_pred (Nat.pos_of_ne_zero hk)]
    generalize hq : (recs.length + nprocs - 1) / nprocs = q at *
    have := Nat.div_add_mod (recs.length + nprocs - 1) nprocs
    have hlt := Nat.mod_lt (recs.length + nprocs - 1) (Nat.pos_of_ne_zero hn)
    rw [hq] at this
    rw [Nat.mul_comm q nprocs]
    omega
  · rw [← h2.1]
    clear h1 h2 h3
    induction ps with
    | nil => rfl
    | cons p ps ih =>
      simp only [List.map_cons, List.flatten_cons, List.flatMap_append]
      rw [ih fun q hq => hid q (List.mem_cons_of_mem _ hq), groupRuns_spread _ (hid p (List.mem_cons_self ..))]
  · intro p hp
    obtain ⟨q, hq, rfl⟩ := List.mem_map.mp hp
    refine ⟨?_, groupRuns_apart q⟩
    intro e
    obtain ⟨a, b, e'⟩ := List.append_of_mem hq
    have := (h2.2 a q b e').1
    have hs := groupRuns_spread q (hid q hq)
    rw [e] at hs
    exact this hs.symm
  · intro pre p post e
    obtain ⟨a, b, e1, e2, e3⟩ := List.map_eq_append_iff.mp e
    obtain ⟨q, c, rfl, rfl, rfl⟩ := List.map_eq_cons_iff.mp e3
    have hs := congrArg List.length (groupRuns_spread q (hid q (by rw [e1]; simp)))
    rw [List.length_flatMap] at hs
    simp only [List.length_map] at hs
    rw [hs]
    have := h2.2 a q c e1
    exact ⟨this.2.1, fun hne => this.2.2 (by rintro rfl; exact hne rfl)⟩

/-- A work list without receipts is a `ValueError`. -/
theorem balance_empty {α V I : Type} [DecidableEq I] {ident : V → I} {groups : List (List α × V)} {nprocs : Nat}
    (hn : nprocs ≠ 0) (hnone : ∀ g ∈ groups, g.1 = []) : balanceGroups ident groups nprocs = .error .valueError := by
  have : (groups.flatMap fun g => g.1.map fun r => (r, g.2)) = [] := by
    rw [List.flatMap_eq_nil_iff]
    intro g hg
    rw [hnone g hg]
    rfl
  unfold balanceGroups
  simp only [this, List.length_nil, slices]
  rw [if_pos (Nat.div_eq_of_lt (by omega))]
  rfl

/-- C56: batches have exactly `nprocs` elements, the last one at most that, none is empty, and together
they are the list. -/
theorem batches_cut {α : Type} {nprocs : Nat} (hn : nprocs ≠ 0) (l : List α) :
    CutEvery nprocs l (chunksForProcs nprocs l) := by
  have key : ∀ (l acc : List α), acc.length < nprocs →
      CutEvery nprocs (acc ++ l) (batchesAux nprocs false acc l) := by
    intro l
    induction l with
    | nil =>
      intro acc ha
      unfold batchesAux
      split
      · rename_i h
        have : acc = [] := by simpa using h
        subst this
        exact ⟨rfl, by simp⟩
      · rename_i h
        refine ⟨by simp, ?_⟩
        intro pre p post e
        rcases List.append_eq_cons_iff.mp e.symm with ⟨rfl, e⟩ | ⟨_, rfl, e⟩
        · cases e
          exact ⟨by simpa using h, by omega, fun h => absurd rfl h⟩
        · simp at e
    | cons x l ih =>
      intro acc ha
      unfold batchesAux
      split
      · rename_i h
        have h' : nprocs ≤ (acc ++ [x]).length := by exact_mod_cast h
        have hlen : (acc ++ [x]).length = nprocs := by
          rw [List.length_append, List.length_singleton] at h' ⊢
          omega
        obtain ⟨h1, h2⟩ := ih [] (Nat.pos_of_ne_zero hn)
        refine ⟨by rw [List.flatten_cons, h1]; simp, ?_⟩
        intro pre p post e
        cases pre with
        | nil =>
          simp only [List.nil_append, List.cons.injEq] at e
          rw [← e.1, hlen]
          exact ⟨by simp, le_refl _, fun _ => rfl⟩
        | cons y pre =>
          simp only [List.cons_append, List.cons.injEq] at e
          exact h2 pre p post e.2
      · rename_i h
        have h' : ¬nprocs ≤ (acc ++ [x]).length := by exact_mod_cast h
        have := ih (acc ++ [x]) (by omega)
        simpa using this
  exact key l [] (Nat.pos_of_ne_zero hn)

section
variable [PyEnv]

/-- Consequence: verifying the packages one after the other is verifying the groups that have
receipts. -/
theorem balance_verify {V I : Type} [DecidableEq I] {ident : V → I} {groups : List (List Bytes × V)} {nprocs : Nat}
    (hi : Identified ident (groups.map (·.2))) {pkgs : List (List (List Bytes × V))}
    (h : balanceGroups ident groups nprocs = .ok pkgs) (hn : nprocs ≠ 0) (hg : ∀ g ∈ groups, g.1 ≠ [])
    (ver : V → Verifier) (key : Option Bytes) (ps : Option Str) (s : RegState) (used : Used) :
    verifyGroups key ps s used (pkgs.flatten.map fun p => (p.1, ver p.2)) =
      verifyGroups key ps s used (groups.map fun p => (p.1, ver p.2)) := by
  by_cases hsome : ∃ g ∈ groups, g.1 ≠ []
  · obtain ⟨pkgs', k, h1, -, h3, h4, -⟩ := balance_ok hn hi hsome
    rw [h] at h1
    cases h1
    rw [groups_spread (P := pkgs.flatten.map _), groups_spread (P := groups.map _)]
    · unfold spread
      have := congrArg (List.map fun x : Bytes × V => single (x.1, ver x.2)) h3
      simp only [List.map_flatMap, List.map_map, List.flatMap_map, Function.comp_def] at this ⊢
      rw [this]
    · intro p hp
      obtain ⟨q, hq, rfl⟩ := List.mem_map.mp hp
      exact hg q hq
    · intro p hp
      obtain ⟨p', hp', rfl⟩ := List.mem_map.mp hp
      obtain ⟨q, hq, hp'⟩ := List.mem_flatten.mp hp'
      exact (h4 q hq).2.2 p' hp'
  · have hnone : ∀ g ∈ groups, g.1 = [] := by
      intro g hg
      by_contra hne
      exact hsome ⟨g, hg, hne⟩
    rw [balance_empty hn hnone] at h
    cases h

end

namespace Demo

/-- Seven receipts of three groups for three processes. -/
example : balanceGroups id [([1, 2], 'a'), ([], 'b'), ([3, 4], 'a'), ([5, 6, 7], 'c')] 3 =
    .ok [[([1, 2, 3], 'a')], [([4], 'a'), ([5, 6], 'c')], [([7], 'c')]] := by rfl

example : ∃ pkgs, balanceGroups id [([1, 2], 'a'), ([3, 4], 'a'), ([5, 6, 7], 'c')] 3 = .ok pkgs ∧ pkgs.length ≤ 3 := by
  obtain ⟨pkgs, _, h1, h2, -⟩ := balance_ok (groups := [([1, 2], 'a'), ([3, 4], 'a'), ([5, 6, 7], 'c')])
    (ident := id) (nprocs := 3) (by decide) (fun _ _ _ _ h => h) ⟨([1, 2], 'a'), by simp, by simp⟩
  exact ⟨pkgs, h1, h2⟩

example : balanceGroups id [(([] : List Nat), 'a')] 3 = .error .valueError := balance_empty (by decide) (by simp)

example : chunksForProcs 2 [1, 2, 3, 4, 5] = [[1, 2], [3, 4], [5]] := by rfl

end Demo

end RKSV
