import Verif.Lemmas.Dep
import Verif.Props.StateJson
import Verif.Props.Parallel
/-
Property C34: verification can be interrupted, the state saved as JSON, and resumed later.
-/
namespace RKSV

section
variable [PyEnv]

/-- A DEP cut in two, between two groups or inside one. -/
inductive CutDep : List DepGroup → List DepGroup → List DepGroup → Prop
  | between (a b : List DepGroup) : CutDep (a ++ b) a b
  | inside (pre post : List DepGroup) (r r' : List Bytes) (cert : Option Cert) (chain : List Cert) :
      CutDep (pre ++ ⟨r ++ r', cert, chain⟩ :: post) (pre ++ [⟨r, cert, chain⟩]) (⟨r', cert, chain⟩ :: post)

/-- The parser yields these groups, in some chunks, without an error. -/
def Stream.Yields (d : Stream) (gs : List DepGroup) : Prop := d.chunks.flatten = gs ∧ d.err = none

theorem packable_cut {gs a b : List DepGroup} (h : CutDep gs a b) (hp : Packable gs) :
    Packable a ∧ Packable b := by
  cases h with
  | between a b =>
    rcases hp with hp | hp
    · rw [List.length_append] at hp
      exact ⟨.inl (by omega), .inl (by omega)⟩
    · exact ⟨.inr fun g hg => hp g (by simp [hg]), .inr fun g hg => hp g (by simp [hg])⟩
  | inside pre post r r' cert chain =>
    rcases hp with hp | hp
    · rw [List.length_append, List.length_cons] at hp
      exact ⟨.inl (by rw [List.length_append, List.length_singleton]; omega),
        .inl (by rw [List.length_cons]; omega)⟩
    · have hc : cert ≠ none := hp ⟨r ++ r', cert, chain⟩ (by simp)
      refine ⟨.inr ?_, .inr ?_⟩
      · intro g hg
        rcases List.mem_append.mp hg with hg | hg
        · exact hp g (by simp [hg])
        · rw [List.mem_singleton] at hg; subst hg; exact hc
      · intro g hg
        rcases List.mem_cons.mp hg with rfl | hg
        · exact hc
        · exact hp g (by simp [hg])

theorem packageOne_join {ks : KeyStore} {r r' : List Bytes} {cert : Option Cert} {chain : List Cert}
    {x : List Bytes × Verifier} : packageOne ks ⟨r ++ r', cert, chain⟩ = .ok x ↔
      ∃ v, x = (r ++ r', v) ∧ packageOne ks ⟨r, cert, chain⟩ = .ok (r, v) ∧
        packageOne ks ⟨r', cert, chain⟩ = .ok (r', v) := by
  cases cert with
  | none =>
    simp only [packageOne, Except.ok.injEq, Prod.mk.injEq, true_and]
    constructor
    · rintro rfl; exact ⟨_, rfl, rfl, rfl⟩
    · rintro ⟨v, rfl, rfl, -⟩; rfl
  | some c =>
    simp only [packageOne, Res.bind_eq_ok, Except.ok.injEq, Prod.mk.injEq, true_and]
    constructor
    · rintro ⟨_, hv, rfl⟩; exact ⟨_, rfl, ⟨_, hv, rfl⟩, ⟨_, hv, rfl⟩⟩
    · rintro ⟨v, rfl, ⟨_, hv, rfl⟩, -⟩; exact ⟨_, hv, rfl⟩

/-- Verifying the parts one after the other is verifying the whole. -/
theorem cut_verify {ks : KeyStore} {key : Option Bytes} {ps : Option Str} {s : RegState} {used : Used}
    {gs a b : List DepGroup} (h : CutDep gs a b) {x : RegState × Used} :
    (∃ P, mapRes (packageOne ks) gs = .ok P ∧ verifyGroups key ps s used P = .ok x) ↔
      ∃ A B y, mapRes (packageOne ks) a = .ok A ∧ mapRes (packageOne ks) b = .ok B ∧
        verifyGroups key ps s used A = .ok y ∧ verifyGroups key ps y.1 y.2 B = .ok x := by
  cases h with
  | between a b =>
    constructor
    · rintro ⟨P, hP, hx⟩
      simp only [mapRes_append, Res.bind_eq_ok, Except.ok.injEq] at hP
      obtain ⟨A, hA, B, hB, rfl⟩ := hP
      rw [groups_split, Res.bind_eq_ok] at hx
      obtain ⟨y, hy, hx⟩ := hx
      exact ⟨A, B, y, hA, hB, hy, hx⟩
    · rintro ⟨A, B, y, hA, hB, hy, hx⟩
      refine ⟨A ++ B, ?_, ?_⟩
      · simp only [mapRes_append, Res.bind_eq_ok, Except.ok.injEq]
        exact ⟨A, hA, B, hB, rfl⟩
      · rw [groups_split, Res.bind_eq_ok]
        exact ⟨y, hy, hx⟩
  | inside pre post r r' cert chain =>
    constructor
    · rintro ⟨P, hP, hx⟩
      simp only [mapRes_append, mapRes, Res.bind_eq_ok, Except.ok.injEq] at hP
      obtain ⟨A, hA, _, ⟨z, hz, B, hB, rfl⟩, rfl⟩ := hP
      obtain ⟨v, rfl, h1, h2⟩ := packageOne_join.mp hz
      rw [groups_join, List.append_cons, groups_split, Res.bind_eq_ok] at hx
      obtain ⟨y, hy, hx⟩ := hx
      refine ⟨A ++ [(r, v)], (r', v) :: B, y, ?_, ?_, hy, hx⟩
      · simp only [mapRes_append, mapRes, Res.bind_eq_ok, Except.ok.injEq]
        exact ⟨A, hA, _, ⟨_, h1, _, rfl, rfl⟩, rfl⟩
      · simp only [mapRes, Res.bind_eq_ok, Except.ok.injEq]
        exact ⟨_, h2, _, hB, rfl⟩
    · rintro ⟨A, B, y, hA, hB, hy, hx⟩
      simp only [mapRes_append, mapRes, Res.bind_eq_ok, Except.ok.injEq] at hA hB
      obtain ⟨A, hA, _, ⟨z, hz, _, rfl, rfl⟩, rfl⟩ := hA
      obtain ⟨z', hz', B, hB, rfl⟩ := hB
      have hvz : ∃ v, z = (r, v) ∧ z' = (r', v) := by
        cases cert with
        | none => cases hz; cases hz'; exact ⟨_, rfl, rfl⟩
        | some c =>
          simp only [packageOne, Res.bind_eq_ok, Except.ok.injEq] at hz hz'
          obtain ⟨_, -, rfl⟩ := hz
          obtain ⟨_, -, rfl⟩ := hz'
          exact ⟨_, rfl, rfl⟩
      obtain ⟨v, rfl, rfl⟩ := hvz
      refine ⟨A ++ (r ++ r', v) :: B, ?_, ?_⟩
      · simp only [mapRes_append, mapRes, Res.bind_eq_ok, Except.ok.injEq]
        exact ⟨A, hA, _, ⟨_, packageOne_join.mpr ⟨v, rfl, hz, hz'⟩, B, hB, rfl⟩, rfl⟩
      · rw [groups_join, List.append_cons, groups_split, Res.bind_eq_ok]
        exact ⟨y, hy, hx⟩

/-- C34: a DEP cut at any point is accepted in one go exactly if the first part is accepted and, after
saving the state as JSON and loading it again, the second part is accepted for the same register; the
state is the same in the end.  The condition is that the groups have certificates unless there is just
one group. -/
theorem resume_iff {ks : KeyStore} {key : Option Bytes} {c c' : Cluster} {idx : Option Int} {i : Nat}
    (hi : idx = some (i : Int) ∨ idx = none ∧ i = c.regs.length)
    (order : Finset Str → List Str) (ho : ∀ s, (order s).toFinset = s)
    {gs a b : List DepGroup} (hcut : CutDep gs a b) (hp : gs.length ≤ 1 ∨ ∀ g ∈ gs, g.cert ≠ none)
    {d d₁ d₂ : Stream} (hd : d.Yields gs) (hd₁ : d₁.Yields a) (hd₂ : d₂.Yields b) :
    verifyDEP ks key c idx d = (c', .ok ()) ↔
      ∃ c₁ c₂, verifyDEP ks key c idx d₁ = (c₁, .ok ()) ∧ Cluster.fromJson (c₁.toJson order) = .ok c₂ ∧
        verifyDEP ks key c₂ (some (i : Int)) d₂ = (c', .ok ()) := by
  obtain ⟨hpa, hpb⟩ := packable_cut hcut hp
  have hsame : ∀ {j : Nat}, (idx = some (j : Int) ∨ idx = none ∧ j = c.regs.length) → j = i := by
    intro j hj
    rcases hi with rfl | ⟨rfl, rfl⟩
    · rcases hj with h | ⟨h, -⟩
      · simpa using h.symm
      · cases h
    · rcases hj with h | ⟨-, h⟩
      · cases h
      · exact h
  constructor
  · intro h
    obtain ⟨-, c₁, ps, s, P, s', u', j, hinfo, hP, hv, hj, hidx, rfl⟩ := verifyDEP_iff.mp h
    obtain rfl := hsame hidx
    rw [hd.1] at hP
    obtain ⟨A, B, ⟨s₁, u₁⟩, hA, hB, hy, hx⟩ := (cut_verify hcut).mp ⟨P, (packageChunk_iff.mp hP).2, hv⟩
    refine ⟨⟨c₁.regs.set j s₁, u₁⟩, _, ?_, state_json_round_trip order ho _, ?_⟩
    · exact verifyDEP_iff.mpr ⟨hd₁.2, c₁, ps, s, A, s₁, u₁, j, hinfo,
        by rw [hd₁.1]; exact packageChunk_iff.mpr ⟨hpa, hA⟩, hy, hj, hidx, rfl⟩
    · refine verifyDEP_iff.mpr ⟨hd₂.2, _, ps, s₁, B, s', u', j, hinfo.again hj hidx,
        by rw [hd₂.1]; exact packageChunk_iff.mpr ⟨hpb, hB⟩, hx, ?_, .inl rfl, ?_⟩
      · have hlt := (List.getElem?_eq_some_iff.mp hj).1
        simp [hlt]
      · simp
  · rintro ⟨c₁, c₂, h1, hjson, h2⟩
    rw [state_json_round_trip order ho] at hjson
    cases hjson
    obtain ⟨-, c₃, ps, s, A, s₁, u₁, j, hinfo, hA, hy, hj, hidx, rfl⟩ := verifyDEP_iff.mp h1
    obtain rfl := hsame hidx
    obtain ⟨-, c₄, ps', s', B, s₂, u₂, k, hinfo', hB, hx, hk, hidx', rfl⟩ := verifyDEP_iff.mp h2
    obtain ⟨rfl, rfl, rfl⟩ := (hinfo.again (s' := s₁) (u := u₁) hj hidx).det hinfo'
    have hjk : k = j := by
      rcases hidx' with h | ⟨h, -⟩
      · simpa using h.symm
      · cases h
    subst hjk
    rw [hd₁.1] at hA
    rw [hd₂.1] at hB
    obtain ⟨P, hP, hv⟩ := (cut_verify hcut).mpr ⟨A, B, _, (packageChunk_iff.mp hA).2,
      (packageChunk_iff.mp hB).2, hy, hx⟩
    exact verifyDEP_iff.mpr ⟨hd.2, c₃, ps', s, P, s₂, u₂, k, hinfo,
      by rw [hd.1]; exact packageChunk_iff.mpr ⟨hp, hP⟩, hv, hj, hidx, by simp⟩

end

namespace Demo

attribute [local instance] env

/-- The day of the register in one group, ... -/
def day : Stream := ⟨[[⟨group, some device, []⟩]], none⟩

set_option maxRecDepth 100000 in
theorem day_ok : verifyDEP deviceStore (some aes) empty none day = (⟨[final], .unique ids⟩, .ok ()) :=
  eq_of_isDone (by decide +kernel)

/-- ... cut after any number of receipts. -/
example (n : Nat) (order : Finset Str → List Str) (ho : ∀ s, (order s).toFinset = s) :
    ∃ c₁ c₂, verifyDEP deviceStore (some aes) empty none ⟨[[⟨group.take n, some device, []⟩]], none⟩ =
        (c₁, .ok ()) ∧ Cluster.fromJson (c₁.toJson order) = .ok c₂ ∧
      verifyDEP deviceStore (some aes) c₂ (some (0 : Nat)) ⟨[[⟨group.drop n, some device, []⟩]], none⟩ =
        (⟨[final], .unique ids⟩, .ok ()) :=
  (resume_iff (.inr ⟨rfl, rfl⟩) order ho
    (.inside [] [] (group.take n) (group.drop n) (some device) []) (.inl (by simp))
    (by simp [Stream.Yields, day, List.take_append_drop]) (by simp [Stream.Yields])
    (by simp [Stream.Yields])).mp day_ok

set_option maxRecDepth 100000 in
/-- Without certificates two groups are fine in two DEPs, but not in one. -/
theorem two_groups_one_by_one :
    let g₁ : DepGroup := ⟨(firstTexts.map shrinkReceipt).take 1, none, []⟩
    let g₂ : DepGroup := ⟨(firstTexts.map shrinkReceipt).drop 1, none, []⟩
    let r := verifyDEP closedStore (some aes) empty none ⟨[[g₁]], none⟩
    isOk r.2 () = true ∧
    isOk (verifyDEP closedStore (some aes) r.1 (some 0) ⟨[[g₂]], none⟩).2 () = true ∧
    (verifyDEP closedStore (some aes) empty none ⟨[[g₁], [g₂]], none⟩).2 = .error .noCertificateGiven := by
  decide +kernel

end Demo

end RKSV
