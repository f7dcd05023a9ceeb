import Verif.Lemmas.SortedIds
import Verif.Lemmas.Demo
/-
Property C46: the backend that keeps only the first and the last receipt ID.
-/
namespace RKSV

section
variable [PyEnv]

/-- Checking and adding IDs one by one, as verification does. -/
def checkAdd (u : Used) : List Str → Res Used
  | [] => .ok u
  | i :: l => do
    u.check i
    checkAdd (u.add i) l

theorem checkAdd_sorted {lo hi : Option Str} {ids : List Str} {u : Used} (hb : lo = none → hi = none) :
    checkAdd (.sorted lo hi) ids = .ok u ↔
      (∀ m i, hi = some m → ids.head? = some i → NaturalLt m i) ∧ ids.IsChain NaturalLt ∧
        u = .sorted (lo.or ids.head?) (ids.getLast?.or hi) := by
  induction ids generalizing lo hi with
  | nil =>
    simp only [checkAdd, Except.ok.injEq, List.head?_nil, List.getLast?_nil, Option.or_none,
      Option.none_or, List.isChain_nil]
    constructor
    · rintro rfl; simp
    · rintro ⟨-, -, rfl⟩; rfl
  | cons i ids ih =>
    simp only [checkAdd, Res.bind_eq_ok]
    have hadd : (Used.sorted lo hi).add i = .sorted (lo.or (some i)) (some i) := by
      cases lo <;> rfl
    rw [hadd]
    simp only [ih (lo := lo.or (some i)) (hi := some i) (by cases lo <;> simp)]
    have hlast : (i :: ids).getLast?.or hi = ids.getLast?.or (some i) := by
      rw [List.getLast?_cons]
      cases ids.getLast? <;> rfl
    have hhead : lo.or (some i) = (lo.or (some i)).or ids.head? := by cases lo <;> rfl
    rw [hlast, List.head?_cons, ← hhead]
    constructor
    · rintro ⟨_, hc, h1, h2, h3⟩
      refine ⟨?_, ?_, h3⟩
      · rintro m j hm hj
        cases hj
        exact check_sorted.mp hc m hm
      · cases ids with
        | nil => simp
        | cons j ids => exact .cons_cons (h1 i j rfl rfl) h2
    · rintro ⟨h1, h2, h3⟩
      refine ⟨(), check_sorted.mpr fun m hm => h1 m i hm rfl, ?_, ?_, h3⟩
      · rintro m j hm hj
        cases hm
        cases ids with
        | nil => cases hj
        | cons k ids =>
          cases hj
          cases h2 with
          | cons_cons h _ => exact h
      · cases h2 with
        | singleton => simp
        | cons_cons _ h => exact h

/-- C46: the natural-order backend accepts exactly the sequences in which every ID comes after the one
before it, and remembers the first and the last one. -/
theorem sorted_accepts_iff {ids : List Str} {u : Used} :
    checkAdd (.sorted none none) ids = .ok u ↔
      ids.IsChain NaturallyBefore ∧ u = .sorted ids.head? ids.getLast? := by
  rw [checkAdd_sorted (fun _ => rfl), List.IsChain.iff fun _ _ => naturalLt_iff]
  simp

/-- C46: an accepted sequence is strictly increasing as a whole; in particular no ID occurs twice. -/
theorem sorted_increasing {ids : List Str} {u : Used} (h : checkAdd (.sorted none none) ids = .ok u) :
    ids.Pairwise NaturallyBefore ∧ ids.Nodup := by
  rw [checkAdd_sorted (fun _ => rfl)] at h
  obtain ⟨-, hc, -⟩ := h
  have : IsTrans Str NaturalLt := ⟨fun _ _ _ => NaturalLt.trans⟩
  have hp : ids.Pairwise NaturalLt := hc.pairwise
  refine ⟨hp.imp naturalLt_iff.mp, hp.imp ?_⟩
  rintro a b hab rfl
  exact hab.irrefl

/-- C46: merging the ranges of packages checked on their own gives the same verdict and the same
range as checking all IDs one by one. -/
theorem sorted_merge {lo hi : Option Str} (hb : lo = none → hi = none) {pkgs : List (List Str)}
    {us : List Used} (hp : List.Forall₂ (fun ids u => checkAdd (.sorted none none) ids = .ok u) pkgs us)
    {u : Used} :
    (Used.sorted lo hi).merge us = .ok u ↔ checkAdd (.sorted lo hi) pkgs.flatten = .ok u := by
  induction hp generalizing lo hi with
  | nil => rfl
  | @cons ids o pkgs us h1 h2 ih =>
    rw [checkAdd_sorted (fun _ => rfl)] at h1
    obtain ⟨-, hc, rfl⟩ := h1
    have hap : ∀ (a b : List Str) (v : Used), checkAdd v (a ++ b) =
        (do let v ← checkAdd v a; checkAdd v b) := by
      intro a b
      induction a with
      | nil => intro v; rfl
      | cons i a iha =>
        intro v
        simp only [List.cons_append, checkAdd, iha]
        cases v.check i <;> rfl
    rw [List.flatten_cons, hap, Used.merge]
    cases ids with
    | nil =>
      simp only [List.head?_nil, List.getLast?_nil, Option.or_none, checkAdd, Res.ok_bind,
        Used.mergeOne]
      exact ih hb
    | cons i ids =>
      obtain ⟨z, hz⟩ : ∃ z, (i :: ids).getLast? = some z :=
        ⟨_, List.getLast?_eq_some_getLast (by simp)⟩
      rw [hz]
      simp only [List.head?_cons, Option.none_or, Option.some_or, Used.mergeOne]
      have hadd : ((Used.sorted lo hi).add i).add z = .sorted (lo.or (some i)) (some z) := by
        cases lo <;> rfl
      rw [hadd]
      simp only [Res.bind_eq_ok, Except.ok.injEq, checkAdd_sorted hb]
      constructor
      · rintro ⟨v, ⟨_, hch, rfl⟩, hm⟩
        refine ⟨_, ⟨?_, hc, rfl⟩, ?_⟩
        · rintro m j hm hj
          cases hj
          exact check_sorted.mp hch m hm
        · rw [hz]
          exact (ih (by cases lo <;> simp)).mp hm
      · rintro ⟨v, ⟨h1, -, rfl⟩, hm⟩
        refine ⟨_, ⟨(), check_sorted.mpr fun m hm => h1 m i hm rfl, rfl⟩, ?_⟩
        rw [hz] at hm
        exact (ih (by cases lo <;> simp)).mpr hm

end

namespace Demo

attribute [local instance] env

/-- Numbers count as numbers, ... -/
example : checkAdd (.sorted none none) [c!"A9", c!"A10", c!"B1"] = .ok (.sorted (some c!"A9") (some c!"B1")) := by
  decide +kernel

/-- ... so IDs that only differ in case or leading zeros count as equal, although they are different. -/
theorem sorted_refuses_distinct : checkAdd (.sorted none none) [c!"a1", c!"A01"] = .error .duplicateReceiptId := by
  decide +kernel

/-- The packages of the merge. -/
example : (Used.sorted none none).merge [.sorted (some c!"A1") (some c!"A3"), .sorted (some c!"A4") (some c!"A4")] =
    .ok (.sorted (some c!"A1") (some c!"A4")) := by
  decide +kernel

end Demo

end RKSV
