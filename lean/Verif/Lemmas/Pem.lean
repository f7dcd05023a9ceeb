import Verif.Py.Env
/-
Helper lemmas about PEM line wrapping.
-/
namespace RKSV

theorem wrap64_flatten {n : Nat} {s : Str} (h : s.length ≤ n) : (wrap64 n s).flatten = s := by
  induction n generalizing s with
  | zero =>
    have : s = [] := List.eq_nil_of_length_eq_zero (by omega)
    subst this; rfl
  | succ n ih =>
    cases s with
    | nil => rfl
    | cons x xs =>
      simp only [wrap64, List.flatten_cons]
      rw [ih (by simp only [List.length_drop, List.length_cons] at h ⊢; omega), List.take_append_drop]

theorem wrap64_mem {n : Nat} {s l : Str} (h : l ∈ wrap64 n s) :
    l ≠ [] ∧ l.length ≤ 64 ∧ ∀ c ∈ l, c ∈ s := by
  induction n generalizing s with
  | zero => simp [wrap64] at h
  | succ n ih =>
    cases s with
    | nil => simp [wrap64] at h
    | cons x xs =>
      simp only [wrap64, List.mem_cons] at h
      rcases h with rfl | h
      · refine ⟨by simp, by simp [List.length_take]; omega, fun c hc => List.mem_of_mem_take hc⟩
      · obtain ⟨h1, h2, h3⟩ := ih h
        exact ⟨h1, h2, fun c hc => List.mem_of_mem_drop (h3 c hc)⟩

theorem removeChar_joinWith {c : Char} (ss : List Str) :
    removeChar c (joinWith c ss) = removeChar c ss.flatten := by
  induction ss with
  | nil => rfl
  | cons s t ih =>
    cases t with
    | nil => simp [joinWith]
    | cons u v =>
      simp only [joinWith, List.flatten_cons] at ih ⊢
      rw [removeChar_append, removeChar_append]
      congr 1
      simp only [removeChar, List.filter_cons, bne_self_eq_false, Bool.false_eq_true, if_false] at ih ⊢
      rw [ih]

theorem removeChar_pemLines {s : Str} (h : '\n' ∉ s) : removeChar '\n' (pemLines s) = s := by
  unfold pemLines
  rw [removeChar_joinWith, wrap64_flatten (Nat.le_refl _), removeChar_eq_self h]

end RKSV
