/-
Python strings as lists of characters: the `str` methods the code in
`/repo/librksv` uses.  A Lean `Char` is a Unicode scalar value, so lone
surrogates (which a Python `str` may hold) are outside the model.
-/
namespace RKSV

open Lean in
/-- `c!"abc"` is the explicit list of characters `['a', 'b', 'c']`. -/
macro:max "c!" s:str : term => do
  let cs : Array (TSyntax `term) :=
    (s.getString.toList.map fun c => (⟨Syntax.mkCharLit c⟩ : TSyntax `term)).toArray
  `(([$cs,*] : List Char))

/-- A Python `str` (modelled as its list of code points). -/
abbrev Str := List Char

/-- A Python `bytes`. -/
abbrev Bytes := List UInt8

/-- `s.split(c)` for a one-character separator `c`
(used at librksv/receipt.py:137, 318, 345, 350, 456, 461, 548, 653,
librksv/url_receipt_helpers.py:44). -/
def splitOn (c : Char) : Str → List Str
  | [] => [[]]
  | x :: xs =>
    if x = c then [] :: splitOn c xs
    else
      match splitOn c xs with
      | [] => [[x]]
      | y :: ys => (x :: y) :: ys

/-- `c.join(parts)` for a one-character separator (librksv/receipt.py:418, 441, 586, 654). -/
def joinWith (c : Char) : List Str → Str
  | [] => []
  | [s] => s
  | s :: t :: r => s ++ c :: joinWith c (t :: r)

/-- `s.replace(c, '')` for a single character (librksv/receipt.py:378, 413, 489, 638). -/
def removeChar (c : Char) (s : Str) : Str := s.filter (fun x => x != c)

/-- `s.endswith(c)` for a single character (librksv/receipt.py:324-325, 678). -/
def endsWithChar (c : Char) (s : Str) : Bool := s.getLast? == some c

/-! ### Lemmas -/

theorem splitOn_ne_nil (c : Char) (s : Str) : splitOn c s ≠ [] := by
  cases s with
  | nil => simp [splitOn]
  | cons x xs =>
    simp only [splitOn]
    split
    · simp
    · split <;> simp

theorem joinWith_cons_cons (c : Char) (x : Char) (y : Str) (ys : List Str) :
    joinWith c ((x :: y) :: ys) = x :: joinWith c (y :: ys) := by
  cases ys <;> simp [joinWith]

theorem joinWith_splitOn (c : Char) (s : Str) : joinWith c (splitOn c s) = s := by
  induction s with
  | nil => simp [splitOn, joinWith]
  | cons x xs ih =>
    simp only [splitOn]
    split
    · rename_i h
      subst h
      cases h2 : splitOn x xs with
      | nil => exact absurd h2 (splitOn_ne_nil x xs)
      | cons y ys => rw [h2] at ih; simp [joinWith, ih]
    · cases h2 : splitOn c xs with
      | nil => exact absurd h2 (splitOn_ne_nil c xs)
      | cons y ys =>
        rw [h2] at ih
        simp [joinWith_cons_cons, ih]

theorem splitOn_eq_singleton {c : Char} {s : Str} (h : c ∉ s) : splitOn c s = [s] := by
  induction s with
  | nil => simp [splitOn]
  | cons x xs ih =>
    simp only [List.mem_cons, not_or] at h
    simp [splitOn, Ne.symm h.1, ih h.2]

theorem splitOn_append_sep {c : Char} {s t : Str} (h : c ∉ s) :
    splitOn c (s ++ c :: t) = s :: splitOn c t := by
  induction s with
  | nil => simp [splitOn]
  | cons x xs ih =>
    simp only [List.mem_cons, not_or] at h
    simp [splitOn, Ne.symm h.1, ih h.2]

theorem splitOn_joinWith {c : Char} {ss : List Str} (hne : ss ≠ [])
    (h : ∀ s ∈ ss, c ∉ s) : splitOn c (joinWith c ss) = ss := by
  induction ss with
  | nil => exact absurd rfl hne
  | cons s t ih =>
    cases t with
    | nil => simp [joinWith, splitOn_eq_singleton (h s (by simp))]
    | cons u r =>
      simp only [joinWith]
      rw [splitOn_append_sep (h s (by simp)), ih (by simp) (fun x hx => h x (by simp [hx]))]

theorem not_mem_of_mem_splitOn {c : Char} {s p : Str} (h : p ∈ splitOn c s) : c ∉ p := by
  induction s generalizing p with
  | nil => simp [splitOn] at h; simp [h]
  | cons x xs ih =>
    simp only [splitOn] at h
    split at h
    · simp only [List.mem_cons] at h
      rcases h with h | h
      · simp [h]
      · exact ih h
    · rename_i hx
      split at h
      · rename_i h2; exact absurd h2 (splitOn_ne_nil c xs)
      · rename_i y ys h2
        simp only [List.mem_cons] at h
        rcases h with h | h
        · subst h
          simp only [List.mem_cons, not_or]
          exact ⟨fun e => hx e.symm, ih (by simp [h2])⟩
        · exact ih (by simp [h2, h])

theorem mem_of_mem_splitOn {c : Char} {s p : Str} (h : p ∈ splitOn c s) {x : Char} (hx : x ∈ p) :
    x ∈ s := by
  induction s generalizing p with
  | nil => simp [splitOn] at h; subst h; exact hx
  | cons y ys ih =>
    simp only [splitOn] at h
    split at h
    · simp only [List.mem_cons] at h
      rcases h with h | h
      · subst h; simp at hx
      · exact List.mem_cons_of_mem _ (ih h hx)
    · split at h
      · rename_i h2; exact absurd h2 (splitOn_ne_nil c ys)
      · rename_i z zs h2
        simp only [List.mem_cons] at h
        rcases h with h | h
        · subst h
          simp only [List.mem_cons] at hx
          rcases hx with hx | hx
          · simp [hx]
          · exact List.mem_cons_of_mem _ (ih (p := z) (by simp [h2]) hx)
        · exact List.mem_cons_of_mem _ (ih (by simp [h2, h]) hx)

theorem splitOn_injective {c : Char} {s t : Str} (h : splitOn c s = splitOn c t) : s = t := by
  rw [← joinWith_splitOn c s, h, joinWith_splitOn]

theorem removeChar_eq_self {c : Char} {s : Str} (h : c ∉ s) : removeChar c s = s := by
  unfold removeChar
  rw [List.filter_eq_self]
  intro a ha
  simp only [bne_iff_ne, ne_eq]
  intro e; subst e; exact h ha

theorem not_mem_removeChar (c : Char) (s : Str) : c ∉ removeChar c s := by
  simp [removeChar]

theorem removeChar_append (c : Char) (s t : Str) :
    removeChar c (s ++ t) = removeChar c s ++ removeChar c t := by
  simp [removeChar]

theorem removeChar_replicate (c : Char) (n : Nat) : removeChar c (List.replicate n c) = [] := by
  simp [removeChar]

theorem endsWithChar_false_of_not_mem {c : Char} {s : Str} (h : c ∉ s) :
    endsWithChar c s = false := by
  unfold endsWithChar
  cases hl : s.getLast? with
  | none => rfl
  | some x =>
    have := List.mem_of_getLast? hl
    by_cases hx : x = c
    · subst hx; exact absurd this h
    · simp [hx]

end RKSV
