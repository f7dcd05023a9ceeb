import Verif.Spec.LineTools
/-
Lines of text files.
-/
namespace RKSV

theorem universalNewlines_append {s t : Str} (h : '\r' ∉ s) :
    universalNewlines (s ++ t) = s ++ universalNewlines t := by
  induction s with
  | nil => rfl
  | cons c s ih =>
    simp only [List.mem_cons, not_or] at h
    have hc : c ≠ '\r' := fun e => h.1 e.symm
    rw [List.cons_append, universalNewlines]
    · rw [if_neg hc, ih h.2]; rfl
    · intro s' e
      exact absurd e hc

theorem keepLines_line {l t : Str} (h : '\n' ∉ l) : keepLines (l ++ '\n' :: t) = (l ++ ['\n']) :: keepLines t := by
  induction l with
  | nil => simp [keepLines]
  | cons c l ih =>
    simp only [List.mem_cons, not_or] at h
    rw [List.cons_append, keepLines, if_neg (fun e => h.1 e.symm), ih h.2]
    rfl

/-- Reading a text file. -/
theorem fileLines_textFile {ls : List Str} (h : ∀ l ∈ ls, OneLine l) :
    fileLines (textFile ls) = ls.map (· ++ ['\n']) := by
  have hu : universalNewlines (textFile ls) = textFile ls := by
    have := universalNewlines_append (s := textFile ls) (t := []) (by
      intro hm
      obtain ⟨l, hl, hm⟩ := List.mem_flatMap.mp hm
      simp only [List.mem_append, List.mem_singleton] at hm
      rcases hm with hm | hm
      · exact (h l hl).2 hm
      · exact absurd hm (by decide))
    simpa [universalNewlines] using this
  unfold fileLines
  rw [hu]
  clear hu
  induction ls with
  | nil => rfl
  | cons l ls ih =>
    have e : textFile (l :: ls) = l ++ '\n' :: textFile ls := by simp [textFile]
    rw [e, keepLines_line (h l (by simp)).1, ih fun l hl => h l (by simp [hl])]
    rfl

/-- Line ends of other systems do not matter. -/
theorem fileLines_windows {ls : List Str} (h : ∀ l ∈ ls, OneLine l) :
    fileLines (windowsFile ls) = fileLines (textFile ls) := by
  have hu : universalNewlines (windowsFile ls) = textFile ls := by
    induction ls with
    | nil => rfl
    | cons l ls ih =>
      have e : windowsFile (l :: ls) = l ++ '\r' :: '\n' :: windowsFile ls := by simp [windowsFile]
      have e' : textFile (l :: ls) = l ++ '\n' :: textFile ls := by simp [textFile]
      rw [e, e', universalNewlines_append (h l (by simp)).2, universalNewlines,
        ih fun l hl => h l (by simp [hl])]
  have hu' : universalNewlines (textFile ls) = textFile ls := by
    have := universalNewlines_append (s := textFile ls) (t := []) (by
      intro hm
      obtain ⟨l, hl, hm⟩ := List.mem_flatMap.mp hm
      simp only [List.mem_append, List.mem_singleton] at hm
      rcases hm with hm | hm
      · exact (h l hl).2 hm
      · exact absurd hm (by decide))
    simpa [universalNewlines] using this
  unfold fileLines
  rw [hu, hu']

section
variable [PyEnv]

theorem isSpace_newline : isSpace '\n' = true := by
  rw [PyEnv.isSpace_ascii (by decide)]; decide

theorem isSpace_semicolon : isSpace ';' = false := by
  rw [PyEnv.isSpace_ascii (by decide)]; decide

omit [PyEnv] in
theorem stripBoth_snoc {p : Char → Bool} {c : Char} (h : p c = true) (s : Str) :
    stripBoth p (s ++ [c]) = stripBoth p s := by
  unfold stripBoth
  have hd : ∀ l : Str, (l ++ [c]).dropWhile p = if l.dropWhile p = [] then [] else l.dropWhile p ++ [c] := by
    intro l
    induction l with
    | nil => simp [h]
    | cons x l ih =>
      rw [List.cons_append, List.dropWhile_cons, List.dropWhile_cons]
      split
      · exact ih
      · simp
  rw [hd]
  split
  · rename_i e; rw [e]
  · rw [List.reverse_append, List.reverse_singleton, List.singleton_append, List.dropWhile_cons, if_pos h]

theorem pyStrip_line (l : Str) : pyStrip (l ++ ['\n']) = pyStrip l := stripBoth_snoc isSpace_newline l

omit [PyEnv] in
theorem stripBoth_cons {p : Char → Bool} {c : Char} (h : p c = true) (s : Str) :
    stripBoth p (c :: s) = stripBoth p s := by
  unfold stripBoth
  rw [List.dropWhile_cons, if_pos h]

omit [PyEnv] in
theorem splitOn_cons_other {c x : Char} (h : x ≠ c) (s : Str) :
    ∃ a b, splitOn c s = a :: b ∧ splitOn c (x :: s) = (x :: a) :: b := by
  cases hs : splitOn c s with
  | nil => exact absurd hs (splitOn_ne_nil c s)
  | cons a b =>
    refine ⟨a, b, rfl, ?_⟩
    rw [splitOn, if_neg h, hs]

omit [PyEnv] in
theorem splitOn_snoc_other {c x : Char} (h : x ≠ c) (s : Str) :
    ∃ a b, splitOn c s = a ++ [b] ∧ splitOn c (s ++ [x]) = a ++ [b ++ [x]] := by
  induction s with
  | nil => exact ⟨[], [], by simp [splitOn], by simp [splitOn, h]⟩
  | cons y s ih =>
    obtain ⟨a, b, e1, e2⟩ := ih
    rw [List.cons_append, splitOn, splitOn]
    by_cases hy : y = c
    · rw [if_pos hy, if_pos hy, e1, e2]
      exact ⟨[] :: a, b, rfl, rfl⟩
    · rw [if_neg hy, if_neg hy, e1, e2]
      cases a with
      | nil => exact ⟨[], y :: b, rfl, rfl⟩
      | cons u a => exact ⟨(y :: u) :: a, b, rfl, rfl⟩

/-- Outer white space of a CSV row does not matter. -/
theorem fromCSV_strip (s : Str) : fromCSV (pyStrip s) = fromCSV s := by
  have key : ∀ s t : Str, (splitOn ';' s).map pyStrip = (splitOn ';' t).map pyStrip → fromCSV s = fromCSV t := by
    intro s t h
    unfold fromCSV
    rw [h]
  have hne : ∀ c, isSpace c = true → c ≠ ';' := by
    rintro c hc rfl
    rw [isSpace_semicolon] at hc
    cases hc
  have h1 : ∀ s : Str, fromCSV (s.dropWhile isSpace) = fromCSV s := by
    intro s
    induction s with
    | nil => rfl
    | cons c s ih =>
      rw [List.dropWhile_cons]
      split
      · rename_i hc
        rw [ih]
        apply key
        obtain ⟨a, b, e1, e2⟩ := splitOn_cons_other (hne c hc) s
        rw [e1, e2, List.map_cons, List.map_cons]
        congr 1
        exact (stripBoth_cons hc a).symm
      · rfl
  have h2 : ∀ s : Str, fromCSV (s.dropWhile isSpace).reverse = fromCSV s.reverse := by
    intro s
    induction s with
    | nil => rfl
    | cons c s ih =>
      rw [List.dropWhile_cons]
      split
      · rename_i hc
        rw [ih]
        apply key
        obtain ⟨a, b, e1, e2⟩ := splitOn_snoc_other (hne c hc) s.reverse
        rw [List.reverse_cons, e1, e2, List.map_append, List.map_append]
        congr 1
        simp only [List.map_cons, List.map_nil, List.cons.injEq, and_true]
        exact (stripBoth_snoc hc b).symm
      · rfl
  unfold pyStrip stripBoth
  rw [h2, List.reverse_reverse, h1]

end

end RKSV
