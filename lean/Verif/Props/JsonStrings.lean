import Verif.Props.ExportValue
/-
C105: a string of a JSON text stands for one text only.
-/
namespace RKSV

/-- The value of a hexadecimal digit. -/
def readHex (c : Char) : Option Nat :=
  ((c!"0123456789abcdef").zipIdx ++ (c!"0123456789ABCDEF").zipIdx).lookup c

theorem readHex_table : ∀ n : Fin 16, readHex ((c!"0123456789abcdef")[n]) = some n.val ∧
    readHex ((c!"0123456789ABCDEF")[n]) = some n.val := by decide

theorem readHex_eq {c : Char} {n : Nat} (h : HexChar c n) : readHex c = some n ∧ n < 16 := by
  have hn : n < 16 := by
    rcases h with h | h <;> exact (List.getElem?_eq_some_iff.mp h).1
  refine ⟨?_, hn⟩
  rcases h with h | h
  · obtain ⟨_, rfl⟩ := List.getElem?_eq_some_iff.mp h
    exact (readHex_table ⟨n, hn⟩).1
  · obtain ⟨_, rfl⟩ := List.getElem?_eq_some_iff.mp h
    exact (readHex_table ⟨n, hn⟩).2

/-- The value of four hexadecimal digits. -/
def readHex4 (a b c d : Char) : Nat :=
  (((readHex a).getD 0 * 16 + (readHex b).getD 0) * 16 + (readHex c).getD 0) * 16 + (readHex d).getD 0

theorem readHex4_eq {t : Str} {n : Nat} (h : Hex4 t n) : ∃ a b c d, t = [a, b, c, d] ∧ readHex4 a b c d = n := by
  obtain ⟨a, b, c, d, i, j, k, l, rfl, h1, h2, h3, h4, rfl⟩ := h
  exact ⟨a, b, c, d, rfl, by simp [readHex4, readHex_eq h1, readHex_eq h2, readHex_eq h3, readHex_eq h4]⟩

/-- The first character of a string and the rest of the text. -/
def readChar : Str → Option (Nat × Str)
  | '\\' :: 'u' :: a :: b :: c :: d :: r =>
    let v := readHex4 a b c d
    if 0xd800 ≤ v ∧ v < 0xdc00 then
      match r with
      | _ :: _ :: e :: f :: g :: h :: r => some (0x10000 + (v - 0xd800) * 1024 + (readHex4 e f g h - 0xdc00), r)
      | _ => none
    else some (v, r)
  | '\\' :: 'b' :: r => some (8, r)
  | '\\' :: 'f' :: r => some (12, r)
  | '\\' :: 'n' :: r => some (10, r)
  | '\\' :: 'r' :: r => some (13, r)
  | '\\' :: 't' :: r => some (9, r)
  | '\\' :: c :: r => some (c.toNat, r)
  | c :: r => some (c.toNat, r)
  | [] => none

theorem not_surrogate (c : Char) : ¬ (0xd800 ≤ c.toNat ∧ c.toNat < 0xdc00) := by
  rcases c.valid with h | ⟨h, _⟩
  · have : c.toNat < 0xd800 := h
    omega
  · have : 0xdfff < c.toNat := h
    omega

theorem readChar_eq {t : Str} {c : Char} (h : CharText t c) (r : Str) : readChar (t ++ r) = some (c.toNat, r) := by
  cases h with
  | plain h1 h2 h3 =>
    simp only [List.cons_append, List.nil_append]
    unfold readChar
    split <;> simp_all
  | quote => rfl
  | backslash => rfl
  | slash => rfl
  | backspace h => rw [h]; rfl
  | formFeed h => rw [h]; rfl
  | lineFeed h => rw [h]; rfl
  | carriageReturn h => rw [h]; rfl
  | tab h => rw [h]; rfl
  | unicode h =>
    obtain ⟨a, b, c', d, rfl, h0⟩ := readHex4_eq h
    simp only [List.cons_append, List.nil_append, readChar, h0, if_neg (not_surrogate c)]
  | pair h1 h2 h3 h4 h5 =>
    obtain ⟨a, b, c', d, rfl, h1⟩ := readHex4_eq h1
    obtain ⟨e, f, g, i, rfl, h2⟩ := readHex4_eq h2
    simp only [List.cons_append, List.nil_append, readChar, h1, h2]
    rw [if_pos (by omega)]
    simp only [Option.some.injEq, Prod.mk.injEq, and_true]
    omega

/-- **C105**: what stands between quotation marks in a JSON text stands for one text only; so different texts are exported
as different texts. -/
theorem string_text_unique {t s s' : Str} (h : StrText t s) (h' : StrText t s') : s = s' := by
  induction h generalizing s' with
  | nil =>
    generalize ht : ([] : Str) = t at h'
    cases h' with
    | nil => rfl
    | cons hc _ =>
      have := readChar_eq hc []
      simp only [List.append_nil] at this
      obtain ⟨rfl, -⟩ := List.append_eq_nil_iff.mp ht.symm
      simp [readChar] at this
  | @cons t ts c s hc hs ih =>
    generalize ht : t ++ ts = u at h'
    cases h' with
    | nil =>
      obtain ⟨rfl, -⟩ := List.append_eq_nil_iff.mp ht
      have := readChar_eq hc []
      simp [readChar] at this
    | @cons t' ts' c' s' hc' hs' =>
      have h1 := readChar_eq hc ts
      rw [ht, readChar_eq hc' ts'] at h1
      simp only [Option.some.injEq, Prod.mk.injEq] at h1
      obtain ⟨h1, rfl⟩ := h1
      have : c' = c := by
        apply Char.ext
        exact UInt32.toNat_inj.mp h1
      subst this
      rw [ih hs']

theorem charText_head {t : Str} {c : Char} (h : CharText t c) : ∃ a u, t = a :: u ∧ a ≠ '"' := by
  cases h with
  | plain h1 _ _ => exact ⟨_, _, rfl, h1⟩
  | _ => exact ⟨_, _, rfl, by decide⟩

/-- The end of a string can be found. -/
theorem strText_end {b b' s s' r r' : Str} (h : StrText b s) (h' : StrText b' s') (he : b ++ '"' :: r = b' ++ '"' :: r') :
    s = s' ∧ r = r' := by
  induction h generalizing b' s' with
  | nil =>
    cases h' with
    | nil => simpa using he
    | cons hc _ =>
      obtain ⟨a, u, rfl, ha⟩ := charText_head hc
      simp only [List.nil_append, List.cons_append, List.cons.injEq] at he
      exact absurd he.1.symm ha
  | @cons t ts c s hc hs ih =>
    cases h' with
    | nil =>
      obtain ⟨a, u, rfl, ha⟩ := charText_head hc
      simp only [List.nil_append, List.cons_append, List.cons.injEq] at he
      exact absurd he.1 ha
    | @cons t' ts' c' s' hc' hs' =>
      rw [List.append_assoc, List.append_assoc] at he
      have h1 := readChar_eq hc (ts ++ '"' :: r)
      rw [he, readChar_eq hc' _] at h1
      simp only [Option.some.injEq, Prod.mk.injEq] at h1
      obtain ⟨h1, h2⟩ := h1
      have : c' = c := by
        apply Char.ext
        exact UInt32.toNat_inj.mp h1
      subst this
      obtain ⟨rfl, h3⟩ := ih hs' h2.symm
      exact ⟨rfl, h3⟩

theorem jsonStr_end {s s' r r' : Str} (h : jsonStr s ++ r = jsonStr s' ++ r') : s = s' ∧ r = r' := by
  refine strText_end (text_str s) (text_str s') ?_
  simpa [jsonStr] using h

/-- **C105**: different texts are exported as different texts. -/
theorem jsonStr_injective {s s' : Str} (h : jsonStr s = jsonStr s') : s = s' :=
  (jsonStr_end (r := []) (r' := []) (by simpa using h)).1

section
variable (ft : F64 → Str)

theorem newline_cons (n : Nat) : ∃ w, newline n = '\n' :: w := ⟨_, rfl⟩

/-- Where a value ends can be found, and which one it is, if this is so for the values of a kind. -/
theorem items_end {α : Type} {f : α → Json} {level m : Nat}
    (hf : ∀ {a b : α} {r r' : Str}, jsonText ft level (f a) ++ r = jsonText ft level (f b) ++ r' → a = b ∧ r = r')
    {l l' : List α} {r r' : Str}
    (h : itemsText ft level (l.map f) ++ (newline m ++ r) = itemsText ft level (l'.map f) ++ (newline m ++ r')) :
    l = l' ∧ r = r' := by
  obtain ⟨w, hw⟩ := newline_cons m
  induction l generalizing l' with
  | nil =>
    cases l' with
    | nil =>
      simp only [List.map_nil, itemsText, List.nil_append] at h
      exact ⟨rfl, List.append_cancel_left h⟩
    | cons b l' => simp [itemsText, hw] at h
  | cons a l ih =>
    cases l' with
    | nil => simp [itemsText, hw] at h
    | cons b l' =>
      simp only [List.map_cons, itemsText, List.cons_append, List.append_assoc, List.cons.injEq, true_and] at h
      obtain ⟨rfl, h1⟩ := hf (List.append_cancel_left h)
      obtain ⟨rfl, h2⟩ := ih h1
      exact ⟨rfl, h2⟩

theorem arr_end {α : Type} {f : α → Json} {level : Nat}
    (hf : ∀ {a b : α} {r r' : Str}, jsonText ft (level + 1) (f a) ++ r = jsonText ft (level + 1) (f b) ++ r' → a = b ∧ r = r')
    {l l' : List α} {r r' : Str}
    (h : jsonText ft level (.arr (l.map f)) ++ r = jsonText ft level (.arr (l'.map f)) ++ r') : l = l' ∧ r = r' := by
  obtain ⟨w, hw⟩ := newline_cons (level + 1)
  cases l with
  | nil =>
    cases l' with
    | nil => simpa [jsonText] using h
    | cons b l' => simp [jsonText, hw] at h
  | cons a l =>
    cases l' with
    | nil => simp [jsonText, hw] at h
    | cons b l' =>
      simp only [List.map_cons, jsonText, List.cons_append, List.append_assoc, List.cons.injEq, true_and, List.nil_append] at h
      obtain ⟨rfl, h1⟩ := hf (List.append_cancel_left h)
      obtain ⟨rfl, h2⟩ := items_end ft hf h1
      simp only [List.cons.injEq, true_and] at h2
      exact ⟨rfl, h2⟩

theorem str_end {level : Nat} {a b r r' : Str} (h : jsonText ft level (.str a) ++ r = jsonText ft level (.str b) ++ r') :
    a = b ∧ r = r' := by
  rw [jsonText, jsonText] at h
  exact jsonStr_end h

theorem group_end {level : Nat} {a b : FullGroup} {r r' : Str}
    (h : jsonText ft level a.json ++ r = jsonText ft level b.json ++ r') : a = b ∧ r = r' := by
  obtain ⟨c, ch, rs⟩ := a
  obtain ⟨c', ch', rs'⟩ := b
  simp only [FullGroup.json, jsonText, membersText, List.cons_append, List.append_assoc, List.cons.injEq, true_and,
    List.nil_append] at h
  have h1 := (List.append_cancel_left (List.append_cancel_left h))
  simp only [List.cons.injEq, true_and] at h1
  obtain ⟨rfl, h2⟩ := jsonStr_end h1
  simp only [List.cons.injEq, true_and] at h2
  have h3 := (List.append_cancel_left (List.append_cancel_left h2))
  simp only [List.cons.injEq, true_and] at h3
  obtain ⟨rfl, h4⟩ := arr_end ft (str_end ft) h3
  simp only [List.cons.injEq, true_and] at h4
  have h5 := (List.append_cancel_left (List.append_cancel_left h4))
  simp only [List.cons.injEq, true_and] at h5
  obtain ⟨rfl, h6⟩ := arr_end ft (str_end ft) h5
  have h7 := (List.append_cancel_left h6)
  simp only [List.cons.injEq, true_and] at h7
  exact ⟨rfl, h7⟩

end

/-- **C105**: DEPs with different groups, certificates or receipts are exported as different texts. -/
theorem export_injective {gs gs' : List FullGroup}
    (h : exportParts none (gs.map FullGroup.out) = exportParts none (gs'.map FullGroup.out)) : gs = gs' := by
  rw [parts_complete fun _ => [], parts_complete fun _ => []] at h
  simp only [Prod.mk.injEq, and_true, depJson, jsonText, membersText, List.cons_append, List.append_assoc, List.cons.injEq,
    true_and, List.nil_append] at h
  have h1 := (List.append_cancel_left (List.append_cancel_left h))
  simp only [List.cons.injEq, true_and] at h1
  exact (arr_end _ (group_end _) h1).1

end RKSV
