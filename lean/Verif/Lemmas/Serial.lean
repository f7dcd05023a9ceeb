import Verif.Spec.Receipt
/-
Helper lemmas: the serial/key ID classification.
-/
namespace RKSV

section
variable [PyEnv]

omit [PyEnv] in
theorem take_drop_two {s : Str} {a b : Char} (h : s.take 2 = [a, b]) : s = a :: b :: s.drop 2 := by
  conv_lhs => rw [← List.take_append_drop 2 s, h]
  rfl

theorem isDigitStr_iff {s : Str} : isDigitStr s = true ↔ s ≠ [] ∧ ∀ c ∈ s, isDigit c = true := by
  simp [isDigitStr]

theorem isAlnumStr_iff {s : Str} : isAlnumStr s = true ↔ s ≠ [] ∧ ∀ c ∈ s, isAlnum c = true := by
  simp [isAlnumStr]

theorem isDigit_minus : isDigit '-' = false := by
  rw [PyEnv.isDigit_ascii (by decide)]; decide

theorem isAlnum_minus : isAlnum '-' = false := by
  rw [PyEnv.isAlnum_ascii (by decide)]; decide

theorem companyId_iff {b : Str} : CompanyId b ↔
    (b.length = 11 ∧ b.take 2 = c!"S:" ∧ isDigitStr (b.drop 2) = true) ∨
    (3 ≤ b.length ∧ b.length ≤ 16 ∧ b.take 2 = c!"U:" ∧ isAlnumStr (b.drop 2) = true ∧
      b.drop 2 = upperStr (b.drop 2)) ∨
    (b.length = 15 ∧ b.take 2 = c!"G:" ∧ isDigitStr (b.drop 2) = true) := by
  constructor
  · intro h
    cases h with
    | tax d len dig =>
      left
      refine ⟨by simp [len], rfl, isDigitStr_iff.mpr ⟨?_, dig⟩⟩
      rintro h; simp at h; subst h; simp at len
    | uid d len al up =>
      right; left
      refine ⟨by simp; omega, by simp; omega, rfl, isAlnumStr_iff.mpr ⟨?_, al⟩, up.symm⟩
      rintro h; simp at h; subst h; simp at len
    | gln d len dig =>
      right; right
      refine ⟨by simp [len], rfl, isDigitStr_iff.mpr ⟨?_, dig⟩⟩
      rintro h; simp at h; subst h; simp at len
  · rintro (⟨h1, h2, h3⟩ | ⟨h1, h2, h3, h4, h5⟩ | ⟨h1, h2, h3⟩)
    · rw [take_drop_two h2]
      exact CompanyId.tax _ (by simp [h1]) (isDigitStr_iff.mp h3).2
    · rw [take_drop_two h3]
      exact CompanyId.uid _ (by simp; omega) (isAlnumStr_iff.mp h4).2 h5.symm
    · rw [take_drop_two h2]
      exact CompanyId.gln _ (by simp [h1]) (isDigitStr_iff.mp h3).2

/-! ### Characters of integers -/

omit [PyEnv] in
theorem mem_stripBoth {p : Char → Bool} {s : Str} {c : Char} (h : c ∈ s) (hp : p c = false) :
    c ∈ stripBoth p s := by
  have hd : ∀ l : Str, c ∈ l → c ∈ l.dropWhile p := by
    intro l hl
    induction l with
    | nil => exact hl
    | cons x xs ih =>
      rw [List.dropWhile_cons]
      split
      · rcases List.mem_cons.mp hl with rfl | hl
        · simp_all
        · exact ih hl
      · exact hl
  unfold stripBoth
  rw [List.mem_reverse]
  exact hd _ (List.mem_reverse.mpr (hd _ h))

theorem not_mem_readDigits {base acc n : Nat} {u : Bool} {s : Str} (h : readDigits base acc u s = some n)
    {c : Char} (hc : pyDigit base c = none) (hu : c ≠ '_') : c ∉ s := by
  induction s generalizing acc u with
  | nil => simp
  | cons x xs ih =>
    simp only [readDigits] at h
    intro hm
    split at h
    · rename_i hx
      split at h
      · cases h
      · rcases List.mem_cons.mp hm with rfl | hm
        · exact hu hx
        · exact ih h hm
    · split at h
      · rename_i d hd
        rcases List.mem_cons.mp hm with rfl | hm
        · rw [hc] at hd; cases hd
        · exact ih h hm
      · cases h

theorem not_mem_pyInt {base : Nat} {s : Str} {n : Int} (h : pyInt base s = some n) {c : Char}
    (h0 : digitVal c = none) (hd : pyDigit base c = none) (hs : intSpace c = false) (h1 : c ≠ '_')
    (h2 : c ≠ '-') (h3 : c ≠ '+') (h4 : c ≠ 'x') (h5 : c ≠ 'X') : c ∉ s := by
  intro hm
  have hm := mem_stripBoth hm hs
  unfold pyInt at h
  simp only [Option.map_eq_some_iff] at h
  obtain ⟨k, hk, -⟩ := h
  have hno := not_mem_readDigits hk hd h1
  apply hno
  have hskip : ∀ u : Str, c ∈ u → c ∈ skipHexPrefix base u := by
    intro u hu
    unfold skipHexPrefix
    split
    · rename_i z x r
      split
      · rename_i hz
        have hc : c ∈ r := by
          simp only [List.mem_cons] at hu
          rcases hu with rfl | rfl | hu
          · rw [h0] at hz; cases hz.2.1
          · rcases hz.2.2 with h | h
            · exact absurd h h4
            · exact absurd h h5
          · exact hu
        split
        · split
          · rename_i r' hr'
            rcases List.mem_cons.mp hc with rfl | hc
            · exact absurd hr' h1
            · exact hc
          · exact hc
        · exact hc
      · exact hu
    · exact hu
  apply hskip
  unfold intSign
  split
  · rename_i r heq
    rw [heq] at hm
    rcases List.mem_cons.mp hm with h | h
    · exact absurd h h2
    · exact h
  · rename_i r heq
    rw [heq] at hm
    rcases List.mem_cons.mp hm with h | h
    · exact absurd h h3
    · exact h
  · exact hm

theorem digitVal_ascii_none {c : Char} (h1 : c.toNat < 128) (h2 : asciiDigit c = none) :
    digitVal c = none := by rw [PyEnv.digitVal_ascii h1, h2]

theorem pyDigit_none {base : Nat} {c : Char} (h1 : c.toNat < 128) (h2 : asciiDigit c = none)
    (h3 : ¬('a' ≤ c ∧ c ≤ 'f')) (h4 : ¬('A' ≤ c ∧ c ≤ 'F')) : pyDigit base c = none := by
  unfold pyDigit
  rw [digitVal_ascii_none h1 h2]
  simp [h3, h4]

theorem intSpace_ascii {c : Char} (h1 : c.toNat < 128) (h2 : ¬(9 ≤ c.toNat ∧ c.toNat ≤ 13))
    (h3 : c.toNat ≠ 32) : intSpace c = false := by
  unfold intSpace
  simp only [Bool.or_eq_false_iff, Bool.and_eq_false_iff, decide_eq_false_iff_not]
  omega

theorem HexSerial.not_mem {s : Str} (h : HexSerial s) {c : Char} (h1 : c.toNat < 128)
    (h2 : asciiDigit c = none) (h3 : ¬('a' ≤ c ∧ c ≤ 'f')) (h4 : ¬('A' ≤ c ∧ c ≤ 'F'))
    (h5 : ¬(9 ≤ c.toNat ∧ c.toNat ≤ 13)) (h6 : c.toNat ≠ 32) (h7 : c ≠ '_')
    (h8 : c ≠ '-') (h9 : c ≠ '+') (h10 : c ≠ 'x') (h11 : c ≠ 'X') : c ∉ s := by
  obtain ⟨n, hn⟩ := Option.isSome_iff_exists.mp h
  exact not_mem_pyInt hn (digitVal_ascii_none h1 h2) (pyDigit_none h1 h2 h3 h4)
    (intSpace_ascii h1 h5 h6) h7 h8 h9 h10 h11

theorem CompanyId.not_hex {b : Str} (h : CompanyId b) : ¬HexSerial b := by
  intro hh
  have : ':' ∉ b := hh.not_mem (by decide) (by decide) (by decide) (by decide) (by decide) (by decide)
    (by decide) (by decide) (by decide) (by decide) (by decide)
  cases h <;> simp at this

/-- Decimal digit texts are hexadecimal digit texts. -/
theorem readDigits_10_16 {acc acc' n : Nat} {u : Bool} {s : Str} (h : readDigits 10 acc u s = some n) :
    (readDigits 16 acc' u s).isSome := by
  induction s generalizing acc acc' u with
  | nil => simp only [readDigits] at h ⊢; split at h <;> simp_all
  | cons x xs ih =>
    simp only [readDigits] at h ⊢
    split at h
    · rw [if_pos (by assumption)]
      split at h
      · cases h
      · rw [if_neg (by assumption)]; exact ih h
    · rw [if_neg (by assumption)]
      split at h
      · rename_i d hd
        have : pyDigit 16 x = some d := by
          unfold pyDigit at hd ⊢
          split at hd
          · assumption
          · simp at hd
        rw [this]
        exact ih h
      · cases h

theorem pyInt_10_16 {s : Str} (h : (pyInt 10 s).isSome) : (pyInt 16 s).isSome := by
  unfold pyInt at h ⊢
  simp only [Option.isSome_map] at h ⊢
  generalize intSign (stripBoth intSpace s) = p at h ⊢
  obtain ⟨n, hn⟩ := Option.isSome_iff_exists.mp h
  have e10 : skipHexPrefix 10 p.2 = p.2 := by
    unfold skipHexPrefix; split <;> simp
  rw [e10] at hn
  unfold skipHexPrefix
  split
  · rename_i z x r heq
    split
    · rename_i hx
      -- the second character is no decimal digit
      exfalso
      have : x ∉ p.2 := by
        refine not_mem_readDigits hn ?_ ?_
        · rcases hx.2.2 with rfl | rfl
          · unfold pyDigit; rw [digitVal_ascii_none (by decide) (by decide)]; simp
          · unfold pyDigit; rw [digitVal_ascii_none (by decide) (by decide)]; simp
        · rcases hx.2.2 with rfl | rfl <;> decide
      rw [heq] at this
      simp at this
    · exact readDigits_10_16 hn
  · exact readDigits_10_16 hn

/-! ### The classification -/

/-- Classification of the part before the suffix. -/
def baseType (b : Str) : CertSerialType :=
  if b.length = 11 ∧ b.take 2 = c!"S:" ∧ isDigitStr (b.drop 2) then .tax
  else if 3 ≤ b.length ∧ b.length ≤ 16 ∧ b.take 2 = c!"U:" ∧
      isAlnumStr (b.drop 2) ∧ b.drop 2 = upperStr (b.drop 2) then .uid
  else if b.length = 15 ∧ b.take 2 = c!"G:" ∧ isDigitStr (b.drop 2) then .gln
  else if (pyInt 16 b).isSome then .serial
  else if (pyInt 10 b).isSome then .serial
  else .invalid

theorem baseType_company {b : Str} :
    (baseType b = .tax ∨ baseType b = .uid ∨ baseType b = .gln) ↔ CompanyId b := by
  rw [companyId_iff]
  unfold baseType
  constructor
  · intro h
    repeat' split at h
    all_goals first | (simp at h; done) | skip
    · rename_i h; exact Or.inl ‹_›
    · rename_i h; exact Or.inr (Or.inl ‹_›)
    · rename_i h; exact Or.inr (Or.inr ‹_›)
  · intro h
    repeat' split
    all_goals first | (simp; done) | skip
    all_goals (exfalso; rcases h with h | h | h <;> contradiction)

theorem baseType_serial {b : Str} : baseType b = .serial ↔ HexSerial b := by
  constructor
  · intro h
    unfold baseType at h
    repeat' split at h
    all_goals first | (cases h; done) | skip
    · assumption
    · exact pyInt_10_16 (by assumption)
  · intro h
    have hc : ¬CompanyId b := fun hc => hc.not_hex h
    rw [companyId_iff] at hc
    unfold baseType
    rw [if_neg (fun hx => hc (Or.inl hx)), if_neg (fun hx => hc (Or.inr (Or.inl hx))),
      if_neg (fun hx => hc (Or.inr (Or.inr hx)))]
    unfold HexSerial at h
    rw [if_pos h]

theorem certSerialType_eq (s : Str) : certSerialType s =
    if s = [] then .invalid else
      let s' := if s.head? = some '-' ∧ '-' ∉ s.drop 1 then s.drop 1 else s
      if 2 < (splitOn '-' s').length then .invalid
      else if (splitOn '-' s').length = 2 ∧ ¬isAlnumStr ((splitOn '-' s').getD 1 []) then .invalid
      else baseType ((splitOn '-' s').headD []) := rfl

theorem baseType_nil : baseType [] = .invalid := by
  have h1 : ¬HexSerial ([] : Str) := by
    simp [HexSerial, pyInt, stripBoth, intSign, skipHexPrefix, readDigits]
  have h2 : ¬CompanyId ([] : Str) := by rintro ⟨⟩
  cases h : baseType ([] : Str) with
  | serial => exact absurd (baseType_serial.mp h) h1
  | tax => exact absurd (baseType_company.mp (Or.inl h)) h2
  | uid => exact absurd (baseType_company.mp (Or.inr (Or.inl h))) h2
  | gln => exact absurd (baseType_company.mp (Or.inr (Or.inr h))) h2
  | invalid => rfl

omit [PyEnv] in
theorem exists_first {c : Char} {s : Str} (h : c ∈ s) : ∃ a b, s = a ++ c :: b ∧ c ∉ a := by
  induction s with
  | nil => simp at h
  | cons x xs ih =>
    by_cases hx : x = c
    · subst hx; exact ⟨[], xs, rfl, by simp⟩
    · have h' : c ∈ xs := by
        rcases List.mem_cons.mp h with h | h
        · exact absurd h.symm hx
        · exact h
      obtain ⟨a, b, e, ha⟩ := ih h'
      exact ⟨x :: a, b, by rw [e]; rfl, by simp [Ne.symm hx, ha]⟩

omit [PyEnv] in
theorem splitOn_cases (c : Char) (s : Str) :
    (c ∉ s ∧ splitOn c s = [s]) ∨
    (∃ a b, s = a ++ c :: b ∧ c ∉ a ∧ splitOn c s = a :: splitOn c b) := by
  by_cases h : c ∈ s
  · right
    obtain ⟨a, b, rfl, ha⟩ := exists_first h
    exact ⟨a, b, rfl, ha, splitOn_append_sep ha⟩
  · left; exact ⟨h, splitOn_eq_singleton h⟩

/-- The classification by cases on the shape of the text. -/
theorem certSerialType_iff {s : Str} {t : CertSerialType} (ht : t ≠ .invalid) :
    certSerialType s = t ↔ WithSuffix (fun b => baseType b = t) s := by
  have hnil : baseType ([] : Str) ≠ t := by rw [baseType_nil]; exact fun h => ht h.symm
  constructor
  · intro h
    rw [certSerialType_eq] at h
    split at h
    · exact absurd h.symm ht
    simp only at h
    split at h
    · rename_i hneg
      obtain ⟨hh, hm⟩ := hneg
      obtain ⟨b, rfl⟩ : ∃ b, s = '-' :: b := by
        cases s with
        | nil => simp at hh
        | cons x xs => simp at hh; exact ⟨xs, by rw [hh]⟩
      simp only [List.drop_succ_cons, List.drop_zero] at hm h
      rw [splitOn_eq_singleton hm] at h
      simp at h
      exact .neg b h hm
    · rename_i hneg
      rcases splitOn_cases '-' s with ⟨hm, he⟩ | ⟨a, b, rfl, ha, he⟩
      · rw [he] at h; simp at h
        exact .plain s h hm
      · rw [he] at h
        rcases splitOn_cases '-' b with ⟨hm, he'⟩ | ⟨c, d, rfl, hc, he'⟩
        · rw [he'] at h
          simp at h
          split at h
          · exact absurd h.symm ht
          · rename_i hal
            rw [Bool.not_eq_false, isAlnumStr_iff] at hal
            exact .suffix a b h ha hal.1 hal.2
        · rw [he'] at h
          have := List.length_pos_of_ne_nil (splitOn_ne_nil '-' d)
          rw [if_pos (by simp; exact this)] at h
          exact absurd h.symm ht
  · intro h
    rw [certSerialType_eq]
    cases h with
    | plain b hb hm =>
      have hne : s ≠ [] := by rintro rfl; exact hnil hb
      rw [if_neg hne]
      have : ¬(s.head? = some '-' ∧ '-' ∉ s.drop 1) := by
        rintro ⟨h1, -⟩; exact hm (List.mem_of_head? h1)
      simp only [if_neg this]
      rw [splitOn_eq_singleton hm]
      simpa using hb
    | neg b hb hm =>
      rw [if_neg (by simp)]
      have : ((('-' :: b).head? = some '-') ∧ '-' ∉ ('-' :: b).drop 1) := by simpa using hm
      simp only
      rw [if_pos this, List.drop_succ_cons, List.drop_zero, splitOn_eq_singleton hm]
      simpa using hb
    | suffix b k hb hm hk al =>
      have hbne : b ≠ [] := by rintro rfl; exact hnil hb
      rw [if_neg (by simp)]
      have : ¬((b ++ '-' :: k).head? = some '-' ∧ '-' ∉ (b ++ '-' :: k).drop 1) := by
        rintro ⟨h1, -⟩
        cases b with
        | nil => exact hbne rfl
        | cons x xs => simp at h1; subst h1; simp at hm
      simp only [if_neg this]
      have hkm : '-' ∉ k := by
        intro h; have := al _ h; rw [isAlnum_minus] at this; cases this
      rw [splitOn_append_sep hm, splitOn_eq_singleton hkm]
      simp only [List.length_cons, List.length_nil, List.getD_cons_succ, List.getD_cons_zero,
        List.headD_cons]
      rw [if_neg (by omega), if_neg]
      · exact hb
      · rintro ⟨-, h⟩; exact h (isAlnumStr_iff.mpr ⟨hk, al⟩)

theorem certSerialType_serial {s : Str} : certSerialType s = .serial ↔ WithSuffix HexSerial s := by
  rw [certSerialType_iff (by decide)]
  simp only [baseType_serial]

omit [PyEnv] in
theorem WithSuffix.mono [PyEnv] {P Q : Str → Prop} (h : ∀ b, P b → Q b) {s : Str}
    (hs : WithSuffix P s) : WithSuffix Q s := by
  cases hs with
  | plain b hp hb => exact .plain _ (h _ hp) hb
  | neg b hp hb => exact .neg _ (h _ hp) hb
  | suffix b k hp hb hk al => exact .suffix _ _ (h _ hp) hb hk al

theorem certSerialType_company {s : Str} :
    (certSerialType s = .tax ∨ certSerialType s = .uid ∨ certSerialType s = .gln) ↔
      WithSuffix CompanyId s := by
  rw [certSerialType_iff (by decide), certSerialType_iff (by decide), certSerialType_iff (by decide)]
  constructor
  · rintro (h | h | h)
    · exact h.mono fun b hb => baseType_company.mp (Or.inl hb)
    · exact h.mono fun b hb => baseType_company.mp (Or.inr (Or.inl hb))
    · exact h.mono fun b hb => baseType_company.mp (Or.inr (Or.inr hb))
  · intro h
    cases h with
    | plain b hp hb =>
      rcases baseType_company.mpr hp with h | h | h
      · exact Or.inl (.plain _ h hb)
      · exact Or.inr (Or.inl (.plain _ h hb))
      · exact Or.inr (Or.inr (.plain _ h hb))
    | neg b hp hb =>
      rcases baseType_company.mpr hp with h | h | h
      · exact Or.inl (.neg _ h hb)
      · exact Or.inr (Or.inl (.neg _ h hb))
      · exact Or.inr (Or.inr (.neg _ h hb))
    | suffix b k hp hb hk al =>
      rcases baseType_company.mpr hp with h | h | h
      · exact Or.inl (.suffix _ _ h hb hk al)
      · exact Or.inr (Or.inl (.suffix _ _ h hb hk al))
      · exact Or.inr (Or.inr (.suffix _ _ h hb hk al))

/-- A valid serial text contains no semicolon. -/
theorem semicolon_not_mem_serial {s : Str} (h : certSerialType s ≠ .invalid) : ';' ∉ s := by
  have h1 : WithSuffix (fun b => ';' ∉ b) s := by
    cases ht : certSerialType s with
    | invalid => exact absurd ht h
    | serial =>
      refine (certSerialType_serial.mp ht).mono fun b hb => ?_
      exact hb.not_mem (by decide) (by decide) (by decide) (by decide) (by decide) (by decide)
        (by decide) (by decide) (by decide) (by decide) (by decide)
    | tax | uid | gln =>
      refine (certSerialType_company.mp (by simp [ht])).mono fun b hb => ?_
      have hd : isDigit ';' = false := by rw [PyEnv.isDigit_ascii (by decide)]; decide
      have ha : isAlnum ';' = false := by rw [PyEnv.isAlnum_ascii (by decide)]; decide
      cases hb with
      | tax d len dig => simp; intro h; rw [dig _ h] at hd; cases hd
      | uid d len al up => simp; intro h; rw [al _ h] at ha; cases ha
      | gln d len dig => simp; intro h; rw [dig _ h] at hd; cases hd
  cases h1 with
  | plain b hb => exact hb
  | neg b hb => simpa using hb
  | suffix b k hb _ hk al =>
    have ha : isAlnum ';' = false := by rw [PyEnv.isAlnum_ascii (by decide)]; decide
    simp only [List.mem_append, List.mem_cons, not_or]
    refine ⟨hb, by decide, fun h => ?_⟩
    rw [al _ h] at ha; cases ha

end

end RKSV
