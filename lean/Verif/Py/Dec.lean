import Verif.Py.DateTime
/-
`str(n)` / `'%d' % n` for natural numbers.
-/
namespace RKSV

/-- Decimal text (structurally recursive with fuel, see `natDec`). -/
def natDecAux : Nat → Nat → Str
  | 0, _ => []
  | f + 1, n => if n < 10 then [dig n] else natDecAux f (n / 10) ++ [dig (n % 10)]

/-- `str(n)`. -/
def natDec (n : Nat) : Str := natDecAux (n + 1) n

theorem natDecAux_fuel {f g n : Nat} (hf : n < f) (hg : n < g) : natDecAux f n = natDecAux g n := by
  induction f generalizing g n with
  | zero => omega
  | succ f ih =>
    cases g with
    | zero => omega
    | succ g =>
      simp only [natDecAux]
      split
      · rfl
      · rw [ih (n := n / 10) (g := g) (by omega) (by omega)]

theorem natDec_lt {n : Nat} (h : n < 10) : natDec n = [dig n] := by
  simp [natDec, natDecAux, h]

theorem natDec_ge {n : Nat} (h : 10 ≤ n) : natDec n = natDec (n / 10) ++ [dig (n % 10)] := by
  rw [natDec, natDecAux, if_neg (by omega)]
  rw [natDecAux_fuel (g := n / 10 + 1) (by omega) (by omega)]
  rfl

theorem natDec_chars (n : Nat) : ∀ c ∈ natDec n, ∃ d, d < 10 ∧ c = dig d := by
  induction n using Nat.strongRecOn with
  | ind n ih =>
    by_cases h : n < 10
    · rw [natDec_lt h]
      intro c hc
      simp at hc; subst hc
      exact ⟨n, h, rfl⟩
    · rw [natDec_ge (by omega)]
      intro c hc
      rcases List.mem_append.mp hc with hc | hc
      · exact ih (n / 10) (by omega) c hc
      · simp at hc; subst hc
        exact ⟨n % 10, by omega, rfl⟩

theorem natDec_ne_nil (n : Nat) : natDec n ≠ [] := by
  by_cases h : n < 10
  · rw [natDec_lt h]; simp
  · rw [natDec_ge (by omega)]; simp

/-- No leading zero. -/
theorem natDec_head {n : Nat} (h : 0 < n) : ∃ d r, natDec n = dig d :: r ∧ 0 < d ∧ d < 10 := by
  induction n using Nat.strongRecOn with
  | ind n ih =>
    by_cases h10 : n < 10
    · exact ⟨n, [], natDec_lt h10, h, h10⟩
    · obtain ⟨d, r, h1, h2, h3⟩ := ih (n / 10) (by omega) (by omega)
      exact ⟨d, r ++ [dig (n % 10)], by rw [natDec_ge (by omega), h1]; rfl, h2, h3⟩

section
variable [PyEnv]

theorem pyDigit_dig {b n : Nat} (h : n < 10) : pyDigit b (dig n) = some n := by
  unfold pyDigit
  rw [digitVal_dig h]

theorem readDigits_natDec (n : Nat) : readDigits 10 0 true (natDec n) = some n := by
  induction n using Nat.strongRecOn with
  | ind n ih =>
    by_cases h : n < 10
    · rw [natDec_lt h]
      simp [readDigits, dig_ne h (c := '_') (by decide), pyDigit_dig h]
    · rw [natDec_ge (by omega)]
      rw [readDigits_append (ih (n / 10) (by omega)) (pyDigit_dig (n := n % 10) (by omega))
        (dig_ne (by omega) (by decide))]
      congr 1
      omega

theorem pyInt_natDec (n : Nat) : pyInt 10 (natDec n) = some (n : Int) := by
  unfold pyInt
  have hch := natDec_chars n
  have hsp : ∀ c ∈ natDec n, intSpace c = false := by
    intro c hc
    obtain ⟨d, hd, rfl⟩ := hch c hc
    have := dig_toNat hd
    simp only [intSpace, Bool.or_eq_false_iff, Bool.and_eq_false_iff, decide_eq_false_iff_not]
    omega
  rw [stripBoth_eq_self hsp]
  have hpre : skipHexPrefix 10 (natDec n) = natDec n := by
    unfold skipHexPrefix
    split
    · rw [if_neg]; rintro ⟨h, -⟩; omega
    · rfl
  have hsign : intSign (natDec n) = (false, natDec n) := by
    unfold intSign
    split
    · rename_i r h
      obtain ⟨d, hd, e⟩ := hch '-' (by rw [h]; simp)
      exact absurd e.symm (dig_ne hd (by decide))
    · rename_i r h
      obtain ⟨d, hd, e⟩ := hch '+' (by rw [h]; simp)
      exact absurd e.symm (dig_ne hd (by decide))
    · rfl
  rw [hsign]
  simp only
  rw [hpre, readDigits_natDec]
  simp

theorem natDec_injective {m n : Nat} (h : natDec m = natDec n) : m = n := by
  have := readDigits_natDec m
  rw [h, readDigits_natDec] at this
  exact (Option.some.inj this).symm

end

end RKSV
