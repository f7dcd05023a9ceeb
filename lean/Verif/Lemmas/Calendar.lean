import Verif.Spec.Calendar
/-
Lemmas about time stamps.
-/
namespace RKSV

theorem isLeap_iff {y : Nat} : isLeap y = true ↔ LeapYear y := by
  simp only [isLeap, LeapYear, Bool.and_eq_true, Bool.or_eq_true, beq_iff_eq, bne_iff_ne]
  omega

theorem monthDays_iff {y m n : Nat} : MonthDays y m n ↔ 1 ≤ m ∧ m ≤ 12 ∧ n = daysInMonth y m := by
  constructor
  · intro h
    cases h with
    | february h => exact ⟨by omega, by omega, by simp [daysInMonth, mt isLeap_iff.mp h]⟩
    | februaryLeap h => exact ⟨by omega, by omega, by simp [daysInMonth, isLeap_iff.mpr h]⟩
    | _ => exact ⟨by omega, by omega, by simp [daysInMonth]⟩
  · rintro ⟨h1, h2, rfl⟩
    have : m = 1 ∨ m = 2 ∨ m = 3 ∨ m = 4 ∨ m = 5 ∨ m = 6 ∨ m = 7 ∨ m = 8 ∨ m = 9 ∨ m = 10 ∨ m = 11 ∨ m = 12 := by omega
    rcases this with rfl | rfl | rfl | rfl | rfl | rfl | rfl | rfl | rfl | rfl | rfl | rfl
    case inr.inl =>
      by_cases h : LeapYear y
      · rw [show daysInMonth y 2 = 29 by simp [daysInMonth, isLeap_iff.mpr h]]; exact .februaryLeap h
      · rw [show daysInMonth y 2 = 28 by simp [daysInMonth, mt isLeap_iff.mp h]]; exact .february h
    all_goals constructor

/-- What the constructor accepts is what is on the calendar. -/
theorem valid_iff_real {d : DateTime} : d.Valid ↔ RealTime d := by
  constructor
  · rintro ⟨h1, h2, h3, h4, h5, h6, h7, h8, h9⟩
    exact ⟨⟨h1, h2⟩, ⟨_, monthDays_iff.mpr ⟨h3, h4, rfl⟩, h5, h6⟩, by omega, by omega, by omega⟩
  · rintro ⟨⟨h1, h2⟩, ⟨n, hn, h5, h6⟩, h7, h8, h9⟩
    obtain ⟨h3, h4, rfl⟩ := monthDays_iff.mp hn
    exact ⟨h1, h2, h3, h4, h5, h6, by omega, by omega, by omega⟩

theorem asciiDigit_iff {c : Char} {n : Nat} : asciiDigit c = some n ↔ n < 10 ∧ c = dig n := by
  constructor
  · intro h
    unfold asciiDigit at h
    split at h
    · rename_i hc
      cases h
      have h1 : 48 ≤ c.toNat := hc.1
      have h2 : c.toNat ≤ 57 := hc.2
      refine ⟨by omega, ?_⟩
      rw [dig, show 48 + (c.toNat - 48) = c.toNat by omega, Char.ofNat_toNat]
    · cases h
  · rintro ⟨h, rfl⟩; exact asciiDigit_dig h

theorem twoDigits_iff {s : Str} {n : Nat} (h : n < 100) : TwoDigits s n ↔ s = pad2 n ∨ (n < 10 ∧ s = [dig n]) := by
  unfold TwoDigits
  by_cases hn : n < 10
  · rw [natDec_lt hn, pad2, show n / 10 = 0 by omega, show n % 10 = n by omega, show dig 0 = '0' from rfl]
    simp only [hn, true_and]
    exact or_comm
  · rw [natDec_ge (by omega), natDec_lt (by omega), pad2]
    simp only [hn, false_and, or_false]
    rfl

theorem twoDigits_one {n : Nat} (h : n < 10) : TwoDigits [dig n] n := (twoDigits_iff (by omega)).mpr (.inr ⟨h, rfl⟩)

theorem twoDigits_two {a b : Nat} (ha : a < 10) (hb : b < 10) : TwoDigits [dig a, dig b] (10 * a + b) :=
  (twoDigits_iff (by omega)).mpr (.inl (by
    rw [pad2, show (10 * a + b) / 10 = a by omega, show (10 * a + b) % 10 = b by omega]))

/-- Text of ASCII characters. -/
def AsciiText (s : Str) : Prop := ∀ c ∈ s, c.toNat < 128

theorem fieldMonth_iff {s : Str} {n : Nat} : fieldMonth s = some n ↔ TwoDigits s n ∧ 1 ≤ n ∧ n ≤ 12 := by
  constructor
  · intro h
    unfold fieldMonth at h
    split at h
    · split at h
      · rename_i d hd
        obtain ⟨kd, rfl⟩ := asciiDigit_iff.mp hd
        split at h
        · cases h; exact ⟨twoDigits_one kd, by omega, by omega⟩
        · cases h
      · cases h
    · split at h
      · rename_i d ha hb
        obtain ⟨ka, rfl⟩ := asciiDigit_iff.mp ha
        obtain ⟨kb, rfl⟩ := asciiDigit_iff.mp hb
        split at h
        · cases h; exact ⟨twoDigits_two ka kb, by omega, by omega⟩
        · cases h
      · rename_i d ha hb
        obtain ⟨ka, rfl⟩ := asciiDigit_iff.mp ha
        obtain ⟨kb, rfl⟩ := asciiDigit_iff.mp hb
        split at h
        · cases h; exact ⟨by simpa using twoDigits_two ka kb, by omega, by omega⟩
        · cases h
      · cases h
    · cases h
  · rintro ⟨h, h1, h2⟩
    rcases (twoDigits_iff (by omega)).mp h with rfl | ⟨h3, rfl⟩
    · exact fieldMonth_pad2 h1 h2
    · simp [fieldMonth, asciiDigit_dig h3, show 1 ≤ n from h1]

section
variable [PyEnv]

theorem digitVal_iff {c : Char} {n : Nat} (hc : c.toNat < 128) : digitVal c = some n ↔ n < 10 ∧ c = dig n := by
  rw [PyEnv.digitVal_ascii hc, asciiDigit_iff]

theorem fieldDay_iff {s : Str} {n : Nat} (hs : AsciiText s) :
    fieldDay s = some n ↔ (TwoDigits s n ∨ (n < 10 ∧ s = ' ' :: natDec n)) ∧ 1 ≤ n ∧ n ≤ 31 := by
  constructor
  · intro h
    unfold fieldDay at h
    split at h
    · split at h
      · rename_i d hd
        obtain ⟨kd, rfl⟩ := asciiDigit_iff.mp hd
        split at h
        · cases h; exact ⟨.inl (twoDigits_one kd), by omega, by omega⟩
        · cases h
      · cases h
    · rename_i a b
      have hb : b.toNat < 128 := hs b (by simp)
      split at h
      · rename_i ha
        subst ha
        split at h
        · rename_i d hd
          obtain ⟨kd, rfl⟩ := asciiDigit_iff.mp hd
          split at h
          · cases h; exact ⟨.inr ⟨kd, by rw [natDec_lt kd]⟩, by omega, by omega⟩
          · cases h
        · cases h
      · split at h
        · rename_i ha
          obtain ⟨ka, rfl⟩ := asciiDigit_iff.mp ha
          split at h
          · rename_i d hd
            obtain ⟨kd, rfl⟩ := asciiDigit_iff.mp hd
            split at h
            · cases h; exact ⟨.inl (twoDigits_two ka kd), by omega, by omega⟩
            · cases h
          · cases h
        · rename_i ha
          obtain ⟨ka, rfl⟩ := asciiDigit_iff.mp ha
          obtain ⟨d, hd, rfl⟩ := Option.map_eq_some_iff.mp h
          obtain ⟨kd, rfl⟩ := (digitVal_iff hb).mp hd
          exact ⟨.inl (twoDigits_two ka kd), by omega, by omega⟩
        · rename_i ha
          obtain ⟨ka, rfl⟩ := asciiDigit_iff.mp ha
          obtain ⟨d, hd, rfl⟩ := Option.map_eq_some_iff.mp h
          obtain ⟨kd, rfl⟩ := (digitVal_iff hb).mp hd
          exact ⟨.inl (twoDigits_two ka kd), by omega, by omega⟩
        · rename_i ha
          obtain ⟨ka, rfl⟩ := asciiDigit_iff.mp ha
          split at h
          · rename_i d hd
            obtain ⟨kd, rfl⟩ := asciiDigit_iff.mp hd
            split at h
            · cases h; exact ⟨.inl (by simpa using twoDigits_two ka kd), by omega, by omega⟩
            · cases h
          · cases h
        · cases h
    · cases h
  · rintro ⟨h | ⟨h3, rfl⟩, h1, h2⟩
    · rcases (twoDigits_iff (by omega)).mp h with rfl | ⟨h3, rfl⟩
      · exact fieldDay_pad2 h1 h2
      · simp [fieldDay, asciiDigit_dig h3, show 1 ≤ n from h1]
    · rw [natDec_lt h3]
      simp [fieldDay, asciiDigit_dig h3, show 1 ≤ n from h1]

theorem fieldHour_iff {s : Str} {n : Nat} (hs : AsciiText s) : fieldHour s = some n ↔ TwoDigits s n ∧ n ≤ 23 := by
  constructor
  · intro h
    unfold fieldHour at h
    split at h
    · obtain ⟨kd, rfl⟩ := (digitVal_iff (hs _ (by simp))).mp h
      exact ⟨twoDigits_one kd, by omega⟩
    · rename_i a b
      have hb : b.toNat < 128 := hs b (by simp)
      split at h
      · rename_i ha
        obtain ⟨ka, rfl⟩ := asciiDigit_iff.mp ha
        split at h
        · rename_i d hd
          obtain ⟨kd, rfl⟩ := asciiDigit_iff.mp hd
          split at h
          · cases h; exact ⟨twoDigits_two ka kd, by omega⟩
          · cases h
        · cases h
      · rename_i ha
        obtain ⟨ka, rfl⟩ := asciiDigit_iff.mp ha
        obtain ⟨d, hd, rfl⟩ := Option.map_eq_some_iff.mp h
        obtain ⟨kd, rfl⟩ := (digitVal_iff hb).mp hd
        exact ⟨twoDigits_two ka kd, by omega⟩
      · rename_i ha
        obtain ⟨ka, rfl⟩ := asciiDigit_iff.mp ha
        obtain ⟨kd, rfl⟩ := (digitVal_iff hb).mp h
        exact ⟨by simpa using twoDigits_two ka kd, by omega⟩
      · cases h
    · cases h
  · rintro ⟨h, h2⟩
    rcases (twoDigits_iff (by omega)).mp h with rfl | ⟨h3, rfl⟩
    · exact fieldHour_pad2 h2
    · exact digitVal_dig h3

theorem fieldMinute_iff {s : Str} {n : Nat} (hs : AsciiText s) : fieldMinute s = some n ↔ TwoDigits s n ∧ n ≤ 59 := by
  constructor
  · intro h
    unfold fieldMinute at h
    split at h
    · obtain ⟨kd, rfl⟩ := (digitVal_iff (hs _ (by simp))).mp h
      exact ⟨twoDigits_one kd, by omega⟩
    · rename_i a b
      have hb : b.toNat < 128 := hs b (by simp)
      split at h
      · rename_i t ha
        obtain ⟨ka, rfl⟩ := asciiDigit_iff.mp ha
        split at h
        · obtain ⟨d, hd, rfl⟩ := Option.map_eq_some_iff.mp h
          obtain ⟨kd, rfl⟩ := (digitVal_iff hb).mp hd
          exact ⟨twoDigits_two ka kd, by omega⟩
        · cases h
      · cases h
    · cases h
  · rintro ⟨h, h2⟩
    rcases (twoDigits_iff (by omega)).mp h with rfl | ⟨h3, rfl⟩
    · exact fieldMinute_pad2 h2
    · exact digitVal_dig h3

theorem fieldSecond_iff {s : Str} {n : Nat} (hs : AsciiText s) : fieldSecond s = some n ↔ TwoDigits s n ∧ n ≤ 61 := by
  constructor
  · intro h
    unfold fieldSecond at h
    split at h
    · obtain ⟨kd, rfl⟩ := (digitVal_iff (hs _ (by simp))).mp h
      exact ⟨twoDigits_one kd, by omega⟩
    · rename_i a b
      have hb : b.toNat < 128 := hs b (by simp)
      split at h
      · rename_i t ha
        obtain ⟨ka, rfl⟩ := asciiDigit_iff.mp ha
        split at h
        · obtain ⟨d, hd, rfl⟩ := Option.map_eq_some_iff.mp h
          obtain ⟨kd, rfl⟩ := (digitVal_iff hb).mp hd
          exact ⟨twoDigits_two ka kd, by omega⟩
        · split at h
          · rename_i ht
            subst ht
            split at h
            · rename_i d hd
              obtain ⟨kd, rfl⟩ := asciiDigit_iff.mp hd
              split at h
              · cases h; exact ⟨twoDigits_two ka kd, by omega⟩
              · cases h
            · cases h
          · cases h
      · cases h
    · cases h
  · rintro ⟨h, h2⟩
    rcases (twoDigits_iff (by omega)).mp h with rfl | ⟨h3, rfl⟩
    · by_cases h60 : n ≤ 59
      · exact fieldSecond_pad2 h60
      · have : n = 60 ∨ n = 61 := by omega
        rcases this with rfl | rfl
        · rfl
        · rfl
    · exact digitVal_dig h3

omit [PyEnv] in
theorem cutAt_iff {p : Char → Bool} {s a b : Str} :
    cutAt p s = some (a, b) ↔ ∃ c, s = a ++ c :: b ∧ p c = true ∧ ∀ x ∈ a, p x = false := by
  constructor
  · intro h
    induction s generalizing a b with
    | nil => cases h
    | cons c s ih =>
      unfold cutAt at h
      split at h
      · rename_i hc
        cases h
        exact ⟨c, rfl, hc, by simp⟩
      · rename_i hc
        obtain ⟨⟨a', b'⟩, h1, h2⟩ := Option.map_eq_some_iff.mp h
        cases h2
        obtain ⟨c', rfl, h3, h4⟩ := ih h1
        refine ⟨c', rfl, h3, fun x hx => ?_⟩
        rcases List.mem_cons.mp hx with rfl | hx
        · simpa using hc
        · exact h4 x hx
  · rintro ⟨c, rfl, hc, ha⟩
    exact cutAt_append ha hc

omit [PyEnv] in
theorem twoDigits_chars {s : Str} {n : Nat} (h : TwoDigits s n) {c : Char} (hc : c.toNat < 48 ∨ 57 < c.toNat) :
    ∀ x ∈ s, x ≠ c := by
  intro x hx
  have hn : ∀ x ∈ natDec n, x ≠ c := by
    intro x hx
    obtain ⟨d, hd, rfl⟩ := natDec_chars n x hx
    exact dig_ne hd hc
  rcases h with rfl | ⟨-, rfl⟩
  · exact hn x hx
  · rcases List.mem_cons.mp hx with rfl | hx
    · rintro rfl; revert hc; decide
    · exact hn x hx

omit [PyEnv] in
/-- The four digits of a year. -/
theorem fourDigits_iff {s : Str} {n : Nat} : FourDigits s n ↔ ∃ a b c d, a < 10 ∧ b < 10 ∧ c < 10 ∧ d < 10 ∧
    s = [dig a, dig b, dig c, dig d] ∧ n = a * 1000 + b * 100 + c * 10 + d := by
  have h0 : dig 0 = '0' := rfl
  have hnd : ∀ n, n < 10000 → ∃ k, [dig (n / 1000), dig (n / 100 % 10), dig (n / 10 % 10), dig (n % 10)] =
      List.replicate k '0' ++ natDec n := by
    intro n hn
    by_cases h1 : n < 10
    · refine ⟨3, ?_⟩
      rw [natDec_lt h1, show n / 1000 = 0 by omega, show n / 100 % 10 = 0 by omega, show n / 10 % 10 = 0 by omega,
        show n % 10 = n by omega, h0]
      rfl
    · by_cases h2 : n < 100
      · refine ⟨2, ?_⟩
        rw [natDec_ge (by omega), natDec_lt (by omega), show n / 1000 = 0 by omega, show n / 100 % 10 = 0 by omega,
          show n / 10 % 10 = n / 10 by omega, h0]
        rfl
      · by_cases h3 : n < 1000
        · refine ⟨1, ?_⟩
          rw [natDec_ge (by omega), natDec_ge (by omega), natDec_lt (by omega), show n / 1000 = 0 by omega,
            show n / 100 % 10 = n / 10 / 10 by omega, h0]
          rfl
        · refine ⟨0, ?_⟩
          rw [natDec_ge (by omega), natDec_ge (by omega), natDec_ge (by omega), natDec_lt (by omega),
            show n / 10 / 10 / 10 = n / 1000 by omega, show n / 10 / 10 % 10 = n / 100 % 10 by omega]
          rfl
  constructor
  · rintro ⟨h1, k, rfl⟩
    have hlt : n < 10000 := by
      refine Nat.lt_of_not_le fun hge => ?_
      have e : natDec n = ((natDec (n / 10 / 10 / 10 / 10) ++ [dig (n / 10 / 10 / 10 % 10)]) ++ [dig (n / 10 / 10 % 10)] ++
          [dig (n / 10 % 10)]) ++ [dig (n % 10)] := by
        rw [natDec_ge (by omega), natDec_ge (by omega : 10 ≤ n / 10), natDec_ge (by omega : 10 ≤ n / 10 / 10),
          natDec_ge (by omega : 10 ≤ n / 10 / 10 / 10)]
      rw [e] at h1
      have := List.length_pos_iff.mpr (natDec_ne_nil (n / 10 / 10 / 10 / 10))
      simp only [List.length_append, List.length_replicate, List.length_singleton] at h1
      omega
    obtain ⟨k', hk'⟩ := hnd n hlt
    have : k = k' := by
      have h2 := congrArg List.length hk'
      simp only [List.length_append, List.length_replicate, List.length_cons, List.length_nil] at h1 h2
      omega
    subst this
    exact ⟨n / 1000, n / 100 % 10, n / 10 % 10, n % 10, by omega, by omega, by omega, by omega, hk'.symm, by omega⟩
  · rintro ⟨a, b, c, d, ha, hb, hc, hd, rfl, rfl⟩
    obtain ⟨k, hk⟩ := hnd (a * 1000 + b * 100 + c * 10 + d) (by omega)
    refine ⟨rfl, k, ?_⟩
    rw [← hk]
    congr 1
    · congr 1; omega
    · congr 1
      · congr 1; omega
      · congr 1
        · congr 1; omega
        · congr 1; congr 1; omega

end

end RKSV
