import Verif.Py.DateTime
import Mathlib.Data.Int.Log
import Mathlib.Data.Rat.Floor
import Mathlib.Tactic.Linarith
import Mathlib.Tactic.Positivity
import Mathlib.Tactic.FieldSimp
import Mathlib.Tactic.Ring
import Mathlib.Tactic.NormNum
/-
IEEE 754 binary64 arithmetic, as far as the code uses it: reading amounts (`float("12.30")`),
addition, multiplication by 100, `round` and comparison with zero.  A finite float is the rational
number it denotes.  Signed zeros are not distinguished (no operation used here can tell them
apart) and subnormal numbers do not occur (amounts are multiples of a cent).
-/
namespace RKSV

/-- Round to the nearest integer, ties to even: Python's `round(x)` on an exact value. -/
def roundEven (q : ℚ) : ℤ :=
  let f := ⌊q⌋
  let d := q - f
  if d < 1 / 2 then f
  else if 1 / 2 < d then f + 1
  else if f % 2 = 0 then f else f + 1

/-- Round a rational to 53 significant bits, ties to even. -/
def rnd (q : ℚ) : ℚ :=
  if q = 0 then 0
  else
    let e := Int.log 2 |q| - 52
    (roundEven (q / 2 ^ e) : ℚ) * 2 ^ e

/-- Binary64 values (without signed zero). -/
inductive F64 where
  | fin (q : ℚ)
  | pinf
  | ninf
  | nan
deriving DecidableEq

/-- Round a rational to a float, overflowing to an infinity. -/
def toF64 (q : ℚ) : F64 :=
  let r := rnd q
  if 2 ^ (1024 : ℕ) ≤ r then .pinf else if r ≤ -2 ^ (1024 : ℕ) then .ninf else .fin r

/-- `x + y`. -/
def F64.add : F64 → F64 → F64
  | .nan, _ => .nan
  | _, .nan => .nan
  | .pinf, .ninf => .nan
  | .ninf, .pinf => .nan
  | .pinf, _ => .pinf
  | _, .pinf => .pinf
  | .ninf, _ => .ninf
  | _, .ninf => .ninf
  | .fin a, .fin b => toF64 (a + b)

/-- `x * 100`. -/
def F64.mul100 : F64 → F64
  | .nan => .nan
  | .pinf => .pinf
  | .ninf => .ninf
  | .fin a => toF64 (a * 100)

/-- `x == 0.0`. -/
def F64.isZero : F64 → Bool
  | .fin q => q == 0
  | _ => false

/-- What `int(round(x))` yields. -/
inductive RoundErr where
  | overflow
  | nan

/-- `int(round(x))`: `OverflowError` for infinities, `ValueError` for NaN. -/
def F64.intRound : F64 → Except RoundErr ℤ
  | .fin q => .ok (roundEven q)
  | .nan => .error .nan
  | _ => .error .overflow

/-- The float that an amount of `c` cents is read as: `float("-12.30")` is the correctly rounded
value of the decimal. -/
def centsToF64 (c : ℤ) : F64 := toF64 (c / 100)

/-! ### Error analysis -/

/-- The unit roundoff. -/
def ulp : ℚ := 1 / 2 ^ (53 : ℕ)

theorem roundEven_err (q : ℚ) : |(roundEven q : ℚ) - q| ≤ 1 / 2 := by
  have h1 : (⌊q⌋ : ℚ) ≤ q := Int.floor_le q
  have h2 : q < ⌊q⌋ + 1 := Int.lt_floor_add_one q
  unfold roundEven
  simp only
  split
  · rw [abs_le]; constructor <;> linarith
  · split
    · push_cast; rw [abs_le]; constructor <;> linarith
    · split
      · rw [abs_le]; constructor <;> linarith
      · push_cast; rw [abs_le]; constructor <;> linarith

/-- An integer strictly closer than one half is the result of rounding. -/
theorem roundEven_eq_of_close {q : ℚ} {n : ℤ} (h : |q - n| < 1 / 2) : roundEven q = n := by
  have h1 := roundEven_err q
  rw [abs_le] at h1
  rw [abs_lt] at h
  have a : ((roundEven q : ℚ) - n) < 1 := by linarith
  have b : (-1 : ℚ) < ((roundEven q : ℚ) - n) := by linarith
  have a' : roundEven q - n < 1 := by exact_mod_cast a
  have b' : -1 < roundEven q - n := by exact_mod_cast b
  omega

theorem roundEven_int (n : ℤ) : roundEven n = n := by
  apply roundEven_eq_of_close
  simp

theorem rnd_zero : rnd 0 = 0 := by simp [rnd]

/-- Relative error of rounding to 53 bits. -/
theorem rnd_err (q : ℚ) : |rnd q - q| ≤ |q| * ulp := by
  unfold rnd
  split
  · rename_i h; subst h; simp
  · rename_i hq
    simp only
    have hpos : (0 : ℚ) < |q| := abs_pos.mpr hq
    have hlog : (2 : ℚ) ^ Int.log 2 |q| ≤ |q| := by
      have := Int.zpow_log_le_self (b := 2) (r := |q|) (by decide) hpos
      simpa using this
    set e := Int.log 2 |q| - 52 with he
    have h2e : (0 : ℚ) < 2 ^ e := zpow_pos (by norm_num) _
    have herr := roundEven_err (q / 2 ^ e)
    have heq : (roundEven (q / 2 ^ e) : ℚ) * 2 ^ e - q =
        ((roundEven (q / 2 ^ e) : ℚ) - q / 2 ^ e) * 2 ^ e := by
      field_simp
    rw [heq, abs_mul, abs_of_pos h2e]
    have hstep : |(roundEven (q / 2 ^ e) : ℚ) - q / 2 ^ e| * 2 ^ e ≤ 1 / 2 * 2 ^ e :=
      mul_le_mul_of_nonneg_right herr h2e.le
    refine hstep.trans ?_
    have h3 : (1 / 2 : ℚ) * 2 ^ e = 2 ^ Int.log 2 |q| * ulp := by
      rw [he, zpow_sub₀ (by norm_num)]
      unfold ulp
      norm_num
      ring
    rw [h3]
    exact mul_le_mul_of_nonneg_right hlog (by unfold ulp; norm_num)

theorem ulp_lt : ulp < 1 := by unfold ulp; norm_num

theorem rnd_eq_zero_iff {q : ℚ} : rnd q = 0 ↔ q = 0 := by
  constructor
  · intro h
    have := rnd_err q
    rw [h, zero_sub, abs_neg] at this
    by_contra hq
    have hpos : (0 : ℚ) < |q| := abs_pos.mpr hq
    have := ulp_lt
    nlinarith
  · rintro rfl; exact rnd_zero

theorem abs_rnd_le (q : ℚ) : |rnd q| ≤ |q| * (1 + ulp) := by
  have h := rnd_err q
  have : |rnd q| ≤ |rnd q - q| + |q| := by
    have := abs_add_le (rnd q - q) q
    simpa using this
  linarith

theorem toF64_fin {q : ℚ} (h : |q| ≤ 2 ^ (1000 : ℕ)) : toF64 q = .fin (rnd q) := by
  have h1 := abs_rnd_le q
  have hu := ulp_lt
  have h0 : 0 ≤ |q| := abs_nonneg q
  have h2 : |rnd q| < 2 ^ (1024 : ℕ) := by
    have : |rnd q| ≤ 2 ^ (1000 : ℕ) * 2 := by nlinarith
    calc |rnd q| ≤ 2 ^ (1000 : ℕ) * 2 := this
      _ = 2 ^ (1001 : ℕ) := (pow_succ _ _).symm
      _ < 2 ^ (1024 : ℕ) := pow_lt_pow_right₀ (by norm_num) (by norm_num)
  rw [abs_lt] at h2
  unfold toF64
  simp only
  rw [if_neg (by linarith), if_neg (by linarith)]

/-- Whether a read amount equals `0.0` is exactly whether it denotes zero cents, for amounts of
any size. -/
theorem centsToF64_isZero (c : ℤ) : (centsToF64 c).isZero = (c == 0) := by
  unfold centsToF64 toF64
  simp only
  have hz : rnd ((c : ℚ) / 100) = 0 ↔ c = 0 := by
    rw [rnd_eq_zero_iff]
    constructor
    · intro h
      have : (c : ℚ) = 0 := by linarith
      exact_mod_cast this
    · rintro rfl; simp
  have key : ∀ r : ℚ, (F64.fin r).isZero = (r == 0) := fun _ => rfl
  by_cases hc : c = 0
  · subst hc
    have : rnd (((0 : ℤ) : ℚ) / 100) = 0 := hz.mpr rfl
    rw [this, if_neg (by norm_num), if_neg (by norm_num)]
    rfl
  · have hr : rnd ((c : ℚ) / 100) ≠ 0 := fun h => hc (hz.mp h)
    have hb : (c == 0) = false := by simpa using hc
    rw [hb]
    split
    · rfl
    · split
      · rfl
      · rw [key]; simpa using hr

/-- The running sum of the code: `(a + b + c + d + e) * 100`. -/
def sum5 (a b c d e : F64) : F64 := ((((a.add b).add c).add d).add e).mul100

theorem fin_add_close {x y a b ea eb S T : ℚ} (hx : |x - a| ≤ ea) (hy : |y - b| ≤ eb)
    (ha : |a| ≤ S) (hb : |b| ≤ T) :
    |rnd (x + y) - (a + b)| ≤ (ea + eb) + (S + T + ea + eb) * ulp := by
  have h1 := rnd_err (x + y)
  have h2 : |x + y - (a + b)| ≤ ea + eb := by
    have : x + y - (a + b) = (x - a) + (y - b) := by ring
    rw [this]
    exact (abs_add_le _ _).trans (add_le_add hx hy)
  have h3 : |x + y| ≤ S + T + ea + eb := by
    have e1 : x + y = (x + y - (a + b)) + (a + b) := by ring
    rw [e1]
    have := abs_add_le (x + y - (a + b)) (a + b)
    have := abs_add_le a b
    linarith
  have hu : (0 : ℚ) ≤ ulp := by unfold ulp; norm_num
  have h4 : |x + y| * ulp ≤ (S + T + ea + eb) * ulp := mul_le_mul_of_nonneg_right h3 hu
  have e2 : rnd (x + y) - (a + b) = (rnd (x + y) - (x + y)) + (x + y - (a + b)) := by ring
  rw [e2]
  have := abs_add_le (rnd (x + y) - (x + y)) (x + y - (a + b))
  linarith

theorem le_two_pow_1000 {x : ℚ} (h : x ≤ 2 ^ (60 : ℕ)) : x ≤ 2 ^ (1000 : ℕ) :=
  h.trans (pow_le_pow_right₀ (by norm_num) (by norm_num))

/-- As long as the absolute amounts add up to at most 2^49 cents (more than 5.6 * 10^12 euros) the
float computation of the code yields the exact sum of the cents. -/
theorem sum5_exact {c1 c2 c3 c4 c5 : ℤ} (h : |c1| + |c2| + |c3| + |c4| + |c5| ≤ 2 ^ (49 : ℕ)) :
    (sum5 (centsToF64 c1) (centsToF64 c2) (centsToF64 c3) (centsToF64 c4) (centsToF64 c5)).intRound =
      .ok (c1 + c2 + c3 + c4 + c5) := by
  have hq : |(c1 : ℚ)| + |(c2 : ℚ)| + |(c3 : ℚ)| + |(c4 : ℚ)| + |(c5 : ℚ)| ≤ 2 ^ (49 : ℕ) := by
    exact_mod_cast h
  have read : ∀ c : ℤ, |(c : ℚ)| ≤ 2 ^ (49 : ℕ) →
      centsToF64 c = .fin (rnd (c / 100)) ∧ |rnd ((c : ℚ) / 100) - c / 100| ≤ |(c : ℚ)| / 100 * ulp := by
    intro c hc
    have e1 : |(c : ℚ) / 100| = |(c : ℚ)| / 100 := by
      rw [abs_div, abs_of_pos (by norm_num : (0 : ℚ) < 100)]
    constructor
    · unfold centsToF64
      apply toF64_fin
      apply le_two_pow_1000
      rw [e1]
      norm_num at hc ⊢
      linarith
    · have := rnd_err ((c : ℚ) / 100)
      rwa [e1] at this
  have n1 := abs_nonneg (c1 : ℚ)
  have n2 := abs_nonneg (c2 : ℚ)
  have n3 := abs_nonneg (c3 : ℚ)
  have n4 := abs_nonneg (c4 : ℚ)
  have n5 := abs_nonneg (c5 : ℚ)
  obtain ⟨r1, x1⟩ := read c1 (by linarith)
  obtain ⟨r2, x2⟩ := read c2 (by linarith)
  obtain ⟨r3, x3⟩ := read c3 (by linarith)
  obtain ⟨r4, x4⟩ := read c4 (by linarith)
  obtain ⟨r5, x5⟩ := read c5 (by linarith)
  have ab : ∀ c : ℤ, |(c : ℚ) / 100| ≤ |(c : ℚ)| / 100 := by
    intro c
    rw [abs_div, abs_of_pos (by norm_num : (0 : ℚ) < 100)]
  have y2 := fin_add_close x1 x2 (ab c1) (ab c2)
  have a2 := (abs_add_le ((c1 : ℚ) / 100) (c2 / 100)).trans (add_le_add (ab c1) (ab c2))
  have y3 := fin_add_close y2 x3 a2 (ab c3)
  have a3 := (abs_add_le ((c1 : ℚ) / 100 + c2 / 100) (c3 / 100)).trans (add_le_add a2 (ab c3))
  have y4 := fin_add_close y3 x4 a3 (ab c4)
  have a4 := (abs_add_le ((c1 : ℚ) / 100 + c2 / 100 + c3 / 100) (c4 / 100)).trans
    (add_le_add a3 (ab c4))
  have y5 := fin_add_close y4 x5 a4 (ab c5)
  have a5 := (abs_add_le ((c1 : ℚ) / 100 + c2 / 100 + c3 / 100 + c4 / 100) (c5 / 100)).trans
    (add_le_add a4 (ab c5))
  -- absolute values of the sums that get rounded
  have big : ∀ {x y a b ea eb S T : ℚ}, |x - a| ≤ ea → |y - b| ≤ eb → |a| ≤ S → |b| ≤ T →
      S + T + ea + eb ≤ 2 ^ (60 : ℕ) → toF64 (x + y) = .fin (rnd (x + y)) := by
    intro x y a b ea eb S T hx hy ha hb hS
    apply toF64_fin
    apply le_two_pow_1000
    have e1 : x + y = (x - a) + (y - b) + (a + b) := by ring
    rw [e1]
    have t1 := abs_add_le ((x - a) + (y - b)) (a + b)
    have t2 := abs_add_le (x - a) (y - b)
    have t3 := abs_add_le a b
    linarith
  have u0 : ulp = 1 / 9007199254740992 := by unfold ulp; norm_num
  have f2 := big x1 x2 (ab c1) (ab c2) (by rw [u0]; norm_num at hq ⊢; linarith)
  have f3 := big y2 x3 a2 (ab c3) (by rw [u0]; norm_num at hq ⊢; linarith)
  have f4 := big y3 x4 a3 (ab c4) (by rw [u0]; norm_num at hq ⊢; linarith)
  have f5 := big y4 x5 a4 (ab c5) (by rw [u0]; norm_num at hq ⊢; linarith)
  set s5 := rnd (rnd (rnd (rnd (rnd ((c1 : ℚ) / 100) + rnd ((c2 : ℚ) / 100)) + rnd ((c3 : ℚ) / 100))
    + rnd ((c4 : ℚ) / 100)) + rnd ((c5 : ℚ) / 100)) with hs5
  have hs : |s5 * 100| ≤ 2 ^ (49 : ℕ) + 1 := by
    have e1 : s5 * 100 = (s5 - (c1 / 100 + c2 / 100 + c3 / 100 + c4 / 100 + c5 / 100)) * 100 +
      (c1 / 100 + c2 / 100 + c3 / 100 + c4 / 100 + c5 / 100) * 100 := by ring
    rw [e1]
    refine (abs_add_le _ _).trans ?_
    rw [abs_mul, abs_mul, abs_of_pos (by norm_num : (0 : ℚ) < 100)]
    rw [u0] at y5
    norm_num at hq y5 ⊢
    linarith
  have hm : toF64 (s5 * 100) = .fin (rnd (s5 * 100)) := by
    apply toF64_fin
    apply le_two_pow_1000
    refine hs.trans (by norm_num)
  unfold sum5
  rw [r1, r2, r3, r4, r5]
  simp only [F64.add, F64.mul100, f2, f3, f4, f5, hm, F64.intRound]
  congr 1
  apply roundEven_eq_of_close
  have hr := rnd_err (s5 * 100)
  have hb : |s5 * 100| * ulp ≤ (2 ^ (49 : ℕ) + 1) * ulp :=
    mul_le_mul_of_nonneg_right hs (by rw [u0]; norm_num)
  have e1 : rnd (s5 * 100) - ((c1 + c2 + c3 + c4 + c5 : ℤ) : ℚ) = (rnd (s5 * 100) - s5 * 100) +
      (s5 - (c1 / 100 + c2 / 100 + c3 / 100 + c4 / 100 + c5 / 100)) * 100 := by
    push_cast; ring
  rw [e1]
  refine lt_of_le_of_lt (abs_add_le _ _) ?_
  rw [abs_mul, abs_of_pos (by norm_num : (0 : ℚ) < 100)]
  rw [u0] at y5 hb
  rw [u0] at hr
  norm_num at hq y5 hb hr ⊢
  linarith

end RKSV
