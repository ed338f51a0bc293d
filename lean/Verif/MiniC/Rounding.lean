/- Constants with six decimals in exact arithmetic. -/
import Verif.MiniC.Exec
import Mathlib.Data.Real.Basic
import Mathlib.Tactic.Positivity
namespace Emlearn.MiniC

/-- Literals are the numbers that they denote. -/
def ExactLits (ops : CFloat ℝ) : Prop := ∀ (neg : Bool) (q : ℚ), ops.lit neg q = if neg then -(q : ℝ) else (q : ℝ)

/-- The number after printing with six decimals. -/
def round6 (v : ℚ) : ℝ := ((fixedValue 6 v : ℚ) : ℝ)

theorem round6_close (v : ℚ) : |round6 v - (v : ℝ)| ≤ 1 / (2 * 10 ^ 6) := by
  have h := fixedValue_close 6 v
  have : ((|fixedValue 6 v - v| : ℚ) : ℝ) ≤ ((1 / (2 * 10 ^ 6) : ℚ) : ℝ) := by exact_mod_cast h
  push_cast at this
  exact this

theorem fixedValue_sign (v : ℚ) : (v < 0 → fixedValue 6 v ≤ 0) ∧ (¬ v < 0 → 0 ≤ fixedValue 6 v) := by
  have h0 : (0 : ℚ) ≤ (roundHalfEven (|v| * 10 ^ 6) : ℚ) := by exact_mod_cast roundHalfEven_nonneg (by positivity)
  constructor
  · intro h
    unfold fixedValue
    rw [if_pos h]
    have : (0 : ℚ) ≤ (roundHalfEven (|v| * 10 ^ 6) : ℚ) / 10 ^ 6 := by positivity
    rw [neg_one_mul, neg_div]
    linarith
  · intro h
    unfold fixedValue
    rw [if_neg h, one_mul]
    positivity

theorem floatLit_exact (ops : CFloat ℝ) (h : ExactLits ops) (v : ℚ) : floatLit ops v = round6 v := by
  unfold floatLit round6
  rw [h]
  by_cases hv : v < 0
  · rw [if_pos (by simpa using hv), abs_of_nonpos ((fixedValue_sign v).1 hv)]
    push_cast
    ring
  · rw [if_neg (by simpa using hv), abs_of_nonneg ((fixedValue_sign v).2 hv)]

/-- Numbers below half of the last decimal are written as zero. -/
theorem round6_small (v : ℚ) (h : |v| < 1 / (2 * 10 ^ 6)) : round6 v = 0 := by
  have hs := roundHalfEven_spec (|v| * 10 ^ 6)
  have hz : roundHalfEven (|v| * 10 ^ 6) = 0 := by
    have h1 : |v| * 10 ^ 6 < 1 / 2 := by
      have := mul_lt_mul_of_pos_right h (show (0 : ℚ) < 10 ^ 6 by positivity)
      norm_num at this ⊢
      linarith
    have h2 : (0 : ℚ) ≤ |v| * 10 ^ 6 := by positivity
    rw [abs_le] at hs
    obtain ⟨hs1, hs2⟩ := hs
    generalize |v| * 10 ^ 6 = r at *
    generalize roundHalfEven r = k at *
    have h3 : (-1 : ℚ) < (k : ℚ) := by linarith
    have h4 : (k : ℚ) < 1 := by linarith
    have h5 : -1 < k := by exact_mod_cast h3
    have h6 : k < 1 := by exact_mod_cast h4
    omega
  unfold round6 fixedValue
  rw [hz]
  simp

end Emlearn.MiniC
