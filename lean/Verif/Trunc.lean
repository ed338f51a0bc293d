/- Truncation toward zero (C float-to-int conversion, Python `int(x)`, numpy `astype`) in a linearly ordered field. -/
import Mathlib.Algebra.Order.Floor.Ring
import Mathlib.Algebra.Order.Field.Basic
import Mathlib.Tactic.Linarith
import Mathlib.Tactic.NormNum
import Mathlib.Tactic.Push
namespace Emlearn
variable {K : Type} [Field K] [LinearOrder K] [IsStrictOrderedRing K] [FloorRing K]

/-- Truncation toward zero: the integer part of `x`. -/
def trunc (x : K) : Int := if 0 ≤ x then ⌊x⌋ else ⌈x⌉

theorem trunc_of_nonneg {x : K} (h : 0 ≤ x) : trunc x = ⌊x⌋ := if_pos h
theorem trunc_of_neg {x : K} (h : x < 0) : trunc x = ⌈x⌉ := if_neg (not_le.mpr h)

@[simp] theorem trunc_intCast (n : Int) : trunc (n : K) = n := by
  unfold trunc; split <;> simp

@[simp] theorem trunc_zero : trunc (0 : K) = 0 := by simp [trunc]

theorem trunc_neg (x : K) : trunc (-x) = -trunc x := by
  unfold trunc
  rcases lt_trichotomy x 0 with h | h | h
  · rw [if_pos (by linarith), if_neg (by linarith), Int.floor_neg]
  · subst h; simp
  · rw [if_neg (by linarith), if_pos h.le, Int.ceil_neg]

theorem trunc_mono {x y : K} (h : x ≤ y) : trunc x ≤ trunc y := by
  unfold trunc
  split <;> split
  · exact Int.floor_le_floor h
  · linarith
  · have h1 : ⌈x⌉ ≤ 0 := Int.ceil_le.mpr (by push_cast; linarith)
    have h2 : (0:Int) ≤ ⌊y⌋ := Int.floor_nonneg.mpr (by assumption)
    omega
  · exact Int.ceil_le_ceil h

/-- Truncation never increases the magnitude and moves by less than one. -/
theorem trunc_spec (x : K) : |x - trunc x| < 1 ∧ |(trunc x : K)| ≤ |x| := by
  unfold trunc
  split
  · rename_i h
    have h1 := Int.floor_le x
    have h2 := Int.lt_floor_add_one x
    have h3 : (0:K) ≤ (⌊x⌋ : K) := by exact_mod_cast Int.floor_nonneg.mpr h
    constructor
    · rw [abs_lt]; constructor <;> linarith
    · rw [abs_of_nonneg h3, abs_of_nonneg h]; exact h1
  · rename_i h
    push Not at h
    have h1 := Int.le_ceil x
    have h2 := Int.ceil_lt_add_one x
    have h3 : (⌈x⌉ : K) ≤ 0 := by exact_mod_cast Int.ceil_le.mpr (by push_cast; linarith)
    constructor
    · rw [abs_lt]; constructor <;> linarith
    · rw [abs_of_nonpos h3, abs_of_neg h]; linarith

theorem trunc_nonneg {x : K} (h : 0 ≤ x) : 0 ≤ trunc x := by
  rw [trunc_of_nonneg h]; exact Int.floor_nonneg.mpr h

end Emlearn
