import Verif.Float.Binary
import Verif.Float.Net
import Mathlib.Analysis.SpecialFunctions.Trigonometric.DerivHyp
import Mathlib.Analysis.Complex.ExponentialBounds
import Verif.Float.Act
namespace Emlearn.Flt.Binary32
open Emlearn.Net

/-- Numbers with at most 24 significant bits are not changed by rounding. -/
theorem fl_exact (k : ℤ) (e : ℤ) (hk : |k| < 2 ^ 24) (he : -149 ≤ e) : fl (k * 2 ^ e) = k * 2 ^ e := by
  by_cases hk0 : k = 0
  · subst hk0
    simp [fl]
  have h2 : (0 : ℝ) < 2 ^ e := zpow_pos (by norm_num) _
  have hx : |(k : ℝ) * 2 ^ e| = |(k : ℝ)| * 2 ^ e := by rw [abs_mul, abs_of_pos h2]
  have hkpos : 0 < |(k : ℝ)| := abs_pos.2 (by exact_mod_cast hk0)
  have hlog : Int.log 2 |(k : ℝ) * 2 ^ e| < e + 24 := by
    have h1 := Int.zpow_log_le_self (R := ℝ) (b := 2) (by norm_num) (r := |(k : ℝ) * 2 ^ e|) (by rw [hx]; positivity)
    have h3 : |(k : ℝ) * 2 ^ e| < 2 ^ (e + 24) := by
      rw [hx, zpow_add₀ (by norm_num), mul_comm]
      refine mul_lt_mul_of_pos_left ?_ h2
      have : |(k : ℝ)| < 2 ^ 24 := by exact_mod_cast hk
      exact_mod_cast this
    have h4 : (2 : ℝ) ^ Int.log 2 |(k : ℝ) * 2 ^ e| < 2 ^ (e + 24) := lt_of_le_of_lt (by exact_mod_cast h1) h3
    exact (zpow_lt_zpow_iff_right₀ (by norm_num : (1 : ℝ) < 2)).1 h4
  have hu : ulpExp (k * 2 ^ e) ≤ e := max_le he (by omega)
  obtain ⟨n, hn⟩ : ∃ n : Nat, e = ulpExp (k * 2 ^ e) + n := ⟨(e - ulpExp (k * 2 ^ e)).toNat, by omega⟩
  have hp := ulp_pos ((k : ℝ) * 2 ^ e)
  unfold fl
  generalize ulpExp ((k : ℝ) * 2 ^ e) = q at *
  have hd : (k : ℝ) * 2 ^ e / 2 ^ q = ((k * 2 ^ n : ℤ) : ℝ) := by
    rw [hn, zpow_add₀ (by norm_num), zpow_natCast, div_eq_iff hp.ne']
    push_cast
    ring
  rw [hd, round_intCast, ← hd, div_mul_cancel₀ _ hp.ne']

/-- What rounding returns has at most 24 significant bits. -/
theorem fl_form (x : ℝ) : ∃ k e : ℤ, |k| < 2 ^ 24 ∧ -149 ≤ e ∧ fl x = k * 2 ^ e := by
  have hp := ulp_pos x
  have hle : |round (x / 2 ^ ulpExp x)| ≤ 2 ^ 24 := by
    have hx : |x / 2 ^ ulpExp x| ≤ ((2 ^ 24 : ℤ) : ℝ) := by
      by_cases hx0 : x = 0
      · subst hx0
        simp
      rw [abs_div, abs_of_pos hp, div_le_iff₀ hp]
      have h1 := Int.lt_zpow_succ_log_self (R := ℝ) (b := 2) (by norm_num) |x|
      have h2 : ((2 : Nat) : ℝ) ^ (Int.log 2 |x| + 1) ≤ (2 : ℝ) ^ (ulpExp x + 24) := by
        have : Int.log 2 |x| + 1 ≤ ulpExp x + 24 := by
          have := le_max_right (-149) (Int.log 2 |x| - 23)
          unfold ulpExp
          omega
        exact_mod_cast zpow_le_zpow_right₀ (by norm_num : (1 : ℝ) ≤ 2) this
      have h3 : (2 : ℝ) ^ (ulpExp x + 24) = 2 ^ ulpExp x * 2 ^ (24 : ℤ) := zpow_add₀ (by norm_num) _ _
      rw [h3] at h2
      refine (h1.le.trans h2).trans (le_of_eq ?_)
      push_cast
      rw [mul_comm]
      norm_num
    obtain ⟨l, u⟩ := abs_le.1 hx
    rw [abs_le, round_eq]
    constructor
    · refine Int.le_floor.2 ?_
      push_cast at l ⊢
      linarith
    · refine Int.floor_le_iff.2 ?_
      push_cast at u ⊢
      linarith
  have hge : -149 ≤ ulpExp x := le_max_left _ _
  by_cases hlt : |round (x / 2 ^ ulpExp x)| < 2 ^ 24
  · exact ⟨_, _, hlt, hge, rfl⟩
  · have heq : |round (x / 2 ^ ulpExp x)| = 2 ^ 24 := by omega
    have hs : (2 : ℝ) ^ (ulpExp x + 1) = 2 ^ ulpExp x * 2 := by rw [zpow_add₀ (by norm_num), zpow_one]
    rcases (abs_eq (by norm_num)).1 heq with h | h
    · refine ⟨2 ^ 23, ulpExp x + 1, by norm_num, by omega, ?_⟩
      unfold fl
      rw [h, hs]
      push_cast
      ring
    · refine ⟨-2 ^ 23, ulpExp x + 1, by norm_num, by omega, ?_⟩
      unfold fl
      rw [h, hs]
      push_cast
      ring

theorem fl_val (a : F32) : fl a.val = a.val := by
  obtain ⟨y, hy⟩ := a.rounded
  obtain ⟨k, e, hk, he, h⟩ := fl_form y
  rw [← hy, h, fl_exact k e hk he]

theorem fl_neg_val (a : F32) : fl (-a.val) = -a.val := by
  obtain ⟨y, hy⟩ := a.rounded
  obtain ⟨k, e, hk, he, h⟩ := fl_form y
  rw [← hy, h]
  have := fl_exact (-k) e (by rw [abs_neg]; exact hk) he
  push_cast at this
  rw [neg_mul] at this
  exact this

theorem fl_one : fl 1 = 1 := by simpa using fl_exact 1 0 (by norm_num) (by norm_num)
theorem fl_zero : fl 0 = 0 := by simp [fl]
theorem fl_half : fl (1 / 2) = 1 / 2 := by
  have := fl_exact 1 (-1) (by norm_num) (by norm_num)
  norm_num at this ⊢
  exact this

theorem big : (2 : ℝ) ^ 100 ≤ maxFinite := by
  unfold maxFinite
  have : (2 : ℝ) ^ (104 : ℤ) = 2 ^ 104 := by norm_cast
  rw [this]
  norm_num

/-- A constant below every finite number stands for `-INFINITY`. -/
noncomputable def negInf : F32 := rnd (-2 ^ (200 : ℤ))

theorem negInf_val : negInf.val = -2 ^ (200 : ℤ) := by
  have := fl_exact (-1) 200 (by norm_num) (by norm_num)
  push_cast at this
  rw [neg_one_mul] at this
  exact this

/-- The C operations of a network in this format, with library functions that return the nearest number. -/
noncomputable def ops32 : NetOps F32 where
  zero := rnd 0
  one := rnd 1
  half := rnd (1 / 2)
  negInf := negInf
  add := add
  sub := sub
  mul := mul
  div := div
  neg a := rnd (-a.val)
  exp a := rnd (Real.exp a.val)
  log a := rnd (Real.log a.val)
  tanh a := rnd (Real.tanh a.val)
  lt a b := decide (a.val < b.val)
  le a b := decide (a.val ≤ b.val)
  nearOne v := decide (|v.val - 1| < 1 / 1000)

theorem pos_ge (a : F32) (h : 0 < a.val) : 2 ^ (-149 : ℤ) ≤ a.val := by
  obtain ⟨y, hy⟩ := a.rounded
  obtain ⟨k, hk⟩ := fl_grid y
  have hp : (0 : ℝ) < 2 ^ (-149 : ℤ) := zpow_pos (by norm_num) _
  rw [← hy, hk] at h ⊢
  have : 0 < (k : ℝ) := by
    by_contra hn
    have := mul_nonpos_of_nonpos_of_nonneg (not_lt.1 hn) hp.le
    linarith
  have h1 : (1 : ℝ) ≤ k := by exact_mod_cast (by exact_mod_cast this : (0 : ℤ) < k)
  exact le_mul_of_one_le_left hp.le h1

/-- **The standard model is met** by binary32 with correctly rounded operations and library functions. -/
theorem netArith : NetArith fmt acc (1 / 2 ^ 23) ops32 where
  hf := by positivity
  zero := by
    refine ⟨?_, fl_zero⟩
    show |fl 0| ≤ _
    rw [fl_zero, abs_zero]
    exact maxFinite_pos.le
  one := by
    refine ⟨?_, fl_one⟩
    show |fl 1| ≤ _
    rw [fl_one]
    have := big
    norm_num at this ⊢
    linarith
  half := by
    refine ⟨?_, fl_half⟩
    show |fl (1 / 2)| ≤ _
    rw [fl_half, abs_of_pos (by norm_num)]
    have := big
    norm_num at this ⊢
    linarith
  negInf := by
    intro a ha
    refine decide_eq_true ?_
    show negInf.val < a.val
    rw [negInf_val]
    have h1 := (abs_le.1 ha).1
    have h2 := maxFinite_lt
    have h3 : (2 : ℝ) ^ (128 : ℤ) < 2 ^ (200 : ℤ) := zpow_lt_zpow_right₀ (by norm_num) (by norm_num)
    have h4 : (-maxFinite : ℝ) ≤ a.val := h1
    linarith
  lt a b _ _ := by simp [ops32, fmt]
  le a b _ _ := by simp [ops32, fmt]
  neg a ha := by
    refine ⟨?_, fl_neg_val a⟩
    show |fl (-a.val)| ≤ _
    rw [fl_neg_val, abs_neg]
    exact ha
  add := addOk
  sub := subOk
  mul := mulOk
  div := divOk
  exp a ha h := by
    refine ⟨fl_fin _ (by rw [abs_of_pos (Real.exp_pos _)]; exact h), (fl_error_any _).trans ?_⟩
    rw [abs_of_pos (Real.exp_pos _)]
    refine add_le_add (mul_le_mul_of_nonneg_right (by norm_num) (Real.exp_pos _).le) le_rfl
  log a ha h := by
    have hb := big
    refine ⟨fl_fin _ ?_, (fl_error_any _).trans ?_⟩
    · rw [abs_le]
      constructor
      · have h1 := Real.log_le_log (zpow_pos (by norm_num) _) (pos_ge a h)
        rw [Real.log_zpow] at h1
        have h2 : Real.log 2 ≤ 1 := by have := Real.log_le_sub_one_of_pos (show (0 : ℝ) < 2 by norm_num); linarith
        push_cast at h1
        norm_num at hb
        linarith
      · have h1 : Real.log a.val ≤ a.val - 1 := Real.log_le_sub_one_of_pos h
        have h2 := (abs_le.1 ha).2
        have h3 : a.val ≤ maxFinite := h2
        linarith
    · exact add_le_add (mul_le_mul_of_nonneg_right (by norm_num) (abs_nonneg _)) le_rfl
  tanh a ha := by
    have hb := big
    have h1 := tanh_abs a.val
    refine ⟨fl_fin _ (h1.trans (by norm_num at hb; linarith)), (fl_error_any _).trans ?_⟩
    have := mul_le_mul_of_nonneg_left h1 (show (0 : ℝ) ≤ 1 / 2 ^ 24 by positivity)
    norm_num at this ⊢
    linarith

end Emlearn.Flt.Binary32
