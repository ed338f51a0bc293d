/- Rounding to nearest, for any precision and any rule for ties: the numbers of a binary format (unbounded above: a result beyond the largest number stands for infinity), and what follows from "no number is nearer". -/
import Mathlib.Data.Int.Log
import Mathlib.Algebra.Order.Round
import Mathlib.Data.Real.Basic
import Mathlib.Tactic.Linarith
import Mathlib.Tactic.Positivity
import Mathlib.Tactic.Ring
import Mathlib.Tactic.NormNum
import Verif.Float.BinaryNet
namespace Emlearn.Flt

/-- The numbers with `p` significant bits and exponents from `emin` (IEEE 754, 3.3): binary32 is `p = 24`, `emin = -149`, binary64 is `p = 53`, `emin = -1074`. -/
def Rep (p : Nat) (emin : ℤ) (x : ℝ) : Prop := ∃ k e : ℤ, |k| < 2 ^ p ∧ emin ≤ e ∧ x = k * 2 ^ e

/-- `rd` rounds to nearest (IEEE 754, 4.3.1): what it returns is a number of the format, and no number of the format is nearer. -/
structure Nearest (p : Nat) (emin : ℤ) (rd : ℝ → ℝ) : Prop where
  rep : ∀ x, Rep p emin (rd x)
  near : ∀ x y, Rep p emin y → |rd x - x| ≤ |y - x|

variable {p : Nat} {emin : ℤ} {rd : ℝ → ℝ}

theorem Rep.zero : Rep p emin 0 := ⟨0, emin, by simp, le_refl _, by simp⟩

theorem Rep.neg {x : ℝ} (h : Rep p emin x) : Rep p emin (-x) := by
  obtain ⟨k, e, h1, h2, rfl⟩ := h
  exact ⟨-k, e, by rwa [abs_neg], h2, by push_cast; ring⟩

/-- `2^p` itself is a number, one binade up. -/
theorem Rep.of_le (hp : 1 ≤ p) {k e : ℤ} (hk : |k| ≤ 2 ^ p) (he : emin ≤ e) : Rep p emin (k * 2 ^ e) := by
  rcases hk.lt_or_eq with h | h
  · exact ⟨k, e, h, he, rfl⟩
  · obtain ⟨q, rfl⟩ : ∃ q, p = q + 1 := ⟨p - 1, by omega⟩
    have h2 : (2 : ℝ) ^ (e + 1) = 2 ^ e * 2 := by rw [zpow_add₀ (by norm_num), zpow_one]
    have hlt : (2 : ℤ) ^ q < 2 ^ (q + 1) := by rw [pow_succ]; have : (0 : ℤ) < 2 ^ q := by positivity
                                               omega
    rcases abs_choice k with h' | h'
    · rw [h'] at h
      refine ⟨2 ^ q, e + 1, by rw [abs_of_pos (by positivity)]; exact hlt, by omega, ?_⟩
      rw [h, h2]
      push_cast
      rw [pow_succ]
      ring
    · rw [h'] at h
      refine ⟨-2 ^ q, e + 1, by rw [abs_neg, abs_of_pos (by positivity)]; exact hlt, by omega, ?_⟩
      rw [show k = -2 ^ (q + 1) by omega, h2]
      push_cast
      rw [pow_succ]
      ring

namespace Nearest
variable (h : Nearest p emin rd)
include h

theorem exact {x : ℝ} (hx : Rep p emin x) : rd x = x := by
  have := h.near x x hx
  rw [sub_self, abs_zero] at this
  exact sub_eq_zero.1 (abs_nonpos_iff.1 this)

/-- Rounding keeps the order. -/
theorem mono {x y : ℝ} (hxy : x ≤ y) : rd x ≤ rd y := by
  rcases hxy.lt_or_eq with hlt | rfl
  · by_contra hc
    push Not at hc
    have h1 := h.near x (rd y) (h.rep y)
    have h2 := h.near y (rd x) (h.rep x)
    rw [← sq_le_sq] at h1 h2
    nlinarith
  · exact le_refl _

/-- On a grid of the format, the error is at most half a step. -/
theorem grid (hp : 1 ≤ p) {x : ℝ} {e : ℤ} (he : emin ≤ e) (hx : |x| ≤ 2 ^ p * 2 ^ e) : |rd x - x| ≤ 2 ^ e / 2 := by
  have hu : (0 : ℝ) < 2 ^ e := zpow_pos (by norm_num) _
  obtain ⟨k, hk⟩ : ∃ k, k = round (x / 2 ^ e) := ⟨_, rfl⟩
  have hr := abs_sub_round (x / 2 ^ e)
  rw [← hk] at hr
  have hk2 : |k| ≤ 2 ^ p := by
    have h1 : |x / 2 ^ e| ≤ 2 ^ p := by rw [abs_div, abs_of_pos hu, div_le_iff₀ hu]; exact hx
    have h2 : |(k : ℝ)| < 2 ^ p + 1 := by
      have := abs_add_le (x / 2 ^ e) ((k : ℝ) - x / 2 ^ e)
      rw [add_sub_cancel, abs_sub_comm (k : ℝ)] at this
      linarith
    have h3 : |k| < 2 ^ p + 1 := by exact_mod_cast h2
    omega
  have hn := h.near x _ (Rep.of_le hp hk2 he)
  refine hn.trans ?_
  have e1 : (k : ℝ) * 2 ^ e - x = -(x / 2 ^ e - k) * 2 ^ e := by rw [neg_mul, sub_mul, div_mul_cancel₀ _ hu.ne']; ring
  rw [e1, abs_mul, abs_neg, abs_of_pos hu]
  have := mul_le_mul_of_nonneg_right hr hu.le
  linarith

/-- The error is at most `2^-p` of the number, plus half of the smallest positive number. -/
theorem error (hp : 1 ≤ p) (x : ℝ) : |rd x - x| ≤ 1 / 2 ^ p * |x| + 2 ^ emin / 2 := by
  have h0 : (0 : ℝ) < 2 ^ emin := zpow_pos (by norm_num) _
  by_cases hx : x = 0
  · subst hx
    rw [h.exact Rep.zero]
    simp only [sub_self, abs_zero, mul_zero, zero_add]
    positivity
  have h1 := Int.zpow_log_le_self (R := ℝ) (b := 2) (by norm_num) (abs_pos.2 hx)
  have h2 := Int.lt_zpow_succ_log_self (R := ℝ) (b := 2) (by norm_num) |x|
  push_cast at h1 h2
  obtain ⟨L, hL⟩ : ∃ L, L = Int.log 2 |x| := ⟨_, rfl⟩
  rw [← hL] at h1 h2
  by_cases hc : emin ≤ L - p + 1
  · have hg := h.grid hp (x := x) (e := L - p + 1) hc (by
      refine h2.le.trans (le_of_eq ?_)
      rw [show L + 1 = (p : ℤ) + (L - p + 1) by ring, zpow_add₀ (by norm_num), zpow_natCast])
    refine hg.trans ?_
    have e1 : (2 : ℝ) ^ (L - p + 1) / 2 = 1 / 2 ^ p * 2 ^ L := by
      rw [zpow_add₀ (by norm_num), zpow_sub₀ (by norm_num), zpow_natCast, zpow_one]
      ring
    rw [e1]
    have := mul_le_mul_of_nonneg_left h1 (show (0 : ℝ) ≤ 1 / 2 ^ p by positivity)
    linarith
  · have hg := h.grid hp (x := x) (e := emin) (le_refl _) (by
      refine h2.le.trans ?_
      rw [← zpow_natCast, ← zpow_add₀ (by norm_num)]
      exact zpow_le_zpow_right₀ (by norm_num) (by omega))
    have : 0 ≤ 1 / 2 ^ p * |x| := by positivity
    linarith

/-- The value of a rounding, when one number of the right binade is nearer than half a step. -/
theorem eq_of_near (hp : 1 ≤ p) {x : ℝ} {k e : ℤ} (he : emin ≤ e) (hk : |k| < 2 ^ p) (hb : 2 ^ (p - 1) * (2 : ℝ) ^ e ≤ x) (hx : |(k : ℝ) * 2 ^ e - x| < 2 ^ e / 2) : rd x = k * 2 ^ e := by
  have hu : (0 : ℝ) < 2 ^ e := zpow_pos (by norm_num) _
  obtain ⟨q, rfl⟩ : ∃ q, p = q + 1 := ⟨p - 1, by omega⟩
  rw [Nat.add_sub_cancel] at hb
  have h1 := h.near x _ ⟨k, e, hk, he, rfl⟩
  have hR : Rep (q + 1) emin (2 ^ q * (2 : ℝ) ^ e) := ⟨2 ^ q, e, by
    rw [abs_of_pos (by positivity), pow_succ]
    have : (0 : ℤ) < 2 ^ q := by positivity
    omega, he, by push_cast; rfl⟩
  have h2 := h.mono hb
  rw [h.exact hR] at h2
  obtain ⟨k', e', g1, g2, g3⟩ := h.rep x
  have hee : e ≤ e' := by
    by_contra hc
    push Not at hc
    have a1 : (k' : ℝ) * 2 ^ e' < 2 ^ (q + 1) * 2 ^ e' := by
      refine mul_lt_mul_of_pos_right ?_ (zpow_pos (by norm_num) _)
      have := (le_abs_self k').trans_lt g1
      exact_mod_cast this
    have a2 : (2 : ℝ) ^ (q + 1) * 2 ^ e' ≤ 2 ^ q * 2 ^ e := by
      have : (2 : ℝ) ^ e' * 2 ≤ 2 ^ e := by
        have : (2 : ℝ) ^ (e' + 1) ≤ 2 ^ e := zpow_le_zpow_right₀ (by norm_num) (by omega)
        rwa [zpow_add₀ (by norm_num), zpow_one] at this
      rw [pow_succ]
      have h0 : (0 : ℝ) < 2 ^ q := by positivity
      nlinarith
    rw [g3] at h2
    linarith
  obtain ⟨n, hn⟩ : ∃ n : Nat, e' = e + n := ⟨(e' - e).toNat, by omega⟩
  have g4 : rd x = ((k' * 2 ^ n : ℤ) : ℝ) * 2 ^ e := by
    rw [g3, hn, zpow_add₀ (by norm_num), zpow_natCast]
    push_cast
    ring
  obtain ⟨j, hj⟩ : ∃ j : ℤ, j = k' * 2 ^ n := ⟨_, rfl⟩
  rw [← hj] at g4
  have h3 : |((j : ℝ) - k) * 2 ^ e| < 2 ^ e := by
    have := abs_add_le (rd x - x) (x - k * 2 ^ e)
    rw [sub_add_sub_cancel, abs_sub_comm x, g4, ← sub_mul] at this
    rw [g4] at h1
    linarith
  rw [abs_mul, abs_of_pos hu] at h3
  have h4 : |(j : ℝ) - k| < 1 := by
    by_contra hc
    push Not at hc
    have := mul_le_mul_of_nonneg_right hc hu.le
    linarith
  have h5 : |j - k| < 1 := by exact_mod_cast h4
  have h6 : j = k := by
    have := abs_lt.1 h5
    omega
  rw [g4, h6]

end Nearest

/-- Rounding with ties upwards. -/
noncomputable def roundTo (p : Nat) (emin : ℤ) (x : ℝ) : ℝ := round (x / 2 ^ max emin (Int.log 2 |x| - (p - 1))) * 2 ^ max emin (Int.log 2 |x| - (p - 1))

/-- There is such a rounding for every precision. -/
theorem roundTo_nearest (hp : 1 ≤ p) (emin : ℤ) : Nearest p emin (roundTo p emin) := by
  have main : ∀ x : ℝ, Rep p emin (roundTo p emin x) ∧ ∀ y, Rep p emin y → |roundTo p emin x - x| ≤ |y - x| := by
    intro x
    by_cases hx : x = 0
    · subst hx
      have : roundTo p emin 0 = 0 := by unfold roundTo; simp
      rw [this]
      exact ⟨Rep.zero, fun y _ => by simp⟩
    have h1 := Int.zpow_log_le_self (R := ℝ) (b := 2) (by norm_num) (abs_pos.2 hx)
    have h2 := Int.lt_zpow_succ_log_self (R := ℝ) (b := 2) (by norm_num) |x|
    push_cast at h1 h2
    unfold roundTo
    obtain ⟨L, hL⟩ : ∃ L, L = Int.log 2 |x| := ⟨_, rfl⟩
    rw [← hL] at h1 h2 ⊢
    obtain ⟨e, he⟩ : ∃ e, e = max emin (L - (p - 1)) := ⟨_, rfl⟩
    rw [← he]
    have hu : (0 : ℝ) < 2 ^ e := zpow_pos (by norm_num) _
    have hle : emin ≤ e := by omega
    have hr : ∀ j : ℤ, |(round (x / 2 ^ e) : ℝ) * 2 ^ e - x| ≤ |(j : ℝ) * 2 ^ e - x| := by
      intro j
      have key := round_le (x / 2 ^ e) j
      have e1 : ∀ k : ℤ, |(k : ℝ) * 2 ^ e - x| = |x / 2 ^ e - k| * 2 ^ e := by
        intro k
        rw [← abs_of_pos hu, ← abs_mul, abs_of_pos hu, sub_mul, div_mul_cancel₀ _ hu.ne', abs_sub_comm]
      rw [e1, e1]
      exact mul_le_mul_of_nonneg_right key hu.le
    have hxe : |x| ≤ 2 ^ p * 2 ^ e := by
      refine h2.le.trans ?_
      rw [← zpow_natCast, ← zpow_add₀ (by norm_num)]
      exact zpow_le_zpow_right₀ (by norm_num) (by omega)
    refine ⟨?_, ?_⟩
    · refine Rep.of_le hp ?_ hle
      have h3 := abs_sub_round (x / 2 ^ e)
      have h4 : |x / 2 ^ e| ≤ 2 ^ p := by rw [abs_div, abs_of_pos hu, div_le_iff₀ hu]; exact hxe
      have h5 : |(round (x / 2 ^ e) : ℝ)| < 2 ^ p + 1 := by
        have := abs_add_le (x / 2 ^ e) ((round (x / 2 ^ e) : ℝ) - x / 2 ^ e)
        rw [add_sub_cancel, abs_sub_comm (round (x / 2 ^ e) : ℝ)] at this
        linarith
      have h6 : |round (x / 2 ^ e)| < 2 ^ p + 1 := by exact_mod_cast h5
      omega
    · rintro y ⟨k, e', g1, g2, rfl⟩
      by_cases hc : e ≤ e'
      · obtain ⟨n, hn⟩ : ∃ n : Nat, e' = e + n := ⟨(e' - e).toNat, by omega⟩
        have := hr (k * 2 ^ n)
        rw [hn, zpow_add₀ (by norm_num), zpow_natCast]
        push_cast at this
        rw [show (k : ℝ) * (2 ^ e * 2 ^ n) = k * 2 ^ n * 2 ^ e by ring]
        exact this
      · have heL : e = L - (p - 1) := by omega
        obtain ⟨q, rfl⟩ : ∃ q, p = q + 1 := ⟨p - 1, by omega⟩
        have hb : (2 : ℝ) ^ L = 2 ^ q * 2 ^ e := by
          rw [heL, ← zpow_natCast, ← zpow_add₀ (by norm_num)]
          congr 1
          push_cast
          ring
        have hy : |(k : ℝ) * 2 ^ e'| ≤ 2 ^ q * 2 ^ e := by
          rw [abs_mul, abs_of_pos (zpow_pos (by norm_num : (0 : ℝ) < 2) e')]
          have a1 : |(k : ℝ)| ≤ 2 ^ (q + 1) := by exact_mod_cast g1.le
          have a2 : (2 : ℝ) ^ e' * 2 ≤ 2 ^ e := by
            have : (2 : ℝ) ^ (e' + 1) ≤ 2 ^ e := zpow_le_zpow_right₀ (by norm_num) (by omega)
            rwa [zpow_add₀ (by norm_num), zpow_one] at this
          have a3 := mul_le_mul_of_nonneg_right a1 (zpow_pos (by norm_num : (0 : ℝ) < 2) e').le
          rw [pow_succ] at a3
          have h0 : (0 : ℝ) < 2 ^ q := by positivity
          nlinarith
        rw [hb] at h1
        have hy' := abs_le.1 hy
        rcases le_total 0 x with hpos | hneg
        · rw [abs_of_nonneg hpos] at h1
          have := hr (2 ^ q)
          push_cast at this
          refine this.trans ?_
          rw [abs_of_nonpos (by linarith), abs_of_nonpos (by linarith [hy'.2])]
          linarith [hy'.2]
        · rw [abs_of_nonpos hneg] at h1
          have := hr (-2 ^ q)
          push_cast at this
          refine this.trans ?_
          rw [abs_of_nonneg (by linarith), abs_of_nonneg (by linarith [hy'.1])]
          linarith [hy'.1]
  exact ⟨fun x => (main x).1, fun x => (main x).2⟩

/-- The rounding used in the other modules is one of them. -/
theorem fl_nearest : Nearest 24 (-149) Binary32.fl := by
  have := roundTo_nearest (p := 24) (by norm_num) (-149)
  have e : roundTo 24 (-149) = Binary32.fl := by
    funext x
    unfold roundTo Binary32.fl Binary32.ulpExp
    norm_num
  rwa [e] at this

end Emlearn.Flt
