/- Closed form and error analysis of the fixed point log-density. -/
import Verif.Props.Bayes
import Mathlib.Probability.Distributions.Gaussian.Real
import Mathlib.Analysis.Real.Pi.Bounds
namespace Emlearn.Bayes
open Emlearn.Quant

set_option exponentiation.threshold 4000 in
/-- `log2 π` to three digits. -/
theorem logb_pi : (1.651 : ℝ) ≤ Real.logb 2 Real.pi ∧ Real.logb 2 Real.pi ≤ 1.652 := by
  have h1 := Real.pi_gt_d6
  have h2 := Real.pi_lt_d6
  have hpos := Real.pi_pos
  constructor
  · have : (2:ℝ) ^ (1651:ℕ) ≤ Real.pi ^ (1000:ℕ) := by
      refine le_trans ?_ (pow_le_pow_left₀ (by norm_num) h1.le 1000)
      norm_num
    have h := Real.logb_le_logb_of_le (b := 2) (by norm_num) (by positivity) this
    rw [Real.logb_pow, Real.logb_pow, Real.logb_self_eq_one (by norm_num)] at h
    norm_num at h ⊢; linarith
  · have : Real.pi ^ (1000:ℕ) ≤ (2:ℝ) ^ (1652:ℕ) := by
      refine le_trans (pow_le_pow_left₀ hpos.le h2.le 1000) ?_
      norm_num
    have h := Real.logb_le_logb_of_le (b := 2) (by norm_num) (by positivity) this
    rw [Real.logb_pow, Real.logb_pow, Real.logb_self_eq_one (by norm_num)] at h
    norm_num at h ⊢; linarith

/-- `log2 e / 2` to eight digits. -/
theorem half_log2_e : (0.7213475 : ℝ) ≤ 1 / (2 * Real.log 2) ∧ 1 / (2 * Real.log 2) ≤ 0.7213476 := by
  have h1 := Real.log_two_gt_d9
  have h2 := Real.log_two_lt_d9
  constructor
  · rw [le_div_iff₀ (by linarith)]; linarith
  · rw [div_le_iff₀ (by linarith)]; linarith

/-- The binary logarithm of the Gaussian density, written out. -/
theorem logb_gauss (μ σ x : ℝ) (hσ : 0 < σ) (v : NNReal) (hv : (v : ℝ) = σ ^ 2) :
    Real.logb 2 (ProbabilityTheory.gaussianPDFReal μ v x) = -(1 / (2 * Real.log 2)) * ((x - μ) / σ) ^ 2 - (1 + Real.logb 2 Real.pi) / 2 - Real.logb 2 σ := by
  have hl : (0:ℝ) < Real.log 2 := Real.log_pos (by norm_num)
  have hpi := Real.pi_pos
  unfold ProbabilityTheory.gaussianPDFReal
  rw [hv, Real.logb_mul (by positivity) (by positivity), Real.logb_inv]
  have e1 : Real.logb 2 (√(2 * Real.pi * σ ^ 2)) = (1 + Real.logb 2 Real.pi) / 2 + Real.logb 2 σ := by
    rw [Real.sqrt_mul' _ (by positivity), Real.sqrt_sq hσ.le, Real.logb_mul (by positivity) (by positivity), Real.sqrt_eq_rpow, Real.logb_rpow_eq_mul_logb_of_pos (by positivity),
      Real.logb_mul (by norm_num) (by positivity), Real.logb_self_eq_one (by norm_num)]
    ring
  have e2 : Real.logb 2 (Real.exp (-(x - μ) ^ 2 / (2 * σ ^ 2))) = -(1 / (2 * Real.log 2)) * ((x - μ) / σ) ^ 2 := by
    unfold Real.logb
    rw [Real.log_exp]
    field_simp
  rw [e1, e2]; ring

/-- Rounded quotient of the magnitudes, in Q16. -/
def zq (d std : Int) : Int := (65536 * |d| + std / 2) / std

/-- Closed form of the log-density inside 181 standard deviations: no fault, and this value. -/
theorem logpdf_value (x mean std l : Int) (hs : 0 < std) (hd : InI32 (x - mean)) (hz : |x - mean| ≤ 181 * std)
    (hl : InI32 (-(185 * (zq (x - mean) std / 256 * (zq (x - mean) std / 256) / 256)) - 86884 - l)) :
    logpdf x mean std l = .ok (-(185 * (zq (x - mean) std / 256 * (zq (x - mean) std / 256) / 256)) - 86884 - l) := by
  generalize hdd : x - mean = d at *
  have hq0 : 0 ≤ zq d std := Int.ediv_nonneg (by have := abs_nonneg d; omega) hs.le
  have hq1 : zq d std ≤ 181 * 65536 := by
    unfold zq
    apply Int.le_of_lt_add_one
    rw [Int.ediv_lt_iff_lt_mul hs]
    have : std / 2 < std := by omega
    nlinarith
  have hdiv : ∃ q, q16Div d std = some q ∧ |q| = zq d std := by
    unfold q16Div
    rw [if_neg hs.ne']
    refine ⟨_, rfl, ?_⟩
    rw [Int.tdiv_eq_ediv_of_nonneg (a := std) hs.le]
    by_cases hneg : d < 0
    · have e : d * 65536 - std / 2 = -(65536 * |d| + std / 2) := by rw [abs_of_neg hneg]; ring
      rw [if_neg (by omega), e, Int.neg_tdiv, Int.tdiv_eq_ediv_of_nonneg (by have := abs_nonneg d; omega)]
      change |wrap32 (-(zq d std))| = _
      rw [wrap32_id' (by omega) (by omega), abs_neg, abs_of_nonneg hq0]
    · have e : d * 65536 + std / 2 = 65536 * |d| + std / 2 := by rw [abs_of_nonneg (by omega)]; ring
      rw [if_pos (by omega), e, Int.tdiv_eq_ediv_of_nonneg (by have := abs_nonneg d; omega)]
      change |wrap32 (zq d std)| = _
      rw [wrap32_id' (by omega) (by omega), abs_of_nonneg hq0]
  obtain ⟨q, e1, e2⟩ := hdiv
  have habs : absQ q = .ok (zq d std) := by
    rw [← e2] at hq0 hq1 ⊢
    unfold absQ
    split
    · rw [abs_of_pos (by omega)]
    · rw [abs_of_nonpos (by omega)] at hq1 ⊢
      unfold chk32
      rw [if_pos ⟨by omega, by omega⟩]
  generalize zq d std = z at *
  have hu0 : 0 ≤ z / 256 := by omega
  have hu1 : z / 256 ≤ 46336 := by omega
  have hm : q16Mul z z = some (z / 256 * (z / 256)) := by
    unfold q16Mul
    simp only
    rw [if_pos ⟨by nlinarith, by nlinarith⟩]
  generalize z / 256 = u at *
  have hw0 : 0 ≤ u * u := by nlinarith
  have hw1 : u * u ≤ 46336 * 46336 := by nlinarith
  generalize u * u = w at *
  have hm2 : q16Mul cA w = some (-(185 * (w / 256))) := by
    unfold q16Mul cA
    simp only
    have e : (-47274 : Int) / 256 * (w / 256) = -(185 * (w / 256)) := by norm_num
    rw [e, if_pos ⟨by omega, by omega⟩]
  have hm3 : q16Mul cB z = some 0 := by
    unfold q16Mul cB
    simp only
    norm_num [InI32]
  unfold logpdf
  rw [hdd]
  have hchk : ∀ {y : Int}, InI32 y → chk32 y = .ok y := by intro y hy; unfold chk32; rw [if_pos hy]
  have g1 : InI32 (-(185 * (w / 256)) + 0) := ⟨by omega, by omega⟩
  have g2 : InI32 (-(185 * (w / 256)) + 0 + cC) := ⟨by unfold cC; omega, by unfold cC; omega⟩
  have e3 : -(185 * (w / 256)) + 0 + cC - l = -(185 * (w / 256)) - 86884 - l := by unfold cC; ring
  have g3 : InI32 (-(185 * (w / 256)) + 0 + cC - l) := by rw [e3]; exact hl
  simp only [bind, Except.bind, hchk hd, e1, ofOpt, habs, logpdfStd, hm, hm2, hm3, hchk g1, hchk g2, hchk g3]
  rw [e3]

theorem int_floor_bounds (a b : Int) (hb : 0 < b) : ((a / b : Int) : ℝ) ≤ (a:ℝ) / b ∧ (a:ℝ) / b < ((a / b : Int) : ℝ) + 1 := by
  have hb' : (0:ℝ) < b := by exact_mod_cast hb
  have h1 := Int.ediv_mul_le a hb.ne'
  have h2 := Int.lt_ediv_add_one_mul_self a hb
  constructor
  · rw [le_div_iff₀ hb']; exact_mod_cast h1
  · rw [div_lt_iff₀ hb']; exact_mod_cast h2

/-- The quadratic part in fixed point against the exact one. -/
theorem quad_error (d std : Int) (hs : 0 < std) (c : ℝ) (hc1 : (0.7213475 : ℝ) ≤ c) (hc2 : c ≤ 0.7213476) :
    let z : ℝ := |(d : ℝ)| / (std : ℝ)
    let T : ℝ := ((185 * (zq d std / 256 * (zq d std / 256) / 256) : Int) : ℝ) / 65536
    T - c * z ^ 2 ≤ z ^ 2 / 760 + z / 170 + 1 / 10000 ∧ c * z ^ 2 - T ≤ z ^ 2 / 760 + z / 170 + 3 / 1000 := by
  intro z T
  have hs' : (0:ℝ) < std := by exact_mod_cast hs
  have hz0 : 0 ≤ z := by positivity
  have hq0 : 0 ≤ zq d std := Int.ediv_nonneg (by have := abs_nonneg d; omega) hs.le
  -- the quotient
  have hq : ((zq d std : Int) : ℝ) ≤ 65536 * z + 1 / 2 ∧ 65536 * z - 1 ≤ ((zq d std : Int) : ℝ) := by
    obtain ⟨a, b⟩ := int_floor_bounds (65536 * |d| + std / 2) std hs
    obtain ⟨a2, b2⟩ := int_floor_bounds std 2 (by norm_num)
    have hh : (0:ℝ) ≤ ((std / 2 : Int) : ℝ) := by exact_mod_cast (by omega : (0:Int) ≤ std / 2)
    have e : (((65536 * |d| + std / 2 : Int) : ℝ)) / std = 65536 * z + ((std / 2 : Int) : ℝ) / std := by
      simp only [z]; push_cast; ring
    rw [e] at a b
    push_cast at a2
    have h3 : ((std / 2 : Int) : ℝ) / std ≤ 1 / 2 := by rw [div_le_iff₀ hs']; linarith
    have h4 : (0:ℝ) ≤ ((std / 2 : Int) : ℝ) / std := by positivity
    unfold zq
    constructor <;> linarith
  have hT0 : T = ((185 * (zq d std / 256 * (zq d std / 256) / 256) : Int) : ℝ) / 65536 := rfl
  clear_value T z
  generalize zq d std = q at *
  obtain ⟨u1, u2⟩ := int_floor_bounds q 256 (by norm_num)
  have hu0 : (0:ℝ) ≤ ((q / 256 : Int) : ℝ) := by exact_mod_cast (by omega : (0:Int) ≤ q / 256)
  obtain ⟨v1, v2⟩ := int_floor_bounds (q / 256 * (q / 256)) 256 (by norm_num)
  generalize hU : q / 256 = u at *
  generalize hV : u * u / 256 = v at *
  push_cast at u1 u2 v1 v2
  have hT : T = 185 * (v : ℝ) / 65536 := by rw [hT0]; push_cast; ring
  rw [hT]
  obtain ⟨s, hsdef⟩ : ∃ s : ℝ, (u : ℝ) = 256 * s := ⟨u / 256, by ring⟩
  rw [hsdef] at hu0 u1 u2 v1 v2
  have hs0 : 0 ≤ s := by linarith
  have hs1 : s ≤ z + 1 / 131072 := by linarith [hq.1]
  have hs2 : z - 1 / 255 ≤ s := by
    have := hq.2
    have h5 : (q:ℝ) / 256 - 1 < 256 * s := by linarith
    linarith
  have sq1 : s ^ 2 ≤ (z + 1 / 131072) ^ 2 := pow_le_pow_left₀ hs0 hs1 2
  have sq2 : z ^ 2 - 2 / 255 * z ≤ s ^ 2 := by
    by_cases h : z ≤ 1 / 255
    · nlinarith
    · push Not at h
      have : (z - 1 / 255) ^ 2 ≤ s ^ 2 := pow_le_pow_left₀ (by linarith) hs2 2
      nlinarith
  have hcz : c * z ^ 2 ≤ 0.7213476 * z ^ 2 := mul_le_mul_of_nonneg_right hc2 (sq_nonneg z)
  have hcz' : 0.7213475 * z ^ 2 ≤ c * z ^ 2 := mul_le_mul_of_nonneg_right hc1 (sq_nonneg z)
  have hzz := sq_nonneg z
  have v1' : (v:ℝ) ≤ 256 * s ^ 2 := by have : 256 * s * (256 * s) / 256 = 256 * s ^ 2 := by ring
                                       linarith
  have v2' : 256 * s ^ 2 < (v:ℝ) + 1 := by have : 256 * s * (256 * s) / 256 = 256 * s ^ 2 := by ring
                                           linarith
  constructor
  · norm_num at hcz hcz' ⊢
    nlinarith
  · norm_num at hcz hcz' ⊢
    nlinarith

end Emlearn.Bayes
