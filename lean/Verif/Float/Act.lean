/- Rounding errors of the activation functions of `eml_net.h`. -/
import Verif.Float.Net
import Mathlib.Analysis.Calculus.MeanValue
import Mathlib.Analysis.SpecialFunctions.ExpDeriv
import Mathlib.Analysis.SpecialFunctions.Trigonometric.DerivHyp
namespace Emlearn.Flt
open Emlearn.Net

variable {F : Type} {R : Format F} {P : Accuracy}

/-! ### Logistic function -/

theorem sigmoid_lipschitz (a b : ℝ) : |1 / (1 + Real.exp (-a)) - 1 / (1 + Real.exp (-b))| ≤ |a - b| / 4 := by
  have hd : ∀ x ∈ (Set.univ : Set ℝ), HasDerivWithinAt (fun x : ℝ => 1 / (1 + Real.exp (-x))) (Real.exp (-x) / (1 + Real.exp (-x)) ^ 2) Set.univ x := by
    intro x _
    have hne : 1 + Real.exp (-x) ≠ 0 := by positivity
    have h1 : HasDerivAt (fun x : ℝ => 1 + Real.exp (-x)) (Real.exp (-x) * (-1)) x := ((hasDerivAt_neg x).exp).const_add 1
    have h2 := h1.inv hne
    have e1 : (fun x : ℝ => 1 + Real.exp (-x))⁻¹ = fun x : ℝ => 1 / (1 + Real.exp (-x)) := by
      funext y
      rw [one_div]
      rfl
    have e2 : -(Real.exp (-x) * -1) / (1 + Real.exp (-x)) ^ 2 = Real.exp (-x) / (1 + Real.exp (-x)) ^ 2 := by ring
    rw [e1, e2] at h2
    exact h2.hasDerivWithinAt
  have hb : ∀ x ∈ (Set.univ : Set ℝ), ‖Real.exp (-x) / (1 + Real.exp (-x)) ^ 2‖ ≤ 1 / 4 := by
    intro x _
    have hp := Real.exp_pos (-x)
    rw [Real.norm_eq_abs, abs_of_pos (by positivity), div_le_div_iff₀ (by positivity) (by norm_num)]
    nlinarith [sq_nonneg (1 - Real.exp (-x))]
  have := Convex.norm_image_sub_le_of_norm_hasDerivWithin_le (C := 1 / 4) hd hb convex_univ (Set.mem_univ b) (Set.mem_univ a)
  rw [Real.norm_eq_abs, Real.norm_eq_abs] at this
  linarith

theorem tanh_sigmoid (x : ℝ) : Real.tanh x = 2 * (1 / (1 + Real.exp (-(2 * x)))) - 1 := by
  rw [Real.tanh_eq_sinh_div_cosh, Real.sinh_eq, Real.cosh_eq]
  have h1 : Real.exp (-(2 * x)) = Real.exp (-x) * Real.exp (-x) := by rw [← Real.exp_add]; congr 1; ring
  have h2 : Real.exp x * Real.exp (-x) = 1 := by rw [← Real.exp_add]; simp
  have p1 := Real.exp_pos x
  have p2 := Real.exp_pos (-x)
  rw [h1]
  have hne : 1 + Real.exp (-x) * Real.exp (-x) ≠ 0 := by positivity
  field_simp
  generalize Real.exp x = p at *
  generalize Real.exp (-x) = q at *
  linear_combination 2 * q * h2

theorem tanh_lipschitz (a b : ℝ) : |Real.tanh a - Real.tanh b| ≤ |a - b| := by
  rw [tanh_sigmoid, tanh_sigmoid]
  have h := sigmoid_lipschitz (2 * a) (2 * b)
  have e1 : ∀ p q : ℝ, 2 * p - 1 - (2 * q - 1) = 2 * (p - q) := fun p q => by ring
  rw [e1, abs_mul, abs_of_pos (by norm_num : (0 : ℝ) < 2)]
  rw [← mul_sub, abs_mul, abs_of_pos (by norm_num : (0 : ℝ) < 2)] at h
  linarith

/-- The relative error of the denominator of the logistic function. -/
def rho (P : Accuracy) (uf : ℝ) : ℝ := (1 + P.u) * (1 + uf + P.η) - 1

/-- The error of evaluating the logistic function. -/
def expitErr (P : Accuracy) (uf : ℝ) : ℝ := 2 * (rho P uf + P.u) + P.η

theorem expit_error {ops : NetOps F} {uf : ℝ} (h : NetArith R P uf ops) {e Y z : ℝ} {a : F} (ha : Close R e a z) (hY : |R.val a| ≤ Y) (hρ : rho P uf ≤ 1 / 2) (h2 : 2 ≤ P.M)
    (hM : 1 + (1 + uf) * Real.exp Y + P.η ≤ P.M) :
    Close R (e / 4 + expitErr P uf) (ops.div ops.one (ops.add ops.one (ops.exp (ops.neg a)))) (1 / (1 + Real.exp (-z))) := by
  have hu := P.hu
  have hη := P.hη
  have hf := h.hf
  obtain ⟨f1, v1⟩ := h.neg a ha.1
  obtain ⟨t, ht⟩ : ∃ t, t = Real.exp (-R.val a) := ⟨_, rfl⟩
  have tp : 0 < t := by rw [ht]; exact Real.exp_pos _
  have tY : t ≤ Real.exp Y := by
    rw [ht]
    exact Real.exp_le_exp.2 ((neg_le_abs _).trans hY)
  have hfY : uf * t ≤ uf * Real.exp Y := mul_le_mul_of_nonneg_left tY hf
  obtain ⟨f2, v2⟩ := h.exp _ f1 (by
    rw [v1, ← ht]
    have := mul_nonneg hf (Real.exp_pos Y).le
    linarith)
  rw [v1, ← ht] at v2
  have hD := add_error h.add (s := ops.one) (S := 1) (A := 1) (e := 0) ⟨h.one.1, by rw [h.one.2]; simp⟩ ⟨f2, v2⟩ (by simp) (show |t| ≤ t by rw [abs_of_pos tp]) (by linarith)
  obtain ⟨D, hDd⟩ : ∃ D, D = R.val (ops.add ops.one (ops.exp (ops.neg a))) := ⟨_, rfl⟩
  have hDe := hD.2
  rw [← hDd] at hDe
  have hle : (1 + P.u) * (0 + (uf * t + P.η)) + P.u * (1 + t) ≤ rho P uf * (1 + t) := by
    unfold rho
    have k1 : 0 ≤ (1 + P.u) * uf := mul_nonneg (by linarith) hf
    have k2 : 0 ≤ (1 + P.u) * (P.η * t) := mul_nonneg (by linarith) (mul_nonneg hη tp.le)
    nlinarith
  have hr : |D - (1 + t)| ≤ rho P uf * (1 + t) := hDe.trans hle
  have hρ0 : 0 ≤ rho P uf := by
    have := (abs_nonneg _).trans hr
    by_contra hn
    have := mul_neg_of_neg_of_pos (not_le.1 hn) (show 0 < 1 + t by linarith)
    linarith
  have hDlo : (1 + t) / 2 ≤ D := by
    have := (abs_le.1 hr).1
    have := mul_le_mul_of_nonneg_right hρ (show 0 ≤ 1 + t by linarith)
    linarith
  have hDp : 1 / 2 < D := by linarith
  have hinv : |1 / D| ≤ 2 := by
    rw [abs_of_pos (by positivity)]
    rw [div_le_iff₀ (by linarith)]
    linarith
  obtain ⟨f3, v3⟩ := h.div ops.one _ h.one.1 hD.1 (by rw [← hDd]; linarith) (by rw [h.one.2, ← hDd]; exact hinv.trans h2)
  rw [h.one.2, ← hDd] at v3
  refine ⟨f3, ?_⟩
  have s1 := sigmoid_lipschitz (R.val a) z
  rw [← ht] at s1
  have s2 : |1 / D - 1 / (1 + t)| ≤ 2 * rho P uf := by
    have : 1 / D - 1 / (1 + t) = -((D - (1 + t)) / (D * (1 + t))) := by
      have : 1 + t ≠ 0 := by linarith
      have : D ≠ 0 := by linarith
      field_simp
      ring
    rw [this, abs_neg, abs_div, abs_of_pos (show 0 < D * (1 + t) by positivity), div_le_iff₀ (by positivity)]
    refine hr.trans ?_
    have : rho P uf * (1 + t) * 1 ≤ rho P uf * (1 + t) * (2 * D) := mul_le_mul_of_nonneg_left (by linarith) (mul_nonneg hρ0 (by linarith))
    nlinarith
  have e1 : ∀ a b c d : ℝ, a - d = (a - b) + ((b - c) + (c - d)) := fun a b c d => by ring
  rw [e1 _ (1 / D) (1 / (1 + t))]
  refine (abs_add_le _ _).trans ?_
  have s3 := abs_add_le (1 / D - 1 / (1 + t)) (1 / (1 + t) - 1 / (1 + Real.exp (-z)))
  have s4 := mul_le_mul_of_nonneg_left hinv hu
  have s5 := ha.2
  unfold expitErr
  linarith

theorem expit_abs (z : ℝ) : |1 / (1 + Real.exp (-z))| ≤ 1 := by
  have := Real.exp_pos (-z)
  rw [abs_of_pos (by positivity), div_le_one (by positivity)]
  linarith

theorem tanh_abs (z : ℝ) : |Real.tanh z| ≤ 1 := by
  rw [abs_le]
  exact ⟨(Real.neg_one_lt_tanh z).le, (Real.tanh_lt_one z).le⟩

/-! ### ReLU -/

theorem relu_error {ops : NetOps F} {uf : ℝ} (h : NetArith R P uf ops) {e z : ℝ} {a : F} (he : 0 ≤ e) (ha : Close R e a z) :
    Close R e (if ops.le a ops.zero then ops.zero else a) (if z ≤ 0 then 0 else z) := by
  have hle := h.le a ops.zero ha.1 h.zero.1
  rw [h.zero.2] at hle
  have h1 := abs_le.1 ha.2
  by_cases hc : R.val a ≤ 0
  · rw [if_pos (hle.2 hc)]
    refine ⟨h.zero.1, ?_⟩
    rw [h.zero.2]
    by_cases hz : z ≤ 0
    · rw [if_pos hz]; simpa using he
    · rw [if_neg hz, abs_le]; constructor <;> linarith
  · rw [if_neg (fun hx => hc (hle.1 hx))]
    refine ⟨ha.1, ?_⟩
    by_cases hz : z ≤ 0
    · rw [if_pos hz, abs_le]; constructor <;> linarith
    · rw [if_neg hz]; exact ha.2

end Emlearn.Flt
