/- C117: Bayesian Gaussian mixtures. -/
import Verif.Mixture.Bayesian
import Verif.Props.MixturePython
namespace Emlearn.Mixture
open Matrix

/-! ### scikit-learn -/

/-- `degrees_of_freedom_` for component `c`. -/
def dofAt {C : Nat} : ℝ ⊕ (Fin C → ℝ) → Fin C → ℝ
  | .inl v, _ => v
  | .inr f, c => f c

/-- The data of the estimator as scikit-learn stores it. -/
def asDof {C : Nat} : ℝ ⊕ (Fin C → ℝ) → Dof
  | .inl v => .all v
  | .inr f => .each (List.ofFn f)

/-- `BayesianGaussianMixture._estimate_log_prob` of scikit-learn for one row and component, from the squared distance `q` of its covariance type: the Gaussian log density for the normalised precision, less
`0.5 n log ν`, plus `0.5 (log Λ - n / β)` with `log Λ = n log 2 + Σ ψ((ν - i) / 2)`. -/
noncomputable def sklLogProb (digamma : ℝ → ℝ) (n : Nat) (log2pi q ld nu beta : ℝ) : ℝ :=
  (-(1 / 2) * (n * log2pi + q) + ld - 1 / 2 * n * Real.log nu) + 1 / 2 * ((n * Real.log 2 + ∑ i : Fin n, digamma ((nu - i) / 2)) - n / beta)

theorem getLogWeights_eq {C : Nat} (digamma : ℝ → ℝ) (n : Nat) (w : Fin C → ℝ) (nu : ℝ ⊕ (Fin C → ℝ)) (beta : Fin C → ℝ) :
    getLogWeights digamma n (List.ofFn w) (some ⟨asDof nu, List.ofFn beta⟩) =
      List.ofFn fun c => w c - 1 / 2 * n * Real.log (dofAt nu c) + 1 / 2 * ((n * Real.log 2 + ∑ i : Fin n, digamma ((dofAt nu c - i) / 2)) - n / beta c) := by
  have hcol : (asDof nu).column (List.ofFn w).length = List.ofFn (dofAt nu) := by
    rcases nu with v | f
    · rw [List.length_ofFn]; exact (List.ofFn_const C v).symm
    · rfl
  have hsum : ∀ v : ℝ, ((List.range n).map fun i : Nat => digamma (0.5 * (v - (i : ℝ)))).sum = ∑ i : Fin n, digamma ((v - i) / 2) := by
    intro v
    rw [Fin.sum_univ_eq_sum_range (fun i : Nat => digamma ((v - (i : ℝ)) / 2)) n]
    have e : ∀ i : Nat, (0.5 : ℝ) * (v - (i : ℝ)) = (v - i) / 2 := fun i => by norm_num; ring
    have e2 : ∀ i : Nat, digamma (0.5 * (v - (i : ℝ))) = digamma ((v - i) / 2) := fun i => congrArg digamma (e i)
    exact congrArg List.sum (List.map_congr_left fun i _ => e2 i)
  unfold getLogWeights
  simp only [hcol, hsum]
  apply List.ext_getElem
  · simp
  · intro i h1 h2
    simp only [List.getElem_zipWith, List.getElem_map, List.getElem_ofFn]
    norm_num

/-! ### In exact arithmetic -/

section
variable {C n : Nat} (hC : 0 < C) (digamma : ℝ → ℝ) (log2pi : ℝ) (mu : Fin C → Fin n → ℝ) (d : (Fin C → Matrix (Fin n) (Fin n) ℝ) ⊕ Matrix (Fin n) (Fin n) ℝ ⊕ (Fin C → Fin n → ℝ) ⊕ (Fin C → ℝ)) (ld w : Fin C → ℝ)
  (nu : ℝ ⊕ (Fin C → ℝ)) (beta : Fin C → ℝ) (x : Fin n → ℝ)

/-- scikit-learn's `_estimate_weighted_log_prob` for component `c`: the log density and `_estimate_log_weights()`. -/
noncomputable def sklWeighted (c : Fin C) : ℝ := sklLogProb digamma n log2pi (typeTerm x (mu c) c d) (ld c) (dofAt nu c) (beta c) + w c

/-- The model that the generated code holds: what `Wrapper.__init__` keeps (`mixture.py` 306-328) of a Bayesian mixture, for every covariance type. -/
noncomputable def bayesModel : Option (Model ℝ) :=
  (convertToFull C n (asChol d)).map fun prec => generate (rows mu) prec (List.ofFn ld) (getLogWeights digamma n (List.ofFn w) (some ⟨asDof nu, List.ofFn beta⟩)) n

theorem bayesModel_eq : bayesModel digamma mu d ld w nu beta = some (gmm mu (fun c => fullOf c d) ld fun c =>
    w c - 1 / 2 * n * Real.log (dofAt nu c) + 1 / 2 * ((n * Real.log 2 + ∑ i : Fin n, digamma ((dofAt nu c - i) / 2)) - n / beta c)) := by
  unfold bayesModel
  rw [(C46_convert_to_full d).1, Option.map_some, getLogWeights_eq]
  rfl

theorem logDensity_skl (c : Fin C) : -(1/2) * (n * log2pi + ((x - mu c) ᵥ* fullOf c d) ⬝ᵥ ((x - mu c) ᵥ* fullOf c d)) + ld c +
    (w c - 1 / 2 * n * Real.log (dofAt nu c) + 1 / 2 * ((n * Real.log 2 + ∑ i : Fin n, digamma ((dofAt nu c - i) / 2)) - n / beta c)) = sklWeighted digamma log2pi mu d ld w nu beta x c := by
  rw [(C46_convert_to_full d).2 x (mu c) c]
  unfold sklWeighted sklLogProb
  ring

include hC in
/-- **C117.** For every Bayesian mixture, of every covariance type, `predict_log_proba` of the converted model is scikit-learn's weighted log density of each component, `score` the logarithm of the sum of their exponentials, and
`predict_proba` each of these over their sum. -/
theorem C117_exact (lo hi : ℝ) (out : List ℝ) (hout : out.length = C) : ∃ m, bayesModel digamma mu d ld w nu beta = some m ∧
    predictLogProba (exactComb log2pi) m (List.ofFn x) out = some (0, List.ofFn (sklWeighted digamma log2pi mu d ld w nu beta x)) ∧
    (score lo hi log2pi m (List.ofFn x) out).map (fun r => (r.1, r.2.2)) = some (0, some (Real.log (∑ c, Real.exp (sklWeighted digamma log2pi mu d ld w nu beta x c)))) ∧
    ∃ s r, predictProba lo hi log2pi m (List.ofFn x) out = some (0, s, List.ofFn r) ∧
      ∀ c, r c = Real.exp (sklWeighted digamma log2pi mu d ld w nu beta x c) / ∑ c', Real.exp (sklWeighted digamma log2pi mu d ld w nu beta x c') := by
  refine ⟨_, bayesModel_eq digamma mu d ld w nu beta, ?_, ?_, ?_⟩
  · rw [C45_log_proba hC log2pi mu _ ld _ x out hout]
    simp only [logDensity_skl]
  · rw [C45_score hC lo hi log2pi mu _ ld _ x out hout]
    simp only [logDensity_skl, Option.map_some]
  · obtain ⟨s, r, h1, h2, -⟩ := C45_responsibilities hC lo hi log2pi mu (fun c => fullOf c d) ld (fun c =>
      w c - 1 / 2 * n * Real.log (dofAt nu c) + 1 / 2 * ((n * Real.log 2 + ∑ i : Fin n, digamma ((dofAt nu c - i) / 2)) - n / beta c)) x out hout
    refine ⟨_, r, h1, fun c => ?_⟩
    rw [h2 c]
    have e : ∀ c, logDensity log2pi x (mu c) (fullOf c d) (ld c) (w c - 1 / 2 * n * Real.log (dofAt nu c) + 1 / 2 * ((n * Real.log 2 + ∑ i : Fin n, digamma ((dofAt nu c - i) / 2)) - n / beta c)) =
        sklWeighted digamma log2pi mu d ld w nu beta x c := fun c => logDensity_skl digamma log2pi mu d ld w nu beta x c
    simp only [e]

end

/-- One feature, `ν = 1` and `ν = 4` (a single `ν` for both would be `.inl`): weights of both components change by different amounts, so the most likely component can change too. With `ψ` replaced by the identity. -/
example : getLogWeights (fun v => v) 1 [0, 0] (some ⟨.each [1, 4], [1, 2]⟩) = [1 / 2 * (Real.log 2 + 1 / 2 - 1), -(1 / 2) * Real.log 4 + 1 / 2 * (Real.log 2 + 2 - 1 / 2)] := by
  unfold getLogWeights Dof.column
  simp only [List.zipWith_cons_cons, List.zipWith_nil_right, List.map_cons, List.map_nil, List.range_succ, List.range_zero, List.nil_append, List.sum_cons, List.sum_nil, Real.log_one, List.cons.injEq, and_true]
  constructor <;> norm_num

/-- A single number stands for all components. -/
example : getLogWeights (fun v => v) 1 [0, 0] (some ⟨.all 1, [1, 1]⟩) = getLogWeights (fun v => v) 1 [0, 0] (some ⟨.each [1, 1], [1, 1]⟩) := rfl

/-- **C117.** An estimator that is not Bayesian keeps its own weights. -/
theorem C117_plain (digamma : ℝ → ℝ) (n : Nat) (w : List ℝ) : getLogWeights digamma n w none = w := rfl

end Emlearn.Mixture

namespace Emlearn.Mixture.CText
open Emlearn.Cgen Emlearn.MiniC Emlearn.Net.CText Emlearn.Harness Emlearn.Flt

section
variable {C n : Nat} (digamma : ℝ → ℝ) (log2pi : ℝ) (mu : Fin C → Fin n → ℚ) (d : CovData C n) (ld : Fin C → ℚ) (w : Fin C → ℝ) (nu : ℝ ⊕ (Fin C → ℝ)) (beta : Fin C → ℝ)

/-- scikit-learn's weighted log density of component `c` of a Bayesian mixture for a row. -/
noncomputable def bayesComp (row : Fin n → ℚ) (c : Fin C) : ℝ := sklLogProb digamma n log2pi ((typeTerm row (mu c) c d : ℚ) : ℝ) (ld c) (dofAt nu c) (beta c) + w c

/-- The responsibility. -/
noncomputable def bayesResp (row : Fin n → ℚ) (c : Fin C) : ℝ := Real.exp (bayesComp digamma log2pi mu d ld w nu beta row c) / ∑ c', Real.exp (bayesComp digamma log2pi mu d ld w nu beta row c')

/-- The log likelihood. -/
noncomputable def bayesScore (row : Fin n → ℚ) : ℝ := Real.log (∑ c, Real.exp (bayesComp digamma log2pi mu d ld w nu beta row c))

/-- `lw` are the numbers Python computed for `get_log_weights`: each within `δ` of the exact ones. -/
def WeightsClose (lw : Fin C → ℚ) (δ : ℝ) : Prop :=
  List.Forall₂ (fun (q : ℚ) (r : ℝ) => |(q : ℝ) - r| ≤ δ) (List.ofFn lw) (getLogWeights digamma n (List.ofFn w) (some ⟨asDof nu, List.ofFn beta⟩))

/-- There are such numbers for every mixture and every `δ > 0`. -/
example {δ : ℝ} (hδ : 0 < δ) : ∃ lw, WeightsClose (n := n) digamma w nu beta lw δ := by
  choose f hf using fun r : ℝ => exists_rat_near r hδ
  refine ⟨fun c => f (w c - 1 / 2 * n * Real.log (dofAt nu c) + 1 / 2 * ((n * Real.log 2 + ∑ i : Fin n, digamma ((dofAt nu c - i) / 2)) - n / beta c)), ?_⟩
  unfold WeightsClose
  rw [getLogWeights_eq, List.forall₂_iff_get]
  refine ⟨by simp, fun i h1 h2 => ?_⟩
  simp only [List.get_eq_getElem, List.getElem_ofFn]
  rw [abs_sub_comm]
  exact (hf _).le

theorem comp_close {lw : Fin C → ℚ} {δ : ℝ} (h : WeightsClose (n := n) digamma w nu beta lw δ) (row : Fin n → ℚ) (c : Fin C) :
    |trueComp mu d ld lw log2pi row c - bayesComp digamma log2pi mu d ld w nu beta row c| ≤ δ := by
  unfold WeightsClose at h
  rw [getLogWeights_eq, List.forall₂_iff_get] at h
  have := h.2 c.1 (by simp) (by simp)
  simp only [List.get_eq_getElem, List.getElem_ofFn] at this
  refine le_of_eq_of_le (congrArg abs ?_) this
  unfold trueComp bayesComp sklLogProb
  ring

theorem exp_sum_le {a b : Fin C → ℝ} {δ : ℝ} (h : ∀ c, |a c - b c| ≤ δ) : ∑ c, Real.exp (a c) ≤ Real.exp δ * ∑ c, Real.exp (b c) := by
  rw [Finset.mul_sum]
  refine Finset.sum_le_sum fun c _ => ?_
  rw [← Real.exp_add, Real.exp_le_exp]
  have := (abs_le.1 (h c)).2
  linarith

theorem resp_le {a b : Fin C → ℝ} {δ : ℝ} (h : ∀ c, |a c - b c| ≤ δ) (c : Fin C) :
    Real.exp (a c) / ∑ c', Real.exp (a c') ≤ Real.exp (b c) / (∑ c', Real.exp (b c')) + (Real.exp (2 * δ) - 1) := by
  have hb : 0 < ∑ c', Real.exp (b c') := Finset.sum_pos (fun c _ => Real.exp_pos _) ⟨c, Finset.mem_univ _⟩
  have ha : 0 < ∑ c', Real.exp (a c') := Finset.sum_pos (fun c _ => Real.exp_pos _) ⟨c, Finset.mem_univ _⟩
  have hδ : 0 ≤ δ := le_trans (abs_nonneg _) (h c)
  have h1 : Real.exp (a c) ≤ Real.exp δ * Real.exp (b c) := by
    rw [← Real.exp_add, Real.exp_le_exp]
    have := (abs_le.1 (h c)).2
    linarith
  have h2 := exp_sum_le (a := b) (b := a) (δ := δ) fun c => by rw [abs_sub_comm]; exact h c
  have h3 : Real.exp (a c) / ∑ c', Real.exp (a c') ≤ Real.exp (2 * δ) * (Real.exp (b c) / ∑ c', Real.exp (b c')) := by
    rw [div_le_iff₀ ha, show Real.exp (2 * δ) * (Real.exp (b c) / ∑ c', Real.exp (b c')) * ∑ c', Real.exp (a c') = (Real.exp δ * Real.exp (b c)) * ((Real.exp δ * ∑ c', Real.exp (a c')) / ∑ c', Real.exp (b c')) by
      rw [two_mul, Real.exp_add]; ring]
    refine le_trans h1 (le_mul_of_one_le_right (by positivity) ?_)
    rw [le_div_iff₀ hb, one_mul]
    exact h2
  have h4 : Real.exp (b c) / ∑ c', Real.exp (b c') ≤ 1 := by
    rw [div_le_one hb]
    exact Finset.single_le_sum (f := fun c => Real.exp (b c)) (fun c _ => (Real.exp_pos _).le) (Finset.mem_univ c)
  have h5 : 1 ≤ Real.exp (2 * δ) := Real.one_le_exp (by linarith)
  have h6 : 0 ≤ Real.exp (b c) / ∑ c', Real.exp (b c') := by positivity
  nlinarith

theorem resp_close {a b : Fin C → ℝ} {δ : ℝ} (h : ∀ c, |a c - b c| ≤ δ) (c : Fin C) :
    |Real.exp (a c) / (∑ c', Real.exp (a c')) - Real.exp (b c) / ∑ c', Real.exp (b c')| ≤ Real.exp (2 * δ) - 1 := by
  have h1 := resp_le h c
  have h2 := resp_le (a := b) (b := a) (δ := δ) (fun c => by rw [abs_sub_comm]; exact h c) c
  rw [abs_le]
  constructor <;> linarith

theorem score_le {a b : Fin C → ℝ} {δ : ℝ} (hC : 1 ≤ C) (h : ∀ c, |a c - b c| ≤ δ) : Real.log (∑ c, Real.exp (a c)) ≤ Real.log (∑ c, Real.exp (b c)) + δ := by
  have hb : 0 < ∑ c', Real.exp (b c') := Finset.sum_pos (fun c _ => Real.exp_pos _) ⟨⟨0, hC⟩, Finset.mem_univ _⟩
  have ha : 0 < ∑ c', Real.exp (a c') := Finset.sum_pos (fun c _ => Real.exp_pos _) ⟨⟨0, hC⟩, Finset.mem_univ _⟩
  have := Real.log_le_log ha (exp_sum_le h)
  rw [Real.log_mul (Real.exp_pos _).ne' hb.ne', Real.log_exp] at this
  linarith
end

section
variable {F : Type} {R : Format F} {P : Accuracy} {C n : Nat} (mu : Fin C → Fin n → ℚ) (d : CovData C n) (ld lw : Fin C → ℚ)
variable [Zero F] [Add F] [Sub F] [Mul F] [LT F] [DecidableLT F] (h : BasicArith (F := F) R P) (ops : CFloat F) (hlit : LitOk R P ops) {uc log2pi uf : ℝ} {comb : Nat → F → F → F} (hcomb : CombOk R P uc log2pi comb) (huc : 0 ≤ uc) (h2pi : 0 ≤ log2pi)
    {exp log : F → F} {lo hi : F} (hl : LseArith R P uf 0 hi (· + ·) (· - ·) exp log (fun a b => decide (a < b))) (fuel depth : Nat) (val : F → Option ℚ) (num : F → ℚ) (hval : ∀ y, R.fin y → val y = some (num y) ∧ (num y : ℝ) = R.val y)
    (pyStr : ℚ → List Char) (strtod : List Char → F) (other : ℚ → List Char) (hC : 1 ≤ C ∧ C ≤ 2147483647) (hn : 1 ≤ n ∧ n ≤ 2147483647) {B dx e Y : ℝ} (X : List (Fin n → ℚ)) (hr : RowsOk mu d ld lw P uc log2pi uf B dx e Y X)
    (hx : ∀ row ∈ X, ∀ i, Close R dx (strtod (pyStr (row i))) (row i)) (digamma : ℝ → ℝ) (w : Fin C → ℝ) (nu : ℝ ⊕ (Fin C → ℝ)) (beta : Fin C → ℝ) {δ : ℝ} (hw : WeightsClose (n := n) digamma w nu beta lw δ)

include h hlit hcomb huc h2pi hl hr hx hval hC hn hw in
/-- **C117.** Called from Python, in `float` arithmetic and for every covariance type: the weighted log densities and responsibilities of a Bayesian mixture are scikit-learn's, up to the allowances of C116 and the error `δ` with
which Python computed the weights. -/
theorem C117_proba_close :
    (∃ p : (Fin n → ℚ) → Fin C → ℚ, pyRows ops comb (logsumexpG exp log lo hi) exp fuel (depth + 2) val pyStr strtod other (est mu d ld lw) .logProba (X.map List.ofFn) = some (X.map fun row => List.ofFn (p row)) ∧
      ∀ row ∈ X, ∀ c, |(p row c : ℝ) - bayesComp digamma log2pi mu d ld w nu beta row c| ≤ e + δ + 1 / (2 * 10 ^ 6)) ∧
    ∃ p : (Fin n → ℚ) → Fin C → ℚ, pyRows ops comb (logsumexpG exp log lo hi) exp fuel (depth + 2) val pyStr strtod other (est mu d ld lw) .proba (X.map List.ofFn) = some (X.map fun row => List.ofFn (p row)) ∧
      ∀ row ∈ X, ∀ c, |(p row c : ℝ) - bayesResp digamma log2pi mu d ld w nu beta row c| ≤ softErr P uf C Y e + (Real.exp (2 * δ) - 1) + 1 / (2 * 10 ^ 6) := by
  obtain ⟨⟨p, p1, p2⟩, q, q1, q2⟩ := C116_proba_close mu d ld lw h ops hlit hcomb huc h2pi (lo := lo) hl fuel depth val num hval pyStr strtod other hC hn X hr hx
  refine ⟨⟨q, q1, fun row hrow c => ?_⟩, p, p1, fun row hrow c => ?_⟩
  · have a1 := abs_le.1 (q2 row hrow c)
    have a2 := abs_le.1 (comp_close digamma log2pi mu d ld w nu beta hw row c)
    rw [abs_le]
    constructor <;> linarith [a1.1, a1.2, a2.1, a2.2]
  · have a1 := abs_le.1 (p2 row hrow c)
    have a2 := abs_le.1 (resp_close (comp_close digamma log2pi mu d ld w nu beta hw row) c)
    unfold trueResp at a1
    unfold bayesResp
    rw [abs_le]
    constructor <;> linarith [a1.1, a1.2, a2.1, a2.2]

include h hlit hcomb huc h2pi hl hr hx hval hC hn hw in
/-- **C117.** The same for `score_samples(X)`. -/
theorem C117_score_close (hne : X ≠ []) :
    ∃ p : (Fin n → ℚ) → ℚ, pyScore ops comb (logsumexpG exp log lo hi) exp fuel (depth + 2) val pyStr strtod other (est mu d ld lw) (X.map List.ofFn) = some (X.map p) ∧
      ∀ row ∈ X, |(p row : ℝ) - bayesScore digamma log2pi mu d ld w nu beta row| ≤ omg P uf C Y + e + δ + 1 / (2 * 10 ^ 6) := by
  obtain ⟨p, p1, p2⟩ := C116_score_close mu d ld lw h ops hlit hcomb huc h2pi (lo := lo) hl fuel depth val num hval pyStr strtod other hC hn X hr hx hne
  refine ⟨p, p1, fun row hrow => ?_⟩
  have a1 := abs_le.1 (p2 row hrow)
  have b1 := score_le hC.1 (comp_close digamma log2pi mu d ld w nu beta hw row)
  have b2 := score_le (a := bayesComp digamma log2pi mu d ld w nu beta row) (b := trueComp mu d ld lw log2pi row) (δ := δ) hC.1 (fun c => by rw [abs_sub_comm]; exact comp_close digamma log2pi mu d ld w nu beta hw row c)
  unfold trueScore at a1
  unfold bayesScore
  rw [abs_le]
  constructor <;> linarith [a1.1, a1.2]
end
end Emlearn.Mixture.CText
