/- Model of `get_log_weights` in `emlearn/mixture.py`: the constants a `BayesianGaussianMixture` adds to its log densities are put into the weights. Exact real arithmetic; `digamma` (`scipy.special`) is a parameter. -/
import Mathlib.Analysis.SpecialFunctions.Log.Basic
import Mathlib.Data.List.OfFn
namespace Emlearn.Mixture

/-- `degrees_of_freedom_` of scikit-learn: one number for tied covariances, otherwise one per component. -/
inductive Dof where
  | all (v : ℝ)
  | each (vs : List ℝ)

/-- The number used for each of `C` components: numpy repeats a single number. (Arrays of another length than `C`, which numpy refuses, are not modelled.) -/
def Dof.column (C : Nat) : Dof → List ℝ
  | .all v => List.replicate C v
  | .each vs => vs

/-- What a fitted estimator has beside its weights when it is Bayesian: `degrees_of_freedom_` and `mean_precision_`. `GaussianMixture` has neither (`hasattr`, `mixture.py` 283). -/
structure Variational where
  dof : Dof
  meanPrecision : List ℝ

/-- `get_log_weights`, `mixture.py` 271-300, with `logWeights` the result of `_estimate_log_weights()` and `n` the number of features. -/
noncomputable def getLogWeights (digamma : ℝ → ℝ) (n : Nat) (logWeights : List ℝ) : Option Variational → List ℝ
  | none => logWeights
  | some b =>
    let dof := b.dof.column logWeights.length
    let w := List.zipWith (fun w v => w - 0.5 * n * Real.log v) logWeights dof
    let logLambda := dof.map fun v => n * Real.log 2 + ((List.range n).map fun i : Nat => digamma (0.5 * (v - (i : ℝ)))).sum
    List.zipWith (fun w t => w + t) w (List.zipWith (fun l mp => 0.5 * (l - n / mp)) logLambda b.meanPrecision)

end Emlearn.Mixture
