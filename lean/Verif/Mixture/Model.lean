/- Model of `emlearn/eml_mixture.h` and `emlearn/mixture.py`. The C functions are generic in the arithmetic: exact numbers for C45, C46, C92, rounded ones for C107. The weights are data here; `get_log_weights` for `BayesianGaussianMixture` is in `Mixture/Bayesian.lean`. -/
import Verif.Common
import Verif.Loops
import Mathlib.Algebra.Order.Field.Basic
import Mathlib.Analysis.SpecialFunctions.Log.Basic
namespace Emlearn.Mixture

/-- `EmlCovarianceType`, `eml_mixture.h` 90-95. -/
inductive Cov where
  | full | tied | diagonal | spherical
  deriving DecidableEq, Repr

/-- `EmlMixtureModel`, `eml_mixture.h` 102-117. -/
structure Model (K : Type) where
  nComponents : Nat
  nFeatures : Nat
  cov : Cov
  means : List K
  precisions : List K
  logDets : List K
  logWeights : List K

section
variable {K : Type} [Zero K] [Add K] [Sub K] [Mul K]

/-- `dot_x`/`dot_m` loops, `eml_mixture.h` 209-215: `Σ_p v[p] * precisions[c*n*n + p*n + f]`, `v` starting at `off`. -/
def dot (m : Model K) (v : List K) (off c f : Nat) : Option K :=
  sumLoop (fun p => do
    let a ← v[off + p]?
    let q ← m.precisions[c * m.nFeatures * m.nFeatures + (p * m.nFeatures + f)]?
    some (a * q)) m.nFeatures 0 0

/-- Squared length of the whitened difference, `eml_mixture.h` 196-223 (full covariance). -/
def quad (m : Model K) (values : List K) (c : Nat) : Option K :=
  sumLoop (fun f => do
    let dx ← dot m values 0 c f
    let dm ← dot m m.means (c * m.nFeatures) c f
    some ((dx - dm) * (dx - dm))) m.nFeatures 0 0

/-- Value of one component, `eml_mixture.h` 234-241. `comb n q d` is line 234, `-0.5 * (n * EML_LOG_2PI + q) + d`, which C computes in `double` and rounds to `float`. -/
def component (comb : Nat → K → K → K) (m : Model K) (values : List K) (c : Nat) : Option K := do
  let q ← quad m values c
  let d ← m.logDets[c]?
  let w ← m.logWeights[c]?
  some (comb m.nFeatures q d + w)

/-- Loop over components, `eml_mixture.h` 180-251: `k` remain, starting at `c`; writes `out[c]`. -/
def compLoop (comb : Nat → K → K → K) (m : Model K) (values : List K) : Nat → Nat → List K → Option (List K)
  | 0, _, out => some out
  | k + 1, c, out => do
    let v ← component comb m values c
    if c < out.length then compLoop comb m values k (c + 1) (out.set c v) else none

/-- `eml_mixture_predict_log_proba`, `eml_mixture.h` 165-255: return code and the probabilities array (non-NULL pointers; `values_length` is never looked at). -/
def predictLogProba (comb : Nat → K → K → K) (m : Model K) (values out : List K) : Option (Int × List K) :=
  if m.nComponents > 0 then
    if m.cov = .full then (compLoop comb m values m.nComponents 0 out).map (fun o => (0, o))
    else some (2, out)
  else some (-3, out)

end

/-- Line 234 in exact arithmetic. -/
def exactComb {K : Type} [Field K] (log2pi : K) (n : Nat) (q d : K) : K := -(1/2) * ((n : K) * log2pi + q) + d

/-- `generate_code`, `mixture.py` 26-110: the declared model (arrays flattened, always `full` after `convert_to_full`). -/
def generate {K : Type} (means : List (List K)) (prec : List (List (List K))) (logDets logWeights : List K) (nFeatures : Nat) : Model K :=
  { nComponents := means.length, nFeatures := nFeatures, cov := .full, means := means.flatten, precisions := prec.flatten.flatten, logDets := logDets, logWeights := logWeights }

section
variable {K : Type} [LT K] [DecidableLT K]
/-- `eml_minmax`, `eml_mixture.h` 30-55: `lo`/`hi` are the start values (`+INFINITY`, `-INFINITY`). -/
def minmax (lo hi : K) (arr : List K) : K × K :=
  arr.foldl (fun s v => (if v < s.1 then v else s.1, if v > s.2 then v else s.2)) (lo, hi)
end

section
variable {K : Type} [Zero K] [Add K] [Sub K] [Mul K] [LT K] [DecidableLT K] (exp log : K → K) (lo hi : K) (comb : Nat → K → K → K)

/-- `eml_logsumexp`, `eml_mixture.h` 59-82; `exp`, `log` are `expf`, `logf`. -/
def logsumexpG (arr : List K) : K :=
  let amax := (minmax lo hi arr).2
  log (arr.foldl (fun s v => s + exp (v - amax)) 0) + amax

/-- `eml_mixture_score`, `eml_mixture.h` 269-297: code, probabilities, score. -/
def scoreG (m : Model K) (values out : List K) : Option (Int × List K × Option K) :=
  (predictLogProba comb m values out).bind (fun r =>
    if r.1 = 0 then
      if m.nComponents ≤ r.2.length then some (0, r.2, some (logsumexpG exp log lo hi (r.2.take m.nComponents))) else none
    else some (r.1, r.2, none))

/-- `eml_mixture_predict_proba`, `eml_mixture.h` 299-323: code, score, responsibilities (the written prefix of `out_resp`). -/
def predictProbaG (m : Model K) (values out : List K) : Option (Int × Option K × List K) :=
  (scoreG exp log lo hi comb m values out).bind (fun r =>
    match r with
    | (0, probs, some s) => some (0, some s, (probs.take m.nComponents).map (fun p => exp (p - s)))
    | (code, _, s) => some (code, s, []))
end

/-- The three functions in exact arithmetic. -/
noncomputable def logsumexp (lo hi : ℝ) (arr : List ℝ) : ℝ := logsumexpG Real.exp Real.log lo hi arr

noncomputable def score (lo hi log2pi : ℝ) (m : Model ℝ) (values out : List ℝ) : Option (Int × List ℝ × Option ℝ) := scoreG Real.exp Real.log lo hi (exactComb log2pi) m values out

noncomputable def predictProba (lo hi log2pi : ℝ) (m : Model ℝ) (values out : List ℝ) : Option (Int × Option ℝ × List ℝ) := predictProbaG Real.exp Real.log lo hi (exactComb log2pi) m values out

/-- `eml_dot_product`, `eml_mixture.h` 16-26: the accumulated `float` is converted to the declared return type `bool`. -/
def dotProductC {K : Type} [Field K] [DecidableEq K] (a b : List K) (n : Nat) : Option Int :=
  (sumLoop (fun i => do
    let x ← a[i]?
    let y ← b[i]?
    some (x * y)) n 0 0).map (fun s => if s = 0 then 0 else 1)

/-! ### `convert_to_full` -/

section
variable {K : Type} [Field K]

/-- `precisions_cholesky_` in the shapes scikit-learn uses. -/
inductive Chol (K : Type) where
  | full (ms : List (List (List K)))
  | tied (m : List (List K))
  | diag (rows : List (List K))
  | spherical (vs : List K)

/-- `numpy.diag(a)`. -/
def npDiag (a : List K) : List (List K) :=
  (List.range a.length).map (fun i => (List.range a.length).map (fun j => if i = j then a.getD i 0 else 0))

/-- `v * numpy.eye(n, n)`. -/
def npEye (n : Nat) (v : K) : List (List K) :=
  (List.range n).map (fun i => (List.range n).map (fun j => v * (if i = j then 1 else 0)))

/-- A 2-D array of the given shape. -/
def IsMat (r c : Nat) (m : List (List K)) : Prop := m.length = r ∧ ∀ row ∈ m, row.length = c

instance (r c : Nat) (m : List (List K)) : Decidable (IsMat r c m) := by unfold IsMat; infer_instance

/-- `convert_to_full`, `mixture.py` 226-277; `none`: a failed assertion. -/
def convertToFull (nComponents nFeatures : Nat) : Chol K → Option (List (List (List K)))
  | .full ms => if ms.length = nComponents ∧ ∀ m ∈ ms, IsMat nFeatures nFeatures m then some ms else none
  | .tied m => if IsMat nFeatures nFeatures m then some (List.replicate nComponents m) else none
  | .diag rows => if IsMat nComponents nFeatures rows then some (rows.map npDiag) else none
  | .spherical vs => if vs.length = nComponents then some (vs.map (npEye nFeatures)) else none

end
end Emlearn.Mixture
