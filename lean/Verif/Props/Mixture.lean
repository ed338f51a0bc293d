/- C45, C46: Gaussian mixture models. -/
import Verif.Mixture.Model
import Mathlib.Data.Matrix.Mul
import Mathlib.LinearAlgebra.Matrix.Block
import Mathlib.Analysis.SpecialFunctions.Sqrt
import Mathlib.Analysis.SpecialFunctions.Pow.Real
import Mathlib.Analysis.Real.Pi.Bounds
import Mathlib.Tactic.Linarith
namespace Emlearn.Mixture
open Matrix
section
variable {K : Type}

/-- Values of a matrix as nested lists. -/
def rows {n m : Nat} (P : Fin n → Fin m → K) : List (List K) := List.ofFn (fun i => List.ofFn (P i))

/-- A generated model with `C` components, `n` features: means, Cholesky factors of the precisions, log determinants and log weights. -/
def gmm {C n : Nat} (mu : Fin C → Fin n → K) (L : Fin C → Matrix (Fin n) (Fin n) K) (ld lw : Fin C → K) : Model K :=
  generate (rows mu) (List.ofFn (fun c => rows (L c))) (List.ofFn ld) (List.ofFn lw) n

theorem rows_flatten {n m : Nat} (P : Fin n → Fin m → K) (i : Fin n) (j : Fin m) : (rows P).flatten[i.1 * m + j.1]? = some (P i j) :=
  ofFn_flatten_getElem? n m P i j

theorem prec_entry {C n : Nat} (L : Fin C → Matrix (Fin n) (Fin n) K) (c : Fin C) (p f : Fin n) :
    (List.ofFn (fun c => rows (L c))).flatten.flatten[c.1 * n * n + (p.1 * n + f.1)]? = some (L c p f) := by
  have hlen : ∀ r ∈ (List.ofFn (fun c => rows (L c))).flatten, r.length = n := by
    intro r hr
    obtain ⟨l, hl, hr⟩ := List.mem_flatten.1 hr
    obtain ⟨c, rfl⟩ := List.mem_ofFn.1 hl
    obtain ⟨i, rfl⟩ := List.mem_ofFn.1 hr
    simp
  rw [show c.1 * n * n + (p.1 * n + f.1) = (c.1 * n + p.1) * n + f.1 by ring, flatten_entry _ n hlen _ _ f.2,
    flatten_entry _ n (by intro r hr; obtain ⟨c, rfl⟩ := List.mem_ofFn.1 hr; simp [rows]) _ _ p.2]
  simp [rows]

end

variable {K : Type} [Field K]

/-- `‖(x - μ)ᵀ L‖²` -/
def whitened {n : Nat} (x mu : Fin n → K) (L : Matrix (Fin n) (Fin n) K) : K := ((x - mu) ᵥ* L) ⬝ᵥ ((x - mu) ᵥ* L)

theorem quad_eq {C n : Nat} (mu : Fin C → Fin n → K) (L : Fin C → Matrix (Fin n) (Fin n) K) (ld lw : Fin C → K) (x : Fin n → K) (c : Fin C) :
    quad (gmm mu L ld lw) (List.ofFn x) c = some (whitened x (mu c) (L c)) := by
  unfold quad whitened
  show sumLoop _ n 0 0 = _
  have hx : ∀ f : Fin n, dot (gmm mu L ld lw) (List.ofFn x) 0 c f = some (∑ p, x p * L c p f) := by
    intro f
    unfold dot
    show sumLoop _ n 0 0 = _
    rw [sumLoop_fin n _ (fun p => x p * L c p f)]
    intro p
    have := prec_entry L c p f
    simp only [gmm, generate, this, Nat.zero_add]
    simp
  have hm : ∀ f : Fin n, dot (gmm mu L ld lw) (gmm mu L ld lw).means (c * n) c f = some (∑ p, mu c p * L c p f) := by
    intro f
    unfold dot
    show sumLoop _ n 0 0 = _
    rw [sumLoop_fin n _ (fun p => mu c p * L c p f)]
    intro p
    have h1 := prec_entry L c p f
    have h2 := rows_flatten mu c p
    simp only [gmm, generate, h1, h2]
    simp
  rw [sumLoop_fin n _ (fun f => (∑ p, x p * L c p f - ∑ p, mu c p * L c p f) * (∑ p, x p * L c p f - ∑ p, mu c p * L c p f))]
  · congr 1
    simp only [dotProduct, vecMul, Pi.sub_apply, sub_mul, Finset.sum_sub_distrib]
  · intro f
    have h2 := hm f
    rw [show (gmm mu L ld lw).nFeatures = n from rfl, hx f, h2]
    rfl

/-- Weighted log density of one component. -/
def logDensity {n : Nat} (log2pi : K) (x mu : Fin n → K) (L : Matrix (Fin n) (Fin n) K) (ld lw : K) : K :=
  -(1/2) * (n * log2pi + whitened x mu L) + ld + lw

theorem component_eq {C n : Nat} (log2pi : K) (mu : Fin C → Fin n → K) (L : Fin C → Matrix (Fin n) (Fin n) K) (ld lw : Fin C → K) (x : Fin n → K) (c : Fin C) :
    component (exactComb log2pi) (gmm mu L ld lw) (List.ofFn x) c = some (logDensity log2pi x (mu c) (L c) (ld c) (lw c)) := by
  unfold component
  rw [quad_eq]
  simp [gmm, generate, logDensity, exactComb]

theorem compLoop_eq {K : Type} [Zero K] [Add K] [Sub K] [Mul K] (comb : Nat → K → K → K) (m : Model K) (values : List K) (g : Nat → K) (k c : Nat) (out : List K) (hlen : c + k ≤ out.length)
    (h : ∀ j, c ≤ j → j < c + k → component comb m values j = some (g j)) :
    compLoop comb m values k c out = some (out.take c ++ (List.range' c k).map g ++ out.drop (c + k)) := by
  induction k generalizing c out with
  | zero => simp [compLoop]
  | succ k ih =>
    rw [compLoop, h c (le_refl _) (by omega)]
    simp only [bind, Option.bind_some]
    rw [if_pos (by omega), ih (c+1) _ (by simp; omega) (fun j h1 h2 => h j (by omega) (by omega))]
    congr 1
    have hc : c < out.length := by omega
    rw [List.range'_succ, List.map_cons, List.take_add_one, List.drop_set_of_lt (by omega)]
    simp [List.take_set_of_le, hc, Nat.add_assoc, Nat.add_comm 1 k]

/-- **C45 (log densities).** For every generated model (any number of components and features, any values): the call succeeds and writes for each component its weighted Gaussian log density. -/
theorem C45_log_proba {C n : Nat} (hC : 0 < C) (log2pi : K) (mu : Fin C → Fin n → K) (L : Fin C → Matrix (Fin n) (Fin n) K) (ld lw : Fin C → K) (x : Fin n → K)
    (out : List K) (hout : out.length = C) :
    predictLogProba (exactComb log2pi) (gmm mu L ld lw) (List.ofFn x) out
      = some (0, List.ofFn (fun c => -(1/2) * (n * log2pi + ((x - mu c) ᵥ* L c) ⬝ᵥ ((x - mu c) ᵥ* L c)) + ld c + lw c)) := by
  have hn : (gmm mu L ld lw).nComponents = C := by simp [gmm, generate, rows]
  unfold predictLogProba
  rw [hn, if_pos hC, if_pos (show (gmm mu L ld lw).cov = Cov.full from rfl),
    compLoop_eq (exactComb log2pi) _ _ (fun j => if hj : j < C then logDensity log2pi x (mu ⟨j, hj⟩) (L ⟨j, hj⟩) (ld ⟨j, hj⟩) (lw ⟨j, hj⟩) else 0) C 0 out (by omega)
      (fun j _ hj => by rw [dif_pos (by omega)]; exact component_eq log2pi mu L ld lw x ⟨j, by omega⟩)]
  simp only [List.take_zero, List.nil_append, Option.map_some, Option.some.injEq, Prod.mk.injEq, true_and]
  rw [List.drop_eq_nil_of_le (by omega), List.append_nil]
  apply List.ext_getElem
  · simp
  · intro j h1 h2
    have hj : j < C := by simpa using h2
    simp [hj, logDensity, whitened]

/-- **C45.** A model without components, or one with a covariance type other than full, is refused and the output array is not written. -/
theorem C45_refused {K : Type} [Zero K] [Add K] [Sub K] [Mul K] (comb : Nat → K → K → K) (m : Model K) (values out : List K) :
    (m.nComponents = 0 → predictLogProba comb m values out = some (-3, out)) ∧
    (m.nComponents > 0 → m.cov ≠ .full → predictLogProba comb m values out = some (2, out)) := by
  constructor
  · intro h; simp [predictLogProba, h]
  · intro h1 h2; simp [predictLogProba, h1, h2]

/-- **C45 (input length).** `values_length` is never looked at: an input with fewer values than the model has features is read past its end, whatever the model. -/
theorem C45_short_input_reads_past_end {K : Type} [Zero K] [Add K] [Sub K] [Mul K] (comb : Nat → K → K → K) (m : Model K) (values out : List K) (hc : 0 < m.nComponents) (hcov : m.cov = .full)
    (h : values.length < m.nFeatures) : predictLogProba comb m values out = none := by
  unfold predictLogProba
  rw [if_pos hc, if_pos hcov]
  obtain ⟨k, hk⟩ : ∃ k, m.nComponents = k + 1 := ⟨m.nComponents - 1, by omega⟩
  have hd : dot m values 0 0 0 = none := by
    unfold dot
    refine sumLoop_none _ _ _ values.length _ (by omega) (by omega) ?_
    simp
  have hq : quad m values 0 = none := by
    unfold quad
    refine sumLoop_none _ _ _ 0 _ (by omega) (by omega) ?_
    simp [hd]
  rw [hk]
  unfold compLoop component
  rw [hq]; rfl

/-- **C45 (errors).** score and predict_proba report the errors of a model without components or with a covariance type that is not implemented, and compute nothing. -/
theorem C45_errors_reported (lo hi log2pi : ℝ) (m : Model ℝ) (values out : List ℝ) :
    (m.nComponents = 0 → score lo hi log2pi m values out = some (-3, out, none) ∧ predictProba lo hi log2pi m values out = some (-3, none, [])) ∧
    (m.nComponents > 0 → m.cov ≠ .full → score lo hi log2pi m values out = some (2, out, none) ∧ predictProba lo hi log2pi m values out = some (2, none, [])) := by
  constructor
  · intro h; simp [predictProba, score, predictProbaG, scoreG, (C45_refused (exactComb log2pi) m values out).1 h]
  · intro h1 h2; simp [predictProba, score, predictProbaG, scoreG, (C45_refused (exactComb log2pi) m values out).2 h1 h2]
/-- Multivariate Gaussian density with mean `mu` and precision matrix `Λ` (inverse covariance). -/
noncomputable def gaussian {n : Nat} (mu : Fin n → ℝ) (Λ : Matrix (Fin n) (Fin n) ℝ) (x : Fin n → ℝ) : ℝ :=
  (2 * Real.pi) ^ (-(n : ℝ) / 2) * Real.sqrt Λ.det * Real.exp (-(1/2) * ((x - mu) ⬝ᵥ (Λ *ᵥ (x - mu))))

/-- **C45 (densities).** With `log2pi = log 2π`, upper triangular factors `L` with positive diagonal, `log_det = Σ log L_ii` (scikit-learn's `_compute_log_det_cholesky`) and `log_weight = log w`, the value of a component is the logarithm of `w · N(x; μ, (L Lᵀ)⁻¹)`. -/
theorem C45_is_gaussian {n : Nat} (x mu : Fin n → ℝ) (L : Matrix (Fin n) (Fin n) ℝ) (hup : L.BlockTriangular id) (hpos : ∀ i, 0 < L i i) (w : ℝ) (hw : 0 < w) :
    Real.exp (-(1/2) * (n * Real.log (2 * Real.pi) + ((x - mu) ᵥ* L) ⬝ᵥ ((x - mu) ᵥ* L)) + (∑ i, Real.log (L i i)) + Real.log w)
      = w * gaussian mu (L * Lᵀ) x := by
  have hdet : L.det = ∏ i, L i i := Matrix.det_of_isUpperTriangular hup
  have hdpos : 0 < L.det := by rw [hdet]; exact Finset.prod_pos (fun i _ => hpos i)
  have hq : ((x - mu) ᵥ* L) ⬝ᵥ ((x - mu) ᵥ* L) = (x - mu) ⬝ᵥ ((L * Lᵀ) *ᵥ (x - mu)) := by
    rw [← Matrix.mulVec_mulVec, Matrix.mulVec_transpose, Matrix.dotProduct_mulVec]
  have hlog : (∑ i, Real.log (L i i)) = Real.log L.det := by
    rw [hdet, Real.log_prod (fun i _ => (hpos i).ne')]
  have hs : Real.sqrt (L * Lᵀ).det = L.det := by
    rw [Matrix.det_mul, Matrix.det_transpose, Real.sqrt_mul_self hdpos.le]
  have h2pi : 0 < 2 * Real.pi := by have := Real.pi_pos; linarith
  unfold gaussian
  rw [hq, hlog, hs, Real.exp_add, Real.exp_add, Real.exp_log hw, Real.exp_log hdpos, Real.rpow_def_of_pos h2pi, mul_add, Real.exp_add,
    show -(1/2) * ((n : ℝ) * Real.log (2 * Real.pi)) = Real.log (2 * Real.pi) * (-(n : ℝ) / 2) by ring]
  ring

theorem minmax_eq {K : Type} [LinearOrder K] (lo hi : K) (arr : List K) :
    minmax lo hi arr = (arr.foldl min lo, arr.foldl max hi) := by
  unfold minmax
  induction arr generalizing lo hi with
  | nil => rfl
  | cons v arr ih =>
    rw [List.foldl_cons, List.foldl_cons, List.foldl_cons, ← ih]
    congr 2
    · rcases lt_or_ge v lo with h | h
      · rw [if_pos h, min_eq_right h.le]
      · rw [if_neg (not_lt.2 h), min_eq_left h]
    · rcases lt_or_ge hi v with h | h
      · rw [if_pos h, max_eq_right h.le]
      · rw [if_neg (not_lt.2 h), max_eq_left h]

theorem foldl_exp (l : List ℝ) (M a : ℝ) : l.foldl (fun s v => s + Real.exp (v - M)) a = a + Real.exp (-M) * (l.map Real.exp).sum := by
  induction l generalizing a with
  | nil => simp
  | cons x l ih => rw [List.foldl_cons, ih, List.map_cons, List.sum_cons, sub_eq_add_neg, Real.exp_add]; ring

theorem sumexp_pos (l : List ℝ) (h : l ≠ []) : 0 < (l.map Real.exp).sum := by
  cases l with
  | nil => exact absurd rfl h
  | cons x l =>
    rw [List.map_cons, List.sum_cons]
    have : 0 ≤ (l.map Real.exp).sum := List.sum_nonneg (by simp; intro a _; exact (Real.exp_pos a).le)
    have := Real.exp_pos x
    linarith

theorem logsumexp_eq (lo hi : ℝ) (l : List ℝ) (h : l ≠ []) : logsumexp lo hi l = Real.log (l.map Real.exp).sum := by
  unfold logsumexp logsumexpG
  simp only
  rw [foldl_exp, zero_add, Real.log_mul (Real.exp_pos _).ne' (sumexp_pos l h).ne', Real.log_exp]
  ring

theorem logsumexpG_eq (lo hi : ℝ) (l : List ℝ) (h : l ≠ []) : logsumexpG Real.exp Real.log lo hi l = Real.log (l.map Real.exp).sum := logsumexp_eq lo hi l h

/-- **C45 (score).** The score is the logarithm of the summed component densities. -/
theorem C45_score {C n : Nat} (hC : 0 < C) (lo hi log2pi : ℝ) (mu : Fin C → Fin n → ℝ) (L : Fin C → Matrix (Fin n) (Fin n) ℝ) (ld lw : Fin C → ℝ) (x : Fin n → ℝ)
    (out : List ℝ) (hout : out.length = C) :
    score lo hi log2pi (gmm mu L ld lw) (List.ofFn x) out
      = some (0, List.ofFn (fun c => -(1/2) * (n * log2pi + ((x - mu c) ᵥ* L c) ⬝ᵥ ((x - mu c) ᵥ* L c)) + ld c + lw c), some (Real.log (∑ c, Real.exp (-(1/2) * (n * log2pi + ((x - mu c) ᵥ* L c) ⬝ᵥ ((x - mu c) ᵥ* L c)) + ld c + lw c)))) := by
  have hn : (gmm mu L ld lw).nComponents = C := by simp [gmm, generate, rows]
  unfold score scoreG
  rw [C45_log_proba hC log2pi mu L ld lw x out hout, Option.bind_some, hn, if_pos rfl, if_pos (by simp), List.take_of_length_le (by simp),
    logsumexpG_eq _ _ _ (by intro h; have := congrArg List.length h; simp at this; omega), List.map_ofFn, List.sum_ofFn]
  rfl

/-- **C45 (responsibilities).** predict_proba succeeds and returns `d_c / Σ d` for the component densities `d_c`: each in (0,1], summing to one, ordered as the log densities. -/
theorem C45_responsibilities {C n : Nat} (hC : 0 < C) (lo hi log2pi : ℝ) (mu : Fin C → Fin n → ℝ) (L : Fin C → Matrix (Fin n) (Fin n) ℝ) (ld lw : Fin C → ℝ) (x : Fin n → ℝ)
    (out : List ℝ) (hout : out.length = C) :
    ∃ (s : ℝ) (r : Fin C → ℝ), predictProba lo hi log2pi (gmm mu L ld lw) (List.ofFn x) out = some (0, some s, List.ofFn r) ∧
      (∀ c, r c = Real.exp (logDensity log2pi x (mu c) (L c) (ld c) (lw c)) / ∑ c', Real.exp (logDensity log2pi x (mu c') (L c') (ld c') (lw c'))) ∧
      (∀ c, 0 < r c ∧ r c ≤ 1) ∧ ∑ c, r c = 1 ∧
      (∀ c c', r c < r c' ↔ logDensity log2pi x (mu c) (L c) (ld c) (lw c) < logDensity log2pi x (mu c') (L c') (ld c') (lw c')) := by
  have hn : (gmm mu L ld lw).nComponents = C := by simp [gmm, generate, rows]
  set d : Fin C → ℝ := fun c => logDensity log2pi x (mu c) (L c) (ld c) (lw c) with hd
  have hpos : 0 < ∑ c, Real.exp (d c) := Finset.sum_pos (fun c _ => Real.exp_pos _) ⟨⟨0, hC⟩, Finset.mem_univ _⟩
  refine ⟨Real.log (∑ c, Real.exp (d c)), fun c => Real.exp (d c) / ∑ c', Real.exp (d c'), ?_, fun _ => rfl, ?_, ?_, ?_⟩
  · unfold predictProba predictProbaG scoreG
    rw [C45_log_proba hC log2pi mu L ld lw x out hout, Option.bind_some, hn, if_pos rfl, if_pos (by simp), List.take_of_length_le (by simp),
      logsumexpG_eq _ _ _ (by intro h; have := congrArg List.length h; simp at this; omega), List.map_ofFn, List.sum_ofFn, Option.bind_some]
    simp only
    rw [List.take_of_length_le (by simp), List.map_ofFn]
    show some (0, some (Real.log (∑ c, Real.exp (d c))), List.ofFn (fun c => Real.exp (d c - Real.log (∑ c, Real.exp (d c))))) = _
    congr 3
    congr 1
    funext c
    rw [Real.exp_sub, Real.exp_log hpos]
  · intro c
    refine ⟨div_pos (Real.exp_pos _) hpos, ?_⟩
    rw [div_le_one hpos]
    exact Finset.single_le_sum (f := fun c => Real.exp (d c)) (fun i _ => (Real.exp_pos _).le) (Finset.mem_univ c)
  · simp only [div_eq_mul_inv]
    rw [← Finset.sum_mul, mul_inv_cancel₀ hpos.ne']
  · intro c c'
    rw [div_lt_div_iff_of_pos_right hpos, Real.exp_lt_exp]

/-- A one-feature model with two components, evaluated. -/
example : predictLogProba (exactComb (2 : ℚ)) (generate [[0], [1]] [[[1]], [[2]]] [0, 0] [0, -1] 1) [3] [9, 9] = some (0, [-11/2, -10]) := by decide +kernel

/-! ### C46 -/

section full

/-- scikit-learn's own squared Mahalanobis term of component `c` for each covariance type: `‖(x-μ)ᵀL_c‖²`, `‖(x-μ)ᵀL‖²`, `Σ_f ((x_f-μ_f) p_{c,f})²`, `Σ_f ((x_f-μ_f) p_c)²`. -/
def typeTerm {C n : Nat} (x mu : Fin n → K) (c : Fin C) : (Fin C → Matrix (Fin n) (Fin n) K) ⊕ Matrix (Fin n) (Fin n) K ⊕ (Fin C → Fin n → K) ⊕ (Fin C → K) → K
  | .inl L => ((x - mu) ᵥ* L c) ⬝ᵥ ((x - mu) ᵥ* L c)
  | .inr (.inl L) => ((x - mu) ᵥ* L) ⬝ᵥ ((x - mu) ᵥ* L)
  | .inr (.inr (.inl p)) => ∑ f, ((x f - mu f) * p c f) ^ 2
  | .inr (.inr (.inr p)) => ∑ f, ((x f - mu f) * p c) ^ 2

/-- The data as scikit-learn stores it. -/
def asChol {C n : Nat} : (Fin C → Matrix (Fin n) (Fin n) K) ⊕ Matrix (Fin n) (Fin n) K ⊕ (Fin C → Fin n → K) ⊕ (Fin C → K) → Chol K
  | .inl L => .full (List.ofFn (fun c => rows (L c)))
  | .inr (.inl L) => .tied (rows L)
  | .inr (.inr (.inl p)) => .diag (rows p)
  | .inr (.inr (.inr p)) => .spherical (List.ofFn p)

/-- The full matrix of component `c`. -/
def fullOf {C n : Nat} (c : Fin C) : (Fin C → Matrix (Fin n) (Fin n) K) ⊕ Matrix (Fin n) (Fin n) K ⊕ (Fin C → Fin n → K) ⊕ (Fin C → K) → Matrix (Fin n) (Fin n) K
  | .inl L => L c
  | .inr (.inl L) => L
  | .inr (.inr (.inl p)) => Matrix.diagonal (p c)
  | .inr (.inr (.inr p)) => Matrix.diagonal (fun _ => p c)

theorem isMat_rows {n m : Nat} (P : Fin n → Fin m → K) : IsMat n m (rows P) := by
  refine ⟨by simp [rows], ?_⟩
  intro r hr; obtain ⟨k, rfl⟩ := List.mem_ofFn.1 hr; simp

theorem npDiag_eq {n : Nat} (a : Fin n → K) : npDiag (List.ofFn a) = rows (Matrix.diagonal a) := by
  unfold npDiag rows
  apply List.ext_getElem
  · simp
  · intro i h1 h2
    apply List.ext_getElem
    · simp
    · intro j h3 h4
      simp at h2 h4
      simp only [List.getElem_map, List.getElem_range, List.getElem_ofFn, Matrix.diagonal_apply, Fin.mk.injEq]
      split
      · rw [List.getD_eq_getElem?_getD, List.getElem?_eq_getElem (by simpa using h2)]; simp
      · rfl

theorem npEye_eq (n : Nat) (v : K) : npEye n v = rows (Matrix.diagonal (fun _ : Fin n => v)) := by
  unfold npEye rows
  apply List.ext_getElem
  · simp
  · intro i h1 h2
    apply List.ext_getElem
    · simp
    · intro j h3 h4
      simp only [List.getElem_map, List.getElem_range, List.getElem_ofFn, Matrix.diagonal_apply, Fin.mk.injEq]
      split <;> simp

/-- **C46.** For every covariance type, component and feature count: conversion succeeds, gives one full matrix per component, and with it the 'full' formula yields the type's own squared Mahalanobis term for every point and mean. -/
theorem C46_convert_to_full {C n : Nat} (d : (Fin C → Matrix (Fin n) (Fin n) K) ⊕ Matrix (Fin n) (Fin n) K ⊕ (Fin C → Fin n → K) ⊕ (Fin C → K)) :
    convertToFull C n (asChol d) = some (List.ofFn (fun c => rows (fullOf c d))) ∧
    ∀ (x mu : Fin n → K) (c : Fin C), ((x - mu) ᵥ* fullOf c d) ⬝ᵥ ((x - mu) ᵥ* fullOf c d) = typeTerm x mu c d := by
  rcases d with L | L | p | p
  · refine ⟨?_, fun x mu c => rfl⟩
    rw [asChol, convertToFull, if_pos]
    · rfl
    · exact ⟨by simp, by intro m hm; obtain ⟨c, rfl⟩ := List.mem_ofFn.1 hm; exact isMat_rows _⟩
  · refine ⟨?_, fun x mu c => rfl⟩
    have h : IsMat n n (rows L) := isMat_rows _
    simp [asChol, convertToFull, h, fullOf, List.ofFn_const]
  · refine ⟨?_, fun x mu c => ?_⟩
    · rw [asChol, convertToFull, if_pos (show IsMat _ _ _ from isMat_rows _)]
      simp only [rows, List.map_ofFn, Function.comp_def]
      congr 2; funext c
      exact npDiag_eq (p c)
    · simp only [fullOf, typeTerm, dotProduct, Matrix.vecMul_diagonal, Pi.sub_apply, pow_two]
  · refine ⟨?_, fun x mu c => ?_⟩
    · rw [asChol, convertToFull, if_pos (by simp)]
      simp only [List.map_ofFn, Function.comp_def]
      congr 2; funext c
      exact npEye_eq n (p c)
    · simp only [fullOf, typeTerm, dotProduct, Matrix.vecMul_diagonal, Pi.sub_apply, pow_two]

/-- **C46.** Arrays whose shape does not fit the covariance type are refused. -/
theorem C46_wrong_shape_refused (C n : Nat) :
    (∀ m : List (List K), ¬ IsMat n n m → convertToFull C n (.tied m) = none) ∧
    (∀ m : List (List K), ¬ IsMat C n m → convertToFull C n (.diag m) = none) ∧
    (∀ v : List K, v.length ≠ C → convertToFull C n (.spherical v) = none) ∧
    (∀ ms : List (List (List K)), ms.length ≠ C → convertToFull C n (.full ms) = none) := by
  refine ⟨fun m h => ?_, fun m h => ?_, fun v h => ?_, fun ms h => ?_⟩ <;> simp [convertToFull, h]
end full

/-- **C46 (log determinants).** The log determinant taken from the expanded matrix (sum of logs of its diagonal) is the one scikit-learn uses for the type: `Σ_f log p_f` (diag), `n · log p` (spherical). -/
theorem C46_log_det {C n : Nat} (c : Fin C) (p : Fin C → Fin n → ℝ) (s : Fin C → ℝ) :
    (∑ i, Real.log ((fullOf c (.inr (.inr (.inl p))) : Matrix (Fin n) (Fin n) ℝ) i i) = ∑ f, Real.log (p c f)) ∧
    (∑ i, Real.log ((fullOf c (.inr (.inr (.inr s))) : Matrix (Fin n) (Fin n) ℝ) i i) = n * Real.log (s c)) := by
  constructor <;> simp [fullOf]

example : convertToFull 2 2 (.spherical [(2 : ℚ), 3]) = some [[[2, 0], [0, 2]], [[3, 0], [0, 3]]] := by decide +kernel
example : convertToFull 1 2 (.diag [[(2 : ℚ), 3]]) = some [[[2, 0], [0, 3]]] := by decide +kernel

/-! ### Helpers of `eml_mixture.h` -/

/-- **C69.** On a non-empty array with values between the start values (`-INFINITY`, `+INFINITY`, which may themselves occur; only NaN is excluded), minmax returns its smallest and largest value; both occur in it. -/
theorem C69_minmax {K : Type} [LinearOrder K] (lo hi : K) (arr : List K) (hne : arr ≠ []) (h : ∀ v ∈ arr, hi ≤ v ∧ v ≤ lo) :
    (minmax lo hi arr).1 ∈ arr ∧ (minmax lo hi arr).2 ∈ arr ∧ ∀ v ∈ arr, (minmax lo hi arr).1 ≤ v ∧ v ≤ (minmax lo hi arr).2 := by
  rw [minmax_eq]
  have key : ∀ (l : List K) (a b : K), (l.foldl min a = a ∨ l.foldl min a ∈ l) ∧ (l.foldl max b = b ∨ l.foldl max b ∈ l) ∧
      l.foldl min a ≤ a ∧ b ≤ l.foldl max b ∧ ∀ v ∈ l, l.foldl min a ≤ v ∧ v ≤ l.foldl max b := by
    intro l
    induction l with
    | nil => intro a b; simp
    | cons x l ih =>
      intro a b
      obtain ⟨h1, h2, h3, h4, h5⟩ := ih (min a x) (max b x)
      simp only [List.foldl_cons, List.mem_cons]
      refine ⟨?_, ?_, le_trans h3 (min_le_left _ _), le_trans (le_max_left _ _) h4, ?_⟩
      · rcases h1 with h1 | h1
        · rw [h1]; rcases min_choice a x with h | h <;> simp [h]
        · exact Or.inr (Or.inr h1)
      · rcases h2 with h2 | h2
        · rw [h2]; rcases max_choice b x with h | h <;> simp [h]
        · exact Or.inr (Or.inr h2)
      · intro v hv
        rcases hv with rfl | hv
        · exact ⟨le_trans h3 (min_le_right _ _), le_trans (le_max_right _ _) h4⟩
        · exact h5 v hv
  obtain ⟨h1, h2, _, _, h5⟩ := key arr lo hi
  obtain ⟨v, hv⟩ := List.exists_mem_of_ne_nil arr hne
  refine ⟨h1.elim (fun e => ?_) id, h2.elim (fun e => ?_) id, h5⟩
  · have : v = lo := le_antisymm (h v hv).2 (by rw [← e]; exact (h5 v hv).1)
    rw [e, ← this]; exact hv
  · have : v = hi := le_antisymm (by rw [← e]; exact (h5 v hv).2) (h v hv).1
    rw [e, ← this]; exact hv

example : minmax (1000 : ℤ) (-1000) [3, -2, 7, 7] = (-2, 7) := by decide

/-- **C70 (that the dot product helper returns the dot product is false).** Declared to return `bool`, it returns 1 for every pair of arrays whose dot product is not zero, and 0 otherwise. -/
theorem C70_refuted {K : Type} [Field K] [DecidableEq K] (n : Nat) (a b : Fin n → K) :
    dotProductC (List.ofFn a) (List.ofFn b) n = some (if a ⬝ᵥ b = 0 then 0 else 1) := by
  unfold dotProductC
  rw [sumLoop_fin n _ (fun i => a i * b i) (by intro i; simp)]
  rfl

example : dotProductC [(2 : ℚ), 3] [4, 5] 2 = some 1 := by decide +kernel

end Emlearn.Mixture
