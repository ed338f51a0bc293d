/- C39 and the real-number reading of C36: networks over the real numbers. -/
import Verif.Props.Net
import Mathlib.Analysis.SpecialFunctions.Log.Basic
import Mathlib.Analysis.SpecialFunctions.Exp
import Mathlib.Analysis.Complex.Trigonometric
import Mathlib.Algebra.BigOperators.Fin
namespace Emlearn.Net
open Spec (Chained)

/-- Exact real arithmetic. `m` stands for the start value of maximum searches (`-INFINITY` in C). -/
noncomputable def realOps (m : ℝ) : NetOps ℝ where
  zero := 0
  one := 1
  half := 1/2
  negInf := m
  add := (· + ·)
  sub := (· - ·)
  mul := (· * ·)
  div := (· / ·)
  neg := (- ·)
  exp := Real.exp
  log := Real.log
  tanh := Real.tanh
  lt a b := decide (a < b)
  le a b := decide (a ≤ b)
  nearOne v := decide (|v - 1| < 1/1000)

/-- `Σ_j e^{x_j}` -/
noncomputable def expSum (xs : List ℝ) : ℝ := (xs.map Real.exp).sum

theorem expSum_pos (xs : List ℝ) (h : xs ≠ []) : 0 < expSum xs := by
  unfold expSum
  cases xs with
  | nil => exact absurd rfl h
  | cons x xs =>
    rw [List.map_cons, List.sum_cons]
    have : 0 ≤ (xs.map Real.exp).sum := List.sum_nonneg (by simp; intro a _; exact (Real.exp_pos a).le)
    have := Real.exp_pos x
    linarith

theorem foldl_expsub (xs : List ℝ) (M a : ℝ) : xs.foldl (fun s x => s + Real.exp (x - M)) a = a + Real.exp (-M) * expSum xs := by
  unfold expSum
  induction xs generalizing a with
  | nil => simp
  | cons x xs ih =>
    rw [List.foldl_cons, ih, List.map_cons, List.sum_cons, sub_eq_add_neg, Real.exp_add]; ring

theorem softmax_real (m : ℝ) (xs : List ℝ) : softmax (realOps m) xs = xs.map (fun x => Real.exp x / expSum xs) := by
  by_cases hne : xs = []
  · subst hne; rfl
  unfold softmax
  generalize xs.foldl (fun m' x => if (realOps m).lt m' x then x else m') (realOps m).negInf = M
  show xs.map (fun x => Real.exp (x - (M + Real.log (xs.foldl (fun s x => s + Real.exp (x - M)) 0)))) = _
  have hpos := expSum_pos xs hne
  have hs : xs.foldl (fun s x => s + Real.exp (x - M)) 0 = Real.exp (-M) * expSum xs := by rw [foldl_expsub]; ring
  rw [hs]
  apply List.map_congr_left
  intro x _
  rw [Real.log_mul (Real.exp_pos _).ne' hpos.ne', Real.log_exp, show x - (M + (-M + Real.log (expSum xs))) = x - Real.log (expSum xs) by ring,
    Real.exp_sub, Real.exp_log hpos]

/-- **C39.** In exact arithmetic softmax of `x` is `e^{x_i} / Σ_j e^{x_j}`: in every vector of at least one value, each result is positive and at most 1, the results sum to 1, they are ordered as the inputs and do not change when a constant is added to all inputs. -/
theorem C39_softmax (m : ℝ) (xs : List ℝ) (hne : xs ≠ []) :
    softmax (realOps m) xs = xs.map (fun x => Real.exp x / (xs.map Real.exp).sum) ∧
    (∀ p ∈ softmax (realOps m) xs, 0 < p ∧ p ≤ 1) ∧
    (softmax (realOps m) xs).sum = 1 ∧
    (∀ (i j : Nat) (hi : i < xs.length) (hj : j < xs.length) (hi' : i < (softmax (realOps m) xs).length) (hj' : j < (softmax (realOps m) xs).length),
      xs[i] < xs[j] ↔ (softmax (realOps m) xs)[i] < (softmax (realOps m) xs)[j]) ∧
    (∀ c : ℝ, softmax (realOps m) (xs.map (· + c)) = softmax (realOps m) xs) := by
  have hpos := expSum_pos xs hne
  refine ⟨softmax_real m xs, ?_, ?_, ?_, ?_⟩
  · intro p hp
    rw [softmax_real] at hp
    obtain ⟨x, hx, rfl⟩ := List.mem_map.1 hp
    refine ⟨div_pos (Real.exp_pos _) hpos, ?_⟩
    rw [div_le_one hpos]
    exact List.single_le_sum (by simp; intro a _; exact (Real.exp_pos a).le) _ (List.mem_map_of_mem hx)
  · rw [softmax_real]
    have : xs.map (fun x => Real.exp x / expSum xs) = (xs.map Real.exp).map (· * (expSum xs)⁻¹) := by
      simp [List.map_map, Function.comp_def, div_eq_mul_inv]
    rw [this, List.sum_map_mul_right, List.map_id']
    exact mul_inv_cancel₀ hpos.ne'
  · intro i j hi hj hi' hj'
    simp only [softmax_real, List.getElem_map]
    rw [div_lt_div_iff_of_pos_right hpos, Real.exp_lt_exp]
  · intro c
    rw [softmax_real, softmax_real, List.map_map]
    have : expSum (xs.map (· + c)) = expSum xs * Real.exp c := by
      unfold expSum
      rw [List.map_map, ← List.sum_map_mul_right]
      simp [Function.comp_def, Real.exp_add]
    apply List.map_congr_left
    intro x _
    simp only [Function.comp]
    rw [this, Real.exp_add, mul_div_mul_right _ _ (Real.exp_pos c).ne']

example : (softmax (realOps (-1000)) [0, 0]) = [1/2, 1/2] := by
  rw [(C39_softmax (-1000) [0, 0] (by simp)).1]; norm_num

/-- Mathematical activation functions. -/
noncomputable def mathAct : Act → (k : Nat) → (Fin k → ℝ) → (Fin k → ℝ)
  | .identity, _, v => v
  | .relu, _, v => fun i => max 0 (v i)
  | .logistic, _, v => fun i => 1 / (1 + Real.exp (-(v i)))
  | .tanh, _, v => fun i => Real.tanh (v i)
  | .softmax, k, v => fun i => Real.exp (v i) / ∑ j : Fin k, Real.exp (v j)
  | .other, _, v => v

/-- A dense layer on real vectors: weight matrix, bias vector, activation. -/
noncomputable def mathLayer (a : Act) {n k : Nat} (W : Fin n → Fin k → ℝ) (b : Fin k → ℝ) (x : Fin n → ℝ) : Fin k → ℝ :=
  mathAct a k (fun o => (∑ i : Fin n, W i o * x i) + b o)

theorem foldl_add_eq (l : List ℝ) (a : ℝ) : l.foldl (· + ·) a = a + l.sum := by
  induction l generalizing a with
  | nil => simp
  | cons x l ih => rw [List.foldl_cons, ih, List.sum_cons]; ring

/-- **C36 (real numbers).** In exact arithmetic a dense layer of the specification is `activation(Wᵀx + b)` with the textbook ReLU, logistic function, tanh and softmax. -/
theorem C36_layer_textbook (m : ℝ) (a : Act) (n k : Nat) (W : Fin n → Fin k → ℝ) (b : Fin k → ℝ) (x : Fin n → ℝ) :
    Spec.layer (realOps m) { act := a, w := List.ofFn (fun i => List.ofFn (W i)), b := List.ofFn b } (List.ofFn x) = List.ofFn (mathLayer a W b x) := by
  have hn : (List.range (List.ofFn b).length).map (Spec.neuron (realOps m) { act := a, w := List.ofFn (fun i => List.ofFn (W i)), b := List.ofFn b } (List.ofFn x))
      = List.ofFn (fun o : Fin k => (∑ i : Fin n, W i o * x i) + b o) := by
    apply List.ext_getElem
    · simp
    · intro o h1 h2
      have ho : o < k := by simpa using h2
      simp only [List.getElem_map, List.getElem_range, Spec.neuron, List.getElem_ofFn]
      have hz : List.zipWith (fun (row : List ℝ) xi => (realOps m).mul (row.getD o (realOps m).zero) xi) (List.ofFn (fun i => List.ofFn (W i))) (List.ofFn x)
          = List.ofFn (fun i : Fin n => W i ⟨o, ho⟩ * x i) := by
        apply List.ext_getElem
        · simp
        · intro i h3 h4
          simp only [List.getElem_zipWith, List.getElem_ofFn, realOps]
          congr 1
          rw [List.getD_eq_getElem?_getD, List.getElem?_eq_getElem (by simpa using ho)]
          simp
      rw [hz]
      show List.foldl (· + ·) (0 : ℝ) _ + (List.ofFn b).getD o 0 = _
      rw [foldl_add_eq, zero_add, List.sum_ofFn, List.getD_eq_getElem?_getD, List.getElem?_eq_getElem (by simpa using ho)]
      simp
  unfold Spec.layer mathLayer
  simp only
  rw [hn]
  cases a with
  | identity => rfl
  | other => rfl
  | relu =>
    simp only [Spec.act, realOps, List.map_ofFn, mathAct]
    congr 1; funext i
    simp only [Function.comp, decide_eq_true_eq]
    split
    · rename_i h; rw [max_eq_left h]
    · rename_i h; rw [max_eq_right (le_of_not_ge h)]
  | logistic => simp only [Spec.act, realOps, List.map_ofFn, mathAct]; rfl
  | tanh => simp only [Spec.act, realOps, List.map_ofFn, mathAct]; rfl
  | softmax =>
    have hs : Spec.act (realOps m) Act.softmax (List.ofFn (fun o : Fin k => (∑ i : Fin n, W i o * x i) + b o)) = softmax (realOps m) (List.ofFn (fun o : Fin k => (∑ i : Fin n, W i o * x i) + b o)) := by
      have := activate_spec (realOps m) .softmax (by decide) (List.ofFn (fun o : Fin k => (∑ i : Fin n, W i o * x i) + b o))
      simp only [activate, Option.some.injEq] at this
      exact this.symm
    rw [hs, softmax_real, List.map_ofFn, expSum, List.map_ofFn, List.sum_ofFn]
    rfl

end Emlearn.Net
