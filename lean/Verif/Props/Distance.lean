/- C43, C44: Mahalanobis distance and elliptic envelope. -/
import Verif.Distance.Model
import Mathlib.Data.Matrix.Mul
import Mathlib.LinearAlgebra.Matrix.PosDef
import Mathlib.Tactic.Linarith
import Mathlib.Algebra.Order.Field.Rat
namespace Emlearn.Distance
open Matrix
variable {K : Type} [Field K]

/-- The values of a matrix as nested lists. -/
def rows {K : Type} {n m : Nat} (P : Matrix (Fin n) (Fin m) K) : List (List K) := List.ofFn (fun i => List.ofFn (P i))

theorem diffAt_ofFn {n : Nat} (x m : Fin n → K) (j : Fin n) : diffAt (List.ofFn x) (List.ofFn m) j = some (x j - m j) := by
  simp [diffAt]

theorem entry_rows {n m : Nat} (P : Matrix (Fin n) (Fin m) K) (i : Fin n) (j : Fin m) : entry (rows P) i j = some (P i j) := by
  simp [entry, rows]

/-- **C43.** The C function on the flattened precision matrix computes the quadratic form `(x-m)ᵀ P (x-m)`, in every dimension, for every matrix. -/
theorem C43_c_quadratic_form (n : Nat) (x m : Fin n → K) (P : Matrix (Fin n) (Fin n) K) :
    mahaC (List.ofFn x) (List.ofFn m) (rows P).flatten n = some ((x - m) ⬝ᵥ (P *ᵥ (x - m))) := by
  unfold mahaC
  rw [sumLoop_fin n _ (fun i => (∑ j, P j i * (x j - m j)) * (x i - m i))]
  · congr 1
    simp only [dotProduct, mulVec, Pi.sub_apply, Finset.sum_mul, Finset.mul_sum]
    rw [Finset.sum_comm]
    exact Finset.sum_congr rfl (fun i _ => Finset.sum_congr rfl (fun j _ => by ring))
  · intro i
    rw [sumLoop_fin n _ (fun j => P j i * (x j - m j))]
    · simp [diffAt_ofFn]
    · intro j
      have := ofFn_flatten_getElem? n n P j i
      simp only [rows, this, diffAt_ofFn]
      rfl

/-- **C43.** The Python function computes the same form. -/
theorem C43_py_quadratic_form (n : Nat) (x m : Fin n → K) (P : Matrix (Fin n) (Fin n) K) :
    mahaPy (List.ofFn x) (List.ofFn m) (rows P) = some ((x - m) ⬝ᵥ (P *ᵥ (x - m))) := by
  unfold mahaPy
  rw [if_pos ⟨by simp, by simp [rows], by intro r hr; obtain ⟨k, rfl⟩ := List.mem_ofFn.1 hr; simp⟩]
  simp only [List.length_ofFn]
  rw [sumLoop_fin n _ (fun i => (∑ j, P i j * (x j - m j)) * (x i - m i))]
  · congr 1
    simp only [dotProduct, mulVec, Pi.sub_apply, Finset.sum_mul, Finset.mul_sum]
    exact Finset.sum_congr rfl (fun i _ => Finset.sum_congr rfl (fun j _ => by ring))
  · intro i
    rw [sumLoop_fin n _ (fun j => P i j * (x j - m j))]
    · simp [diffAt_ofFn]
    · intro j
      simp [entry_rows, diffAt_ofFn]

/-- **C43.** C and Python agree for every precision matrix, symmetric or not. -/
theorem C43_c_eq_py (n : Nat) (x m : Fin n → K) (P : Matrix (Fin n) (Fin n) K) :
    mahaC (List.ofFn x) (List.ofFn m) (rows P).flatten n = mahaPy (List.ofFn x) (List.ofFn m) (rows P) := by
  rw [C43_c_quadratic_form, C43_py_quadratic_form]

/-- **C43.** Zero at the mean, and never negative when the precision matrix is positive semidefinite (`vᵀPv ≥ 0` for all `v`). -/
theorem C43_nonneg [LinearOrder K] (n : Nat) (x m : Fin n → K) (P : Matrix (Fin n) (Fin n) K) (hP : ∀ v : Fin n → K, 0 ≤ v ⬝ᵥ (P *ᵥ v)) :
    (∃ d, mahaC (List.ofFn x) (List.ofFn m) (rows P).flatten n = some d ∧ 0 ≤ d) ∧
    mahaC (List.ofFn m) (List.ofFn m) (rows P).flatten n = some 0 :=
  ⟨⟨_, C43_c_quadratic_form n x m P, hP _⟩, by rw [C43_c_quadratic_form]; simp⟩

example : mahaC [3, 1] [1, 0] [2, 5, 0, 1] 2 = some (19 : ℚ) ∧ mahaPy [3, 1] [1, 0] [[2, 5], [0, 1]] = some (19 : ℚ) := by decide +kernel

section envelope
variable [LinearOrder K] [IsStrictOrderedRing K]

theorem predict_eq (n : Nat) (x m : Fin n → K) (P : Matrix (Fin n) (Fin n) K) (offset : K) :
    predict (generate (List.ofFn m) (rows P) offset) (List.ofFn x)
      = some (if (-((x - m) ⬝ᵥ (P *ᵥ (x - m)))) - offset < 0 then 1 else 0, some ((x - m) ⬝ᵥ (P *ᵥ (x - m)))) := by
  simp only [predict, predictN, generate, List.length_ofFn, if_true, Int.toNat_natCast, C43_c_quadratic_form, bind, Option.bind_some]

/-- **C44 (C side).** Generated code flags a point exactly when its squared distance exceeds `-offset`, and reports that distance. -/
theorem C44_c_outlier_iff (n : Nat) (x m : Fin n → K) (P : Matrix (Fin n) (Fin n) K) (offset : K) :
    ∃ r, predict (generate (List.ofFn m) (rows P) offset) (List.ofFn x) = some (r, some ((x - m) ⬝ᵥ (P *ᵥ (x - m)))) ∧
      (r = 1 ↔ -offset < (x - m) ⬝ᵥ (P *ᵥ (x - m))) ∧ (r = 0 ↔ (x - m) ⬝ᵥ (P *ᵥ (x - m)) ≤ -offset) := by
  refine ⟨_, predict_eq n x m P offset, ?_, ?_⟩
  all_goals generalize (x - m) ⬝ᵥ (P *ᵥ (x - m)) = d
  · split
    · simp; linarith
    · simp; linarith
  · split
    · simp; linarith
    · simp; linarith

/-- **C44, away from the boundary**: the Python wrapper says -1 (outlier) exactly when C says 1. Missing: points exactly on the boundary, where the two differ (`C44_refuted`). -/
theorem C44_wrapper_agrees_partial (n : Nat) (x m : Fin n → K) (P : Matrix (Fin n) (Fin n) K) (offset : K)
    (hb : (x - m) ⬝ᵥ (P *ᵥ (x - m)) ≠ -offset) :
    ∃ r w, predict (generate (List.ofFn m) (rows P) offset) (List.ofFn x) = some (r, some ((x - m) ⬝ᵥ (P *ᵥ (x - m)))) ∧
      wrapperPredict (List.ofFn m) (rows P) offset (List.ofFn x) = some w ∧ (w = 1 ∨ w = -1) ∧ (w = -1 ↔ r = 1) := by
  refine ⟨_, if (-((x - m) ⬝ᵥ (P *ᵥ (x - m)))) - offset > 0 then 1 else -1, predict_eq n x m P offset, by rw [wrapperPredict, generatedPredict, predict_eq]; rfl, ?_, ?_⟩
  · split
    · exact Or.inl rfl
    · exact Or.inr rfl
  · by_cases h : -((x - m) ⬝ᵥ (P *ᵥ (x - m))) - offset < 0
    · rw [if_pos h, if_neg (by linarith)]; simp
    · rw [if_neg h, if_pos]
      · simp
      · rcases lt_or_eq_of_le (not_lt.1 h) with h' | h'
        · exact h'
        · exact absurd (by linarith) hb

/-- **C44 is false on the boundary**: every point exactly on the boundary is an inlier for the generated C code (and for scikit-learn) but an outlier for `Wrapper.predict`. -/
theorem C44_refuted (n : Nat) (x m : Fin n → K) (P : Matrix (Fin n) (Fin n) K) (offset : K) (hb : (x - m) ⬝ᵥ (P *ᵥ (x - m)) = -offset) :
    predict (generate (List.ofFn m) (rows P) offset) (List.ofFn x) = some (0, some (-offset)) ∧
    wrapperPredict (List.ofFn m) (rows P) offset (List.ofFn x) = some (-1) := by
  have := predict_eq n x m P offset
  rw [hb] at this
  simp at this
  refine ⟨this, ?_⟩
  rw [wrapperPredict, generatedPredict, this]
  simp
end envelope

example : predict (generate [0] [[1]] (-4)) [2] = some (0, some (4 : ℚ)) ∧ wrapperPredict [0] [[1]] (-4) [(2 : ℚ)] = some (-1) ∧
    predict (generate [0] [[1]] (-4)) [3] = some (1, some (9 : ℚ)) := by decide +kernel

/-- Outside C44: an input of the wrong length gives the number 1, the same as an outlier, and no distance; the generated function then returns distance 0. -/
theorem C44_wrong_length_looks_like_outlier [LinearOrder K] (e : Envelope K) (x : List K) (h : x.length ≠ e.nFeatures) :
    predict e x = some (1, none) ∧ generatedPredict e x = some 0 := by
  simp [predict, predictN, generatedPredict, h]

end Emlearn.Distance
