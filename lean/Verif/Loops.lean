/- Accumulating for-loops over array reads, shared by the numeric models. -/
import Mathlib.Algebra.BigOperators.Group.Finset.Basic
import Mathlib.Algebra.BigOperators.Intervals
import Mathlib.Algebra.BigOperators.Fin
namespace Emlearn

/-- `for (i = start; k steps; i++) { acc += f(i); }` where `f(i)` may read out of bounds (`none`). -/
def sumLoop {K : Type} [Add K] (f : Nat → Option K) : Nat → Nat → K → Option K
  | 0, _, acc => some acc
  | k + 1, i, acc => (f i).bind (fun v => sumLoop f k (i + 1) (acc + v))

theorem sumLoop_eq {K : Type} [AddCommMonoid K] (f : Nat → Option K) (g : Nat → K) (k i : Nat) (acc : K)
    (h : ∀ j, i ≤ j → j < i + k → f j = some (g j)) : sumLoop f k i acc = some (acc + ∑ j ∈ Finset.range k, g (i + j)) := by
  induction k generalizing i acc with
  | zero => simp [sumLoop]
  | succ k ih =>
    rw [sumLoop, h i (le_refl _) (by omega), Option.bind_some, ih (i+1) _ (fun j h1 h2 => h j (by omega) (by omega)), Finset.sum_range_succ']
    simp only [add_zero]
    congr 1
    rw [add_assoc, add_comm (g i)]
    congr 2
    apply Finset.sum_congr rfl
    intro j _
    congr 1; omega

theorem sumLoop_zero {K : Type} [AddCommMonoid K] (f : Nat → Option K) (g : Nat → K) (k : Nat)
    (h : ∀ j, j < k → f j = some (g j)) : sumLoop f k 0 0 = some (∑ j ∈ Finset.range k, g j) := by
  rw [sumLoop_eq f g k 0 0 (fun j _ hj => h j (by omega))]
  simp

theorem sumLoop_fin {K : Type} [AddCommMonoid K] (k : Nat) (f : Nat → Option K) (g : Fin k → K)
    (h : ∀ j : Fin k, f j = some (g j)) : sumLoop f k 0 0 = some (∑ j, g j) := by
  rw [sumLoop_zero f (fun j => if hj : j < k then g ⟨j, hj⟩ else 0) k (fun j hj => by rw [dif_pos hj]; exact h ⟨j, hj⟩), Finset.sum_range]
  simp

/-- An out-of-bounds read inside the loop range makes the loop fault. -/
theorem sumLoop_none {K : Type} [Add K] (f : Nat → Option K) (k i j : Nat) (acc : K) (h1 : i ≤ j) (h2 : j < i + k) (h : f j = none) :
    sumLoop f k i acc = none := by
  induction k generalizing i acc with
  | zero => omega
  | succ k ih =>
    rw [sumLoop]
    by_cases hij : i = j
    · subst hij; rw [h]; rfl
    · cases f i with
      | none => rfl
      | some v => exact ih (i+1) _ (by omega) (by omega)

/-- Entry of a matrix flattened row by row. -/
theorem flatten_entry {K : Type} (W : List (List K)) (m : Nat) (h : ∀ r ∈ W, r.length = m) (i o : Nat) (ho : o < m) :
    W.flatten[i * m + o]? = W[i]?.bind (fun r => r[o]?) := by
  induction W generalizing i with
  | nil => simp
  | cons r W ih =>
    have hr : r.length = m := h r (by simp)
    rw [List.flatten_cons]
    cases i with
    | zero => simp; rw [List.getElem?_append_left (by omega)]
    | succ i =>
      rw [List.getElem?_append_right (by rw [Nat.succ_mul]; omega)]
      have : (i + 1) * m + o - r.length = i * m + o := by rw [Nat.succ_mul]; omega
      rw [this, ih (fun r hr => h r (by simp [hr]))]
      simp

/-- A matrix given by a function, flattened row by row: entry `(i, j)` is at `i*m + j`. -/
theorem ofFn_flatten_getElem? {K : Type} (n m : Nat) (A : Fin n → Fin m → K) (i : Fin n) (j : Fin m) :
    (List.ofFn (fun i => List.ofFn (A i))).flatten[i.1 * m + j.1]? = some (A i j) := by
  rw [flatten_entry _ m (by intro r hr; obtain ⟨k, rfl⟩ := List.mem_ofFn.1 hr; simp) _ _ j.2]
  simp

end Emlearn
