/- The standard model of floating-point arithmetic, as a specification of what C's `float` operations do on finite numbers: every operation whose exact result is in range returns a finite number and the exact
result up to a relative error `u` (plus `η` where the result can be subnormal). It is a specification of the arithmetic, not of emlearn: IEEE 754 binary32 with rounding to nearest satisfies it with `u = 2^-24`,
`η = 2^-150` and `M` the largest finite number; `Float/Binary.lean` gives an instance. Nothing is assumed about results that overflow. -/
import Mathlib.Analysis.SpecialFunctions.Exp
import Mathlib.Algebra.Order.BigOperators.Group.List
import Mathlib.Tactic.Ring
import Mathlib.Tactic.Linarith
import Mathlib.Tactic.Positivity
import Mathlib.Tactic.NormNum
namespace Emlearn.Flt

/-- A type of machine numbers: which of them are finite, and which real number these are. -/
structure Format (F : Type) where
  fin : F → Prop
  val : F → ℝ

/-- The accuracy of an arithmetic: relative error, absolute error of results that may be subnormal, largest finite magnitude. -/
structure Accuracy where
  u : ℝ
  η : ℝ
  M : ℝ
  hu : 0 ≤ u
  hη : 0 ≤ η

variable {F : Type} (R : Format F) (P : Accuracy)

/-- Rounded addition. The sum of two floats is never inexact and subnormal at the same time, so there is no absolute error. -/
def AddOk (add : F → F → F) : Prop := ∀ a b, R.fin a → R.fin b → |R.val a + R.val b| ≤ P.M →
  R.fin (add a b) ∧ |R.val (add a b) - (R.val a + R.val b)| ≤ P.u * |R.val a + R.val b|

/-- Rounded subtraction. -/
def SubOk (sub : F → F → F) : Prop := ∀ a b, R.fin a → R.fin b → |R.val a - R.val b| ≤ P.M →
  R.fin (sub a b) ∧ |R.val (sub a b) - (R.val a - R.val b)| ≤ P.u * |R.val a - R.val b|

/-- Rounded multiplication. -/
def MulOk (mul : F → F → F) : Prop := ∀ a b, R.fin a → R.fin b → |R.val a * R.val b| ≤ P.M →
  R.fin (mul a b) ∧ |R.val (mul a b) - R.val a * R.val b| ≤ P.u * |R.val a * R.val b| + P.η

/-- Rounded division. -/
def DivOk (div : F → F → F) : Prop := ∀ a b, R.fin a → R.fin b → R.val b ≠ 0 → |R.val a / R.val b| ≤ P.M →
  R.fin (div a b) ∧ |R.val (div a b) - R.val a / R.val b| ≤ P.u * |R.val a / R.val b| + P.η

/-- A machine number stands for a real number up to `δ`. -/
def Close (δ : ℝ) (a : F) (r : ℝ) : Prop := R.fin a ∧ |R.val a - r| ≤ δ

theorem Close.mono {R : Format F} {δ δ' : ℝ} {a : F} {r : ℝ} (h : Close R δ a r) (hd : δ ≤ δ') : Close R δ' a r := ⟨h.1, h.2.trans hd⟩

theorem Close.abs_le {R : Format F} {δ : ℝ} {a : F} {r : ℝ} (h : Close R δ a r) : |R.val a| ≤ |r| + δ := by
  have := abs_sub_abs_le_abs_sub (R.val a) r
  have := h.2
  linarith

variable {R P}

theorem one_le_pow_u (k : Nat) : 1 ≤ (1 + P.u) ^ k := one_le_pow₀ (by have := P.hu; linarith)

theorem pow_u_mono {j k : Nat} (h : j ≤ k) : (1 + P.u) ^ j ≤ (1 + P.u) ^ k := pow_le_pow_right₀ (by have := P.hu; linarith) h

theorem pow_u_pos (k : Nat) : 0 < (1 + P.u) ^ k := lt_of_lt_of_le one_pos (one_le_pow_u k)

/-- The sum of absolute values. -/
def absSum (l : List ℝ) : ℝ := (l.map abs).sum

theorem absSum_nonneg (l : List ℝ) : 0 ≤ absSum l := List.sum_nonneg (by simp)

theorem absSum_cons (a : ℝ) (l : List ℝ) : absSum (a :: l) = |a| + absSum l := by simp [absSum]

theorem abs_sum_le : ∀ l : List ℝ, |l.sum| ≤ absSum l
  | [] => by simp [absSum]
  | a :: l => by rw [List.sum_cons, absSum_cons]; exact (abs_add_le _ _).trans (by have := abs_sum_le l; linarith)

/-- One rounded addition, given the errors of its arguments. -/
theorem add_error {add : F → F → F} (h : AddOk R P add) {s t : F} {S T A B e d : ℝ} (hs : Close R e s S) (ht : Close R d t T) (hS : |S| ≤ A) (hT : |T| ≤ B) (hM : A + B + e + d ≤ P.M) :
    Close R ((1 + P.u) * (e + d) + P.u * (A + B)) (add s t) (S + T) := by
  have h1 : |R.val s + R.val t - (S + T)| ≤ e + d := by
    have e1 : R.val s + R.val t - (S + T) = (R.val s - S) + (R.val t - T) := by ring
    rw [e1]
    exact (abs_add_le _ _).trans (add_le_add hs.2 ht.2)
  have h2 : |S + T| ≤ A + B := (abs_add_le _ _).trans (add_le_add hS hT)
  have h3 : |R.val s + R.val t| ≤ A + B + (e + d) := by
    have := abs_sub_abs_le_abs_sub (R.val s + R.val t) (S + T)
    linarith
  obtain ⟨f, hf⟩ := h s t hs.1 ht.1 (h3.trans (by linarith))
  refine ⟨f, ?_⟩
  have e2 : R.val (add s t) - (S + T) = (R.val (add s t) - (R.val s + R.val t)) + (R.val s + R.val t - (S + T)) := by ring
  rw [e2]
  refine (abs_add_le _ _).trans ?_
  have := mul_le_mul_of_nonneg_left h3 P.hu
  nlinarith [hf, h1]

/-- **Sums.** Adding numbers one after the other: the terms have relative error `(1+u)^q - 1` and absolute error `η`; the sum's error is relative to the sum of the absolute values. -/
theorem foldl_add_error {add : F → F → F} (h : AddOk R P add) (q : Nat) : ∀ (l : List (F × ℝ)) (s : F) (k : Nat) (S A : ℝ), |S| ≤ A → Close R (((1 + P.u) ^ (k + q) - 1) * A + (1 + P.u) ^ k * (k * P.η)) s S →
    (∀ p ∈ l, Close R (((1 + P.u) ^ q - 1) * |p.2| + P.η) p.1 p.2) →
    (1 + P.u) ^ (k + l.length + q) * (A + absSum (l.map Prod.snd)) + (1 + P.u) ^ (k + l.length) * ((k + l.length : Nat) * P.η) ≤ P.M →
    Close R (((1 + P.u) ^ (k + l.length + q) - 1) * (A + absSum (l.map Prod.snd)) + (1 + P.u) ^ (k + l.length) * ((k + l.length : Nat) * P.η))
      ((l.map Prod.fst).foldl add s) (S + (l.map Prod.snd).sum)
  | [], s, k, S, A, _, hs, _, _ => by simpa [absSum] using hs
  | (t, r) :: l, s, k, S, A, hS, hs, hl, hM => by
    have hA : 0 ≤ A := (abs_nonneg _).trans hS
    have ht := hl (t, r) (by simp)
    simp only at ht
    have hu := P.hu
    have hη := P.hη
    have hB := absSum_nonneg (l.map Prod.snd)
    have hr := abs_nonneg r
    have e1 : k + (l.length + 1) = (k + 1) + l.length := by omega
    simp only [List.length_cons, List.map_cons, absSum_cons, List.foldl_cons, List.sum_cons] at hM ⊢
    rw [e1] at hM ⊢
    have p1 : (1 + P.u) ^ (k + q) ≤ (1 + P.u) ^ (k + 1 + l.length + q) := pow_u_mono (by omega)
    have p2 : (1 + P.u) ^ q ≤ (1 + P.u) ^ (k + 1 + l.length + q) := pow_u_mono (by omega)
    have p3 : (1 + P.u) ^ k ≤ (1 + P.u) ^ (k + 1 + l.length) := pow_u_mono (by omega)
    have p4 : 1 ≤ (1 + P.u) ^ (k + 1 + l.length) := one_le_pow_u _
    have p0 : (0 : ℝ) ≤ k := Nat.cast_nonneg k
    have hkl : ((k + 1 + l.length : Nat) : ℝ) = k + 1 + l.length := by push_cast; ring
    have pl : (0 : ℝ) ≤ l.length := Nat.cast_nonneg _
    have hstep := add_error h hs ht hS le_rfl (by
      refine le_trans ?_ hM
      have a1 := mul_le_mul_of_nonneg_right p1 hA
      have a2 := mul_le_mul_of_nonneg_right p2 hr
      have a3 := mul_le_mul_of_nonneg_right p3 (mul_nonneg p0 hη)
      have a4 := mul_le_mul_of_nonneg_right p4 hη
      have a5 : 0 ≤ (1 + P.u) ^ (k + 1 + l.length + q) * absSum (l.map Prod.snd) := mul_nonneg (pow_u_pos _).le hB
      have a6 : 0 ≤ (1 + P.u) ^ (k + 1 + l.length) * (l.length * P.η) := mul_nonneg (pow_u_pos _).le (mul_nonneg pl hη)
      rw [hkl]
      nlinarith)
    have hnext := foldl_add_error h q l (add s t) (k + 1) (S + r) (A + |r|) ((abs_add_le _ _).trans (by linarith)) (hstep.mono ?_) (fun p hp => hl p (by simp [hp])) ?_
    · rw [show S + (r + (l.map Prod.snd).sum) = S + r + (l.map Prod.snd).sum by ring, show A + (|r| + absSum (l.map Prod.snd)) = A + |r| + absSum (l.map Prod.snd) by ring]
      exact hnext
    · have b1 : (1 + P.u) ^ (k + 1 + q) = (1 + P.u) * (1 + P.u) ^ (k + q) := by rw [show k + 1 + q = (k + q) + 1 by omega, pow_succ]; ring
      have b2 : (1 + P.u) ^ (k + 1) = (1 + P.u) * (1 + P.u) ^ k := by rw [pow_succ]; ring
      have b3 : (1 + P.u) ^ q ≤ (1 + P.u) ^ (k + q) := pow_u_mono (by omega)
      have b4 := one_le_pow_u (P := P) k
      rw [b1, b2]
      push_cast
      have c1 : 0 ≤ (1 + P.u) * (((1 + P.u) ^ (k + q) - (1 + P.u) ^ q) * |r|) := mul_nonneg (by linarith) (mul_nonneg (by linarith) hr)
      have c2 : 0 ≤ (1 + P.u) * (((1 + P.u) ^ k - 1) * P.η) := mul_nonneg (by linarith) (mul_nonneg (by linarith) hη)
      nlinarith
    · rw [show A + |r| + absSum (l.map Prod.snd) = A + (|r| + absSum (l.map Prod.snd)) by ring]
      exact hM

end Emlearn.Flt
