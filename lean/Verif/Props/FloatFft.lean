/- C102: the FFT (`emlearn/eml_fft.h`) in rounded arithmetic. -/
import Verif.Props.Fft
import Verif.Float.Calc
import Verif.Float.BinaryOps
import Mathlib.Analysis.SpecialFunctions.Trigonometric.Bounds
namespace Emlearn.Flt
open Finset Fft

/-! ### Specification -/

/-- Negation is exact. -/
def NegOk {F : Type} (R : Format F) [Neg F] : Prop := ∀ a : F, R.fin a → R.fin (-a) ∧ R.val (-a) = -R.val a

/-- The complex number two machine numbers stand for. -/
def cval {F : Type} (R : Format F) (re im : F) : ℂ := ⟨R.val re, R.val im⟩

/-- The table holds the cosines and sines of the multiples of `2π/n` up to an error `τ` (in the complex plane). -/
def TableOk {F : Type} (R : Format F) (τ : ℝ) (t : Table F) (n : Nat) : Prop :=
  t.length = n / 2 ∧ ∀ i < n / 2, R.fin (t.cos i) ∧ R.fin (t.sin i) ∧ ‖cval R (t.cos i) (t.sin i) - ⟨Real.cos (2 * Real.pi * i / n), Real.sin (2 * Real.pi * i / n)⟩‖ ≤ τ

/-- The growth of the relative error in one level: two additions, the product with the rotation factor, the error of the table. -/
noncomputable def fftGrowth (P : Accuracy) (τ : ℝ) : ℝ := (1 + P.u) * ((1 + τ) * (1 + √2 * (2 * P.u + P.u ^ 2)))

/-- The error of one product with a rotation factor that is due to results that may be subnormal. -/
noncomputable def fftAbs (P : Accuracy) : ℝ := √2 * (2 * (1 + P.u) * P.η)

/-! ### One butterfly -/

section
variable {F : Type} {R : Format F} {P : Accuracy} [Zero F] [Add F] [Sub F] [Mul F] [Neg F]

omit [Neg F] in
/-- `a * c + b * d`. -/
theorem dot2_error (h : BasicArith (F := F) R P) {a b c d : F} (ha : R.fin a) (hb : R.fin b) (hc : R.fin c) (hd : R.fin d) {D : ℝ} (hD : |R.val a| * |R.val c| + |R.val b| * |R.val d| ≤ D)
    (hM : (1 + P.u) * D + 2 * P.η ≤ P.M) :
    R.fin (a * c + b * d) ∧ |R.val (a * c + b * d) - (R.val a * R.val c + R.val b * R.val d)| ≤ (2 * P.u + P.u ^ 2) * D + 2 * (1 + P.u) * P.η := by
  have hu := P.hu
  have hη := P.hη
  have x0 : 0 ≤ |R.val a| * |R.val c| := by positivity
  have y0 : 0 ≤ |R.val b| * |R.val d| := by positivity
  have e1 : |R.val a * R.val c| = |R.val a| * |R.val c| := abs_mul _ _
  have e2 : |R.val b * R.val d| = |R.val b| * |R.val d| := abs_mul _ _
  obtain ⟨f1, g1⟩ := h.mul a c ha hc (by rw [e1]; nlinarith)
  obtain ⟨f2, g2⟩ := h.mul b d hb hd (by rw [e2]; nlinarith)
  simp only at f1 g1 f2 g2
  rw [e1] at g1
  rw [e2] at g2
  have h3 : |R.val (a * c) + R.val (b * d) - (R.val a * R.val c + R.val b * R.val d)| ≤ P.u * D + 2 * P.η := by
    rw [show R.val (a * c) + R.val (b * d) - (R.val a * R.val c + R.val b * R.val d) = (R.val (a * c) - R.val a * R.val c) + (R.val (b * d) - R.val b * R.val d) by ring]
    refine (abs_add_le _ _).trans ?_
    nlinarith
  have h4 : |R.val a * R.val c + R.val b * R.val d| ≤ D := (abs_add_le _ _).trans (by rw [e1, e2]; exact hD)
  have h5 : |R.val (a * c) + R.val (b * d)| ≤ (1 + P.u) * D + 2 * P.η := by
    have := abs_sub_abs_le_abs_sub (R.val (a * c) + R.val (b * d)) (R.val a * R.val c + R.val b * R.val d)
    nlinarith
  obtain ⟨f3, g3⟩ := h.add _ _ f1 f2 (h5.trans hM)
  simp only at f3 g3
  refine ⟨f3, ?_⟩
  rw [show R.val (a * c + b * d) - (R.val a * R.val c + R.val b * R.val d) = (R.val (a * c + b * d) - (R.val (a * c) + R.val (b * d))) + (R.val (a * c) + R.val (b * d) - (R.val a * R.val c + R.val b * R.val d)) by ring]
  refine (abs_add_le _ _).trans ?_
  have := mul_le_mul_of_nonneg_left h5 hu
  nlinarith

theorem cauchy2 (a b c d : ℝ) : |a| * |c| + |b| * |d| ≤ ‖(⟨a, b⟩ : ℂ)‖ * ‖(⟨c, d⟩ : ℂ)‖ := by
  apply le_of_sq_le_sq _ (by positivity)
  rw [mul_pow, Complex.sq_norm, Complex.sq_norm, Complex.normSq_mk, Complex.normSq_mk]
  have h1 := sq_abs a
  have h2 := sq_abs b
  have h3 := sq_abs c
  have h4 := sq_abs d
  have := sq_nonneg (|a| * |d| - |b| * |c|)
  nlinarith

theorem norm_le_comp {x y K : ℝ} (hx : |x| ≤ K) (hy : |y| ≤ K) : ‖(⟨x, y⟩ : ℂ)‖ ≤ √2 * K :=
  (Complex.norm_le_sqrt_two_mul_max _).trans (mul_le_mul_of_nonneg_left (max_le hx hy) (by positivity))

/-- The rotated value. -/
theorem rot_error (h : BasicArith (F := F) R P) (hn : NegOk (F := F) R) {t : Table F} {k : Nat} {τ c s N : ℝ} {q : F × F} (hτ : 0 ≤ τ) (hc : R.fin (t.cos k)) (hs : R.fin (t.sin k))
    (ht : ‖cval R (t.cos k) (t.sin k) - ⟨c, s⟩‖ ≤ τ) (hw : ‖(⟨c, s⟩ : ℂ)‖ = 1) (hq : R.fin q.1 ∧ R.fin q.2) (hN : ‖cval R q.1 q.2‖ ≤ N)
    (hM : (1 + τ) * (1 + √2 * (2 * P.u + P.u ^ 2)) * N + fftAbs P ≤ P.M) :
    (R.fin (rot t k q).1 ∧ R.fin (rot t k q).2) ∧ ‖cval R (rot t k q).1 (rot t k q).2 - ⟨c, -s⟩ * cval R q.1 q.2‖ ≤ ((1 + τ) * (1 + √2 * (2 * P.u + P.u ^ 2)) - 1) * N + fftAbs P := by
  have hu := P.hu
  have hη := P.hη
  have hN0 : 0 ≤ N := (norm_nonneg _).trans hN
  have s2 : 1 ≤ √2 := by rw [Real.one_le_sqrt]; norm_num
  have hwn : ‖cval R (t.cos k) (t.sin k)‖ ≤ 1 + τ := by
    have := norm_sub_norm_le (cval R (t.cos k) (t.sin k)) ⟨c, s⟩
    linarith
  have hprod : ‖cval R q.1 q.2‖ * ‖cval R (t.cos k) (t.sin k)‖ ≤ N * (1 + τ) := mul_le_mul hN hwn (norm_nonneg _) hN0
  have hM' : (1 + P.u) * (N * (1 + τ)) + 2 * P.η ≤ P.M := by
    refine le_trans ?_ hM
    unfold fftAbs
    have k0 : 0 ≤ N * (1 + τ) := by positivity
    have k1 : P.u ≤ √2 * (2 * P.u + P.u ^ 2) := by nlinarith
    have k2 : 2 * P.η ≤ √2 * (2 * (1 + P.u) * P.η) := by
      have : 2 * P.η ≤ 2 * (1 + P.u) * P.η := by nlinarith
      nlinarith
    nlinarith
  obtain ⟨hn1, hn2⟩ := hn q.1 hq.1
  have sw : ‖(⟨R.val (t.sin k), R.val (t.cos k)⟩ : ℂ)‖ = ‖cval R (t.cos k) (t.sin k)‖ := by
    rw [Complex.norm_def, Complex.norm_def]
    simp [cval, Complex.normSq_mk, add_comm]
  obtain ⟨f1, g1⟩ := dot2_error h hq.1 hq.2 hc hs ((cauchy2 _ _ _ _).trans hprod) hM'
  obtain ⟨f2, g2⟩ := dot2_error (a := -q.1) h hn1 hq.2 hs hc (D := N * (1 + τ)) (by
    rw [hn2, abs_neg]
    refine (cauchy2 _ _ _ _).trans ?_
    rw [sw]; exact hprod) hM'
  refine ⟨⟨f1, f2⟩, ?_⟩
  have e : cval R (rot t k q).1 (rot t k q).2 - ⟨c, -s⟩ * cval R q.1 q.2 =
      (cval R (rot t k q).1 (rot t k q).2 - ⟨R.val q.1 * R.val (t.cos k) + R.val q.2 * R.val (t.sin k), R.val (-q.1) * R.val (t.sin k) + R.val q.2 * R.val (t.cos k)⟩) +
      (⟨R.val (t.cos k) - c, -(R.val (t.sin k) - s)⟩ : ℂ) * cval R q.1 q.2 := by
    rw [hn2]
    apply Complex.ext
    · simp [cval, rot]; ring
    · simp [cval, rot]; ring
  rw [e]
  refine (norm_add_le _ _).trans ?_
  have h1 : ‖cval R (rot t k q).1 (rot t k q).2 - ⟨R.val q.1 * R.val (t.cos k) + R.val q.2 * R.val (t.sin k), R.val (-q.1) * R.val (t.sin k) + R.val q.2 * R.val (t.cos k)⟩‖ ≤
      √2 * ((2 * P.u + P.u ^ 2) * (N * (1 + τ)) + 2 * (1 + P.u) * P.η) := norm_le_comp g1 g2
  have h2 : ‖(⟨R.val (t.cos k) - c, -(R.val (t.sin k) - s)⟩ : ℂ)‖ ≤ τ := by
    refine le_trans (le_of_eq ?_) ht
    rw [Complex.norm_def, Complex.norm_def]
    simp only [cval, Complex.normSq_apply, Complex.sub_re, Complex.sub_im]
    congr 1; ring
  have h3 : ‖(⟨R.val (t.cos k) - c, -(R.val (t.sin k) - s)⟩ : ℂ) * cval R q.1 q.2‖ ≤ τ * N := by
    rw [norm_mul]; exact mul_le_mul h2 hN (norm_nonneg _) hτ
  unfold fftAbs
  generalize √2 = r2 at *
  generalize 2 * P.u + P.u ^ 2 = v at *
  nlinarith

omit [Zero F] [Add F] [Sub F] [Mul F] [Neg F] in
/-- Rounded complex addition or subtraction. -/
theorem cadd_error {op : F → F → F} {f : ℝ → ℝ → ℝ} (h : ∀ a b, R.fin a → R.fin b → |f (R.val a) (R.val b)| ≤ P.M → R.fin (op a b) ∧ |R.val (op a b) - f (R.val a) (R.val b)| ≤ P.u * |f (R.val a) (R.val b)|)
    {p q : F × F} (hp : R.fin p.1 ∧ R.fin p.2) (hq : R.fin q.1 ∧ R.fin q.2) (hM : ‖(⟨f (R.val p.1) (R.val q.1), f (R.val p.2) (R.val q.2)⟩ : ℂ)‖ ≤ P.M) :
    (R.fin (op p.1 q.1) ∧ R.fin (op p.2 q.2)) ∧ ‖cval R (op p.1 q.1) (op p.2 q.2) - ⟨f (R.val p.1) (R.val q.1), f (R.val p.2) (R.val q.2)⟩‖ ≤
      P.u * ‖(⟨f (R.val p.1) (R.val q.1), f (R.val p.2) (R.val q.2)⟩ : ℂ)‖ := by
  obtain ⟨f1, g1⟩ := h p.1 q.1 hp.1 hq.1 ((Complex.abs_re_le_norm (⟨f (R.val p.1) (R.val q.1), f (R.val p.2) (R.val q.2)⟩ : ℂ)).trans hM)
  obtain ⟨f2, g2⟩ := h p.2 q.2 hp.2 hq.2 ((Complex.abs_im_le_norm (⟨f (R.val p.1) (R.val q.1), f (R.val p.2) (R.val q.2)⟩ : ℂ)).trans hM)
  refine ⟨⟨f1, f2⟩, ?_⟩
  apply le_of_sq_le_sq _ (mul_nonneg P.hu (norm_nonneg _))
  rw [mul_pow, Complex.sq_norm, Complex.sq_norm, Complex.normSq_mk, Complex.normSq_apply]
  have h1 := mul_self_le_mul_self (abs_nonneg _) g1
  have h2 := mul_self_le_mul_self (abs_nonneg _) g2
  rw [abs_mul_abs_self] at h1 h2
  have e1 : P.u * |f (R.val p.1) (R.val q.1)| * (P.u * |f (R.val p.1) (R.val q.1)|) = P.u ^ 2 * (f (R.val p.1) (R.val q.1) * f (R.val p.1) (R.val q.1)) := by
    rw [← abs_mul_abs_self (f (R.val p.1) (R.val q.1))]; ring
  have e2 : P.u * |f (R.val p.2) (R.val q.2)| * (P.u * |f (R.val p.2) (R.val q.2)|) = P.u ^ 2 * (f (R.val p.2) (R.val q.2) * f (R.val p.2) (R.val q.2)) := by
    rw [← abs_mul_abs_self (f (R.val p.2) (R.val q.2))]; ring
  simp only [cval, Complex.sub_re, Complex.sub_im]
  rw [e1] at h1
  rw [e2] at h2
  nlinarith

/-- One butterfly: both results. -/
theorem butterfly_error (h : BasicArith (F := F) R P) (hn : NegOk (F := F) R) {t : Table F} {k : Nat} {τ c s : ℝ} (hτ : 0 ≤ τ) (hc : R.fin (t.cos k)) (hs : R.fin (t.sin k))
    (ht : ‖cval R (t.cos k) (t.sin k) - ⟨c, s⟩‖ ≤ τ) (hw : ‖(⟨c, s⟩ : ℂ)‖ = 1) {p q : F × F} {x y : ℂ} {A B K α : ℝ} (hK : 1 ≤ K) (hα : 0 ≤ α) (hp : R.fin p.1 ∧ R.fin p.2) (hq : R.fin q.1 ∧ R.fin q.2)
    (hx : ‖x‖ ≤ A) (hy : ‖y‖ ≤ B) (ep : ‖cval R p.1 p.2 - x‖ ≤ (K - 1) * A + α) (eq : ‖cval R q.1 q.2 - y‖ ≤ (K - 1) * B + α)
    (hM : fftGrowth P τ * K * (A + B) + fftGrowth P τ * (2 * α + fftAbs P) ≤ P.M) :
    ((R.fin (p.1 + (rot t k q).1) ∧ R.fin (p.2 + (rot t k q).2)) ∧
      ‖cval R (p.1 + (rot t k q).1) (p.2 + (rot t k q).2) - (x + ⟨c, -s⟩ * y)‖ ≤ (fftGrowth P τ * K - 1) * (A + B) + fftGrowth P τ * (2 * α + fftAbs P)) ∧
    ((R.fin (p.1 - (rot t k q).1) ∧ R.fin (p.2 - (rot t k q).2)) ∧
      ‖cval R (p.1 - (rot t k q).1) (p.2 - (rot t k q).2) - (x - ⟨c, -s⟩ * y)‖ ≤ (fftGrowth P τ * K - 1) * (A + B) + fftGrowth P τ * (2 * α + fftAbs P)) := by
  have hu := P.hu
  have hη := P.hη
  have hA : 0 ≤ A := (norm_nonneg _).trans hx
  have hB : 0 ≤ B := (norm_nonneg _).trans hy
  have hκ : 0 ≤ fftAbs P := by unfold fftAbs; positivity
  obtain ⟨θ, hθ, hg⟩ : ∃ θ, (1 + τ) * (1 + √2 * (2 * P.u + P.u ^ 2)) = θ ∧ fftGrowth P τ = (1 + P.u) * θ := ⟨_, rfl, rfl⟩
  have hθ1 : 1 ≤ θ := by
    rw [← hθ]
    have : 0 ≤ √2 * (2 * P.u + P.u ^ 2) := by positivity
    nlinarith
  rw [hg] at hM ⊢
  have np : ‖cval R p.1 p.2‖ ≤ K * A + α := by
    have := norm_sub_norm_le (cval R p.1 p.2) x
    linarith
  have nq : ‖cval R q.1 q.2‖ ≤ K * B + α := by
    have := norm_sub_norm_le (cval R q.1 q.2) y
    linarith
  obtain ⟨κ, hκe⟩ : ∃ κ, fftAbs P = κ := ⟨_, rfl⟩
  rw [hκe] at hM hκ ⊢
  have bound : K * A + α + (θ * (K * B + α) + κ) ≤ (1 + P.u) * θ * K * (A + B) + (1 + P.u) * θ * (2 * α + κ) := by
    have k1 : 0 ≤ K * A := by positivity
    have k2 : 0 ≤ K * B := by positivity
    have k3 : 1 ≤ (1 + P.u) * θ := by nlinarith
    have k4 : θ ≤ (1 + P.u) * θ := by nlinarith
    have m1 := mul_le_mul_of_nonneg_right k3 k1
    have m2 := mul_le_mul_of_nonneg_right k4 k2
    have m3 := mul_le_mul_of_nonneg_right k3 hα
    have m4 := mul_le_mul_of_nonneg_right k4 hα
    have m5 := mul_le_mul_of_nonneg_right k3 hκ
    linarith
  have hKA : 0 ≤ K * A + α := by positivity
  obtain ⟨fr, er⟩ := rot_error h hn hτ hc hs ht hw hq nq (by rw [hθ, hκe]; linarith)
  rw [hθ, hκe] at er
  have hw' : ‖(⟨c, -s⟩ : ℂ)‖ = 1 := by
    rw [← hw, Complex.norm_def, Complex.norm_def]; simp [Complex.normSq_mk]
  have nr : ‖cval R (rot t k q).1 (rot t k q).2‖ ≤ θ * (K * B + α) + κ := by
    have h1 := norm_sub_norm_le (cval R (rot t k q).1 (rot t k q).2) (⟨c, -s⟩ * cval R q.1 q.2)
    have h2 : ‖(⟨c, -s⟩ : ℂ) * cval R q.1 q.2‖ ≤ K * B + α := by rw [norm_mul, hw', one_mul]; exact nq
    linarith
  have ey : ‖cval R (rot t k q).1 (rot t k q).2 - ⟨c, -s⟩ * y‖ ≤ (θ - 1) * (K * B + α) + κ + ((K - 1) * B + α) := by
    have h1 : ‖(⟨c, -s⟩ : ℂ) * cval R q.1 q.2 - ⟨c, -s⟩ * y‖ ≤ (K - 1) * B + α := by rw [← mul_sub, norm_mul, hw', one_mul]; exact eq
    rw [show cval R (rot t k q).1 (rot t k q).2 - ⟨c, -s⟩ * y = (cval R (rot t k q).1 (rot t k q).2 - ⟨c, -s⟩ * cval R q.1 q.2) + ((⟨c, -s⟩ : ℂ) * cval R q.1 q.2 - ⟨c, -s⟩ * y) by ring]
    exact (norm_add_le _ _).trans (add_le_add er h1)
  have fin : ∀ e N : ℝ, e ≤ P.u * N → N ≤ K * A + α + (θ * (K * B + α) + κ) → e + (((K - 1) * A + α) + ((θ - 1) * (K * B + α) + κ + ((K - 1) * B + α))) ≤
      ((1 + P.u) * θ * K - 1) * (A + B) + (1 + P.u) * θ * (2 * α + κ) := by
    intro e N he hN
    have h1 := mul_le_mul_of_nonneg_left hN hu
    have k1 : 0 ≤ K * A := by positivity
    have k3 : 1 + P.u ≤ (1 + P.u) * θ := by nlinarith
    have m1 := mul_le_mul_of_nonneg_right k3 k1
    have m3 := mul_le_mul_of_nonneg_right k3 hα
    have m5 := mul_le_mul_of_nonneg_right k3 hκ
    linarith
  generalize hr : rot t k q = r at *
  constructor
  · have nsum : ‖(⟨R.val p.1 + R.val r.1, R.val p.2 + R.val r.2⟩ : ℂ)‖ ≤ K * A + α + (θ * (K * B + α) + κ) := by
      rw [show (⟨R.val p.1 + R.val r.1, R.val p.2 + R.val r.2⟩ : ℂ) = cval R p.1 p.2 + cval R r.1 r.2 from rfl]
      exact (norm_add_le _ _).trans (add_le_add np nr)
    obtain ⟨f, g⟩ := cadd_error (op := (· + ·)) (f := fun a b => a + b) (p := p) (q := r) h.add hp fr (nsum.trans (bound.trans hM))
    refine ⟨f, le_trans ?_ (fin _ _ g nsum)⟩
    have e : cval R (p.1 + r.1) (p.2 + r.2) - (x + ⟨c, -s⟩ * y) =
        (cval R (p.1 + r.1) (p.2 + r.2) - (⟨R.val p.1 + R.val r.1, R.val p.2 + R.val r.2⟩ : ℂ)) + ((cval R p.1 p.2 - x) + (cval R r.1 r.2 - ⟨c, -s⟩ * y)) := by
      rw [show (⟨R.val p.1 + R.val r.1, R.val p.2 + R.val r.2⟩ : ℂ) = cval R p.1 p.2 + cval R r.1 r.2 from rfl]
      ring
    rw [e]
    exact (norm_add_le _ _).trans (add_le_add le_rfl ((norm_add_le _ _).trans (add_le_add ep ey)))
  · have nsum : ‖(⟨R.val p.1 - R.val r.1, R.val p.2 - R.val r.2⟩ : ℂ)‖ ≤ K * A + α + (θ * (K * B + α) + κ) := by
      rw [show (⟨R.val p.1 - R.val r.1, R.val p.2 - R.val r.2⟩ : ℂ) = cval R p.1 p.2 - cval R r.1 r.2 from rfl]
      exact (norm_sub_le _ _).trans (add_le_add np nr)
    obtain ⟨f, g⟩ := cadd_error (op := (· - ·)) (f := fun a b => a - b) (p := p) (q := r) h.sub hp fr (nsum.trans (bound.trans hM))
    refine ⟨f, le_trans ?_ (fin _ _ g nsum)⟩
    have e : cval R (p.1 - r.1) (p.2 - r.2) - (x - ⟨c, -s⟩ * y) =
        (cval R (p.1 - r.1) (p.2 - r.2) - (⟨R.val p.1 - R.val r.1, R.val p.2 - R.val r.2⟩ : ℂ)) + ((cval R p.1 p.2 - x) - (cval R r.1 r.2 - ⟨c, -s⟩ * y)) := by
      rw [show (⟨R.val p.1 - R.val r.1, R.val p.2 - R.val r.2⟩ : ℂ) = cval R p.1 p.2 - cval R r.1 r.2 from rfl]
      ring
    rw [e]
    exact (norm_add_le _ _).trans (add_le_add le_rfl ((norm_sub_le _ _).trans (add_le_add ep ey)))

/-! ### All levels -/

/-- The sum of the magnitudes of the inputs that block `c` depends on after `m` levels, `r` more to come. -/
noncomputable def blockSum (x : Nat → ℂ) (m r c : Nat) : ℝ := ∑ t ∈ range (2 ^ m), ‖x (reverseBits c r + 2 ^ r * t)‖

theorem blockSum_nonneg (x : Nat → ℂ) (m r c : Nat) : 0 ≤ blockSum x m r c := sum_nonneg fun _ _ => norm_nonneg _

theorem blockSum_succ (x : Nat → ℂ) (m r c : Nat) : blockSum x (m + 1) r c = blockSum x m (r + 1) (2 * c) + blockSum x m (r + 1) (2 * c + 1) := by
  have r0 : reverseBits (2 * c) (r + 1) = reverseBits c r := by rw [rev_succ]; simp
  have r1 : reverseBits (2 * c + 1) (r + 1) = 2 ^ r + reverseBits c r := by
    rw [rev_succ, show (2 * c + 1) / 2 = c by omega, show (2 * c + 1) % 2 = 1 by omega]; ring
  unfold blockSum
  rw [r0, r1, show 2 ^ (m + 1) = 2 * 2 ^ m by rw [Nat.pow_succ]; ring, sum_even_odd]
  congr 1
  · refine sum_congr rfl fun t _ => ?_
    rw [show reverseBits c r + 2 ^ r * (2 * t) = reverseBits c r + 2 ^ (r + 1) * t by rw [Nat.pow_succ]; ring]
  · refine sum_congr rfl fun t _ => ?_
    rw [show reverseBits c r + 2 ^ r * (2 * t + 1) = 2 ^ r + reverseBits c r + 2 ^ (r + 1) * t by rw [Nat.pow_succ]; ring]

theorem blockSum_total (x : Nat → ℂ) (L : Nat) : ∀ (r m c : Nat), m + r = L → c < 2 ^ r → blockSum x m r c ≤ ∑ t ∈ range (2 ^ L), ‖x t‖
  | 0, m, c, hm, hc => by
    obtain rfl : m = L := by omega
    obtain rfl : c = 0 := by simpa using hc
    unfold blockSum
    simp [reverseBits, revLoop]
  | r + 1, m, c, hm, hc => by
    have hb : c / 2 < 2 ^ r := by rw [Nat.pow_succ] at hc; omega
    refine le_trans ?_ (blockSum_total x L r (m + 1) (c / 2) (by omega) hb)
    rw [blockSum_succ]
    have h0 := blockSum_nonneg x m (r + 1) (2 * (c / 2))
    have h1 := blockSum_nonneg x m (r + 1) (2 * (c / 2) + 1)
    rcases Nat.mod_two_eq_zero_or_one c with h | h
    · rw [show 2 * (c / 2) = c by omega] at h0 h1 ⊢
      linarith
    · rw [show 2 * (c / 2) + 1 = c by omega] at h1 ⊢
      linarith

theorem norm_e (θ : ℝ) : ‖e (θ : ℂ)‖ = 1 := by
  rw [e_real, Complex.norm_def, Complex.normSq_mk]
  have := Real.cos_sq_add_sin_sq (2 * Real.pi * θ)
  rw [show Real.cos (2 * Real.pi * θ) * Real.cos (2 * Real.pi * θ) + -Real.sin (2 * Real.pi * θ) * -Real.sin (2 * Real.pi * θ) = 1 by nlinarith, Real.sqrt_one]

theorem norm_G (x : Nat → ℂ) (m r i : Nat) : ‖G x m r i‖ ≤ blockSum x m r (i / 2 ^ m) := by
  unfold G blockSum
  refine (norm_sum_le _ _).trans (sum_le_sum fun t _ => ?_)
  rw [norm_mul, show (((i % 2 ^ m : Nat) : ℂ) * (t : ℂ)) / ((2 ^ m : Nat) : ℂ) = ((((i % 2 ^ m : Nat) * t : ℝ) / ((2 ^ m : Nat) : ℝ) : ℝ) : ℂ) by push_cast; rfl, norm_e, mul_one]

variable (R P) in
omit [Zero F] [Add F] [Sub F] [Mul F] [Neg F] in
/-- What holds after `m` levels. -/
def Level (τ : ℝ) (x : Nat → ℂ) (L m : Nat) (a : Nat → F × F) : Prop :=
  ∀ r, m + r = L → ∀ i < 2 ^ L, (R.fin (a i).1 ∧ R.fin (a i).2) ∧
    ‖cval R (a i).1 (a i).2 - G x m r i‖ ≤ (fftGrowth P τ ^ m - 1) * blockSum x m r (i / 2 ^ m) + fftAbs P * fftGrowth P τ ^ m * (2 ^ m - 1)

theorem one_le_growth {τ : ℝ} (hτ : 0 ≤ τ) : 1 ≤ fftGrowth P τ := by
  have hu := P.hu
  unfold fftGrowth
  have h1 : 0 ≤ √2 * (2 * P.u + P.u ^ 2) := by positivity
  have h2 : 1 ≤ (1 + τ) * (1 + √2 * (2 * P.u + P.u ^ 2)) := by nlinarith
  nlinarith

theorem level_step (h : BasicArith (F := F) R P) (hn : NegOk (F := F) R) {t : Table F} {τ : ℝ} (hτ : 0 ≤ τ) {L : Nat} (ht : TableOk R τ t (2 ^ L)) (x : Nat → ℂ)
    (hM : fftGrowth P τ ^ L * ∑ t ∈ range (2 ^ L), ‖x t‖ + fftAbs P * fftGrowth P τ ^ L * 2 ^ L ≤ P.M) (m r : Nat) (a : Nat → F × F) (hr : m + 1 + r = L) (ha : Level R P τ x L m a) :
    Level R P τ x L (m + 1) (bfG t (2 ^ r) (2 ^ m) a) := by
  intro r' hr' i hi
  obtain rfl : r' = r := by omega
  have hg := one_le_growth (P := P) hτ
  have hκ : 0 ≤ fftAbs P := by have := P.hu; have := P.hη; unfold fftAbs; positivity
  obtain ⟨b1, b2⟩ := bf_index hr hi
  have hpow : 2 ^ (m + 1) = 2 * 2 ^ m := by rw [Nat.pow_succ]; ring
  have hs : 0 < 2 ^ m := Nat.two_pow_pos m
  have hsp := Nat.div_add_mod i (2 * 2 ^ m)
  have hml : i % (2 * 2 ^ m) < 2 * 2 ^ m := Nat.mod_lt _ (by positivity)
  have hdiv : ∀ j c p : Nat, j = 2 ^ m * c + p → p < 2 ^ m → j / 2 ^ m = c := by
    intro j c p hj hp
    rw [hj, Nat.mul_add_div hs, Nat.div_eq_of_lt hp]; rfl
  set c := i / (2 * 2 ^ m) with hcdef
  have hc : c < 2 ^ r' := by
    apply Nat.div_lt_of_lt_mul
    rw [← hpow, ← Nat.pow_add, hr]; exact hi
  -- the exact table
  have hfilled : Filled ⟨2 ^ L / 2, fun i => Real.sin (2 * Real.pi * i / (2 ^ L : Nat)), fun i => Real.cos (2 * Real.pi * i / (2 ^ L : Nat))⟩ (2 ^ L) := ⟨rfl, fun i _ => ⟨rfl, rfl⟩⟩
  have hunit : ∀ θ : ℝ, ‖(⟨Real.cos θ, Real.sin θ⟩ : ℂ)‖ = 1 := by
    intro θ
    rw [Complex.norm_def, Complex.normSq_mk]
    have := Real.cos_sq_add_sin_sq θ
    rw [show Real.cos θ * Real.cos θ + Real.sin θ * Real.sin θ = 1 by nlinarith, Real.sqrt_one]
  have hα : 0 ≤ fftAbs P * fftGrowth P τ ^ m * (2 ^ m - 1) := by
    have : (1 : ℝ) ≤ 2 ^ m := one_le_pow₀ (by norm_num)
    have : 0 ≤ fftGrowth P τ ^ m := by positivity
    refine mul_nonneg (by positivity) (by linarith)
  have hK : 1 ≤ fftGrowth P τ ^ m := one_le_pow₀ hg
  -- the bounds of the next level
  have hbs := blockSum_succ x m r' c
  have eK : fftGrowth P τ * fftGrowth P τ ^ m = fftGrowth P τ ^ (m + 1) := by rw [pow_succ]; ring
  have eα : fftGrowth P τ * (2 * (fftAbs P * fftGrowth P τ ^ m * (2 ^ m - 1)) + fftAbs P) ≤ fftAbs P * fftGrowth P τ ^ (m + 1) * (2 ^ (m + 1) - 1) := by
    rw [← eK, pow_succ (2 : ℝ) m]
    have h1 : 0 ≤ fftGrowth P τ * fftAbs P := by positivity
    have h2 := mul_le_mul_of_nonneg_left hK h1
    nlinarith
  have hM' : fftGrowth P τ * fftGrowth P τ ^ m * (blockSum x m (r' + 1) (2 * c) + blockSum x m (r' + 1) (2 * c + 1)) + fftGrowth P τ * (2 * (fftAbs P * fftGrowth P τ ^ m * (2 ^ m - 1)) + fftAbs P) ≤ P.M := by
    rw [← hbs, eK]
    have h1 := blockSum_total x L r' (m + 1) c (by omega) hc
    have h2 : fftGrowth P τ ^ (m + 1) ≤ fftGrowth P τ ^ L := pow_le_pow_right₀ hg (by omega)
    have h3 : (2 : ℝ) ^ (m + 1) ≤ 2 ^ L := pow_le_pow_right₀ (by norm_num) (by omega)
    have h4 := mul_le_mul h2 h1 (blockSum_nonneg _ _ _ _) (by positivity)
    have h5 : fftAbs P * fftGrowth P τ ^ (m + 1) * (2 ^ (m + 1) - 1) ≤ fftAbs P * fftGrowth P τ ^ L * 2 ^ L := by
      have h6 := mul_le_mul_of_nonneg_left h2 hκ
      have h7 : (0 : ℝ) ≤ 2 ^ (m + 1) - 1 := by
        have : (1 : ℝ) ≤ 2 ^ (m + 1) := one_le_pow₀ (by norm_num)
        linarith
      exact mul_le_mul h6 (by linarith) h7 (by positivity)
    linarith
  have fin : ∀ (w : F × F) (y : ℂ), ((R.fin w.1 ∧ R.fin w.2) ∧ ‖cval R w.1 w.2 - y‖ ≤ (fftGrowth P τ * fftGrowth P τ ^ m - 1) * (blockSum x m (r' + 1) (2 * c) + blockSum x m (r' + 1) (2 * c + 1)) +
      fftGrowth P τ * (2 * (fftAbs P * fftGrowth P τ ^ m * (2 ^ m - 1)) + fftAbs P)) →
      (R.fin w.1 ∧ R.fin w.2) ∧ ‖cval R w.1 w.2 - y‖ ≤ (fftGrowth P τ ^ (m + 1) - 1) * blockSum x (m + 1) r' c + fftAbs P * fftGrowth P τ ^ (m + 1) * (2 ^ (m + 1) - 1) := by
    intro w y hw
    refine ⟨hw.1, hw.2.trans ?_⟩
    rw [hbs, eK]
    linarith
  have hi1 : i / 2 ^ (m + 1) = c := by rw [hpow]
  rw [hi1, ← G_step]
  unfold bf bfG
  by_cases hlt : i % (2 * 2 ^ m) < 2 ^ m
  · rw [if_pos hlt, if_pos hlt]
    obtain ⟨tw, hk⟩ := filled_twiddle hr hfilled _ hlt
    obtain ⟨fc, fs, te⟩ := ht.2 _ hk
    obtain ⟨fp, ep⟩ := ha (r' + 1) (by omega) i hi
    obtain ⟨fq, eq⟩ := ha (r' + 1) (by omega) (i + 2 ^ m) (b1 hlt)
    have d1 : i / 2 ^ m = 2 * c := hdiv i (2 * c) (i % (2 * 2 ^ m)) (by rw [← hsp]; rw [hsp]; nlinarith) hlt
    have d2 : (i + 2 ^ m) / 2 ^ m = 2 * c + 1 := hdiv (i + 2 ^ m) (2 * c + 1) (i % (2 * 2 ^ m)) (by nlinarith) hlt
    rw [tw]
    have n1 := norm_G x m (r' + 1) i
    have n2 := norm_G x m (r' + 1) (i + 2 ^ m)
    rw [d1] at ep n1
    rw [d2] at eq n2
    exact fin _ _ (butterfly_error h hn hτ fc fs te (hunit _) hK hα fp fq n1 n2 ep eq hM').1
  · rw [if_neg hlt, if_neg hlt]
    obtain ⟨tw, hk⟩ := filled_twiddle hr hfilled (i % (2 * 2 ^ m) - 2 ^ m) (by omega)
    obtain ⟨fc, fs, te⟩ := ht.2 _ hk
    obtain ⟨fp, ep⟩ := ha (r' + 1) (by omega) (i - 2 ^ m) (b2 hlt)
    obtain ⟨fq, eq⟩ := ha (r' + 1) (by omega) i hi
    obtain ⟨p, hp⟩ : ∃ p, i % (2 * 2 ^ m) = 2 ^ m + p := ⟨i % (2 * 2 ^ m) - 2 ^ m, by omega⟩
    have hi2 : i = 2 ^ m * (2 * c + 1) + p := by nlinarith
    have d1 : (i - 2 ^ m) / 2 ^ m = 2 * c := hdiv _ (2 * c) p (by rw [hi2, Nat.mul_add, Nat.mul_one]; omega) (by omega)
    have d2 : i / 2 ^ m = 2 * c + 1 := hdiv i (2 * c + 1) p hi2 (by omega)
    rw [tw]
    have n1 := norm_G x m (r' + 1) (i - 2 ^ m)
    have n2 := norm_G x m (r' + 1) i
    rw [d1] at ep n1
    rw [d2] at eq n2
    exact fin _ _ (butterfly_error h hn hτ fc fs te (hunit _) hK hα fp fq n1 n2 ep eq hM').2

/-- **C102.** The FFT in rounded arithmetic: for every size, table and input whose sum of magnitudes leaves room below the largest finite number, every output is finite and within
`((g^L - 1) Σ|x| + tiny)` of the exact discrete Fourier transform, where `g = (1 + u) (1 + τ) (1 + √2 (2u + u²))` collects one addition, the error of the table and the product with a rotation factor. -/
theorem C102_fft (h : BasicArith (F := F) R P) (hn : NegOk (F := F) R) (L : Nat) (hL : L < 32) (τ : ℝ) (hτ : 0 ≤ τ) (t : Table F) (ht : TableOk R τ t (2 ^ L)) (b : Buf F) (hb : b.len = 2 ^ L)
    (hfin : ∀ i < 2 ^ L, R.fin (b.re i) ∧ R.fin (b.im i))
    (hM : fftGrowth P τ ^ L * ∑ i ∈ range (2 ^ L), ‖cval R (b.re i) (b.im i)‖ + fftAbs P * fftGrowth P τ ^ L * 2 ^ L ≤ P.M) :
    ∃ b', forward t b (2 ^ L) = some (.ok, b') ∧ b'.len = 2 ^ L ∧ ∀ k < 2 ^ L, R.fin (b'.re k) ∧ R.fin (b'.im k) ∧
      ‖cval R (b'.re k) (b'.im k) - dft (2 ^ L) (fun i => cval R (b.re i) (b.im i)) k‖ ≤
        (fftGrowth P τ ^ L - 1) * ∑ i ∈ range (2 ^ L), ‖cval R (b.re i) (b.im i)‖ + fftAbs P * fftGrowth P τ ^ L * (2 ^ L - 1) := by
  obtain ⟨b', h1, h2, h3⟩ := forward_inv t L hL ht.1 b hb (Level R P τ (fun i => cval R (b.re i) (b.im i)) L)
    (fun m a a' hq he r hr i hi => by rw [he i hi]; exact hq r hr i hi)
    (fun m r a hr ha => level_step h hn hτ ht _ hM m r a hr ha)
    (fun r hr i hi => by
      obtain rfl : r = L := by omega
      refine ⟨hfin _ (rev_lt r i), ?_⟩
      simp [G, e, Nat.mod_one, pt])
  refine ⟨b', h1, h2, fun k hk => ?_⟩
  obtain ⟨⟨f1, f2⟩, f3⟩ := h3 0 rfl k hk
  refine ⟨f1, f2, ?_⟩
  have eG : G (fun i => cval R (b.re i) (b.im i)) L 0 k = dft (2 ^ L) (fun i => cval R (b.re i) (b.im i)) k := by
    unfold G dft
    refine sum_congr rfl fun s _ => ?_
    rw [Nat.mod_eq_of_lt hk]
    congr 1
    · simp [reverseBits, revLoop]
    · unfold e; congr 1; push_cast; ring
  have eS : blockSum (fun i => cval R (b.re i) (b.im i)) L 0 (k / 2 ^ L) = ∑ i ∈ range (2 ^ L), ‖cval R (b.re i) (b.im i)‖ := by
    unfold blockSum
    rw [Nat.div_eq_of_lt hk]
    simp [reverseBits, revLoop]
  rw [eG, eS] at f3
  exact f3

omit [Zero F] [Add F] [Sub F] [Mul F] [Neg F] in
/-- **C102 (table).** `eml_fft_fill` with library functions that are accurate to `ε` and arguments accurate to `δ` gives a table accurate to `√2 (ε + δ)`. -/
theorem C102_fill {cosf sinf : F → F} {arg : Nat → F} {ε δ : ℝ} {n : Nat} (hcos : ∀ a, R.fin a → |R.val a| ≤ 4 → Close R ε (cosf a) (Real.cos (R.val a))) (hsin : ∀ a, R.fin a → |R.val a| ≤ 4 → Close R ε (sinf a) (Real.sin (R.val a)))
    (harg : ∀ i < n / 2, Close R δ (arg i) (2 * Real.pi * i / n)) (hδ : δ ≤ 4 - Real.pi) (t : Table F) (ht : t.length = n / 2) :
    (fillWith cosf sinf arg t n).1 = .ok ∧ TableOk R (√2 * (ε + δ)) (fillWith cosf sinf arg t n).2 n := by
  unfold fillWith
  rw [if_pos ht]
  refine ⟨rfl, ht, fun i hi => ?_⟩
  simp only [hi, if_true]
  have ha := harg i hi
  have hn : (0 : ℝ) < n := by
    have : 0 < n := by omega
    exact_mod_cast this
  have hle : |2 * Real.pi * i / n| ≤ Real.pi := by
    have hp := Real.pi_pos
    have hi2 : (2 : ℝ) * i ≤ n := by
      have : 2 * i ≤ n := by omega
      exact_mod_cast this
    rw [abs_of_nonneg (by positivity), div_le_iff₀ hn]
    nlinarith
  have hb : |R.val (arg i)| ≤ 4 := by
    have := ha.abs_le
    linarith
  obtain ⟨c1, c2⟩ := hcos _ ha.1 hb
  obtain ⟨s1, s2⟩ := hsin _ ha.1 hb
  refine ⟨c1, s1, ?_⟩
  refine norm_le_comp ?_ ?_
  · have h1 := Real.abs_cos_sub_cos_le (R.val (arg i)) (2 * Real.pi * i / n)
    have e : R.val (cosf (arg i)) - Real.cos (2 * Real.pi * i / n) = (R.val (cosf (arg i)) - Real.cos (R.val (arg i))) + (Real.cos (R.val (arg i)) - Real.cos (2 * Real.pi * i / n)) := by ring
    show |R.val (cosf (arg i)) - Real.cos (2 * Real.pi * i / n)| ≤ _
    rw [e]
    exact (abs_add_le _ _).trans (add_le_add c2 (h1.trans ha.2))
  · have h1 := Real.abs_sin_sub_sin_le (R.val (arg i)) (2 * Real.pi * i / n)
    have e : R.val (sinf (arg i)) - Real.sin (2 * Real.pi * i / n) = (R.val (sinf (arg i)) - Real.sin (R.val (arg i))) + (Real.sin (R.val (arg i)) - Real.sin (2 * Real.pi * i / n)) := by ring
    show |R.val (sinf (arg i)) - Real.sin (2 * Real.pi * i / n)| ≤ _
    rw [e]
    exact (abs_add_le _ _).trans (add_le_add s2 (h1.trans ha.2))

end
/-! ### A concrete case: binary32, 1024 points -/

section
open Binary32

theorem negOk32 : NegOk (F := F32) fmt := by
  intro a ha
  have e : fmt.val (-a) = -fmt.val a := fl_neg_val a
  refine ⟨?_, e⟩
  show |fmt.val (-a)| ≤ maxFinite
  rw [e, abs_neg]
  exact ha

/-- The table with correctly rounded entries. -/
noncomputable def exTable (n : Nat) : Table F32 := ⟨n / 2, fun i => rnd (Real.sin (2 * Real.pi * i / n)), fun i => rnd (Real.cos (2 * Real.pi * i / n))⟩

theorem exTable_ok (n : Nat) : TableOk fmt (1 / 2 ^ 20) (exTable n) n := by
  have hb := big
  norm_num at hb
  have s2 : √2 ≤ 3 / 2 := by rw [Real.sqrt_le_left (by norm_num)]; norm_num
  have close : ∀ v : ℝ, |v| ≤ 1 → fmt.fin (rnd v) ∧ |fl v - v| ≤ 1 / 2 ^ 23 := by
    intro x h
    refine ⟨fl_fin x (h.trans (by linarith)), (fl_error_any x).trans ?_⟩
    have := mul_le_mul_of_nonneg_left h (show (0 : ℝ) ≤ 1 / 2 ^ 24 by positivity)
    norm_num at this ⊢
    linarith
  refine ⟨rfl, fun i _ => ?_⟩
  obtain ⟨c1, c2⟩ := close _ (Real.abs_cos_le_one (2 * Real.pi * i / n))
  obtain ⟨s1, s3⟩ := close _ (Real.abs_sin_le_one (2 * Real.pi * i / n))
  refine ⟨c1, s1, (norm_le_comp c2 s3).trans ?_⟩
  have := mul_le_mul_of_nonneg_right s2 (show (0 : ℝ) ≤ 1 / 2 ^ 23 by positivity)
  norm_num at this ⊢
  linarith

/-- 1024 points of magnitude at most 1: every output is within 0.021 = 1024 · 2 · 10⁻⁵ (rounded up) of the exact transform. -/
example (b : Buf F32) (hb : b.len = 2 ^ 10) (hx : ∀ i < 2 ^ 10, fmt.fin (b.re i) ∧ fmt.fin (b.im i) ∧ ‖cval fmt (b.re i) (b.im i)‖ ≤ 1) :
    ∃ b', forward (exTable (2 ^ 10)) b (2 ^ 10) = some (.ok, b') ∧ ∀ k < 2 ^ 10, ‖cval fmt (b'.re k) (b'.im k) - dft (2 ^ 10) (fun i => cval fmt (b.re i) (b.im i)) k‖ ≤ 21 / 1000 := by
  have hbig := big
  norm_num at hbig
  have hM : acc.M = maxFinite := rfl
  have hu : acc.u = 1 / 2 ^ 24 := rfl
  have hη : acc.η = 1 / 2 ^ 150 := rfl
  have s2 : √2 ≤ 3 / 2 := by rw [Real.sqrt_le_left (by norm_num)]; norm_num
  have s0 : 0 ≤ √2 := Real.sqrt_nonneg 2
  have g1 : fftGrowth acc (1 / 2 ^ 20) ≤ 1 + 1 / 2 ^ 19 := by
    unfold fftGrowth
    rw [hu]
    have h1 := mul_le_mul_of_nonneg_right s2 (show (0 : ℝ) ≤ 2 * (1 / 2 ^ 24) + (1 / 2 ^ 24) ^ 2 by positivity)
    have h2 : (1 + 1 / 2 ^ 24) * ((1 + 1 / 2 ^ 20) * (1 + √2 * (2 * (1 / 2 ^ 24) + (1 / 2 ^ 24) ^ 2))) ≤ (1 + 1 / 2 ^ 24) * ((1 + 1 / 2 ^ 20) * (1 + 3 / 2 * (2 * (1 / 2 ^ 24) + (1 / 2 ^ 24) ^ 2 : ℝ))) := by
      gcongr
    refine h2.trans ?_
    norm_num
  have g0 := one_le_growth (P := acc) (show (0 : ℝ) ≤ 1 / 2 ^ 20 by positivity)
  have gL : fftGrowth acc (1 / 2 ^ 20) ^ 10 ≤ 1 + 2 / 10 ^ 5 := (pow_le_pow_left₀ (by linarith) g1 10).trans (by norm_num)
  have gL0 : 1 ≤ fftGrowth acc (1 / 2 ^ 20) ^ 10 := one_le_pow₀ g0
  have a1 : fftAbs acc ≤ 1 / 2 ^ 140 := by
    unfold fftAbs
    rw [hu, hη]
    have h1 := mul_le_mul_of_nonneg_right s2 (show (0 : ℝ) ≤ 2 * (1 + 1 / 2 ^ 24) * (1 / 2 ^ 150) by positivity)
    refine h1.trans ?_
    norm_num
  have a0 : 0 ≤ fftAbs acc := by unfold fftAbs; rw [hu, hη]; positivity
  have hS : ∑ i ∈ range (2 ^ 10), ‖cval fmt (b.re i) (b.im i)‖ ≤ 1024 := by
    have := sum_le_sum fun i (hi : i ∈ range (2 ^ 10)) => (hx i (mem_range.1 hi)).2.2
    simpa using this
  have hS0 : 0 ≤ ∑ i ∈ range (2 ^ 10), ‖cval fmt (b.re i) (b.im i)‖ := sum_nonneg fun _ _ => norm_nonneg _
  have t1 : fftAbs acc * fftGrowth acc (1 / 2 ^ 20) ^ 10 ≤ 1 / 2 ^ 140 * (1 + 2 / 10 ^ 5) := mul_le_mul a1 gL (by linarith) (by positivity)
  obtain ⟨b', h1, -, h3⟩ := C102_fft basic32 negOk32 10 (by norm_num) (1 / 2 ^ 20) (by positivity) (exTable (2 ^ 10)) (exTable_ok _) b hb (fun i hi => ⟨(hx i hi).1, (hx i hi).2.1⟩) (by
    have h4 := mul_le_mul gL hS hS0 (by norm_num)
    have h5 := mul_le_mul_of_nonneg_right t1 (show (0 : ℝ) ≤ 2 ^ 10 by positivity)
    rw [hM]
    norm_num at h4 h5 ⊢
    linarith)
  refine ⟨b', h1, fun k hk => (h3 k hk).2.2.trans ?_⟩
  have h4 := mul_le_mul (sub_le_sub_right gL 1) hS hS0 (by norm_num)
  have h5 := mul_le_mul_of_nonneg_right t1 (show (0 : ℝ) ≤ 2 ^ 10 - 1 by norm_num)
  norm_num at h4 h5 ⊢
  linarith

end

end Emlearn.Flt
