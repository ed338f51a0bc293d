/- Rounding errors of the steps of `motion_preprocessor_run` in `float` arithmetic, and the exact features they stand for (C124). -/
import Verif.Motion.FloatRun
import Verif.Props.FloatFft
import Verif.Props.FloatIir
import Mathlib.Analysis.InnerProductSpace.PiL2
namespace Emlearn.Motion.Flt
open Emlearn.Flt Finset

/-! ### The machine -/

/-- The operations of the machine, as C's `float`: rounded `+ - * /` and `sqrtf`, exact `fabs` and comparisons; squares and quotients of non-negative numbers are not negative. -/
structure MotionArith {F : Type} (R : Format F) (P : Accuracy) [Zero F] [Add F] [Sub F] [Mul F] [Neg F] (ops : MOps F) : Prop where
  basic : BasicArith (F := F) R P
  neg : NegOk (F := F) R
  div : DivOk R P ops.div
  sqrt : ∀ a, R.fin a → 0 ≤ R.val a → √(R.val a) ≤ P.M → R.fin (ops.sqrt a) ∧ |R.val (ops.sqrt a) - √(R.val a)| ≤ P.u * √(R.val a) + P.η
  sq : ∀ a : F, R.fin a → R.val a * R.val a ≤ P.M → 0 ≤ R.val (a * a)
  quot : ∀ a b : F, R.fin a → R.fin b → 0 ≤ R.val a → 0 < R.val b → R.val a / R.val b ≤ P.M → 0 ≤ R.val (ops.div a b)
  abs : ∀ a, R.fin a → R.fin (ops.abs a) ∧ R.val (ops.abs a) = |R.val a|
  lt : ∀ a b, R.fin a → R.fin b → (ops.lt a b = true ↔ R.val a < R.val b)
  unit : P.u ≤ 1
  room : 2 ≤ P.M

variable {F : Type} {R : Format F} {P : Accuracy} [Zero F] [Add F] [Sub F] [Mul F] [Neg F] {ops : MOps F}

/-- The square root of a perturbed number. -/
theorem sqrt_perturb {a r c α : ℝ} (ha : 0 ≤ a) (hr : 0 ≤ r) (hc : 0 ≤ c) (hα : 0 ≤ α) (h : |a - r| ≤ c * r + α) : |√a - √r| ≤ c * √r + √α := by
  have e1 : a = √a * √a := (Real.mul_self_sqrt ha).symm
  have e2 : r = √r * √r := (Real.mul_self_sqrt hr).symm
  have e3 : α = √α * √α := (Real.mul_self_sqrt hα).symm
  have p1 := Real.sqrt_nonneg a
  have p2 := Real.sqrt_nonneg r
  have p3 := Real.sqrt_nonneg α
  have e4 : |a - r| = |√a - √r| * (√a + √r) := by
    conv_lhs => rw [e1, e2]
    rw [show √a * √a - √r * √r = (√a - √r) * (√a + √r) by ring, abs_mul, abs_of_nonneg (add_nonneg p1 p2)]
  have h1 : |√a - √r| ≤ √a + √r := by rw [abs_le]; constructor <;> linarith
  rw [e4] at h
  by_contra hcon
  push Not at hcon
  generalize |√a - √r| = d at *
  generalize √a = x at *
  generalize √r = s at *
  generalize √α = b at *
  subst e2 e3
  have h2 : 0 ≤ c * s := mul_nonneg hc p2
  have h3 : s ≤ x + s := by linarith
  have h4 : c * s * s ≤ c * s * (x + s) := mul_le_mul_of_nonneg_left h3 h2
  have h5 : b * b ≤ b * (x + s) := mul_le_mul_of_nonneg_left (by linarith) p3
  have h6 : 0 < x + s := by linarith
  have h7 := mul_lt_mul_of_pos_right hcon h6
  nlinarith

theorem sqrt_le_room (h : MotionArith R P ops) {y : ℝ} (hy : y ≤ P.M) : √y ≤ P.M := by
  have := h.room
  rw [Real.sqrt_le_left (by linarith)]
  nlinarith

/-- `sqrtf` of a number that stands for `r`. -/
theorem sqrt_apx (h : MotionArith R P ops) {q : Nat} {α r : ℝ} {a : F} (ha : Apx R P q r α a r) (h0 : 0 ≤ R.val a) (hM : R.val a ≤ P.M) :
    Close R (((1 + P.u) ^ (q + 1) - 1) * √r + (1 + P.u) * √α + P.η) (ops.sqrt a) √r := by
  have hr : 0 ≤ r := ha.pos
  have hu := P.hu
  obtain ⟨f, e⟩ := h.sqrt a ha.close.1 h0 (sqrt_le_room h hM)
  have hp := sqrt_perturb h0 hr (sub_nonneg.2 (one_le_pow_u (P := P) q)) ha.abs ha.close.2
  refine ⟨f, ?_⟩
  have e1 : R.val (ops.sqrt a) - √r = (R.val (ops.sqrt a) - √(R.val a)) + (√(R.val a) - √r) := by ring
  rw [e1]
  refine (abs_add_le _ _).trans ?_
  have h2 : √(R.val a) ≤ √r + (((1 + P.u) ^ q - 1) * √r + √α) := by
    have := le_abs_self (√(R.val a) - √r)
    linarith
  have h3 := mul_le_mul_of_nonneg_left h2 hu
  rw [pow_succ]
  nlinarith

/-- The square of a machine number. -/
theorem square_apx (h : MotionArith R P ops) {a : F} (ha : R.fin a) (hM : R.val a ^ 2 ≤ P.M) : Apx R P 1 (R.val a ^ 2) P.η (a * a) (R.val a ^ 2) ∧ 0 ≤ R.val (a * a) := by
  refine ⟨?_, h.sq a ha (by rwa [← sq])⟩
  have := Apx.mul h.basic.mul (Apx.self (P := P) ha) (Apx.self (P := P) ha) (by simpa [← sq] using hM)
  simpa [mulAbs, ← sq] using this

/-- A sum of non-negative numbers is not negative. -/
theorem add_nonneg_float (h : MotionArith R P ops) {a b : F} (ha : R.fin a) (hb : R.fin b) (h0 : 0 ≤ R.val a) (h1 : 0 ≤ R.val b) (hM : R.val a + R.val b ≤ P.M) : 0 ≤ R.val (a + b) := by
  have hs : |R.val a + R.val b| = R.val a + R.val b := abs_of_nonneg (add_nonneg h0 h1)
  obtain ⟨-, e⟩ := h.basic.add a b ha hb (by rwa [hs])
  rw [hs] at e
  have := (abs_le.1 e).1
  have := mul_le_mul_of_nonneg_right h.unit (add_nonneg h0 h1)
  linarith

/-- The sum of squares of machine numbers. -/
theorem sqSum_apx (h : MotionArith R P ops) (a : Nat → F) (n : Nat) (ha : ∀ i < n, R.fin (a i)) (hM : (1 + P.u) ^ (n + 1) * ∑ i ∈ range n, R.val (a i) ^ 2 + (1 + P.u) ^ n * (n * P.η) ≤ P.M) :
    ∀ k ≤ n, Apx R P (k + 1) (∑ i ∈ range k, R.val (a i) ^ 2) ((1 + P.u) ^ k * (k * P.η)) (sqSum a k) (∑ i ∈ range k, R.val (a i) ^ 2) ∧ 0 ≤ R.val (sqSum a k)
  | 0, _ => by
    refine ⟨?_, by rw [sqSum, h.basic.zero.2]⟩
    simpa [sqSum] using (Apx.zero h.basic).mono (q' := 1) (by omega) le_rfl le_rfl
  | k + 1, hk => by
    obtain ⟨h1, h2⟩ := sqSum_apx h a n ha hM k (by omega)
    have hu := P.hu
    have hη := P.hη
    have hmono : ∑ i ∈ range (k + 1), R.val (a i) ^ 2 ≤ ∑ i ∈ range n, R.val (a i) ^ 2 := sum_le_sum_of_subset_of_nonneg (range_subset_range.2 hk) fun _ _ _ => sq_nonneg _
    have hs0 : 0 ≤ ∑ i ∈ range k, R.val (a i) ^ 2 := sum_nonneg fun _ _ => sq_nonneg _
    rw [sum_range_succ] at hmono
    have hkn : ((k : ℝ) + 1) ≤ n := by exact_mod_cast hk
    have hsq : R.val (a k) ^ 2 ≤ ∑ i ∈ range n, R.val (a i) ^ 2 := by linarith
    have p1 := one_le_pow_u (P := P) (n + 1)
    have p2 := one_le_pow_u (P := P) n
    have hnη : 0 ≤ (1 + P.u) ^ n * (n * P.η) := by positivity
    have hS0 : 0 ≤ ∑ i ∈ range n, R.val (a i) ^ 2 := sum_nonneg fun _ _ => sq_nonneg _
    obtain ⟨h3, h4⟩ := square_apx h (ha k (by omega)) (by nlinarith)
    have key : (1 + P.u) ^ (k + 1) * ∑ i ∈ range k, R.val (a i) ^ 2 + (1 + P.u) ^ k * (k * P.η) + ((1 + P.u) ^ 1 * R.val (a k) ^ 2 + P.η) ≤ P.M := by
      refine le_trans ?_ hM
      have m1 := mul_le_mul_of_nonneg_right (pow_u_mono (P := P) (show k + 1 ≤ n + 1 by omega)) hs0
      have m2 := mul_le_mul_of_nonneg_right (pow_u_mono (P := P) (show 1 ≤ n + 1 by omega)) (sq_nonneg (R.val (a k)))
      have m3 := mul_le_mul_of_nonneg_right (pow_u_mono (P := P) (show k ≤ n by omega)) (show 0 ≤ (k : ℝ) * P.η by positivity)
      have m4 := mul_le_mul_of_nonneg_right p2 hη
      have m5 := mul_le_mul_of_nonneg_left hmono (pow_u_pos (P := P) (n + 1)).le
      have m6 := mul_le_mul_of_nonneg_left (mul_le_mul_of_nonneg_right hkn hη) (pow_u_pos (P := P) n).le
      nlinarith
    refine ⟨?_, ?_⟩
    · have := Apx.add h.basic.add h1 h3 key
      rw [sum_range_succ, sqSum]
      refine this.mono (by omega) le_rfl ?_
      have m4 := mul_le_mul_of_nonneg_right (one_le_pow_u (P := P) k) hη
      have m5 := mul_le_mul_of_nonneg_left m4 (show 0 ≤ 1 + P.u by linarith)
      push_cast
      rw [pow_succ]
      nlinarith
    · rw [sqSum]
      refine add_nonneg_float h h1.close.1 h3.close.1 h2 h4 (le_trans (add_le_add ((le_abs_self _).trans h1.abs_le) ((le_abs_self _).trans h3.abs_le)) key)

/-- Root mean square. -/
noncomputable def rms (f : Nat → ℝ) (n : Nat) : ℝ := √((∑ i ∈ range n, f i ^ 2) / n)

/-- `sqrtf(sum / n_frames)` of machine numbers. -/
theorem rms_float (h : MotionArith R P ops) (a : Nat → F) (n : Nat) (hn : 0 < n) (hof : R.fin (ops.ofNat n) ∧ R.val (ops.ofNat n) = n) (ha : ∀ i < n, R.fin (a i))
    (hM : (1 + P.u) ^ (n + 2) * ∑ i ∈ range n, R.val (a i) ^ 2 + (1 + P.u) ^ (n + 1) * (n * P.η) + P.η ≤ P.M) :
    Close R (((1 + P.u) ^ (n + 3) - 1) * rms (fun i => R.val (a i)) n + (1 + P.u) * √(((1 + P.u) ^ (n + 1) + 1) * P.η) + P.η) (ops.sqrt (ops.div (sqSum a n) (ops.ofNat n))) (rms (fun i => R.val (a i)) n) := by
  have hu := P.hu
  have hη := P.hη
  have hn1 : (1 : ℝ) ≤ n := by exact_mod_cast hn
  have hn0 : (0 : ℝ) < n := by linarith
  have hS : 0 ≤ ∑ i ∈ range n, R.val (a i) ^ 2 := sum_nonneg fun _ _ => sq_nonneg _
  have hM1 : (1 + P.u) ^ (n + 1) * ∑ i ∈ range n, R.val (a i) ^ 2 + (1 + P.u) ^ n * (n * P.η) ≤ P.M := by
    have m1 := mul_le_mul_of_nonneg_right (pow_u_mono (P := P) (show n + 1 ≤ n + 2 by omega)) hS
    have m2 := mul_le_mul_of_nonneg_right (pow_u_mono (P := P) (show n ≤ n + 1 by omega)) (show 0 ≤ (n : ℝ) * P.η by positivity)
    linarith
  obtain ⟨h1, h2⟩ := sqSum_apx h a n ha hM1 n le_rfl
  have hq : R.val (sqSum a n) / R.val (ops.ofNat n) ≤ P.M := by
    rw [hof.2]
    exact (div_le_self h2 hn1).trans (((le_abs_self _).trans h1.abs_le).trans hM1)
  have hpos : 0 < R.val (ops.ofNat n) := by rw [hof.2]; exact hn0
  obtain ⟨f, e⟩ := h.div _ _ h1.close.1 hof.1 hpos.ne' (by rwa [abs_of_nonneg (div_nonneg h2 hpos.le)])
  have h0 := h.quot _ _ h1.close.1 hof.1 h2 hpos hq
  rw [hof.2] at e
  have hd : Apx R P (n + 2) ((∑ i ∈ range n, R.val (a i) ^ 2) / n) (((1 + P.u) ^ (n + 1) + 1) * P.η) (ops.div (sqSum a n) (ops.ofNat n)) ((∑ i ∈ range n, R.val (a i) ^ 2) / n) := by
    have hab : |(∑ i ∈ range n, R.val (a i) ^ 2) / n| ≤ (∑ i ∈ range n, R.val (a i) ^ 2) / n := by rw [abs_of_nonneg (div_nonneg hS hn0.le)]
    have := apx_round (P := P) (q := n + 1) (α := (1 + P.u) ^ n * P.η) (x := R.val (sqSum a n) / n) hab (by positivity) hη ?_ f e
    · refine this.mono le_rfl le_rfl ?_
      rw [pow_succ]
      linarith
    · rw [← sub_div, abs_div, abs_of_pos hn0, div_le_iff₀ hn0]
      refine h1.close.2.trans (le_of_eq ?_)
      field_simp
  refine sqrt_apx h hd h0 (((le_abs_self _).trans hd.abs_le).trans ?_)
  refine le_trans ?_ hM
  have m1 := mul_le_mul_of_nonneg_left (div_le_self hS hn1) (pow_u_pos (P := P) (n + 2)).le
  have m2 := mul_le_mul_of_nonneg_left (le_mul_of_one_le_left hη hn1) (pow_u_pos (P := P) (n + 1)).le
  linarith

/-- Root mean squares of numbers that differ by at most `D`. -/
theorem rms_lipschitz (f g : Nat → ℝ) (n : Nat) (D : ℝ) (hD : 0 ≤ D) (h : ∀ i < n, |f i - g i| ≤ D) : |rms f n - rms g n| ≤ D := by
  have key : ∀ f : Nat → ℝ, rms f n = ‖(WithLp.toLp 2 (fun i : Fin n => f i) : EuclideanSpace ℝ (Fin n))‖ / √n := by
    intro f
    rw [EuclideanSpace.norm_eq, rms, Real.sqrt_div (sum_nonneg fun _ _ => sq_nonneg _), ← Fin.sum_univ_eq_sum_range (fun i => f i ^ 2)]
    simp
  rcases Nat.eq_zero_or_pos n with rfl | hn
  · simpa [rms] using hD
  have hn0 : (0 : ℝ) < √n := Real.sqrt_pos.2 (by exact_mod_cast hn)
  rw [key f, key g, ← sub_div, abs_div, abs_of_pos hn0, div_le_iff₀ hn0]
  refine (abs_norm_sub_norm_le _ _).trans ?_
  rw [EuclideanSpace.norm_eq, Real.sqrt_le_left (by positivity), mul_pow, Real.sq_sqrt (by positivity)]
  refine (sum_le_card_nsmul _ _ (D ^ 2) fun i _ => ?_).trans (by simp [mul_comm])
  have := h i i.2
  simp only [PiLp.sub_apply, Real.norm_eq_abs]
  exact pow_le_pow_left₀ (abs_nonneg _) this 2

theorem rms_bound (f : Nat → ℝ) (n : Nat) (V : ℝ) (hV : 0 ≤ V) (h : ∀ i < n, |f i| ≤ V) : rms f n ≤ V := by
  have := rms_lipschitz f (fun _ => 0) n V hV (by simpa using h)
  have e : rms (fun _ => 0) n = 0 := by simp [rms]
  rw [e, sub_zero] at this
  exact (le_abs_self _).trans this

/-- Length of a vector. -/
noncomputable def norm3R (x y z : ℝ) : ℝ := √(x ^ 2 + y ^ 2 + z ^ 2)

theorem norm3R_lipschitz {x y z x' y' z' D : ℝ} (hD : 0 ≤ D) (hx : |x - x'| ≤ D) (hy : |y - y'| ≤ D) (hz : |z - z'| ≤ D) : |norm3R x y z - norm3R x' y' z'| ≤ √3 * D := by
  have key : ∀ x y z : ℝ, norm3R x y z = √3 * rms (fun i => if i = 0 then x else if i = 1 then y else z) 3 := by
    intro x y z
    rw [rms, norm3R, ← Real.sqrt_mul (by norm_num)]
    congr 1
    simp [sum_range_succ]
    ring
  rw [key, key, ← mul_sub, abs_mul, abs_of_nonneg (Real.sqrt_nonneg 3)]
  refine mul_le_mul_of_nonneg_left (rms_lipschitz _ _ 3 D hD fun i hi => ?_) (Real.sqrt_nonneg 3)
  match i, hi with
  | 0, _ => simpa using hx
  | 1, _ => simpa using hy
  | 2, _ => simpa using hz

theorem norm3R_bound {x y z V : ℝ} (hV : 0 ≤ V) (hx : |x| ≤ V) (hy : |y| ≤ V) (hz : |z| ≤ V) : norm3R x y z ≤ √3 * V := by
  have := norm3R_lipschitz (x' := 0) (y' := 0) (z' := 0) hV (by simpa using hx) (by simpa using hy) (by simpa using hz)
  have e : norm3R 0 0 0 = 0 := by simp [norm3R]
  rw [e, sub_zero] at this
  exact (le_abs_self _).trans this

/-- `sqrtf(x*x + y*y + z*z)` of machine numbers. -/
theorem norm3_float (h : MotionArith R P ops) {x y z : F} (hx : R.fin x) (hy : R.fin y) (hz : R.fin z) (hM : (1 + P.u) ^ 3 * (R.val x ^ 2 + R.val y ^ 2 + R.val z ^ 2) + (1 + P.u) ^ 2 * (3 * P.η) ≤ P.M) :
    Close R (((1 + P.u) ^ 4 - 1) * norm3R (R.val x) (R.val y) (R.val z) + (1 + P.u) * √((1 + P.u) ^ 2 * (3 * P.η)) + P.η) (norm3 ops x y z) (norm3R (R.val x) (R.val y) (R.val z)) := by
  have hu := P.hu
  have hη := P.hη
  have p1 := one_le_pow_u (P := P) 3
  have p2 := one_le_pow_u (P := P) 2
  have p3 : (1 + P.u) ^ 2 ≤ (1 + P.u) ^ 3 := pow_u_mono (by norm_num)
  have p4 : (1 + P.u) ^ 1 ≤ (1 + P.u) ^ 3 := pow_u_mono (by norm_num)
  have p5 : (1 + P.u) ^ 1 ≤ (1 + P.u) ^ 2 := pow_u_mono (by norm_num)
  have x0 := sq_nonneg (R.val x)
  have y0 := sq_nonneg (R.val y)
  have z0 := sq_nonneg (R.val z)
  have e0 : 0 ≤ (1 + P.u) ^ 2 * (3 * P.η) := by positivity
  obtain ⟨h1, n1⟩ := square_apx h hx (by nlinarith)
  obtain ⟨h2, n2⟩ := square_apx h hy (by nlinarith)
  obtain ⟨h3, n3⟩ := square_apx h hz (by nlinarith)
  have k1 : (1 + P.u) ^ 1 * R.val x ^ 2 + P.η + ((1 + P.u) ^ 1 * R.val y ^ 2 + P.η) ≤ P.M := by
    have m1 := mul_le_mul_of_nonneg_right p4 x0
    have m2 := mul_le_mul_of_nonneg_right p4 y0
    have m3 := mul_le_mul_of_nonneg_right p2 hη
    have m4 : 0 ≤ (1 + P.u) ^ 3 * R.val z ^ 2 := by positivity
    linarith
  have h4 := Apx.add h.basic.add h1 h2 k1
  have n4 := add_nonneg_float h h1.close.1 h2.close.1 n1 n2 (le_trans (add_le_add ((le_abs_self _).trans h1.abs_le) ((le_abs_self _).trans h2.abs_le)) k1)
  have k2 : (1 + P.u) ^ (max 1 1 + 1) * (R.val x ^ 2 + R.val y ^ 2) + (1 + P.u) * (P.η + P.η) + ((1 + P.u) ^ 1 * R.val z ^ 2 + P.η) ≤ P.M := by
    have m1 := mul_le_mul_of_nonneg_right p3 (add_nonneg x0 y0)
    have m2 := mul_le_mul_of_nonneg_right p4 z0
    have m3 := mul_le_mul_of_nonneg_right p2 hη
    have m4 := mul_le_mul_of_nonneg_right p5 (add_nonneg hη hη)
    rw [pow_one] at m4
    norm_num at m1 m2 m3 m4 ⊢
    linarith
  have h5 := (Apx.add h.basic.add h4 h3 k2).mono (q' := 3) (T' := R.val x ^ 2 + R.val y ^ 2 + R.val z ^ 2) (α' := (1 + P.u) ^ 2 * (3 * P.η)) (by norm_num) le_rfl (by
    have m3 := mul_le_mul_of_nonneg_right p5 hη
    rw [pow_one] at m3
    rw [pow_two] at m3 ⊢
    nlinarith)
  have n5 := add_nonneg_float h h4.close.1 h3.close.1 n4 n3 (le_trans (add_le_add ((le_abs_self _).trans h4.abs_le) ((le_abs_self _).trans h3.abs_le)) k2)
  exact sqrt_apx h h5 n5 (((le_abs_self _).trans h5.abs_le).trans hM)

/-! ### Minimum and maximum -/

theorem range_float (h : MotionArith R P ops) (a : Nat → F) : ∀ n, (∀ i < n + 1, R.fin (a i)) → ∃ lo hi, rangeOf ops a (n + 1) = some (lo, hi) ∧ R.fin lo ∧ R.fin hi ∧
    IsLeast ((fun i => R.val (a i)) '' Set.Iio (n + 1)) (R.val lo) ∧ IsGreatest ((fun i => R.val (a i)) '' Set.Iio (n + 1)) (R.val hi)
  | 0, ha => by
    refine ⟨a 0, a 0, rfl, ha 0 (by omega), ha 0 (by omega), ⟨⟨0, by simp, rfl⟩, ?_⟩, ⟨⟨0, by simp, rfl⟩, ?_⟩⟩
    · rintro _ ⟨i, hi, rfl⟩
      obtain rfl : i = 0 := by simp only [Set.mem_Iio] at hi; omega
      exact le_rfl
    · rintro _ ⟨i, hi, rfl⟩
      obtain rfl : i = 0 := by simp only [Set.mem_Iio] at hi; omega
      exact le_rfl
  | n + 1, ha => by
    obtain ⟨lo, hi, e, f1, f2, h1, h2⟩ := range_float h a n fun i hi => ha i (by omega)
    have hm := ha (n + 1) (by omega)
    refine ⟨if ops.lt (a (n + 1)) lo then a (n + 1) else lo, if ops.lt hi (a (n + 1)) then a (n + 1) else hi, ?_, ?_, ?_, ?_, ?_⟩
    · rw [rangeOf, e]; rfl
    · split <;> assumption
    · split <;> assumption
    · by_cases hc : ops.lt (a (n + 1)) lo = true
      · rw [if_pos hc]
        have hc' := (h.lt _ _ hm f1).1 hc
        refine ⟨⟨n + 1, by simp, rfl⟩, ?_⟩
        rintro _ ⟨i, hi, rfl⟩
        simp only [Set.mem_Iio] at hi
        by_cases hi2 : i = n + 1
        · subst hi2; exact le_rfl
        · exact hc'.le.trans (h1.2 ⟨i, by simp only [Set.mem_Iio]; omega, rfl⟩)
      · rw [if_neg hc]
        have hc' := not_lt.1 fun hh => hc ((h.lt _ _ hm f1).2 hh)
        obtain ⟨j, hj, hj2⟩ := h1.1
        refine ⟨⟨j, by simp only [Set.mem_Iio] at hj ⊢; omega, hj2⟩, ?_⟩
        rintro _ ⟨i, hi, rfl⟩
        simp only [Set.mem_Iio] at hi
        by_cases hi2 : i = n + 1
        · subst hi2; exact hc'
        · exact h1.2 ⟨i, by simp only [Set.mem_Iio]; omega, rfl⟩
    · by_cases hc : ops.lt hi (a (n + 1)) = true
      · rw [if_pos hc]
        have hc' := (h.lt _ _ f2 hm).1 hc
        refine ⟨⟨n + 1, by simp, rfl⟩, ?_⟩
        rintro _ ⟨i, hi, rfl⟩
        simp only [Set.mem_Iio] at hi
        by_cases hi2 : i = n + 1
        · subst hi2; exact le_rfl
        · exact (h2.2 ⟨i, by simp only [Set.mem_Iio]; omega, rfl⟩).trans hc'.le
      · rw [if_neg hc]
        have hc' := not_lt.1 fun hh => hc ((h.lt _ _ f2 hm).2 hh)
        obtain ⟨j, hj, hj2⟩ := h2.1
        refine ⟨⟨j, by simp only [Set.mem_Iio] at hj ⊢; omega, hj2⟩, ?_⟩
        rintro _ ⟨i, hi, rfl⟩
        simp only [Set.mem_Iio] at hi
        by_cases hi2 : i = n + 1
        · subst hi2; exact hc'
        · exact h2.2 ⟨i, by simp only [Set.mem_Iio]; omega, rfl⟩

theorem greatest_close {f g : Nat → ℝ} {n : Nat} {D a b : ℝ} (ha : IsGreatest (f '' Set.Iio n) a) (hb : IsGreatest (g '' Set.Iio n) b) (h : ∀ i < n, |f i - g i| ≤ D) : |a - b| ≤ D := by
  obtain ⟨i, hi, hi2⟩ := ha.1
  obtain ⟨j, hj, hj2⟩ := hb.1
  have h1 := ha.2 ⟨j, hj, rfl⟩
  have h2 := hb.2 ⟨i, hi, rfl⟩
  have h3 := abs_le.1 (h i hi)
  have h4 := abs_le.1 (h j hj)
  rw [abs_le]
  constructor <;> linarith [h3.1, h3.2, h4.1, h4.2]

theorem least_close {f g : Nat → ℝ} {n : Nat} {D a b : ℝ} (ha : IsLeast (f '' Set.Iio n) a) (hb : IsLeast (g '' Set.Iio n) b) (h : ∀ i < n, |f i - g i| ≤ D) : |a - b| ≤ D := by
  obtain ⟨i, hi, hi2⟩ := ha.1
  obtain ⟨j, hj, hj2⟩ := hb.1
  have h1 := ha.2 ⟨j, hj, rfl⟩
  have h2 := hb.2 ⟨i, hi, rfl⟩
  have h3 := abs_le.1 (h i hi)
  have h4 := abs_le.1 (h j hj)
  rw [abs_le]
  constructor <;> linarith [h3.1, h3.2, h4.1, h4.2]

/-! ### The orientation -/

theorem orientation_float (h : MotionArith R P ops) {g m : F} {r n E δ : ℝ} (hg : Close R E g r) (hm : Close R δ m n) (hn : 0 < n) (hr : |r| ≤ n) (hd : E + δ ≤ n / 2) :
    Close R (2 * (1 + P.u) * (E + δ) / n + P.u + P.η) (ops.div g m) (r / n) := by
  have hu := P.hu
  have hE : 0 ≤ E := (abs_nonneg _).trans hg.2
  have hδ : 0 ≤ δ := (abs_nonneg _).trans hm.2
  have m1 : n / 2 ≤ R.val m := by have := (abs_le.1 hm.2).1; linarith
  have m0 : 0 < R.val m := by linarith
  have key : |R.val g / R.val m - r / n| ≤ 2 * (E + δ) / n := by
    rw [div_sub_div _ _ m0.ne' hn.ne', abs_div, abs_of_pos (mul_pos m0 hn), div_le_div_iff₀ (mul_pos m0 hn) hn]
    have e : R.val g * n - R.val m * r = (R.val g - r) * n - (R.val m - n) * r := by ring
    have h1 : |R.val g * n - R.val m * r| ≤ (E + δ) * n := by
      rw [e]
      refine (abs_sub _ _).trans ?_
      rw [abs_mul, abs_mul, abs_of_pos hn]
      have a1 := mul_le_mul_of_nonneg_right hg.2 hn.le
      have a2 := mul_le_mul hm.2 hr (abs_nonneg _) hδ
      linarith
    have h2 := mul_le_mul_of_nonneg_right h1 hn.le
    have h3 : (E + δ) * n * n ≤ 2 * (E + δ) * (R.val m * n) := by
      have := mul_le_mul_of_nonneg_left m1 (show 0 ≤ 2 * (E + δ) * n by positivity)
      linarith
    linarith
  have hrn : |r / n| ≤ 1 := by rw [abs_div, abs_of_pos hn, div_le_one hn]; exact hr
  have h2 : |R.val g / R.val m| ≤ 1 + 2 * (E + δ) / n := by
    have := abs_sub_abs_le_abs_sub (R.val g / R.val m) (r / n)
    linarith
  have h3 : 2 * (E + δ) / n ≤ 1 := by rw [div_le_one hn]; linarith
  obtain ⟨f, e⟩ := h.div g m hg.1 hm.1 m0.ne' (h2.trans (by have := h.room; linarith))
  refine ⟨f, ?_⟩
  have e1 : R.val (ops.div g m) - r / n = (R.val (ops.div g m) - R.val g / R.val m) + (R.val g / R.val m - r / n) := by ring
  rw [e1]
  refine (abs_add_le _ _).trans ?_
  have h4 := mul_le_mul_of_nonneg_left h2 hu
  have e2 : 2 * (1 + P.u) * (E + δ) / n = (1 + P.u) * (2 * (E + δ) / n) := by ring
  rw [e2]
  linarith

/-! ### Specification: the features in exact arithmetic -/

/-- The acceleration sample of axis `i` at frame `t`, when windows of `W` frames of 6 values arrive one after the other. -/
def sample (W : Nat) (windows : Nat → List F) (i : Fin 3) (t : Nat) : F := (windows (t / W)).getD (6 * (t % W) + i) 0

/-- Exact gravity: the difference equations of the low-pass, on ten copies of the first sample and then the samples. -/
def gravityR (cs : List (Iir.Sos ℝ)) (x : Nat → ℝ) (t : Nat) : ℝ := Iir.cascade cs (fun n => x (n - 10)) (10 + t)

/-- Exact motion: acceleration without gravity. -/
def motionR (cs : List (Iir.Sos ℝ)) (x : Nat → ℝ) (t : Nat) : ℝ := x t - gravityR cs x t

/-- Exact magnitude of the motion. -/
noncomputable def magR (cs : List (Iir.Sos ℝ)) (x : Fin 3 → Nat → ℝ) (t : Nat) : ℝ := norm3R (motionR cs (x 0) t) (motionR cs (x 1) t) (motionR cs (x 2) t)

/-! ### Error bounds -/

/-- Motion of one axis; `V` bounds the motion, `E` the error of the gravity filter. -/
def motionErr (P : Accuracy) (V E : ℝ) : ℝ := P.u * V + (1 + P.u) * E

/-- Length of a vector whose components are at most `V` and known up to `D`. -/
noncomputable def normErr (P : Accuracy) (V D : ℝ) : ℝ := (1 + P.u) ^ 4 * (√3 * D) + ((1 + P.u) ^ 4 - 1) * (√3 * V) + ((1 + P.u) * √((1 + P.u) ^ 2 * (3 * P.η)) + P.η)

/-- Root mean square of `n` numbers that are at most `V` and known up to `D`. -/
noncomputable def rmsErr (P : Accuracy) (n : Nat) (V D : ℝ) : ℝ := (1 + P.u) ^ (n + 3) * D + ((1 + P.u) ^ (n + 3) - 1) * V + ((1 + P.u) * √(((1 + P.u) ^ (n + 1) + 1) * P.η) + P.η)

/-- Difference of two numbers known up to `D`, the difference being at most `V`. -/
def rangeErr (P : Accuracy) (V D : ℝ) : ℝ := (1 + P.u) * (2 * D) + P.u * V

/-- Discrete Fourier transform of `W` numbers that are at most `V` and known up to `D`, with `2^L` points and a table of accuracy `τ`. -/
noncomputable def spectrumErr (P : Accuracy) (τ : ℝ) (L W : Nat) (V D : ℝ) : ℝ := W * D + (fftGrowth P τ ^ L - 1) * (W * (V + D)) + fftAbs P * fftGrowth P τ ^ L * (2 ^ L - 1)

/-- Nothing overflows: motion components up to `V` known up to `D`, magnitudes up to `Vm` known up to `Dm`. -/
structure Room (P : Accuracy) (τ : ℝ) (L W : Nat) (V D Vm Dm : ℝ) : Prop where
  diff : V + D ≤ P.M
  norm : (1 + P.u) ^ 3 * (3 * (V + D) ^ 2) + (1 + P.u) ^ 2 * (3 * P.η) ≤ P.M
  sum : (1 + P.u) ^ (W + 2) * (W * (Vm + Dm) ^ 2) + (1 + P.u) ^ (W + 1) * (W * P.η) + P.η ≤ P.M
  range : Vm + 2 * Dm ≤ P.M
  fft : fftGrowth P τ ^ L * (W * (Vm + Dm)) + fftAbs P * fftGrowth P τ ^ L * 2 ^ L ≤ P.M

theorem normErr_ge {V D : ℝ} (hV : 0 ≤ V) (hD : 0 ≤ D) : D ≤ normErr P V D := by
  have hu := P.hu
  have hη := P.hη
  have s : 1 ≤ √3 := by rw [Real.one_le_sqrt]; norm_num
  have p1 := one_le_pow_u (P := P) 4
  have h1 : D ≤ √3 * D := le_mul_of_one_le_left hD s
  have h2 : √3 * D ≤ (1 + P.u) ^ 4 * (√3 * D) := le_mul_of_one_le_left (by positivity) p1
  have h3 : 0 ≤ ((1 + P.u) ^ 4 - 1) * (√3 * V) := mul_nonneg (by linarith) (by positivity)
  have h4 : 0 ≤ (1 + P.u) * √((1 + P.u) ^ 2 * (3 * P.η)) := by positivity
  unfold normErr
  linarith

/-- The length of a vector known up to `D`. -/
theorem norm3_close (h : MotionArith R P ops) {x y z : F} {x' y' z' V D : ℝ} (hx : Close R D x x') (hy : Close R D y y') (hz : Close R D z z') (hx' : |x'| ≤ V) (hy' : |y'| ≤ V) (hz' : |z'| ≤ V)
    (hM : (1 + P.u) ^ 3 * (3 * (V + D) ^ 2) + (1 + P.u) ^ 2 * (3 * P.η) ≤ P.M) : Close R (normErr P V D) (norm3 ops x y z) (norm3R x' y' z') := by
  have hV : 0 ≤ V := (abs_nonneg _).trans hx'
  have hD : 0 ≤ D := (abs_nonneg _).trans hx.2
  have sqle : ∀ {a : F} {a' : ℝ}, Close R D a a' → |a'| ≤ V → R.val a ^ 2 ≤ (V + D) ^ 2 := by
    intro a a' h1 h2
    rw [← sq_abs]
    exact pow_le_pow_left₀ (abs_nonneg _) (h1.abs_le.trans (by linarith)) 2
  have h1 := norm3_float h hx.1 hy.1 hz.1 (le_trans (by
    have := sqle hx hx'
    have := sqle hy hy'
    have := sqle hz hz'
    have := mul_le_mul_of_nonneg_left (show R.val x ^ 2 + R.val y ^ 2 + R.val z ^ 2 ≤ 3 * (V + D) ^ 2 by linarith) (pow_u_pos (P := P) 3).le
    linarith) hM)
  have h2 := norm3R_lipschitz hD hx.2 hy.2 hz.2
  have h3 := norm3R_bound hV hx' hy' hz'
  refine ⟨h1.1, ?_⟩
  have e1 : R.val (norm3 ops x y z) - norm3R x' y' z' = (R.val (norm3 ops x y z) - norm3R (R.val x) (R.val y) (R.val z)) + (norm3R (R.val x) (R.val y) (R.val z) - norm3R x' y' z') := by ring
  rw [e1]
  refine (abs_add_le _ _).trans ?_
  have h4 : norm3R (R.val x) (R.val y) (R.val z) ≤ √3 * V + √3 * D := by
    have := le_abs_self (norm3R (R.val x) (R.val y) (R.val z) - norm3R x' y' z')
    linarith
  have h5 := mul_le_mul_of_nonneg_left h4 (sub_nonneg.2 (one_le_pow_u (P := P) 4))
  have h6 := h1.2
  unfold normErr
  linarith

/-- The root mean square of numbers known up to `D`. -/
theorem rms_close (h : MotionArith R P ops) (a : Nat → F) (r : Nat → ℝ) (n : Nat) (hn : 0 < n) (hof : R.fin (ops.ofNat n) ∧ R.val (ops.ofNat n) = n) {V D : ℝ} (ha : ∀ i < n, Close R D (a i) (r i)) (hr : ∀ i < n, |r i| ≤ V)
    (hM : (1 + P.u) ^ (n + 2) * (n * (V + D) ^ 2) + (1 + P.u) ^ (n + 1) * (n * P.η) + P.η ≤ P.M) : Close R (rmsErr P n V D) (ops.sqrt (ops.div (sqSum a n) (ops.ofNat n))) (rms r n) := by
  have hV : 0 ≤ V := (abs_nonneg _).trans (hr 0 hn)
  have hD : 0 ≤ D := (abs_nonneg _).trans (ha 0 hn).2
  have hs : ∑ i ∈ range n, R.val (a i) ^ 2 ≤ n * (V + D) ^ 2 := by
    refine (sum_le_card_nsmul _ _ ((V + D) ^ 2) fun i hi => ?_).trans (by simp)
    rw [← sq_abs]
    exact pow_le_pow_left₀ (abs_nonneg _) ((ha i (mem_range.1 hi)).abs_le.trans (by have := hr i (mem_range.1 hi); linarith)) 2
  have h1 := rms_float h a n hn hof (fun i hi => (ha i hi).1) (le_trans (by
    have := mul_le_mul_of_nonneg_left hs (pow_u_pos (P := P) (n + 2)).le
    linarith) hM)
  have h2 := rms_lipschitz (fun i => R.val (a i)) r n D hD fun i hi => (ha i hi).2
  have h3 := rms_bound r n V hV hr
  refine ⟨h1.1, ?_⟩
  have e1 : R.val (ops.sqrt (ops.div (sqSum a n) (ops.ofNat n))) - rms r n = (R.val (ops.sqrt (ops.div (sqSum a n) (ops.ofNat n))) - rms (fun i => R.val (a i)) n) + (rms (fun i => R.val (a i)) n - rms r n) := by ring
  rw [e1]
  refine (abs_add_le _ _).trans ?_
  have h4 : rms (fun i => R.val (a i)) n ≤ V + D := by
    have := le_abs_self (rms (fun i => R.val (a i)) n - rms r n)
    linarith
  have h5 := mul_le_mul_of_nonneg_left h4 (sub_nonneg.2 (one_le_pow_u (P := P) (n + 3)))
  have h6 := h1.2
  unfold rmsErr
  linarith

/-- The peak-to-peak value of numbers known up to `D`. -/
theorem range_close (h : MotionArith R P ops) (a : Nat → F) (r : Nat → ℝ) (n : Nat) (hn : 0 < n) {V D : ℝ} (ha : ∀ i < n, Close R D (a i) (r i)) (hr : ∀ i < n, 0 ≤ r i ∧ r i ≤ V) (hM : V + 2 * D ≤ P.M) :
    ∃ lo hi, rangeOf ops a n = some (lo, hi) ∧ ∀ lo' hi', IsLeast (r '' Set.Iio n) lo' → IsGreatest (r '' Set.Iio n) hi' → Close R (rangeErr P V D) (hi - lo) (hi' - lo') := by
  obtain ⟨m, rfl⟩ : ∃ m, n = m + 1 := ⟨n - 1, by omega⟩
  obtain ⟨lo, hi, e, f1, f2, h1, h2⟩ := range_float h a m fun i hi => (ha i hi).1
  refine ⟨lo, hi, e, fun lo' hi' g1 g2 => ?_⟩
  have c1 := least_close h1 g1 fun i hi => (ha i hi).2
  have c2 := greatest_close h2 g2 fun i hi => (ha i hi).2
  obtain ⟨i, hi1, hi2⟩ := g1.1
  obtain ⟨j, hj1, hj2⟩ := g2.1
  have b1 := hr i hi1
  have b2 := hr j hj1
  have b3 := g1.2 ⟨j, hj1, rfl⟩
  have hab : |hi' - lo'| ≤ V := by
    rw [abs_le]
    constructor <;> linarith
  have := Apx.diff h.basic.sub ⟨f2, c2⟩ ⟨f1, c1⟩ (by linarith)
  refine this.close.mono ?_
  have := mul_le_mul_of_nonneg_left hab P.hu
  unfold rangeErr
  linarith

end Emlearn.Motion.Flt
