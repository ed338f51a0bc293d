/- C99: IIR filters in `float` arithmetic. -/
import Verif.Float.BinaryOps
import Verif.Props.Iir
import Mathlib.Algebra.BigOperators.Intervals
import Mathlib.Analysis.Complex.Polynomial.Basic
namespace Emlearn.Flt
open Emlearn.Iir Finset

variable {F : Type} {R : Format F} {P : Accuracy}

/-! ### The recursive part of a section -/

/-- Impulse response of `1 / (1 + a1 z⁻¹ + a2 z⁻²)`. -/
def impulse (a1 a2 : ℝ) : Nat → ℝ
  | 0 => 1
  | 1 => -a1
  | n + 2 => -a1 * impulse a1 a2 (n + 1) - a2 * impulse a1 a2 n

/-- `H` bounds the sum of the absolute impulse response: the recursive part is stable with gain `H`. -/
def Gain (a1 a2 H : ℝ) : Prop := ∀ N, ∑ k ∈ range N, |impulse a1 a2 k| ≤ H

/-- What drives a sequence under the recursion. -/
def drive (a1 a2 : ℝ) (e : Nat → ℝ) : Nat → ℝ
  | 0 => e 0
  | 1 => e 1 + a1 * e 0
  | n + 2 => e (n + 2) + a1 * e (n + 1) + a2 * e n

theorem convolution (a1 a2 : ℝ) (e : Nat → ℝ) (n : Nat) : e n = ∑ k ∈ range (n + 1), impulse a1 a2 k * drive a1 a2 e (n - k) := by
  induction n using Nat.strong_induction_on with
  | _ n ih =>
    match n with
    | 0 => simp [impulse, drive]
    | 1 => rw [sum_range_succ, sum_range_succ]; simp [impulse, drive]
    | n + 2 =>
      have h1 := ih (n + 1) (by omega)
      have h0 := ih n (by omega)
      rw [sum_range_succ', sum_range_succ']
      have hs : ∑ k ∈ range (n + 1), impulse a1 a2 (k + 1 + 1) * drive a1 a2 e (n + 2 - (k + 1 + 1)) =
          -a1 * (∑ k ∈ range (n + 1), impulse a1 a2 (k + 1) * drive a1 a2 e (n + 1 - (k + 1))) - a2 * ∑ k ∈ range (n + 1), impulse a1 a2 k * drive a1 a2 e (n - k) := by
        rw [mul_sum, mul_sum, ← sum_sub_distrib]
        refine sum_congr rfl fun k _ => ?_
        rw [show n + 2 - (k + 1 + 1) = n - k by omega, show n + 1 - (k + 1) = n - k by omega, impulse]
        ring
      rw [sum_range_succ'] at h1
      rw [hs, ← h0]
      simp only [Nat.sub_zero, impulse, Nat.zero_add, one_mul] at h1 ⊢
      rw [show n + 2 - 1 = n + 1 by omega, show drive a1 a2 e (n + 2) = e (n + 2) + a1 * e (n + 1) + a2 * e n from rfl]
      have : ∑ k ∈ range (n + 1), impulse a1 a2 (k + 1) * drive a1 a2 e (n + 1 - (k + 1)) = e (n + 1) - drive a1 a2 e (n + 1) := by linarith
      rw [this]
      ring

theorem Gain.bound {a1 a2 H : ℝ} (h : Gain a1 a2 H) (e : Nat → ℝ) {G : ℝ} (n : Nat) (hg : ∀ m ≤ n, |drive a1 a2 e m| ≤ G) : |e n| ≤ H * G := by
  have hG : 0 ≤ G := (abs_nonneg _).trans (hg 0 (by omega))
  rw [convolution a1 a2 e n]
  refine (abs_sum_le_sum_abs _ _).trans ?_
  refine le_trans (sum_le_sum (fun k _ => ?_)) ((sum_mul (range (n + 1)) (fun k => |impulse a1 a2 k|) G).symm.le.trans (mul_le_mul_of_nonneg_right (h (n + 1)) hG))
  rw [abs_mul]
  exact mul_le_mul_of_nonneg_left (hg _ (by omega)) (abs_nonneg _)

theorem Gain.nonneg {a1 a2 H : ℝ} (h : Gain a1 a2 H) : 0 ≤ H := by simpa using h 0

/-! ### Rounded operations -/

theorem sub_error {sub : F → F → F} (h : SubOk R P sub) {s t : F} {S T A B e d : ℝ} (hs : Close R e s S) (ht : Close R d t T) (hS : |S| ≤ A) (hT : |T| ≤ B) (hM : A + B + e + d ≤ P.M) :
    Close R ((1 + P.u) * (e + d) + P.u * (A + B)) (sub s t) (S - T) := by
  have h1 : |R.val s - R.val t - (S - T)| ≤ e + d := by
    have e1 : R.val s - R.val t - (S - T) = (R.val s - S) - (R.val t - T) := by ring
    rw [e1]
    exact (abs_sub _ _).trans (add_le_add hs.2 ht.2)
  have h2 : |S - T| ≤ A + B := (abs_sub _ _).trans (add_le_add hS hT)
  have h3 : |R.val s - R.val t| ≤ A + B + (e + d) := by
    have := abs_sub_abs_le_abs_sub (R.val s - R.val t) (S - T)
    linarith
  obtain ⟨f, hf⟩ := h s t hs.1 ht.1 (h3.trans (by linarith))
  refine ⟨f, ?_⟩
  have e2 : R.val (sub s t) - (S - T) = (R.val (sub s t) - (R.val s - R.val t)) + (R.val s - R.val t - (S - T)) := by ring
  rw [e2]
  refine (abs_add_le _ _).trans ?_
  have := mul_le_mul_of_nonneg_left h3 P.hu
  nlinarith [hf, h1]

/-- Error of the product of a coefficient `c`, known up to `dc`, and a value up to `V` in magnitude. -/
def prodErr (P : Accuracy) (dc c V : ℝ) : ℝ := (P.u * (|c| + dc) + dc) * V + P.η

theorem prod_error {mul : F → F → F} (h : MulOk R P mul) {c : F} {c' dc V : ℝ} {x : F} (hc : Close R dc c c') (hx : R.fin x) (hV : |R.val x| ≤ V) (hM : (|c'| + dc) * V ≤ P.M) :
    Close R (prodErr P dc c' V) (mul c x) (c' * R.val x) := by
  have h0 : 0 ≤ V := (abs_nonneg _).trans hV
  have hd : 0 ≤ dc := (abs_nonneg _).trans hc.2
  have h1 : |R.val c * R.val x| ≤ (|c'| + dc) * V := by
    rw [abs_mul]
    exact mul_le_mul hc.abs_le hV (abs_nonneg _) (by positivity)
  obtain ⟨f, hf⟩ := h c x hc.1 hx (h1.trans hM)
  refine ⟨f, ?_⟩
  have e : R.val (mul c x) - c' * R.val x = (R.val (mul c x) - R.val c * R.val x) + (R.val c - c') * R.val x := by ring
  rw [e]
  refine (abs_add_le _ _).trans ?_
  have h2 : |(R.val c - c') * R.val x| ≤ dc * V := by
    rw [abs_mul]
    exact mul_le_mul hc.2 hV (abs_nonneg _) hd
  have := mul_le_mul_of_nonneg_left h1 P.hu
  unfold prodErr
  linarith

/-! ### One section -/

section
variable (P) (dc : ℝ) (c : Sos ℝ) (X Y : ℝ)

/-- Rounding errors committed in the second state word, in the sum `s2 + b1*in`, in the first state word and in the output at one time step, for inputs up to `X` and outputs up to `Y` in magnitude. -/
def errW2 : ℝ := (1 + P.u) * (prodErr P dc c.b2 X + prodErr P dc c.a2 Y) + P.u * (|c.b2| * X + |c.a2| * Y)
def errV : ℝ := (1 + P.u) * (errW2 P dc c X Y + prodErr P dc c.b1 X) + P.u * (|c.b2| * X + |c.a2| * Y + |c.b1| * X)
def errW1 : ℝ := (1 + P.u) * (errV P dc c X Y + prodErr P dc c.a1 Y) + P.u * (|c.b2| * X + |c.a2| * Y + |c.b1| * X + |c.a1| * Y)
def errOut : ℝ := (1 + P.u) * (errW1 P dc c X Y + prodErr P dc c.b0 X) + P.u * (|c.b2| * X + |c.a2| * Y + |c.b1| * X + |c.a1| * Y + |c.b0| * X)
end

/-- What is required of a section with inputs up to `X` that are known up to `dx`: its recursive part is stable with gain `H`; `Y` bounds its exact outputs; `E` is at least the gain times the error made and taken over at one
time step; nothing overflows. -/
structure StageOk (P : Accuracy) (dc : ℝ) (c : Sos ℝ) (X dx Y E H : ℝ) : Prop where
  gain : Gain c.a1 c.a2 H
  nonneg : 0 ≤ E
  out : H * ((|c.b0| + |c.b1| + |c.b2|) * X) ≤ Y
  err : H * (errOut P dc c (X + dx) (Y + E) + (|c.b0| + |c.b1| + |c.b2|) * dx) ≤ E
  b0 : (|c.b0| + dc) * (X + dx) ≤ P.M
  b1 : (|c.b1| + dc) * (X + dx) ≤ P.M
  b2 : (|c.b2| + dc) * (X + dx) ≤ P.M
  a1 : (|c.a1| + dc) * (Y + E) ≤ P.M
  a2 : (|c.a2| + dc) * (Y + E) ≤ P.M
  total : (|c.b0| + |c.b1| + |c.b2|) * (X + dx) + (|c.a1| + |c.a2|) * (Y + E) + errOut P dc c (X + dx) (Y + E) ≤ P.M

/-- The coefficients of a section that are used, known up to `dc`. -/
structure SosClose (R : Format F) (dc : ℝ) (c : Sos F) (c' : Sos ℝ) : Prop where
  b0 : Close R dc c.b0 c'.b0
  b1 : Close R dc c.b1 c'.b1
  b2 : Close R dc c.b2 c'.b2
  a1 : Close R dc c.a1 c'.a1
  a2 : Close R dc c.a2 c'.a2

theorem section_drive (c : Sos ℝ) (x : Nat → ℝ) : ∀ n, drive c.a1 c.a2 (section_ c x) n = match n with
    | 0 => c.b0 * x 0
    | 1 => c.b0 * x 1 + c.b1 * x 0
    | n + 2 => c.b0 * x (n + 2) + c.b1 * x (n + 1) + c.b2 * x n
  | 0 => rfl
  | 1 => by simp only [drive, section_]; ring
  | n + 2 => by simp only [drive, section_]; ring

theorem abs_three {a b c x y z X : ℝ} (hx : |x| ≤ X) (hy : |y| ≤ X) (hz : |z| ≤ X) : |a * x + b * y + c * z| ≤ (|a| + |b| + |c|) * X := by
  refine (abs_add_le _ _).trans ((add_le_add_left (abs_add_le _ _) _).trans ?_)
  rw [abs_mul, abs_mul, abs_mul]
  have h1 := mul_le_mul_of_nonneg_left hx (abs_nonneg a)
  have h2 := mul_le_mul_of_nonneg_left hy (abs_nonneg b)
  have h3 := mul_le_mul_of_nonneg_left hz (abs_nonneg c)
  linarith

/-- The exact output of a stable section is bounded. -/
theorem section_bound {c : Sos ℝ} {H X : ℝ} (hg : Gain c.a1 c.a2 H) (x : Nat → ℝ) (hx : ∀ n, |x n| ≤ X) (n : Nat) : |section_ c x n| ≤ H * ((|c.b0| + |c.b1| + |c.b2|) * X) := by
  have hX : 0 ≤ X := (abs_nonneg _).trans (hx 0)
  refine hg.bound _ n fun m _ => ?_
  rw [section_drive]
  match m with
  | 0 => simpa using abs_three (a := c.b0) (b := c.b1) (c := c.b2) (z := 0) (y := 0) (hx 0) (by simpa using hX) (by simpa using hX)
  | 1 => simpa using abs_three (a := c.b0) (b := c.b1) (c := c.b2) (z := 0) (hx 1) (hx 0) (by simpa using hX)
  | m + 2 => exact abs_three (hx (m + 2)) (hx (m + 1)) (hx m)

/-- The state words for given input and output values, without rounding. -/
def refW2 (c : Sos ℝ) (x y : Nat → ℝ) : Nat → ℝ
  | 0 => 0
  | n + 1 => c.b2 * x n - c.a2 * y n
def refW1 (c : Sos ℝ) (x y : Nat → ℝ) : Nat → ℝ
  | 0 => 0
  | n + 1 => refW2 c x y n + c.b1 * x n - c.a1 * y n

theorem le_rounded {u a b : ℝ} (hu : 0 ≤ u) (ha : 0 ≤ a) (hb : 0 ≤ b) : a ≤ (1 + u) * a + u * b := by
  have := mul_nonneg hu ha
  have := mul_nonneg hu hb
  linarith

theorem stage_float [Zero F] [Add F] [Sub F] [Mul F] (h : BasicArith (F := F) R P) {dc : ℝ} {c : Sos F} {c' : Sos ℝ} (hc : SosClose R dc c c') {X dx Y E H : ℝ} (hok : StageOk P dc c' X dx Y E H) (x : Nat → F) (x' : Nat → ℝ)
    (hX : ∀ n, |x' n| ≤ X) (hx : ∀ n, Close R dx (x n) (x' n)) (n : Nat) : |section_ c' x' n| ≤ Y ∧ Close R E (stOut c x n) (section_ c' x' n) := by
  have hY : ∀ n, |section_ c' x' n| ≤ Y := fun n => (section_bound hok.gain x' hX n).trans hok.out
  refine ⟨hY n, ?_⟩
  have hu := P.hu
  have hη := P.hη
  have hxv : ∀ n, |R.val (x n)| ≤ X + dx := fun n => by have := (hx n).abs_le; have := hX n; linarith
  have hdx : 0 ≤ dx := (abs_nonneg _).trans (hx 0).2
  have hdc : 0 ≤ dc := (abs_nonneg _).trans hc.b0.2
  have hXh : 0 ≤ X + dx := (abs_nonneg _).trans (hxv 0)
  obtain ⟨Xh, eX⟩ : ∃ Xh, Xh = X + dx := ⟨_, rfl⟩
  obtain ⟨Yh, eY⟩ : ∃ Yh, Yh = Y + E := ⟨_, rfl⟩
  have hgain := hok.gain
  obtain ⟨-, hE, -, herr, ob0, ob1, ob2, oa1, oa2, otot⟩ := hok
  rw [← eX] at hxv hXh herr ob0 ob1 ob2 otot
  rw [← eY] at herr oa1 oa2 otot
  obtain ⟨xv, hxvd⟩ : ∃ xv : Nat → ℝ, xv = fun n => R.val (x n) := ⟨_, rfl⟩
  obtain ⟨yv, hyvd⟩ : ∃ yv : Nat → ℝ, yv = fun n => R.val (stOut c x n) := ⟨_, rfl⟩
  have hE0 : 0 ≤ Yh := by rw [eY]; have := hE; have := (abs_nonneg _).trans (hY 0); linarith
  have hp : ∀ k V, 0 ≤ V → 0 ≤ prodErr P dc k V := fun k V hV => by unfold prodErr; positivity
  have hpb2 := hp c'.b2 Xh hXh
  have hpb1 := hp c'.b1 Xh hXh
  have hpb0 := hp c'.b0 Xh hXh
  have hpa1 := hp c'.a1 Yh hE0
  have hpa2 := hp c'.a2 Yh hE0
  obtain ⟨B0, eB0⟩ : ∃ B, B = |c'.b0| * Xh := ⟨_, rfl⟩
  obtain ⟨B1, eB1⟩ : ∃ B, B = |c'.b1| * Xh := ⟨_, rfl⟩
  obtain ⟨B2, eB2⟩ : ∃ B, B = |c'.b2| * Xh := ⟨_, rfl⟩
  obtain ⟨A1, eA1⟩ : ∃ B, B = |c'.a1| * Yh := ⟨_, rfl⟩
  obtain ⟨A2, eA2⟩ : ∃ B, B = |c'.a2| * Yh := ⟨_, rfl⟩
  have nB0 : 0 ≤ B0 := by rw [eB0]; positivity
  have nB1 : 0 ≤ B1 := by rw [eB1]; positivity
  have nB2 : 0 ≤ B2 := by rw [eB2]; positivity
  have nA1 : 0 ≤ A1 := by rw [eA1]; positivity
  have nA2 : 0 ≤ A2 := by rw [eA2]; positivity
  have dW2 : errW2 P dc c' Xh Yh = (1 + P.u) * (prodErr P dc c'.b2 Xh + prodErr P dc c'.a2 Yh) + P.u * (B2 + A2) := by rw [eB2, eA2]; rfl
  have dV : errV P dc c' Xh Yh = (1 + P.u) * (errW2 P dc c' Xh Yh + prodErr P dc c'.b1 Xh) + P.u * (B2 + A2 + B1) := by rw [eB2, eA2, eB1]; rfl
  have dW1 : errW1 P dc c' Xh Yh = (1 + P.u) * (errV P dc c' Xh Yh + prodErr P dc c'.a1 Yh) + P.u * (B2 + A2 + B1 + A1) := by rw [eB2, eA2, eB1, eA1]; rfl
  have dO : errOut P dc c' Xh Yh = (1 + P.u) * (errW1 P dc c' Xh Yh + prodErr P dc c'.b0 Xh) + P.u * (B2 + A2 + B1 + A1 + B0) := by rw [eB2, eA2, eB1, eA1, eB0]; rfl
  have otot' : B2 + A2 + B1 + A1 + B0 + errOut P dc c' Xh Yh ≤ P.M := by rw [eB2, eA2, eB1, eA1, eB0]; linarith
  generalize errOut P dc c' Xh Yh = eO at *
  generalize errW1 P dc c' Xh Yh = e1 at *
  generalize errV P dc c' Xh Yh = ev at *
  generalize errW2 P dc c' Xh Yh = e2 at *
  have n2 : prodErr P dc c'.b2 Xh + prodErr P dc c'.a2 Yh ≤ e2 := by rw [dW2]; exact le_rounded hu (by linarith) (by linarith)
  have nv : e2 + prodErr P dc c'.b1 Xh ≤ ev := by rw [dV]; exact le_rounded hu (by linarith) (by linarith)
  have n1 : ev + prodErr P dc c'.a1 Yh ≤ e1 := by rw [dW1]; exact le_rounded hu (by linarith) (by linarith)
  have nO : e1 + prodErr P dc c'.b0 Xh ≤ eO := by rw [dO]; exact le_rounded hu (by linarith) (by linarith)
  have mb : ∀ k V v : ℝ, |v| ≤ V → |k * v| ≤ |k| * V := fun k V v hv => by rw [abs_mul]; exact mul_le_mul_of_nonneg_left hv (abs_nonneg k)
  have hxv' : ∀ n, |xv n| ≤ Xh := fun n => by rw [hxvd]; exact hxv n
  -- one time step
  have out_step : ∀ m, Close R e1 (st c x m).1 (refW1 c' xv yv m) → |refW1 c' xv yv m| ≤ B2 + A2 + B1 + A1 → Close R eO (stOut c x m) (refW1 c' xv yv m + c'.b0 * xv m) := by
    intro m h1 h2
    have p0 := prod_error h.mul hc.b0 (hx m).1 (hxv m) ob0
    have := add_error h.add h1 p0 h2 (mb c'.b0 Xh _ (hxv m)) (by rw [← eB0]; linarith)
    rw [← eB0, ← dO] at this
    have ex : xv m = R.val (x m) := by rw [hxvd]
    rw [ex]
    exact this
  have st_step : ∀ m, Close R e2 (st c x m).2 (refW2 c' xv yv m) → |refW2 c' xv yv m| ≤ B2 + A2 → R.fin (stOut c x m) → |yv m| ≤ Yh →
      (Close R e2 (st c x (m + 1)).2 (refW2 c' xv yv (m + 1)) ∧ |refW2 c' xv yv (m + 1)| ≤ B2 + A2) ∧ Close R e1 (st c x (m + 1)).1 (refW1 c' xv yv (m + 1)) ∧ |refW1 c' xv yv (m + 1)| ≤ B2 + A2 + B1 + A1 := by
    intro m h1 h2 hf hy
    have hy' : |R.val (stOut c x m)| ≤ Yh := by rw [hyvd] at hy; exact hy
    have p2 := prod_error h.mul hc.b2 (hx m).1 (hxv m) ob2
    have p1 := prod_error h.mul hc.b1 (hx m).1 (hxv m) ob1
    have r1 := prod_error h.mul hc.a1 hf hy' oa1
    have r2 := prod_error h.mul hc.a2 hf hy' oa2
    have s2 := sub_error h.sub p2 r2 (mb c'.b2 Xh _ (hxv m)) (mb c'.a2 Yh _ hy') (by rw [← eB2, ← eA2]; linarith)
    rw [← eB2, ← eA2, ← dW2] at s2
    have v1 := add_error h.add h1 p1 h2 (mb c'.b1 Xh _ (hxv m)) (by rw [← eB1]; linarith)
    rw [← eB1, ← dV] at v1
    have hv : |refW2 c' xv yv m + c'.b1 * R.val (x m)| ≤ B2 + A2 + B1 := (abs_add_le _ _).trans (add_le_add h2 (by rw [eB1]; exact mb c'.b1 Xh _ (hxv m)))
    have s1 := sub_error h.sub v1 r1 hv (mb c'.a1 Yh _ hy') (by rw [← eA1]; linarith)
    rw [← eA1, ← dW1] at s1
    have e2' : refW2 c' xv yv (m + 1) = c'.b2 * R.val (x m) - c'.a2 * R.val (stOut c x m) := by rw [refW2, hxvd, hyvd]
    have e1' : refW1 c' xv yv (m + 1) = refW2 c' xv yv m + c'.b1 * R.val (x m) - c'.a1 * R.val (stOut c x m) := by rw [refW1, hxvd, hyvd]
    rw [e2', e1']
    refine ⟨⟨s2, (abs_sub _ _).trans (add_le_add (by rw [eB2]; exact mb c'.b2 Xh _ (hxv m)) (by rw [eA2]; exact mb c'.a2 Yh _ hy'))⟩, s1, (abs_sub _ _).trans (add_le_add hv (by rw [eA1]; exact mb c'.a1 Yh _ hy'))⟩
  -- all times
  have all : ∀ n, ∀ m ≤ n, (Close R e2 (st c x m).2 (refW2 c' xv yv m) ∧ |refW2 c' xv yv m| ≤ B2 + A2) ∧ (Close R e1 (st c x m).1 (refW1 c' xv yv m) ∧ |refW1 c' xv yv m| ≤ B2 + A2 + B1 + A1) ∧
      Close R E (stOut c x m) (section_ c' x' m) := by
    intro n
    induction n using Nat.strong_induction_on with
    | _ n ih =>
      intro m hm
      by_cases hmn : m < n
      · exact ih m hmn m le_rfl
      have hmn' : m = n := by omega
      subst hmn'
      have hst : (Close R e2 (st c x m).2 (refW2 c' xv yv m) ∧ |refW2 c' xv yv m| ≤ B2 + A2) ∧ (Close R e1 (st c x m).1 (refW1 c' xv yv m) ∧ |refW1 c' xv yv m| ≤ B2 + A2 + B1 + A1) := by
        match m with
        | 0 =>
          have hz := h.zero
          refine ⟨⟨⟨hz.1, ?_⟩, ?_⟩, ⟨hz.1, ?_⟩, ?_⟩
          · show |R.val 0 - 0| ≤ e2
            rw [hz.2]; simp; linarith
          · simp only [refW2, abs_zero]; linarith
          · show |R.val 0 - 0| ≤ e1
            rw [hz.2]; simp; linarith
          · simp only [refW1, abs_zero]; linarith
        | m + 1 =>
          obtain ⟨⟨i1, i2⟩, -, i4⟩ := ih m (by omega) m le_rfl
          refine st_step m i1 i2 i4.1 ?_
          rw [hyvd, eY]
          exact i4.abs_le.trans (by have := hY m; linarith)
      refine ⟨hst.1, hst.2, (out_step m hst.2.1 hst.2.2).1, ?_⟩
      have hd : ∀ k ≤ m, |yv k - (refW1 c' xv yv k + c'.b0 * xv k)| ≤ eO := by
        intro k hk
        rw [show yv k = R.val (stOut c x k) by rw [hyvd]]
        by_cases hkm : k < m
        · obtain ⟨-, ⟨j1, j2⟩, -⟩ := ih k hkm k le_rfl
          exact (out_step k j1 j2).2
        · have : k = m := by omega
          subst this
          exact (out_step k hst.2.1 hst.2.2).2
      have hdx' : ∀ k, |xv k - x' k| ≤ dx := fun k => by rw [hxvd]; exact (hx k).2
      have := hgain.bound (fun k => yv k - section_ c' x' k) (G := eO + (|c'.b0| + |c'.b1| + |c'.b2|) * dx) m (fun k hk => ?_)
      · rw [hyvd] at this
        exact this.trans herr
      · have e : drive c'.a1 c'.a2 (fun k => yv k - section_ c' x' k) k = (yv k - (refW1 c' xv yv k + c'.b0 * xv k)) + (match k with
            | 0 => c'.b0 * (xv 0 - x' 0) + c'.b1 * 0 + c'.b2 * 0
            | 1 => c'.b0 * (xv 1 - x' 1) + c'.b1 * (xv 0 - x' 0) + c'.b2 * 0
            | k + 2 => c'.b0 * (xv (k + 2) - x' (k + 2)) + c'.b1 * (xv (k + 1) - x' (k + 1)) + c'.b2 * (xv k - x' k)) := by
          match k with
          | 0 => simp only [drive, section_, refW1]; ring
          | 1 => simp only [drive, section_, refW1, refW2]; ring
          | k + 2 => simp only [drive, section_, refW1, refW2]; ring
        rw [e]
        refine (abs_add_le _ _).trans (add_le_add (hd k hk) ?_)
        have z : |(0 : ℝ)| ≤ dx := by simpa using hdx
        match k with
        | 0 => exact abs_three (hdx' 0) z z
        | 1 => exact abs_three (hdx' 1) (hdx' 0) z
        | k + 2 => exact abs_three (hdx' _) (hdx' _) (hdx' _)
  exact (all n n le_rfl).2.2

/-! ### Cascades -/

/-- A section with its machine coefficients, the coefficients they stand for, and the bounds on its output, its error and its gain. -/
structure Stage (F : Type) where
  coef : Sos F
  exact : Sos ℝ
  Y : ℝ
  E : ℝ
  H : ℝ

/-- Every section of a cascade is fine for the outputs of the one before; the last one's outputs are known up to `E`. -/
def CascadeOk (R : Format F) (P : Accuracy) (dc : ℝ) : List (Stage F) → ℝ → ℝ → ℝ → Prop
  | [], _, dx, E => dx ≤ E
  | s :: ss, X, dx, E => SosClose R dc s.coef s.exact ∧ StageOk P dc s.exact X dx s.Y s.E s.H ∧ CascadeOk R P dc ss s.Y s.E E

theorem cascade_float [Zero F] [Add F] [Sub F] [Mul F] (h : BasicArith (F := F) R P) {dc : ℝ} : ∀ (ss : List (Stage F)) (X dx E : ℝ), CascadeOk R P dc ss X dx E → ∀ (x : Nat → F) (x' : Nat → ℝ), (∀ n, |x' n| ≤ X) →
    (∀ n, Close R dx (x n) (x' n)) → ∀ n, Close R E (stCascade (ss.map Stage.coef) x n) (cascade (ss.map Stage.exact) x' n)
  | [], _, _, _, hok, _, _, _, hx, n => (hx n).mono hok
  | s :: ss, _, _, _, ⟨h1, h2, h3⟩, x, x', hX, hx, n => by
    have hs := stage_float h h1 h2 x x' hX hx
    exact cascade_float h ss _ _ _ h3 _ _ (fun n => (hs n).1) (fun n => (hs n).2) n

/-- **C99.** `eml_iir_filter` in rounded arithmetic, on any cascade of stable sections and any number of samples: started from zero states, every output is finite and within `E` of the output of the exact difference
equations - the same bound at every time, however long the filter runs. -/
theorem C99_iir [Zero F] [Add F] [Sub F] [Mul F] (h : BasicArith (F := F) R P) {dc X dx E : ℝ} (ss : List (Stage F)) (hok : CascadeOk R P dc ss X dx E) (x : Nat → F) (x' : Nat → ℝ) (hX : ∀ n, |x' n| ≤ X)
    (hx : ∀ n, Close R dx (x n) (x' n)) (N : Nat) :
    ∃ outs states, Iir.run (ofSections (ss.map Stage.coef)) (List.replicate (4 * ss.length) 0) ((List.range N).map x) = some ((List.range N).map outs, states) ∧ states.length = 4 * ss.length ∧
      ∀ n, Close R E (outs n) (cascade (ss.map Stage.exact) x' n) := by
  obtain ⟨states, e, hl⟩ := run_sections (ss.map Stage.coef) x N
  rw [List.length_map] at e hl
  exact ⟨_, states, e, hl, cascade_float h ss X dx E hok x x' hX hx⟩

/-! ### Stable sections -/

/-- Impulse response from the poles. -/
theorem impulse_poles {a1 a2 : ℝ} {p q : ℂ} (h1 : (a1 : ℂ) = -(p + q)) (h2 : (a2 : ℂ) = p * q) (n : Nat) : (impulse a1 a2 n : ℂ) = ∑ k ∈ range (n + 1), p ^ k * q ^ (n - k) := by
  induction n using Nat.strong_induction_on with
  | _ n ih =>
    match n with
    | 0 => simp [impulse]
    | 1 => rw [sum_range_succ, sum_range_succ]; simp [impulse, h1, add_comm]
    | n + 2 =>
      have i1 := ih (n + 1) (by omega)
      have i0 := ih n (by omega)
      have hp : ∀ m, ∑ k ∈ range (m + 2), p ^ k * q ^ (m + 1 - k) = p * (∑ k ∈ range (m + 1), p ^ k * q ^ (m - k)) + q ^ (m + 1) := by
        intro m
        rw [sum_range_succ', mul_sum]
        congr 1
        · exact sum_congr rfl fun k _ => by rw [show m + 1 - (k + 1) = m - k by omega]; ring
        · simp
      have hq : ∀ m, ∑ k ∈ range (m + 2), p ^ k * q ^ (m + 1 - k) = q * (∑ k ∈ range (m + 1), p ^ k * q ^ (m - k)) + p ^ (m + 1) := by
        intro m
        rw [sum_range_succ, mul_sum]
        congr 1
        · refine sum_congr rfl fun k hk => ?_
          have := mem_range.1 hk
          rw [show m + 1 - k = (m - k) + 1 by omega]; ring
        · simp
      simp only [impulse]
      push_cast
      rw [i1, i0, hp (n + 1), h1, h2]
      have e1 := hp n
      have e2 := hq n
      have : q ^ (n + 1 + 1) = q * q ^ (n + 1) := by ring
      rw [this]
      linear_combination q * e1

/-- A section whose poles `p`, `q` lie inside the unit circle has gain at most `1 / ((1 - |p|) (1 - |q|))`. -/
theorem gain_poles {a1 a2 : ℝ} {p q : ℂ} (h1 : (a1 : ℂ) = -(p + q)) (h2 : (a2 : ℂ) = p * q) (hp : ‖p‖ < 1) (hq : ‖q‖ < 1) : Gain a1 a2 (1 / ((1 - ‖p‖) * (1 - ‖q‖))) := by
  intro N
  obtain ⟨r, er⟩ : ∃ r, r = ‖p‖ := ⟨_, rfl⟩
  obtain ⟨t, et⟩ : ∃ t, t = ‖q‖ := ⟨_, rfl⟩
  have hr0 : 0 ≤ r := by rw [er]; exact norm_nonneg p
  have ht0 : 0 ≤ t := by rw [et]; exact norm_nonneg q
  rw [← er] at hp ⊢
  rw [← et] at hq ⊢
  obtain ⟨U, hU⟩ : ∃ U : Nat → ℝ, U = fun n => ∑ k ∈ range (n + 1), r ^ k * t ^ (n - k) := ⟨_, rfl⟩
  have hle : ∀ n, |impulse a1 a2 n| ≤ U n := by
    intro n
    rw [← Real.norm_eq_abs, ← Complex.norm_real, impulse_poles h1 h2 n, hU]
    refine (norm_sum_le _ _).trans (sum_le_sum fun k _ => ?_)
    rw [norm_mul, norm_pow, norm_pow, er, et]
  have hstep : ∀ m, U (m + 1) = r * U m + t ^ (m + 1) := by
    intro m
    rw [hU]
    simp only
    rw [sum_range_succ', mul_sum]
    congr 1
    · exact sum_congr rfl fun k _ => by rw [show m + 1 - (k + 1) = m - k by omega]; ring
    · simp
  have hgeo : ∀ n, ∑ k ∈ range n, t ^ k ≤ 1 / (1 - t) := by
    intro n
    rw [geom_sum_eq (by linarith), le_div_iff₀ (by linarith)]
    have : 0 ≤ t ^ n := by positivity
    rw [div_mul_eq_mul_div, div_le_iff_of_neg (by linarith)]
    nlinarith
  have hS : ∀ n, ∑ k ∈ range (n + 1), U k = r * (∑ k ∈ range n, U k) + ∑ k ∈ range (n + 1), t ^ k := by
    intro n
    rw [sum_range_succ', mul_sum, sum_range_succ' (fun k => t ^ k)]
    simp only [hstep, sum_add_distrib]
    have : U 0 = 1 := by rw [hU]; simp
    rw [this]
    simp only [pow_zero]
    ring
  have hfin : ∀ n, ∑ k ∈ range n, U k ≤ 1 / ((1 - r) * (1 - t)) := by
    intro n
    have d1 : 0 < 1 - r := by linarith
    have d2 : 0 < 1 - t := by linarith
    induction n with
    | zero => simp only [range_zero, sum_empty]; positivity
    | succ n ih =>
      rw [hS]
      have := mul_le_mul_of_nonneg_left ih hr0
      have e : r * (1 / ((1 - r) * (1 - t))) + 1 / (1 - t) = 1 / ((1 - r) * (1 - t)) := by field_simp; ring
      have := hgeo (n + 1)
      linarith
  exact (sum_le_sum fun k _ => hle k).trans (hfin N)

/-- **C99 (stability).** Every section whose poles - the complex roots of `z² + a1 z + a2` - lie inside the unit circle has a finite gain. -/
theorem C99_stable (a1 a2 : ℝ) (h : ∀ z : ℂ, z ^ 2 + a1 * z + a2 = 0 → ‖z‖ < 1) : ∃ H, Gain a1 a2 H := by
  obtain ⟨s, hs⟩ := IsAlgClosed.exists_pow_nat_eq ((a1 : ℂ) ^ 2 - 4 * a2) (show 0 < 2 by norm_num)
  refine ⟨_, gain_poles (p := (-a1 + s) / 2) (q := (-a1 - s) / 2) (by ring) (by linear_combination (1 / 4 : ℂ) * hs) (h _ ?_) (h _ ?_)⟩
  · linear_combination (1 / 4 : ℂ) * hs
  · linear_combination (1 / 4 : ℂ) * hs

/-- A section of a typical low-pass filter: poles 0.9 ± 0.2i. -/
example : ∃ H, Gain (-9 / 5) (17 / 20) H := by
  refine C99_stable _ _ fun z hz => ?_
  have hn : ∀ w : ℂ, w = ⟨9 / 10, 1 / 5⟩ ∨ w = ⟨9 / 10, -1 / 5⟩ → ‖w‖ < 1 := by
    intro w hw
    have : ‖w‖ ^ 2 = 17 / 20 := by
      rw [Complex.sq_norm, Complex.normSq_apply]
      rcases hw with rfl | rfl <;> norm_num
    nlinarith [norm_nonneg w]
  have hI : (⟨9 / 10, 1 / 5⟩ : ℂ) = 9 / 10 + 1 / 5 * Complex.I := by apply Complex.ext <;> simp
  have hI' : (⟨9 / 10, -1 / 5⟩ : ℂ) = 9 / 10 - 1 / 5 * Complex.I := by apply Complex.ext <;> simp <;> norm_num
  refine hn z ?_
  rw [hI, hI']
  have hf : (z - (9 / 10 + 1 / 5 * Complex.I)) * (z - (9 / 10 - 1 / 5 * Complex.I)) = 0 := by
    push_cast at hz
    linear_combination hz - (1 / 25) * Complex.I_sq
  rcases mul_eq_zero.1 hf with h | h
  · exact .inl (sub_eq_zero.1 h)
  · exact .inr (sub_eq_zero.1 h)

/-- How much an error of the outputs adds to the rounding errors of one time step. -/
def errSlope (P : Accuracy) (dc : ℝ) (c : Sos ℝ) : ℝ :=
  (1 + P.u) * ((1 + P.u) * ((1 + P.u) * ((1 + P.u) * (P.u * (|c.a2| + dc) + dc) + P.u * |c.a2|) + P.u * |c.a2| + (P.u * (|c.a1| + dc) + dc)) + P.u * (|c.a2| + |c.a1|)) + P.u * (|c.a2| + |c.a1|)

/-- **C99 (size of the bound).** Whenever the gain times this slope is below 1 - which holds for every stable section when `u` and `dc` are small enough - the smallest `E` that `StageOk.err` admits is the gain times the
rounding errors of one time step, divided by what is left to 1. -/
theorem C99_error (dc : ℝ) (c : Sos ℝ) (X dx Y H : ℝ) (hs : H * errSlope P dc c < 1) (E : ℝ) :
    H * (errOut P dc c (X + dx) (Y + E) + (|c.b0| + |c.b1| + |c.b2|) * dx) ≤ E ↔ H * (errOut P dc c (X + dx) Y + (|c.b0| + |c.b1| + |c.b2|) * dx) / (1 - H * errSlope P dc c) ≤ E := by
  have e : errOut P dc c (X + dx) (Y + E) = errOut P dc c (X + dx) Y + errSlope P dc c * E := by
    unfold errOut errW1 errV errW2 prodErr errSlope
    ring
  rw [e, div_le_iff₀ (by linarith)]
  constructor <;> intro h <;> linarith

/-- A simple sufficient condition. -/
theorem gain_small {a1 a2 : ℝ} (h : |a1| + |a2| < 1) : Gain a1 a2 (1 / (1 - (|a1| + |a2|))) := by
  intro N
  have d : 0 < 1 - (|a1| + |a2|) := by linarith
  have n1 := abs_nonneg a1
  have n2 := abs_nonneg a2
  obtain ⟨U, hU⟩ : ∃ U : Nat → ℝ, U = fun n => |impulse a1 a2 n| := ⟨_, rfl⟩
  have hUn : ∀ n, 0 ≤ U n := fun n => by rw [hU]; exact abs_nonneg _
  have hmono : ∀ n, ∑ k ∈ range n, U k ≤ ∑ k ∈ range (n + 1), U k := fun n => by rw [sum_range_succ]; have := hUn n; linarith
  have hst : ∀ n, U (n + 2) ≤ |a1| * U (n + 1) + |a2| * U n := by
    intro n
    rw [hU]
    simp only [impulse]
    refine (abs_sub _ _).trans ?_
    rw [abs_mul, abs_mul, abs_neg]
  have h2 : ∀ n, ∑ k ∈ range (n + 2), U k ≤ 1 + |a1| * (∑ k ∈ range (n + 1), U k) + |a2| * ∑ k ∈ range n, U k := by
    intro n
    have := sum_le_sum fun k (_ : k ∈ range n) => hst k
    rw [sum_add_distrib, ← mul_sum, ← mul_sum] at this
    rw [sum_range_succ', sum_range_succ', sum_range_succ' _ n]
    have e0 : U 0 = 1 := by rw [hU]; simp [impulse]
    have e1 : U (0 + 1) = |a1| := by rw [hU]; simp [impulse]
    rw [e0, e1]
    linarith
  have key : ∀ n, (1 - (|a1| + |a2|)) * ∑ k ∈ range n, U k ≤ 1 := by
    intro n
    match n with
    | 0 => simp
    | 1 =>
      have e0 : U 0 = 1 := by rw [hU]; simp [impulse]
      rw [sum_range_one, e0]; linarith
    | n + 2 =>
      have := h2 n
      have m1 := mul_le_mul_of_nonneg_left (hmono (n + 1)) n1
      have m2 := mul_le_mul_of_nonneg_left ((hmono n).trans (hmono (n + 1))) n2
      linarith
  rw [le_div_iff₀ d, mul_comm]
  have := key N
  rwa [hU] at this

/-! ### A concrete case: binary32, two sections -/

section
open Binary32

/-- Two sections; the first has poles 1/4 ± i/4·√3 (magnitude 1/2). -/
noncomputable def exStages : List (Stage F32) :=
  [⟨⟨rnd (1 / 10), rnd (1 / 5), rnd (1 / 10), rnd 1, rnd (-1 / 2), rnd (1 / 4)⟩, ⟨1 / 10, 1 / 5, 1 / 10, 1, -1 / 2, 1 / 4⟩, 8 / 5, 1 / 10 ^ 5, 4⟩,
   ⟨⟨rnd 1, rnd (-1), rnd 0, rnd 1, rnd (-1 / 3), rnd 0⟩, ⟨1, -1, 0, 1, -1 / 3, 0⟩, 24 / 5, 1 / 10 ^ 4, 3 / 2⟩]

theorem ex_cascade_ok : CascadeOk fmt acc (1 / 10 ^ 7) exStages 1 (1 / 10 ^ 7) (1 / 10 ^ 4) := by
  have hb := big
  norm_num at hb
  have hM : acc.M = maxFinite := rfl
  have hu : acc.u = 1 / 2 ^ 24 := rfl
  have hη : acc.η = 1 / 2 ^ 150 := rfl
  have close : ∀ v : ℝ, |v| ≤ 1 → Close fmt (1 / 10 ^ 7) (rnd v) v := by
    intro x h
    refine ⟨fl_fin x (h.trans (by linarith)), (fl_error_any x).trans ?_⟩
    have := mul_le_mul_of_nonneg_left h (show (0 : ℝ) ≤ 1 / 2 ^ 24 by positivity)
    norm_num at this ⊢
    linarith
  have g1 : Gain (-1 / 2) (1 / 4) 4 := by
    have := gain_small (a1 := -1 / 2) (a2 := 1 / 4) (by norm_num [abs_of_pos, abs_of_neg])
    norm_num [abs_of_pos, abs_of_neg] at this
    convert this using 1
    norm_num
  have g2 : Gain (-1 / 3) 0 (3 / 2) := by
    have := gain_small (a1 := -1 / 3) (a2 := 0) (by norm_num [abs_of_pos, abs_of_neg])
    norm_num [abs_of_pos, abs_of_neg] at this
    convert this using 1
    norm_num
  refine ⟨⟨?_, ?_, ?_, ?_, ?_⟩, ⟨g1, ?_, ?_, ?_, ?_, ?_, ?_, ?_, ?_, ?_⟩, ⟨?_, ?_, ?_, ?_, ?_⟩, ⟨g2, ?_, ?_, ?_, ?_, ?_, ?_, ?_, ?_, ?_⟩, le_rfl⟩
  all_goals first
    | (refine close _ ?_; norm_num [abs_of_pos, abs_of_neg]; done)
    | (simp only [errOut, errW1, errV, errW2, prodErr, hu, hη, hM]; norm_num [abs_of_pos, abs_of_neg]; done)
    | (simp only [errOut, errW1, errV, errW2, prodErr, hu, hη, hM]; norm_num [abs_of_pos, abs_of_neg]; linarith)

/-- Every output of this filter is within 10⁻⁴ of the exact one on inputs up to 1, for any number of samples. -/
example (x' : Nat → ℝ) (hX : ∀ n, |x' n| ≤ 1) (N : Nat) :
    ∃ outs states, Iir.run (ofSections (exStages.map Stage.coef)) (List.replicate 8 0) ((List.range N).map fun n => rnd (x' n)) = some ((List.range N).map outs, states) ∧ states.length = 8 ∧
      ∀ n, Close fmt (1 / 10 ^ 4) (outs n) (cascade (exStages.map Stage.exact) x' n) := by
  have hb := big
  norm_num at hb
  refine C99_iir basic32 exStages ex_cascade_ok (fun n => rnd (x' n)) x' hX (fun n => ⟨fl_fin _ ((hX n).trans (by linarith)), (fl_error_any _).trans ?_⟩) N
  have := mul_le_mul_of_nonneg_left (hX n) (show (0 : ℝ) ≤ 1 / 2 ^ 24 by positivity)
  norm_num at this ⊢
  linarith
end

end Emlearn.Flt
