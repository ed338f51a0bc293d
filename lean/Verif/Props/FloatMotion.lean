/- C124: motion features in `float` arithmetic. -/
import Verif.Motion.FloatError
namespace Emlearn.Motion.Flt
open Emlearn.Flt Finset

variable {F : Type} {R : Format F} {P : Accuracy} [Zero F] [Add F] [Sub F] [Mul F]

/-- Gravity of one axis. -/
theorem gravity_close (h : BasicArith (F := F) R P) {dc X E : ℝ} {s1 s2 : Stage F} (hok : CascadeOk R P dc [s1, s2] X 0 E) (x : Nat → F) (hx : ∀ t, R.fin (x t) ∧ |R.val (x t)| ≤ X) (t : Nat) :
    Close R E (gravityAt [s1.coef, s2.coef] x t) (gravityR [s1.exact, s2.exact] (fun t => R.val (x t)) t) ∧ |gravityR [s1.exact, s2.exact] (fun t => R.val (x t)) t| ≤ s2.Y := by
  have hcl : ∀ n, Close R 0 (fed x n) (R.val (x (n - 10))) := fun n => ⟨(hx _).1, by simp [fed]⟩
  obtain ⟨h1, h2, h3, h4, h5⟩ := hok
  have a := stage_float h h1 h2 (fed x) (fun n => R.val (x (n - 10))) (fun n => (hx _).2) hcl
  have b := stage_float h h3 h4 _ _ (fun n => (a n).1) (fun n => (a n).2) (10 + t)
  exact ⟨b.2.mono h5, b.1⟩

/-- Motion of one axis. -/
theorem motion_close (h : BasicArith (F := F) R P) {dc X E : ℝ} {s1 s2 : Stage F} (hok : CascadeOk R P dc [s1, s2] X 0 E) (x : Nat → F) (hx : ∀ t, R.fin (x t) ∧ |R.val (x t)| ≤ X) {V D : ℝ} (hV : X + s2.Y ≤ V)
    (hD : motionErr P V E ≤ D) (hM : V + D ≤ P.M) (t : Nat) :
    Close R D (motionAt [s1.coef, s2.coef] x t) (motionR [s1.exact, s2.exact] (fun t => R.val (x t)) t) ∧ |motionR [s1.exact, s2.exact] (fun t => R.val (x t)) t| ≤ V := by
  obtain ⟨h1, h2⟩ := gravity_close h hok x hx t
  have hab : |motionR [s1.exact, s2.exact] (fun t => R.val (x t)) t| ≤ V := (abs_sub _ _).trans ((add_le_add (hx t).2 h2).trans hV)
  refine ⟨?_, hab⟩
  have hu := P.hu
  have hE : 0 ≤ E := (abs_nonneg _).trans h1.2
  have hx0 : Close R 0 (x t) (R.val (x t)) := ⟨(hx t).1, by simp⟩
  have m := mul_le_mul_of_nonneg_left hab hu
  have hV0 : 0 ≤ V := (abs_nonneg _).trans hab
  have hED : E ≤ D := by
    refine le_trans ?_ hD
    unfold motionErr
    have := mul_nonneg hu hV0
    have := mul_nonneg hu hE
    linarith
  have := Apx.diff h.sub hx0 h1 (by unfold motionR at hab; linarith)
  refine this.close.mono (le_trans ?_ hD)
  unfold motionErr
  unfold motionR at m
  linarith

variable [Neg F] {ops : MOps F}

/-- What is known about the features after a window that starts at frame `t`. -/
structure FeaturesClose (R : Format F) (P : Accuracy) (cs : List (Iir.Sos ℝ)) (x : Fin 3 → Nat → ℝ) (t W L : Nat) (τ E V D Vm Dm Dg : ℝ) (p : Pre F) (ox oy oz mr pp xr yr zr : F) : Prop where
  features : p.features = [ox, oy, oz, mr, pp, xr, yr, zr]
  /-- The orientation is the direction of gravity in the last frame. -/
  orientation : ∀ g n, g = (fun i => gravityR cs (x i) (t + W - 1)) → n = norm3R (g 0) (g 1) (g 2) → 0 < n → E + Dg ≤ n / 2 →
    Close R (2 * (1 + P.u) * (E + Dg) / n + P.u + P.η) ox (g 0 / n) ∧ Close R (2 * (1 + P.u) * (E + Dg) / n + P.u + P.η) oy (g 1 / n) ∧ Close R (2 * (1 + P.u) * (E + Dg) / n + P.u + P.η) oz (g 2 / n)
  magRms : Close R (rmsErr P W Vm Dm) mr (rms (fun j => magR cs x (t + j)) W)
  peak : ∀ lo hi, IsLeast ((fun j => magR cs x (t + j)) '' Set.Iio W) lo → IsGreatest ((fun j => magR cs x (t + j)) '' Set.Iio W) hi → Close R (rangeErr P Vm Dm) pp (hi - lo)
  xRms : Close R (rmsErr P W V D) xr (rms (fun j => motionR cs (x 0) (t + j)) W)
  yRms : Close R (rmsErr P W V D) yr (rms (fun j => motionR cs (x 1) (t + j)) W)
  zRms : Close R (rmsErr P W V D) zr (rms (fun j => motionR cs (x 2) (t + j)) W)
  /-- The spectrum of the magnitude, filled with zeros: the absolute value of the real part. -/
  spectrum : ∀ k < 2 ^ L, Close R (spectrumErr P τ L W Vm Dm) (p.fft.re k) |(Fft.dft (2 ^ L) (fun j => ((if j < W then magR cs x (t + j) else 0 : ℝ) : ℂ)) k).re|

theorem dft_sub_le (N W : Nat) (hW : W ≤ N) (a b : Nat → ℂ) (D : ℝ) (h : ∀ j < W, ‖a j - b j‖ ≤ D) (h0 : ∀ j < N, W ≤ j → a j = b j) (k : Nat) : ‖Fft.dft N a k - Fft.dft N b k‖ ≤ W * D := by
  unfold Fft.dft
  rw [← sum_sub_distrib]
  refine (norm_sum_le _ _).trans ?_
  have hexp : ∀ t : Nat, ‖Complex.exp (-(2 * Real.pi * Complex.I * (k * t) / N))‖ = 1 := by
    intro t
    rw [show (-(2 * Real.pi * Complex.I * (k * t) / N) : ℂ) = ((-(2 * Real.pi * (k * t) / N) : ℝ) : ℂ) * Complex.I by push_cast; ring]
    exact Complex.norm_exp_ofReal_mul_I _
  have e : ∀ t ∈ range N, ‖a t * Complex.exp (-(2 * Real.pi * Complex.I * (k * t) / N)) - b t * Complex.exp (-(2 * Real.pi * Complex.I * (k * t) / N))‖ = ‖a t - b t‖ := by
    intro t _
    rw [← sub_mul, norm_mul, hexp, mul_one]
  rw [sum_congr rfl e, ← sum_subset (range_subset_range.2 hW)]
  · exact (sum_le_card_nsmul _ _ D fun j hj => h j (mem_range.1 hj)).trans (by simp)
  · intro j hj hj2
    rw [h0 j (mem_range.1 hj) (by simpa using hj2)]
    simp

theorem window_close (h : MotionArith R P ops) {dc X E : ℝ} {s1 s2 : Stage F} (hok : CascadeOk R P dc [s1, s2] X 0 E) {L W : Nat} (hL : L < 32) (hW0 : 0 < W) (hW : W ≤ 2 ^ L)
    (hof : R.fin (ops.ofNat W) ∧ R.val (ops.ofNat W) = W) {τ : ℝ} (hτ : 0 ≤ τ) {table : Fft.Table F} (ht : TableOk R τ table (2 ^ L)) (x : Fin 3 → Nat → F) (hx : ∀ i t, R.fin (x i t) ∧ |R.val (x i t)| ≤ X)
    {V D Vm Dm Dg : ℝ} (hV : X + s2.Y ≤ V) (hD : motionErr P V E ≤ D) (hVm : √3 * V ≤ Vm) (hDm : normErr P V D ≤ Dm) (hDg : normErr P s2.Y E ≤ Dg) (room : Room P τ L W V D Vm Dm) {t : Nat} {p : Pre F}
    (hp : At [s1.coef, s2.coef] x W (2 ^ L) table t p) (data : List F) (hl : data.length = 6 * W) (hd : ∀ j < W, ∀ i : Fin 3, data[6 * j + i]? = some (x i (t + j))) :
    ∃ p' ox oy oz mr pp xr yr zr, run ops p data = some (0, p') ∧ At [s1.coef, s2.coef] x W (2 ^ L) table (t + W) p' ∧
      FeaturesClose R P [s1.exact, s2.exact] (fun i t => R.val (x i t)) t W L τ E V D Vm Dm Dg p' ox oy oz mr pp xr yr zr := by
  have hu := P.hu
  have hmo : ∀ i t, Close R D (motionAt [s1.coef, s2.coef] (x i) t) (motionR [s1.exact, s2.exact] (fun t => R.val (x i t)) t) ∧ |motionR [s1.exact, s2.exact] (fun t => R.val (x i t)) t| ≤ V := fun i t =>
    motion_close h.basic hok (x i) (hx i) hV hD room.diff t
  have hgr : ∀ i t, Close R E (gravityAt [s1.coef, s2.coef] (x i) t) (gravityR [s1.exact, s2.exact] (fun t => R.val (x i t)) t) ∧ |gravityR [s1.exact, s2.exact] (fun t => R.val (x i t)) t| ≤ s2.Y := fun i t =>
    gravity_close h.basic hok (x i) (hx i) t
  have hV0 : 0 ≤ V := (abs_nonneg _).trans (hmo 0 0).2
  have hD0 : 0 ≤ D := (abs_nonneg _).trans (hmo 0 0).1.2
  have hE0 : 0 ≤ E := (abs_nonneg _).trans (hgr 0 0).1.2
  have hY0 : 0 ≤ s2.Y := (abs_nonneg _).trans (hgr 0 0).2
  have hX0 : 0 ≤ X := (abs_nonneg _).trans (hx 0 0).2
  have hED : E ≤ D := by
    refine le_trans ?_ hD
    unfold motionErr
    have := mul_nonneg hu hV0
    have := mul_nonneg hu hE0
    linarith
  have hma : ∀ t, Close R Dm (magAt ops [s1.coef, s2.coef] x t) (magR [s1.exact, s2.exact] (fun i t => R.val (x i t)) t) ∧ 0 ≤ magR [s1.exact, s2.exact] (fun i t => R.val (x i t)) t ∧
      magR [s1.exact, s2.exact] (fun i t => R.val (x i t)) t ≤ Vm := by
    intro t
    refine ⟨(norm3_close h (hmo 0 t).1 (hmo 1 t).1 (hmo 2 t).1 (hmo 0 t).2 (hmo 1 t).2 (hmo 2 t).2 room.norm).mono hDm, Real.sqrt_nonneg _, ?_⟩
    exact (norm3R_bound hV0 (hmo 0 t).2 (hmo 1 t).2 (hmo 2 t).2).trans hVm
  have hDm0 : 0 ≤ Dm := (abs_nonneg _).trans (hma 0).1.2
  have hVm0 : 0 ≤ Vm := (hma 0).2.1.trans (hma 0).2.2
  have hVV : V ≤ Vm := le_trans (le_mul_of_one_le_left hV0 (by rw [Real.one_le_sqrt]; norm_num)) hVm
  have hDD : D ≤ Dm := (normErr_ge hV0 hD0).trans hDm
  have hgM : 1 ≤ fftGrowth P τ ^ L := one_le_pow₀ (one_le_growth hτ)
  have hfa : 0 ≤ fftAbs P := by unfold fftAbs; have := P.hη; positivity
  have hbuf : ∀ b : Fft.Buf F, (∀ i < 2 ^ L, b.re i = if i < W then magAt ops [s1.coef, s2.coef] x (t + i) else 0) → (∀ i < 2 ^ L, b.im i = 0) →
      (∀ i < 2 ^ L, R.fin (b.re i) ∧ R.fin (b.im i)) ∧ ∑ i ∈ range (2 ^ L), ‖cval R (b.re i) (b.im i)‖ ≤ W * (Vm + Dm) := by
    intro b h1 h2
    refine ⟨fun i hi => ⟨?_, ?_⟩, ?_⟩
    · rw [h1 i hi]
      split
      · exact (hma _).1.1
      · exact h.basic.zero.1
    · rw [h2 i hi]; exact h.basic.zero.1
    · rw [← sum_subset (range_subset_range.2 hW)]
      · refine (sum_le_card_nsmul _ _ (Vm + Dm) fun i hi => ?_).trans (by rw [card_range, nsmul_eq_mul])
        have hi := mem_range.1 hi
        rw [h1 i (by omega), if_pos hi, h2 i (by omega)]
        unfold cval
        rw [h.basic.zero.2]
        have e : (⟨R.val (magAt ops [s1.coef, s2.coef] x (t + i)), 0⟩ : ℂ) = ((R.val (magAt ops [s1.coef, s2.coef] x (t + i)) : ℝ) : ℂ) := rfl
        rw [e, Complex.norm_real, Real.norm_eq_abs]
        refine (hma (t + i)).1.abs_le.trans ?_
        rw [abs_of_nonneg (hma (t + i)).2.1]
        have := (hma (t + i)).2.2
        linarith
      · intro i hi hi2
        rw [h1 i (mem_range.1 hi), if_neg (by simpa using hi2), h2 i (mem_range.1 hi)]
        unfold cval
        rw [h.basic.zero.2]
        have e : (⟨0, 0⟩ : ℂ) = 0 := rfl
        rw [e, norm_zero]
  have hfft : ∀ b : Fft.Buf F, b.len = 2 ^ L → (∀ i < 2 ^ L, b.re i = if i < W then magAt ops [s1.coef, s2.coef] x (t + i) else 0) → (∀ i < 2 ^ L, b.im i = 0) →
      ∃ b', Fft.forward table b (2 ^ L) = some (.ok, b') ∧ b'.len = 2 ^ L ∧ ∀ k < 2 ^ L, R.fin (b'.re k) ∧ R.fin (b'.im k) ∧
        ‖cval R (b'.re k) (b'.im k) - Fft.dft (2 ^ L) (fun i => cval R (b.re i) (b.im i)) k‖ ≤ (fftGrowth P τ ^ L - 1) * (W * (Vm + Dm)) + fftAbs P * fftGrowth P τ ^ L * (2 ^ L - 1) := by
    intro b hb h1 h2
    obtain ⟨h3, h4⟩ := hbuf b h1 h2
    obtain ⟨b', e1, e2, e3⟩ := C102_fft h.basic h.neg L hL τ hτ table ht b hb h3 (le_trans (by
      have := mul_le_mul_of_nonneg_left h4 (show 0 ≤ fftGrowth P τ ^ L by linarith)
      linarith) room.fft)
    refine ⟨b', e1, e2, fun k hk => ⟨(e3 k hk).1, (e3 k hk).2.1, (e3 k hk).2.2.trans ?_⟩⟩
    have := mul_le_mul_of_nonneg_left h4 (show 0 ≤ fftGrowth P τ ^ L - 1 by linarith)
    linarith
  obtain ⟨p', e1, e2, e3, b, b', b1, b2, b3, b4, b5⟩ := run_window (ops := ops) rfl (by positivity) hW hW0 hp data hl hd (fun b hb h1 h2 => by
    obtain ⟨b', e1, e2, -⟩ := hfft b hb h1 h2
    exact ⟨b', e1, e2⟩)
  have hsum : (1 + P.u) ^ (W + 2) * (W * (V + D) ^ 2) + (1 + P.u) ^ (W + 1) * (W * P.η) + P.η ≤ P.M := by
    refine le_trans ?_ room.sum
    have m1 : (V + D) ^ 2 ≤ (Vm + Dm) ^ 2 := pow_le_pow_left₀ (by linarith) (by linarith) 2
    have m2 := mul_le_mul_of_nonneg_left (mul_le_mul_of_nonneg_left m1 (Nat.cast_nonneg (α := ℝ) W)) (pow_u_pos (P := P) (W + 2)).le
    linarith
  obtain ⟨lo, hi, r1, r2⟩ := range_close h (fun i => magAt ops [s1.coef, s2.coef] x (t + i)) (fun i => magR [s1.exact, s2.exact] (fun i t => R.val (x i t)) (t + i)) W hW0 (fun i _ => (hma _).1) (fun i _ => (hma _).2) room.range
  have hxyz : ∀ i : Fin 3, Close R (rmsErr P W V D) (ops.sqrt (ops.div (sqSum (fun j => motionAt [s1.coef, s2.coef] (x i) (t + j)) W) (ops.ofNat W)))
      (rms (fun j => motionR [s1.exact, s2.exact] (fun t => R.val (x i t)) (t + j)) W) := fun i =>
    rms_close h _ _ W hW0 hof (fun j _ => (hmo i (t + j)).1) (fun j _ => (hmo i (t + j)).2) hsum
  refine ⟨p', _, _, _, _, _, _, _, _, e1, e2, ⟨e3, ?_, ?_, ?_, hxyz 0, hxyz 1, hxyz 2, ?_⟩⟩
  · intro g n hg hn hn0 hEn
    have hgm := (norm3_close h (hgr 0 (t + W - 1)).1 (hgr 1 (t + W - 1)).1 (hgr 2 (t + W - 1)).1 (hgr 0 (t + W - 1)).2 (hgr 1 (t + W - 1)).2 (hgr 2 (t + W - 1)).2 (by
      refine le_trans ?_ room.norm
      have m1 : (s2.Y + E) ^ 2 ≤ (V + D) ^ 2 := pow_le_pow_left₀ (by linarith) (by linarith) 2
      have m2 := mul_le_mul_of_nonneg_left (mul_le_mul_of_nonneg_left m1 (show (0 : ℝ) ≤ 3 by norm_num)) (pow_u_pos (P := P) 3).le
      linarith)).mono hDg
    have e : norm3R (gravityR [s1.exact, s2.exact] (fun t => R.val (x 0 t)) (t + W - 1)) (gravityR [s1.exact, s2.exact] (fun t => R.val (x 1 t)) (t + W - 1)) (gravityR [s1.exact, s2.exact] (fun t => R.val (x 2 t)) (t + W - 1)) = n := by
      rw [hn, hg]
    rw [e] at hgm
    have hle : ∀ i, |g i| ≤ n := by
      intro i
      rw [hn, norm3R]
      refine Real.abs_le_sqrt ?_
      have q0 := sq_nonneg (g 0)
      have q1 := sq_nonneg (g 1)
      have q2 := sq_nonneg (g 2)
      match i with
      | 0 => linarith
      | 1 => linarith
      | 2 => linarith
    have hgi : ∀ i, Close R E (gravityAt [s1.coef, s2.coef] (x i) (t + W - 1)) (g i) := by
      intro i
      rw [hg]
      exact (hgr i (t + W - 1)).1
    exact ⟨orientation_float h (hgi 0) hgm hn0 (hle 0) hEn, orientation_float h (hgi 1) hgm hn0 (hle 1) hEn, orientation_float h (hgi 2) hgm hn0 (hle 2) hEn⟩
  · exact rms_close h _ _ W hW0 hof (fun j _ => (hma (t + j)).1) (fun j _ => by rw [abs_of_nonneg (hma (t + j)).2.1]; exact (hma (t + j)).2.2) room.sum
  · intro lo' hi' h1 h2
    have : (accAt ops [s1.coef, s2.coef] x t W).range = some (lo, hi) := r1
    simp only [this]
    exact r2 lo' hi' h1 h2
  · intro k hk
    obtain ⟨b'', c1, -, c3⟩ := hfft b b1 b2 b3
    rw [b4] at c1
    obtain rfl : b' = b'' := by simpa using c1
    obtain ⟨f1, f2, f3⟩ := c3 k hk
    rw [b5 k hk]
    obtain ⟨g1, g2⟩ := h.abs _ f1
    refine ⟨g1, ?_⟩
    rw [g2]
    refine (abs_abs_sub_abs_le_abs_sub _ _).trans ?_
    have e : R.val (b'.re k) = (cval R (b'.re k) (b'.im k)).re := rfl
    rw [e, ← Complex.sub_re]
    refine (Complex.abs_re_le_norm _).trans ?_
    refine (norm_sub_le_norm_sub_add_norm_sub _ (Fft.dft (2 ^ L) (fun i => cval R (b.re i) (b.im i)) k) _).trans ?_
    have hd := dft_sub_le (2 ^ L) W hW (fun i => cval R (b.re i) (b.im i)) (fun j => ((if j < W then magR [s1.exact, s2.exact] (fun i t => R.val (x i t)) (t + j) else 0 : ℝ) : ℂ)) Dm (fun j hj => by
      simp only [b2 j (by omega), b3 j (by omega), if_pos hj]
      unfold cval
      rw [h.basic.zero.2]
      have e : (⟨R.val (magAt ops [s1.coef, s2.coef] x (t + j)), 0⟩ : ℂ) = ((R.val (magAt ops [s1.coef, s2.coef] x (t + j)) : ℝ) : ℂ) := rfl
      rw [e, ← Complex.ofReal_sub, Complex.norm_real, Real.norm_eq_abs]
      exact (hma (t + j)).1.2) (fun j hj hj2 => by
      simp only [b2 j hj, b3 j hj, if_neg (show ¬ j < W by omega)]
      unfold cval
      rw [h.basic.zero.2]
      rfl) k
    unfold spectrumErr
    linarith

/-- **C124.** `motion_preprocessor_run` in rounded arithmetic, window after window, for any number of windows of any samples up to `X`: every call returns 0, and the features after the last one are close to the features that the
samples have in exact arithmetic (exact difference equations of the low-pass over all samples received so far, exact square roots, exact Fourier transform). The bounds do not depend on the number of windows: nothing accumulates.
`E` is the error of the gravity filter (C99), `V` bounds the motion of one axis, `D` its error, `Vm`, `Dm` the same for the magnitude and `Dg` the error of the length of the gravity vector. -/
theorem C124_features (h : MotionArith R P ops) {dc X E : ℝ} (s1 s2 : Stage F) (hok : CascadeOk R P dc [s1, s2] X 0 E) (L W : Nat) (hL : L < 32) (hW0 : 0 < W) (hW : W ≤ 2 ^ L)
    (hof : R.fin (ops.ofNat W) ∧ R.val (ops.ofNat W) = W) {τ : ℝ} (hτ : 0 ≤ τ) (table : Fft.Table F) (ht : TableOk R τ table (2 ^ L)) (samplerate : Nat) (hs : 0 < samplerate) (features : List F) (gravity : Fin 3 → F)
    (windows : Nat → List F) (hlen : ∀ k, (windows k).length = 6 * W) (hX : ∀ i t, R.fin (sample W windows i t) ∧ |R.val (sample W windows i t)| ≤ X) {V D Vm Dm Dg : ℝ} (hV : X + s2.Y ≤ V) (hD : motionErr P V E ≤ D)
    (hVm : √3 * V ≤ Vm) (hDm : normErr P V D ≤ Dm) (hDg : normErr P s2.Y E ≤ Dg) (room : Room P τ L W V D Vm Dm) (K : Nat) :
    ∃ p ox oy oz mr pp xr yr zr, runAll ops ((List.range (K + 1)).map windows) (start samplerate W (2 ^ L) table (s1.coef.toList ++ s2.coef.toList) features gravity) = some p ∧
      FeaturesClose R P [s1.exact, s2.exact] (fun i t => R.val (sample W windows i t)) (K * W) W L τ E V D Vm Dm Dg p ox oy oz mr pp xr yr zr := by
  have hd : ∀ k, ∀ j < W, ∀ i : Fin 3, (windows k)[6 * j + i]? = some (sample W windows i (k * W + j)) := by
    intro k j hj i
    have e1 : (k * W + j) / W = k := by rw [Nat.mul_comm, Nat.mul_add_div hW0, Nat.div_eq_of_lt hj, Nat.add_zero]
    have e2 : (k * W + j) % W = j := by rw [Nat.mul_comm, Nat.mul_add_mod, Nat.mod_eq_of_lt hj]
    unfold sample
    rw [e1, e2]
    have : 6 * j + i.val < (windows k).length := by rw [hlen]; omega
    simp [this]
  have hst : start samplerate W (2 ^ L) table (s1.coef.toList ++ s2.coef.toList) features gravity = start samplerate W (2 ^ L) table (([s1.coef, s2.coef].map Iir.Sos.toList).flatten) features gravity := by simp
  rw [hst]
  have step : ∀ k p, At [s1.coef, s2.coef] (sample W windows) W (2 ^ L) table (k * W) p → _ := fun k p hp =>
    window_close h hok hL hW0 hW hof hτ ht (sample W windows) hX hV hD hVm hDm hDg room hp (windows k) (hlen k) (hd k)
  have reach : ∀ k, ∃ p, runAll ops ((List.range k).map windows) (start samplerate W (2 ^ L) table (([s1.coef, s2.coef].map Iir.Sos.toList).flatten) features gravity) = some p ∧
      At [s1.coef, s2.coef] (sample W windows) W (2 ^ L) table (k * W) p := by
    intro k
    induction k with
    | zero => exact ⟨_, rfl, by simpa using start_at [s1.coef, s2.coef] rfl (sample W windows) samplerate W (2 ^ L) hs table features gravity⟩
    | succ k ih =>
      obtain ⟨p, e, hp⟩ := ih
      obtain ⟨p', _, _, _, _, _, _, _, _, e', hp', -⟩ := step k p hp
      refine ⟨p', ?_, by rw [Nat.succ_mul]; exact hp'⟩
      rw [List.range_succ, List.map_append, runAll_append, e]
      simp [runAll, e']
  obtain ⟨p, e, hp⟩ := reach K
  obtain ⟨p', ox, oy, oz, mr, pp, xr, yr, zr, e', -, hf⟩ := step K p hp
  refine ⟨p', ox, oy, oz, mr, pp, xr, yr, zr, ?_, hf⟩
  rw [List.range_succ, List.map_append, runAll_append, e]
  simp [runAll, e']

end Emlearn.Motion.Flt
