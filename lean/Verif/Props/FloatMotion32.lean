/- C124: motion features in binary32, with the errors as plain numbers. -/
import Verif.Props.FloatMotion
import Verif.Float.Nearest
namespace Emlearn.Motion.Flt
open Emlearn.Flt Finset
section
open Binary32
variable {P : Accuracy}

/-- The operations of binary32. -/
noncomputable def ops32 : MOps F32 :=
  { div := Binary32.div, sqrt := fun a => rnd √a.val, abs := fun a => rnd |a.val|, lt := fun a b => @decide (a.val < b.val) (Classical.propDecidable _), ofNat := fun n => rnd n }

theorem fl_nonneg {x : ℝ} (h : 0 ≤ x) : 0 ≤ fl x := by
  have := fl_nearest.mono h
  rwa [fl_zero] at this

theorem motionArith32 : MotionArith fmt acc ops32 where
  basic := basic32
  neg := negOk32
  div := divOk
  sqrt := fun a _ _ h => by
    have := fl_error_any √a.val
    rw [abs_of_nonneg (Real.sqrt_nonneg a.val)] at this
    exact ⟨fl_fin _ (by rwa [abs_of_nonneg (Real.sqrt_nonneg _)]), this⟩
  sq := fun a _ _ => fl_nonneg (mul_self_nonneg a.val)
  quot := fun a b _ _ h1 h2 _ => fl_nonneg (div_nonneg h1 h2.le)
  abs := fun a h => by
    have e : fl |a.val| = |a.val| := by
      rcases abs_choice a.val with h | h <;> rw [h]
      · exact fl_val a
      · exact fl_neg_val a
    refine ⟨?_, e⟩
    show abs (fl |a.val|) ≤ maxFinite
    rw [e, abs_abs]
    exact h
  lt := fun a b _ _ => by simp [ops32, fmt]
  unit := by norm_num [acc]
  room := le_trans (by norm_num) big

theorem ofNat32 (n : Nat) (h : n < 2 ^ 24) : fmt.fin (ops32.ofNat n) ∧ fmt.val (ops32.ofNat n) = n := by
  have e : fl (n : ℝ) = n := by simpa using fl_exact n 0 (by simpa using (by exact_mod_cast h : (n : ℤ) < 2 ^ 24)) (by norm_num)
  refine ⟨?_, e⟩
  show |fl (n : ℝ)| ≤ maxFinite
  rw [e, abs_of_nonneg (Nat.cast_nonneg n)]
  refine le_trans ?_ big
  have : (n : ℝ) ≤ 2 ^ 24 := by exact_mod_cast h.le
  exact this.trans (by norm_num)

/-- The square root of a tiny number is tiny. -/
theorem sqrt_tiny {y : ℝ} (h : y ≤ 1 / 2 ^ 140) : √y ≤ 1 / 2 ^ 70 := by
  rw [Real.sqrt_le_left (by positivity)]
  refine h.trans (le_of_eq ?_)
  norm_num

theorem sqrt3_le : √3 ≤ 1733 / 1000 := by rw [Real.sqrt_le_left (by norm_num)]; norm_num

theorem pow32_le {W : Nat} (hW : W ≤ 128) {k : Nat} (hk : k ≤ 3) : (1 + acc.u) ^ (W + k) ≤ 1 + 8 / 10 ^ 6 := by
  refine (pow_u_mono (P := acc) (show W + k ≤ 131 by omega)).trans ?_
  show (1 + 1 / 2 ^ 24 : ℝ) ^ 131 ≤ _
  norm_num

theorem motionErr32 {V E : ℝ} (hV : 0 ≤ V) (hE : 0 ≤ E) : motionErr acc V E ≤ 1001 / 1000 * E + V / 10 ^ 7 := by
  have hu : acc.u = 1 / 2 ^ 24 := rfl
  unfold motionErr
  rw [hu]
  norm_num
  linarith

theorem normErr32 {V D : ℝ} (hV : 1 / 10 ^ 10 ≤ V) (hD : 0 ≤ D) : normErr acc V D ≤ 1734 / 1000 * D + 5 * V / 10 ^ 7 := by
  have hu : acc.u = 1 / 2 ^ 24 := rfl
  have hη : acc.η = 1 / 2 ^ 150 := rfl
  have h1 : √((1 + acc.u) ^ 2 * (3 * acc.η)) ≤ 1 / 2 ^ 70 := sqrt_tiny (by rw [hu, hη]; norm_num)
  have h3 := sqrt3_le
  have p4 : (1 + acc.u) ^ 4 ≤ 1 + 24 / 10 ^ 8 := by rw [hu]; norm_num
  have p0 : 0 < (1 + acc.u) ^ 4 := by rw [hu]; positivity
  have p1 : 1 ≤ (1 + acc.u) ^ 4 := one_le_pow_u (P := acc) 4
  have a1 : √3 * D ≤ 1733 / 1000 * D := mul_le_mul_of_nonneg_right h3 hD
  have a2 : √3 * V ≤ 1733 / 1000 * V := mul_le_mul_of_nonneg_right h3 (by linarith [show (0 : ℝ) < 1 / 10 ^ 10 by positivity])
  have b1 : (1 + acc.u) ^ 4 * (√3 * D) ≤ (1 + 24 / 10 ^ 8) * (1733 / 1000 * D) := mul_le_mul p4 a1 (by positivity) (by norm_num)
  have b2 : ((1 + acc.u) ^ 4 - 1) * (√3 * V) ≤ 24 / 10 ^ 8 * (1733 / 1000 * V) := mul_le_mul (by linarith) a2 (mul_nonneg (Real.sqrt_nonneg 3) (by linarith [show (0 : ℝ) < 1 / 10 ^ 10 by positivity])) (by norm_num)
  have b3 : (1 + acc.u) * √((1 + acc.u) ^ 2 * (3 * acc.η)) ≤ 2 * (1 / 2 ^ 70) := mul_le_mul (by rw [hu]; norm_num) h1 (Real.sqrt_nonneg _) (by norm_num)
  unfold normErr
  have b4 : acc.η ≤ 1 / 2 ^ 70 := by rw [hη]; norm_num
  norm_num at b1 b2 b3 b4 hV ⊢
  linarith

theorem rmsErr32 {V D : ℝ} {W : Nat} (hW : W ≤ 128) (hV : 1 / 10 ^ 10 ≤ V) (hD : 0 ≤ D) : rmsErr acc W V D ≤ 10001 / 10000 * D + 9 * V / 10 ^ 6 := by
  have hu : acc.u = 1 / 2 ^ 24 := rfl
  have hη : acc.η = 1 / 2 ^ 150 := rfl
  have q := pow32_le hW (show 3 ≤ 3 by omega)
  have q1 := pow32_le hW (show 1 ≤ 3 by omega)
  have h1 : √(((1 + acc.u) ^ (W + 1) + 1) * acc.η) ≤ 1 / 2 ^ 70 := sqrt_tiny (by
    have := mul_le_mul_of_nonneg_right q1 acc.hη
    rw [hη] at this ⊢
    norm_num at this ⊢
    linarith)
  have hV0 : 0 ≤ V := le_trans (by positivity) hV
  have b1 := mul_le_mul_of_nonneg_right q hD
  have b2 := mul_le_mul_of_nonneg_right q hV0
  have b3 : (1 + acc.u) * √(((1 + acc.u) ^ (W + 1) + 1) * acc.η) ≤ 2 * (1 / 2 ^ 70) := mul_le_mul (by rw [hu]; norm_num) h1 (Real.sqrt_nonneg _) (by norm_num)
  unfold rmsErr
  have b4 : acc.η ≤ 1 / 2 ^ 70 := by rw [hη]; norm_num
  norm_num at b1 b2 b3 b4 hV ⊢
  linarith

theorem growth32 {L : Nat} (hL : L ≤ 7) : fftGrowth acc (1 / 2 ^ 20) ^ L ≤ 1 + 1 / 10 ^ 5 := by
  have hu : acc.u = 1 / 2 ^ 24 := rfl
  have s2 : √2 ≤ 3 / 2 := by rw [Real.sqrt_le_left (by norm_num)]; norm_num
  have h1 : fftGrowth acc (1 / 2 ^ 20) ≤ 1 + 13 / 10 ^ 7 := by
    unfold fftGrowth
    rw [hu]
    have := mul_le_mul_of_nonneg_right s2 (show (0 : ℝ) ≤ 2 * (1 / 2 ^ 24) + (1 / 2 ^ 24) ^ 2 by positivity)
    norm_num at this ⊢
    linarith
  have h0 : 1 ≤ fftGrowth acc (1 / 2 ^ 20) := one_le_growth (by positivity)
  refine (pow_le_pow_right₀ h0 hL).trans ((pow_le_pow_left₀ (by linarith) h1 7).trans ?_)
  norm_num

theorem fftAbs32 : fftAbs acc ≤ 1 / 2 ^ 140 := by
  have hu : acc.u = 1 / 2 ^ 24 := rfl
  have hη : acc.η = 1 / 2 ^ 150 := rfl
  have s2 : √2 ≤ 3 / 2 := by rw [Real.sqrt_le_left (by norm_num)]; norm_num
  unfold fftAbs
  rw [hu, hη]
  have := mul_le_mul_of_nonneg_right s2 (show (0 : ℝ) ≤ 2 * (1 + 1 / 2 ^ 24) * (1 / 2 ^ 150) by positivity)
  norm_num at this ⊢
  linarith

theorem fftAbs_nonneg (P : Accuracy) : 0 ≤ fftAbs P := by
  have := P.hη
  have := P.hu
  unfold fftAbs
  positivity

theorem spectrumErr32 {V D : ℝ} {L W : Nat} (hL : L ≤ 7) (hW0 : 0 < W) (hV : 1 / 10 ^ 10 ≤ V) (hD : 0 ≤ D) : spectrumErr acc (1 / 2 ^ 20) L W V D ≤ W * (10001 / 10000 * D + 11 * V / 10 ^ 6) := by
  have g := growth32 hL
  have f := fftAbs32
  have f0 : 0 ≤ fftAbs acc := fftAbs_nonneg acc
  have hV0 : 0 ≤ V := le_trans (by positivity) hV
  have hW1 : (1 : ℝ) ≤ W := by exact_mod_cast hW0
  have g0 : 1 ≤ fftGrowth acc (1 / 2 ^ 20) ^ L := one_le_pow₀ (one_le_growth (by positivity))
  have p2 : (2 : ℝ) ^ L ≤ 2 ^ 7 := pow_le_pow_right₀ (by norm_num) hL
  have p1 : (1 : ℝ) ≤ 2 ^ L := one_le_pow₀ (by norm_num)
  have a1 : (fftGrowth acc (1 / 2 ^ 20) ^ L - 1) * (W * (V + D)) ≤ 1 / 10 ^ 5 * (W * (V + D)) := mul_le_mul_of_nonneg_right (by linarith) (by positivity)
  have a2 : fftAbs acc * fftGrowth acc (1 / 2 ^ 20) ^ L ≤ 1 / 2 ^ 140 * 2 := mul_le_mul f (by linarith) (by linarith) (by positivity)
  have a3 : fftAbs acc * fftGrowth acc (1 / 2 ^ 20) ^ L * (2 ^ L - 1) ≤ 1 / 2 ^ 140 * 2 * 2 ^ 7 := mul_le_mul a2 (by linarith) (by linarith) (by positivity)
  have a4 : (1 : ℝ) / 2 ^ 140 * 2 * 2 ^ 7 ≤ V / 10 ^ 6 := by
    rw [le_div_iff₀ (by positivity)]
    refine le_trans ?_ hV
    norm_num
  have a5 : V / 10 ^ 6 ≤ W * (V / 10 ^ 6) := le_mul_of_one_le_left (by positivity) hW1
  have a6 : 0 ≤ (W : ℝ) * D := by positivity
  unfold spectrumErr
  have e : (W : ℝ) * (10001 / 10000 * D + 11 * V / 10 ^ 6) = W * D + 1 / 10 ^ 4 * (W * D) + 10 * (W * (V / 10 ^ 6)) + W * (V / 10 ^ 6) := by ring
  have e2 : 1 / 10 ^ 5 * ((W : ℝ) * (V + D)) = 10 * (W * (V / 10 ^ 6)) + 1 / 10 ^ 5 * (W * D) := by ring
  rw [e]
  rw [e2] at a1
  norm_num at a1 a3 a4 a5 a6 ⊢
  linarith

theorem normErr_mono {V V' D : ℝ} (h : V ≤ V') : normErr P V D ≤ normErr P V' D := by
  have := mul_le_mul_of_nonneg_left (mul_le_mul_of_nonneg_left h (Real.sqrt_nonneg 3)) (sub_nonneg.2 (one_le_pow_u (P := P) 4))
  unfold normErr
  linarith

theorem room32 {V E : ℝ} {L W : Nat} (hL : L ≤ 7) (hW0 : 0 < W) (hW : W ≤ 128) (hV : 1 / 10 ^ 10 ≤ V) (hV1 : V ≤ 2 ^ 40) (hE : 0 ≤ E) (hEV : E ≤ V) :
    Room acc (1 / 2 ^ 20) L W V (1001 / 1000 * E + V / 10 ^ 7) (1733 / 1000 * V) (174 / 100 * E + V / 10 ^ 6) := by
  have hb : (2 : ℝ) ^ 100 ≤ acc.M := big
  have hη : acc.η ≤ 1 := by show (1 : ℝ) / 2 ^ 150 ≤ 1; norm_num
  have hη0 := acc.hη
  have hV0 : 0 ≤ V := le_trans (by positivity) hV
  have hWr : (W : ℝ) ≤ 128 := by exact_mod_cast hW
  have hW1 : (0 : ℝ) ≤ W := Nat.cast_nonneg W
  have q2 : (1 + acc.u) ^ (W + 2) ≤ 2 := (pow32_le hW (show 2 ≤ 3 by omega)).trans (by norm_num)
  have q1 : (1 + acc.u) ^ (W + 1) ≤ 2 := (pow32_le hW (show 1 ≤ 3 by omega)).trans (by norm_num)
  have p3 : (1 + acc.u) ^ 3 ≤ 2 := by show (1 + 1 / 2 ^ 24 : ℝ) ^ 3 ≤ 2; norm_num
  have p2 : (1 + acc.u) ^ 2 ≤ 2 := by show (1 + 1 / 2 ^ 24 : ℝ) ^ 2 ≤ 2; norm_num
  have d1 : V + (1001 / 1000 * E + V / 10 ^ 7) ≤ 2 ^ 42 := by norm_num at hV1 ⊢; linarith
  have d2 : 1733 / 1000 * V + (174 / 100 * E + V / 10 ^ 6) ≤ 2 ^ 42 := by norm_num at hV1 ⊢; linarith
  have d1' : 0 ≤ V + (1001 / 1000 * E + V / 10 ^ 7) := by positivity
  have d2' : 0 ≤ 1733 / 1000 * V + (174 / 100 * E + V / 10 ^ 6) := by positivity
  have g := growth32 hL
  have g0 : 1 ≤ fftGrowth acc (1 / 2 ^ 20) ^ L := one_le_pow₀ (one_le_growth (by positivity))
  have f := fftAbs32
  have f0 := fftAbs_nonneg acc
  have pL : (2 : ℝ) ^ L ≤ 2 ^ 7 := pow_le_pow_right₀ (by norm_num) hL
  refine ⟨?_, ?_, ?_, ?_, ?_⟩
  · norm_num at hb d1 ⊢; linarith
  · have a1 := pow_le_pow_left₀ d1' d1 2
    have a2 : (1 + acc.u) ^ 3 * (3 * (V + (1001 / 1000 * E + V / 10 ^ 7)) ^ 2) ≤ 2 * (3 * (2 ^ 42) ^ 2) := mul_le_mul p3 (by linarith) (by positivity) (by norm_num)
    have a3 : (1 + acc.u) ^ 2 * (3 * acc.η) ≤ 2 * 3 := mul_le_mul p2 (by linarith) (by linarith) (by norm_num)
    norm_num at hb a2 a3 ⊢; linarith
  · have a1 := pow_le_pow_left₀ d2' d2 2
    have a0 : (W : ℝ) * (1733 / 1000 * V + (174 / 100 * E + V / 10 ^ 6)) ^ 2 ≤ 128 * (2 ^ 42) ^ 2 := mul_le_mul hWr a1 (by positivity) (by norm_num)
    have a2 : (1 + acc.u) ^ (W + 2) * (W * (1733 / 1000 * V + (174 / 100 * E + V / 10 ^ 6)) ^ 2) ≤ 2 * (128 * (2 ^ 42) ^ 2) := mul_le_mul q2 a0 (by positivity) (by norm_num)
    have a4 : (W : ℝ) * acc.η ≤ 128 * 1 := mul_le_mul hWr hη hη0 (by norm_num)
    have a3 : (1 + acc.u) ^ (W + 1) * (W * acc.η) ≤ 2 * (128 * 1) := mul_le_mul q1 a4 (mul_nonneg hW1 hη0) (by norm_num)
    norm_num at hb a2 a3 ⊢; linarith
  · norm_num at hb hV1 ⊢; linarith
  · have a0 : (W : ℝ) * (1733 / 1000 * V + (174 / 100 * E + V / 10 ^ 6)) ≤ 128 * 2 ^ 42 := mul_le_mul hWr d2 d2' (by norm_num)
    have a1 : fftGrowth acc (1 / 2 ^ 20) ^ L * (W * (1733 / 1000 * V + (174 / 100 * E + V / 10 ^ 6))) ≤ 2 * (128 * 2 ^ 42) := mul_le_mul (g.trans (by norm_num)) a0 (mul_nonneg hW1 d2') (by norm_num)
    have a2 : fftAbs acc * fftGrowth acc (1 / 2 ^ 20) ^ L ≤ 1 * 2 := mul_le_mul (f.trans (by norm_num)) (g.trans (by norm_num)) (by linarith) (by norm_num)
    have a3 : fftAbs acc * fftGrowth acc (1 / 2 ^ 20) ^ L * 2 ^ L ≤ 1 * 2 * 2 ^ 7 := mul_le_mul a2 pL (by positivity) (by norm_num)
    norm_num at hb a1 a3 ⊢; linarith

/-- **C124, `float`.** In binary32, windows of up to 128 frames: the errors as plain numbers. `V` bounds the motion of one axis. -/
theorem C124_binary32 {dc X E V : ℝ} (s1 s2 : Stage F32) (hok : CascadeOk fmt acc dc [s1, s2] X 0 E) (L W : Nat) (hL : L ≤ 7) (hW0 : 0 < W) (hW : W ≤ 2 ^ L) (table : Fft.Table F32) (ht : TableOk fmt (1 / 2 ^ 20) table (2 ^ L))
    (samplerate : Nat) (hs : 0 < samplerate) (features : List F32) (gravity : Fin 3 → F32) (windows : Nat → List F32) (hlen : ∀ k, (windows k).length = 6 * W)
    (hX : ∀ i t, fmt.fin (sample W windows i t) ∧ |fmt.val (sample W windows i t)| ≤ X) (hV : V = X + s2.Y) (hV0 : 1 / 10 ^ 10 ≤ V) (hV1 : V ≤ 2 ^ 40) (hEV : E ≤ V) (K : Nat) :
    ∃ p ox oy oz mr pp xr yr zr, runAll ops32 ((List.range (K + 1)).map windows) (start samplerate W (2 ^ L) table (s1.coef.toList ++ s2.coef.toList) features gravity) = some p ∧
      p.features = [ox, oy, oz, mr, pp, xr, yr, zr] ∧
      ∀ (x : Fin 3 → Nat → ℝ) (cs : List (Iir.Sos ℝ)) (t : Nat), x = (fun i t => fmt.val (sample W windows i t)) → cs = [s1.exact, s2.exact] → t = K * W →
        (∀ g n, g = (fun i => gravityR cs (x i) (t + W - 1)) → n = norm3R (g 0) (g 1) (g 2) → 0 < n → 6 * E + 2 * V / 10 ^ 6 ≤ n →
          Close fmt ((6 * E + 2 * V / 10 ^ 6) / n + 1 / 10 ^ 7) ox (g 0 / n) ∧ Close fmt ((6 * E + 2 * V / 10 ^ 6) / n + 1 / 10 ^ 7) oy (g 1 / n) ∧ Close fmt ((6 * E + 2 * V / 10 ^ 6) / n + 1 / 10 ^ 7) oz (g 2 / n)) ∧
        Close fmt (175 / 100 * E + 2 * V / 10 ^ 5) mr (rms (fun j => magR cs x (t + j)) W) ∧
        (∀ lo hi, IsLeast ((fun j => magR cs x (t + j)) '' Set.Iio W) lo → IsGreatest ((fun j => magR cs x (t + j)) '' Set.Iio W) hi → Close fmt (35 / 10 * E + 3 * V / 10 ^ 6) pp (hi - lo)) ∧
        Close fmt (101 / 100 * E + V / 10 ^ 5) xr (rms (fun j => motionR cs (x 0) (t + j)) W) ∧
        Close fmt (101 / 100 * E + V / 10 ^ 5) yr (rms (fun j => motionR cs (x 1) (t + j)) W) ∧
        Close fmt (101 / 100 * E + V / 10 ^ 5) zr (rms (fun j => motionR cs (x 2) (t + j)) W) ∧
        ∀ k < 2 ^ L, Close fmt (W * (175 / 100 * E + 3 * V / 10 ^ 5)) (p.fft.re k) |(Fft.dft (2 ^ L) (fun j => ((if j < W then magR cs x (t + j) else 0 : ℝ) : ℂ)) k).re| := by
  have hgr := gravity_close basic32 hok (sample W windows 0) (hX 0) 0
  have hE0 : 0 ≤ E := (abs_nonneg _).trans hgr.1.2
  have hY0 : 0 ≤ s2.Y := (abs_nonneg _).trans hgr.2
  have hX0 : 0 ≤ X := (abs_nonneg _).trans (hX 0 0).2
  have hW128 : W ≤ 128 := hW.trans (by calc 2 ^ L ≤ 2 ^ 7 := Nat.pow_le_pow_right (by omega) hL
    _ = 128 := by norm_num)
  have hVp : 0 < V := lt_of_lt_of_le (by positivity) hV0
  have hD0 : 0 ≤ 1001 / 1000 * E + V / 10 ^ 7 := by positivity
  have hDm0 : 0 ≤ 174 / 100 * E + V / 10 ^ 6 := by positivity
  have hDm : normErr acc V (1001 / 1000 * E + V / 10 ^ 7) ≤ 174 / 100 * E + V / 10 ^ 6 := by
    have := normErr32 hV0 hD0
    norm_num at this ⊢
    linarith
  have hDg : normErr acc s2.Y E ≤ 1734 / 1000 * E + 5 * V / 10 ^ 7 := (normErr_mono (show s2.Y ≤ V by linarith)).trans (normErr32 hV0 hE0)
  obtain ⟨p, ox, oy, oz, mr, pp, xr, yr, zr, e, hf⟩ := C124_features motionArith32 s1 s2 hok L W (by omega) hW0 hW (ofNat32 W (by omega)) (show (0 : ℝ) ≤ 1 / 2 ^ 20 by positivity) table ht samplerate hs features gravity windows hlen hX
    (V := V) (D := 1001 / 1000 * E + V / 10 ^ 7) (Vm := 1733 / 1000 * V) (Dm := 174 / 100 * E + V / 10 ^ 6) (Dg := 1734 / 1000 * E + 5 * V / 10 ^ 7) hV.ge (motionErr32 hVp.le hE0)
    (mul_le_mul_of_nonneg_right sqrt3_le hVp.le) hDm hDg (room32 hL hW0 hW128 hV0 hV1 hE0 hEV) K
  refine ⟨p, ox, oy, oz, mr, pp, xr, yr, zr, e, hf.features, ?_⟩
  rintro x cs t rfl rfl rfl
  have hVm : 1 / 10 ^ 10 ≤ 1733 / 1000 * V := by linarith
  have hax : rmsErr acc W V (1001 / 1000 * E + V / 10 ^ 7) ≤ 101 / 100 * E + V / 10 ^ 5 := by
    have := rmsErr32 hW128 hV0 hD0
    norm_num at this ⊢
    linarith
  refine ⟨?_, ?_, ?_, hf.xRms.mono hax, hf.yRms.mono hax, hf.zRms.mono hax, ?_⟩
  · intro g n hg hn hn0 hEn
    have h1 : E + (1734 / 1000 * E + 5 * V / 10 ^ 7) ≤ n / 2 := by
      norm_num at hEn ⊢
      linarith
    have h2 : 2 * (1 + acc.u) * (E + (1734 / 1000 * E + 5 * V / 10 ^ 7)) / n + acc.u + acc.η ≤ (6 * E + 2 * V / 10 ^ 6) / n + 1 / 10 ^ 7 := by
      have hu : acc.u = 1 / 2 ^ 24 := rfl
      have hη : acc.η = 1 / 2 ^ 150 := rfl
      have a1 : 2 * (1 + acc.u) * (E + (1734 / 1000 * E + 5 * V / 10 ^ 7)) ≤ 6 * E + 2 * V / 10 ^ 6 := by
        rw [hu]
        norm_num
        linarith
      have a2 := div_le_div_of_nonneg_right a1 hn0.le
      have a3 : acc.u + acc.η ≤ 1 / 10 ^ 7 := by rw [hu, hη]; norm_num
      linarith
    obtain ⟨o1, o2, o3⟩ := hf.orientation g n hg hn hn0 h1
    exact ⟨o1.mono h2, o2.mono h2, o3.mono h2⟩
  · refine hf.magRms.mono ?_
    have := rmsErr32 hW128 hVm hDm0
    norm_num at this ⊢
    linarith
  · intro lo hi h1 h2
    refine (hf.peak lo hi h1 h2).mono ?_
    have hu : acc.u = 1 / 2 ^ 24 := rfl
    unfold rangeErr
    rw [hu]
    norm_num
    linarith
  · intro k hk
    refine (hf.spectrum k hk).mono ((spectrumErr32 hL hW0 hVm hDm0).trans (mul_le_mul_of_nonneg_left ?_ (Nat.cast_nonneg W)))
    norm_num
    linarith

/-- A low-pass of two equal sections with a gain of 1 for a constant. -/
noncomputable def exSection (E : ℝ) : Stage F32 := ⟨⟨rnd (1 / 8), rnd (1 / 8), rnd 0, rnd 1, rnd (-3 / 4), rnd 0⟩, ⟨1 / 8, 1 / 8, 0, 1, -3 / 4, 0⟩, 4, E, 4⟩

theorem exSection_ok : CascadeOk fmt acc (1 / 10 ^ 7) [exSection (1 / 10 ^ 4), exSection (2 / 10 ^ 4)] 4 0 (2 / 10 ^ 4) := by
  have hb := big
  norm_num at hb
  have hM : acc.M = maxFinite := rfl
  have hu : acc.u = 1 / 2 ^ 24 := rfl
  have hη : acc.η = 1 / 2 ^ 150 := rfl
  have close : ∀ v : ℝ, |v| ≤ 1 → Close fmt (1 / 10 ^ 7) (rnd v) v := by
    intro x h
    refine ⟨fl_fin x (h.trans (by linarith)), (fl_error_any x).trans ?_⟩
    have := mul_le_mul_of_nonneg_left h (show (0 : ℝ) ≤ 1 / 2 ^ 24 by positivity)
    norm_num at this ⊢
    linarith
  have g1 : Gain (-3 / 4) 0 4 := by
    have := gain_small (a1 := -3 / 4) (a2 := 0) (by norm_num [abs_of_pos, abs_of_neg])
    norm_num [abs_of_pos, abs_of_neg] at this
    convert this using 1
    norm_num
  refine ⟨⟨?_, ?_, ?_, ?_, ?_⟩, ⟨g1, ?_, ?_, ?_, ?_, ?_, ?_, ?_, ?_, ?_⟩, ⟨?_, ?_, ?_, ?_, ?_⟩, ⟨g1, ?_, ?_, ?_, ?_, ?_, ?_, ?_, ?_, ?_⟩, le_rfl⟩
  all_goals first
    | (refine close _ ?_; norm_num [exSection, abs_of_pos, abs_of_neg])
    | (simp only [exSection, errOut, errW1, errV, errW2, prodErr, hu, hη, hM]; norm_num [abs_of_pos, abs_of_neg]; done)
    | (simp only [exSection, errOut, errW1, errV, errW2, prodErr, hu, hη, hM]; norm_num [abs_of_pos, abs_of_neg]; linarith)

/-- Accelerations up to 4, windows of 50 frames, 64 FFT points: after any number of windows the x RMS is within 0.0003 of the exact one. -/
example (windows : Nat → List F32) (hlen : ∀ k, (windows k).length = 300) (hX : ∀ i t, fmt.fin (sample 50 windows i t) ∧ |fmt.val (sample 50 windows i t)| ≤ 4) (K : Nat) :
    ∃ p ox oy oz mr pp xr yr zr, runAll ops32 ((List.range (K + 1)).map windows) (start 50 50 64 (Emlearn.Flt.exTable 64) ((exSection (1 / 10 ^ 4)).coef.toList ++ (exSection (2 / 10 ^ 4)).coef.toList) [] (fun _ => 0)) = some p ∧
      p.features = [ox, oy, oz, mr, pp, xr, yr, zr] ∧
      Close fmt (3 / 10 ^ 4) xr (rms (fun j => motionR [(exSection (1 / 10 ^ 4)).exact, (exSection (2 / 10 ^ 4)).exact] (fun t => fmt.val (sample 50 windows 0 t)) (K * 50 + j)) 50) := by
  obtain ⟨p, ox, oy, oz, mr, pp, xr, yr, zr, e1, e2, e3⟩ := C124_binary32 (V := 8) _ _ exSection_ok 6 50 (by norm_num) (by norm_num) (by norm_num) (exTable 64) (exTable_ok 64) 50 (by norm_num) [] (fun _ => 0) windows hlen hX
    (by norm_num [exSection]) (by norm_num) (by norm_num) (by norm_num) K
  refine ⟨p, ox, oy, oz, mr, pp, xr, yr, zr, e1, e2, ?_⟩
  obtain ⟨-, -, -, h, -⟩ := e3 _ _ _ rfl rfl rfl
  exact h.mono (by norm_num)

/-- Such windows exist: the first axis carries the frame number modulo 4. -/
example : ∀ i t, fmt.fin (sample 50 (fun _ => (List.range 300).map fun n => rnd ((n / 6 % 4 : Nat) : ℝ)) i t) ∧ |fmt.val (sample 50 (fun _ => (List.range 300).map fun n => rnd ((n / 6 % 4 : Nat) : ℝ)) i t)| ≤ 4 := by
  intro i t
  have hlt : 6 * (t % 50) + i.val < 300 := by have := Nat.mod_lt t (show 0 < 50 by norm_num); omega
  have e : sample 50 (fun _ => (List.range 300).map fun n => rnd ((n / 6 % 4 : Nat) : ℝ)) i t = ops32.ofNat ((6 * (t % 50) + i.val) / 6 % 4) := by
    unfold sample
    rw [List.getD_eq_getElem?_getD, List.getElem?_map, List.getElem?_range hlt]
    rfl
  rw [e]
  have h4 : (6 * (t % 50) + i.val) / 6 % 4 < 4 := Nat.mod_lt _ (by norm_num)
  obtain ⟨h1, h2⟩ := ofNat32 ((6 * (t % 50) + i.val) / 6 % 4) (by omega)
  refine ⟨h1, ?_⟩
  rw [h2, abs_of_nonneg (Nat.cast_nonneg _)]
  exact_mod_cast h4.le
end
end Emlearn.Motion.Flt
