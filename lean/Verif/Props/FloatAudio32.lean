/- C125: accuracy of the edges, bins and frequencies of the mel filters in `float` arithmetic, and a concrete instance in binary32. -/
import Verif.Props.FloatAudio
import Verif.Props.FloatMotion32
import Verif.Float.Softmax
import Verif.Float.Bits
namespace Emlearn.Audio.Flt
open Emlearn.Flt Finset

variable {F : Type} {R : Format F} {P : Accuracy} {v : ℝ} [Zero F] [Add F] [Sub F] [Mul F] [Neg F] {ops : AOps F}

/-! ### Errors -/

/-- Error of the distance of the outermost edges on the mel scale, each at most `T` and known up to `em`. -/
def spanErr (P : Accuracy) (T em : ℝ) : ℝ := (1 + P.u) * (em + em) + P.u * (T + T)

/-- Error of `n * melstep`, for `n` up to the number of steps `N`. -/
def offsetErr (P : Accuracy) (N : Nat) (T em : ℝ) : ℝ :=
  let q := spanErr P T em + P.u * (T + T + spanErr P T em) + N * P.η
  q + P.u * (T + T + q) + P.η

/-- Error of an edge on the mel scale. -/
def melErr (P : Accuracy) (N : Nat) (T em : ℝ) : ℝ := (1 + P.u) * (em + offsetErr P N T em) + P.u * (T + (T + T))

/-- Error of an edge in Hz, at most `C`, with a conversion accurate to `eh`. -/
noncomputable def edgeErr (P : Accuracy) (N : Nat) (T C em eh : ℝ) : ℝ := eh + melErr P N T em * (C + 700) / 500

/-- Error of a bin frequency, at most `C`. -/
def freqErr (P : Accuracy) (C : ℝ) : ℝ :=
  let a := P.u * C + P.η
  let b := a + P.u * (C + a) + P.η
  b + P.u * (C + b) + P.η

/-- Error of the position of an edge in bins, `I` being the length of the FFT plus one and `S` the sample rate. -/
noncomputable def positionErr (P : Accuracy) (I : Nat) (S C dc : ℝ) : ℝ :=
  let a := dc / S + P.u * ((C + dc) / S) + P.η
  I * a + P.u * (I * (C / S + a)) + P.η

/-- The library functions are accurate to `em` on the mel scale and to `eh` in Hz, `floor` is exact. -/
structure MelLib (R : Format F) (ops : AOps F) (T em eh : ℝ) : Prop where
  fromHz : ∀ a, R.fin a → 0 ≤ R.val a → |melsFromHz (R.val a)| ≤ T → Close R em (ops.fromHz a) (melsFromHz (R.val a))
  toHz : ∀ a, R.fin a → |R.val a| ≤ T + 1 → Close R eh (ops.toHz a) (melsToHz (R.val a))
  floor : ∀ a, R.fin a → |R.val a| ≤ 2 ^ 30 → ops.floor a = ⌊R.val a⌋

/-- The range needed for the edges and frequencies. -/
structure EdgeRoom (P : Accuracy) (N : Nat) (T C em : ℝ) : Prop where
  mel : T + (T + T) + em + offsetErr P N T em ≤ P.M
  fine : melErr P N T em ≤ 1
  freq : 2 ^ 24 * (C + freqErr P C) ≤ P.M

omit [Zero F] [Add F] [Sub F] [Mul F] [Neg F] in
/-- Division by an exact positive number. -/
theorem div_close {div : F → F → F} (h : DivOk R P div) {a b : F} {r s e A : ℝ} (ha : Close R e a r) (hb : R.fin b ∧ R.val b = s) (hs : 0 < s) (hA : |r| ≤ A) (hM : (A + e) / s ≤ P.M) :
    Close R (e / s + P.u * ((A + e) / s) + P.η) (div a b) (r / s) := by
  have h1 : |R.val a / s| ≤ (A + e) / s := by
    rw [abs_div, abs_of_pos hs]
    exact div_le_div_of_nonneg_right (ha.abs_le.trans (by linarith)) hs.le
  obtain ⟨f, g⟩ := h a b ha.1 hb.1 (by rw [hb.2]; exact hs.ne') (by rw [hb.2]; exact h1.trans hM)
  rw [hb.2] at g
  refine ⟨f, ?_⟩
  have h2 : |R.val a / s - r / s| ≤ e / s := by
    rw [← sub_div, abs_div, abs_of_pos hs]
    exact div_le_div_of_nonneg_right ha.2 hs.le
  rw [show R.val (div a b) - r / s = (R.val (div a b) - R.val a / s) + (R.val a / s - r / s) by ring]
  refine (abs_add_le _ _).trans ?_
  have := mul_le_mul_of_nonneg_left h1 P.hu
  linarith

omit [Zero F] [Add F] [Sub F] [Neg F] in
/-- Multiplication by an exact non-negative number. -/
theorem scale_close (h : MulOk R P (· * · : F → F → F)) {a b : F} {r s e A : ℝ} (ha : Close R e a r) (hb : R.fin b ∧ R.val b = s) (hs : 0 ≤ s) (hA : |r| ≤ A) (hM : s * (A + e) ≤ P.M) :
    Close R (s * e + P.u * (s * (A + e)) + P.η) (b * a) (s * r) := by
  have h1 : |s * R.val a| ≤ s * (A + e) := by
    rw [abs_mul, abs_of_nonneg hs]
    exact mul_le_mul_of_nonneg_left (ha.abs_le.trans (by linarith)) hs
  obtain ⟨f, g⟩ := h b a hb.1 ha.1 (by rw [hb.2]; exact h1.trans hM)
  rw [hb.2] at g
  refine ⟨f, ?_⟩
  have h2 : |s * R.val a - s * r| ≤ s * e := by
    rw [← mul_sub, abs_mul, abs_of_nonneg hs]
    exact mul_le_mul_of_nonneg_left ha.2 hs
  rw [show R.val (b * a) - s * r = (R.val (b * a) - s * R.val a) + (s * R.val a - s * r) by ring]
  refine (abs_add_le _ _).trans ?_
  have := mul_le_mul_of_nonneg_left h1 P.hu
  linarith

/-- The conversion to Hz of a perturbed number. -/
theorem toHz_close {x y e C : ℝ} (h : |x - y| ≤ e) (he : e ≤ 1) (hC : |melsToHz y| ≤ C) : |melsToHz x - melsToHz y| ≤ e * (C + 700) / 500 := by
  have he0 : 0 ≤ e := (abs_nonneg _).trans h
  have hlog : Real.log 10 ≤ 2.33 := by
    have e1 : Real.log 10 = Real.log (10 / 8) + 3 * Real.log 2 := by
      rw [← Real.log_rpow (by norm_num), ← Real.log_mul (by norm_num) (by norm_num)]
      norm_num
    have h2 := Real.log_two_lt_d9
    have h3 := Real.log_le_sub_one_of_pos (show (0 : ℝ) < 10 / 8 by norm_num)
    rw [e1]
    linarith
  have hl0 : 0 < Real.log 10 := Real.log_pos (by norm_num)
  have ex : ∀ z : ℝ, melsToHz z = 700 * Real.exp (z * (Real.log 10 / 2595)) - 700 := by
    intro z
    unfold melsToHz
    rw [Real.rpow_def_of_pos (by norm_num), show Real.log 10 * (z / 2595) = z * (Real.log 10 / 2595) by ring]
    ring
  have hd : |x * (Real.log 10 / 2595) - y * (Real.log 10 / 2595)| ≤ e / 1100 := by
    rw [← sub_mul, abs_mul, abs_of_pos (by positivity : 0 < Real.log 10 / 2595)]
    calc |x - y| * (Real.log 10 / 2595) ≤ e * (2.33 / 2595) := mul_le_mul h (by linarith) (by positivity) he0
      _ ≤ e / 1100 := by linarith
  have hex := exp_close hd
  have hexp : Real.exp (e / 1100) - 1 ≤ 2 * (e / 1100) := by
    have := Real.abs_exp_sub_one_le (x := e / 1100) (by rw [abs_of_nonneg (by positivity)]; linarith)
    rw [abs_of_nonneg (by positivity : (0 : ℝ) ≤ e / 1100)] at this
    exact (le_abs_self _).trans this
  have hy : 700 * Real.exp (y * (Real.log 10 / 2595)) ≤ C + 700 := by
    have := ex y
    have := (le_abs_self _).trans hC
    linarith
  have hpos := Real.exp_pos (y * (Real.log 10 / 2595))
  rw [ex, ex, show ∀ p q : ℝ, 700 * p - 700 - (700 * q - 700) = 700 * (p - q) by intros; ring, abs_mul, abs_of_pos (by norm_num : (0 : ℝ) < 700)]
  calc 700 * |Real.exp (x * (Real.log 10 / 2595)) - Real.exp (y * (Real.log 10 / 2595))| ≤ 700 * ((Real.exp (e / 1100) - 1) * Real.exp (y * (Real.log 10 / 2595))) := mul_le_mul_of_nonneg_left hex (by norm_num)
    _ = (Real.exp (e / 1100) - 1) * (700 * Real.exp (y * (Real.log 10 / 2595))) := by ring
    _ ≤ (2 * (e / 1100)) * (C + 700) := mul_le_mul hexp hy (by positivity) (by positivity)
    _ ≤ e * (C + 700) / 500 := by
      have : 0 ≤ e * (C + 700) := mul_nonneg he0 (by linarith)
      linarith

/-- **C125 (edges).** The edges of the filters in Hz, from the accuracy of the library functions. -/
theorem C125_edges (h : AudioArith R P v ops) {A : Mel} {B : FMel F} {T C em eh : ℝ} (hlib : MelLib R ops T em eh) (hn : B.nMels = A.nMels) (hmin : R.fin B.fmin ∧ R.val B.fmin = A.fmin) (hmax : R.fin B.fmax ∧ R.val B.fmax = A.fmax)
    (h1 : 0 ≤ A.fmin) (h2 : A.fmin < A.fmax) (h3 : A.fmax ≤ C) (hN : A.nMels + 1 ≤ 2 ^ 24) (hT : |melsFromHz A.fmin| ≤ T ∧ |melsFromHz A.fmax| ≤ T) (room : EdgeRoom P (A.nMels + 1) T C em) (m : Nat) (hm : m ≤ A.nMels + 1) :
    Close R (edgeErr P (A.nMels + 1) T C em eh) (center ops B m) (melCenter A m) ∧ |melCenter A m| ≤ C := by
  have hu := P.hu
  have hη := P.hη
  have c1 : Close R em (ops.fromHz B.fmin) (melsFromHz A.fmin) := by
    have := hlib.fromHz B.fmin hmin.1
    rw [hmin.2] at this
    exact this h1 hT.1
  have c2 : Close R em (ops.fromHz B.fmax) (melsFromHz A.fmax) := by
    have := hlib.fromHz B.fmax hmax.1
    rw [hmax.2] at this
    exact this (by linarith) hT.2
  have hem : 0 ≤ em := (abs_nonneg _).trans c1.2
  have hT0 : 0 ≤ T := (abs_nonneg _).trans hT.1
  have hs0 : 0 ≤ spanErr P T em := by unfold spanErr; positivity
  have hNpos : (0 : ℝ) < (A.nMels + 1 : Nat) := by positivity
  have hN1 : (1 : ℝ) ≤ (A.nMels + 1 : Nat) := by exact_mod_cast (by omega : 1 ≤ A.nMels + 1)
  have hmN : (m : ℝ) ≤ (A.nMels + 1 : Nat) := by exact_mod_cast hm
  have hm0 : (0 : ℝ) ≤ m := Nat.cast_nonneg m
  have rm := room.mel
  have hoff : T + T + (spanErr P T em + P.u * (T + T + spanErr P T em) + (A.nMels + 1 : Nat) * P.η) ≤ P.M := by
    have : spanErr P T em + P.u * (T + T + spanErr P T em) + (A.nMels + 1 : Nat) * P.η ≤ offsetErr P (A.nMels + 1) T em := by
      unfold offsetErr
      have : 0 ≤ P.u * (T + T + (spanErr P T em + P.u * (T + T + spanErr P T em) + (A.nMels + 1 : Nat) * P.η)) := by positivity
      simp only []
      linarith
    linarith
  have k0 : 0 ≤ P.u * (T + T + spanErr P T em) := by positivity
  have k1 : 0 ≤ ((A.nMels + 1 : Nat) : ℝ) * P.η := by positivity
  have hspan : em + em ≤ spanErr P T em := by
    unfold spanErr
    have := mul_nonneg hu (by linarith : 0 ≤ em + em)
    have := mul_nonneg hu (by linarith : 0 ≤ T + T)
    linarith
  have d1 := sub_error h.basic.sub c2 c1 hT.2 hT.1 (by linarith)
  have hD : |melsFromHz A.fmax - melsFromHz A.fmin| ≤ T + T := (abs_sub _ _).trans (add_le_add hT.2 hT.1)
  have hofN : R.fin (ops.ofInt ((B.nMels : Int) + 1)) ∧ R.val (ops.ofInt ((B.nMels : Int) + 1)) = (A.nMels + 1 : Nat) := by
    have := h.ofInt ((B.nMels : Int) + 1) (by omega) (by rw [hn]; exact_mod_cast hN)
    exact ⟨this.1, by rw [this.2, hn]; push_cast; rfl⟩
  have d2 := div_close h.div (e := spanErr P T em) d1 hofN hNpos hD ((div_le_self (by linarith) hN1).trans (by linarith))
  have hofm : R.fin (ops.ofInt (m : Int)) ∧ R.val (ops.ofInt (m : Int)) = m := by
    have := h.ofInt (m : Int) (by omega) (by exact_mod_cast hm.trans hN)
    rw [this.2]
    exact ⟨this.1, by push_cast; rfl⟩
  have hq : |(melsFromHz A.fmax - melsFromHz A.fmin) / (A.nMels + 1 : Nat)| ≤ (T + T) / (A.nMels + 1 : Nat) := by
    rw [abs_div, abs_of_pos hNpos]
    exact div_le_div_of_nonneg_right hD hNpos.le
  generalize hNe : ((A.nMels + 1 : Nat) : ℝ) = N at *
  have dv : ∀ y : ℝ, 0 ≤ y → m * (y / N) ≤ y := fun y hy => by
    rw [mul_div_assoc', div_le_iff₀ hNpos, mul_comm y N]
    exact mul_le_mul_of_nonneg_right hmN hy
  have hmq : m * (spanErr P T em / N + P.u * ((T + T + spanErr P T em) / N) + P.η) ≤ spanErr P T em + P.u * (T + T + spanErr P T em) + N * P.η := by
    have a1 := dv _ hs0
    have a2 := dv (P.u * (T + T + spanErr P T em)) k0
    have a3 := mul_le_mul_of_nonneg_right hmN hη
    rw [mul_div_assoc] at a2
    linarith
  have hmq2 : m * ((T + T) / N + (spanErr P T em / N + P.u * ((T + T + spanErr P T em) / N) + P.η)) ≤ T + T + (spanErr P T em + P.u * (T + T + spanErr P T em) + N * P.η) := by
    have := dv (T + T) (by linarith)
    rw [mul_add]
    linarith
  have d3 := scale_close h.basic.mul d2 hofm hm0 hq (hmq2.trans hoff)
  have d3' := d3.mono (show _ ≤ offsetErr P (A.nMels + 1) T em by
    unfold offsetErr
    simp only []
    rw [hNe]
    have := mul_le_mul_of_nonneg_left hmq2 hu
    linarith)
  have hmD : |m * ((melsFromHz A.fmax - melsFromHz A.fmin) / N)| ≤ T + T := by
    rw [abs_mul, abs_of_nonneg hm0]
    exact (mul_le_mul_of_nonneg_left hq hm0).trans (dv _ (by linarith))
  have d4 := add_error h.basic.add c1 d3' hT.1 hmD (by linarith)
  have hmono := center_mono A (by linarith) h2.le
  have l0 := hmono (Nat.zero_le m)
  have l1 := hmono hm
  rw [center_zero A (by linarith)] at l0
  rw [center_last A (by linarith)] at l1
  have hC : |melCenter A m| ≤ C := by rw [abs_le]; constructor <;> linarith
  have hx : melCenter A m = melsToHz (melsFromHz A.fmin + m * ((melsFromHz A.fmax - melsFromHz A.fmin) / N)) := by
    unfold melCenter
    rw [← hNe]
    push_cast
    rfl
  have hmel : |melsFromHz A.fmin + m * ((melsFromHz A.fmax - melsFromHz A.fmin) / N)| ≤ T := by
    have hl : (m : ℝ) / N ≤ 1 := (div_le_one hNpos).2 hmN
    have hl0 : (0 : ℝ) ≤ m / N := div_nonneg hm0 hNpos.le
    have e : melsFromHz A.fmin + m * ((melsFromHz A.fmax - melsFromHz A.fmin) / N) = (1 - m / N) * melsFromHz A.fmin + m / N * melsFromHz A.fmax := by ring
    rw [e]
    refine (abs_add_le _ _).trans ?_
    rw [abs_mul, abs_mul, abs_of_nonneg hl0, abs_of_nonneg (by linarith : 0 ≤ 1 - (m : ℝ) / N)]
    have a1 := mul_le_mul_of_nonneg_left hT.1 (by linarith : 0 ≤ 1 - (m : ℝ) / N)
    have a2 := mul_le_mul_of_nonneg_left hT.2 hl0
    linarith
  refine ⟨?_, hC⟩
  have d5 : Close R (melErr P (A.nMels + 1) T em) _ _ := d4
  obtain ⟨f, g⟩ := hlib.toHz _ d5.1 (d5.abs_le.trans (add_le_add hmel room.fine))
  refine ⟨f, ?_⟩
  rw [hx] at hC
  have k := toHz_close d5.2 room.fine hC
  rw [hx]
  show |R.val (ops.toHz _) - _| ≤ _
  refine (abs_sub_le _ (melsToHz (R.val _)) _).trans (add_le_add g k)

/-- **C125 (frequencies).** -/
theorem C125_frequencies (h : AudioArith R P v ops) {A : Mel} {B : FMel F} {N : Nat} {T C em : ℝ} (hn : B.nFft = A.nFft) (hs : B.samplerate = A.samplerate) (hsr : A.samplerate ≤ 2 ^ 24) (hf : A.nFft ≤ 2 ^ 24) (h2 : 2 ≤ A.nFft)
    (hC : (A.samplerate : ℝ) / 2 ≤ C) (room : EdgeRoom P N T C em) (k : Nat) (hk : k ≤ A.nFft / 2) : Close R (freqErr P C) (freq ops B k) (fftFreq A k) ∧ |fftFreq A k| ≤ C := by
  have hu := P.hu
  have hη := P.hη
  have hS0 : (0 : ℝ) ≤ A.samplerate := Nat.cast_nonneg _
  have hC0 : 0 ≤ C := by linarith
  have hint : ∀ i : Nat, i ≤ 2 ^ 24 → R.fin (ops.ofInt (i : Int)) ∧ R.val (ops.ofInt (i : Int)) = i := fun i hi => by
    have := h.ofInt (i : Int) (by omega) (by exact_mod_cast hi)
    exact ⟨this.1, by rw [this.2]; push_cast; rfl⟩
  have hfr := room.freq
  obtain ⟨a, ha⟩ : ∃ a, a = P.u * C + P.η := ⟨_, rfl⟩
  obtain ⟨b, hb⟩ : ∃ b, b = a + P.u * (C + a) + P.η := ⟨_, rfl⟩
  have hE : freqErr P C = b + P.u * (C + b) + P.η := by rw [hb, ha]; rfl
  have ha0 : 0 ≤ a := by rw [ha]; positivity
  have hb0 : 0 ≤ b := by rw [hb]; positivity
  have hab : a ≤ b := by
    rw [hb]
    have := mul_nonneg hu (by linarith : 0 ≤ C + a)
    linarith
  have hbE : b ≤ freqErr P C := by
    rw [hE]
    have := mul_nonneg hu (by linarith : 0 ≤ C + b)
    linarith
  have big : ∀ y : ℝ, 0 ≤ y → y ≤ 2 ^ 24 → y * (C + b) ≤ P.M := fun y hy hy2 => by
    refine le_trans ?_ hfr
    exact mul_le_mul hy2 (by linarith) (by linarith) (by positivity)
  have one := big 1 zero_le_one (by norm_num)
  rw [one_mul] at one
  have hsr' : |(A.samplerate : ℝ)| ≤ 2 * C := by rw [abs_of_nonneg hS0]; linarith
  have hi2 : R.fin (ops.ofInt 2) ∧ R.val (ops.ofInt 2) = 2 := by
    have := h.ofInt 2 (by norm_num) (by norm_num)
    exact ⟨this.1, by rw [this.2]; norm_num⟩
  obtain ⟨s1, s2⟩ := hint A.samplerate hsr
  have d1 := div_close h.div (⟨s1, by rw [s2]; simp⟩ : Close R 0 (ops.ofInt (A.samplerate : Int)) (A.samplerate : ℝ)) hi2 two_pos hsr' (by linarith)
  have d1' := d1.mono (show _ ≤ a by
    rw [ha]
    have e : (2 * C + 0) / 2 = C := by ring
    rw [e]
    simp)
  have hend : |(A.samplerate : ℝ) / 2| ≤ C := by rw [abs_of_nonneg (by linarith)]; exact hC
  have hk0 : (0 : ℝ) ≤ k := Nat.cast_nonneg k
  have hk24 : (k : ℝ) ≤ 2 ^ 24 := by exact_mod_cast (by omega : k ≤ 2 ^ 24)
  have d2 := scale_close h.basic.mul d1' (hint k (by omega)) hk0 hend ((mul_le_mul_of_nonneg_left (by linarith) hk0).trans (big k hk0 hk24))
  have hst : ((1 + A.nFft / 2) - 1 : Nat) = A.nFft / 2 := by omega
  have hs0 : (0 : ℝ) < (A.nFft / 2 : Nat) := by exact_mod_cast (by omega : 0 < A.nFft / 2)
  have hs1 : (1 : ℝ) ≤ (A.nFft / 2 : Nat) := by exact_mod_cast (by omega : 1 ≤ A.nFft / 2)
  have hks : (k : ℝ) ≤ (A.nFft / 2 : Nat) := by exact_mod_cast hk
  have hprod : |k * ((A.samplerate : ℝ) / 2)| ≤ k * C := by
    rw [abs_mul, abs_of_nonneg hk0]
    exact mul_le_mul_of_nonneg_left hend hk0
  have hsteps := hint (A.nFft / 2) (by omega)
  have ef : fftFreq A k = k * ((A.samplerate : ℝ) / 2) / (A.nFft / 2 : Nat) := by
    unfold fftFreq
    simp only [hst, Int.cast_natCast]
  generalize ((A.nFft / 2 : Nat) : ℝ) = s at *
  have dv : ∀ y : ℝ, 0 ≤ y → k * y / s ≤ y := fun y hy => by
    rw [div_le_iff₀ hs0, mul_comm y s]
    exact mul_le_mul_of_nonneg_right hks hy
  have he : (k * a + P.u * (k * (C + a)) + P.η) / s ≤ b := by
    have a1 := dv a ha0
    have a2 := dv (P.u * (C + a)) (mul_nonneg hu (by linarith))
    have a3 : P.η / s ≤ P.η := div_le_self hη hs1
    rw [hb]
    calc (k * a + P.u * (k * (C + a)) + P.η) / s = k * a / s + k * (P.u * (C + a)) / s + P.η / s := by ring
      _ ≤ _ := by linarith
  have he2 : (k * C + (k * a + P.u * (k * (C + a)) + P.η)) / s ≤ C + b := by
    rw [add_div]
    exact add_le_add (dv C hC0) he
  have d3 := div_close h.div d2 hsteps hs0 hprod (he2.trans one)
  refine ⟨?_, ?_⟩
  · have e : freq ops B k = ops.div (ops.ofInt (k : Int) * ops.div (ops.ofInt (A.samplerate : Int)) (ops.ofInt 2)) (ops.ofInt ((A.nFft / 2 : Nat) : Int)) := by
      unfold freq
      simp only [hn, hs, hst]
    rw [e, ef]
    refine d3.mono ?_
    rw [hE]
    have := mul_le_mul_of_nonneg_left he2 hu
    linarith
  · rw [ef, abs_div, abs_of_pos hs0]
    exact (div_le_div_of_nonneg_right hprod hs0.le).trans (dv C hC0)

/-- **C125 (bins).** An edge falls in the same bin as the exact one unless it is closer to the border of a bin than the error of its position. -/
theorem C125_bins (h : AudioArith R P v ops) {A : Mel} {B : FMel F} {T C em eh dc : ℝ} (hlib : MelLib R ops T em eh) (hn : B.nFft = A.nFft) (hs : B.samplerate = A.samplerate) (hsr : A.samplerate ≤ 2 ^ 24) (hsr0 : 0 < A.samplerate) (hf : A.nFft < 2 ^ 24)
    (m : Nat) (hc : Close R dc (center ops B m) (melCenter A m)) (hC : |melCenter A m| ≤ C) (hM : (2 : ℝ) ^ 30 ≤ P.M)
    (hr : (A.nFft + 1 : Nat) * (C / A.samplerate + (dc / A.samplerate + P.u * ((C + dc) / A.samplerate) + P.η)) + positionErr P (A.nFft + 1) A.samplerate C dc ≤ 2 ^ 30)
    (hlow : positionErr P (A.nFft + 1) A.samplerate C dc ≤ Int.fract (((A.nFft : ℝ) + 1) * (melCenter A m / A.samplerate)))
    (hhigh : Int.fract (((A.nFft : ℝ) + 1) * (melCenter A m / A.samplerate)) + positionErr P (A.nFft + 1) A.samplerate C dc < 1) : bin ops B m = melBin A m := by
  have hu := P.hu
  have hη := P.hη
  have hS : (0 : ℝ) < A.samplerate := by exact_mod_cast hsr0
  have hdc : 0 ≤ dc := (abs_nonneg _).trans hc.2
  have hC0 : 0 ≤ C := (abs_nonneg _).trans hC
  have hint : ∀ i : Nat, i ≤ 2 ^ 24 → R.fin (ops.ofInt (i : Int)) ∧ R.val (ops.ofInt (i : Int)) = i := fun i hi => by
    have := h.ofInt (i : Int) (by omega) (by exact_mod_cast hi)
    exact ⟨this.1, by rw [this.2]; push_cast; rfl⟩
  have hI1 : (1 : ℝ) ≤ (A.nFft + 1 : Nat) := by exact_mod_cast (by omega : 1 ≤ A.nFft + 1)
  have hp : 0 ≤ dc / A.samplerate + P.u * ((C + dc) / A.samplerate) + P.η := by positivity
  have hCS : 0 ≤ C / A.samplerate := by positivity
  have hpos : 0 ≤ positionErr P (A.nFft + 1) A.samplerate C dc := by unfold positionErr; positivity
  have d1 := div_close h.div hc (hint _ hsr) hS hC (by
    have e : (C + dc) / A.samplerate ≤ C / A.samplerate + (dc / A.samplerate + P.u * ((C + dc) / A.samplerate) + P.η) := by
      rw [add_div]
      have : 0 ≤ P.u * (C / A.samplerate + dc / A.samplerate) := by positivity
      linarith
    have := le_mul_of_one_le_left (add_nonneg hCS hp) hI1
    linarith)
  have hq : |melCenter A m / A.samplerate| ≤ C / A.samplerate := by
    rw [abs_div, abs_of_pos hS]
    exact div_le_div_of_nonneg_right hC hS.le
  have d2 := scale_close h.basic.mul d1 (hint (A.nFft + 1) (by omega)) (Nat.cast_nonneg _) hq (by linarith)
  have d3 : Close R (positionErr P (A.nFft + 1) A.samplerate C dc) (ops.ofInt ((A.nFft + 1 : Nat) : Int) * ops.div (center ops B m) (ops.ofInt (A.samplerate : Int))) ((A.nFft + 1 : Nat) * (melCenter A m / A.samplerate)) := d2
  have e : bin ops B m = ops.floor (ops.ofInt ((A.nFft + 1 : Nat) : Int) * ops.div (center ops B m) (ops.ofInt (A.samplerate : Int))) := by
    unfold bin
    simp only [hn, hs]
    push_cast
    rfl
  have hb : |((A.nFft + 1 : Nat) : ℝ) * (melCenter A m / A.samplerate)| ≤ (A.nFft + 1 : Nat) * (C / A.samplerate) := by
    rw [abs_mul, Nat.abs_cast]
    exact mul_le_mul_of_nonneg_left hq (Nat.cast_nonneg _)
  rw [e, hlib.floor _ d3.1 (d3.abs_le.trans (by
    have := mul_nonneg (Nat.cast_nonneg (α := ℝ) (A.nFft + 1)) hp
    rw [mul_add] at hr
    linarith))]
  unfold melBin melBinHz
  have g := abs_le.1 d3.2
  push_cast at g hlow hhigh ⊢
  rw [Int.floor_eq_iff]
  have f1 := Int.floor_add_fract (((A.nFft : ℝ) + 1) * (melCenter A m / A.samplerate))
  constructor <;> linarith


/-! ### Binary32 -/

section
open Binary32

/-- The operations of binary32 with correctly rounded library functions. -/
noncomputable def ops32 : AOps F32 :=
  { div := Binary32.div, abs := fun a => rnd |a.val|, sq := fun a => rnd (a.val ^ 2), lt := fun a b => @decide (a.val < b.val) (Classical.propDecidable _), ofInt := fun i => rnd i, floor := fun a => ⌊a.val⌋,
    fromHz := fun a => rnd (melsFromHz a.val), toHz := fun a => rnd (melsToHz a.val), hann := fun n i => rnd (hann n i) }

theorem audioArith32 : AudioArith fmt acc (1 / 2 ^ 24) ops32 where
  basic := basic32
  neg := negOk32
  div := divOk
  abs := Motion.Flt.motionArith32.abs
  sq := fun a _ h => by
    have h0 : 0 ≤ a.val ^ 2 := sq_nonneg _
    have h1 : (1 + 1 / 2 ^ 24) * a.val ^ 2 + 1 / 2 ^ 150 ≤ maxFinite := h
    have h2 := fl_error_any (a.val ^ 2)
    rw [abs_of_nonneg h0] at h2
    refine ⟨fl_fin _ ?_, h2⟩
    rw [abs_of_nonneg h0]
    have : (0 : ℝ) ≤ 1 / 2 ^ 24 * a.val ^ 2 := by positivity
    have : (0 : ℝ) ≤ 1 / 2 ^ 150 := by positivity
    linarith
  lt := fun a b _ _ => by simp [ops32, fmt]
  ofInt := fun i h0 h1 => by
    have e : fl (i : ℝ) = i := by simpa using fl_exact24 i 0 (by rw [abs_of_nonneg h0]; exact h1) (by norm_num)
    refine ⟨?_, e⟩
    show |fl (i : ℝ)| ≤ maxFinite
    have h2 : (0 : ℝ) ≤ i := by exact_mod_cast h0
    have h3 : (i : ℝ) ≤ 2 ^ 24 := by exact_mod_cast h1
    rw [e, abs_of_nonneg h2]
    exact (h3.trans (by norm_num)).trans big
  unit := by norm_num [acc]
  v0 := by positivity
  tiny := by norm_num [acc]
  room := le_trans (by norm_num) big

theorem melLib32 : MelLib fmt ops32 2595 (2 / 10 ^ 4) (5 / 10 ^ 3) where
  fromHz := fun a _ _ h => by
    have h : |melsFromHz a.val| ≤ 2595 := h
    have hb := big
    norm_num at hb
    refine ⟨fl_fin _ (h.trans (by linarith)), (fl_error_any _).trans ?_⟩
    have := mul_le_mul_of_nonneg_left h (show (0 : ℝ) ≤ 1 / 2 ^ 24 by positivity)
    norm_num at this ⊢
    linarith
  toHz := fun a _ h => by
    have hb := big
    norm_num at hb
    have h1 : |melsToHz a.val| ≤ 70000 := by
      have hx : a.val / 2595 ≤ 2 := by
        rw [div_le_iff₀ (by norm_num)]
        exact ((le_abs_self _).trans h).trans (by norm_num)
      have h2 : (10 : ℝ) ^ (a.val / 2595) ≤ 10 ^ (2 : ℝ) := Real.rpow_le_rpow_of_exponent_le (by norm_num) hx
      have h3 : (0 : ℝ) < 10 ^ (a.val / 2595) := Real.rpow_pos_of_pos (by norm_num) _
      have h4 : (10 : ℝ) ^ (2 : ℝ) = 100 := by norm_num
      rw [h4] at h2
      unfold melsToHz
      rw [abs_le]
      constructor <;> linarith
    refine ⟨fl_fin _ (h1.trans (by linarith)), (fl_error_any _).trans ?_⟩
    have := mul_le_mul_of_nonneg_left h1 (show (0 : ℝ) ≤ 1 / 2 ^ 24 by positivity)
    norm_num at this ⊢
    linarith
  floor := fun a _ _ => rfl

/-- One filter with edges at 700, 2100 and 4900 Hz, for 8 samples at 12 kHz. -/
noncomputable def exMel : Mel := { nMels := 1, fmin := 700, fmax := 4900, nFft := 8, samplerate := 12000 }
noncomputable def exMelF : FMel F32 := { nMels := 1, fmin := rnd 700, fmax := rnd 4900, nFft := 8, samplerate := 12000 }

theorem logb8 : Real.logb 10 8 = 3 * Real.logb 10 2 := by rw [show (8 : ℝ) = 2 ^ 3 by norm_num, Real.logb_pow]; norm_num

theorem exMel_centers : melCenter exMel 0 = 700 ∧ melCenter exMel 1 = 2100 ∧ melCenter exMel 2 = 4900 := by
  refine ⟨center_zero exMel (by norm_num [exMel]), ?_, center_last exMel (by norm_num [exMel])⟩
  unfold melCenter melsToHz melsFromHz
  simp only [exMel]
  have e1 : (1 : ℝ) + 700 / 700 = 2 := by norm_num
  have e2 : (1 : ℝ) + 4900 / 700 = 8 := by norm_num
  rw [e1, e2, logb8]
  have : (2595 * Real.logb 10 2 + ((1 : Nat) : ℝ) * ((2595 * (3 * Real.logb 10 2) - 2595 * Real.logb 10 2) / (((1 : Nat) : ℝ) + 1))) / 2595 = Real.logb 10 4 := by
    have h4 : Real.logb 10 4 = 2 * Real.logb 10 2 := by
      rw [show (4 : ℝ) = 2 ^ 2 by norm_num, Real.logb_pow]; norm_num
    rw [h4]
    push_cast
    ring
  rw [this, Real.rpow_logb (by norm_num) (by norm_num) (by norm_num)]
  norm_num

theorem exMel_bins : melBin exMel 0 = 0 ∧ melBin exMel 1 = 1 ∧ melBin exMel 2 = 3 := by
  obtain ⟨c0, c1, c2⟩ := exMel_centers
  unfold melBin melBinHz
  rw [c0, c1, c2]
  refine ⟨?_, ?_, ?_⟩ <;> rw [Int.floor_eq_iff] <;> norm_num [exMel]

theorem int32 (i : ℤ) (h : |i| ≤ 2 ^ 24) : fmt.fin (rnd i) ∧ fmt.val (rnd (i : ℝ)) = i := by
  have e : fl (i : ℝ) = i := by simpa using fl_exact24 i 0 h (by norm_num)
  refine ⟨?_, e⟩
  show |fl (i : ℝ)| ≤ maxFinite
  rw [e]
  have h3 : |(i : ℝ)| ≤ 2 ^ 24 := by exact_mod_cast h
  exact (h3.trans (by norm_num)).trans big

theorem exEdgeRoom : EdgeRoom acc (1 + 1) 2595 6000 (2 / 10 ^ 4) ∧ edgeErr acc (1 + 1) 2595 6000 (2 / 10 ^ 4) (5 / 10 ^ 3) ≤ 1 / 20 ∧ freqErr acc 6000 ≤ 1 / 500 := by
  have hb := big
  have hM : acc.M = maxFinite := rfl
  have hu : acc.u = 1 / 2 ^ 24 := rfl
  have hη : acc.η = 1 / 2 ^ 150 := rfl
  norm_num at hb
  refine ⟨⟨?_, ?_, ?_⟩, ?_, ?_⟩
  · rw [hM]
    refine le_trans ?_ hb
    simp only [offsetErr, spanErr, hu, hη]
    norm_num
  · simp only [melErr, offsetErr, spanErr, hu, hη]
    norm_num
  · rw [hM]
    refine le_trans ?_ hb
    simp only [freqErr, hu, hη]
    norm_num
  · simp only [edgeErr, melErr, offsetErr, spanErr, hu, hη]
    norm_num
  · simp only [freqErr, hu, hη]
    norm_num

theorem exMel_close : MelClose fmt ops32 exMel exMelF 6000 1400 (1 / 20) (1 / 500) := by
  obtain ⟨c0, c1, c2⟩ := exMel_centers
  obtain ⟨r1, r2, r3⟩ := exEdgeRoom
  have hb := big
  have hM : acc.M = maxFinite := rfl
  have hu : acc.u = 1 / 2 ^ 24 := rfl
  have hη : acc.η = 1 / 2 ^ 150 := rfl
  have v1 : fmt.fin (rnd 700) ∧ fmt.val (rnd 700) = 700 := by simpa using int32 700 (by norm_num)
  have v2 : fmt.fin (rnd 4900) ∧ fmt.val (rnd 4900) = 4900 := by simpa using int32 4900 (by norm_num)
  have l2 : 0 ≤ Real.logb 10 2 ∧ 3 * Real.logb 10 2 ≤ 1 := by
    refine ⟨Real.logb_nonneg (by norm_num) (by norm_num), ?_⟩
    rw [← logb8, Real.logb_le_iff_le_rpow (by norm_num) (by norm_num)]
    norm_num
  have m1 : melsFromHz 700 = 2595 * Real.logb 10 2 := by unfold melsFromHz; norm_num
  have m2 : melsFromHz 4900 = 2595 * (3 * Real.logb 10 2) := by unfold melsFromHz; rw [← logb8]; norm_num
  have hT : |melsFromHz exMel.fmin| ≤ 2595 ∧ |melsFromHz exMel.fmax| ≤ 2595 := by
    show |melsFromHz 700| ≤ 2595 ∧ |melsFromHz 4900| ≤ 2595
    rw [m1, m2, abs_of_nonneg (by linarith [l2.1]), abs_of_nonneg (by linarith [l2.1])]
    constructor <;> linarith [l2.1, l2.2]
  have hc : ∀ m ≤ exMel.nMels + 1, Close fmt (1 / 20) (center ops32 exMelF m) (melCenter exMel m) ∧ |melCenter exMel m| ≤ 6000 := by
    intro m hm
    obtain ⟨k1, k2⟩ := C125_edges audioArith32 (A := exMel) (B := exMelF) melLib32 rfl v1 v2 (by norm_num [exMel]) (by norm_num [exMel]) (by norm_num [exMel] : exMel.fmax ≤ 6000) (by norm_num [exMel]) hT r1 m hm
    exact ⟨k1.mono r2, k2⟩
  refine ⟨rfl, rfl, hc, ?_, ?_, ?_⟩
  · intro k hk
    obtain ⟨k1, k2⟩ := C125_frequencies audioArith32 (A := exMel) (B := exMelF) rfl rfl (by norm_num [exMel]) (by norm_num [exMel]) (by norm_num [exMel]) (by norm_num [exMel]) r1 k hk
    exact ⟨k1.mono r3, k2⟩
  · intro m hm
    have hpe : positionErr acc (exMel.nFft + 1) exMel.samplerate 6000 (1 / 20) ≤ 1 / 1000 := by
      simp only [positionErr, exMel, hu, hη]
      norm_num
    have hfr : 1 / 1000 ≤ Int.fract (((exMel.nFft : ℝ) + 1) * (melCenter exMel m / exMel.samplerate)) ∧ Int.fract (((exMel.nFft : ℝ) + 1) * (melCenter exMel m / exMel.samplerate)) ≤ 9 / 10 := by
      have hm' : m = 0 ∨ m = 1 ∨ m = 2 := by
        have : m ≤ 2 := hm
        omega
      have fr : ∀ (y : ℝ) (z : ℤ), (z : ℝ) + 1 / 1000 ≤ y → y ≤ z + 9 / 10 → 1 / 1000 ≤ Int.fract y ∧ Int.fract y ≤ 9 / 10 := by
        intro y z h1 h2
        have : ⌊y⌋ = z := by rw [Int.floor_eq_iff]; constructor <;> linarith
        unfold Int.fract
        rw [this]
        constructor <;> linarith
      rcases hm' with rfl | rfl | rfl
      · rw [c0]
        exact fr _ 0 (by norm_num [exMel]) (by norm_num [exMel])
      · rw [c1]
        exact fr _ 1 (by norm_num [exMel]) (by norm_num [exMel])
      · rw [c2]
        exact fr _ 3 (by norm_num [exMel]) (by norm_num [exMel])
    refine C125_bins audioArith32 (A := exMel) (B := exMelF) melLib32 rfl rfl (by norm_num [exMel]) (by norm_num [exMel]) (by norm_num [exMel]) m (hc m hm).1 (hc m hm).2 ?_ ?_ (hpe.trans hfr.1) (by linarith [hfr.2])
    · rw [hM]
      exact le_trans (by norm_num) hb
    · refine (add_le_add_right hpe _).trans ?_
      simp only [exMel, hu, hη]
      norm_num
  · intro m hm
    have hm' : m = 0 ∨ m = 1 := by
      have : m ≤ 1 := hm
      omega
    rcases hm' with rfl | rfl
    · rw [c0, show 0 + 1 = 1 from rfl, c1]; norm_num
    · rw [c1, show 1 + 1 = 2 from rfl, c2]; norm_num

/-- Eight arbitrary samples between -1 and 1, in binary32: the output is within 1/100 of the exact one. -/
theorem C125_binary32 (x temp : FVec F32) (hx : x.len = 8) (htemp : temp.len = 8) (hV : ∀ i < 8, |(x.data i).val| ≤ 1) :
    ∃ out temp', melspectrogram ops32 exMelF (exTable 8) x temp = some (.ok, out, temp') ∧ out.len = 8 ∧
      |(out.data 0).val - ∑ k ∈ range 5, weight exMel 1 k * ((windowedDft 8 (fun i => (x.data i).val) k).re ^ 2 / 8)| ≤ 1 / 100 := by
  have hb := big
  norm_num at hb
  have hM : acc.M = maxFinite := rfl
  have hu : acc.u = 1 / 2 ^ 24 := rfl
  have hη : acc.η = 1 / 2 ^ 150 := rfl
  have hD : 0 ≤ windowErr acc (1 / 2 ^ 23) 1 ∧ windowErr acc (1 / 2 ^ 23) 1 ≤ 2 / 10 ^ 7 := by
    simp only [windowErr, prodErr, hu, hη]
    constructor <;> norm_num
  have hE0 : 0 ≤ dftErr acc (1 / 2 ^ 20) 3 (1 / 2 ^ 23) 1 := by
    unfold dftErr Motion.Flt.spectrumErr
    have g0 : 1 ≤ fftGrowth acc (1 / 2 ^ 20) ^ 3 := one_le_pow₀ (one_le_growth (by positivity))
    have f0 : 0 ≤ fftAbs acc := Motion.Flt.fftAbs_nonneg acc
    have a1 : 0 ≤ (fftGrowth acc (1 / 2 ^ 20) ^ 3 - 1) * (((2 ^ 3 : Nat) : ℝ) * (1 + windowErr acc (1 / 2 ^ 23) 1)) := mul_nonneg (by linarith) (mul_nonneg (by positivity) (by linarith [hD.1]))
    have a2 : 0 ≤ fftAbs acc * fftGrowth acc (1 / 2 ^ 20) ^ 3 * (2 ^ 3 - 1) := mul_nonneg (mul_nonneg f0 (by linarith)) (by norm_num)
    have a3 : 0 ≤ ((2 ^ 3 : Nat) : ℝ) * windowErr acc (1 / 2 ^ 23) 1 := mul_nonneg (by positivity) hD.1
    linarith
  have hE : dftErr acc (1 / 2 ^ 20) 3 (1 / 2 ^ 23) 1 ≤ 1 / 10 ^ 4 := by
    refine (Motion.Flt.spectrumErr32 (by norm_num) (by norm_num) (by norm_num) hD.1).trans ?_
    have := hD.2
    push_cast
    linarith
  have hfft : fftGrowth acc (1 / 2 ^ 20) ^ 3 * (2 ^ 3 * (1 + windowErr acc (1 / 2 ^ 23) 1)) + fftAbs acc * fftGrowth acc (1 / 2 ^ 20) ^ 3 * 2 ^ 3 ≤ 1000 := by
    have g := Motion.Flt.growth32 (show 3 ≤ 7 by norm_num)
    have g0 : 1 ≤ fftGrowth acc (1 / 2 ^ 20) ^ 3 := one_le_pow₀ (one_le_growth (by positivity))
    have f := Motion.Flt.fftAbs32
    have f0 : 0 ≤ fftAbs acc := Motion.Flt.fftAbs_nonneg acc
    have a1 : fftGrowth acc (1 / 2 ^ 20) ^ 3 * (2 ^ 3 * (1 + windowErr acc (1 / 2 ^ 23) 1)) ≤ 2 * (2 ^ 3 * (1 + 1)) := mul_le_mul (by linarith) (by linarith [hD.2]) (by linarith [hD.1]) (by norm_num)
    have a2 : fftAbs acc * fftGrowth acc (1 / 2 ^ 20) ^ 3 ≤ 1 * 2 := mul_le_mul (f.trans (by norm_num)) (by linarith) (by linarith) (by norm_num)
    linarith
  obtain ⟨E, hEe⟩ : ∃ E, E = dftErr acc (1 / 2 ^ 20) 3 (1 / 2 ^ 23) 1 := ⟨_, rfl⟩
  rw [← hEe] at hE hE0
  obtain ⟨q, hq⟩ : ∃ q, q = squareErr acc (1 / 2 ^ 24) (2 ^ 3 * 1) E := ⟨_, rfl⟩
  have hq0 : 0 ≤ q := by rw [hq]; simp only [squareErr, hη]; positivity
  have hS2 : (2 ^ 3 * 1 + E) ^ 2 ≤ 65 := by nlinarith
  have hq1 : q ≤ 1 / 500 := by
    rw [hq]
    simp only [squareErr, hη]
    have : E * (2 * (2 ^ 3 * 1) + E) ≤ 1 / 10 ^ 4 * 17 := mul_le_mul hE (by linarith) (by linarith) (by norm_num)
    have : 1 / 2 ^ 24 * (2 ^ 3 * 1 + E) ^ 2 ≤ 1 / 2 ^ 24 * 65 := mul_le_mul_of_nonneg_left hS2 (by norm_num)
    norm_num at *
    linarith
  obtain ⟨pe, hpe⟩ : ∃ pe, pe = powerErr acc (1 / 2 ^ 24) (2 ^ 3) (2 ^ 3 * 1) E := ⟨_, rfl⟩
  have hpe0 : 0 ≤ pe := by
    rw [hpe]
    simp only [powerErr, mulErr, ← hq, hu, hη]
    positivity
  have hpe1 : pe ≤ 1 / 3000 := by
    rw [hpe]
    simp only [powerErr, mulErr, ← hq, hu, hη]
    norm_num
    linarith
  obtain ⟨w, hw⟩ : ∃ w, w = weightErr acc 6000 1400 (1 / 20) (1 / 500) := ⟨_, rfl⟩
  have hw0 : 0 ≤ w := by rw [hw]; simp only [weightErr, hu, hη]; norm_num
  have hw1 : w ≤ 1 / 4000 := by rw [hw]; simp only [weightErr, hu, hη]; norm_num
  obtain ⟨te, hte⟩ : ∃ te, te = termErr acc 8 pe 6000 1400 (1 / 20) (1 / 500) := ⟨_, rfl⟩
  have hpw : pe * w ≤ 1 / 3000 * (1 / 4000) := mul_le_mul hpe1 hw1 hw0 (by norm_num)
  have hte1 : te ≤ 24 / 10000 := by
    rw [hte]
    simp only [termErr, mulErr, ← hw, hu, hη]
    norm_num
    have : (8 + pe) * (1 + w) = 8 + 8 * w + pe + pe * w := by ring
    rw [this]
    norm_num at hpw
    linarith
  have hte0 : 0 ≤ te := by
    rw [hte]
    simp only [termErr, mulErr, ← hw, hu, hη]
    positivity
  have room : SpecRoom acc (1 / 2 ^ 24) (1 / 2 ^ 20) 3 (1 / 2 ^ 23) 1 := by
    refine ⟨?_, ?_, ?_, ?_⟩
    · rw [hM]; exact le_trans (by norm_num) hb
    · rw [hM]; exact hfft.trans (le_trans (by norm_num) hb)
    · rw [hM, ← hEe, hη]
      refine le_trans ?_ hb
      have : (1 + 1 / 2 ^ 24) * (2 ^ 3 * 1 + E) ^ 2 ≤ (1 + 1 / 2 ^ 24) * 65 := mul_le_mul_of_nonneg_left hS2 (by norm_num)
      norm_num at *
      linarith
    · rw [hM, ← hEe, ← hq, hu, hη]
      refine le_trans ?_ hb
      norm_num
      linarith
  have hQ : ((2 : ℝ) ^ 3 * 1) ^ 2 / 2 ^ 3 = 8 := by norm_num
  have froom : FilterRoom acc 4 (((2 : ℝ) ^ 3 * 1) ^ 2 / 2 ^ 3) (powerErr acc (1 / 2 ^ 24) (2 ^ 3) (2 ^ 3 * 1) (dftErr acc (1 / 2 ^ 20) 3 (1 / 2 ^ 23) 1)) 6000 1400 (1 / 20) (1 / 500) := by
    rw [← hEe, ← hpe, hQ]
    refine ⟨⟨?_, ?_, ?_, ?_, ?_⟩, ?_, ?_⟩
    · norm_num
    · rw [hu]; norm_num
    · rw [hM]; exact le_trans (by norm_num) hb
    · rw [hM]; exact le_trans (by norm_num) hb
    · rw [hM, hu]; exact le_trans (by norm_num) hb
    · rw [← hw, hM]
      refine le_trans ?_ hb
      nlinarith
    · rw [← hte, hM, hu]
      refine le_trans ?_ hb
      norm_num
      linarith
  obtain ⟨b0, b1, b2⟩ := exMel_bins
  have hwin : ∀ i < 2 ^ 3, Close fmt (1 / 2 ^ 23) (ops32.hann (2 ^ 3) i) (hann (2 ^ 3) i) := by
    intro i _
    obtain ⟨r0, r1⟩ := hann_range (2 ^ 3) i
    have ha : |hann (2 ^ 3) i| ≤ 1 := by rw [abs_of_nonneg r0]; exact r1
    refine ⟨fl_fin _ (ha.trans (by linarith)), (fl_error_any _).trans ?_⟩
    have := mul_le_mul_of_nonneg_left ha (show (0 : ℝ) ≤ 1 / 2 ^ 24 by positivity)
    norm_num at this ⊢
    linarith
  have hK : ∀ m, 1 ≤ m → m ≤ exMel.nMels → melBin exMel (m + 1) - melBin exMel (m - 1) + 1 ≤ ((4 : Nat) : ℤ) := by
    intro m h1 h2
    have : m ≤ 1 := h2
    obtain rfl : m = 1 := by omega
    rw [show 1 + 1 = 2 from rfl, show 1 - 1 = 0 from rfl, b0, b2]
    norm_num
  obtain ⟨out, temp', e1, e2, e3⟩ := C125_melspectrogram audioArith32 3 (by norm_num) (by norm_num) exMel (by norm_num [exMel]) (by norm_num [exMel]) (by norm_num [exMel]) (by norm_num [exMel]) (by norm_num [exMel]) (by norm_num [exMel])
    exMelF exMel_close hK (by positivity) (exTable 8) (exTable_ok 8) hwin x temp hx htemp (fun i hi => ⟨(hV i hi).trans (by linarith), hV i hi⟩) room froom
  refine ⟨out, temp', e1, e2, ?_⟩
  have e4 := (e3 0 (by norm_num [exMel])).2
  refine le_trans (le_of_eq ?_) (e4.trans ?_)
  · norm_num [exMel, fmt]
  · rw [← hEe, ← hpe, hQ]
    simp only [filterErr, ← hte, hu]
    norm_num
    linarith
end

end Emlearn.Audio.Flt
