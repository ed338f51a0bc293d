/- C50, C71, C72, C73: mel filterbank and mel spectrogram (`emlearn/eml_audio.h`). -/
import Verif.Signal.Audio
import Verif.Props.Fft
import Mathlib.Tactic.Linarith
import Mathlib.Tactic.Ring
import Mathlib.Tactic.FieldSimp
import Mathlib.Tactic.Positivity
namespace Emlearn.Audio
open Emlearn.Fft (put)

/-! ### Mel scale -/

theorem toHz_fromHz (hz : ℝ) (h : -700 < hz) : melsToHz (melsFromHz hz) = hz := by
  unfold melsToHz melsFromHz
  rw [mul_div_cancel_left₀ _ (by norm_num : (2595 : ℝ) ≠ 0), Real.rpow_logb (by norm_num) (by norm_num) (by linarith)]
  ring

theorem fromHz_toHz (m : ℝ) : melsFromHz (melsToHz m) = m := by
  unfold melsToHz melsFromHz
  rw [mul_div_cancel_left₀ _ (by norm_num : (700 : ℝ) ≠ 0), add_sub_cancel, Real.logb_rpow (by norm_num) (by norm_num)]
  ring

theorem toHz_strictMono : StrictMono melsToHz := by
  intro a b hab
  unfold melsToHz
  have : (10 : ℝ) ^ (a / 2595) < (10 : ℝ) ^ (b / 2595) := Real.rpow_lt_rpow_of_exponent_lt (by norm_num) (by linarith)
  linarith

theorem fromHz_lt {a b : ℝ} (ha : -700 < a) (hab : a < b) : melsFromHz a < melsFromHz b := by
  by_contra h
  have := toHz_strictMono.monotone (not_lt.mp h)
  rw [toHz_fromHz a ha, toHz_fromHz b (by linarith)] at this
  linarith

theorem fromHz_le {a b : ℝ} (ha : -700 < a) (hab : a ≤ b) : melsFromHz a ≤ melsFromHz b := by
  rcases hab.lt_or_eq with h | h
  · exact (fromHz_lt ha h).le
  · rw [h]

theorem center_mono (P : Mel) (h1 : -700 < P.fmin) (h2 : P.fmin ≤ P.fmax) : Monotone (melCenter P) := by
  intro a b hab
  unfold melCenter
  apply toHz_strictMono.monotone
  have hs : 0 ≤ (melsFromHz P.fmax - melsFromHz P.fmin) / ((P.nMels : ℝ) + 1) :=
    div_nonneg (by linarith [fromHz_le h1 h2]) (by positivity)
  have : (a : ℝ) ≤ b := by exact_mod_cast hab
  have := mul_le_mul_of_nonneg_right this hs
  linarith

theorem center_strictMono (P : Mel) (h1 : -700 < P.fmin) (h2 : P.fmin < P.fmax) : StrictMono (melCenter P) := by
  intro a b hab
  unfold melCenter
  apply toHz_strictMono
  have hs : 0 < (melsFromHz P.fmax - melsFromHz P.fmin) / ((P.nMels : ℝ) + 1) :=
    div_pos (by linarith [fromHz_lt h1 h2]) (by positivity)
  have : (a : ℝ) < b := by exact_mod_cast hab
  have := mul_lt_mul_of_pos_right this hs
  linarith

theorem center_zero (P : Mel) (h1 : -700 < P.fmin) : melCenter P 0 = P.fmin := by
  simp [melCenter, toHz_fromHz _ h1]

theorem center_last (P : Mel) (h1 : -700 < P.fmax) : melCenter P (P.nMels + 1) = P.fmax := by
  unfold melCenter
  have : ((P.nMels : ℝ) + 1) ≠ 0 := by positivity
  simp only []
  push_cast
  rw [mul_div_cancel₀ _ this, add_sub_cancel, toHz_fromHz _ h1]

/-- **C71.** The two mel conversions are inverse to each other and strictly increasing; the `n_mels + 2` filter edges start at `fmin`, end at
`fmax`, increase strictly, and consecutive edges are at the same distance in mel. -/
theorem C71_mel_scale :
    (∀ hz, -700 < hz → melsToHz (melsFromHz hz) = hz) ∧ (∀ m, melsFromHz (melsToHz m) = m) ∧ StrictMono melsToHz ∧
    (∀ P : Mel, -700 < P.fmin → P.fmin < P.fmax → melCenter P 0 = P.fmin ∧ melCenter P (P.nMels + 1) = P.fmax ∧ StrictMono (melCenter P) ∧
      ∀ n, melsFromHz (melCenter P (n + 1)) - melsFromHz (melCenter P n) = (melsFromHz P.fmax - melsFromHz P.fmin) / (P.nMels + 1)) := by
  refine ⟨toHz_fromHz, fromHz_toHz, toHz_strictMono, fun P h1 h2 => ⟨center_zero P h1, center_last P (by linarith), center_strictMono P h1 h2, fun n => ?_⟩⟩
  unfold melCenter
  simp only [fromHz_toHz]
  push_cast
  ring

example : melsFromHz 6300 = 2595 := by
  unfold melsFromHz
  rw [show (1 + 6300 / 700 : ℝ) = 10 by norm_num, Real.logb_self_eq_one (by norm_num)]
  norm_num

/-! ### Bounds -/

theorem bin_mono (P : Mel) (h1 : -700 < P.fmin) (h2 : P.fmin ≤ P.fmax) : Monotone (melBin P) := by
  intro a b hab
  unfold melBin melBinHz
  apply Int.floor_le_floor
  have := center_mono P h1 h2 hab
  apply mul_le_mul_of_nonneg_left _ (by positivity)
  exact div_le_div_of_nonneg_right this (by positivity)

/-- Weight with which filter `m` uses bin `k`, read off the two loops. -/
noncomputable def weight (P : Mel) (m : Nat) (k : Nat) : ℝ :=
  if melBin P (m - 1) ≤ k ∧ (k : Int) ≤ melBin P m then
    max (min ((fftFreq P k - melCenter P (m - 1)) / (melCenter P m - melCenter P (m - 1))) 1) 0
  else if melBin P m < k ∧ (k : Int) ≤ melBin P (m + 1) then
    max (min ((melCenter P (m + 1) - fftFreq P k) / (melCenter P (m + 1) - melCenter P m)) 1) 0
  else 0

/-- Value of a filter when all its bins are inside the spectrum. -/
theorem melValue_eq (P : Mel) (spec : Vec) (m : Nat) (hl : 0 ≤ melBin P (m - 1)) (hlc : melBin P (m - 1) ≤ melBin P m)
    (hcr : melBin P m ≤ melBin P (m + 1)) (N : Nat) (hr : melBin P (m + 1) < N) (hN : N ≤ spec.len) :
    melValue P spec m (melBin P (m - 1)) (melBin P m) (melBin P (m + 1)) = some (∑ k ∈ Finset.range N, weight P m k * spec.data k) := by
  obtain ⟨l, el⟩ := Int.eq_ofNat_of_zero_le hl
  obtain ⟨c, ec⟩ := Int.eq_ofNat_of_zero_le (le_trans hl hlc)
  obtain ⟨r, er⟩ := Int.eq_ofNat_of_zero_le (le_trans (le_trans hl hlc) hcr)
  unfold melValue
  have g1 := sumLoop_eq (fun i => lowTerm P spec m (melBin P (m - 1) + i)) (fun i => weight P m (l + i) * spec.data (l + i))
    (melBin P m + 1 - melBin P (m - 1)).toNat 0 0 (fun i _ hi => by
      unfold lowTerm Vec.get
      rw [if_pos (by rw [el]; rw [el, ec] at hi; constructor <;> omega)]
      simp only [Option.map_some, Option.some.injEq]
      rw [weight, if_pos (by rw [el, ec] at *; constructor <;> omega)]
      have e1 : (melBin P (m - 1) + (i : Int)).toNat = l + i := by rw [el]; omega
      have e2 : melBin P (m - 1) + (i : Int) = ((l + i : Nat) : Int) := by rw [el]; push_cast; rfl
      rw [e1, e2, neg_sub, mul_comm])
  have g2 := sumLoop_eq (fun i => highTerm P spec m (melBin P m + i)) (fun i => weight P m (c + 1 + i) * spec.data (c + 1 + i))
    (melBin P (m + 1) - melBin P m).toNat 0
  rw [g1, Option.bind_some, g2 _ (fun i _ hi => by
      unfold highTerm Vec.get
      rw [if_pos (by rw [ec]; rw [er, ec] at hi; constructor <;> omega)]
      simp only [Option.map_some, Option.some.injEq]
      rw [weight, if_neg (by rw [ec]; push_cast; omega), if_pos (by rw [er, ec] at *; constructor <;> push_cast <;> omega)]
      have e1 : (melBin P m + (i : Int) + 1).toNat = c + 1 + i := by rw [ec]; omega
      have e2 : melBin P m + (i : Int) + 1 = ((c + 1 + i : Nat) : Int) := by rw [ec]; push_cast; ring
      rw [e1, e2, mul_comm])]
  congr 1
  have n1 : (melBin P m + 1 - melBin P (m - 1)).toNat = c + 1 - l := by rw [ec, el]; omega
  have n2 : (melBin P (m + 1) - melBin P m).toNat = r + 1 - (c + 1) := by rw [ec, er]; omega
  rw [el, ec] at hlc
  rw [er, ec] at hcr
  rw [n1, n2, zero_add]
  simp only [zero_add]
  rw [← Finset.sum_Ico_eq_sum_range (fun k => weight P m k * spec.data k) l (c + 1),
    ← Finset.sum_Ico_eq_sum_range (fun k => weight P m k * spec.data k) (c + 1) (r + 1),
    Finset.sum_Ico_consecutive _ (by omega) (by omega)]
  apply Finset.sum_subset
  · intro k hk; rw [Finset.mem_Ico] at hk; rw [Finset.mem_range]; rw [er] at hr; omega
  · intro k _ hk
    rw [Finset.mem_Ico] at hk
    rw [weight, if_neg (by rw [el, ec]; omega), if_neg (by rw [ec, er]; omega), zero_mul]

/-- Reading bin `spec.len` faults. -/
theorem melValue_none (P : Mel) (spec : Vec) (m : Nat) (hl : 0 ≤ melBin P (m - 1)) (hlc : melBin P (m - 1) ≤ melBin P m)
    (hcr : melBin P m ≤ melBin P (m + 1)) (hr : melBin P (m + 1) = spec.len) :
    melValue P spec m (melBin P (m - 1)) (melBin P m) (melBin P (m + 1)) = none := by
  unfold melValue
  rcases hcr.lt_or_eq with h | h
  · rw [Option.bind_eq_none_iff]
    intro v _
    apply sumLoop_none _ _ _ (melBin P (m + 1) - melBin P m - 1).toNat _ (by omega) (by omega)
    unfold highTerm Vec.get
    rw [if_neg (by omega)]; rfl
  · rw [Option.bind_eq_none_iff]
    intro v hv
    exfalso
    rw [sumLoop_none _ _ _ (melBin P m - melBin P (m - 1)).toNat _ (by omega) (by omega)] at hv
    · simp at hv
    · unfold lowTerm Vec.get
      rw [if_neg (by omega)]; rfl

/-- The loop over filters faults exactly when one of the filters it reaches touches bin `spec.len = max_bin`. -/
theorem melLoop_none (P : Mel) (h1 : -700 < P.fmin) (h2 : P.fmin ≤ P.fmax) (spec : Vec) (hs : maxBin P ≤ spec.len) (k m : Nat) (mels : Vec)
    (hm : 1 ≤ m) (hlen : m - 1 + k ≤ mels.len) :
    melLoop P spec k m mels = none ↔ spec.len = maxBin P ∧ 0 ≤ melBin P (m - 1) ∧ ∃ j, m + 1 ≤ j ∧ j ≤ m + k ∧ melBin P j = maxBin P := by
  have hmono := bin_mono P h1 h2
  induction k generalizing m mels with
  | zero =>
    simp only [melLoop, reduceCtorEq, false_iff, not_and, not_exists]
    intro _ _ j h3 h4; omega
  | succ k ih =>
    have hlc := hmono (show m - 1 ≤ m by omega)
    have hcr := hmono (show m ≤ m + 1 by omega)
    rw [melLoop]
    by_cases hneg : melBin P (m - 1) < 0
    · rw [if_pos hneg]; simp only [reduceCtorEq, false_iff]; omega
    rw [if_neg hneg]
    by_cases hbig : melBin P (m + 1) > maxBin P
    · rw [if_pos hbig]; simp only [reduceCtorEq, false_iff, not_and, not_exists]
      intro _ _ j h3 h4
      have := hmono h3
      omega
    rw [if_neg hbig]
    by_cases hr : melBin P (m + 1) < spec.len
    · rw [melValue_eq P spec m (by omega) hlc hcr spec.len hr (le_refl _), Option.bind_some, if_pos (by omega)]
      refine (ih (m + 1) _ (by omega) (by show _ ≤ mels.len; omega)).trans ?_
      rw [Nat.add_sub_cancel]
      constructor
      · rintro ⟨a, b, j, c, d, e⟩
        exact ⟨a, by omega, j, by omega, by omega, e⟩
      · rintro ⟨a, b, j, c, d, e⟩
        refine ⟨a, by omega, j, ?_, by omega, e⟩
        rcases Nat.lt_or_ge (m + 1) j with h | h
        · omega
        · have : j = m + 1 := by omega
          subst this; omega
    · rw [melValue_none P spec m (by omega) hlc hcr (by omega), Option.bind_none]
      simp only [true_iff]
      exact ⟨by omega, by omega, m + 1, by omega, by omega, by omega⟩

/-- **C50 (exact).** For mel ranges `-700 < fmin ≤ fmax`, the filter reads outside the spectrum exactly when the spectrum has no spare entry
(`spec.length = 1 + n_fft/2`), the lower edge is not rejected, and some upper filter edge falls on bin `1 + n_fft/2`. -/
theorem C50_out_of_bounds_exactly (P : Mel) (h1 : -700 < P.fmin) (h2 : P.fmin ≤ P.fmax) (spec mels : Vec) :
    melspec P spec mels = none ↔ spec.len = 1 + P.nFft / 2 ∧ mels.len = P.nMels ∧ 0 ≤ melBin P 0 ∧
      ∃ j, 2 ≤ j ∧ j ≤ P.nMels + 1 ∧ melBin P j = 1 + P.nFft / 2 := by
  unfold melspec
  have hM : ((maxBin P : Nat) : Int) = 1 + P.nFft / 2 := by simp [maxBin]
  split_ifs with hs hm
  · rw [melLoop_none P h1 h2 spec hs P.nMels 1 mels (le_refl _) (by omega)]
    constructor
    · rintro ⟨a, b, j, c, d, e⟩
      exact ⟨a, hm.symm, b, j, c, by omega, by omega⟩
    · rintro ⟨a, _, b, j, c, d, e⟩
      exact ⟨a, b, j, c, by omega, by omega⟩
  · simp only [reduceCtorEq, false_iff]; omega
  · simp only [reduceCtorEq, false_iff]
    have : maxBin P = 1 + P.nFft / 2 := rfl
    omega

/-- **C50 (partial).** No read or write leaves the buffers when the spectrum has at least one entry more than `1 + n_fft/2`; nor for an even
`n_fft` with `fmax` at most the Nyquist frequency. Missing: the full claim, which is false (`C50_refuted`). -/
theorem C50_in_bounds_partial (P : Mel) (h1 : -700 < P.fmin) (h2 : P.fmin ≤ P.fmax) (hsr : 0 < P.samplerate) (spec mels : Vec)
    (h : spec.len > 1 + P.nFft / 2 ∨ (P.nFft % 2 = 0 ∧ P.fmax ≤ P.samplerate / 2)) : (melspec P spec mels).isSome := by
  rw [Option.isSome_iff_ne_none]
  intro hn
  obtain ⟨a, _, _, j, hj1, hj2, hj3⟩ := (C50_out_of_bounds_exactly P h1 h2 spec mels).mp hn
  rcases h with h | ⟨he, hf⟩
  · omega
  · have hc := center_mono P h1 h2 hj2
    rw [center_last P (by linarith)] at hc
    have hsr' : (0 : ℝ) < P.samplerate := by exact_mod_cast hsr
    have hb : melBin P j < 1 + P.nFft / 2 := by
      unfold melBin melBinHz
      rw [Int.floor_lt]
      have h3 : melCenter P j / P.samplerate ≤ 1 / 2 := by
        rw [div_le_iff₀ hsr']; linarith
      have h4 : ((P.nFft : ℝ) + 1) * (melCenter P j / P.samplerate) ≤ ((P.nFft : ℝ) + 1) * (1 / 2) :=
        mul_le_mul_of_nonneg_left h3 (by positivity)
      obtain ⟨q, hq⟩ : ∃ q, P.nFft = 2 * q := ⟨P.nFft / 2, by omega⟩
      rw [hq] at h4 ⊢
      have : (2 * q : Nat) / 2 = q := by omega
      push_cast at h4 ⊢
      have e : (((2 : ℤ) * (q : ℤ) / 2 : ℤ) : ℝ) = q := by
        rw [Int.mul_ediv_cancel_left _ (by norm_num)]; simp
      rw [e]
      linarith
    omega

/-- **C50 is false as stated**: for *every* odd `n_fft` and every number of filters, the usual range `0 .. samplerate/2` with a spectrum of
the expected length `1 + n_fft/2` passes all checks and reads one entry past its end. -/
theorem C50_refuted (nMels nFft sr : Nat) (hm : 1 ≤ nMels) (ho : nFft % 2 = 1) (hsr : 0 < sr) (spec mels : Vec)
    (hs : spec.len = 1 + nFft / 2) (hl : mels.len = nMels) :
    melspec { nMels := nMels, fmin := 0, fmax := sr / 2, nFft := nFft, samplerate := sr } spec mels = none := by
  have hsr' : (0 : ℝ) < sr := by exact_mod_cast hsr
  rw [C50_out_of_bounds_exactly _ (by norm_num) (by simp only []; positivity)]
  refine ⟨hs, hl, ?_, nMels + 1, by omega, le_refl _, ?_⟩
  · unfold melBin melBinHz
    rw [center_zero _ (by norm_num)]
    simp
  · unfold melBin melBinHz
    have := center_last { nMels := nMels, fmin := 0, fmax := (sr : ℝ) / 2, nFft := nFft, samplerate := sr } (by simp only []; linarith)
    simp only [] at this
    rw [this, Int.floor_eq_iff]
    obtain ⟨q, hq⟩ : ∃ q, nFft = 2 * q + 1 := ⟨nFft / 2, by omega⟩
    have e : ((sr : ℝ) / 2 / sr) = 1 / 2 := by field_simp
    simp only [e]
    have e2 : ((1 + (nFft : Int) / 2 : Int) : ℝ) = 1 + q := by
      have : (nFft : Int) / 2 = q := by omega
      rw [this]; push_cast; ring
    rw [e2, hq]
    push_cast
    constructor <;> linarith

example : (melspec { nMels := 32, fmin := 0, fmax := 8000, nFft := 1024, samplerate := 16000 } ⟨513, fun _ => 1⟩ ⟨32, fun _ => 0⟩).isSome :=
  C50_in_bounds_partial _ (by norm_num) (by norm_num) (by norm_num) _ _ (Or.inr ⟨by norm_num, by norm_num⟩)
example : melspec { nMels := 20, fmin := 0, fmax := (22050 : Nat) / 2, nFft := 1023, samplerate := 22050 } ⟨512, fun _ => 1⟩ ⟨20, fun _ => 0⟩ = none :=
  C50_refuted 20 1023 22050 (by norm_num) (by norm_num) (by norm_num) _ _ (by norm_num) rfl

/-! ### What the filterbank computes -/

/-- Specification: the triangular filter rising from `a` to `b` and falling to `c`. -/
noncomputable def triangle (a b c f : ℝ) : ℝ := max 0 (min ((f - a) / (b - a)) ((c - f) / (c - b)))

theorem weight_range (P : Mel) (m k : Nat) : 0 ≤ weight P m k ∧ weight P m k ≤ 1 := by
  unfold weight
  split_ifs <;> simp

/-- The weights are the triangle, except at the centre bin when it lies above the centre frequency: there the weight is 1. -/
theorem weight_triangle (P : Mel) (h1 : 0 ≤ P.fmin) (h2 : P.fmin < P.fmax) (hsr : 0 < P.samplerate) (h3 : P.fmax ≤ P.samplerate / 2)
    (he : P.nFft % 2 = 0) (hn : 0 < P.nFft) (m : Nat) (hm : 1 ≤ m) (hm2 : m ≤ P.nMels) (k : Nat) :
    weight P m k = if (k : Int) = melBin P m ∧ (k : ℝ) * P.samplerate / P.nFft > melCenter P m then 1
      else triangle (melCenter P (m - 1)) (melCenter P m) (melCenter P (m + 1)) (k * P.samplerate / P.nFft) := by
  have hsm := center_strictMono P (by linarith) h2
  have hsr' : (0 : ℝ) < P.samplerate := by exact_mod_cast hsr
  have hn' : (0 : ℝ) < P.nFft := by exact_mod_cast hn
  have hab : melCenter P (m - 1) < melCenter P m := hsm (by omega)
  have hbc : melCenter P m < melCenter P (m + 1) := hsm (by omega)
  have ha0 : 0 ≤ melCenter P (m - 1) := by
    have := hsm.monotone (Nat.zero_le (m - 1))
    rw [center_zero P (by linarith)] at this; linarith
  have hcs : melCenter P (m + 1) ≤ P.samplerate / 2 := by
    have := hsm.monotone (show m + 1 ≤ P.nMels + 1 by omega)
    rw [center_last P (by linarith)] at this; linarith
  have hf : fftFreq P k = k * P.samplerate / P.nFft := by
    simp only [fftFreq]
    obtain ⟨q, hq⟩ : ∃ q, P.nFft = 2 * q := ⟨P.nFft / 2, by omega⟩
    have hq' : (0 : ℝ) < q := by
      have : 0 < q := by omega
      exact_mod_cast this
    have : (1 + P.nFft / 2) - 1 = q := by omega
    rw [this, hq]
    push_cast
    field_simp
  have hlow : ∀ x : ℝ, x < P.samplerate → 0 ≤ x → (k : Int) < ⌊((P.nFft : ℝ) + 1) * (x / P.samplerate)⌋ → (k : ℝ) * P.samplerate / P.nFft < x := by
    intro x hx hx0 hk
    have : ((k : Int) + 1 : Int) ≤ ⌊((P.nFft : ℝ) + 1) * (x / P.samplerate)⌋ := hk
    rw [Int.le_floor] at this
    push_cast at this
    rw [div_lt_iff₀ hn']
    have e : ((P.nFft : ℝ) + 1) * (x / P.samplerate) = ((P.nFft : ℝ) + 1) * x / P.samplerate := by ring
    rw [e, le_div_iff₀ hsr'] at this
    nlinarith
  have hhigh : ∀ x : ℝ, 0 ≤ x → ⌊((P.nFft : ℝ) + 1) * (x / P.samplerate)⌋ < (k : Int) → x < (k : ℝ) * P.samplerate / P.nFft := by
    intro x hx hk
    rw [Int.floor_lt] at hk
    push_cast at hk
    rw [lt_div_iff₀ hn']
    have e : ((P.nFft : ℝ) + 1) * (x / P.samplerate) = ((P.nFft : ℝ) + 1) * x / P.samplerate := by ring
    rw [e, div_lt_iff₀ hsr'] at hk
    nlinarith
  have la := hlow (melCenter P (m - 1)) (by linarith) ha0
  have lb := hlow (melCenter P m) (by linarith) (by linarith)
  have hb := hhigh (melCenter P m) (by linarith)
  have hc := hhigh (melCenter P (m + 1)) (by linarith)
  unfold weight
  rw [hf]
  change (k : Int) < melBin P (m - 1) → _ at la
  change (k : Int) < melBin P m → _ at lb
  change melBin P m < (k : Int) → _ at hb
  change melBin P (m + 1) < (k : Int) → _ at hc
  generalize (k : ℝ) * P.samplerate / P.nFft = f at *
  generalize melCenter P (m - 1) = a at *
  generalize melCenter P m = b at *
  generalize melCenter P (m + 1) = c at *
  have hba : 0 < b - a := by linarith
  have hcb : 0 < c - b := by linarith
  have tri_neg : f ≤ a ∨ c ≤ f → triangle a b c f = 0 := by
    intro h
    unfold triangle
    apply max_eq_left
    rcases h with h | h
    · exact le_trans (min_le_left _ _) (div_nonpos_of_nonpos_of_nonneg (by linarith) hba.le)
    · exact le_trans (min_le_right _ _) (div_nonpos_of_nonpos_of_nonneg (by linarith) hcb.le)
  split_ifs with c1 c2 c3 c4 c5
  · -- centre bin above the centre frequency
    have : 1 ≤ (f - a) / (b - a) := by rw [le_div_iff₀ hba]; linarith [c2.2]
    rw [min_eq_right this]; norm_num
  · have hfb : f ≤ b := by
      rcases c1.2.lt_or_eq with h | h
      · exact (lb h).le
      · by_contra hh; exact c2 ⟨h, not_le.mp hh⟩
    have e1 : (f - a) / (b - a) ≤ 1 := by rw [div_le_iff₀ hba]; linarith
    have e2 : 1 ≤ (c - f) / (c - b) := by rw [le_div_iff₀ hcb]; linarith
    rw [min_eq_left e1, triangle, min_eq_left (by linarith), max_comm]
  · omega
  · have hbf := hb c3.1
    have e1 : 1 ≤ (f - a) / (b - a) := by rw [le_div_iff₀ hba]; linarith
    have e2 : (c - f) / (c - b) ≤ 1 := by rw [div_le_iff₀ hcb]; linarith
    rw [min_eq_left e2, triangle, min_eq_right (by linarith), max_comm]
  · exfalso; obtain ⟨d1, d2⟩ := c5
    have hmono := bin_mono P (by linarith) h2.le (show m - 1 ≤ m by omega)
    omega
  · symm
    apply tri_neg
    have hmono := bin_mono P (by linarith) h2.le (show m - 1 ≤ m by omega)
    by_cases hk : (k : Int) < melBin P (m - 1)
    · exact Or.inl (la hk).le
    · exact Or.inr (hc (by omega)).le

/-- The loop over filters writes one weighted sum per filter. -/
theorem melLoop_eq (P : Mel) (spec : Vec) (N : Nat) (hN : N ≤ spec.len) (k m : Nat) (mels : Vec) (hm : 1 ≤ m) (hlen : m - 1 + k ≤ mels.len)
    (hmono : Monotone (melBin P)) (h0 : 0 ≤ melBin P 0) (hr : melBin P (m + k) < N) (hNm : N ≤ maxBin P + 1) :
    melLoop P spec k m mels = some (.ok, { mels with data := fun i => if m - 1 ≤ i ∧ i < m - 1 + k then ∑ j ∈ Finset.range N, weight P (i + 1) j * spec.data j else mels.data i }) := by
  induction k generalizing m mels with
  | zero =>
    rw [melLoop]
    have : (fun i => if m - 1 ≤ i ∧ i < m - 1 + 0 then ∑ j ∈ Finset.range N, weight P (i + 1) j * spec.data j else mels.data i) = mels.data := by
      funext i
      rw [if_neg (by omega)]
    rw [this]
  | succ k ih =>
    have hl := hmono (show 0 ≤ m - 1 by omega)
    have hlc := hmono (show m - 1 ≤ m by omega)
    have hcr := hmono (show m ≤ m + 1 by omega)
    have hrr := hmono (show m + 1 ≤ m + (k + 1) by omega)
    rw [melLoop]
    rw [if_neg (by omega), if_neg (by omega), melValue_eq P spec m (by omega) hlc hcr N (by omega) hN, Option.bind_some, if_pos (by omega),
      ih (m + 1) _ (by omega) (by show _ ≤ mels.len; omega) (by rw [show m + 1 + k = m + (k + 1) by omega]; exact hr)]
    congr 3
    funext i
    simp only [put]
    rcases Nat.lt_trichotomy i (m - 1) with h | h | h
    · rw [if_neg (by omega), if_neg (by omega), if_neg (by omega)]
    · rw [if_neg (by omega), if_pos h, if_pos (by omega), show i + 1 = m by omega]
    · by_cases h' : i < m - 1 + (k + 1)
      · rw [if_pos (by omega), if_pos (by omega)]
      · rw [if_neg (by omega), if_neg (by omega), if_neg (by omega)]

theorem bins_ok (P : Mel) (h1 : 0 ≤ P.fmin) (h2 : P.fmin < P.fmax) (hsr : 0 < P.samplerate) (h3 : P.fmax ≤ P.samplerate / 2) :
    0 ≤ melBin P 0 ∧ (P.nFft % 2 = 0 → melBin P (P.nMels + 1) < maxBin P) := by
  have hsr' : (0 : ℝ) < P.samplerate := by exact_mod_cast hsr
  constructor
  · unfold melBin melBinHz
    rw [center_zero P (by linarith), Int.floor_nonneg]
    positivity
  · intro he
    unfold melBin melBinHz
    rw [center_last P (by linarith), Int.floor_lt]
    obtain ⟨q, hq⟩ : ∃ q, P.nFft = 2 * q := ⟨P.nFft / 2, by omega⟩
    have : maxBin P = 1 + q := by unfold maxBin; omega
    rw [this, hq]
    have h4 : P.fmax / P.samplerate ≤ 1 / 2 := by rw [div_le_iff₀ hsr']; linarith
    have h5 : ((2 * q : Nat) + 1 : ℝ) * (P.fmax / P.samplerate) ≤ ((2 * q : Nat) + 1 : ℝ) * (1 / 2) := mul_le_mul_of_nonneg_left h4 (by positivity)
    push_cast at h5 ⊢
    linarith

/-- **C73 (partial).** For `0 ≤ fmin < fmax ≤ samplerate/2` and even `n_fft`, `eml_audio_melspec` succeeds and each output is the weighted sum of
the spectrum, the weight of bin `k` being the triangular filter through the neighbouring edges at frequency `k*samplerate/n_fft`, except at the
centre bin of a filter when that bin lies above the centre frequency, where the weight is 1. Missing: that exception (`C73_refuted`). -/
theorem C73_triangular_filters_partial (P : Mel) (h1 : 0 ≤ P.fmin) (h2 : P.fmin < P.fmax) (hsr : 0 < P.samplerate) (h3 : P.fmax ≤ P.samplerate / 2)
    (he : P.nFft % 2 = 0) (hn : 0 < P.nFft) (spec mels : Vec) (hs : 1 + P.nFft / 2 ≤ spec.len) (hl : mels.len = P.nMels) :
    ∃ (out : Vec) (w : Nat → Nat → ℝ), melspec P spec mels = some (.ok, out) ∧ out.len = P.nMels ∧
      (∀ m < P.nMels, out.data m = ∑ k ∈ Finset.range (1 + P.nFft / 2), w m k * spec.data k) ∧
      (∀ m < P.nMels, ∀ k, w m k = if (k : Int) = ⌊((P.nFft : ℝ) + 1) * (melCenter P (m + 1) / P.samplerate)⌋ ∧ (k : ℝ) * P.samplerate / P.nFft > melCenter P (m + 1)
        then 1 else triangle (melCenter P m) (melCenter P (m + 1)) (melCenter P (m + 2)) (k * P.samplerate / P.nFft)) := by
  have hmono := bin_mono P (by linarith) h2.le
  obtain ⟨b0, b1⟩ := bins_ok P h1 h2 hsr h3
  have hb := b1 he
  have hloop := melLoop_eq P spec (maxBin P) hs P.nMels 1 mels (le_refl _) (by omega) hmono b0 (by rw [Nat.add_comm]; exact hb) (by omega)
  refine ⟨{ mels with data := fun i => if i < P.nMels then ∑ j ∈ Finset.range (maxBin P), weight P (i + 1) j * spec.data j else mels.data i },
    fun m k => weight P (m + 1) k, ?_, ?_, ?_, ?_⟩
  · unfold melspec
    rw [if_pos (show maxBin P ≤ spec.len from hs), if_pos hl.symm, hloop]
    simp
  · exact hl
  · intro m hm
    simp only [hm, if_true]
    rfl
  · intro m hm k
    simp only []
    rw [weight_triangle P h1 h2 hsr h3 he hn (m + 1) (by omega) (by omega) k, Nat.add_sub_cancel]
    rfl

/-- Parameters for the counterexamples: one filter with edges 0, 700 and 2100 Hz. -/
theorem center_example (n sr : Nat) : let P : Mel := { nMels := 1, fmin := 0, fmax := 2100, nFft := n, samplerate := sr }
    melCenter P 0 = 0 ∧ melCenter P 1 = 700 ∧ melCenter P 2 = 2100 := by
  intro P
  refine ⟨center_zero P (by norm_num [P]), ?_, center_last P (by norm_num [P])⟩
  unfold melCenter melsToHz melsFromHz
  simp only [P]
  have : (2595 * Real.logb 10 (1 + 0 / 700) + ((1 : Nat) : ℝ) * ((2595 * Real.logb 10 (1 + 2100 / 700) - 2595 * Real.logb 10 (1 + 0 / 700)) / (((1 : Nat) : ℝ) + 1))) / 2595
      = Real.logb 10 2 := by
    have h4 : Real.logb 10 4 = 2 * Real.logb 10 2 := by
      rw [show (4 : ℝ) = 2 ^ 2 by norm_num, Real.logb_pow]; norm_num
    norm_num
    rw [h4]; ring
  rw [this, Real.rpow_logb (by norm_num) (by norm_num) (by norm_num)]
  norm_num

/-- **C73 is false as stated**: with `n_fft = 8`, samplerate 6000 and a filter with edges 0, 700, 2100 Hz, bin 1 (750 Hz, on the falling slope)
gets weight 1, where the triangle gives 27/28. -/
theorem C73_refuted : ∃ P : Mel, 0 ≤ P.fmin ∧ P.fmin < P.fmax ∧ P.fmax ≤ P.samplerate / 2 ∧ P.nFft = 8 ∧ P.nMels = 1 ∧
    ∃ spec mels out, melspec P spec mels = some (.ok, out) ∧
      out.data 0 ≠ ∑ k ∈ Finset.range (1 + P.nFft / 2), triangle (melCenter P 0) (melCenter P 1) (melCenter P 2) (k * P.samplerate / P.nFft) * spec.data k := by
  let P : Mel := { nMels := 1, fmin := 0, fmax := 2100, nFft := 8, samplerate := 6000 }
  refine ⟨P, by norm_num [P], by norm_num [P], by norm_num [P], rfl, rfl, ?_⟩
  obtain ⟨e0, e1, e2⟩ := center_example 8 6000
  let spec : Vec := ⟨5, fun k => if k = 1 then 1 else 0⟩
  obtain ⟨out, w, ho, _, hs, hw⟩ := C73_triangular_filters_partial P (by norm_num [P]) (by norm_num [P]) (by norm_num [P]) (by norm_num [P]) (by norm_num [P]) (by norm_num [P])
    spec ⟨1, fun _ => 0⟩ (by norm_num [P, spec]) rfl
  refine ⟨spec, _, out, ho, ?_⟩
  rw [hs 0 (by norm_num [P])]
  have r5 : Finset.range (1 + P.nFft / 2) = Finset.range 5 := by simp [P]
  have w1 := hw 0 (by norm_num [P]) 1
  change melCenter P 0 = _ at e0
  change melCenter P 1 = _ at e1
  change melCenter P 2 = _ at e2
  have fl : ⌊((P.nFft : ℝ) + 1) * (melCenter P 1 / P.samplerate)⌋ = 1 := by
    rw [e1, Int.floor_eq_iff]; norm_num [P]
  rw [Nat.zero_add, fl, e1, if_pos (by norm_num [P])] at w1
  rw [r5, e0, e1, e2]
  simp only [Finset.sum_range_succ, Finset.sum_range_zero]
  simp only [spec, w1]
  norm_num [P, triangle]

/-! ### Mel spectrogram -/

/-- Specification: the Hann window of length `n`. -/
noncomputable def hann (n i : Nat) : ℝ := (1 - Real.cos (2 * Real.pi * i / ((n : ℝ) - 1))) / 2

/-- Specification: the spectrum of the windowed signal. -/
noncomputable def windowedDft (n : Nat) (x : Nat → ℝ) (k : Nat) : ℂ := Fft.dft n (fun i => ((hann n i * x i : ℝ) : ℂ)) k

theorem dft_congr (n : Nat) (x y : Nat → ℂ) (h : ∀ i < n, x i = y i) (k : Nat) : Fft.dft n x k = Fft.dft n y k := by
  unfold Fft.dft
  apply Finset.sum_congr rfl
  intro i hi
  rw [h i (Finset.mem_range.mp hi)]

/-- **C72 (partial).** For a power-of-two `n_fft` of at least 4, buffers of length `n_fft`, a table filled for it and
`0 ≤ fmin < fmax ≤ samplerate/2`, the mel spectrogram succeeds within its buffers, and each output is the mel-weighted sum of
`(Re X[k])² / n_fft`, `X` the DFT of the Hann-windowed input. Missing: the power should be `|X[k]|²/n_fft` (`C72_refuted`). -/
theorem C72_melspectrogram_partial (L : Nat) (hL : 2 ≤ L) (hL2 : L < 32) (P : Mel) (hP : P.nFft = 2 ^ L) (h1 : 0 ≤ P.fmin) (h2 : P.fmin < P.fmax)
    (hsr : 0 < P.samplerate) (h3 : P.fmax ≤ P.samplerate / 2) (hm : P.nMels ≤ 2 ^ L) (t0 : Fft.Table ℝ) (ht : t0.length = 2 ^ L / 2)
    (x temp : Vec) (hx : x.len = 2 ^ L) (htemp : temp.len = 2 ^ L) :
    ∃ out temp', melspectrogram P (Fft.fill t0 (2 ^ L)).2 x temp = some (.ok, out, temp') ∧
      ∀ m < P.nMels, out.data m = ∑ k ∈ Finset.range (1 + P.nFft / 2), weight P (m + 1) k * ((windowedDft (2 ^ L) x.data k).re ^ 2 / 2 ^ L) := by
  have hev : P.nFft % 2 = 0 := by
    rw [hP]; obtain ⟨q, rfl⟩ : ∃ q, L = q + 1 := ⟨L - 1, by omega⟩
    rw [pow_succ]; omega
  have h4 : 4 ≤ 2 ^ L := by
    calc 4 = 2 ^ 2 := by norm_num
      _ ≤ 2 ^ L := Nat.pow_le_pow_right (by norm_num) hL
  obtain ⟨_, b', hb, hbl, hbd⟩ := Fft.C48_fft_is_dft L hL2 t0 ht
    { len := min (hannApply x).len temp.len, re := (hannApply x).data, im := fun i => if i < temp.len then 0 else temp.data i }
    (by simp only [hannApply]; omega)
  have hmono := bin_mono P (by linarith) h2.le
  obtain ⟨b0, b1⟩ := bins_ok P h1 h2 hsr h3
  unfold melspectrogram
  simp only []
  have hxl : (hannApply x).len = 2 ^ L := hx
  rw [show (hannApply x).len = 2 ^ L from hx, htemp] at *
  rw [hb, Option.bind_some]
  simp only [ne_eq, not_true_eq_false, if_false]
  unfold powerSpectrogram
  simp only []
  rw [if_pos (by rw [hP]; omega), if_pos trivial, if_pos (by rw [htemp, hP]; omega), Option.bind_some]
  simp only [ne_eq, not_true_eq_false, if_false]
  rw [if_pos hm]
  unfold melspec
  rw [if_pos (by simp only [maxBin, htemp]; omega), if_pos rfl]
  rw [melLoop_eq P _ (maxBin P) (by simp only [maxBin, htemp]; omega) P.nMels 1 _ (le_refl _) (by simp only []; omega) hmono b0 (by rw [Nat.add_comm]; exact b1 hev) (by omega)]
  simp only [Option.map_some]
  refine ⟨_, _, rfl, fun m hmm => ?_⟩
  simp only []
  rw [if_pos (by omega)]
  apply Finset.sum_congr rfl
  intro k hk
  have hk' : k < 1 + P.nFft / 2 := Finset.mem_range.mp hk
  rw [if_pos hk']
  have hk2 : k < 2 ^ L := by rw [hP] at hk'; omega
  have hre : b'.re k = (windowedDft (2 ^ L) x.data k).re := by
    have := congrArg Complex.re (hbd k hk2)
    simp only [] at this
    rw [this, windowedDft]
    congr 1
    apply dft_congr
    intro i hi
    simp only [hannApply, hx, hann]
    rw [if_pos hi, if_pos hi]
    apply Complex.ext
    · rw [Complex.ofReal_re]; ring
    · rw [Complex.ofReal_im]
  rw [hre, sq_abs, hP]
  push_cast
  ring

/-- **C72 is false as stated** (power `|X[k]|²/n_fft`): the imaginary part of the spectrum is dropped. An impulse at sample 1 with `n_fft = 4`
has `X[1]` purely imaginary, and a filter that sees only bin 1 outputs 0. -/
theorem C72_refuted : ∃ (P : Mel) (t : Fft.Table ℝ) (x temp out temp' : Vec), 0 ≤ P.fmin ∧ P.fmin < P.fmax ∧ P.fmax ≤ P.samplerate / 2 ∧ P.nFft = 4 ∧ P.nMels = 1 ∧
    x.len = 4 ∧ temp.len = 4 ∧ melspectrogram P t x temp = some (.ok, out, temp') ∧
    out.data 0 ≠ ∑ k ∈ Finset.range (1 + P.nFft / 2), weight P 1 k * (Complex.normSq (windowedDft 4 x.data k) / 4) := by
  let P : Mel := { nMels := 1, fmin := 0, fmax := 2100, nFft := 4, samplerate := 4200 }
  let x : Vec := ⟨4, fun i => if i = 1 then 1 else 0⟩
  obtain ⟨out, temp', ho, hd⟩ := C72_melspectrogram_partial 2 (by norm_num) (by norm_num) P (by norm_num [P]) (by norm_num [P]) (by norm_num [P]) (by norm_num [P]) (by norm_num [P])
    (by norm_num [P]) ⟨2, fun _ => 0, fun _ => 0⟩ (by norm_num) x ⟨4, fun _ => 0⟩ rfl rfl
  refine ⟨P, _, x, _, out, temp', by norm_num [P], by norm_num [P], by norm_num [P], rfl, rfl, rfl, rfl, ho, ?_⟩
  rw [hd 0 (by norm_num [P])]
  obtain ⟨e0, e1, e2⟩ := center_example 4 4200
  change melCenter P 0 = _ at e0
  change melCenter P 1 = _ at e1
  change melCenter P 2 = _ at e2
  have hcos : Real.cos (2 * Real.pi / 3) = -1 / 2 := by
    rw [show 2 * Real.pi / 3 = Real.pi - Real.pi / 3 by ring, Real.cos_pi_sub, Real.cos_pi_div_three]; norm_num
  have hX : ∀ k, windowedDft 4 x.data k = (3 / 4 : ℝ) * Complex.exp (-(2 * Real.pi * Complex.I * k / 4)) := by
    intro k
    unfold windowedDft Fft.dft
    rw [Finset.sum_eq_single 1]
    · simp only [x, hann, if_true]
      have : 2 * Real.pi * ((1 : Nat) : ℝ) / (((4 : Nat) : ℝ) - 1) = 2 * Real.pi / 3 := by push_cast; ring
      rw [this, hcos]
      norm_num
    · intro i _ hi; simp [x, hi]
    · simp
  have hX1 : windowedDft 4 x.data 1 = -(3 / 4 : ℝ) * Complex.I := by
    rw [hX]
    have : -(2 * (Real.pi : ℂ) * Complex.I * ((1 : Nat) : ℂ) / 4) = (((-(Real.pi / 2) : ℝ)) : ℂ) * Complex.I := by push_cast; ring
    rw [this, Complex.exp_mul_I, ← Complex.ofReal_cos, ← Complex.ofReal_sin, Real.cos_neg, Real.sin_neg, Real.cos_pi_div_two, Real.sin_pi_div_two]
    push_cast; ring
  have hw0 : weight P 1 0 = 0 := by
    rw [weight_triangle P (by norm_num [P]) (by norm_num [P]) (by norm_num [P]) (by norm_num [P]) (by norm_num [P]) (by norm_num [P]) 1 (le_refl _) (by norm_num [P]) 0, if_neg (by rw [e1]; norm_num)]
    simp only [Nat.sub_self, e0, e1, e2]; norm_num [triangle]
  have hw1 : weight P 1 1 = 3 / 4 := by
    rw [weight_triangle P (by norm_num [P]) (by norm_num [P]) (by norm_num [P]) (by norm_num [P]) (by norm_num [P]) (by norm_num [P]) 1 (le_refl _) (by norm_num [P]) 1, if_neg]
    · simp only [Nat.sub_self, e0, e1, e2]; norm_num [triangle, P]
    · have : melBin P 1 = 0 := by
        unfold melBin melBinHz; rw [e1, Int.floor_eq_iff]; norm_num [P]
      rw [this]; norm_num
  have hw2 : weight P 1 2 = 0 := by
    rw [weight_triangle P (by norm_num [P]) (by norm_num [P]) (by norm_num [P]) (by norm_num [P]) (by norm_num [P]) (by norm_num [P]) 1 (le_refl _) (by norm_num [P]) 2, if_neg]
    · simp only [Nat.sub_self, e0, e1, e2]; norm_num [triangle, P]
    · have : melBin P 1 = 0 := by
        unfold melBin melBinHz; rw [e1, Int.floor_eq_iff]; norm_num [P]
      rw [this]; norm_num
  have r3 : Finset.range (1 + P.nFft / 2) = Finset.range 3 := by simp [P]
  rw [r3]
  simp only [Finset.sum_range_succ, Finset.sum_range_zero, Nat.zero_add, hw0, hw1, hw2]
  norm_num only [pow_two]
  rw [hX1]
  norm_num [Complex.normSq_apply]

/-- The window is symmetric and vanishes at both ends (as `scipy.signal.windows.hann(n, sym=True)`, not the periodic variant librosa uses). -/
theorem C72_hann_symmetric (n : Nat) (hn : 2 ≤ n) (i : Nat) (hi : i < n) : hann n (n - 1 - i) = hann n i ∧ hann n 0 = 0 ∧ hann n (n - 1) = 0 := by
  have h1 : (n : ℝ) - 1 ≠ 0 := by
    have : (2 : ℝ) ≤ n := by exact_mod_cast hn
    linarith
  have key : ∀ j, j < n → hann n (n - 1 - j) = hann n j := by
    intro j hj
    unfold hann
    have : ((n - 1 - j : Nat) : ℝ) = (n : ℝ) - 1 - j := by
      rw [Nat.cast_sub (by omega), Nat.cast_sub (by omega)]; simp
    rw [this]
    have e : 2 * Real.pi * ((n : ℝ) - 1 - j) / ((n : ℝ) - 1) = 2 * Real.pi - 2 * Real.pi * j / ((n : ℝ) - 1) := by
      field_simp
    rw [e, Real.cos_two_pi_sub]
  have h0 : hann n 0 = 0 := by simp [hann]
  refine ⟨key i hi, h0, ?_⟩
  have := key 0 (by omega)
  rw [Nat.sub_zero] at this
  rw [this, h0]

end Emlearn.Audio
