/- C63, C76, C77: motion feature extraction (`motion_preprocessing.h`). -/
import Verif.Motion.Preprocess
import Verif.Props.Fft
import Verif.Props.Iir
namespace Emlearn.Motion

/-- What `init` and the setters keep true: eight fixed features, FFT buffers of the configured length, feature bins inside them. -/
structure Ok (N : Nat) (p : Pre) : Prop where
  features : p.features.length = 8
  fftLength : p.fftLength = N
  buf : p.fft.len = N
  start : 0 ≤ p.fftStart
  stop : p.fftEnd ≤ N

/-- **C63 (setup).** An accepted `init` gives a usable state with all FFT bins as features; windows longer than the FFT are refused. -/
theorem C63_init (N : Nat) (p : Pre) (hp : p.features.length = 8) (samplerate W : Int) :
    (W ≤ N → (init N p samplerate W).1 = 0 ∧ Ok N (init N p samplerate W).2 ∧ (init N p samplerate W).2.fftStart = 0 ∧ (init N p samplerate W).2.fftEnd = N ∧
      (init N p samplerate W).2.windowLength = W ∧ (init N p samplerate W).2.enable = false ∧ (init N p samplerate W).2.samplerate = samplerate ∧
      (init N p samplerate W).2.frames = 0) ∧
    (0 < N → N < W → init N p samplerate W = (-1, p)) := by
  constructor
  · intro h
    have hc : Iir.check (Pre.filter { p with fftLength := N, samplerate := samplerate, windowLength := W, frames := 0, enable := false }) = .ok := rfl
    unfold init
    rw [if_neg (by omega)]
    simp only []
    rw [if_neg (by rw [hc]; simp)]
    unfold Fft.fill Fft.fillWith
    rw [if_pos rfl]
    exact ⟨rfl, ⟨hp, rfl, rfl, le_rfl, le_rfl⟩, rfl, rfl, rfl, rfl, rfl, rfl⟩
  · intro h0 h
    unfold init
    rw [if_pos ⟨by omega, h⟩]

/-- **C63 (setup).** `set_fft_features` accepts exactly ranges with both ends in `[0, fft_length]` — in either order — and keeps the state usable. -/
theorem C63_set_fft_features (N : Nat) (hN : 0 < N) (p : Pre) (hp : Ok N p) (start stop : Int) :
    ((0 ≤ start ∧ start ≤ N ∧ 0 ≤ stop ∧ stop ≤ N) → (setFftFeatures p start stop).1 = 0 ∧ Ok N (setFftFeatures p start stop).2 ∧
      (setFftFeatures p start stop).2.fftStart = start ∧ (setFftFeatures p start stop).2.fftEnd = stop) ∧
    (¬ (0 ≤ start ∧ start ≤ N ∧ 0 ≤ stop ∧ stop ≤ N) → (setFftFeatures p start stop).1 < 0 ∧ (setFftFeatures p start stop).2 = p) := by
  obtain ⟨h1, h2, h3, h4, h5⟩ := hp
  unfold setFftFeatures
  constructor
  · rintro ⟨a, b, c, d⟩
    rw [if_neg (by omega), if_neg (by omega), if_neg (by omega)]
    exact ⟨rfl, ⟨h1, h2, h3, a, d⟩, rfl, rfl⟩
  · intro h
    by_cases a : start < 0 ∨ stop < 0
    · rw [if_pos a]; exact ⟨by simp, rfl⟩
    · rw [if_neg a]
      by_cases b : p.fftLength ≠ 0 ∧ stop > p.fftLength
      · rw [if_pos b]; exact ⟨by simp, rfl⟩
      · rw [if_neg b, if_pos (by omega)]; exact ⟨by simp, rfl⟩

/-- **C63.** With feature bins in order (`start ≤ end`), for every output buffer: `get_features` either reports a buffer that is too small and leaves it unchanged, or writes exactly
`get_feature_length()` values — the 8 fixed features, then the FFT bins `start .. end-1` — and leaves the rest of the buffer as it was. It reads only its own buffers. -/
theorem C63_get_features_partial (N : Nat) (p : Pre) (hp : Ok N p) (ho : p.fftStart ≤ p.fftEnd) (out : List ℝ) :
    ((out.length : Int) < getFeatureLength p → getFeatures p out = some (-1, out)) ∧
    (getFeatureLength p ≤ out.length → ∃ (bins : List ℝ), (bins.length : Int) = p.fftEnd - p.fftStart ∧
      (∀ i : Nat, (i : Int) < p.fftEnd - p.fftStart → bins[i]? = some (p.fft.re (p.fftStart.toNat + i))) ∧
      getFeatures p out = some (0, p.features ++ bins ++ out.drop (getFeatureLength p).toNat) ∧ ((p.features ++ bins).length : Int) = getFeatureLength p) := by
  obtain ⟨h1, h2, h3, h4, h5⟩ := hp
  unfold getFeatures getFeatureLength
  simp only []
  refine ⟨fun h => by rw [if_neg (by omega), if_pos h], fun h => ?_⟩
  refine ⟨(List.range (p.fftEnd - p.fftStart).toNat).map (fun i => p.fft.re (p.fftStart.toNat + i)), by simp; omega, fun i hi => ?_, ?_, ?_⟩
  · rw [List.getElem?_map, List.getElem?_range (by omega)]; rfl
  · rw [if_neg (by omega), if_neg (by omega), if_pos ⟨by omega, h1, by omega, h4, by omega, by omega⟩]
    congr 4
    omega
  · simp [h1]; omega

/-- **C63, refuted.** `set_fft_features` accepts `start > end`; `get_features` then copies a negative number of values (a fault), for every `start` up to 8 above `end`. -/
theorem C63_refuted (N : Nat) (hN : 0 < N) (p : Pre) (hp : Ok N p) (start stop : Int) (h0 : 0 ≤ stop) (h1 : stop < start) (h2 : start ≤ stop + 8) (h3 : start ≤ N) (out : List ℝ) (hl : 8 ≤ out.length) :
    (setFftFeatures p start stop).1 = 0 ∧ getFeatures (setFftFeatures p start stop).2 out = none := by
  obtain ⟨a, b, c, d⟩ := (C63_set_fft_features N hN p hp start stop).1 ⟨by omega, h3, h0, by omega⟩
  refine ⟨a, ?_⟩
  unfold getFeatures getFeatureLength
  simp only []
  rw [c, d, if_neg (by omega), if_neg (by omega), if_neg (by omega)]

/-! ### C76: names of the FFT features -/

theorem round_name {a b : ℝ} (h : a + 1 / 10 ≤ b) (hf : ⌊a⌋ = ⌊b⌋) : ⌊Int.fract a * 10 + 1 / 2⌋ < ⌊Int.fract b * 10 + 1 / 2⌋ := by
  have e1 : Int.fract a = a - ⌊a⌋ := rfl
  have e2 : Int.fract b = b - ⌊a⌋ := by rw [hf]; rfl
  have : ⌊Int.fract a * 10 + 1 / 2⌋ + 1 ≤ ⌊Int.fract b * 10 + 1 / 2⌋ := by
    rw [← Int.floor_add_one]
    apply Int.floor_le_floor
    rw [e1, e2]
    linarith
  omega

/-- **C76.** When the FFT bins are at least 0.1 Hz apart, different FFT features have different names (the two numbers in `fft_<a>_<b>hz` differ). -/
theorem C76_names_distinct (p : Pre) (i j : Int) (hs : 0 ≤ p.fftStart) (hi : 8 ≤ i) (hij : i < j) (hsp : (1 : ℝ) / 10 ≤ (p.samplerate : ℝ) / p.fftLength) :
    fftNameParts p i ≠ fftNameParts p j := by
  unfold fftNameParts
  simp only []
  have hb : ∀ k : Int, 8 ≤ k → |(((k - 8) + p.fftStart : Int) : ℝ) * ((p.samplerate : ℝ) / p.fftLength)| = (((k - 8) + p.fftStart : Int) : ℝ) * ((p.samplerate : ℝ) / p.fftLength) := by
    intro k hk
    apply abs_of_nonneg
    apply mul_nonneg
    · exact_mod_cast (by omega : (0 : Int) ≤ (k - 8) + p.fftStart)
    · linarith
  rw [hb i hi, hb j (by omega)]
  set r := (p.samplerate : ℝ) / p.fftLength
  intro h
  have h1 := congrArg Prod.fst h
  have h2 := congrArg Prod.snd h
  simp only [] at h1 h2
  have hle : ((((i - 8) + p.fftStart : Int) : ℝ) * r) + 1 / 10 ≤ (((j - 8) + p.fftStart : Int) : ℝ) * r := by
    have : (((i - 8) + p.fftStart : Int) : ℝ) + 1 ≤ (((j - 8) + p.fftStart : Int) : ℝ) := by exact_mod_cast (by omega : (i - 8) + p.fftStart + 1 ≤ (j - 8) + p.fftStart)
    nlinarith
  have := round_name hle h1
  omega

/-- **C76, refuted.** The decimal in a name can be 10, so the name is not the bin's frequency to one decimal: with 125 Hz over 128 points the bin at 0.9765625 Hz is called `fft_0_10hz`.
And below 0.1 Hz spacing names repeat: with 1 Hz over 64 points bins 1 and 2 are both called `fft_0_0hz`. -/
theorem C76_refuted (p : Pre) (h0 : p.fftStart = 0) :
    (p.samplerate = 125 → p.fftLength = 128 → fftNameParts p 9 = (0, 10)) ∧
    (p.samplerate = 1 → p.fftLength = 64 → fftNameParts p 9 = fftNameParts p 10) := by
  constructor
  · intro h1 h2
    unfold fftNameParts
    simp only [h0, h1, h2]
    have e : |(((9 - 8 + 0 : Int) : ℝ)) * (((125 : Int) : ℝ) / ((128 : Nat) : ℝ))| = 125 / 128 := by norm_num
    rw [e]
    have hf : ⌊(125 / 128 : ℝ)⌋ = 0 := by rw [Int.floor_eq_iff]; norm_num
    have hfr : Int.fract (125 / 128 : ℝ) = 125 / 128 := by rw [Int.fract, hf]; norm_num
    rw [hfr, hf, Prod.mk.injEq]
    refine ⟨rfl, ?_⟩
    rw [Int.floor_eq_iff]; norm_num
  · intro h1 h2
    unfold fftNameParts
    simp only [h0, h1, h2]
    have e : |(((9 - 8 + 0 : Int) : ℝ)) * (((1 : Int) : ℝ) / ((64 : Nat) : ℝ))| = 1 / 64 := by norm_num
    have e2 : |(((10 - 8 + 0 : Int) : ℝ)) * (((1 : Int) : ℝ) / ((64 : Nat) : ℝ))| = 1 / 32 := by norm_num
    rw [e, e2]
    have hf : ⌊(1 / 64 : ℝ)⌋ = 0 := by rw [Int.floor_eq_iff]; norm_num
    have hf2 : ⌊(1 / 32 : ℝ)⌋ = 0 := by rw [Int.floor_eq_iff]; norm_num
    have hfr : Int.fract (1 / 64 : ℝ) = 1 / 64 := by rw [Int.fract, hf]; norm_num
    have hfr2 : Int.fract (1 / 32 : ℝ) = 1 / 32 := by rw [Int.fract, hf2]; norm_num
    rw [hfr, hf, hfr2, hf2, Prod.mk.injEq]
    refine ⟨rfl, ?_⟩
    rw [show ⌊(1 / 64 : ℝ) * 10 + 1 / 2⌋ = 0 by rw [Int.floor_eq_iff]; norm_num, show ⌊(1 / 32 : ℝ) * 10 + 1 / 2⌋ = 0 by rw [Int.floor_eq_iff]; norm_num]

end Emlearn.Motion
