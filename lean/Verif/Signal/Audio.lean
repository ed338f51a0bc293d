/- Model of `emlearn/eml_audio.h` (mel filterbank, power spectrum, mel spectrogram) and of `eml_signal_hann_apply` in `emlearn/eml_vector.h`.
Exact real arithmetic instead of `float`/`double`; `none` stands for an out-of-bounds access. Division by zero gives 0 here (NaN or infinity in C); the theorems avoid it. -/
import Verif.Common
import Verif.Loops
import Verif.Signal.Fft
import Mathlib.Analysis.SpecialFunctions.Log.Base
import Mathlib.Analysis.SpecialFunctions.Pow.Real
namespace Emlearn.Audio
open Emlearn.Fft (put)

/-- `EmlVector`, `eml_vector.h` 13-16: a length and the values at each index. -/
structure Vec where
  len : Nat
  data : Nat → ℝ

/-- Reading `v.data[k]`. -/
def Vec.get (v : Vec) (k : Int) : Option ℝ := if 0 ≤ k ∧ k < v.len then some (v.data k.toNat) else none

/-- `eml_audio_mels_from_hz`, `eml_audio.h` 38-41. -/
noncomputable def melsFromHz (hz : ℝ) : ℝ := 2595 * Real.logb 10 (1 + hz / 700)

/-- `eml_audio_mels_to_hz`, `eml_audio.h` 42-45. -/
noncomputable def melsToHz (mels : ℝ) : ℝ := 700 * ((10 : ℝ) ^ (mels / 2595) - 1)

/-- `EmlAudioMel`, `eml_audio.h` 48-54. The integers are taken to be non-negative. -/
structure Mel where
  nMels : Nat
  fmin : ℝ
  fmax : ℝ
  nFft : Nat
  samplerate : Nat

/-- `eml_audio_mel_center`, `eml_audio.h` 57-67. -/
noncomputable def melCenter (P : Mel) (n : Nat) : ℝ :=
  let melmin := melsFromHz P.fmin
  let melmax := melsFromHz P.fmax
  let melstep := (melmax - melmin) / (P.nMels + 1)
  let mel := melmin + n * melstep
  melsToHz mel

/-- `eml_audio_mel_bin`, `eml_audio.h` 68-72. -/
noncomputable def melBinHz (P : Mel) (hz : ℝ) : Int := ⌊((P.nFft : ℝ) + 1) * (hz / P.samplerate)⌋

/-- `mel_bin`, `eml_audio.h` 73-77. -/
noncomputable def melBin (P : Mel) (n : Nat) : Int := melBinHz P (melCenter P n)

/-- `eml_fft_freq`, `eml_audio.h` 79-84; the number of steps is the integer `(1 + n_fft/2) - 1`. -/
noncomputable def fftFreq (P : Mel) (n : Int) : ℝ :=
  let stop := (P.samplerate : ℝ) / 2
  let steps : Nat := (1 + P.nFft / 2) - 1
  (n * stop) / steps

/-- `max_bin`, `eml_audio.h` 92. -/
def maxBin (P : Mel) : Nat := 1 + P.nFft / 2

/-- Term of the rising half of filter `m` at bin `k`, `eml_audio.h` 114-119. -/
noncomputable def lowTerm (P : Mel) (spec : Vec) (m : Nat) (k : Int) : Option ℝ :=
  let fdifflow := melCenter P m - melCenter P (m - 1)
  let r := melCenter P (m - 1) - fftFreq P k
  let weight := max (min (-r / fdifflow) 1) 0
  (spec.get k).map (fun v => v * weight)

/-- Term of the falling half of filter `m` for loop index `k` (it reads bin `k + 1`), `eml_audio.h` 122-127. -/
noncomputable def highTerm (P : Mel) (spec : Vec) (m : Nat) (k : Int) : Option ℝ :=
  let fdiffupper := melCenter P (m + 1) - melCenter P m
  let r := melCenter P (m + 1) - fftFreq P (k + 1)
  let weight := max (min (r / fdiffupper) 1) 0
  (spec.get (k + 1)).map (fun v => v * weight)

/-- Value of filter `m`: the loops `for (k=left; k<=center; k++)` and `for (k=center; k<right; k++)`, `eml_audio.h` 112-129. -/
noncomputable def melValue (P : Mel) (spec : Vec) (m : Nat) (left center right : Int) : Option ℝ :=
  (sumLoop (fun i => lowTerm P spec m (left + i)) (center + 1 - left).toNat 0 0).bind fun val =>
  sumLoop (fun i => highTerm P spec m (center + i)) (right - center).toNat 0 val

/-- The loop over filters, `eml_audio.h` 97-133: `k` filters remain, `m` is the next. -/
noncomputable def melLoop (P : Mel) (spec : Vec) : Nat → Nat → Vec → Option (EmlError × Vec)
  | 0, _, mels => some (.ok, mels)
  | k + 1, m, mels =>
    let left := melBin P (m - 1)
    let center := melBin P m
    let right := melBin P (m + 1)
    if left < 0 then some (.unknownError, mels)
    else if right > maxBin P then some (.unknownError, mels)
    else (melValue P spec m left center right).bind fun val =>
      if m - 1 < mels.len then melLoop P spec k (m + 1) { mels with data := put mels.data (m - 1) val } else none

/-- `eml_audio_melspec`, `eml_audio.h` 89-137. -/
noncomputable def melspec (P : Mel) (spec mels : Vec) : Option (EmlError × Vec) :=
  if maxBin P ≤ spec.len then
    if P.nMels = mels.len then melLoop P spec P.nMels 1 mels else some (.sizeMismatch, mels)
  else some (.sizeMismatch, mels)

/-- `eml_signal_hann_apply`, `eml_vector.h` 63-71 (for a single sample the C code divides 0 by 0). -/
noncomputable def hannApply (v : Vec) : Vec :=
  { v with data := fun i => if i < v.len then (0.5 * (1 - Real.cos (2 * Real.pi * i / ((v.len : ℝ) - 1)))) * v.data i else v.data i }

/-- `eml_audio_power_spectrogram`, `eml_audio.h` 20-33; `out` is the first `outLength` entries of `out`. -/
noncomputable def powerSpectrogram (rfft out : Vec) (outLength nFft : Nat) : Option (EmlError × Vec) :=
  let specLength := 1 + nFft / 2
  if rfft.len > specLength then
    if outLength = specLength then
      let scale : ℝ := 1 / nFft
      if specLength ≤ out.len then
        some (.ok, { out with data := fun i => if i < specLength then scale * |rfft.data i| ^ 2 else out.data i })
      else none
    else some (.sizeMismatch, out)
  else some (.sizeMismatch, out)

/-- `eml_audio_melspectrogram`, `eml_audio.h` 151-172: result code, `inout`, `temp`. The first `n_mels` entries of `inout` are
used as output; a larger `n_mels` than the buffer counts as an out-of-bounds access at that point. -/
noncomputable def melspectrogram (P : Mel) (t : Fft.Table ℝ) (inout temp : Vec) : Option (EmlError × Vec × Vec) :=
  let inout := hannApply inout
  let temp : Vec := { temp with data := fun i => if i < temp.len then 0 else temp.data i }
  (Fft.forward t { len := min inout.len temp.len, re := inout.data, im := temp.data } inout.len).bind fun r =>
  let inout : Vec := { inout with data := r.2.re }
  let temp : Vec := { temp with data := r.2.im }
  if r.1 ≠ .ok then some (r.1, inout, temp) else
  (powerSpectrogram inout temp (1 + P.nFft / 2) P.nFft).bind fun p =>
  if p.1 ≠ .ok then some (p.1, inout, p.2) else
  if P.nMels ≤ inout.len then
    (melspec P p.2 { len := P.nMels, data := inout.data }).map fun q => (q.1, { inout with data := q.2.data }, p.2)
  else none

end Emlearn.Audio
