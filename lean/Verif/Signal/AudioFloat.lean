/- Model of the mel spectrogram in `float` arithmetic: `emlearn/eml_audio.h` 20-172, `eml_signal_hann_apply` of `emlearn/eml_vector.h` 63-71 and `eml_max`, `eml_min` of `emlearn/eml_common.h` 135-142.
The machine numbers are a type `F` with arbitrary `+ - *` and the operations of `AOps`; nothing is assumed about them here. `none` stands for an out-of-bounds access. -/
import Verif.Common
import Verif.Loops
import Verif.Signal.Fft
namespace Emlearn.Audio.Flt
open Emlearn.Fft (put)

/-- The operations of the C code on `float`, besides `+`, `-`, `*` and the sign: `/`; `(float)fabs`; `powf(a, 2)`; `<`; an `int` or integer constant converted to `float`; `(int)floor`;
the mel scale of `eml_audio.h` 38-45, computed with `log10` and `powf` in `double`; and the multiplier of the Hann window (`eml_vector.h` 67), for an index and a length, computed with `cos` in `double`. -/
structure AOps (F : Type) where
  div : F → F → F
  abs : F → F
  sq : F → F
  lt : F → F → Bool
  ofInt : Int → F
  floor : F → Int
  fromHz : F → F
  toHz : F → F
  hann : Nat → Nat → F

/-- `EmlVector`, `eml_vector.h` 13-16. -/
structure FVec (F : Type) where
  len : Nat
  data : Nat → F

variable {F : Type}

/-- Reading `v.data[k]`. -/
def FVec.get (v : FVec F) (k : Int) : Option F := if 0 ≤ k ∧ k < v.len then some (v.data k.toNat) else none

/-- `EmlAudioMel`, `eml_audio.h` 48-54; the integers are taken to be non-negative. -/
structure FMel (F : Type) where
  nMels : Nat
  fmin : F
  fmax : F
  nFft : Nat
  samplerate : Nat

/-- `eml_max`, `eml_common.h` 135-138. -/
def maxF (ops : AOps F) (a b : F) : F := if ops.lt b a then a else b

/-- `eml_min`, `eml_common.h` 139-142. -/
def minF (ops : AOps F) (a b : F) : F := if ops.lt a b then a else b

variable [Zero F] [Add F] [Sub F] [Mul F] [Neg F]

/-- `eml_audio_mel_center`, `eml_audio.h` 57-67. -/
def center (ops : AOps F) (P : FMel F) (n : Nat) : F :=
  let melmin := ops.fromHz P.fmin
  let melmax := ops.fromHz P.fmax
  let melstep := ops.div (melmax - melmin) (ops.ofInt (P.nMels + 1))
  let mel := melmin + ops.ofInt n * melstep
  ops.toHz mel

/-- `mel_bin` with `eml_audio_mel_bin`, `eml_audio.h` 68-77. -/
def bin (ops : AOps F) (P : FMel F) (n : Nat) : Int :=
  let hz := center ops P n
  ops.floor (ops.ofInt (P.nFft + 1) * ops.div hz (ops.ofInt P.samplerate))

/-- `eml_fft_freq`, `eml_audio.h` 79-84. -/
def freq (ops : AOps F) (P : FMel F) (n : Int) : F :=
  let stop := ops.div (ops.ofInt P.samplerate) (ops.ofInt 2)
  let steps : Nat := (1 + P.nFft / 2) - 1
  ops.div (ops.ofInt n * stop) (ops.ofInt steps)

/-- `weight`, `eml_audio.h` 116-117: the quotient, clamped to the range from 0 to 1. -/
def clamp (ops : AOps F) (q : F) : F := maxF ops (minF ops q (ops.ofInt 1)) 0

/-- Term of the rising half of filter `m` at bin `k`, `eml_audio.h` 115-121. -/
def lowTerm (ops : AOps F) (P : FMel F) (spec : FVec F) (m : Nat) (k : Int) : Option F :=
  let fdifflow := center ops P m - center ops P (m - 1)
  let r := center ops P (m - 1) - freq ops P k
  let weight := clamp ops (ops.div (-r) fdifflow)
  (spec.get k).map (fun v => v * weight)

/-- Term of the falling half of filter `m` for loop index `k` (it reads bin `k + 1`), `eml_audio.h` 123-129. -/
def highTerm (ops : AOps F) (P : FMel F) (spec : FVec F) (m : Nat) (k : Int) : Option F :=
  let fdiffupper := center ops P (m + 1) - center ops P m
  let r := center ops P (m + 1) - freq ops P (k + 1)
  let weight := clamp ops (ops.div r fdiffupper)
  (spec.get (k + 1)).map (fun v => v * weight)

/-- Value of filter `m`: the loops `for (k=left; k<=center; k++)` and `for (k=center; k<right; k++)`, `eml_audio.h` 114-130. -/
def melValue (ops : AOps F) (P : FMel F) (spec : FVec F) (m : Nat) (left mid right : Int) : Option F :=
  (sumLoop (fun i => lowTerm ops P spec m (left + i)) (mid + 1 - left).toNat 0 0).bind fun val =>
  sumLoop (fun i => highTerm ops P spec m (mid + i)) (right - mid).toNat 0 val

/-- The loop over filters, `eml_audio.h` 97-134: `k` filters remain, `m` is the next. -/
def melLoop (ops : AOps F) (P : FMel F) (spec : FVec F) : Nat → Nat → FVec F → Option (EmlError × FVec F)
  | 0, _, mels => some (.ok, mels)
  | k + 1, m, mels =>
    let left := bin ops P (m - 1)
    let mid := bin ops P m
    let right := bin ops P (m + 1)
    if left < 0 then some (.unknownError, mels)
    else if right > (1 + P.nFft / 2 : Nat) then some (.unknownError, mels)
    else (melValue ops P spec m left mid right).bind fun val =>
      if m - 1 < mels.len then melLoop ops P spec k (m + 1) { mels with data := put mels.data (m - 1) val } else none

/-- `eml_audio_melspec`, `eml_audio.h` 89-137. -/
def melspec (ops : AOps F) (P : FMel F) (spec mels : FVec F) : Option (EmlError × FVec F) :=
  if 1 + P.nFft / 2 ≤ spec.len then
    if P.nMels = mels.len then melLoop ops P spec P.nMels 1 mels else some (.sizeMismatch, mels)
  else some (.sizeMismatch, mels)

/-- `eml_signal_hann_apply`, `eml_vector.h` 63-71. -/
def hannApply (ops : AOps F) (v : FVec F) : FVec F := { v with data := fun i => if i < v.len then ops.hann v.len i * v.data i else v.data i }

/-- `eml_audio_power_spectrogram`, `eml_audio.h` 20-33; `out` is the first `outLength` entries of `out`. -/
def powerSpectrogram (ops : AOps F) (rfft out : FVec F) (outLength nFft : Nat) : Option (EmlError × FVec F) :=
  let specLength := 1 + nFft / 2
  if rfft.len > specLength then
    if outLength = specLength then
      let scale := ops.div (ops.ofInt 1) (ops.ofInt nFft)
      if specLength ≤ out.len then
        some (.ok, { out with data := fun i => if i < specLength then scale * ops.sq (ops.abs (rfft.data i)) else out.data i })
      else none
    else some (.sizeMismatch, out)
  else some (.sizeMismatch, out)

/-- `eml_audio_melspectrogram`, `eml_audio.h` 151-172: result code, `inout`, `temp`. The first `n_mels` entries of `inout` are used as output; a larger `n_mels` than the buffer counts as an out-of-bounds
access at that point. -/
def melspectrogram (ops : AOps F) (P : FMel F) (t : Fft.Table F) (inout temp : FVec F) : Option (EmlError × FVec F × FVec F) :=
  let inout := hannApply ops inout
  let temp : FVec F := { temp with data := fun i => if i < temp.len then 0 else temp.data i }
  (Fft.forward t { len := min inout.len temp.len, re := inout.data, im := temp.data } inout.len).bind fun r =>
  let inout : FVec F := { inout with data := r.2.re }
  let temp : FVec F := { temp with data := r.2.im }
  if r.1 ≠ .ok then some (r.1, inout, temp) else
  (powerSpectrogram ops inout temp (1 + P.nFft / 2) P.nFft).bind fun p =>
  if p.1 ≠ .ok then some (p.1, inout, p.2) else
  if P.nMels ≤ inout.len then
    (melspec ops P p.2 { len := P.nMels, data := inout.data }).map fun q => (q.1, { inout with data := q.2.data }, p.2)
  else none

end Emlearn.Audio.Flt
