/- Model of `examples/motion_recognition/motion_preprocessing.h`: feature extraction from a window of accelerometer data. Exact real arithmetic; `none` is an access
outside a buffer or a copy of a negative size. `N` is `MOTION_FFT_LENGTH`. -/
import Verif.Common
import Verif.Signal.Iir
import Verif.Signal.Fft
import Mathlib.Analysis.SpecialFunctions.Sqrt
import Mathlib.Data.Fin.VecNotation
namespace Emlearn.Motion

/-- `struct motion_preprocessor`, `motion_preprocessing.h` 42-76. The coefficient array is shared by the three filters; each has its own states. `frames` is unbounded
(`int32_t` in C). The `motion` vector is only a temporary of one frame. -/
structure Pre where
  samplerate : Int
  windowLength : Int
  features : List ℝ
  gravity : Fin 3 → ℝ
  frames : Int
  coef : List ℝ
  states : Fin 3 → List ℝ
  enable : Bool
  table : Fft.Table ℝ
  fftLength : Nat
  fftStart : Int
  fftEnd : Int
  fft : Fft.Buf ℝ

/-- The filter of one axis, `motion_preprocessing.h` 97-104. -/
def Pre.filter (p : Pre) : Iir.Filter ℝ := { nStages := 2, statesLength := 8, coef := p.coef, coefLength := 12 }

/-- `motion_preprocessor_init`, `motion_preprocessing.h` 78-132, with `MOTION_FFT_LENGTH = N` and table buffers of `N/2` entries. `p` is the uninitialised structure. -/
noncomputable def init (N : Nat) (p : Pre) (samplerate windowLength : Int) : Int × Pre :=
  if N ≠ 0 ∧ windowLength > N then (-1, p)
  else
    let p := { p with fftLength := N, samplerate := samplerate, windowLength := windowLength, frames := 0, enable := false }
    if Iir.check p.filter ≠ .ok then (-2, p)
    else
      let p := { p with states := fun _ => List.replicate 8 0 }
      match Fft.fill { p.table with length := N / 2 } N with
      | (.ok, t) =>
        (0, { p with table := t, fft := { len := N, re := fun i => if i < N then 0 else p.fft.re i, im := fun i => if i < N then 0 else p.fft.im i }, fftStart := 0, fftEnd := N })
      | (_, t) => (-3, { p with table := t })

/-- `motion_preprocessor_get_feature_length`, `motion_preprocessing.h` 134-142. -/
def getFeatureLength (p : Pre) : Int := 8 + (p.fftEnd - p.fftStart)

/-- `motion_preprocessor_set_fft_features`, `motion_preprocessing.h` 243-261. -/
def setFftFeatures (p : Pre) (start stop : Int) : Int × Pre :=
  if start < 0 ∨ stop < 0 then (-1, p)
  else if p.fftLength ≠ 0 ∧ stop > p.fftLength then (-2, p)
  else if p.fftLength ≠ 0 ∧ start > p.fftLength then (-3, p)
  else (0, { p with fftStart := start, fftEnd := stop })

/-- `motion_preprocessor_set_gravity_lowpass`, `motion_preprocessing.h` 228-240. -/
def setGravityLowpass (p : Pre) (coeff : List ℝ) : Int × Pre :=
  if coeff.length ≠ 12 then (-1, p) else (0, { p with coef := coeff, enable := true })

/-- `motion_preprocessor_get_features(self, out, length)`, `motion_preprocessing.h` 203-224: the return code and `out` afterwards (`out` has `length` elements). A `memcpy` whose
size is negative (a huge `size_t`) or reaches outside `out` or `fft_real` is `none`. -/
def getFeatures (p : Pre) (out : List ℝ) : Option (Int × List ℝ) :=
  let n := getFeatureLength p
  if n < 0 then some (-2, out)
  else if (out.length : Int) < n then some (-1, out)
  else
    let items := p.fftEnd - p.fftStart
    if 8 ≤ out.length ∧ p.features.length = 8 ∧ 0 ≤ items ∧ 0 ≤ p.fftStart ∧ p.fftStart + items ≤ p.fft.len ∧ 8 + items ≤ out.length then
      some (0, p.features ++ (List.range items.toNat).map (fun i => p.fft.re (p.fftStart.toNat + i)) ++ out.drop (8 + items.toNat))
    else none

/-- `motion_preprocessor_get_feature_name`, `motion_preprocessing.h` 146-201, for FFT features: the two numbers printed in `"fft_%d_%dhz"` for an index: the integer part of the
bin's frequency and its first decimal, `(int)roundf(frac * 10)` (half away from zero; exact arithmetic). -/
noncomputable def fftNameParts (p : Pre) (index : Int) : Int × Int :=
  let bin := (index - 8) + p.fftStart
  let freq : ℝ := bin * ((p.samplerate : ℝ) / p.fftLength)
  (⌊|freq|⌋, ⌊Int.fract |freq| * 10 + 1 / 2⌋)

/-- Warm-up of one filter with the first sample, `motion_preprocessing.h` 315-319. -/
def warmUp (f : Iir.Filter ℝ) (x : ℝ) : Nat → List ℝ → Option (List ℝ)
  | 0, st => some st
  | k + 1, st => (Iir.filter f st x).bind fun r => warmUp f x k r.2

/-- One axis of one frame, `motion_preprocessing.h` 308-335: gravity estimate and new filter states. -/
def axis (p : Pre) (i : Fin 3) (x : ℝ) : Option (ℝ × List ℝ) :=
  if p.enable then
    ((if p.frames = 0 then warmUp p.filter x 10 (p.states i) else some (p.states i))).bind fun st => Iir.filter p.filter st x
  else some (x, p.states i)

/-- The running sums of `motion_preprocessor_run`, `motion_preprocessing.h` 279-285; the range is `none` while it is still (INFINITY, -INFINITY). -/
structure Acc where
  x2 : ℝ
  y2 : ℝ
  z2 : ℝ
  mag2 : ℝ
  range : Option (ℝ × ℝ)

/-- Minimum and maximum update, `motion_preprocessing.h` 348-353. -/
noncomputable def Acc.see (r : Option (ℝ × ℝ)) (m : ℝ) : Option (ℝ × ℝ) :=
  match r with
  | none => some (m, m)
  | some (lo, hi) => some (if m < lo then m else lo, if m > hi then m else hi)

/-- One frame, `motion_preprocessing.h` 299-369. -/
noncomputable def frameStep (data : List ℝ) (f : Nat) (s : Pre × Acc) : Option (Pre × Acc) :=
  let p := s.1
  let a := s.2
  (data[6 * f]?).bind fun x => (data[6 * f + 1]?).bind fun y => (data[6 * f + 2]?).bind fun z =>
  (axis p 0 x).bind fun rx => (axis p 1 y).bind fun ry => (axis p 2 z).bind fun rz =>
  let mx := x - rx.1
  let my := y - ry.1
  let mz := z - rz.1
  let mag := Real.sqrt (mx * mx + my * my + mz * mz)
  if p.fftLength ≠ 0 ∧ ¬ f < p.fft.len then none
  else
    some ({ p with gravity := ![rx.1, ry.1, rz.1], states := ![rx.2, ry.2, rz.2], frames := p.frames + 1,
                   fft := if p.fftLength ≠ 0 then { p.fft with re := Fft.put p.fft.re f mag, im := Fft.put p.fft.im f 0 } else p.fft },
          { x2 := a.x2 + mx * mx, y2 := a.y2 + my * my, z2 := a.z2 + mz * mz, mag2 := a.mag2 + mag * mag, range := Acc.see a.range mag })

/-- The frame loop: `k` frames remain from `f`. -/
noncomputable def frameLoop (data : List ℝ) : Nat → Nat → Pre × Acc → Option (Pre × Acc)
  | 0, _, s => some s
  | k + 1, f, s => (frameStep data f s).bind (frameLoop data k (f + 1))

/-- The fixed features, `motion_preprocessing.h` 371-394, in the order of `enum motion_feature`. Division by zero gives 0 here (NaN in C). The p2p feature of no frames is 0 here (-inf in C). -/
noncomputable def fixedFeatures (g : Fin 3 → ℝ) (a : Acc) (nFrames : ℝ) : List ℝ :=
  let gm := Real.sqrt (g 0 * g 0 + g 1 * g 1 + g 2 * g 2)
  [g 0 / gm, g 1 / gm, g 2 / gm, Real.sqrt (a.mag2 / nFrames), (match a.range with | none => 0 | some (lo, hi) => hi - lo),
   Real.sqrt (a.x2 / nFrames), Real.sqrt (a.y2 / nFrames), Real.sqrt (a.z2 / nFrames)]

/-- `motion_preprocessor_run`, `motion_preprocessing.h` 264-430. -/
noncomputable def runPre (p : Pre) (data : List ℝ) : Option (Int × Pre) :=
  if (data.length : Int) ≠ p.windowLength * 6 then some (-1, p)
  else if p.samplerate ≤ 0 then some (-2, p)
  else
    let p := { p with frames := if p.frames ≤ 0 then 0 else p.frames }
    let p := { p with fft := { p.fft with re := fun i => if i < p.fftLength then 0 else p.fft.re i, im := fun i => if i < p.fftLength then 0 else p.fft.im i } }
    let n := data.length / 6
    (frameLoop data n 0 (p, { x2 := 0, y2 := 0, z2 := 0, mag2 := 0, range := none })).bind fun s =>
      let p := { s.1 with features := fixedFeatures s.1.gravity s.2 n }
      if p.fftLength ≠ 0 then
        (Fft.forward (α := ℝ) p.table p.fft p.fftLength).bind fun r =>
          match r with
          | (.ok, b) => some (0, { p with fft := { b with re := fun i => if i < p.fftLength then |b.re i| else b.re i } })
          | (_, b) => some (-2, { p with fft := b })
      else some (0, p)

end Emlearn.Motion
