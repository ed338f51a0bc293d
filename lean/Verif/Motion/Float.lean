/- Model of `motion_preprocessor_run` in `examples/motion_recognition/motion_preprocessing.h`, generic in the arithmetic (`float` in C): the same steps as `Motion/Preprocess`, which is in exact arithmetic.
`none` is an access outside a buffer. `frames_processed` is unbounded (`int32_t` in C). No fused or wider operations. -/
import Verif.Signal.IirRun
import Verif.Signal.Fft
import Mathlib.Data.Fin.VecNotation
namespace Emlearn.Motion.Flt

/-- The operations beside `+`, `-`, `*`: `/`, `sqrtf`, `fabs`, `<` and the conversion of an `int`. -/
structure MOps (F : Type) where
  div : F → F → F
  sqrt : F → F
  abs : F → F
  lt : F → F → Bool
  ofNat : Nat → F

/-- `struct motion_preprocessor`, `motion_preprocessing.h` 44-78, as far as the run uses it. -/
structure Pre (F : Type) where
  samplerate : Int
  windowLength : Int
  features : List F
  gravity : Fin 3 → F
  frames : Int
  coef : List F
  states : Fin 3 → List F
  enable : Bool
  table : Fft.Table F
  fftLength : Nat
  fft : Fft.Buf F

variable {F : Type} [Zero F] [Add F] [Sub F] [Mul F] [Neg F]

/-- The filter of one axis, `motion_preprocessing.h` 98-104. -/
def Pre.filter (p : Pre F) : Iir.Filter F := { nStages := 2, statesLength := 8, coef := p.coef, coefLength := 12 }

/-- Warm-up of one filter with the first sample, `motion_preprocessing.h` 314-318. -/
def warmUp (f : Iir.Filter F) (x : F) : Nat → List F → Option (List F)
  | 0, st => some st
  | k + 1, st => (Iir.filter f st x).bind fun r => warmUp f x k r.2

/-- One axis of one frame, `motion_preprocessing.h` 308-335: gravity estimate and new filter states. -/
def axis (p : Pre F) (i : Fin 3) (x : F) : Option (F × List F) :=
  if p.enable then
    ((if p.frames = 0 then warmUp p.filter x 10 (p.states i) else some (p.states i))).bind fun st => Iir.filter p.filter st x
  else some (x, p.states i)

/-- The running sums, `motion_preprocessing.h` 279-285; the range is `none` while it is (INFINITY, -INFINITY). -/
structure Acc (F : Type) where
  x2 : F
  y2 : F
  z2 : F
  mag2 : F
  range : Option (F × F)

/-- Minimum and maximum update, `motion_preprocessing.h` 346-351. -/
def see (ops : MOps F) (r : Option (F × F)) (m : F) : Option (F × F) :=
  match r with
  | none => some (m, m)
  | some (lo, hi) => some (if ops.lt m lo then m else lo, if ops.lt hi m then m else hi)

/-- `sqrtf(x*x + y*y + z*z)`, `motion_preprocessing.h` 342, 373. -/
def norm3 (ops : MOps F) (x y z : F) : F := ops.sqrt (x * x + y * y + z * z)

/-- One frame after the gravity separation, `motion_preprocessing.h` 326-366; `rx`, `ry`, `rz` are the gravity estimates and new filter states. -/
def nextFrame (ops : MOps F) (f : Nat) (p : Pre F) (a : Acc F) (x y z : F) (rx ry rz : F × List F) : Pre F × Acc F :=
  let mx := x - rx.1
  let my := y - ry.1
  let mz := z - rz.1
  let mag := norm3 ops mx my mz
  ({ p with gravity := ![rx.1, ry.1, rz.1], states := ![rx.2, ry.2, rz.2], frames := p.frames + 1,
            fft := if p.fftLength ≠ 0 then { p.fft with re := Fft.put p.fft.re f mag, im := Fft.put p.fft.im f 0 } else p.fft },
   { x2 := a.x2 + mx * mx, y2 := a.y2 + my * my, z2 := a.z2 + mz * mz, mag2 := a.mag2 + mag * mag, range := see ops a.range mag })

/-- One frame, `motion_preprocessing.h` 299-366. -/
def frameStep (ops : MOps F) (data : List F) (f : Nat) (s : Pre F × Acc F) : Option (Pre F × Acc F) :=
  (data[6 * f]?).bind fun x => (data[6 * f + 1]?).bind fun y => (data[6 * f + 2]?).bind fun z =>
  (axis s.1 0 x).bind fun rx => (axis s.1 1 y).bind fun ry => (axis s.1 2 z).bind fun rz =>
  if s.1.fftLength ≠ 0 ∧ ¬ f < s.1.fft.len then none else some (nextFrame ops f s.1 s.2 x y z rx ry rz)

/-- The frame loop: `k` frames remain from `f`. -/
def frameLoop (ops : MOps F) (data : List F) : Nat → Nat → Pre F × Acc F → Option (Pre F × Acc F)
  | 0, _, s => some s
  | k + 1, f, s => (frameStep ops data f s).bind (frameLoop ops data k (f + 1))

/-- The fixed features, `motion_preprocessing.h` 370-389, in the order of `enum motion_feature`. The p2p feature of no frames is 0 here (-inf in C). -/
def fixedFeatures (ops : MOps F) (g : Fin 3 → F) (a : Acc F) (n : Nat) : List F :=
  let gm := norm3 ops (g 0) (g 1) (g 2)
  [ops.div (g 0) gm, ops.div (g 1) gm, ops.div (g 2) gm, ops.sqrt (ops.div a.mag2 (ops.ofNat n)), (match a.range with | none => 0 | some (lo, hi) => hi - lo),
   ops.sqrt (ops.div a.x2 (ops.ofNat n)), ops.sqrt (ops.div a.y2 (ops.ofNat n)), ops.sqrt (ops.div a.z2 (ops.ofNat n))]

/-- Before the loop, `motion_preprocessing.h` 287-296: the overflow of the frame counter and clearing the FFT buffers. -/
def clear (p : Pre F) : Pre F :=
  { p with frames := if p.frames ≤ 0 then 0 else p.frames,
           fft := { p.fft with re := fun i => if i < p.fftLength then 0 else p.fft.re i, im := fun i => if i < p.fftLength then 0 else p.fft.im i } }

/-- After the loop, `motion_preprocessing.h` 368-420: the fixed features, then the FFT and its absolute values. -/
def finish (ops : MOps F) (n : Nat) (p : Pre F) (a : Acc F) : Option (Int × Pre F) :=
  if p.fftLength ≠ 0 then
    (Fft.forward p.table p.fft p.fftLength).bind fun r =>
      if r.1 ≠ .ok then some (-2, { p with features := fixedFeatures ops p.gravity a n, fft := r.2 })
      else some (0, { p with features := fixedFeatures ops p.gravity a n,
                             fft := { r.2 with re := fun i => if i < p.fftLength then ops.abs (r.2.re i) else r.2.re i } })
  else some (0, { p with features := fixedFeatures ops p.gravity a n })

/-- `motion_preprocessor_run`, `motion_preprocessing.h` 264-421. -/
def run (ops : MOps F) (p : Pre F) (data : List F) : Option (Int × Pre F) :=
  if (data.length : Int) ≠ p.windowLength * 6 then some (-1, p)
  else if p.samplerate ≤ 0 then some (-2, p)
  else
    (frameLoop ops data (data.length / 6) 0 (clear p, { x2 := 0, y2 := 0, z2 := 0, mag2 := 0, range := none })).bind fun s => finish ops (data.length / 6) s.1 s.2

/-- Window after window: `none` if a call does not return 0. -/
def runAll (ops : MOps F) : List (List F) → Pre F → Option (Pre F)
  | [], p => some p
  | d :: ds, p => (run ops p d).bind fun r => if r.1 = 0 then runAll ops ds r.2 else none

/-- The state after `motion_preprocessor_init` (`motion_preprocessing.h` 80-131) with a sine table `table` and `motion_preprocessor_set_gravity_lowpass` (228-240) with the coefficients of two sections. -/
def start (samplerate W N : Nat) (table : Fft.Table F) (coef : List F) (features : List F) (gravity : Fin 3 → F) : Pre F :=
  { samplerate := samplerate, windowLength := W, features := features, gravity := gravity, frames := 0, coef := coef, states := fun _ => List.replicate 8 0, enable := true, table := table,
    fftLength := N, fft := { len := N, re := fun _ => 0, im := fun _ => 0 } }

end Emlearn.Motion.Flt
