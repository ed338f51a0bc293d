/- Model of the Python bindings of the signal functions: `bindings/eml_signal.cpp`, `bindings/eml_audio.cpp`, `bindings/emlpy_common.hpp`. `none`: an access outside an array.
Integer arguments are taken to be non-negative. The conversion of Python objects to arrays (pybind11) is not modelled: an array is a shape and its values in C order. -/
import Verif.Signal.Iir
import Verif.Signal.Fft
import Verif.Signal.Filterbank
import Verif.Signal.Audio
import Verif.Props.ErrorStr
namespace Emlearn.Bindings
open Emlearn.ErrorStr

/-- A numpy array. -/
structure NdArray (K : Type) where
  shape : List Nat
  data : List K

/-- As many values as the shape says. -/
def NdArray.Ok {K : Type} (a : NdArray K) : Prop := a.data.length = a.shape.prod

/-- A one-dimensional array. -/
def vec {K : Type} (l : List K) : NdArray K := ⟨[l.length], l⟩

/-- What the caller sees: a value, or an exception. `std::runtime_error` objects carry their message to Python. `EMLPY_PRECONDITION` and `EMLPY_CHECK_ERROR` throw a *pointer* (`throw new ...`, `emlpy_common.hpp` 37-50),
which is no `std::exception`: the caller is told of an unknown exception, without message. -/
inductive Outcome (α : Type) where
  | ret (a : α)
  | raised (message : Option String)
  deriving DecidableEq

/-- `iirfilter_py`, `eml_signal.cpp` 18-50. -/
def iirfilter {K : Type} [Zero K] [Add K] [Sub K] [Mul K] (sos data : NdArray K) : Option (Outcome (List K)) :=
  if sos.shape.length ≠ 2 then some (.raised none)
  else if data.shape.length ≠ 1 then some (.raised none)
  else
    let n := sos.shape.headD 0
    if 6 * n ≤ sos.data.length then
      let f : Iir.Filter K := { nStages := n, statesLength := 4 * n, coef := sos.data.take (6 * n), coefLength := 6 * n }
      if Iir.check f ≠ .ok then some (.raised none)
      else (Iir.run f (List.replicate (4 * n) 0) data.data).map fun r => .ret r.1
    else none

/-- A vector over a list; entries beyond the list are never read within bounds. -/
def asVec (l : List ℝ) : Audio.Vec := ⟨l.length, fun i => l.getD i 0⟩

/-- `rfft_py`, `eml_audio.cpp` 18-56, in exact arithmetic. -/
noncomputable def rfft (inp : NdArray ℝ) : Option (Outcome (List ℝ)) :=
  if inp.shape.length ≠ 1 then some (.raised (some "SFT input must have dimensions 1"))
  else
    let n := inp.shape.headD 0
    let t := (Fft.fill ⟨n / 2, fun _ => 0, fun _ => 0⟩ n).2
    if n ≤ inp.data.length then
      (Fft.forward t ⟨n, fun i => inp.data.getD i 0, fun _ => 0⟩ n).map fun r =>
        if r.1 ≠ .ok then .raised (some "eml_fft error") else .ret ((List.range n).map r.2.re)
    else none

/-- `melfilter_py`, `eml_audio.cpp` 59-87, in exact arithmetic; `junk` is what the fresh output array holds. -/
noncomputable def melfilter (junk : Nat → ℝ) (inp : NdArray ℝ) (P : Audio.Mel) : Option (Outcome (List ℝ)) :=
  if inp.shape.length ≠ 1 then some (.raised (some "melfilter() input must have dimensions 1"))
  else if inp.shape.headD 0 ≠ 1 + P.nFft / 2 then some (.raised (some "framing not implented"))
  else
    (Audio.melspec P ⟨inp.data.length, fun i => inp.data.getD i 0⟩ ⟨P.nMels, junk⟩).map fun r =>
      if r.1 ≠ .ok then .raised (some ("melspec() returned error: " ++ (errorStr (code r.1)).getD "")) else .ret ((List.range P.nMels).map r.2.data)

/-- `melspectrogram_py`, `eml_audio.cpp` 90-135, in exact arithmetic. -/
noncomputable def melspectrogram (inp : NdArray ℝ) (P : Audio.Mel) : Option (Outcome (List ℝ)) :=
  if inp.shape.length ≠ 1 then some (.raised (some "spectrogram input must have dimensions 1"))
  else if inp.shape.headD 0 ≠ P.nFft then some (.raised (some "melspectrogram framing not implented"))
  else
    let t := (Fft.fill ⟨P.nFft / 2, fun _ => 0, fun _ => 0⟩ P.nFft).2
    let n := inp.shape.headD 0
    if n ≤ inp.data.length then
      (Audio.melspectrogram P t ⟨n, fun i => inp.data.getD i 0⟩ ⟨n, fun _ => 0⟩).map fun r =>
        if r.1 ≠ .ok then .raised (some ("melspectrogram returned error: " ++ (errorStr (code r.1)).getD "")) else .ret ((List.range P.nMels).map r.2.1.data)
    else none

/-- `sparse_filterbank_py`, `eml_audio.cpp` 138-157; `junk` as above. -/
def sparseFilterbank {K : Type} [Zero K] [Add K] [Mul K] (junk : Nat → K) (inp : NdArray K) (starts stops : NdArray Nat) (coeffs : NdArray K) : Option (Outcome (List K)) :=
  if inp.shape.length ≠ 1 ∨ starts.shape.length ≠ 1 ∨ stops.shape.length ≠ 1 ∨ coeffs.shape.length ≠ 1 then some (.raised none)
  else if starts.shape.headD 0 ≠ stops.shape.headD 0 then some (.raised none)
  else (Filterbank.cFilterbank inp.data ((List.range (starts.shape.headD 0)).map junk) starts.data stops.data coeffs.data).map .ret

end Emlearn.Bindings
