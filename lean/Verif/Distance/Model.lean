/- Model of `emlearn/eml_distance.h` and `emlearn/distance.py`. The arithmetic is any type with these operations: exact in C43 and C44 (a field), rounded in C97. -/
import Verif.Common
import Verif.Loops
import Mathlib.Algebra.Order.Field.Basic
namespace Emlearn.Distance
variable {K : Type} [Zero K] [Add K] [Sub K] [Mul K]

/-- `x1[j] - x2[j]` with bounds checks. -/
def diffAt (x1 x2 : List K) (j : Nat) : Option K := do
  let a ← x1[j]?
  let b ← x2[j]?
  some (a - b)

/-- `eml_mahalanobis_distance_squared`, `eml_distance.h` 22-37. -/
def mahaC (x1 x2 precision : List K) (n : Nat) : Option K :=
  sumLoop (fun i => do
    let acc ← sumLoop (fun j => do
      let p ← precision[j * n + i]?
      let d ← diffAt x1 x2 j
      some (p * d)) n 0 0
    let d ← diffAt x1 x2 i
    some (acc * d)) n 0 0

/-- `precision[i, j]` of a 2-D array. -/
def entry (m : List (List K)) (i j : Nat) : Option K := m[i]?.bind (fun r => r[j]?)

/-- `squared_mahalanobis_distance`, `distance.py` 15-40; `none`: a failed assertion or an index error. -/
def mahaPy (x1 x2 : List K) (precision : List (List K)) : Option K :=
  if x1.length = x2.length ∧ precision.length = x1.length ∧ (∀ r ∈ precision, r.length = x1.length) then
    sumLoop (fun i => do
      let acc ← sumLoop (fun j => do
        let p ← entry precision i j
        let d ← diffAt x1 x2 j
        some (p * d)) x1.length 0 0
      let d ← diffAt x1 x2 i
      some (acc * d)) x1.length 0 0
  else none

/-- `EmlEllipticEnvelope`, `eml_distance.h` 44-49. -/
structure Envelope (K : Type) where
  nFeatures : Nat
  boundary : K
  means : List K
  precision : List K

/-- `generate_code`, `distance.py` 43-91: the declared structure (values taken over exactly; decimal printing is not modelled). -/
def generate (means : List K) (precision : List (List K)) (offset : K) : Envelope K :=
  { nFeatures := means.length, boundary := offset, means := means, precision := precision.flatten }

variable [Neg K] [LT K] [DecidableLT K]

/-- `eml_elliptic_envelope_predict`, `eml_distance.h` 60-82, for the length `n` given by the caller: returned number and the value stored in `*out_dist` (if any). A length that differs from that of the model
returns the error code `EmlSizeMismatch`, which is 1. `none`: an array access out of bounds. -/
def predictN (e : Envelope K) (features : List K) (n : Int) : Option (Int × Option K) :=
  if n = e.nFeatures then do
    let dist ← mahaC features e.means e.precision n.toNat
    some (if (-dist) - e.boundary < 0 then 1 else 0, some dist)
  else some (1, none)

/-- With the length of the array. -/
def predict (e : Envelope K) (features : List K) : Option (Int × Option K) := predictN e features features.length

/-- The generated `{name}_predict`, `distance.py` 82-87: returns `dist`, which starts as 0. -/
def generatedPredict (e : Envelope K) (features : List K) : Option K :=
  (predict e features).map (fun r => r.2.getD 0)

/-- `Wrapper.predict`, `distance.py` 124-133 for one row: `mahalanobis` calls the generated code. -/
def wrapperPredict (means : List K) (precision : List (List K)) (offset : K) (x : List K) : Option Int :=
  (generatedPredict (generate means precision offset) x).map (fun d => if (-d) - offset > 0 then 1 else -1)

end Emlearn.Distance
