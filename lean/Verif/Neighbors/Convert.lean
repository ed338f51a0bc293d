/- Model of the nearest-neighbors converter `emlearn/neighbors.py` and of `eml_neighbors_check` (`eml_neighbors.h` 108-124). -/
import Verif.Neighbors.Model
import Verif.Trunc
import Mathlib.Data.Rat.Floor
namespace Emlearn.Neighbors

/-- `eml_neighbors_check(self, data_length, labels_length, distances_length)`, `eml_neighbors.h` 108-124. The three lengths are `int16_t` parameters: the caller's values are converted
first. `max_items * n_features` is an `int` product (at most `32767 * 65535 < 2^31`). -/
def check (m : Model) (dataLength labelsLength distancesLength : Int) : EmlError :=
  if wrap16 dataLength < (m.maxItems : Int) * m.nFeatures then .sizeMismatch
  else if wrap16 labelsLength < m.maxItems then .sizeMismatch
  else if wrap16 distancesLength < m.maxItems then .sizeMismatch
  else .ok

/-- `c_generate_neighbors(data, labels, n_neighbors, prefix)`: the model object that the generated C declares, `neighbors.py` 131-178 (`neighbors_model_init` 122-129). The two-dimensional
array `data` of shape `n_items × n_features` is given as its rows. `array_declare` prints each value as `int(value)` (`cgen.py` 52), which initializes an `int16_t` element; the sizes
initialize `int16_t`/`uint16_t` members (`none` when they do not fit: not modelled further). -/
def generate (data : List (List ℚ)) (nFeatures : Nat) (labels : List Int) (nNeighbors : Int) : Option Model :=
  if data.length ≤ 32767 ∧ nFeatures ≤ 65535 ∧ -32768 ≤ nNeighbors ∧ nNeighbors ≤ 32767 then
    some { nFeatures := nFeatures, nItems := data.length, maxItems := data.length,
           data := data.flatten.map (fun v => wrap16 (trunc v)), labels := labels.map wrap16, k := nNeighbors }
  else none

/-- The conversion loop of `predict_func`: `features[i] = (int16_t)values[i]` into an array of `n_features` elements, `neighbors.py` 66-69. `none`: write behind the array, or a float outside
the range of `int16_t` (undefined). -/
def convertFeatures (nFeatures : Nat) (values : List ℚ) : Option (List Int) :=
  if values.length ≤ nFeatures then values.mapM (fun v => if -32768 ≤ trunc v ∧ trunc v ≤ 32767 then some (trunc v) else none)
  else none

/-- C value of an error code, `eml_common.h` 19-27. -/
def errorCode : EmlError → Int
  | .ok => 0 | .sizeMismatch => 1 | .unsupported => 2 | .uninitialized => 3 | .postconditionFailed => 4 | .unknownError => 5

/-- The generated `predict_func(values, length)`, `neighbors.py` 60-79, with the distance buffer of one entry per training row. -/
def predictFunc (m : Model) (distanceLength : Nat) (values : List ℚ) : Option Int := do
  let features ← convertFeatures m.nFeatures values
  match ← predict m features distanceLength with
  | .error e => some (-errorCode e)
  | .ok c => some c

/-- `Wrapper.__init__`/`check_params_supported`: which estimators are converted, `neighbors.py` 14-34, 37-48, 83-84. -/
inductive Refusal | metric | weights | inference
  deriving DecidableEq, Repr

def wrapperCheck (metric weights : String) (inference : Option String) : Except Refusal Unit :=
  if metric ≠ "euclidean" then .error .metric
  else if weights ≠ "uniform" then .error .weights
  else if inference.getD "loadable" = "loadable" then .ok () else .error .inference

end Emlearn.Neighbors
