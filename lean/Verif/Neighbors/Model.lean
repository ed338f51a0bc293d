/-
Model of `emlearn/eml_neighbors.h`.  `none`: undefined behaviour (signed overflow, access outside an array) or a loop that does not end; `some (.error e)`: an error code
is returned.
-/
import Verif.Common
import Verif.Neighbors.QSort
import Verif.Trees.CModel
namespace Emlearn.Neighbors

/-- First loop of `eml_isqrt`: `while (q <= x) q <<= 2;` (`none`: the shift overflows `int32_t`).  `eml_neighbors.h` 32-34. -/
def isqrtGrow (x : Int) : Nat → Int → Option Int
  | 0, _ => none
  | fuel + 1, q => if q ≤ x then (if q * 4 ≤ 2147483647 then isqrtGrow x fuel (q * 4) else none) else some q

/-- Second loop of `eml_isqrt`.  `eml_neighbors.h` 35-44. -/
def isqrtLoop : Nat → Int → Int → Int → Option Int
  | 0, _, _, _ => none
  | fuel + 1, x, q, r =>
    if q > 1 then
      let q := q / 4
      let t := x - r - q
      let r := r / 2
      if t ≥ 0 then isqrtLoop fuel t q (r + q) else isqrtLoop fuel x q r
    else some r

/-- `eml_isqrt(x)`; 17 iterations of each loop are always enough on `int32_t` (see `C15`).  `eml_neighbors.h` 29-46. -/
def isqrt (x : Int) : Option Int := do
  let q ← isqrtGrow x 17 1
  isqrtLoop 17 x q 0

/-- Conversion of a `uint32_t` value to `int32_t` (two's complement). -/
def toInt32 (u : Nat) : Int := if u < 2147483648 then u else (u : Int) - 4294967296

/-- The accumulation loop of `eml_distance_euclidean_int16` (`ret` is `uint32_t`; `none`: `diff * diff` overflows `int32_t`, or the vectors end before `length`).
`eml_neighbors.h` 52-57. -/
def sumSquares : List Int → List Int → Nat → Nat → Option Nat
  | _, _, 0, ret => some ret
  | a :: as, b :: bs, n + 1, ret =>
    let diff := a - b
    if diff * diff ≤ 2147483647 then sumSquares as bs n ((ret + (diff * diff).toNat) % 4294967296) else none
  | _, _, _ + 1, _ => none

/-- `eml_distance_euclidean_int16(a, b, length)`.  `eml_neighbors.h` 48-60. -/
def distance (a b : List Int) (length : Nat) : Option Int := do
  let s ← sumSquares a b length 0
  isqrt (toInt32 s)

/-- `EmlNeighborsModel`; `data` and `labels` are the two arrays.  `eml_neighbors.h` 95-106. -/
structure Model where
  nFeatures : Nat
  nItems : Nat
  maxItems : Nat
  data : List Int
  labels : List Int
  k : Int
  deriving DecidableEq, Repr

/-- `memcpy` of `vals` into an array at element offset `off` (`none`: outside the array). -/
def writeSlice (mem : List Int) (off : Nat) (vals : List Int) : Option (List Int) :=
  if off + vals.length ≤ mem.length then some (mem.take off ++ vals ++ mem.drop (off + vals.length)) else none

/-- `eml_neighbors_add_item(self, values, values_length, label)`, with `values_length` the length of `values`.  Returns the new model and the error code.
`eml_neighbors.h` 135-156. -/
def addItem (m : Model) (values : List Int) (label : Int) : Option (Model × EmlError) :=
  if values.length ≠ m.nFeatures then some (m, .sizeMismatch)
  else if ¬ m.nItems < m.maxItems then some (m, .sizeMismatch)
  else do
    let data ← writeSlice m.data (m.nFeatures * m.nItems) values
    let labels ← writeSlice m.labels m.nItems [label]
    some ({ m with nItems := m.nItems + 1, data := data, labels := labels }, .ok)

/-- Row `i` of the stored data: `self->data + n_features*i`. -/
def Model.item (m : Model) (i : Nat) : List Int := m.data.drop (m.nFeatures * i)

/-- The loop of `eml_neighbors_infer`: the distance of every stored item.  `eml_neighbors.h` 166-182. -/
def inferDistances (m : Model) (features : List Int) : Option (List Int) :=
  (List.range m.nItems).mapM (fun i => distance features (m.item i) features.length)

/-- The voting loop of `eml_neighbors_find_nearest` over the first `k` sorted entries.  Votes are a function of the class number.
`eml_neighbors.h` 212-218. -/
def voteLoop (labels : List Int) : List Nat → (Nat → Nat) → Option (Except EmlError (Nat → Nat))
  | [], votes => some (.ok votes)
  | i :: rest, votes =>
    match labels[i]? with
    | none => none
    | some label =>
      if label < 0 ∨ label ≥ 10 then some (.error .unknownError)
      else voteLoop labels rest (fun c => if c = label.toNat then votes c + 1 else votes c)

/-- `eml_neighbors_find_nearest(self, distances, n_items, k, out)`: `dist i` is the distance in entry `i`, whose `index` is `i` on entry.
`QSORT` uses a stack array of at least 32 frames.  The final arg-max loop has the shape of `argmaxLoop`.
`eml_neighbors.h` 190-248. -/
def findNearest (m : Model) (dist : Nat → Int) (n : Nat) (k : Int) : Option (Except EmlError Int) :=
  if ¬ k ≤ n then some (.error .sizeMismatch)
  else do
    let sorted ← QSort.qsort (fun (a b : Nat × Int) => decide (a.2 < b.2)) 32 n (fun i => (i, dist i))
    let nearest := (List.range k.toNat).map (fun i => (sorted i).1)
    match voteLoop m.labels nearest (fun _ => 0) with
    | none => none
    | some (.error e) => some (.error e)
    | some (.ok votes) => some (.ok (Trees.argmaxLoop (fun a b => decide (a < b)) ((List.range 10).map votes) 0 (-1) 0))

/-- `eml_neighbors_predict(self, features, features_length, distances, distances_length, out)`.  `eml_neighbors.h` 158-185, 262-286. -/
def predict (m : Model) (features : List Int) (distancesLength : Int) : Option (Except EmlError Int) :=
  if ¬ distancesLength ≥ m.nItems then some (.error .sizeMismatch)
  else if features.length ≠ m.nFeatures then some (.error .sizeMismatch)
  else do
    let ds ← inferDistances m features
    findNearest m (fun i => ds.getD i 0) m.nItems m.k

end Emlearn.Neighbors
