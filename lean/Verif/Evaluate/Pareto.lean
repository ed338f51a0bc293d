/- Model of `emlearn/evaluate/pareto.py`: `is_pareto_efficient_simple` and `find_pareto_front`. -/
namespace Emlearn.Pareto
variable {K : Type}

/-- `numpy.any(row < c)`: some cost is smaller (`pareto.py` 22). -/
def anyLt [LT K] [DecidableLT K] (row c : List K) : Bool := (row.zip c).any (fun p => decide (p.1 < p.2))

/-- Body of the loop for point `i` with costs `c` (`pareto.py` 21-23). The masked assignment `mask[mask] = any(costs[mask] < c)` leaves
`False` entries as they are and replaces `True` entries by the comparison. -/
def step [LT K] [DecidableLT K] (costs : List (List K)) (mask : List Bool) (i : Nat) (c : List K) : List Bool :=
  if mask[i]? = some true then
    ((mask.zip costs).map (fun p => p.1 && anyLt p.2 c)).set i true
  else mask

/-- `for i, c in enumerate(costs)` (`pareto.py` 20-23). -/
def loop [LT K] [DecidableLT K] (costs : List (List K)) : List (List K) → Nat → List Bool → List Bool
  | [], _, mask => mask
  | c :: rest, i, mask => loop costs rest (i + 1) (step costs mask i c)

/-- `is_pareto_efficient_simple(costs)` (`pareto.py` 9-24). -/
def isEfficient [LT K] [DecidableLT K] (costs : List (List K)) : List Bool := loop costs costs 0 (costs.map fun _ => true)

/-- A row of a data frame: the value in each column. -/
abbrev Row (K : Type) := String → K

/-- `row[name] = v` on a copy of the row. -/
def Row.set (r : Row K) (name : String) (v : K) : Row K := fun c => if c = name then v else r c

/-- `find_pareto_front(df, cost_metric, performance_metric, higher_is_better, min_performance)` (`pareto.py` 27-61). -/
def findParetoFront [LT K] [DecidableLT K] [LE K] [DecidableLE K] [Neg K] (df : List (Row K)) (costMetric perfMetric : String)
    (higherIsBetter : Bool) (minPerformance : Option K) : List (Row K) :=
  let df : List (Row K) := df.map fun r => Row.set r "mean_test_score" (if higherIsBetter then -(r perfMetric) else r perfMetric)
  let pp : List Bool := isEfficient (df.map fun r => [r "mean_test_score", r costMetric])
  let pp : List Bool := match minPerformance with
    | none => pp
    | some m => (pp.zip df).map fun (p : Bool × Row K) => p.1 && (if higherIsBetter then decide (m ≤ p.2 perfMetric) else decide (p.2 perfMetric ≤ m))
  ((pp.zip df).filter fun (p : Bool × Row K) => p.1).map fun (p : Bool × Row K) => p.2

end Emlearn.Pareto
