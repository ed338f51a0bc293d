/-
Model of the remaining parts of `trees.Wrapper`: leaf probability quantization, constructor options, CSV export and size reports.
-/
import Verif.Trees.CModel
import Verif.Text
import Verif.Trunc
namespace Emlearn.Trees

/-- `numpy.round`: to nearest, ties to even (library semantics). -/
def roundHalfEven {K : Type} [Field K] [LinearOrder K] [IsStrictOrderedRing K] [FloorRing K] (x : K) : Int :=
  if x - ⌊x⌋ < 1/2 then ⌊x⌋
  else if 1/2 < x - ⌊x⌋ then ⌊x⌋ + 1
  else if ⌊x⌋ % 2 = 0 then ⌊x⌋ else ⌊x⌋ + 1

/-- One element of `quantize_probabilities_into_byte` (exact arithmetic), with `steps - 1 = m`.  `trees.py` 36-41. -/
def quantizeByte {K : Type} [Field K] [LinearOrder K] [IsStrictOrderedRing K] [FloorRing K] (m : Nat) (p : K) : Int :=
  trunc ((roundHalfEven (p * m) : K) / m * 255) % 256

/-- `quantize_probabilities_into_byte(p, bits)`; `none`: an assertion fails, `numpy.max` of an empty array, or division by `steps - 1 = 0`
(`bits = 1`, where numpy gives `nan.astype(uint8)`).  Exact arithmetic.  `trees.py` 26-41. -/
def quantizeProbabilities {K : Type} [Field K] [LinearOrder K] [IsStrictOrderedRing K] [FloorRing K] (bits : Int) (p : List K) :
    Option (List Int) :=
  if bits > 8 then none
  else if bits < 1 then none
  else if p = [] then none
  else if p.any (fun x => decide (1 < x)) then none
  else if p.any (fun x => decide (x < 0)) then none
  else
    let steps := 2 ^ bits.toNat - 1
    if (p.map (fun x => roundHalfEven (x * ((steps - 1 : Nat) : K)))).any (fun q => decide (q > 2 ^ bits.toNat - 1)) then none
    else if steps - 1 = 0 then none
    else some (p.map (quantizeByte (steps - 1)))

/-! ### Constructor -/

/-- Which leaf data `flatten_tree` extracts.  `trees.py` 62-69. -/
inductive LeafKind where
  | argmax | value | probabilities
  deriving DecidableEq, Repr

/-- Attributes set by `Wrapper.__init__`.  `trees.py` 682-742. -/
structure WrapperCfg where
  method : String
  dtype : String
  isClassifier : Bool
  leafBits : Int
  leaf : LeafKind
  nFeatures : Nat
  nClasses : Nat
  deriving DecidableEq, Repr

/-- Lines 696-707 of `Wrapper.__init__`: normalisation of `leaf_bits`. -/
def normLeafBits (isClassifier : Bool) (leafBits : Option Int) : Int :=
  let lb := if leafBits = some 1 then some 0 else leafBits
  match lb with
  | none => if isClassifier then 0 else 32
  | some b => b

/-- `Wrapper.__init__(estimator, method, dtype, leaf_bits)` after conversion of the trees succeeded; the estimator is described by whether
its class name contains `Regressor`, its number of features and its number of classes.  `none`: `ValueError`.
`trees.py` 682-742. -/
def wrapperInit (isRegressor : Bool) (nFeatures nClasses : Nat) (method dtype : Option String) (leafBits : Option Int) :
    Option WrapperCfg :=
  let method := method.getD "inline"
  let dtype := dtype.getD "int16_t"
  let isClassifier := !isRegressor
  let lb := normLeafBits isClassifier leafBits
  let leaf := if lb > 0 ∧ lb ≤ 8 ∧ isClassifier then LeafKind.probabilities
    else if isRegressor then .value else .argmax
  if ¬(method = "loadable" ∨ method = "inline") then none
  else if method = "loadable" ∧ dtype ≠ "int16_t" then none
  else
    let maxFeatures := if method = "loadable" then 127 else 10000
    if nFeatures > maxFeatures then none
    else some ⟨method, dtype, isClassifier, lb, leaf, nFeatures, if isClassifier then nClasses else 0⟩

/-! ### CSV export -/

/-- Fields joined by `,` (the f-strings of `save`). -/
def csvLine (fields : List (List Char)) : List Char := [','].intercalate fields

/-- `serialize_node(index, node)`: the fields of the exported node line.  The threshold is a numpy float (`some t`, printed by `showTh` after
rounding to six decimals) or, for the single-node tree of `flatten_tree`, the Python integer 0 (`none`), on which `.round` raises
`AttributeError`.  `trees.py` 897-904 (and 113 for the Python integer). -/
def serializeNode {Θ : Type} (showTh : Θ → List Char) (index : Nat) (n : Node (Option Θ)) : Option (List (List Char)) := do
  let left ← encodeChild index n.left
  let right ← encodeChild index n.right
  let th ← n.threshold
  some [['n'], showInt n.feature, showTh th, showInt left, showInt right]

/-- `for i, n in enumerate(nodes)` from index `i`.  `trees.py` 906-907. -/
def serializeNodesFrom {Θ : Type} (showTh : Θ → List Char) : Nat → List (Node (Option Θ)) → Option (List (List (List Char)))
  | _, [] => some []
  | i, n :: rest => do
    let l ← serializeNode showTh i n
    let ls ← serializeNodesFrom showTh (i + 1) rest
    some (l :: ls)

/-- `Wrapper.save(format='csv')`: the exported text.  `trees.py` 883-909. -/
def saveCsv {Θ L : Type} (showTh : Θ → List Char) (showLeaf : L → List Char) (nFeatures nClasses leafBits : Int)
    (f : Forest (Option Θ) L) : Option (List Char) := do
  let nodeLines ← serializeNodesFrom showTh 0 f.nodes
  let rows := [[['f'], showInt nFeatures], [['c'], showInt nClasses], [['l', 'b'], showInt leafBits]]
    ++ f.leaves.map (fun l => [['l'], showLeaf l])
    ++ f.roots.map (fun r => [['r'], showInt (r : Int)])
    ++ nodeLines
  some (['\r', '\n'].intercalate (rows.map csvLine))

/-! ### Size reports -/

/-- `model_size_nodes`.  `evaluate/trees.py` 24-34. -/
def modelSizeNodes {Θ L : Type} (f : Forest Θ L) : Nat := f.nodes.length

/-- `model_size_leaves`.  `evaluate/trees.py` 36-45. -/
def modelSizeLeaves {Θ L : Type} (f : Forest Θ L) : Nat := f.leaves.length

/-- `model_size_bytes` with default `node_size` 8 and `leaf_size = math.ceil(leaf_bits/8)` (`leaf_bits >= 0`).
`evaluate/trees.py` 47-69. -/
def modelSizeBytes {Θ L : Type} (leafBits : Nat) (f : Forest Θ L) : Nat :=
  modelSizeNodes f * 8 + modelSizeLeaves f * ((leafBits + 7) / 8)

end Emlearn.Trees
