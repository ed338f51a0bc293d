/-
Model of the code generators of `emlearn/trees.py` and of the C inference code `emlearn/eml_trees.h`.

`none` stands for undefined behaviour / failure to produce a result (out-of-bounds access, non-termination, a Python
exception); `some (.error e)` is a reported C error code.
-/
import Verif.Common
import Verif.Trees.Spec
namespace Emlearn.Trees

/-- `EmlTreesNode` as stored: `int8_t feature; int16_t value, left, right`.  `eml_trees.h` 21-26. -/
structure CNode where
  feature : Int
  value : Int
  left : Int
  right : Int
  deriving DecidableEq, Repr

/-- `assert_valid_child`.  `trees.py` 291-293 (the upper bound is inclusive). -/
def assertValidChild (v : Int) : Option Int := if -32768 ≤ v ∧ v ≤ 32768 then some v else none

/-- `encode_child(index, child)`.  `trees.py` 295-307. -/
def encodeChild (index : Nat) (child : Int) : Option Int :=
  if 0 ≤ child then
    if child < index then none else assertValidChild (child - index)
  else assertValidChild child

/-- `make_node` of `generate_c_nodes`, followed by what the C compiler stores in the struct fields.
`quant` is `int(value)` of `cgen.constant` (`cgen.py` 51-52).  `trees.py` 311-318. -/
def makeNode {Θ : Type} (quant : Θ → Int) (index : Nat) (n : Node Θ) : Option CNode := do
  let l ← encodeChild index n.left
  let r ← encodeChild index n.right
  some ⟨wrap8 n.feature, wrap16 (quant n.threshold), wrap16 l, wrap16 r⟩

/-- The loop of `generate_c_nodes` starting at a given index.  `trees.py` 320. -/
def generateNodesFrom {Θ : Type} (quant : Θ → Int) : Nat → List (Node Θ) → Option (List CNode)
  | _, [] => some []
  | i, n :: rest => do
    let c ← makeNode quant i n
    let cs ← generateNodesFrom quant (i + 1) rest
    some (c :: cs)

/-- `generate_c_nodes`.  `trees.py` 309-327. -/
def generateNodes {Θ : Type} (quant : Θ → Int) (nodes : List (Node Θ)) : Option (List CNode) :=
  generateNodesFrom quant 0 nodes

/-- `eml_trees_predict_tree`: `fuel` bounds the number of loop iterations; `none` if a node or feature read is out
of bounds or fuel runs out.  `eml_trees.h` 73-107. -/
def predictTree (nodes : List CNode) (features : List Int) : Nat → Int → Option Int
  | fuel, idx =>
    if idx < 0 then some (wrap16 (-idx - 1))
    else match fuel with
      | 0 => none
      | fuel + 1 =>
        match nodes[idx.toNat]? with
        | none => none
        | some n =>
          if n.feature < 0 then none
          else match features[n.feature.toNat]? with
            | none => none
            | some v =>
              let child := if v < n.value then n.left else n.right
              predictTree nodes features fuel (if 0 ≤ child then idx + child else child)

/-- `EmlTrees`.  `eml_trees.h` 35-48 (`n_nodes`, `n_trees`, `n_leaves` are the list lengths).  `leaves` are bytes. -/
structure CModel where
  nodes : List CNode
  roots : List Int
  leaves : List Nat
  leafBits : Int
  nFeatures : Int
  nClasses : Int
  deriving Repr, DecidableEq

/-- Run one tree of a model (the loop of `eml_trees_predict_tree` makes at most `n_nodes` iterations, see
`C04`). -/
def CModel.tree (m : CModel) (features : List Int) (root : Int) : Option Int :=
  predictTree m.nodes features m.nodes.length root

/-- `out[i] += v` (`none`: out of bounds). -/
def addAt {F : Type} (ops : FOps F) (out : List F) (i : Nat) (v : F) : Option (List F) :=
  match out[i]? with
  | none => none
  | some x => some (out.set i (ops.add x v))

/-- One iteration of the hard-voting loop.  `eml_trees.h` 135-142. -/
def hardStep {F : Type} (ops : FOps F) (m : CModel) (features : List Int) (out : List F) (root : Int) : Option (List F) := do
  let leaf ← m.tree features root
  if leaf < 0 then none
  else
    let cls ← m.leaves[leaf.toNat]?
    addAt ops out cls ops.one

/-- One iteration of the soft-voting loop: `out[c] += leaf_data[c] / 255.0f`.  `eml_trees.h` 150-168. -/
def softStep {F : Type} (ops : FOps F) (m : CModel) (features : List Int) (out : List F) (root : Int) : Option (List F) := do
  let leaf ← m.tree features root
  if leaf < 0 then none
  else
    let off := leaf.toNat * m.nClasses.toNat
    (List.range m.nClasses.toNat).foldlM
      (fun o c => do
        let b ← m.leaves[off + c]?
        addAt ops o c (ops.div (ops.ofInt b) (ops.ofInt 255))) out

/-- `eml_trees_predict_proba` with an output buffer of `outLength` floats (all `outLength` entries are overwritten
with zeros first).  Null-pointer preconditions (122-123) are not modelled.  `eml_trees.h` 117-180. -/
def predictProba {F : Type} (ops : FOps F) (m : CModel) (features : List Int) (outLength : Int) :
    Option (Except EmlError (List F)) :=
  if outLength ≠ m.nClasses then some (.error .sizeMismatch)
  else
    let out0 := List.replicate outLength.toNat ops.zero
    let mean := fun o : List F => o.map (fun x => ops.div x (ops.ofInt m.roots.length))
    if m.leafBits = 0 then
      (m.roots.foldlM (hardStep ops m features) out0).map (fun o => .ok (mean o))
    else if m.leafBits = 8 then
      (m.roots.foldlM (softStep ops m features) out0).map (fun o => .ok (mean o))
    else some (.error .unsupported)

/-- The arg-max loop with `most_voted_class = -1`, `most_voted_value = 0` and strict `>`.  `eml_trees.h` 218-226
(and `trees.py` 447-456, 533-542). -/
def argmaxLoop {F : Type} (lt : F → F → Bool) : List F → Nat → Int → F → Int
  | [], _, best, _ => best
  | v :: vs, i, best, bv => if lt bv v then argmaxLoop lt vs (i + 1) i v else argmaxLoop lt vs (i + 1) best bv

/-- `eml_trees_predict`.  `eml_trees.h` 192-235. -/
def predict {F : Type} (ops : FOps F) (m : CModel) (features : List Int) (featuresLength : Int) : Option Int :=
  if featuresLength ≠ m.nFeatures then some (-3)
  else if m.nClasses > 30 then some (-3)
  else match predictProba ops m features m.nClasses with
    | none => none
    | some (.error _) => some (-1)
    | some (.ok votes) => some (argmaxLoop ops.lt votes 0 (-1) ops.zero)

/-- `eml_trees_regress`: the 4-byte leaf at `leaf_number` is decoded by `leafFloat` (a `float` load from
`leaves + 4*leaf_number`).  Returns `out[0]`.  `eml_trees.h` 250-289. -/
def regress {F : Type} (ops : FOps F) (m : CModel) (leafFloat : Nat → Option F) (features : List Int) (outLength : Int) :
    Option (Except EmlError F) :=
  if outLength < 1 then some (.error .sizeMismatch)
  else if m.leafBits ≠ 32 then some (.error .unsupported)
  else
    (m.roots.foldlM (fun (s : F) root => do
      let leaf ← m.tree features root
      if leaf < 0 then none
      else
        let v ← leafFloat leaf.toNat
        some (ops.add s v)) ops.zero).map (fun s => .ok (ops.div s (ops.ofInt m.roots.length)))

/-- `predict_wrapper` of `Wrapper._build_classifier`: `if (out < 0) return -out; return out;`.  `trees.py` 761-772. -/
def predictWrapper (out : Int) : Int := if out < 0 then -out else out

/-! ### Loadable model generation -/

/-- `leaves_to_bytelist` for `leaf_bits == 0`: the class numbers themselves, stored as `uint8_t`.
`trees.py` 331-332, 598-603. -/
def leafBytesHard (leaves : List Nat) : List Nat := leaves.map (· % 256)

/-- `leaves_to_bytelist` for `0 < leaf_bits <= 8`: row-major bytes.  `trees.py` 342-345. -/
def leafBytesSoft (leaves : List (List Nat)) : List Nat := leaves.flatten.map (· % 256)

/-- `generate_c_loadable`: the initialised `EmlTrees` struct.  `trees.py` 581-618.  `tree_leaf_bits` is 0, 32 or 8
(line 606); the last three fields are `int8_t`. -/
def generateLoadable {Θ L : Type} (quant : Θ → Int) (f : Forest Θ L) (leafBytes : List Nat) (leafBits nFeatures nClasses : Int) :
    Option CModel := do
  let nodes ← generateNodes quant f.nodes
  some { nodes := nodes
         roots := f.roots.map Int.ofNat
         leaves := leafBytes
         leafBits := if leafBits = 0 ∨ leafBits = 32 then leafBits else 8
         nFeatures := wrap8 nFeatures
         nClasses := wrap8 nClasses }

/-! ### Inline code generation -/

/-- The nested-if code of one tree function: `return v;` or `if (features[f] < t) {..} else {..}`. `trees.py` 370-385. -/
inductive Stmt (Θ R : Type) where
  | ret (v : R)
  | ite (feature : Int) (th : Θ) (l r : Stmt Θ R)

/-- `c_node(idx, depth)`: recursion over the forest (`none`: index error, or infinite recursion when fuel runs
out).  `leafOf` is the returned leaf expression: the leaf data itself (regression, hard voting) or the leaf index (soft voting).
`trees.py` 386-400. -/
def inlineNode {Θ R : Type} (nodes : List (Node Θ)) (leafOf : Nat → Option R) : Nat → Int → Option (Stmt Θ R)
  | fuel, c =>
    if c < 0 then (leafOf (-c - 1).toNat).map Stmt.ret
    else match fuel with
      | 0 => none
      | fuel + 1 =>
        match nodes[c.toNat]? with
        | none => none
        | some n => do
          let l ← inlineNode nodes leafOf fuel n.left
          let r ← inlineNode nodes leafOf fuel n.right
          some (.ite n.feature n.threshold l r)

/-- Executing the nested ifs; `go f t` is the outcome of `features[f] < t`. -/
def Stmt.eval {Θ R : Type} (go : Int → Θ → Bool) : Stmt Θ R → R
  | .ret v => v
  | .ite f t l r => if go f t then l.eval go else r.eval go

/-- The generated tree functions, one per root.  `trees.py` 355, 404-413, 564. -/
def inlineTrees {Θ L R : Type} (f : Forest Θ L) (leafOf : Nat → Option R) : Option (List (Stmt Θ R)) :=
  f.roots.mapM (fun (r : Nat) => inlineNode f.nodes leafOf f.nodes.length (r : Int))

/-- One inline hard vote: `votes[_class] += 1` (`int32_t`).  `trees.py` 415-416. -/
def inlineHardVote {Θ : Type} (go : Int → Θ → Bool) (votes : List Int) (t : Stmt Θ Nat) : Option (List Int) :=
  match votes[t.eval go]? with
  | none => none
  | some x => some (votes.set (t.eval go) (x + 1))

/-- Inline majority-vote `predict`: `votes[_class] += 1` for every tree, then arg-max over `int32_t` votes.
`trees.py` 415-416, 440-463. -/
def inlinePredictHard {Θ : Type} (go : Int → Θ → Bool) (trees : List (Stmt Θ Nat)) (nClasses : Nat) : Option Int :=
  (trees.foldlM (inlineHardVote go) (List.replicate nClasses 0)).map
    (fun votes => argmaxLoop (fun a b => decide (a < b)) votes 0 (-1) 0)

/-- Inline majority-vote `predict_proba`.  `trees.py` 418-419, 466-488. -/
def inlineProbaHard {F Θ : Type} (ops : FOps F) (go : Int → Θ → Bool) (trees : List (Stmt Θ Nat)) (outLength : Nat) :
    Option (List F) :=
  (trees.foldlM (fun out t => addAt ops out (t.eval go) ops.one) (List.replicate outLength ops.zero)).map
    (fun out => out.map (fun x => ops.div x (ops.ofInt trees.length)))

/-- One inline soft vote: `offset = n_classes*tree(); for i: out[i] += leaves[offset+i]/255.0f`.  `trees.py` 493-498. -/
def inlineSoftVote {F Θ : Type} (ops : FOps F) (go : Int → Θ → Bool) (leaves : List Nat) (nClasses : Nat) (out : List F)
    (t : Stmt Θ Nat) : Option (List F) :=
  (List.range nClasses).foldlM
    (fun o c => do
      let b ← leaves[nClasses * t.eval go + c]?
      addAt ops o c (ops.div (ops.ofInt b) (ops.ofInt 255))) out

/-- Inline soft-voting `predict_proba`.  `trees.py` 499-521. -/
def inlineProbaSoft {F Θ : Type} (ops : FOps F) (go : Int → Θ → Bool) (trees : List (Stmt Θ Nat)) (leaves : List Nat)
    (nClasses outLength : Nat) : Option (List F) :=
  (trees.foldlM (inlineSoftVote ops go leaves nClasses) (List.replicate outLength ops.zero)).map
    (fun out => out.map (fun x => ops.div x (ops.ofInt trees.length)))

/-- Inline soft-voting `predict`: arg-max over the (unnormalised) sums.  `trees.py` 524-549. -/
def inlinePredictSoft {F Θ : Type} (ops : FOps F) (go : Int → Θ → Bool) (trees : List (Stmt Θ Nat)) (leaves : List Nat)
    (nClasses : Nat) : Option Int :=
  (trees.foldlM (inlineSoftVote ops go leaves nClasses) (List.replicate nClasses ops.zero)).map
    (fun out => argmaxLoop ops.lt out 0 (-1) ops.zero)

/-- Inline regression `predict`: `avg += tree(); ... return avg/n_trees`.  The leaf literal is `cgen.constant(v, 'float')`.
`trees.py` 421-438. -/
def inlineRegress {F Θ : Type} (ops : FOps F) (go : Int → Θ → Bool) (trees : List (Stmt Θ F)) : F :=
  ops.div (trees.foldl (fun s t => ops.add s (t.eval go)) ops.zero) (ops.ofInt trees.length)

/-- Comparison made by generated integer code: `features[f] < int(t)`.  `eml_trees.h` 81-85, `trees.py` 374-380. -/
def cmpInt {Θ : Type} (features : List Int) (quant : Θ → Int) (f : Int) (t : Θ) : Bool :=
  decide (features.getD f.toNat 0 < quant t)

end Emlearn.Trees
