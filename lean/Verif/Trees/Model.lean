/-
Model of `emlearn/trees.py` (conversion of scikit-learn trees into a flat forest).

Python exceptions and failing `assert`s are `none`.  Thresholds `Θ`, raw node values `V` and leaf
data `L` are arbitrary types, `leafVal : V → L` stands for the `leaf=` mode of `add_leaf`
(`argmax`, `value` or `probabilities`; `trees.py` 62-69).
-/
namespace Emlearn.Trees

/-- Python list indexing `l[i]` with negative wrap-around; `none` is `IndexError`. -/
def pyGet {α : Type} (l : List α) (i : Int) : Option α :=
  if 0 ≤ i then l[i.toNat]? else if 0 ≤ i + l.length then l[(i + l.length).toNat]? else none

/-- One row of `zip(children_left, children_right, feature, threshold, value)` of the
scikit-learn tree arrays.  `trees.py` 104. -/
structure SrcNode (Θ V : Type) where
  left : Int
  right : Int
  feature : Int
  threshold : Θ
  value : V

/-- `left == -1 and right == -1`: the row is a leaf.  `trees.py` 91, 118. -/
def SrcNode.isLeaf {Θ V : Type} (n : SrcNode Θ V) : Bool := n.left == -1 && n.right == -1

/-- A flat decision node `[feature, threshold, left, right]`.  Children `>= 0` are decision node
indices, children `< 0` are leaf codes `-leaf_idx-1`.  `trees.py` 43-47, 127. -/
structure Node (Θ : Type) where
  feature : Int
  threshold : Θ
  left : Int
  right : Int
  deriving DecidableEq, Repr

/-- `forest = nodes, roots, leaves`.  `trees.py` 244. -/
structure Forest (Θ L : Type) where
  nodes : List (Node Θ)
  roots : List Nat
  leaves : List L
  deriving Repr, DecidableEq

/-- The local variables of `flatten_tree`: `decision_nodes`, `leaf_nodes`,
`decision_node_mapping`.  `trees.py` 49-50, 102. -/
structure FState (Θ L : Type) where
  nodes : List (Node Θ)
  leaves : List L
  mapping : List (Nat × Nat)

/-- `process_child(idx)`: a leaf child is appended to the leaf list and gets the code
`-leaf_idx-1`; a decision child keeps its old index.  `trees.py` 55-76 and 90-95. -/
def processChild {Θ V L : Type} (src : List (SrcNode Θ V)) (leafVal : V → L) (leaves : List L)
    (idx : Int) : Option (Int × List L) := do
  let n ← pyGet src idx
  if n.isLeaf then some (-(leaves.length : Int) - 1, leaves ++ [leafVal n.value])
  else some (idx, leaves)

/-- The `for node_no, ... in enumerate(zipped)` loop for trees of more than one node.
`add_decision_node` (97-100) appends the node and records `mapping[node_no]`.
`trees.py` 105-128. -/
def flattenLoop {Θ V L : Type} (src : List (SrcNode Θ V)) (leafVal : V → L) :
    List (SrcNode Θ V) → Nat → FState Θ L → Option (FState Θ L)
  | [], _, s => some s
  | nd :: rest, k, s =>
    if nd.isLeaf then flattenLoop src leafVal rest (k + 1) s
    else do
      let (l, leaves) ← processChild src leafVal s.leaves nd.left
      let (r, leaves) ← processChild src leafVal leaves nd.right
      flattenLoop src leafVal rest (k + 1)
        { nodes := s.nodes ++ [⟨nd.feature, nd.threshold, l, r⟩]
          leaves := leaves
          mapping := s.mapping ++ [(k, s.nodes.length)] }

/-- `decision_node_mapping[c]` (`none` = `KeyError`).  `trees.py` 133, 135. -/
def lookupNode (m : List (Nat × Nat)) (c : Int) : Option Nat :=
  if 0 ≤ c then m.lookup c.toNat else none

/-- Update of one child reference.  `trees.py` 132-135. -/
def remapChild (m : List (Nat × Nat)) (c : Int) : Option Int :=
  if 0 ≤ c then (lookupNode m c).map Int.ofNat else some c

/-- Update of the child references of one decision node.  `trees.py` 131-135. -/
def remapNode {Θ : Type} (m : List (Nat × Nat)) (n : Node Θ) : Option (Node Θ) := do
  let l ← remapChild m n.left
  let r ← remapChild m n.right
  some { n with left := l, right := r }

/-- `assert_node_references_valid`, with its five assertions in order (the right-hand leaf
references are computed but, as in the code, the left-hand ones are asserted twice).
`trees.py` 173-201. -/
def refsValid {Θ L : Type} (nodes : List (Node Θ)) (leaves : List L) (roots : List Nat) : Bool :=
  let leftC := (nodes.map (·.left)).filter (0 ≤ ·)
  let rightC := (nodes.map (·.right)).filter (0 ≤ ·)
  let leftL : List Int := ((nodes.map (·.left)).filter (· < 0)).map (fun c => -c - 1)
  let rightL : List Int := ((nodes.map (·.right)).filter (· < 0)).map (fun c => -c - 1)
  leftC.all (fun c => decide (c < (nodes.length : Int))) &&
  rightC.all (fun c => decide (c < (nodes.length : Int))) &&
  (List.range nodes.length).all
    (fun i => leftC.contains (i : Int) || rightC.contains (i : Int) || roots.contains i) &&
  leftL.all (fun c => decide (c < (leaves.length : Int))) &&
  leftL.all (fun c => decide (c < (leaves.length : Int))) &&
  (List.range leaves.length).all
    (fun i => leftL.contains (i : Int) || rightL.contains (i : Int))

/-- `flatten_tree`.  `trees.py` 48-150.  `zero` is the literal `0` used as threshold of the dummy node
for single-node trees (107-116).  Simplification: the shape assertions on `tree.value` (52-53, 60) hold by
construction of `SrcNode`. -/
def flattenTree {Θ V L : Type} (zero : Θ) (leafVal : V → L) (src : List (SrcNode Θ V)) :
    Option (List (Node Θ) × List L) :=
  match src with
  | [nd] =>
    -- assert left == -1; assert right == -1; add_leaf(0); add_decision_node([0, 0, leaf, leaf])
    if nd.left = -1 ∧ nd.right = -1 then
      let nodes : List (Node Θ) := [⟨0, zero, -1, -1⟩]
      let leaves := [leafVal nd.value]
      if refsValid nodes leaves [0] then some (nodes, leaves) else none
    else none
  | src => do
    let s ← flattenLoop src leafVal src 0 ⟨[], [], []⟩
    let nodes ← s.nodes.mapM (remapNode s.mapping)
    if nodes.length + s.leaves.length ≠ src.length then none
    else if refsValid nodes s.leaves [0] then some (nodes, s.leaves) else none

/-- Offsetting one child reference.  `trees.py` 223-230. -/
def offsetChild (dn dl : Nat) (c : Int) : Int := if 0 ≤ c then c + dn else c - dl

/-- Offsetting the children of one node.  `trees.py` 222-230. -/
def offsetNode {Θ : Type} (dn dl : Nat) (n : Node Θ) : Node Θ :=
  { n with left := offsetChild dn dl n.left, right := offsetChild dn dl n.right }

/-- Loop body of `flatten_forest`: flatten one tree, shift its references, append it.
The running offsets are the current lengths of the accumulated arrays.  `trees.py` 217-241. -/
def addTree {Θ V L : Type} (zero : Θ) (leafVal : V → L) (f : Forest Θ L)
    (src : List (SrcNode Θ V)) : Option (Forest Θ L) := do
  let (dn, ln) ← flattenTree zero leafVal src
  let f' : Forest Θ L :=
    { nodes := f.nodes ++ dn.map (offsetNode f.nodes.length f.leaves.length)
      roots := f.roots ++ [f.nodes.length]
      leaves := f.leaves ++ ln }
  if refsValid f'.nodes f'.leaves f'.roots then some f' else none

/-- `flatten_forest`.  `trees.py` 210-247. -/
def flattenForest {Θ V L : Type} (zero : Θ) (leafVal : V → L) (trees : List (List (SrcNode Θ V))) :
    Option (Forest Θ L) := do
  let f ← trees.foldlM (addTree zero leafVal) ⟨[], [], []⟩
  if refsValid f.nodes f.leaves f.roots then some f else none

/-- `find_array_index`: first position of an equal leaf.  `trees.py` 253-257.
(`numpy.array_equal` is modelled by the decidable equality of leaf data; NaN leaves excluded.) -/
def findIndex {L : Type} [DecidableEq L] (l : List L) (x : L) : Option Nat :=
  match l with
  | [] => none
  | y :: ys => if x = y then some 0 else (findIndex ys x).map (· + 1)

/-- The loop building `unique_leaves` and, in order of `old_idx`, the new index of every leaf
(the dictionary `remap_leaves` maps `-old_idx-1` to `-new_idx-1`).  `trees.py` 260-275. -/
def uniqueLoop {L : Type} [DecidableEq L] : List L → List L → List Nat → List L × List Nat
  | [], u, m => (u, m)
  | x :: xs, u, m =>
    match findIndex u x with
    | none => uniqueLoop xs (u ++ [x]) (m ++ [u.length])
    | some j => uniqueLoop xs u (m ++ [j])

/-- `remap_leaves.get(c, c)`.  `trees.py` 282-283. -/
def remapLeaf (m : List Nat) (c : Int) : Int :=
  if c < 0 then
    match m[(-c - 1).toNat]? with
    | some j => -(j : Int) - 1
    | none => c
  else c

/-- `remove_duplicate_leaves`.  `trees.py` 250-288.  `len(nodes) == 0` raises `ZeroDivisionError`
(line 278). -/
def removeDuplicateLeaves {Θ L : Type} [DecidableEq L] (f : Forest Θ L) : Option (Forest Θ L) :=
  let (u, m) := uniqueLoop f.leaves [] []
  if f.nodes.length = 0 then none
  else
    let nodes := f.nodes.map (fun n => { n with left := remapLeaf m n.left, right := remapLeaf m n.right })
    if refsValid nodes u f.roots then some ⟨nodes, f.roots, u⟩ else none

/-- `Wrapper.__init__`, lines 722-723: `flatten_forest` followed by `remove_duplicate_leaves`. -/
def convertForest {Θ V L : Type} [DecidableEq L] (zero : Θ) (leafVal : V → L)
    (trees : List (List (SrcNode Θ V))) : Option (Forest Θ L) :=
  flattenForest zero leafVal trees >>= removeDuplicateLeaves

/-- Walking a flat forest from reference `c` (`>= 0` decision node, `< 0` leaf code): the semantics shared by the
inline code (`if (features[f] < t) left else right`, `trees.py` 373-400) and the table interpreter
(`eml_trees.h` 77-99).  `go f t` is the outcome of the comparison.  `none`: a node index out of range or out of
fuel. -/
def walk {Θ : Type} (go : Int → Θ → Bool) (nodes : List (Node Θ)) : Nat → Int → Option Nat
  | 0, c => if c < 0 then some (-c - 1).toNat else none
  | fuel + 1, c =>
    if c < 0 then some (-c - 1).toNat
    else match nodes[c.toNat]? with
      | none => none
      | some n => walk go nodes fuel (if go n.feature n.threshold then n.left else n.right)

end Emlearn.Trees
