/-
Specification vocabulary for tree conversion: what a well-formed scikit-learn tree is, what it predicts, and what a
well-formed converted forest is.  Independent of how the conversion works.
-/
import Verif.Trees.Model
namespace Emlearn.Trees

/-- All child references of a tree's decision rows, in row order. -/
def childRefs {Θ V : Type} (src : List (SrcNode Θ V)) : List Int :=
  src.flatMap (fun n => if n.isLeaf then [] else [n.left, n.right])

/-- A well-formed scikit-learn tree: at least one row, every decision row's children come after it, and every row
except the root (row 0) is referenced as a child exactly once. -/
structure SrcWF {Θ V : Type} (src : List (SrcNode Θ V)) : Prop where
  nonempty : src ≠ []
  order : ∀ (i : Nat) (n : SrcNode Θ V), src[i]? = some n → n.isLeaf = false → (i : Int) < n.left ∧ (i : Int) < n.right
  refs : (childRefs src).Perm ((List.range' 1 (src.length - 1)).map Int.ofNat)

/-- Prediction of a scikit-learn tree starting at row `i`: the value of the leaf row reached when `go feature threshold`
says whether to go left. -/
def srcWalk {Θ V : Type} (go : Int → Θ → Bool) (src : List (SrcNode Θ V)) : Nat → Nat → Option V
  | 0, _ => none
  | fuel + 1, i =>
    match src[i]? with
    | none => none
    | some n =>
      if n.isLeaf then some n.value
      else srcWalk go src fuel (if go n.feature n.threshold then n.left else n.right).toNat

/-- Prediction of a whole scikit-learn tree (the walk visits at most `src.length` rows). -/
def srcPredict {Θ V : Type} (go : Int → Θ → Bool) (src : List (SrcNode Θ V)) : Option V :=
  srcWalk go src src.length 0

/-- A child reference held by node `p` is valid: a later decision node, or an existing leaf. -/
def RefOK (nNodes nLeaves : Nat) (p : Nat) (c : Int) : Prop :=
  (0 ≤ c → (p : Int) < c ∧ c < nNodes) ∧ (c < 0 → -c - 1 < (nLeaves : Int))

/-- Structural well-formedness of a forest: all references valid (and forward), nothing unreferenced. -/
structure ForestOK {Θ L : Type} (f : Forest Θ L) : Prop where
  refs : ∀ (p : Nat) (n : Node Θ), f.nodes[p]? = some n →
    RefOK f.nodes.length f.leaves.length p n.left ∧ RefOK f.nodes.length f.leaves.length p n.right
  roots : ∀ r ∈ f.roots, r < f.nodes.length
  nodesUsed : ∀ q, q < f.nodes.length → q ∈ f.roots ∨ ∃ n ∈ f.nodes, n.left = (q : Int) ∨ n.right = (q : Int)
  leavesUsed : ∀ m, m < f.leaves.length → ∃ n ∈ f.nodes, n.left = -(m : Int) - 1 ∨ n.right = -(m : Int) - 1

/-- What a forest predicts for tree root `r`: the leaf data reached. -/
def forestPredict {Θ L : Type} (go : Int → Θ → Bool) (f : Forest Θ L) (r : Nat) : Option L :=
  (walk go f.nodes f.nodes.length (r : Int)).bind (fun m => f.leaves[m]?)

end Emlearn.Trees
