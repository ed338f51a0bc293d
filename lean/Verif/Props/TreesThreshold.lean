/- Property C06: integer thresholds versus scikit-learn thresholds. -/
import Verif.Props.TreesInfer
import Verif.Trunc
import Mathlib.Data.Rat.Floor
namespace Emlearn.Trees
variable {K : Type} [Field K] [LinearOrder K] [IsStrictOrderedRing K] [FloorRing K]
variable {V L : Type}

/-- scikit-learn's comparison: left iff `x[feature] <= threshold` (specification; scikit-learn itself is not in `/repo`). -/
def sklearnGo (features : List Int) (f : Int) (t : K) : Bool := decide (((features.getD f.toNat 0 : Int) : K) ≤ t)

/-- **C06** exactly where the generated comparison `x < int(t)` and scikit-learn's `x <= t` disagree, for every integer `x` and every
real threshold `t`: only at `x = floor t`, and there iff `t` is non-negative or integral. -/
theorem C06_branch_disagreement_exact (x : Int) (t : K) :
    ¬((x < trunc t) ↔ ((x : K) ≤ t)) ↔ (x = ⌊t⌋ ∧ (0 ≤ t ∨ (⌊t⌋ : K) = t)) := by
  rw [← Int.le_floor]
  rcases lt_or_ge t 0 with h | h
  · rw [trunc_of_neg h]
    by_cases hi : (⌊t⌋ : K) = t
    · have hc : ⌈t⌉ = ⌊t⌋ := by rw [← hi]; simp
      rw [hc]
      constructor
      · intro hh; exact ⟨by omega, Or.inr hi⟩
      · rintro ⟨rfl, _⟩; omega
    · have hc : ⌈t⌉ = ⌊t⌋ + 1 := by
        apply le_antisymm (Int.ceil_le_floor_add_one t)
        have h1 : (⌊t⌋ : K) < t := lt_of_le_of_ne (Int.floor_le t) hi
        exact Int.lt_ceil.mpr h1
      rw [hc]
      constructor
      · intro hh; omega
      · rintro ⟨_, h1 | h1⟩
        · linarith
        · exact absurd h1 hi
  · rw [trunc_of_nonneg h]
    constructor
    · intro hh; exact ⟨by omega, Or.inl h⟩
    · rintro ⟨rfl, _⟩; omega

theorem srcWalk_congr {Θ : Type} (go go' : Int → Θ → Bool) (src : List (SrcNode Θ V))
    (h : ∀ row ∈ src, row.isLeaf = false → go row.feature row.threshold = go' row.feature row.threshold) (fuel i : Nat) :
    srcWalk go src fuel i = srcWalk go' src fuel i := by
  induction fuel generalizing i with
  | zero => rfl
  | succ fuel ih =>
    unfold srcWalk
    cases hi : src[i]? with
    | none => rfl
    | some n =>
      simp only
      split
      · rfl
      · rename_i hl
        rw [h n (List.mem_of_getElem? hi) (by simpa using hl), ih]

/-- **C06** (part) For every list of well-formed scikit-learn trees and every int feature vector on which no decision row
compares a feature `x` with a threshold `t` such that `x = floor t` and (`t >= 0` or `t` integral), the generated C walk of every tree reaches the leaf that
scikit-learn reaches.  Missing (and false, see `C06_refuted`): feature vectors hitting such a pair. -/
theorem C06_tree_predicts_as_sklearn_partial [DecidableEq L] (leafVal : V → L)
    (trees : List (List (SrcNode K V))) (hne : trees ≠ []) (hwf : ∀ src ∈ trees, SrcWF src)
    (features : List Int) (hnf : 1 ≤ features.length) (hnf2 : features.length ≤ 127)
    (hfeat : ∀ src ∈ trees, ∀ row ∈ src, row.isLeaf = false → 0 ≤ row.feature ∧ row.feature < features.length ∧
      -32768 ≤ trunc row.threshold ∧ trunc row.threshold ≤ 32767)
    (hsafe : ∀ src ∈ trees, ∀ row ∈ src, row.isLeaf = false → ∀ x, features[row.feature.toNat]? = some x →
      ¬(x = ⌊row.threshold⌋ ∧ (0 ≤ row.threshold ∨ (⌊row.threshold⌋ : K) = row.threshold))) :
    ∃ f, convertForest (0 : K) leafVal trees = some f ∧
      (f.nodes.length ≤ 32768 → ∀ tbl, generateNodes trunc f.nodes = some tbl →
        ∀ (k : Nat) (src : List (SrcNode K V)), trees[k]? = some src →
          ∃ (r leaf : Nat) (v : V), f.roots[k]? = some r ∧ predictTree tbl features tbl.length (r : Int) = some (leaf : Int) ∧
            srcPredict (sklearnGo features) src = some v ∧ f.leaves[leaf]? = some (leafVal v)) := by
  obtain ⟨f, hf, h⟩ := C04_converted_inference (0 : K) leafVal trunc trunc_zero trees hne hwf features hnf hnf2 hfeat
  refine ⟨f, hf, ?_⟩
  intro hs tbl hg k src hk
  obtain ⟨r, leaf, v, h1, h2, h3, h4⟩ := h hs tbl hg k src hk
  refine ⟨r, leaf, v, h1, h2, ?_, h4⟩
  rw [← h3]
  unfold srcPredict
  apply srcWalk_congr
  intro row hrow hl
  have hsrc := List.mem_of_getElem? hk
  obtain ⟨f1, f2, _⟩ := hfeat src hsrc row hrow hl
  have hlt : row.feature.toNat < features.length := by omega
  have hs' := hsafe src hsrc row hrow hl _ (List.getElem?_eq_getElem hlt)
  rw [← C06_branch_disagreement_exact, not_not] at hs'
  unfold sklearnGo cmpInt
  rw [List.getD_eq_getElem?_getD, List.getElem?_eq_getElem hlt, Option.getD_some]
  exact decide_eq_decide.mpr hs'.symm

/-- Half-integer thresholds `k + 1/2` (midpoints of consecutive integers, what training on integer data produces): a negative threshold never
disagrees, a non-negative one disagrees for exactly the value `k`. -/
theorem C06_half_integer_thresholds (x k : Int) :
    ((x < trunc ((k : K) + 1/2)) ↔ ((x : K) ≤ (k : K) + 1/2)) ↔ (k < 0 ∨ x ≠ k) := by
  have hfl : ⌊(k : K) + 1/2⌋ = k := by
    rw [Int.floor_intCast_add]
    have : ⌊(1/2 : K)⌋ = 0 := by rw [Int.floor_eq_iff]; constructor <;> norm_num
    omega
  have h := C06_branch_disagreement_exact x ((k : K) + 1/2)
  rw [hfl] at h
  have hne : ¬ ((k : K) = (k : K) + 1/2) := by intro h; linarith
  have hnn : (0 ≤ (k : K) + 1/2) ↔ 0 ≤ k := by
    constructor
    · intro h1
      by_contra h2
      have h3 : k ≤ -1 := by omega
      have h4 : (k : K) ≤ -1 := by exact_mod_cast h3
      linarith
    · intro h1
      have : (0 : K) ≤ (k : K) := by exact_mod_cast h1
      linarith
  rw [hnn] at h
  constructor
  · intro h1
    by_contra h2
    push Not at h2
    exact (h.mpr ⟨h2.2, Or.inl h2.1⟩) h1
  · intro h1
    by_contra h2
    rcases (h.mp h2) with ⟨h3, h4 | h4⟩
    · rcases h1 with h1 | h1
      · omega
      · exact h1 h3
    · exact hne h4

/-- A one-split tree with threshold `t`, leaf values 0 (left) and 1 (right). -/
def stump (t : Rat) : List (SrcNode Rat Nat) := [⟨1, 2, 0, t, 9⟩, ⟨-1, -1, -2, -2, 0⟩, ⟨-1, -1, -2, -2, 1⟩]

theorem stump_wf (t : Rat) : SrcWF (stump t) := by
  constructor
  · simp [stump]
  · intro i n hi hl
    match i with
    | 0 => simp [stump] at hi; subst hi; simp
    | 1 => simp [stump] at hi; subst hi; simp [SrcNode.isLeaf] at hl
    | 2 => simp [stump] at hi; subst hi; simp [SrcNode.isLeaf] at hl
    | i + 3 => simp [stump] at hi
  · have : childRefs (stump t) = [1, 2] := rfl
    rw [this]
    exact List.Perm.refl _

/-- **C06 is false in general**: a stump with threshold 5/2 (which training on the values 2 and 3 produces) on the feature value 2. scikit-learn ends in
the left leaf (class 0); the generated model ends in the right leaf (class 1). -/
theorem C06_refuted : ∃ (src : List (SrcNode Rat Nat)) (f : Forest Rat Nat) (tbl : List CNode) (features : List Int) (r leaf : Nat),
    SrcWF src ∧ convertForest 0 id [src] = some f ∧ f.roots = [r] ∧ generateNodes trunc f.nodes = some tbl ∧
    srcPredict (sklearnGo features) src = some 0 ∧
    predictTree tbl features tbl.length (r : Int) = some (leaf : Int) ∧ f.leaves[leaf]? = some 1 := by
  have htr : trunc (5/2 : Rat) = 2 := by
    rw [trunc_of_nonneg (by norm_num), Int.floor_eq_iff]; norm_num
  refine ⟨stump (5/2), ⟨[⟨0, 5/2, -1, -2⟩], [0], [0, 1]⟩, [⟨0, 2, -1, -2⟩], [2], 0, 1, stump_wf _, rfl, rfl, ?_, ?_, by decide, rfl⟩
  · simp only [generateNodes, generateNodesFrom, makeNode, htr]
    decide
  · have : sklearnGo [2] 0 (5/2 : Rat) = true := by unfold sklearnGo; simp; norm_num
    simp [srcPredict, stump, srcWalk, SrcNode.isLeaf, this]

/-- Non-vacuity of `C06_tree_predicts_as_sklearn_partial`: the same stump on the value 3. -/
example : SrcWF (stump (5/2)) ∧ (∀ src ∈ [stump (5/2)], ∀ row ∈ src, row.isLeaf = false → ∀ x, ([3] : List Int)[row.feature.toNat]? = some x →
      ¬(x = ⌊row.threshold⌋ ∧ (0 ≤ row.threshold ∨ ((⌊row.threshold⌋ : Int) : Rat) = row.threshold))) ∧
    srcPredict (sklearnGo [3]) (stump (5/2)) = some 1 := by
  have hfl : ⌊(5/2 : Rat)⌋ = 2 := by rw [Int.floor_eq_iff]; norm_num
  refine ⟨stump_wf _, ?_, ?_⟩
  · intro src hs row hr hl x hx
    simp only [List.mem_singleton] at hs
    subst hs
    simp only [stump, List.mem_cons, List.not_mem_nil, or_false] at hr
    rcases hr with rfl | rfl | rfl
    · simp only [hfl]
      simp at hx
      omega
    · simp [SrcNode.isLeaf] at hl
    · simp [SrcNode.isLeaf] at hl
  · have : sklearnGo [3] 0 (5/2 : Rat) = false := by unfold sklearnGo; simp; norm_num
    simp [srcPredict, stump, srcWalk, SrcNode.isLeaf, this]

end Emlearn.Trees
