/- Properties C01, C02, C03 (and the structural part of C62): conversion of tree ensembles. -/
import Verif.Trees.DedupIdem
namespace Emlearn.Trees
variable {Θ V L : Type}

/-- **C01** Conversion of every non-empty list of well-formed scikit-learn trees succeeds (no assertion fires), gives one root per
tree, and for every comparison outcome function `go` (hence for every feature vector and every kind of threshold comparison)
tree `k` of the converted forest ends in a leaf holding exactly the leaf value the `k`-th source tree ends in. -/
theorem C01_convert_same_leaf [DecidableEq L] (zero : Θ) (leafVal : V → L) (trees : List (List (SrcNode Θ V)))
    (hne : trees ≠ []) (hwf : ∀ src ∈ trees, SrcWF src) :
    ∃ f, convertForest zero leafVal trees = some f ∧ f.roots.length = trees.length ∧
      ∀ (go : Int → Θ → Bool) (k : Nat) (src : List (SrcNode Θ V)), trees[k]? = some src →
        ∃ (r : Nat) (v : V), f.roots[k]? = some r ∧ srcPredict go src = some v ∧
          forestPredict go f r = some (leafVal v) := by
  obtain ⟨f, hf, inv⟩ := flattenForest_spec zero leafVal trees hwf
  have hnodes : f.nodes ≠ [] := by
    obtain ⟨src, rest, rfl⟩ := List.exists_cons_of_ne_nil hne
    obtain ⟨r, m, v, h1, _⟩ := inv.sim (fun _ _ => true) 0 src (by simp)
    have := inv.ok.roots r (List.mem_of_getElem? h1)
    intro h0
    simp [h0] at this
  obtain ⟨f', hd, dok⟩ := dedup_spec f inv.ok hnodes
  refine ⟨f', by simp [convertForest, hf, hd], by rw [dok.roots, inv.rootsLen], ?_⟩
  intro go k src hk
  obtain ⟨r, m, v, h1, h2, h3, h4⟩ := inv.sim go k src hk
  refine ⟨r, v, by rw [dok.roots]; exact h1, h4, ?_⟩
  obtain ⟨x, p1, p2⟩ := dok.pred go r (inv.ok.roots r (List.mem_of_getElem? h1))
  have : forestPredict go f r = some (leafVal v) := by simp [forestPredict, h2, h3]
  rw [p2, ← p1, this]

/-- **C02** Every converted forest is structurally valid: each child is a later existing decision node or an existing leaf,
each root exists, and no node and no leaf is unreferenced. -/
theorem C02_convert_refs_valid [DecidableEq L] (zero : Θ) (leafVal : V → L) (trees : List (List (SrcNode Θ V)))
    (hne : trees ≠ []) (hwf : ∀ src ∈ trees, SrcWF src) :
    ∃ f, convertForest zero leafVal trees = some f ∧ f.nodes ≠ [] ∧ ForestOK f := by
  obtain ⟨f, hf, inv⟩ := flattenForest_spec zero leafVal trees hwf
  have hnodes : f.nodes ≠ [] := by
    obtain ⟨src, rest, rfl⟩ := List.exists_cons_of_ne_nil hne
    obtain ⟨r, m, v, h1, _⟩ := inv.sim (fun _ _ => true) 0 src (by simp)
    have := inv.ok.roots r (List.mem_of_getElem? h1)
    intro h0
    simp [h0] at this
  obtain ⟨f', hd, dok⟩ := dedup_spec f inv.ok hnodes
  refine ⟨f', by simp [convertForest, hf, hd], ?_, dok.ok⟩
  intro h0
  have := dok.nodesLen
  rw [h0] at this
  simp at this
  exact hnodes (List.length_eq_zero_iff.mp this.symm)

/-- **C02** (provenance) every decision node of the converted forest carries the feature index and threshold of a decision row
of a source tree, or is the dummy node `[0, 0]` of a single-node tree; and the table sizes are those of the source trees. -/
theorem C02_convert_provenance [DecidableEq L] (zero : Θ) (leafVal : V → L) (trees : List (List (SrcNode Θ V)))
    (hne : trees ≠ []) (hwf : ∀ src ∈ trees, SrcWF src) :
    ∃ f, convertForest zero leafVal trees = some f ∧
      (∀ nd ∈ f.nodes, (∃ src ∈ trees, ∃ row ∈ src, row.isLeaf = false ∧ nd.feature = row.feature ∧
          nd.threshold = row.threshold) ∨ (nd.feature = 0 ∧ nd.threshold = zero)) ∧
      f.nodes.length = (trees.map (fun src => if src.length = 1 then 1 else src.countP (fun n => !n.isLeaf))).sum ∧
      f.leaves.length ≤ (trees.map (fun src => src.countP (fun n => n.isLeaf))).sum ∧
      f.leaves.Nodup := by
  obtain ⟨f, hf, inv⟩ := flattenForest_spec zero leafVal trees hwf
  have hnodes : f.nodes ≠ [] := by
    obtain ⟨src, rest, rfl⟩ := List.exists_cons_of_ne_nil hne
    obtain ⟨r, m, v, h1, _⟩ := inv.sim (fun _ _ => true) 0 src (by simp)
    have := inv.ok.roots r (List.mem_of_getElem? h1)
    intro h0
    simp [h0] at this
  obtain ⟨f', hd, dok⟩ := dedup_spec f inv.ok hnodes
  refine ⟨f', by simp [convertForest, hf, hd], ?_, ?_, ?_, dok.nodup⟩
  · intro nd hnd
    obtain ⟨p, hp⟩ := List.mem_iff_getElem?.mp hnd
    obtain ⟨n0, h0, e1, e2⟩ := dok.same p nd hp
    rcases inv.prov n0 (List.mem_of_getElem? h0) with h | h
    · left; rw [e1, e2]; exact h
    · right; rw [e1, e2]; exact h
  · rw [dok.nodesLen, inv.nodesLen]
  · rw [← inv.leavesLen]; exact dok.le

/-- **C03** On every valid forest, leaf de-duplication succeeds, keeps roots and every prediction, yields pairwise different leaves
with the same set of leaf values, never more of them, and a second application changes nothing. -/
theorem C03_dedup_lossless_minimal_idempotent [DecidableEq L] (f : Forest Θ L) (h : ForestOK f) (hne : f.nodes ≠ []) :
    ∃ f', removeDuplicateLeaves f = some f' ∧ f'.roots = f.roots ∧
      (∀ (go : Int → Θ → Bool) (r : Nat), r < f.nodes.length →
        ∃ x, forestPredict go f r = some x ∧ forestPredict go f' r = some x) ∧
      f'.leaves.Nodup ∧ (∀ x, x ∈ f'.leaves ↔ x ∈ f.leaves) ∧ f'.leaves.length ≤ f.leaves.length ∧
      removeDuplicateLeaves f' = some f' := by
  obtain ⟨f', hd, dok⟩ := dedup_spec f h hne
  refine ⟨f', hd, dok.roots, dok.pred, dok.nodup, dok.mem, dok.le, ?_⟩
  apply dedup_nodup f' dok.ok _ dok.nodup
  intro h0
  have := dok.nodesLen
  rw [h0] at this
  simp at this
  exact hne (List.length_eq_zero_iff.mp this.symm)

/-! ### Non-vacuity -/

/-- A source tree with 5 rows (root, left leaf, right decision row with two leaves). -/
def exTree : List (SrcNode Int Nat) :=
  [⟨1, 2, 0, 10, 0⟩, ⟨-1, -1, -2, 0, 7⟩, ⟨3, 4, 1, 20, 0⟩, ⟨-1, -1, -2, 0, 8⟩, ⟨-1, -1, -2, 0, 7⟩]

/-- A single-row source tree. -/
def exStump : List (SrcNode Int Nat) := [⟨-1, -1, -2, 0, 7⟩]

theorem exTree_wf : SrcWF exTree := by
  constructor
  · simp [exTree]
  · intro i n hn hl
    match i with
    | 0 | 1 | 2 | 3 | 4 => simp [exTree] at hn; subst hn; revert hl; simp [SrcNode.isLeaf]
    | i + 5 => simp [exTree] at hn
  · have : childRefs exTree = (List.range' 1 (exTree.length - 1)).map Int.ofNat := by decide
    rw [this]

theorem exStump_wf : SrcWF exStump := by
  constructor
  · simp [exStump]
  · intro i n hn hl
    match i with
    | 0 => simp [exStump] at hn; subst hn; revert hl; simp [SrcNode.isLeaf]
    | i + 1 => simp [exStump] at hn
  · have : childRefs exStump = (List.range' 1 (exStump.length - 1)).map Int.ofNat := by decide
    rw [this]

example : (∀ src ∈ [exTree, exStump], SrcWF src) := by
  intro src h
  simp at h
  rcases h with rfl | rfl
  · exact exTree_wf
  · exact exStump_wf

example : (convertForest (0 : Int) (id : Nat → Nat) [exTree, exStump]).map (fun f => (f.nodes, f.roots, f.leaves))
    = some ([⟨0, 10, -1, 1⟩, ⟨1, 20, -2, -1⟩, ⟨0, 0, -1, -1⟩], [0, 2], [7, 8]) := by decide

example : ForestOK (⟨[⟨0, (10 : Int), -1, -2⟩], [0], [5, 5]⟩ : Forest Int Nat) ∧
    (⟨[⟨0, (10 : Int), -1, -2⟩], [0], [5, 5]⟩ : Forest Int Nat).nodes ≠ [] := by
  refine ⟨⟨?_, ?_, ?_, ?_⟩, by simp⟩
  · intro p n hp
    match p with
    | 0 => simp at hp; subst hp; constructor <;> constructor <;> simp
    | p + 1 => simp at hp
  · simp
  · intro q hq; left; simp at hq ⊢; omega
  · intro m hm
    refine ⟨_, List.mem_singleton.mpr rfl, ?_⟩
    simp at hm ⊢
    omega

end Emlearn.Trees
