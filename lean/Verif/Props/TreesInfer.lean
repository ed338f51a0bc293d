/- Properties C04, C05, C07, C08, C09, C10, C11: C inference over converted forests. -/
import Verif.Trees.Deploy
import Verif.Props.TreesConvert
import Mathlib.Algebra.BigOperators.Group.Finset.Basic
import Mathlib.Tactic.NormNum
namespace Emlearn.Trees
variable {Θ V L R F : Type}

/-! ### C04 -/

/-- **C04** For every valid forest whose node table was accepted by code generation and fits the C fields, running the C tree walk
from any root with any feature vector of the model's length halts within `n_nodes` iterations without any out-of-bounds node or
feature read (`some`), and returns the index of an existing leaf, namely the one the forest walk reaches. -/
theorem C04_inference_terminates_in_bounds (quant : Θ → Int) (f : Forest Θ L) (h : ForestOK f) (tbl : List CNode)
    (hgen : generateNodes quant f.nodes = some tbl) (features : List Int) (hp : Packs quant features.length f.nodes) :
    ∀ r ∈ f.roots, ∃ leaf : Nat, predictTree tbl features tbl.length (r : Int) = some (leaf : Int) ∧
      leaf < f.leaves.length ∧ f.leaves[leaf]? = forestPredict (cmpInt features quant) f r := by
  intro r hr
  obtain ⟨h1, h2⟩ := leafIndex_spec (cmpInt features quant) h hr
  refine ⟨leafIndex (cmpInt features quant) f r, ?_, h2, ?_⟩
  · rw [predictTree_eq_walk quant features f.nodes tbl hgen hp _ _ (by omega),
      generateNodesFrom_length quant f.nodes 0 tbl hgen, h1]
    rfl
  · simp [forestPredict, h1]

/-- **C04** (end to end) For well-formed source trees whose decision rows use features `0..nf-1` (`nf <= 127`) and int16 thresholds, and whose converted forest has at most 32768 decision
nodes and is accepted by code generation, the C walk of tree `k` halts in bounds and reaches the leaf value that the `k`-th source
tree predicts under the generated comparison. -/
theorem C04_converted_inference [DecidableEq L] (zero : Θ) (leafVal : V → L) (quant : Θ → Int) (hz : quant zero = 0)
    (trees : List (List (SrcNode Θ V))) (hne : trees ≠ []) (hwf : ∀ src ∈ trees, SrcWF src)
    (features : List Int) (hnf : 1 ≤ features.length) (hnf2 : features.length ≤ 127)
    (hfeat : ∀ src ∈ trees, ∀ row ∈ src, row.isLeaf = false → 0 ≤ row.feature ∧ row.feature < features.length ∧
      -32768 ≤ quant row.threshold ∧ quant row.threshold ≤ 32767) :
    ∃ f, convertForest zero leafVal trees = some f ∧
      (f.nodes.length ≤ 32768 → ∀ tbl, generateNodes quant f.nodes = some tbl →
        ∀ (k : Nat) (src : List (SrcNode Θ V)), trees[k]? = some src →
          ∃ (r leaf : Nat) (v : V), f.roots[k]? = some r ∧ predictTree tbl features tbl.length (r : Int) = some (leaf : Int) ∧
            srcPredict (cmpInt features quant) src = some v ∧ f.leaves[leaf]? = some (leafVal v)) := by
  obtain ⟨f, hf, _, hsim⟩ := C01_convert_same_leaf zero leafVal trees hne hwf
  obtain ⟨f2, hf2, _, hok⟩ := C02_convert_refs_valid zero leafVal trees hne hwf
  obtain ⟨f3, hf3, hprov, _⟩ := C02_convert_provenance zero leafVal trees hne hwf
  rw [hf] at hf2 hf3
  cases hf2; cases hf3
  refine ⟨f, hf, ?_⟩
  intro hsize tbl hgen k src hk
  obtain ⟨r, v, h1, h2, h3⟩ := hsim (cmpInt features quant) k src hk
  have hp := packs_of_source zero quant trees features.length f hok hprov hnf hnf2 hfeat hz hsize
  obtain ⟨leaf, l1, l2, l3⟩ := C04_inference_terminates_in_bounds quant f hok tbl hgen features hp r (List.mem_of_getElem? h1)
  exact ⟨r, leaf, v, h1, l1, h2, by rw [l3, h3]⟩

theorem encodeChild_isSome (p : Nat) (c : Int) (h1 : 0 ≤ c → (p : Int) ≤ c ∧ c - p ≤ 32768) (h2 : c < 0 → -32768 ≤ c) :
    ∃ e, encodeChild p c = some e := by
  unfold encodeChild assertValidChild
  by_cases h0 : 0 ≤ c
  · rw [if_pos h0, if_neg (by omega), if_pos (by omega)]; exact ⟨_, rfl⟩
  · rw [if_neg h0, if_pos (by omega)]; exact ⟨_, rfl⟩

/-- Code generation accepts every converted forest of at most 32768 decision nodes and 32768 leaves. -/
theorem C04_generation_accepts (quant : Θ → Int) (f : Forest Θ L) (h : ForestOK f) (hn : f.nodes.length ≤ 32768)
    (hl : f.leaves.length ≤ 32768) : ∃ tbl, generateNodes quant f.nodes = some tbl := by
  apply generateNodesFrom_some
  intro p n hp
  rw [Nat.zero_add]
  have hplt := (List.getElem?_eq_some_iff.mp hp).1
  have key : ∀ c, RefOK f.nodes.length f.leaves.length p c → ∃ e, encodeChild p c = some e := by
    intro c hc
    unfold RefOK at hc
    unfold encodeChild assertValidChild
    by_cases h0 : 0 ≤ c
    · rw [if_pos h0, if_neg (by omega), if_pos (by omega)]; exact ⟨_, rfl⟩
    · rw [if_neg h0, if_pos (by omega)]; exact ⟨_, rfl⟩
  have ⟨a, b⟩ := h.refs p n hp
  obtain ⟨l, hl⟩ := key _ a
  obtain ⟨r, hr⟩ := key _ b
  exact ⟨_, by simp [makeNode, hl, hr]; rfl⟩

/-! ### C05 -/

/-- Reading a packed child field back: relative jump for `>= 0`, leaf code otherwise (`eml_trees.h` 92-96). -/
def decodeChild (p : Nat) (c : Int) : Int := if 0 ≤ c then p + c else c

/-- **C05** (part) If code generation accepts the forest and no jump exceeds 32767, decoding the stored int16 fields gives back exactly the
absolute child references.  Missing: the generator also accepts a jump of exactly 32768 (`C05_refuted`). -/
theorem C05_child_encoding_partial (quant : Θ → Int) (nodes : List (Node Θ)) (tbl : List CNode)
    (hgen : generateNodes quant nodes = some tbl)
    (hjump : ∀ (p : Nat) (n : Node Θ), nodes[p]? = some n → n.left - p ≤ 32767 ∧ n.right - p ≤ 32767) :
    tbl.length = nodes.length ∧ ∀ (p : Nat) (n : Node Θ), nodes[p]? = some n → ∃ c : CNode, tbl[p]? = some c ∧
      decodeChild p c.left = n.left ∧ decodeChild p c.right = n.right := by
  refine ⟨generateNodesFrom_length quant nodes 0 tbl hgen, ?_⟩
  intro p n hn
  obtain ⟨c, h1, h2⟩ := generateNodesFrom_get quant nodes 0 tbl hgen p n hn
  rw [Nat.zero_add] at h2
  refine ⟨c, h1, ?_⟩
  unfold makeNode at h2
  cases e1 : encodeChild p n.left with
  | none => simp [e1] at h2
  | some l =>
    cases e2 : encodeChild p n.right with
    | none => simp [e1, e2] at h2
    | some r =>
      simp [e1, e2] at h2
      subst h2
      have ⟨a1, a2⟩ := encodeChild_some e1
      have ⟨b1, b2⟩ := encodeChild_some e2
      have j := hjump p n hn
      simp only
      rw [wrap16_id (by omega) (by omega), wrap16_id (by omega) (by omega)]
      unfold decodeChild
      constructor <;> split <;> omega

/-- Node `i` of the counter-example forest: the root has its right child 32768 nodes ahead, the others form a chain. -/
def bigNode (i : Nat) : Node Int :=
  if i = 0 then ⟨0, 0, 1, 32768⟩
  else if i < 32767 then ⟨0, 0, -1, (i : Int) + 1⟩
  else if i = 32767 then ⟨0, 0, -1, -1⟩
  else ⟨0, 0, -1, -2⟩

/-- The counter-example forest (used with `N = 32769`). -/
def bigForest (N : Nat) : Forest Int Nat := ⟨(List.range N).map bigNode, [0], [7, 8]⟩

theorem bigForest_at (N p : Nat) (h : p < N) : (bigForest N).nodes[p]? = some (bigNode p) := by
  simp [bigForest, h]

theorem bigForest_len (N : Nat) : (bigForest N).nodes.length = N := by simp [bigForest]

theorem bigForest_get (N p : Nat) (n : Node Int) (h : (bigForest N).nodes[p]? = some n) : p < N ∧ n = bigNode p := by
  have hlt := (List.getElem?_eq_some_iff.mp h).1
  rw [bigForest_len] at hlt
  rw [bigForest_at N p hlt] at h
  exact ⟨hlt, (Option.some.inj h).symm⟩

theorem bigNode_cases (p : Nat) (h : p < 32769) :
    (p = 0 ∧ (bigNode p).left = 1 ∧ (bigNode p).right = 32768) ∨
    (0 < p ∧ p < 32767 ∧ (bigNode p).left = -1 ∧ (bigNode p).right = (p : Int) + 1) ∨
    (p = 32767 ∧ (bigNode p).left = -1 ∧ (bigNode p).right = -1) ∨
    (p = 32768 ∧ (bigNode p).left = -1 ∧ (bigNode p).right = -2) := by
  unfold bigNode
  by_cases h0 : p = 0
  · left; simp [h0]
  · right
    by_cases h1 : p < 32767
    · left; simp [h0, h1]; omega
    · right
      by_cases h2 : p = 32767
      · left; simp [h2]
      · right; simp [h0, h1, h2]; omega

theorem bigForest_ok (N : Nat) (hN : N = 32769) : ForestOK (bigForest N) := by
  have mem : ∀ p, p < N → bigNode p ∈ (bigForest N).nodes := fun p h => List.mem_of_getElem? (bigForest_at N p h)
  constructor
  · intro p n hp
    obtain ⟨h1, rfl⟩ := bigForest_get N p n hp
    rw [bigForest_len, show (bigForest N).leaves.length = 2 from rfl]
    have := bigNode_cases p (by omega)
    unfold RefOK
    omega
  · intro r hr; rw [bigForest_len]; simp [bigForest] at hr; omega
  · intro q hq
    rw [bigForest_len] at hq
    by_cases h0 : q = 0
    · left; simp [bigForest, h0]
    · right
      by_cases h2 : q = 1 ∨ q = 32768
      · refine ⟨_, mem 0 (by omega), ?_⟩
        have := bigNode_cases 0 (by omega)
        omega
      · refine ⟨_, mem (q-1) (by omega), ?_⟩
        have := bigNode_cases (q-1) (by omega)
        omega
  · intro m hm
    refine ⟨_, mem 32768 (by omega), ?_⟩
    have : m < 2 := hm
    have := bigNode_cases 32768 (by omega)
    omega

/-- **C05 refuted** A valid forest of 32769 nodes is accepted by code generation although its root's right child (32768 nodes ahead) does not fit
`int16_t`: the stored field decodes to a leaf code, and the C walk returns leaf number 32767 of a 2-leaf model
where the forest itself reaches leaf value 8. -/
theorem C05_refuted : ∃ (f : Forest Int Nat) (tbl : List CNode) (features : List Int),
    ForestOK f ∧ generateNodes id f.nodes = some tbl ∧ f.roots = [0] ∧ f.leaves = [7, 8] ∧
    forestPredict (cmpInt features id) f 0 = some 8 ∧
    predictTree tbl features tbl.length 0 = some 32767 := by
  obtain ⟨N, hN⟩ : ∃ N, N = 32769 := ⟨_, rfl⟩
  obtain ⟨tbl, htbl⟩ : ∃ tbl, generateNodes id (bigForest N).nodes = some tbl := by
    apply generateNodesFrom_some
    intro p n hp
    obtain ⟨h1, rfl⟩ := bigForest_get N p n hp
    rw [Nat.zero_add]
    have hc := bigNode_cases p (by omega)
    obtain ⟨l, hl⟩ := encodeChild_isSome p (bigNode p).left (by omega) (by omega)
    obtain ⟨r, hr⟩ := encodeChild_isSome p (bigNode p).right (by omega) (by omega)
    exact ⟨_, by simp [makeNode, hl, hr]; rfl⟩
  have hlen : tbl.length = N := by rw [generateNodesFrom_length id _ 0 tbl htbl, bigForest_len]
  have hb0 : bigNode 0 = ⟨0, 0, 1, 32768⟩ := rfl
  have hb1 : bigNode 32768 = ⟨0, 0, -1, -2⟩ := by unfold bigNode; simp
  obtain ⟨M, hM⟩ : ∃ M, N = M + 3 := ⟨32766, hN⟩
  refine ⟨bigForest N, tbl, [5], bigForest_ok N hN, htbl, rfl, rfl, ?_, ?_⟩
  · unfold forestPredict
    have h0 : (bigForest N).nodes[0]? = some ⟨0, 0, 1, 32768⟩ := by rw [bigForest_at N 0 (by omega), hb0]
    have h1 : (bigForest N).nodes[32768]? = some ⟨0, 0, -1, -2⟩ := by rw [bigForest_at N 32768 (by omega), hb1]
    have hw : walk (cmpInt [5] id) (bigForest N).nodes 3 ((0 : Nat) : Int) = some 1 := by
      simp [walk, h0, h1, cmpInt]
    rw [walk_mono _ _ 3 _ _ _ (by rw [bigForest_len]; omega) hw]
    rfl
  · obtain ⟨c, h1, h2⟩ := generateNodesFrom_get id _ 0 tbl htbl 0 _ (bigForest_at N 0 (by omega))
    have hc : c = ⟨0, 0, 1, -32768⟩ := by
      have : makeNode id (0 + 0) (⟨0, 0, 1, 32768⟩ : Node Int) = some ⟨0, 0, 1, -32768⟩ := by decide
      rw [hb0, this] at h2
      exact (Option.some.inj h2).symm
    subst hc
    rw [hlen, hM]
    unfold predictTree
    simp only [h1, Int.toNat_zero]
    unfold predictTree
    simp [wrap16]

/-! ### C07 -/

/-- Specification: `c` is the smallest class among those with the most votes. -/
def Plurality (classes : List Nat) (n c : Nat) : Prop :=
  c < n ∧ (∀ d, d < n → classes.count d ≤ classes.count c) ∧ (∀ d, d < c → classes.count d < classes.count c)

theorem predict_hard_core (ops : FOps F) (cnt : Nat → F) (m : CModel) (features : List Int) (classes : List Nat)
    (laws : VoteLaws ops m.roots.length cnt)
    (hlb : m.leafBits = 0) (hnc : m.nClasses ≤ 30) (hne : m.roots ≠ [])
    (htrees : List.Forall₂ (fun root c => ∃ leaf : Nat, m.tree features root = some (leaf : Int) ∧ m.leaves[leaf]? = some c) m.roots classes)
    (hcls : ∀ c ∈ classes, (c : Int) < m.nClasses) :
    predictProba ops m features m.nClasses =
        some (.ok ((List.range m.nClasses.toNat).map (fun c => ops.div (cnt (classes.count c)) (ops.ofInt m.roots.length)))) ∧
    predict ops m features m.nFeatures =
        some (argmaxLoop (fun a b => decide (a < b)) ((List.range m.nClasses.toNat).map (fun c => classes.count c)) 0 (-1) 0) ∧
    ∃ c : Nat, predict ops m features m.nFeatures = some (c : Int) ∧ Plurality classes m.nClasses.toNat c := by
  have hlen : classes.length = m.roots.length := htrees.length_eq.symm
  have hfold : m.roots.foldlM (hardStep ops m features) (List.replicate m.nClasses.toNat ops.zero) =
      some ((List.range m.nClasses.toNat).map (fun c => cnt (classes.count c))) := by
    have e : m.roots.foldlM (hardStep ops m features) (List.replicate m.nClasses.toNat ops.zero)
        = voteFold ops classes (List.replicate m.nClasses.toNat ops.zero) := by
      unfold voteFold
      apply forall2_foldlM _ _ _ _ _ _ _ htrees
      rintro s a b ⟨leaf, h1, h2⟩
      simp [hardStep, h1, h2]
    rw [e]
    exact voteFold_zero ops cnt m.roots.length _ classes laws.zero laws.succ
      (fun c hc => by have := hcls c hc; omega) (by omega)
  have hproba : predictProba ops m features m.nClasses =
        some (.ok ((List.range m.nClasses.toNat).map (fun c => ops.div (cnt (classes.count c)) (ops.ofInt m.roots.length)))) := by
    unfold predictProba
    simp only [ne_eq, not_true_eq_false, if_false, hlb, if_true, hfold, Option.map_some, List.map_map]
    rfl
  have hpred : predict ops m features m.nFeatures =
        some (argmaxLoop (fun a b => decide (a < b)) ((List.range m.nClasses.toNat).map (fun c => classes.count c)) 0 (-1) 0) := by
    unfold predict
    rw [if_neg (by simp), if_neg (by omega), hproba]
    simp only
    congr 1
    have hm := argmaxLoop_map ops.lt (fun a b => decide (a < b)) (fun k => ops.div (cnt k) (ops.ofInt m.roots.length))
      (fun k => k ≤ m.roots.length) (fun a b ha hb => laws.mono a b ha hb)
      ((List.range m.nClasses.toNat).map (fun c => classes.count c)) 0 (-1) 0 (by
        intro v hv
        simp only [List.mem_map] at hv
        obtain ⟨c, _, rfl⟩ := hv
        have := List.count_le_length (l := classes) (a := c)
        omega) (by omega)
    rw [laws.zero, laws.divZero] at hm
    rw [← hm, List.map_map]
    rfl
  refine ⟨hproba, hpred, ?_⟩
  rw [hpred]
  rcases argmaxLoop_spec ((List.range m.nClasses.toNat).map (fun c => classes.count c)) 0 (-1) 0 with ⟨_, hall⟩ | ⟨c, e, v, hv, hpos, hmax, hfirst⟩
  · exfalso
    obtain ⟨c, rest, hc⟩ : ∃ c rest, classes = c :: rest := by
      cases classes with
      | nil => simp at hlen; exact absurd (List.length_eq_zero_iff.mp hlen.symm) hne
      | cons a l => exact ⟨a, l, rfl⟩
    have hcn := hcls c (by simp [hc])
    have := hall (classes.count c) (by
      simp only [List.mem_map, List.mem_range]; exact ⟨c, by omega, rfl⟩)
    have h1 : 0 < classes.count c := List.count_pos_iff.mpr (by simp [hc])
    omega
  · refine ⟨c, by rw [e]; simp, ?_⟩
    have hc : c < m.nClasses.toNat := by
      have := (List.getElem?_eq_some_iff.mp hv).1
      simpa using this
    have get : ∀ d, d < m.nClasses.toNat → ((List.range m.nClasses.toNat).map (fun c => classes.count c))[d]? = some (classes.count d) := by
      intro d hd; simp [hd]
    rw [get c hc] at hv
    cases hv
    refine ⟨hc, fun d hd => hmax d _ (get d hd), fun d hd => hfirst d _ hd (get d (by omega))⟩

/-- **C07** Hard-voting `eml_trees_predict()` on a model with at least one tree and at most 30 classes, every tree ending in a leaf that holds a class
below `n_classes`, returns the smallest class with the maximal number of tree votes.  Holds for every float arithmetic in which counting
and comparing up to `n_trees` votes is faithful (`VoteLaws`; exact arithmetic is an instance). -/
theorem C07_hard_vote_plurality (ops : FOps F) (cnt : Nat → F) (m : CModel) (features : List Int) (classes : List Nat)
    (laws : VoteLaws ops m.roots.length cnt)
    (hlb : m.leafBits = 0) (hnc : m.nClasses ≤ 30) (hne : m.roots ≠ [])
    (htrees : List.Forall₂ (fun root c => ∃ leaf : Nat, m.tree features root = some (leaf : Int) ∧ m.leaves[leaf]? = some c) m.roots classes)
    (hcls : ∀ c ∈ classes, (c : Int) < m.nClasses) :
    ∃ c : Nat, predict ops m features m.nFeatures = some (c : Int) ∧ Plurality classes m.nClasses.toNat c :=
  (predict_hard_core ops cnt m features classes laws hlb hnc hne htrees hcls).2.2

/-- **C07** (end to end) for a converted forest of well-formed source trees with class-number leaves: the deployed C model returns the plurality
of the classes predicted by the source trees (under the generated comparison). -/
theorem C07_converted_plurality (ops : FOps F) (cnt : Nat → F) (zero : Θ) (leafVal : V → Nat) (quant : Θ → Int)
    (trees : List (List (SrcNode Θ V))) (hne : trees ≠ []) (hwf : ∀ src ∈ trees, SrcWF src)
    (laws : VoteLaws ops trees.length cnt) (features : List Int) (nClasses : Nat) (hnc : nClasses ≤ 30)
    (hleaf : ∀ src ∈ trees, ∀ row ∈ src, leafVal row.value < nClasses) :
    ∃ f, convertForest zero leafVal trees = some f ∧
      ∀ m, Deployed quant f (leafBytesHard f.leaves) 0 nClasses features m →
        ∃ (classes : List Nat) (c : Nat),
          List.Forall₂ (fun src cls => ∃ v, srcPredict (cmpInt features quant) src = some v ∧ leafVal v = cls) trees classes ∧
          predict ops m features features.length = some (c : Int) ∧ Plurality classes nClasses c := by
  obtain ⟨f, hf, hrl, hsim⟩ := C01_convert_same_leaf zero leafVal trees hne hwf
  refine ⟨f, hf, ?_⟩
  intro m hd
  obtain ⟨_, _, e3, e4, e5, e6, e7⟩ := hd.eqs
  let go := cmpInt features quant
  let cls : List (SrcNode Θ V) → Nat := fun src => ((srcPredict go src).map leafVal).getD 0
  have hval : ∀ fuel i src v, src ∈ trees → srcWalk go src fuel i = some v → ∃ row ∈ src, row.value = v := by
    intro fuel
    induction fuel with
    | zero => intro i src v _ h; simp [srcWalk] at h
    | succ fuel ih =>
      intro i src v hs h
      unfold srcWalk at h
      cases hg : src[i]? with
      | none => simp [hg] at h
      | some n =>
        simp only [hg] at h
        split at h
        · simp at h; exact ⟨n, List.mem_of_getElem? hg, h⟩
        · exact ih _ src v hs h
  have hroots : m.roots ≠ [] := by
    rw [e3]
    intro h
    simp at h
    rw [h] at hrl
    simp at hrl
    exact hne (List.length_eq_zero_iff.mp hrl.symm)
  have hmlen : m.roots.length = trees.length := by rw [e3]; simp [hrl]
  have hmem255 : ∀ x, x < nClasses → x % 256 = x := fun x hx => Nat.mod_eq_of_lt (by omega)
  have htr : List.Forall₂ (fun root c => ∃ leaf : Nat, m.tree features root = some (leaf : Int) ∧ m.leaves[leaf]? = some c)
      m.roots (trees.map cls) := by
    apply List.forall₂_iff_get.mpr
    refine ⟨by simp [hmlen], ?_⟩
    intro i h1 h2
    have hi : i < trees.length := by simpa using h2
    obtain ⟨r, v, p1, p2, p3⟩ := hsim go i trees[i] (List.getElem?_eq_getElem hi)
    have hr : r ∈ f.roots := List.mem_of_getElem? p1
    have hroot : m.roots[i]? = some (r : Int) := by rw [e3, List.getElem?_map, p1]; rfl
    have hleafI := leafIndex_spec go hd.ok hr
    have ht := hd.trees
    have htree : TreeLeaf m features (r : Int) (leafIndex go f r) := by
      have := List.forall₂_iff_get.mp ht
      have g := this.2 i h1 (by rw [← this.1]; exact h1)
      simp only [List.get_eq_getElem] at g
      have ea : m.roots[i] = (r : Int) := by
        rw [List.getElem?_eq_getElem h1] at hroot; exact Option.some.inj hroot
      have eb : (f.roots.map (leafIndex (cmpInt features quant) f))[i]'(by rw [← this.1]; exact h1) = leafIndex go f r := by
        rw [List.getElem_map]
        congr 1
        have hi' : i < f.roots.length := by omega
        rw [List.getElem?_eq_getElem hi'] at p1
        exact Option.some.inj p1
      rw [ea, eb] at g
      exact g
    simp only [List.get_eq_getElem]
    have ea : m.roots[i] = (r : Int) := by
      rw [List.getElem?_eq_getElem h1] at hroot; exact Option.some.inj hroot
    refine ⟨leafIndex go f r, by rw [ea]; exact htree, ?_⟩
    have hfp : f.leaves[leafIndex go f r]? = some (leafVal v) := by
      have := p3
      simp only [forestPredict, hleafI.1, Option.bind_some] at this
      exact this
    obtain ⟨row, hrow, hrv⟩ := hval _ _ _ v (List.getElem_mem hi) p2
    have hlt := hleaf _ (List.getElem_mem hi) row hrow
    rw [hrv] at hlt
    rw [e4, leafBytesHard, List.getElem?_map, hfp]
    simp only [Option.map_some, List.getElem_map, cls, p2, Option.getD_some, hmem255 _ hlt]
  have hc : ∀ c ∈ trees.map cls, (c : Int) < m.nClasses := by
    intro c hcm
    simp only [List.mem_map] at hcm
    obtain ⟨src, hs, rfl⟩ := hcm
    obtain ⟨i, hi⟩ := List.mem_iff_getElem?.mp hs
    obtain ⟨r, v, _, p2, _⟩ := hsim go i src hi
    obtain ⟨row, hrow, hrv⟩ := hval _ _ _ v hs p2
    have hlt := hleaf _ hs row hrow
    rw [hrv] at hlt
    rw [e7]
    simp only [cls, p2, Option.map_some, Option.getD_some]
    omega
  obtain ⟨c, hp1, hp2⟩ := C07_hard_vote_plurality ops cnt m features (trees.map cls) (by rw [hmlen]; exact laws)
    (by rw [e5]; simp) (by rw [e7]; omega) hroots htr hc
  refine ⟨trees.map cls, c, ?_, ?_, ?_⟩
  · rw [List.forall₂_map_right_iff]
    apply List.forall₂_same.mpr
    intro src hs
    obtain ⟨i, hi⟩ := List.mem_iff_getElem?.mp hs
    obtain ⟨r, v, _, p2, _⟩ := hsim go i src hi
    exact ⟨v, p2, by simp [cls, p2]⟩
  · rw [← e6]; exact hp1
  · rw [e7] at hp2; simpa using hp2

/-! ### C08 -/

section C08
variable {K : Type} [Field K] [LinearOrder K] [IsStrictOrderedRing K]

theorem sum_count (classes : List Nat) (n : Nat) (h : ∀ c ∈ classes, c < n) :
    ((List.range n).map (fun c => classes.count c)).sum = classes.length := by
  induction classes with
  | nil => simp
  | cons a l ih =>
    have := ih (fun c hc => h c (by simp [hc]))
    have ha := h a (by simp)
    simp only [List.count_cons, List.length_cons]
    rw [List.sum_map_add, this]
    congr 1
    clear this ih h
    induction n with
    | zero => omega
    | succ n ihn =>
      rw [List.range_succ, List.map_append, List.sum_append]
      by_cases hn : a = n
      · subst hn
        have : ((List.range a).map (fun c => if (a == c) = true then 1 else 0)) = (List.range a).map (fun _ => 0) := by
          apply List.map_congr_left
          intro c hc
          simp only [List.mem_range] at hc
          rw [if_neg]
          simp; omega
        simp only [this]
        simp
      · rw [ihn (by omega)]
        simp [hn]

/-- **C08** (hard voting, exact arithmetic) each class probability is the fraction of trees voting for it, lies in `[0,1]`, and they sum to 1. -/
theorem C08_hard_proba_distribution (m : CModel) (features : List Int) (classes : List Nat)
    (hlb : m.leafBits = 0) (hnc : m.nClasses ≤ 30) (hne : m.roots ≠ [])
    (htrees : List.Forall₂ (fun root c => ∃ leaf : Nat, m.tree features root = some (leaf : Int) ∧ m.leaves[leaf]? = some c) m.roots classes)
    (hcls : ∀ c ∈ classes, (c : Int) < m.nClasses) :
    ∃ out : List K, predictProba (exactOps K) m features m.nClasses = some (.ok out) ∧
      out = (List.range m.nClasses.toNat).map (fun c => (classes.count c : K) / (m.roots.length : K)) ∧
      (∀ p ∈ out, 0 ≤ p ∧ p ≤ 1) ∧ out.sum = 1 := by
  have hlen : classes.length = m.roots.length := htrees.length_eq.symm
  have hpos : 0 < m.roots.length := List.length_pos_iff.mpr hne
  have hposK : (0 : K) < (m.roots.length : K) := by exact_mod_cast hpos
  have h := (predict_hard_core (exactOps K) (fun k => (k : K)) m features classes (exact_voteLaws _ hpos) hlb hnc hne htrees hcls).1
  refine ⟨_, h, ?_, ?_, ?_⟩
  · apply List.map_congr_left
    intro c _
    simp [exactOps]
  · intro p hp
    simp only [List.mem_map] at hp
    obtain ⟨c, _, rfl⟩ := hp
    have hle : (classes.count c : K) ≤ (m.roots.length : K) := by
      have := List.count_le_length (l := classes) (a := c)
      rw [hlen] at this
      exact_mod_cast this
    simp only [exactOps, Int.cast_natCast]
    constructor
    · positivity
    · rw [div_le_one hposK]; exact hle
  · have e : ((List.range m.nClasses.toNat).map (fun c => (exactOps K).div ((classes.count c : Nat) : K) ((exactOps K).ofInt m.roots.length))).sum
        = (((List.range m.nClasses.toNat).map (fun c => classes.count c)).sum : K) / (m.roots.length : K) := by
      simp only [exactOps, Int.cast_natCast]
      generalize List.range m.nClasses.toNat = l
      induction l with
      | nil => simp
      | cons a l ih => simp only [List.map_cons, List.sum_cons, ih, Nat.cast_add]; rw [add_div]
    rw [e, sum_count classes _ (fun c hc => by have := hcls c hc; omega), hlen]
    exact div_self (ne_of_gt hposK)

/-- **C08** (8-bit soft voting, exact arithmetic) each class probability is the mean over the trees of (leaf byte)/255, and lies in `[0,1]`. -/
theorem C08_soft_proba_mean (m : CModel) (features : List Int) (idxs : List Nat) (row : Nat → Nat → Nat)
    (hlb : m.leafBits = 8) (hne : m.roots ≠ [])
    (htrees : List.Forall₂ (fun root (leaf : Nat) => m.tree features root = some (leaf : Int)) m.roots idxs)
    (hrows : ∀ i ∈ idxs, ∀ c, c < m.nClasses.toNat → m.leaves[i * m.nClasses.toNat + c]? = some (row i c))
    (hbyte : ∀ i c, row i c ≤ 255) :
    ∃ out : List K, predictProba (exactOps K) m features m.nClasses = some (.ok out) ∧
      out = (List.range m.nClasses.toNat).map
        (fun c => (idxs.map (fun i => ((row i c : Nat) : K) / 255)).sum / (m.roots.length : K)) ∧
      (∀ p ∈ out, 0 ≤ p ∧ p ≤ 1) := by
  have hlen : idxs.length = m.roots.length := htrees.length_eq.symm
  have hpos : 0 < m.roots.length := List.length_pos_iff.mpr hne
  have hposK : (0 : K) < (m.roots.length : K) := by exact_mod_cast hpos
  have hf := soft_fold (exactOps K) m features idxs htrees (List.replicate m.nClasses.toNat (0 : K))
  have e0 : List.replicate m.nClasses.toNat (0 : K) = (List.range m.nClasses.toNat).map (fun _ => (0 : K)) := by
    apply List.ext_getElem?; intro j
    by_cases hj : j < m.nClasses.toNat <;> simp [hj]
  have hs := soft_sum (K := K) m.leaves m.nClasses.toNat row idxs (fun _ => 0) hrows
  rw [e0, hs] at hf
  refine ⟨_, ?_, rfl, ?_⟩
  · unfold predictProba
    simp only [ne_eq, not_true_eq_false, if_false, hlb, if_true]
    rw [if_neg (by omega), show (exactOps K).zero = 0 from rfl, e0, hf]
    simp only [Option.map_some, List.map_map]
    congr 2
    apply List.map_congr_left
    intro c _
    simp [exactOps]
  · intro p hp
    simp only [List.mem_map] at hp
    obtain ⟨c, _, rfl⟩ := hp
    have h0 : ∀ l : List Nat, (0 : K) ≤ (l.map (fun i => ((row i c : Nat) : K) / 255)).sum := by
      intro l
      apply List.sum_nonneg
      intro x hx
      simp only [List.mem_map] at hx
      obtain ⟨i, _, rfl⟩ := hx
      positivity
    have h1 : ∀ l : List Nat, (l.map (fun i => ((row i c : Nat) : K) / 255)).sum ≤ (l.length : K) := by
      intro l
      induction l with
      | nil => simp
      | cons a l ih =>
        simp only [List.map_cons, List.sum_cons, List.length_cons, Nat.cast_add, Nat.cast_one]
        have : ((row a c : Nat) : K) / 255 ≤ 1 := by
          rw [div_le_one (by norm_num)]
          exact_mod_cast hbyte a c
        linarith
    constructor
    · exact div_nonneg (h0 _) hposK.le
    · rw [div_le_one hposK, ← hlen]; exact h1 idxs

end C08

/-! ### C10 -/

/-- **C10** (C API) feature-length mismatch, too many classes or an unsupported leaf format give a negative code. -/
theorem C10_predict_reports_errors (ops : FOps F) (m : CModel) (features : List Int) (len : Int) :
    (len ≠ m.nFeatures → predict ops m features len = some (-3)) ∧
    (m.nClasses > 30 → predict ops m features len = some (-3)) ∧
    (len = m.nFeatures → m.nClasses ≤ 30 → m.leafBits ≠ 0 → m.leafBits ≠ 8 → predict ops m features len = some (-1)) := by
  refine ⟨?_, ?_, ?_⟩
  · intro h; unfold predict; rw [if_pos h]
  · intro h
    unfold predict
    by_cases h2 : len ≠ m.nFeatures
    · rw [if_pos h2]
    · rw [if_neg h2, if_pos h]
  · intro h1 h2 h3 h4
    unfold predict
    rw [if_neg (by omega), if_neg (by omega)]
    simp [predictProba, h3, h4]

/-- **C10** (C API) `predict_proba` and `regress` report wrong output lengths and unsupported leaf formats. -/
theorem C10_proba_regress_report_errors (ops : FOps F) (m : CModel) (leafFloat : Nat → Option F) (features : List Int) (n : Int) :
    (n ≠ m.nClasses → predictProba ops m features n = some (.error .sizeMismatch)) ∧
    (n = m.nClasses → m.leafBits ≠ 0 → m.leafBits ≠ 8 → predictProba ops m features n = some (.error .unsupported)) ∧
    (n < 1 → regress ops m leafFloat features n = some (.error .sizeMismatch)) ∧
    (1 ≤ n → m.leafBits ≠ 32 → regress ops m leafFloat features n = some (.error .unsupported)) := by
  refine ⟨?_, ?_, ?_, ?_⟩
  · intro h; simp [predictProba, h]
  · intro h h1 h2; simp [predictProba, h, h1, h2]
  · intro h; simp [regress, h]
  · intro h h1; unfold regress; rw [if_neg (by omega), if_pos h1]

/-- **C10 refuted** (the part about `Wrapper.predict`) the generated `predict_wrapper` turns every error code into the class number `-code`: a feature
length mismatch is reported as class 3. -/
theorem C10_wrapper_refuted (ops : FOps F) : ∃ (m : CModel) (features : List Int) (len out : Int),
    len ≠ m.nFeatures ∧ predict ops m features len = some out ∧ out < 0 ∧ 0 ≤ predictWrapper out ∧ predictWrapper out = 3 := by
  refine ⟨⟨[], [], [], 0, 2, 5⟩, [1], 1, -3, by decide, ?_, by decide, by decide, by decide⟩
  exact (C10_predict_reports_errors ops ⟨[], [], [], 0, 2, 5⟩ [1] 1).1 (by decide)

/-! ### C11 -/

section C11
variable {K : Type} [Field K] [LinearOrder K] [IsStrictOrderedRing K]

/-- **C11** `eml_trees_regress()` on a 32-bit-leaf model with at least one tree writes the arithmetic mean of the leaf values the trees reach,
which lies between any lower and any upper bound of the reached leaf values (exact arithmetic). -/
theorem C11_regress_mean (m : CModel) (leafFloat : Nat → Option K) (features : List Int) (vals : List K) (n : Int)
    (hn : 1 ≤ n) (hlb : m.leafBits = 32) (hne : m.roots ≠ [])
    (htrees : List.Forall₂ (fun root v => ∃ leaf : Nat, m.tree features root = some (leaf : Int) ∧ leafFloat leaf = some v) m.roots vals) :
    ∃ y : K, regress (exactOps K) m leafFloat features n = some (.ok y) ∧ y = vals.sum / (vals.length : K) ∧
      (∀ lo, (∀ v ∈ vals, lo ≤ v) → lo ≤ y) ∧ (∀ hi, (∀ v ∈ vals, v ≤ hi) → y ≤ hi) := by
  have hlen : vals.length = m.roots.length := htrees.length_eq.symm
  have hpos : 0 < vals.length := by rw [hlen]; exact List.length_pos_iff.mpr hne
  have hposK : (0 : K) < (vals.length : K) := by exact_mod_cast hpos
  refine ⟨vals.sum / (vals.length : K), ?_, rfl, ?_, ?_⟩
  · unfold regress
    rw [if_neg (by omega), if_neg (by simp [hlb])]
    have e : ∀ (s : K), m.roots.foldlM (fun (s : K) root => do
        let leaf ← m.tree features root
        if leaf < 0 then none
        else
          let v ← leafFloat leaf.toNat
          some ((exactOps K).add s v)) s = some (s + vals.sum) := by
      intro s
      rw [forall2_foldlM _ (fun (s : K) (v : K) => some (s + v)) _ _ _ _ s htrees]
      · clear htrees hlen hpos hposK
        induction vals generalizing s with
        | nil => simp
        | cons v vs ih => simp [List.foldlM_cons, ih, add_assoc]
      · rintro s a b ⟨leaf, h1, h2⟩
        simp [h1, h2, exactOps]
    rw [show (exactOps K).zero = 0 from rfl, e 0]
    simp [exactOps, hlen]
  · intro lo hlo
    rw [le_div_iff₀ hposK]
    clear htrees hlen hpos hposK
    induction vals with
    | nil => simp
    | cons v vs ih =>
      simp only [List.length_cons, List.sum_cons, Nat.cast_add, Nat.cast_one]
      have := hlo v (by simp)
      have := ih (fun u hu => hlo u (by simp [hu]))
      linarith
  · intro hi hhi
    rw [div_le_iff₀ hposK]
    clear htrees hlen hpos hposK
    induction vals with
    | nil => simp
    | cons v vs ih =>
      simp only [List.length_cons, List.sum_cons, Nat.cast_add, Nat.cast_one]
      have := hhi v (by simp)
      have := ih (fun u hu => hhi u (by simp [hu]))
      linarith

end C11

/-! ### Non-vacuity -/

/-- The forest converted from `exTree` and `exStump`. -/
def exForest : Forest Int Nat := ⟨[⟨0, 10, -1, 1⟩, ⟨1, 20, -2, -1⟩, ⟨0, 0, -1, -1⟩], [0, 2], [7, 8]⟩

/-- Its loadable model with 2 features and 9 classes. -/
def exModel : CModel := ⟨[⟨0, 10, -1, 1⟩, ⟨1, 20, -2, -1⟩, ⟨0, 0, -1, -1⟩], [0, 2], [7, 8], 0, 2, 9⟩

theorem exForest_converted : convertForest (0 : Int) (id : Nat → Nat) [exTree, exStump] = some exForest := by decide

theorem exForest_ok : ForestOK exForest := by
  obtain ⟨f, hf, _, hok⟩ := C02_convert_refs_valid (0 : Int) (id : Nat → Nat) [exTree, exStump] (by simp) (by
    intro src h
    simp at h
    rcases h with rfl | rfl
    · exact exTree_wf
    · exact exStump_wf)
  rw [exForest_converted] at hf
  cases hf
  exact hok

theorem exForest_packs : Packs id 2 exForest.nodes := by
  constructor
  · decide
  · decide
  · intro p n hp
    match p with
    | 0 | 1 | 2 => simp [exForest] at hp; subst hp; simp
    | p + 3 => simp [exForest] at hp

/-- `Deployed` (hypothesis of C07/C09) and the hypotheses of C04 hold for a converted two-tree forest. -/
theorem exDeployed (x y : Int) : Deployed id exForest (leafBytesHard exForest.leaves) 0 9 [x, y] exModel :=
  ⟨exForest_ok, by simp only [List.length_cons, List.length_nil]; decide, exForest_packs, by simp, by decide, by decide⟩

/-- The hypotheses of C07 and C08 are met by `exModel`; both trees vote for class 7 on input `(5, 0)`. -/
example : predict (exactOps Rat) exModel [5, 0] 2 = some 7 ∧ Plurality [7, 7] 9 7 ∧
    List.Forall₂ (fun root c => ∃ leaf : Nat, exModel.tree [5, 0] root = some (leaf : Int) ∧ exModel.leaves[leaf]? = some c)
      exModel.roots [7, 7] := by
  have hf : List.Forall₂ (fun root c => ∃ leaf : Nat, exModel.tree [5, 0] root = some (leaf : Int) ∧ exModel.leaves[leaf]? = some c)
      exModel.roots [7, 7] := by
    refine List.Forall₂.cons ⟨0, by decide, by decide⟩ (List.Forall₂.cons ⟨0, by decide, by decide⟩ List.Forall₂.nil)
  have hp : Plurality [7, 7] 9 7 := by unfold Plurality; decide
  refine ⟨?_, hp, hf⟩
  obtain ⟨c, h1, h2⟩ := C07_hard_vote_plurality (exactOps Rat) (fun k => (k : Rat)) exModel [5, 0] [7, 7]
    (exact_voteLaws _ (by decide)) rfl (by decide) (by decide) hf (by decide)
  rw [show exModel.nFeatures = 2 from rfl] at h1
  rw [h1]
  obtain ⟨hc, hmax, hfirst⟩ := h2
  have : c = 7 := by
    have h3 := hmax 7 (by decide)
    have h4 : ([7, 7] : List Nat).count 7 = 2 := by decide
    rw [h4] at h3
    by_contra hne
    have : ([7, 7] : List Nat).count c = 0 := by
      rw [List.count_eq_zero]
      simp [hne]
    omega
  rw [this]; rfl

/-- The hypotheses of C11 are met by a one-tree 32-bit model. -/
example : List.Forall₂ (fun root v => ∃ leaf : Nat, (⟨[⟨0, 10, -1, -2⟩], [0], [0,0,0,0,0,0,0,0], 32, 1, 0⟩ : CModel).tree [3] root = some (leaf : Int) ∧
    (fun i => ([1/2, 7] : List Rat)[i]?) leaf = some v) [0] [1/2] :=
  List.Forall₂.cons ⟨0, by decide, by simp⟩ List.Forall₂.nil

end Emlearn.Trees
