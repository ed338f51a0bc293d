/- Property C122: converted tree models called from Python, from the trained trees to the numbers that come back, with binary32 `float`. -/
import Verif.Props.TreesLeaf32
import Verif.Props.TreesSklearn
import Verif.Props.TreesThreshold
namespace Emlearn.Trees
open Emlearn.Flt Emlearn.Flt.Binary32 Emlearn.Cgen Emlearn.MiniC Emlearn.Harness

/-- The trained model: every tree well formed, up to four million trees and ten thousand features, and, for integer features, thresholds whose integer part is an `int`. -/
structure SourceOk {V : Type} (dtype : List Char) (nFeatures : Nat) (trees : List (List (SrcNode ℚ V))) : Prop where
  type : DType dtype
  positive : 1 ≤ nFeatures
  bound : nFeatures ≤ 10000
  nonempty : trees ≠ []
  wf : ∀ src ∈ trees, SrcWF src
  count : trees.length ≤ 2 ^ 22
  feature : ∀ src ∈ trees, ∀ row ∈ src, row.isLeaf = false → 0 ≤ row.feature ∧ row.feature < nFeatures
  threshold : dtype ≠ "float".toList → ∀ src ∈ trees, ∀ row ∈ src, row.isLeaf = false → (trunc row.threshold).natAbs ≤ 2147483647

theorem consts32 : Consts c32 where
  zero := by show rnd _ = rnd _; norm_num
  one := by show rnd _ = rnd _; norm_num
  c255 := by show rnd _ = rnd _; norm_num
  int0 := by show rnd _ = rnd _; norm_num

/-- Conversion of a trained model succeeds, its inline code is generated, and its trees reach the leaves of the trained trees. -/
theorem inline_model {V L : Type} [DecidableEq L] {dtype : List Char} {nFeatures : Nat} {trees : List (List (SrcNode ℚ V))} (h : SourceOk dtype nFeatures trees) (leafVal : V → L) :
    ∃ f, convertForest 0 leafVal trees = some f ∧ ModelOk dtype nFeatures f ∧ f.roots.length = trees.length ∧
      (∀ l ∈ f.leaves, ∃ src ∈ trees, ∃ row ∈ src, row.isLeaf = true ∧ l = leafVal row.value) ∧
      (∀ (nClasses : Nat) (lb : Int) (c ip : Bool) (mods : List Char) (num : L → ℚ) (bytes : List Nat), ∃ text, generateInlined f "mytree".toList nClasses lb dtype c ip mods num bytes = some text) ∧
      ∀ (go : Int → ℚ → Bool) (ls : List L), List.Forall₂ (fun r l => forestPredict go f r = some l) f.roots ls →
        ∃ vs, List.Forall₂ (fun src v => srcPredict go src = some v) trees vs ∧ ls = vs.map leafVal := by
  obtain ⟨f, hf, hnodes, hok⟩ := C02_convert_refs_valid 0 leafVal trees h.nonempty h.wf
  obtain ⟨f', hf', hprov, -⟩ := C02_convert_provenance 0 leafVal trees h.nonempty h.wf
  rw [hf] at hf'; cases hf'
  obtain ⟨f', hf', hrl, hsim⟩ := C01_convert_same_leaf 0 leafVal trees h.nonempty h.wf
  rw [hf] at hf'; cases hf'
  have hroots : f.roots ≠ [] := by
    intro e
    rw [e] at hrl
    exact h.nonempty (List.length_eq_zero_iff.1 hrl.symm)
  have hpos := h.positive
  have hcount := h.count
  refine ⟨f, hf, ⟨h.type, h.positive, h.bound, hok, hroots, by omega, ?_, ?_⟩, hrl, convertForest_leaves 0 leafVal trees f hf, ?_, ?_⟩
  · intro n hn
    rcases hprov n hn with ⟨src, hs, row, hr, hl, e1, e2⟩ | ⟨e1, e2⟩
    · rw [e1]; exact h.feature src hs row hr hl
    · rw [e1]; omega
  · intro hd n hn
    rcases hprov n hn with ⟨src, hs, row, hr, hl, e1, e2⟩ | ⟨e1, e2⟩
    · rw [e2]; exact h.threshold hd src hs row hr hl
    · rw [e2]; decide
  · intro nClasses lb c ip mods num bytes
    obtain ⟨t, ht⟩ := leavesText_some "mytree".toList mods bytes
    obtain ⟨ts, hts, -⟩ := inlineTrees_spec hok (leafValue f c lb num) (by
      intro i hi
      unfold leafValue
      rw [List.getElem?_eq_getElem hi]
      by_cases h1 : c = false
      · exact ⟨_, by rw [if_pos h1]; rfl⟩
      · by_cases h2 : lb = 0
        · exact ⟨_, by rw [if_neg h1, if_pos h2]; rfl⟩
        · exact ⟨_, by rw [if_neg h1, if_neg h2]⟩)
    unfold generateInlined
    rw [if_pos (by decide +kernel), ht, Option.bind_some, hts]
    exact ⟨_, rfl⟩
  · intro go ls hls
    have g := List.forall₂_iff_get.1 hls
    refine ⟨(List.range trees.length).pmap (fun i hi => ((srcPredict go (trees[i]'hi)).get (by
      obtain ⟨r, v, -, p2, -⟩ := hsim go i trees[i] (List.getElem?_eq_getElem hi)
      rw [p2]; rfl))) (fun i hi => List.mem_range.1 hi), ?_, ?_⟩
    · refine List.forall₂_iff_get.2 ⟨by simp, ?_⟩
      intro i h1 h2
      simp
    · refine List.ext_getElem (by rw [← g.1, hrl]; simp) ?_
      intro i h1 h2
      have hi : i < trees.length := by rw [← hrl, g.1]; exact h1
      obtain ⟨r, v, p1, p2, p3⟩ := hsim go i trees[i] (List.getElem?_eq_getElem hi)
      have := g.2 i (by omega) h1
      simp only [List.get_eq_getElem] at this
      have hr : f.roots[i]'(by omega) = r := by
        rw [List.getElem?_eq_getElem (by omega)] at p1
        exact Option.some.inj p1
      rw [hr, p3] at this
      simp [p2, Option.some.inj this]

theorem printed_close (y : F32) : |((fixedValue 6 (f32Val y) : ℚ) : ℝ) - y.val| ≤ 1 / (2 * 10 ^ 6) := by
  have c := fixedValue_close 6 (f32Val y)
  have h' : ((|fixedValue 6 (f32Val y) - f32Val y| : ℚ) : ℝ) ≤ ((1 / (2 * 10 ^ 6) : ℚ) : ℝ) := by exact_mod_cast c
  push_cast at h'
  rwa [show ((f32Val y : ℚ) : ℝ) = y.val from (f32_rational y).choose_spec] at h'

/-- **C122** (inline classifier, majority vote) `predict(X)` returns for each row the smallest class with the most votes among the classes of the trained trees. -/
theorem C122_inline_predict {V : Type} {dtype : List Char} {nFeatures : Nat} {trees : List (List (SrcNode ℚ V))} (h : SourceOk dtype nFeatures trees) (leafVal : V → Nat) (nClasses : Nat) (hn : nClasses ≤ 2147483647)
    (hleaf : ∀ src ∈ trees, ∀ row ∈ src, row.isLeaf = true → leafVal row.value < nClasses) (decode : List Nat → Nat → Option F32) (nan : F32) (fuel depth : Nat) (hfu : nClasses < fuel) (hfu' : nFeatures < fuel)
    (X : List (List ℚ)) (hX : RowsOk c32 f32Read dtype nFeatures X) :
    ∃ f text, convertForest 0 leafVal trees = some f ∧
      generateInlined f "mytree".toList nClasses 0 dtype true true "static const".toList (fun (c : Nat) => (c : ℚ)) (leafBytesHard f.leaves) = some text ∧
      ∃ preds, pyPredict c32 decode nan fuel (depth + 3) f32Read (saveText text) dtype nFeatures X = some preds ∧
        List.Forall₂ (fun row (c : Int) => ∃ (x : Input F32) (vs : List V) (k : Nat), rowInput c32 f32Read dtype row = some x ∧
          List.Forall₂ (fun src v => srcPredict (x.less c32) src = some v) trees vs ∧ Plurality (vs.map leafVal) nClasses k ∧ c = k) X preds := by
  obtain ⟨f, hf, hm, hrl, hlv, htext, hsim⟩ := inline_model h leafVal
  obtain ⟨text, ht⟩ := htext nClasses 0 true true "static const".toList (fun (c : Nat) => (c : ℚ)) (leafBytesHard f.leaves)
  obtain ⟨preds, h1, h2⟩ := C110_inline_predict c32 decode nan fuel depth f32Read f dtype nFeatures nClasses hm hn hfu hfu' (by
    intro c hc
    obtain ⟨src, hs, row, hr, hl, rfl⟩ := hlv c hc
    exact hleaf src hs row hr hl) text ht X hX
  refine ⟨f, text, hf, ht, preds, h1, h2.imp ?_⟩
  rintro row c ⟨x, classes, k, hx, h3, h4, rfl⟩
  obtain ⟨vs, h5, rfl⟩ := hsim _ _ h3
  exact ⟨x, vs, k, hx, h5, h4, rfl⟩

theorem lit32_eq (v p : ℚ) (h : v < 0 → p ≤ 0) (h' : ¬ v < 0 → 0 ≤ p) : c32.lit (decide (v < 0)) |p| = rnd (p : ℝ) := by
  show rnd _ = rnd _
  by_cases hv : v < 0
  · have := h hv
    simp [hv, abs_of_nonpos this]
  · have := h' hv
    simp [hv, abs_of_nonneg this]

/-- The mean of rationals stored as `float`, in `float`. -/
theorem mean32 (vals : List ℚ) (hne : vals ≠ []) (hN : vals.length ≤ 2 ^ 22) (hv : ∀ v ∈ vals, |v| ≤ 2 ^ 69) :
    |(treeOps.div ((vals.map fun v : ℚ => rnd (v : ℝ)).foldl treeOps.add treeOps.zero) (treeOps.ofInt vals.length)).val - meanOf (vals.map fun v : ℚ => (v : ℝ))| ≤
      (vals.length + 2) / 2 ^ 23 * absMean (vals.map fun v : ℚ => (v : ℝ)) + 1 / 2 ^ 148 := by
  have hsmall : ∀ v ∈ vals, |(rnd (v : ℝ)).val| ≤ 2 ^ 70 := by
    intro v hv'
    have h1 : |(v : ℝ)| ≤ 2 ^ 69 := by exact_mod_cast hv v hv'
    have h2 := fl_error_any (v : ℝ)
    have h3 : |fl (v : ℝ)| ≤ |(v : ℝ)| + |fl (v : ℝ) - v| := by
      have := abs_add_le (v : ℝ) (fl v - v)
      rwa [add_sub_cancel] at this
    show |fl (v : ℝ)| ≤ 2 ^ 70
    refine h3.trans ((add_le_add h1 (h2.trans (add_le_add (mul_le_mul_of_nonneg_left h1 (by positivity)) (le_refl _)))).trans ?_)
    norm_num
  have hsum : ∀ l : List ℚ, (∀ v ∈ l, |(rnd (v : ℝ)).val| ≤ 2 ^ 70) → absSum (l.map fun v : ℚ => (rnd (v : ℝ)).val) ≤ l.length * 2 ^ 70 := by
    intro l
    induction l with
    | nil => simp [absSum]
    | cons v l ih =>
      intro hl
      have := ih fun u hu => hl u (by simp [hu])
      have := hl v (by simp)
      rw [List.map_cons, absSum_cons, List.length_cons]
      push_cast
      linarith
  have hNR : (vals.length : ℝ) ≤ 2 ^ 22 := by exact_mod_cast hN
  have hT0 : (0 : ℝ) ≤ vals.length := Nat.cast_nonneg _
  have hp := pow32 (k := vals.length) (by omega)
  have hp1 := pow32 (k := vals.length + 1) (by omega)
  have em : (vals.map fun v : ℚ => rnd (v : ℝ)).map fmt.val = vals.map fun v : ℚ => (rnd (v : ℝ)).val := by
    rw [List.map_map]; rfl
  have ha := average treeArith (vals.map fun v : ℚ => rnd (v : ℝ)) (by simpa using hne) (by rw [List.length_map]; omega) (by
    intro a ha
    obtain ⟨v, hv', rfl⟩ := List.mem_map.1 ha
    exact (hsmall v hv').trans (le_trans (by norm_num) big)) (by
    rw [em, List.length_map]
    refine (mul_le_mul hp (hsum vals hsmall) (absSum_nonneg _) (by positivity)).trans (le_trans ?_ big)
    have a1 : (1 : ℝ) + vals.length / 2 ^ 23 ≤ 2 := by linarith
    have a2 : (vals.length : ℝ) * 2 ^ 70 ≤ 2 ^ 22 * 2 ^ 70 := mul_le_mul_of_nonneg_right hNR (by positivity)
    refine (mul_le_mul a1 a2 (by positivity) (by norm_num)).trans ?_
    norm_num)
  rw [em, List.length_map] at ha
  have hy2 := ha.2
  obtain ⟨r1, r2⟩ := mean_rounded vals hne
  have hA : 0 ≤ absMean (vals.map fun v : ℚ => (v : ℝ)) := div_nonneg (absSum_nonneg _) (Nat.cast_nonneg _)
  have hA' : 0 ≤ absMean (vals.map fun v : ℚ => (rnd (v : ℝ)).val) := div_nonneg (absSum_nonneg _) (Nat.cast_nonneg _)
  have h3 : (1 + acc.u) ^ (vals.length + 1) - 1 ≤ (vals.length + 1) / 2 ^ 23 := by
    push_cast at hp1
    linarith
  replace hy2 := hy2.trans (add_le_add (mul_le_mul_of_nonneg_right h3 hA') (le_refl acc.η))
  have eη : acc.η = 1 / 2 ^ 150 := rfl
  rw [eη] at hy2
  change |(treeOps.div ((vals.map fun v : ℚ => rnd (v : ℝ)).foldl treeOps.add treeOps.zero) (treeOps.ofInt vals.length)).val - _| ≤ _ at hy2
  generalize (treeOps.div ((vals.map fun v : ℚ => rnd (v : ℝ)).foldl treeOps.add treeOps.zero) (treeOps.ofInt vals.length)).val = y at hy2 ⊢
  generalize absMean (vals.map fun v : ℚ => (v : ℝ)) = A at r1 r2 hA ⊢
  generalize meanOf (vals.map fun v : ℚ => (v : ℝ)) = M at r1 ⊢
  generalize absMean (vals.map fun v : ℚ => (rnd (v : ℝ)).val) = A' at r2 hy2 hA'
  generalize meanOf (vals.map fun v : ℚ => (rnd (v : ℝ)).val) = M' at r1 hy2
  have t1 : |y - M| ≤ |y - M'| + |M' - M| := by
    have := abs_add_le (y - M') (M' - M)
    rwa [sub_add_sub_cancel] at this
  have t2 : ((vals.length : ℝ) + 1) / 2 ^ 23 * A' ≤ ((vals.length : ℝ) + 1) / 2 ^ 23 * ((1 + 1 / 2 ^ 24) * A + 1 / 2 ^ 150) := mul_le_mul_of_nonneg_left r2 (by positivity)
  have c1 : ((vals.length : ℝ) + 1) / 2 ^ 23 ≤ 1 := by rw [div_le_one (by positivity)]; linarith
  have t3 : ((vals.length : ℝ) + 1) / 2 ^ 23 * ((1 + 1 / 2 ^ 24) * A + 1 / 2 ^ 150) ≤ ((vals.length : ℝ) + 1) / 2 ^ 23 * A + (1 / 2 ^ 24 * A + 1 / 2 ^ 150) := by
    have : ((vals.length : ℝ) + 1) / 2 ^ 23 * (1 / 2 ^ 24 * A + 1 / 2 ^ 150) ≤ 1 * (1 / 2 ^ 24 * A + 1 / 2 ^ 150) := mul_le_mul_of_nonneg_right c1 (by positivity)
    linarith
  have t4 : ((vals.length : ℝ) + 2) / 2 ^ 23 * A = ((vals.length : ℝ) + 1) / 2 ^ 23 * A + 1 / 2 ^ 23 * A := by ring
  rw [t4]
  have t5 : (3 : ℝ) * (1 / 2 ^ 150) ≤ 1 / 2 ^ 148 := by norm_num
  have t6 : (1 : ℝ) / 2 ^ 23 * A = 2 * (1 / 2 ^ 24 * A) := by ring
  linarith

/-- Printing with six decimals moves the mean by at most half a millionth. -/
theorem mean_printed (vals : List ℚ) (hne : vals ≠ []) :
    |meanOf ((vals.map (fixedValue 6)).map fun v : ℚ => (v : ℝ)) - meanOf (vals.map fun v : ℚ => (v : ℝ))| ≤ 1 / (2 * 10 ^ 6) ∧
    absMean ((vals.map (fixedValue 6)).map fun v : ℚ => (v : ℝ)) ≤ absMean (vals.map fun v : ℚ => (v : ℝ)) + 1 / (2 * 10 ^ 6) := by
  have hn : (0 : ℝ) < vals.length := by exact_mod_cast List.length_pos_iff.2 hne
  have key : ∀ l : List ℚ, |((l.map (fixedValue 6)).map fun v : ℚ => (v : ℝ)).sum - (l.map fun v : ℚ => (v : ℝ)).sum| ≤ l.length * (1 / (2 * 10 ^ 6)) ∧
      absSum ((l.map (fixedValue 6)).map fun v : ℚ => (v : ℝ)) ≤ absSum (l.map fun v : ℚ => (v : ℝ)) + l.length * (1 / (2 * 10 ^ 6)) := by
    intro l
    induction l with
    | nil => simp [absSum]
    | cons v l ih =>
      have hc : |((fixedValue 6 v : ℚ) : ℝ) - (v : ℝ)| ≤ 1 / (2 * 10 ^ 6) := by
        have h' : ((|fixedValue 6 v - v| : ℚ) : ℝ) ≤ ((1 / (2 * 10 ^ 6) : ℚ) : ℝ) := by exact_mod_cast fixedValue_close 6 v
        push_cast at h'
        exact h'
      simp only [List.map_cons, List.sum_cons, absSum_cons, List.length_cons]
      push_cast
      have h1 := abs_add_le ((fixedValue 6 v : ℚ) - (v : ℝ)) (((l.map (fixedValue 6)).map fun v : ℚ => (v : ℝ)).sum - (l.map fun v : ℚ => (v : ℝ)).sum)
      have h2 : |((fixedValue 6 v : ℚ) : ℝ)| ≤ |(v : ℝ)| + |((fixedValue 6 v : ℚ) : ℝ) - v| := by
        have := abs_add_le (v : ℝ) ((fixedValue 6 v : ℚ) - v)
        rwa [add_sub_cancel] at this
      rw [show ∀ a b c d : ℝ, a + b - (c + d) = a - c + (b - d) by intros; ring]
      constructor
      · linarith [ih.1]
      · linarith [ih.2]
  obtain ⟨k1, k2⟩ := key vals
  unfold meanOf absMean
  simp only [List.length_map] at k1 k2 ⊢
  constructor
  · rw [← sub_div, abs_div, abs_of_pos hn, div_le_iff₀ hn]
    linarith
  · rw [div_le_iff₀ hn, add_mul, div_mul_cancel₀ _ hn.ne']
    linarith

/-- **C122** (inline regressor) `predict(X)` returns for each row the mean of the values of the trained trees, up to one millionth (leaf values and results have six decimals) and the rounding of `float`. -/
theorem C122_inline_regress {dtype : List Char} {nFeatures : Nat} {trees : List (List (SrcNode ℚ ℚ))} (h : SourceOk dtype nFeatures trees) (hleaf : ∀ src ∈ trees, ∀ row ∈ src, |row.value| ≤ 2 ^ 68)
    (decode : List Nat → Nat → Option F32) (nan : F32) (fuel depth : Nat) (hfu' : nFeatures < fuel) (X : List (List ℚ)) (hX : RowsOk c32 f32Read dtype nFeatures X) :
    ∃ f text, convertForest 0 id trees = some f ∧
      generateInlined f "mytree".toList 0 32 dtype false true "static const".toList id (leafBytes32 f.leaves) = some text ∧
      ∃ preds, pyRegress c32 decode nan fuel (depth + 3) f32Read f32Val (saveText text) dtype nFeatures X = some preds ∧
        List.Forall₂ (fun row (q : ℚ) => ∃ (x : Input F32) (vals : List ℚ), rowInput c32 f32Read dtype row = some x ∧ List.Forall₂ (fun src v => srcPredict (x.less c32) src = some v) trees vals ∧
          |(q : ℝ) - meanOf (vals.map fun v : ℚ => (v : ℝ))| ≤ (trees.length + 2) / 2 ^ 23 * (absMean (vals.map fun v : ℚ => (v : ℝ)) + 1 / (2 * 10 ^ 6)) + 1 / 2 ^ 148 + 1 / 10 ^ 6) X preds := by
  obtain ⟨f, hf, hm, hrl, hlv, htext, hsim⟩ := inline_model h (id : ℚ → ℚ)
  obtain ⟨text, ht⟩ := htext 0 32 false true "static const".toList id (leafBytes32 f.leaves)
  obtain ⟨preds, h1, h2⟩ := C110_inline_regress c32 consts32 decode nan fuel depth f32Read f32Val f dtype nFeatures 0 hm hfu' 32 id (leafBytes32 f.leaves) text ht X hX
  refine ⟨f, text, hf, ht, preds, h1, h2.imp ?_⟩
  rintro row q ⟨x, vals, hx, h3, rfl⟩
  obtain ⟨vs, h5, e⟩ := hsim _ _ h3
  rw [List.map_id] at e
  cases e
  refine ⟨x, vals, hx, h5, ?_⟩
  have hl : vals.length = trees.length := h5.length_eq.symm
  have hvn : vals ≠ [] := by
    intro e
    rw [e] at hl
    exact h.nonempty (List.length_eq_zero_iff.1 hl.symm)
  have hvb : ∀ v ∈ vals.map (fixedValue 6), |v| ≤ 2 ^ 69 := by
    intro p hp
    obtain ⟨v, hv, rfl⟩ := List.mem_map.1 hp
    obtain ⟨i, hi, rfl⟩ := List.mem_iff_getElem.1 hv
    have h6 := (List.forall₂_iff_get.1 h5).2 i (by omega) hi
    obtain ⟨r, hr, -, hrv⟩ := srcWalk_leaf _ _ _ _ _ h6
    have h7 := hleaf _ (List.get_mem _ _) r hr
    rw [hrv] at h7
    simp only [List.get_eq_getElem] at h7
    have h8 := fixedValue_close 6 vals[i]
    have h9 : |fixedValue 6 vals[i]| ≤ |vals[i]| + |fixedValue 6 vals[i] - vals[i]| := by
      have := abs_add_le vals[i] (fixedValue 6 vals[i] - vals[i])
      rwa [add_sub_cancel] at this
    have : (1 : ℚ) / (2 * 10 ^ 6) ≤ 2 ^ 68 := by norm_num
    have e : (2 : ℚ) ^ 69 = 2 ^ 68 + 2 ^ 68 := by norm_num
    rw [e]
    linarith
  have hfold : vals.foldl (fun s v => c32.add s (c32.lit (decide (id v < 0)) |fixedValue 6 (id v)|)) c32.zero = ((vals.map (fixedValue 6)).map fun v : ℚ => rnd (v : ℝ)).foldl treeOps.add treeOps.zero := by
    rw [List.map_map, List.foldl_map]
    refine congrArg (fun g => List.foldl g _ vals) ?_
    funext s v
    have := fixedValue_sign v
    show c32.add s (c32.lit (decide (v < 0)) |fixedValue 6 v|) = _
    rw [lit32_eq v _ this.1 this.2]
    rfl
  rw [hfold]
  have b1 := mean32 (vals.map (fixedValue 6)) (by simpa using hvn) (by rw [List.length_map, hl]; exact h.count) hvb
  obtain ⟨b2, b3⟩ := mean_printed vals hvn
  rw [List.length_map, hl] at b1
  rw [hrl]
  have b4 := printed_close (c32.div (((vals.map (fixedValue 6)).map fun v : ℚ => rnd (v : ℝ)).foldl treeOps.add treeOps.zero) (c32.ofInt trees.length))
  change |(c32.div (((vals.map (fixedValue 6)).map fun v : ℚ => rnd (v : ℝ)).foldl treeOps.add treeOps.zero) (c32.ofInt trees.length)).val - _| ≤ _ at b1
  generalize c32.div (((vals.map (fixedValue 6)).map fun v : ℚ => rnd (v : ℝ)).foldl treeOps.add treeOps.zero) (c32.ofInt trees.length) = y at b1 b4 ⊢
  have b5 := mul_le_mul_of_nonneg_left b3 (show (0 : ℝ) ≤ (trees.length + 2) / 2 ^ 23 by positivity)
  have t1 := abs_add_le (((fixedValue 6 (f32Val y) : ℚ) : ℝ) - y.val) (y.val - meanOf ((vals.map (fixedValue 6)).map fun v : ℚ => (v : ℝ)))
  rw [sub_add_sub_cancel] at t1
  have t2 := abs_add_le (((fixedValue 6 (f32Val y) : ℚ) : ℝ) - meanOf ((vals.map (fixedValue 6)).map fun v : ℚ => (v : ℝ))) (meanOf ((vals.map (fixedValue 6)).map fun v : ℚ => (v : ℝ)) - meanOf (vals.map fun v : ℚ => (v : ℝ)))
  rw [sub_add_sub_cancel] at t2
  have e6 : (1 : ℝ) / 10 ^ 6 = 1 / (2 * 10 ^ 6) + 1 / (2 * 10 ^ 6) := by norm_num
  rw [e6]
  linarith

/-! ### Class probabilities -/

/-- The bytes that the leaves reached hold for one class, and the class probabilities they stand for. -/
theorem soft_bytes (bits : Int) (hb1 : 2 ≤ bits) (hb2 : bits ≤ 8) (nClasses : Nat) (leafVal : List ℝ → List Nat) (hq : ∀ p b, quantizeProbabilities bits p = some b → leafVal p = b.map Int.toNat)
    (ps : List (List ℝ)) (hne : ps ≠ []) (hp : ∀ p ∈ ps, ProbVector nClasses p) (c : Nat) (hc : c < nClasses) :
    (∀ b ∈ (ps.map leafVal).map (fun row => row.getD c 0), b ≤ 255) ∧ |softMean ((ps.map leafVal).map fun row => row.getD c 0) - meanAt ps c| ≤ softTol ℝ bits := by
  have key : ∀ p ∈ ps, (leafVal p).getD c 0 ≤ 255 ∧ |(((leafVal p).getD c 0 : Nat) : ℝ) / 255 - p.getD c 0| ≤ softTol ℝ bits := by
    intro p hpm
    have h := hp p hpm
    have hpn : p ≠ [] := by rintro rfl; have := h.2.2; simp at this
    have hcp : c < p.length := by rw [h.1]; exact hc
    have hmem : p[c] ∈ p := List.getElem_mem hcp
    have e := hq p _ (quantizeProbabilities_eq bits hb1 hb2 p hpn h.2.1 (probVector_le_one h)).1
    obtain ⟨q0, q1, q2, -⟩ := quantizeByte_close bits hb1 hb2 p[c] (h.2.1 _ hmem) (probVector_le_one h _ hmem)
    have e1 : (leafVal p).getD c 0 = (quantizeByte (2 ^ bits.toNat - 2) p[c]).toNat := by simp [e, hcp]
    have e2 : p.getD c 0 = p[c] := by simp [hcp]
    rw [e1, e2]
    refine ⟨by omega, ?_⟩
    have : (((quantizeByte (2 ^ bits.toNat - 2) p[c]).toNat : Nat) : ℝ) = ((quantizeByte (2 ^ bits.toNat - 2) p[c] : Int) : ℝ) := by
      have : (((quantizeByte (2 ^ bits.toNat - 2) p[c]).toNat : Nat) : Int) = quantizeByte (2 ^ bits.toNat - 2) p[c] := by omega
      exact_mod_cast this
    rw [this]
    exact q2
  constructor
  · intro b hb
    rw [List.map_map] at hb
    obtain ⟨p, hpm, rfl⟩ := List.mem_map.1 hb
    exact (key p hpm).1
  · have hpos : (0 : ℝ) < ps.length := by exact_mod_cast List.length_pos_iff.2 hne
    have h2 : List.Forall₂ (fun b p => |b - p| ≤ softTol ℝ bits) (((ps.map leafVal).map fun row => row.getD c 0).map fun (b : Nat) => (b : ℝ) / 255) (ps.map fun p => p.getD c 0) := by
      rw [List.map_map, List.map_map, List.forall₂_map_left_iff, List.forall₂_map_right_iff]
      exact List.forall₂_same.2 fun p hpm => (key p hpm).2
    have h3 := sum_close _ _ _ h2
    unfold softMean meanOf meanAt
    simp only [List.length_map] at h3 ⊢
    rw [← sub_div, abs_div, abs_of_pos hpos, div_le_iff₀ hpos]
    linarith

theorem softTotal_eq (rows : List (List Nat)) (c : Nat) :
    softTotal c32 rows c = ((rows.map fun row => row.getD c 0).map fun (b : Nat) => treeOps.div (treeOps.ofInt (b : Int)) (treeOps.ofInt 255)).foldl treeOps.add treeOps.zero := by
  rw [List.map_map, List.foldl_map]
  rfl

/-- The trained trees of a classifier whose leaves hold class probabilities. -/
structure ProbOk (dtype : List Char) (nFeatures nClasses : Nat) (bits : Int) (leafVal : List ℝ → List Nat) (trees : List (List (SrcNode ℚ (List ℝ)))) : Prop extends SourceOk dtype nFeatures trees where
  low : 2 ≤ bits
  high : bits ≤ 8
  quantize : ∀ p b, quantizeProbabilities bits p = some b → leafVal p = b.map Int.toNat
  classes : nClasses ≤ 2147483647
  dist : ∀ src ∈ trees, ∀ row ∈ src, row.isLeaf = true → ProbVector nClasses row.value
  leaves : (trees.map (fun src => src.countP (fun n => n.isLeaf))).sum * nClasses ≤ 2147483647

theorem ProbOk.one {dtype : List Char} {nFeatures nClasses : Nat} {bits : Int} {leafVal : List ℝ → List Nat} {trees : List (List (SrcNode ℚ (List ℝ)))} (h : ProbOk dtype nFeatures nClasses bits leafVal trees) : 1 ≤ nClasses := by
  obtain ⟨src, hs⟩ := List.exists_mem_of_ne_nil _ h.nonempty
  obtain ⟨f, -, -, hsim⟩ := C01_convert_same_leaf 0 leafVal trees h.nonempty h.wf
  obtain ⟨i, hi, rfl⟩ := List.mem_iff_getElem.1 hs
  obtain ⟨r, v, -, p2, -⟩ := hsim (fun _ _ => true) i _ (List.getElem?_eq_getElem hi)
  obtain ⟨row, hr, hl, rfl⟩ := srcWalk_leaf _ _ _ _ _ p2
  have := h.dist _ hs row hr hl
  by_contra h0
  have e : nClasses = 0 := by omega
  have h1 := this.1
  have h2 := this.2.2
  rw [e] at h1
  rw [List.length_eq_zero_iff.1 h1] at h2
  simp at h2

/-- What the conversion of such trees gives. -/
theorem prob_model {dtype : List Char} {nFeatures nClasses : Nat} {bits : Int} {leafVal : List ℝ → List Nat} {trees : List (List (SrcNode ℚ (List ℝ)))} (h : ProbOk dtype nFeatures nClasses bits leafVal trees) :
    ∃ f text, convertForest 0 leafVal trees = some f ∧ ModelOk dtype nFeatures f ∧ f.roots.length = trees.length ∧
      generateInlined f "mytree".toList nClasses bits dtype true true "static const".toList (fun _ => 0) (leafBytesSoft f.leaves) = some text ∧
      (∀ row ∈ f.leaves, row.length = nClasses ∧ ∀ b ∈ row, b < 256) ∧ (leafBytesSoft f.leaves).length ≤ 2147483647 ∧
      ∀ (go : Int → ℚ → Bool) (rows : List (List Nat)), List.Forall₂ (fun r row => forestPredict go f r = some row) f.roots rows →
        ∃ ps : List (List ℝ), List.Forall₂ (fun src p => srcPredict go src = some p) trees ps ∧ rows = ps.map leafVal ∧ ps.length = trees.length ∧ ∀ p ∈ ps, ProbVector nClasses p := by
  obtain ⟨f, hf, hm, hrl, hlv, htext, hsim⟩ := inline_model h.toSourceOk leafVal
  obtain ⟨f', hf', -, -, hll, -⟩ := C02_convert_provenance 0 leafVal trees h.nonempty h.wf
  rw [hf] at hf'; cases hf'
  obtain ⟨text, ht⟩ := htext nClasses bits true true "static const".toList (fun _ => 0) (leafBytesSoft f.leaves)
  have hrow : ∀ row ∈ f.leaves, row.length = nClasses ∧ ∀ b ∈ row, b < 256 := by
    intro r hr
    obtain ⟨src, hs, row, hrow, hl, rfl⟩ := hlv r hr
    have hd := h.dist src hs row hrow hl
    have hpn : row.value ≠ [] := by intro e; have := hd.2.2; rw [e] at this; simp at this
    have e := h.quantize _ _ (quantizeProbabilities_eq bits h.low h.high row.value hpn hd.2.1 (probVector_le_one hd)).1
    rw [e]
    refine ⟨by simp [hd.1], ?_⟩
    intro b hb
    simp only [List.map_map, List.mem_map, Function.comp] at hb
    obtain ⟨p, hp, rfl⟩ := hb
    obtain ⟨q0, q1, -⟩ := quantizeByte_close bits h.low h.high p (hd.2.1 _ hp) (probVector_le_one hd _ hp)
    omega
  refine ⟨f, text, hf, hm, hrl, ht, hrow, ?_, ?_⟩
  · have : (leafBytesSoft f.leaves).length = f.leaves.length * nClasses := by
      unfold leafBytesSoft
      rw [List.length_map, List.length_flatten]
      have : f.leaves.map List.length = List.replicate f.leaves.length nClasses := by
        rw [List.eq_replicate_iff]
        exact ⟨by simp, by simpa using fun r hr => (hrow r hr).1⟩
      rw [this]
      simp
    rw [this]
    exact (Nat.mul_le_mul_right _ hll).trans h.leaves
  · intro go rows hr
    obtain ⟨ps, h1, h2⟩ := hsim go rows hr
    refine ⟨ps, h1, h2, h1.length_eq.symm, ?_⟩
    intro p hp
    obtain ⟨i, hi, rfl⟩ := List.mem_iff_getElem.1 hp
    have hi' : i < trees.length := by rw [h1.length_eq]; exact hi
    have h6 := (List.forall₂_iff_get.1 h1).2 i hi' hi
    obtain ⟨r, hr, hl, hrv⟩ := srcWalk_leaf _ _ _ _ _ h6
    have := h.dist _ (List.get_mem _ _) r hr hl
    rw [hrv] at this
    exact this

/-- **C122** (inline classifier, class probabilities) `predict_proba(X)` returns for each row the mean of the class probabilities in the leaves that the trained trees reach, up to half a quantization step and `1/255` (the bytes), the
rounding of `float` and half a millionth (six printed decimals). -/
theorem C122_inline_proba {dtype : List Char} {nFeatures nClasses : Nat} {bits : Int} {leafVal : List ℝ → List Nat} {trees : List (List (SrcNode ℚ (List ℝ)))} (h : ProbOk dtype nFeatures nClasses bits leafVal trees)
    (decode : List Nat → Nat → Option F32) (nan : F32) (fuel depth : Nat) (hfu : nClasses < fuel) (hfu' : nFeatures < fuel) (X : List (List ℚ)) (hX : RowsOk c32 f32Read dtype nFeatures X) :
    ∃ f text, convertForest 0 leafVal trees = some f ∧
      generateInlined f "mytree".toList nClasses bits dtype true true "static const".toList (fun _ => 0) (leafBytesSoft f.leaves) = some text ∧
      ∃ m, pyProba c32 decode nan fuel (depth + 3) f32Read f32Val (saveText text) dtype nFeatures nClasses X = some m ∧
        ∀ (i c : Nat) (row : List ℚ), X[i]? = some row → c < nClasses → ∃ (x : Input F32) (ps : List (List ℝ)) (q : ℚ), rowInput c32 f32Read dtype row = some x ∧
          List.Forall₂ (fun src p => srcPredict (x.less c32) src = some p) trees ps ∧ m i c = some q ∧
          |(q : ℝ) - meanAt ps c| ≤ softTol ℝ bits + (trees.length + 3) / 2 ^ 23 + 1 / (2 * 10 ^ 6) := by
  obtain ⟨f, text, hf, hm, hrl, ht, hrow, hsize, hsim⟩ := prob_model h
  obtain ⟨m, h1, h2⟩ := C110_inline_proba_soft c32 consts32 decode nan fuel depth f32Read f32Val f dtype nFeatures nClasses hm h.one h.classes hfu hfu' hrow hsize bits (by have := h.low; omega) (fun _ => 0) text ht X hX
  refine ⟨f, text, hf, ht, m, h1, ?_⟩
  intro i c row hi hc
  obtain ⟨x, rows, hx, h3, h4⟩ := h2 i c row hi hc
  obtain ⟨ps, h5, rfl, hpl, hps⟩ := hsim _ _ h3
  refine ⟨x, ps, _, hx, h5, h4, ?_⟩
  have hne : ps ≠ [] := by
    intro e
    rw [e] at hpl
    exact h.nonempty (List.length_eq_zero_iff.1 hpl.symm)
  obtain ⟨b1, b2⟩ := soft_bytes bits h.low h.high nClasses leafVal h.quantize ps hne hps c hc
  have hN := h.count
  have b3 := soft_mean treeArith (by norm_num) ((ps.map leafVal).map fun row => row.getD c 0) (by simpa using hne) (by simp only [List.length_map]; omega) b1 (softFits32 (by simp only [List.length_map]; omega))
  rw [← softTotal_eq] at b3
  simp only [List.length_map, hpl] at b3
  have b4 := b3.2.trans (softErrAt_le _ (softMean_range _ b1).2)
  have b5 := b4.trans (C103_soft_err32 hN).2.1
  rw [hrl]
  have b6 := printed_close (c32.div (softTotal c32 (ps.map leafVal) c) (c32.ofInt trees.length))
  change |(c32.div (softTotal c32 (ps.map leafVal) c) (c32.ofInt trees.length)).val - _| ≤ _ at b5
  generalize c32.div (softTotal c32 (ps.map leafVal) c) (c32.ofInt trees.length) = y at b5 b6 ⊢
  have t1 := abs_add_le (((fixedValue 6 (f32Val y) : ℚ) : ℝ) - y.val) (y.val - softMean ((ps.map leafVal).map fun row => row.getD c 0))
  rw [sub_add_sub_cancel] at t1
  have t2 := abs_add_le (((fixedValue 6 (f32Val y) : ℚ) : ℝ) - softMean ((ps.map leafVal).map fun row => row.getD c 0)) (softMean ((ps.map leafVal).map fun row => row.getD c 0) - meanAt ps c)
  rw [sub_add_sub_cancel] at t2
  linarith

/-- **C122** (inline classifier, shares of the votes) `predict_proba(X)` returns for each row the fraction of the trained trees that vote for the class, up to one rounding and half a millionth. -/
theorem C122_inline_share {V : Type} {dtype : List Char} {nFeatures : Nat} {trees : List (List (SrcNode ℚ V))} (h : SourceOk dtype nFeatures trees) (leafVal : V → Nat) (nClasses : Nat) (hn1 : 1 ≤ nClasses) (hn : nClasses ≤ 2147483647)
    (hleaf : ∀ src ∈ trees, ∀ row ∈ src, row.isLeaf = true → leafVal row.value < nClasses) (decode : List Nat → Nat → Option F32) (nan : F32) (fuel depth : Nat) (hfu : nClasses < fuel) (hfu' : nFeatures < fuel)
    (X : List (List ℚ)) (hX : RowsOk c32 f32Read dtype nFeatures X) :
    ∃ f text, convertForest 0 leafVal trees = some f ∧
      generateInlined f "mytree".toList nClasses 0 dtype true true "static const".toList (fun (c : Nat) => (c : ℚ)) (leafBytesHard f.leaves) = some text ∧
      ∃ m, pyProba c32 decode nan fuel (depth + 3) f32Read f32Val (saveText text) dtype nFeatures nClasses X = some m ∧
        ∀ (i c : Nat) (row : List ℚ), X[i]? = some row → c < nClasses → ∃ (x : Input F32) (vs : List V) (q : ℚ), rowInput c32 f32Read dtype row = some x ∧
          List.Forall₂ (fun src v => srcPredict (x.less c32) src = some v) trees vs ∧ m i c = some q ∧
          |(q : ℝ) - ((vs.map leafVal).count c : ℝ) / trees.length| ≤ 1 / 10 ^ 6 := by
  obtain ⟨f, hf, hm, hrl, hlv, htext, hsim⟩ := inline_model h leafVal
  obtain ⟨text, ht⟩ := htext nClasses 0 true true "static const".toList (fun (c : Nat) => (c : ℚ)) (leafBytesHard f.leaves)
  obtain ⟨m, h1, h2⟩ := C110_inline_proba c32 consts32 decode nan fuel depth f32Read f32Val f dtype nFeatures nClasses hm hn1 hn hfu hfu' (by
    intro c hc
    obtain ⟨src, hs, row, hr, hl, rfl⟩ := hlv c hc
    exact hleaf src hs row hr hl) text ht X hX
  refine ⟨f, text, hf, ht, m, h1, ?_⟩
  intro i c row hi hc
  obtain ⟨x, classes, hx, h3, h4⟩ := h2 i c row hi hc
  obtain ⟨vs, h5, rfl⟩ := hsim _ _ h3
  refine ⟨x, vs, _, hx, h5, h4, ?_⟩
  have hl : vs.length = trees.length := h5.length_eq.symm
  have hpos : 0 < trees.length := List.length_pos_iff.2 h.nonempty
  have hN := h.count
  have hct : (vs.map leafVal).count c ≤ trees.length := by
    have := List.count_le_length (a := c) (l := vs.map leafVal)
    rwa [List.length_map, hl] at this
  have et : ∀ k : Nat, (fun y => c32.add y c32.one)^[k] c32.zero = tally treeOps k := by
    intro k
    induction k with
    | zero => rfl
    | succ k ih => rw [Function.iterate_succ_apply', ih]; rfl
  rw [et, hrl]
  have b1 := (share_close treeArith hpos (by omega) hct).2
  have b2 := printed_close (c32.div (tally treeOps ((vs.map leafVal).count c)) (c32.ofInt trees.length))
  change |(c32.div (tally treeOps ((vs.map leafVal).count c)) (c32.ofInt trees.length)).val - _| ≤ _ at b1
  generalize c32.div (tally treeOps ((vs.map leafVal).count c)) (c32.ofInt trees.length) = y at b1 b2 ⊢
  have hle : ((vs.map leafVal).count c : ℝ) / trees.length ≤ 1 := by
    rw [div_le_one (by exact_mod_cast hpos)]
    exact_mod_cast hct
  have hu : acc.u = 1 / 2 ^ 24 := rfl
  have hη : acc.η = 1 / 2 ^ 150 := rfl
  rw [hu, hη] at b1
  generalize ((vs.map leafVal).count c : ℝ) / trees.length = s at b1 hle ⊢
  have t1 := abs_add_le (((fixedValue 6 (f32Val y) : ℚ) : ℝ) - y.val) (y.val - s)
  rw [sub_add_sub_cancel] at t1
  have t2 : (1 : ℝ) / 2 ^ 24 * s ≤ 1 / 2 ^ 24 * 1 := mul_le_mul_of_nonneg_left hle (by positivity)
  have t3 : (1 : ℝ) / 2 ^ 24 * 1 + 1 / 2 ^ 150 + 1 / (2 * 10 ^ 6) ≤ 1 / 10 ^ 6 := by norm_num
  linarith

theorem F32.val_injective : Function.Injective F32.val := by
  rintro ⟨a, ha⟩ ⟨b, hb⟩ h
  cases h
  rfl

/-- Numbers of the format, in order. -/
noncomputable local instance order32 : LinearOrder F32 := LinearOrder.lift' F32.val F32.val_injective

theorem lt32 (a b : F32) : c32.lt a b = decide (a < b) := by
  show decide (a.val < b.val) = decide (a < b)
  rw [decide_eq_decide]
  exact Iff.rfl

/-- **C122** (inline classifier, probability leaves) `predict(X)` returns for each row an existing class, and no class has a mean probability in the leaves of the trained trees that exceeds that of the returned class by more than twice the
quantization tolerance and the rounding of `float`. -/
theorem C122_inline_predict_soft {dtype : List Char} {nFeatures nClasses : Nat} {bits : Int} {leafVal : List ℝ → List Nat} {trees : List (List (SrcNode ℚ (List ℝ)))} (h : ProbOk dtype nFeatures nClasses bits leafVal trees)
    (hn2 : nClasses < 2 * (2 ^ bits.toNat - 2)) (decode : List Nat → Nat → Option F32) (nan : F32) (fuel depth : Nat) (hfu : nClasses < fuel) (hfu' : nFeatures < fuel) (X : List (List ℚ)) (hX : RowsOk c32 f32Read dtype nFeatures X) :
    ∃ f text, convertForest 0 leafVal trees = some f ∧
      generateInlined f "mytree".toList nClasses bits dtype true true "static const".toList (fun _ => 0) (leafBytesSoft f.leaves) = some text ∧
      ∃ preds, pyPredict c32 decode nan fuel (depth + 3) f32Read (saveText text) dtype nFeatures X = some preds ∧
        List.Forall₂ (fun row (c : Int) => ∃ (x : Input F32) (ps : List (List ℝ)) (k : Nat), rowInput c32 f32Read dtype row = some x ∧
          List.Forall₂ (fun src p => srcPredict (x.less c32) src = some p) trees ps ∧ c = k ∧ k < nClasses ∧
          ∀ d, d < nClasses → meanAt ps d ≤ meanAt ps k + 2 * (softTol ℝ bits + (trees.length + 2) / 2 ^ 23)) X preds := by
  obtain ⟨f, text, hf, hm, hrl, ht, hrow, hsize, hsim⟩ := prob_model h
  obtain ⟨preds, h1, h2⟩ := C110_inline_predict_soft c32 consts32 decode nan fuel depth f32Read lt32 f dtype nFeatures nClasses hm h.one h.classes hfu hfu' hrow hsize bits (by have := h.low; omega) (fun _ => 0) text ht X hX
  refine ⟨f, text, hf, ht, preds, h1, h2.imp ?_⟩
  rintro row c ⟨x, rows, hx, h3, h4⟩
  obtain ⟨ps, h5, rfl, hpl, hps⟩ := hsim _ _ h3
  have hne : ps ≠ [] := by
    intro e
    rw [e] at hpl
    exact h.nonempty (List.length_eq_zero_iff.1 hpl.symm)
  have hN := h.count
  have hNR : (trees.length : ℝ) ≤ 2 ^ 22 := by exact_mod_cast hN
  have hpos : (0 : ℝ) < trees.length := by exact_mod_cast List.length_pos_iff.2 h.nonempty
  have hη : acc.η = 1 / 2 ^ 150 := rfl
  have p1 := pow32 (k := trees.length + 1) (by omega)
  have p2 := pow32 (k := trees.length) (by omega)
  push_cast at p1
  -- the sum of each class
  have tot : ∀ d, d < nClasses → ∃ S : ℝ, softMean ((ps.map leafVal).map fun row => row.getD d 0) = S / trees.length ∧ 0 ≤ S ∧ S ≤ trees.length ∧
      (∀ b : Nat, b ∈ (ps.map leafVal).map (fun row => row.getD d 0) → (b : ℝ) / 255 ≤ S) ∧
      |(softTotal c32 (ps.map leafVal) d).val - S| ≤ (trees.length + 1) / 2 ^ 23 * S + trees.length / 2 ^ 149 := by
    intro d hd
    obtain ⟨b1, -⟩ := soft_bytes bits h.low h.high nClasses leafVal h.quantize ps hne hps d hd
    have b3 := soft_total treeArith (by norm_num) ((ps.map leafVal).map fun row => row.getD d 0) b1 (softFits32 (by simp only [List.length_map]; omega))
    rw [← softTotal_eq] at b3
    have b4 := bytes_nonneg ((ps.map leafVal).map fun row => row.getD d 0)
    have b5 := bytes_le _ b1
    simp only [List.length_map, hpl] at b3 b5
    refine ⟨_, ?_, b4, b5, ?_, b3.close.2.trans (add_le_add (mul_le_mul_of_nonneg_right (by linarith) b4) ?_)⟩
    · unfold softMean meanOf
      simp only [List.length_map, hpl]
    · intro b hb
      exact List.single_le_sum (by
        intro y hy
        obtain ⟨z, -, rfl⟩ := List.mem_map.1 hy
        positivity) _ (List.mem_map.2 ⟨b, hb, rfl⟩)
    · rw [hη]
      have : (1 + acc.u) ^ trees.length ≤ 2 := by linarith
      refine (mul_le_mul_of_nonneg_right this (by positivity)).trans (le_of_eq ?_)
      ring
  rcases h4 with ⟨-, hz⟩ | ⟨k, rfl, hk, -, hmax, -⟩
  · exfalso
    obtain ⟨p, hp⟩ := List.exists_mem_of_ne_nil _ hne
    have hpv := hps p hp
    obtain ⟨v, hv, hbig⟩ := probVector_big hpv
    obtain ⟨d, hd, rfl⟩ := List.mem_iff_getElem.1 hv
    have hdn : d < nClasses := by rw [← hpv.1]; exact hd
    have hpn : p ≠ [] := List.ne_nil_of_mem hv
    have e := h.quantize p _ (quantizeProbabilities_eq bits h.low h.high p hpn hpv.2.1 (probVector_le_one hpv)).1
    have h4' : 2 ^ 2 ≤ 2 ^ bits.toNat := Nat.pow_le_pow_right (by omega) (by have := h.low; omega)
    have hbyte := (quantizeByte_close bits h.low h.high p[d] (hpv.2.1 _ hv) (probVector_le_one hpv _ hv)).2.2.2 (by
      have hn2R : (nClasses : ℝ) < 2 * ((2 ^ bits.toNat - 2 : Nat) : ℝ) := by exact_mod_cast hn2
      have hv0 : 0 < p[d] := by
        by_contra h0
        have : p[d] = 0 := le_antisymm (not_lt.1 h0) (hpv.2.1 _ hv)
        rw [this, zero_mul] at hbig
        linarith
      have := mul_lt_mul_of_pos_left hn2R hv0
      linarith)
    have hbm : (quantizeByte (2 ^ bits.toNat - 2) p[d]).toNat ∈ (ps.map leafVal).map fun row => row.getD d 0 := by
      rw [List.map_map]
      refine List.mem_map.2 ⟨p, hp, ?_⟩
      simp [e, hd]
    obtain ⟨S, -, s0, -, s2, s3⟩ := tot d hdn
    have s4 := s2 _ hbm
    have s5 : (1 : ℝ) ≤ ((quantizeByte (2 ^ bits.toNat - 2) p[d]).toNat : ℝ) := by
      exact_mod_cast (show 1 ≤ (quantizeByte (2 ^ bits.toNat - 2) p[d]).toNat by omega)
    have s6 : (1 : ℝ) / 255 ≤ S := le_trans (by linarith) s4
    have s7 : (softTotal c32 (ps.map leafVal) d).val ≤ 0 := by
      have : softTotal c32 (ps.map leafVal) d ≤ c32.zero := hz d hdn
      have : (softTotal c32 (ps.map leafVal) d).val ≤ fl 0 := this
      rwa [fl_zero] at this
    have s8 := (abs_le.1 s3).1
    have c1 : ((trees.length : ℝ) + 1) / 2 ^ 23 ≤ 3 / 4 := by
      rw [div_le_iff₀ (by positivity)]
      linarith
    have c2 := mul_le_mul_of_nonneg_right c1 s0
    have c3 : (trees.length : ℝ) / 2 ^ 149 ≤ 2 ^ 22 / 2 ^ 149 := div_le_div_of_nonneg_right hNR (by positivity)
    have c4 : (2 : ℝ) ^ 22 / 2 ^ 149 < 1 / 1020 := by norm_num
    linarith
  · refine ⟨x, ps, k, hx, h5, rfl, hk, ?_⟩
    intro d hd
    obtain ⟨-, a1⟩ := soft_bytes bits h.low h.high nClasses leafVal h.quantize ps hne hps d hd
    obtain ⟨-, a2⟩ := soft_bytes bits h.low h.high nClasses leafVal h.quantize ps hne hps k hk
    obtain ⟨S, e1, s0, s1, -, s3⟩ := tot d hd
    obtain ⟨S', e2, s0', s1', -, s3'⟩ := tot k hk
    rw [e1] at a1
    rw [e2] at a2
    have hle : (softTotal c32 (ps.map leafVal) d).val ≤ (softTotal c32 (ps.map leafVal) k).val := hmax d hd
    have c0 : (0 : ℝ) ≤ (trees.length + 1) / 2 ^ 23 := by positivity
    have c1 := mul_le_mul_of_nonneg_left s1 c0
    have c2 := mul_le_mul_of_nonneg_left s1' c0
    have d1 := (abs_le.1 s3).1
    have d2 := (abs_le.1 s3').2
    have c3 : (trees.length : ℝ) / 2 ^ 149 ≤ 1 / 2 ^ 23 * trees.length := by
      rw [div_eq_mul_one_div, mul_comm]
      exact mul_le_mul_of_nonneg_right (by norm_num) hpos.le
    have key : S - S' ≤ 2 * ((trees.length + 2) / 2 ^ 23) * trees.length := by
      have : ((trees.length : ℝ) + 2) / 2 ^ 23 * trees.length = (trees.length + 1) / 2 ^ 23 * trees.length + 1 / 2 ^ 23 * trees.length := by ring
      linarith
    have key' : S / trees.length - S' / trees.length ≤ 2 * ((trees.length + 2) / 2 ^ 23) := by
      rw [← sub_div, div_le_iff₀ hpos]
      exact key
    have f1 := (abs_le.1 a1).1
    have f2 := (abs_le.1 a2).2
    linarith

/-! ### Agreement with the comparisons of the trained trees -/

/-- What a trained tree compares at a node: go left when the feature is at most the threshold. -/
def trainedLess (row : List ℚ) (f : Int) (t : ℚ) : Bool := decide (row.getD f.toNat 0 ≤ t)

/-- No feature of the row is too close to a threshold it is compared with. -/
def Clear {V : Type} (row : List ℚ) (src : List (SrcNode ℚ V)) : Prop :=
  ∀ n ∈ src, n.isLeaf = false → 6 / 10 ^ 7 + (|row.getD n.feature.toNat 0| + |n.threshold|) / 2 ^ 24 < |row.getD n.feature.toNat 0 - n.threshold|

theorem srcPredict_congr {Θ V : Type} {go go' : Int → Θ → Bool} {src : List (SrcNode Θ V)} (h : ∀ n ∈ src, n.isLeaf = false → go n.feature n.threshold = go' n.feature n.threshold) : srcPredict go src = srcPredict go' src := by
  have key : ∀ fuel i, srcWalk go src fuel i = srcWalk go' src fuel i := by
    intro fuel
    induction fuel with
    | zero => intro i; rfl
    | succ k ih =>
      intro i
      unfold srcWalk
      cases hg : src[i]? with
      | none => rfl
      | some n =>
        simp only
        cases hl : n.isLeaf with
        | true => rfl
        | false =>
          rw [h n (List.mem_of_getElem? hg) hl]
          exact ih _
  exact key _ _

theorem real_fixed (d : Nat) (v : ℚ) : |((fixedValue d v : ℚ) : ℝ) - (v : ℝ)| ≤ 1 / (2 * 10 ^ d) := by
  have h' : ((|fixedValue d v - v| : ℚ) : ℝ) ≤ ((1 / (2 * 10 ^ d) : ℚ) : ℝ) := by exact_mod_cast fixedValue_close d v
  push_cast at h'
  exact h'

theorem abs_fixed (d : Nat) (v : ℚ) : |((fixedValue d v : ℚ) : ℝ)| ≤ |(v : ℝ)| + 1 / (2 * 10 ^ d) := by
  have := abs_add_le (v : ℝ) ((fixedValue d v : ℚ) - v)
  rw [add_sub_cancel] at this
  linarith [real_fixed d v]

/-- **C122** (`float` features) when no feature of the row is within `6e-7` (and `2^-24` of the magnitudes) of a threshold, every trained tree gives the same leaf with its own comparison of the exact numbers as with the comparison of the
generated code, where the feature has eight printed decimals, the threshold six, both are rounded to `float`, and "at most" became "less". -/
theorem C122_same_leaf {V : Type} (nFeatures : Nat) (row : List ℚ) (hlen : row.length = nFeatures) (src : List (SrcNode ℚ V)) (hfeat : ∀ n ∈ src, n.isLeaf = false → 0 ≤ n.feature ∧ n.feature < nFeatures)
    (hclear : Clear row src) (x : Input F32) (hx : rowInput c32 f32Read "float".toList row = some x) : srcPredict (x.less c32) src = srcPredict (trainedLess row) src := by
  unfold rowInput at hx
  rw [if_pos rfl] at hx
  cases hx
  refine srcPredict_congr ?_
  intro n hn hl
  obtain ⟨f0, f1⟩ := hfeat n hn hl
  have hc := hclear n hn hl
  have hi : n.feature.toNat < row.length := by omega
  have ev : row.getD n.feature.toNat 0 = row[n.feature.toNat] := by simp [hi]
  show decide (((row.map (seen f32Read)).getD n.feature.toNat c32.zero).val < (c32.lit (decide (n.threshold < 0)) |fixedValue 6 n.threshold|).val) = decide (row.getD n.feature.toNat 0 ≤ n.threshold)
  have sg := fixedValue_sign n.threshold
  rw [lit32_eq _ _ sg.1 sg.2]
  have ex : (row.map (seen f32Read)).getD n.feature.toNat c32.zero = seen f32Read row[n.feature.toNat] := by simp [hi]
  rw [ex, ev]
  rw [ev] at hc
  generalize row[n.feature.toNat] = v at hc ⊢
  generalize n.threshold = t at hc ⊢
  show decide (fl ((fixedValue 8 v : ℚ) : ℝ) < fl ((fixedValue 6 t : ℚ) : ℝ)) = decide (v ≤ t)
  have hcR : (6 : ℝ) / 10 ^ 7 + (|(v : ℝ)| + |(t : ℝ)|) / 2 ^ 24 < |(v : ℝ) - t| := by
    have h' : ((6 / 10 ^ 7 + (|v| + |t|) / 2 ^ 24 : ℚ) : ℝ) < ((|v - t| : ℚ) : ℝ) := by exact_mod_cast hc
    push_cast at h'
    exact h'
  have a1 := fl_error_any ((fixedValue 8 v : ℚ) : ℝ)
  have a2 := fl_error_any ((fixedValue 6 t : ℚ) : ℝ)
  have b1 := real_fixed 8 v
  have b2 := real_fixed 6 t
  have c1 := abs_fixed 8 v
  have c2 := abs_fixed 6 t
  generalize ((fixedValue 8 v : ℚ) : ℝ) = v' at *
  generalize ((fixedValue 6 t : ℚ) : ℝ) = t' at *
  have d1 : |fl v' - v| ≤ 1 / 2 ^ 24 * |(v : ℝ)| + 1 / 10 ^ 8 := by
    have := abs_add_le (fl v' - v') (v' - v)
    rw [sub_add_sub_cancel] at this
    have e := mul_le_mul_of_nonneg_left c1 (show (0 : ℝ) ≤ 1 / 2 ^ 24 by positivity)
    have g : (1 : ℝ) / 2 ^ 24 * (1 / (2 * 10 ^ 8)) + 1 / 2 ^ 150 + 1 / (2 * 10 ^ 8) ≤ 1 / 10 ^ 8 := by norm_num
    rw [mul_add] at e
    linarith
  have d2 : |fl t' - t| ≤ 1 / 2 ^ 24 * |(t : ℝ)| + 51 / 10 ^ 8 := by
    have := abs_add_le (fl t' - t') (t' - t)
    rw [sub_add_sub_cancel] at this
    have e := mul_le_mul_of_nonneg_left c2 (show (0 : ℝ) ≤ 1 / 2 ^ 24 by positivity)
    have g : (1 : ℝ) / 2 ^ 24 * (1 / (2 * 10 ^ 6)) + 1 / 2 ^ 150 + 1 / (2 * 10 ^ 6) ≤ 51 / 10 ^ 8 := by norm_num
    rw [mul_add] at e
    linarith
  have m : (|(v : ℝ)| + |(t : ℝ)|) / 2 ^ 24 = 1 / 2 ^ 24 * |(v : ℝ)| + 1 / 2 ^ 24 * |(t : ℝ)| := by ring
  rw [m] at hcR
  rw [decide_eq_decide]
  have d1' := abs_le.1 d1
  have d2' := abs_le.1 d2
  have hvt : (v ≤ t) ↔ ((v : ℝ) ≤ t) := by norm_cast
  rw [hvt]
  constructor
  · intro hlt
    by_contra hgt
    rw [abs_of_pos (show (0 : ℝ) < (v : ℝ) - t by linarith)] at hcR
    linarith [d1'.1, d2'.2]
  · intro hle
    rw [abs_of_nonpos (show (v : ℝ) - t ≤ 0 by linarith)] at hcR
    linarith [d1'.2, d2'.1]

/-! ### The loadable form -/

/-- **C122** (loadable classifier, class probabilities) the same for `method='loadable'`: up to 127 features and classes, 32768 decision nodes and leaves, thresholds in the range of `int16_t`. -/
theorem C122_loadable_proba {nFeatures nClasses : Nat} {bits : Int} {leafVal : List ℝ → List Nat} {trees : List (List (SrcNode ℚ (List ℝ)))} (h : ProbOk "int16_t".toList nFeatures nClasses bits leafVal trees)
    (hnf2 : nFeatures ≤ 127) (hnc : nClasses ≤ 127)
    (hthr : ∀ src ∈ trees, ∀ row ∈ src, row.isLeaf = false → -32768 ≤ trunc row.threshold ∧ trunc row.threshold ≤ 32767)
    (hsize : (trees.map (fun src => if src.length = 1 then 1 else src.countP (fun n => !n.isLeaf))).sum ≤ 32768) (hleaves : (trees.map (fun src => src.countP (fun n => n.isLeaf))).sum ≤ 32768)
    (decode : List Nat → Nat → Option F32) (nan : F32) (fuel depth : Nat) (hfu : nFeatures < fuel) (X : List (List ℚ)) (hX : RowsOk c32 f32Read "int16_t".toList nFeatures X) :
    ∃ f text, convertForest 0 leafVal trees = some f ∧
      generateLoadableText f "mytree".toList nFeatures nClasses bits "int16_t".toList true true "static const".toList (leafBytesSoft f.leaves) = some text ∧
      ∃ m, pyProba c32 decode nan fuel (depth + 3) f32Read f32Val (saveText text) "int16_t".toList nFeatures nClasses X = some m ∧
        ∀ (i c : Nat) (row : List ℚ), X[i]? = some row → c < nClasses → ∃ (features : List Int) (ps : List (List ℝ)) (q : ℚ), rowInput c32 f32Read "int16_t".toList row = some (.ints features) ∧
          List.Forall₂ (fun src p => srcPredict (cmpInt features trunc) src = some p) trees ps ∧ m i c = some q ∧
          |(q : ℝ) - meanAt ps c| ≤ softTol ℝ bits + (trees.length + 3) / 2 ^ 23 + 1 / (2 * 10 ^ 6) := by
  obtain ⟨f, -, hf, hm, hrl, -, hrow, hbytes, hsim⟩ := prob_model h
  obtain ⟨f', hf', hnodes, hok⟩ := C02_convert_refs_valid 0 leafVal trees h.nonempty h.wf
  rw [hf] at hf'; cases hf'
  obtain ⟨f', hf', hprov, hlen, hll, -⟩ := C02_convert_provenance 0 leafVal trees h.nonempty h.wf
  rw [hf] at hf'; cases hf'
  have hN := h.count
  have hns : f.nodes.length ≤ 32768 := by omega
  have hpk := packs_of_source 0 trunc trees nFeatures f hok hprov h.positive hnf2 (fun src hs row hr hl => ⟨(h.feature src hs row hr hl).1, (h.feature src hs row hr hl).2, hthr src hs row hr hl⟩) (by simp [trunc]) hns
  obtain ⟨cs, hcs⟩ := C04_generation_accepts trunc f hok hns (by omega)
  obtain ⟨text, htext⟩ := generateLoadableText_some f "mytree".toList (by decide +kernel) nFeatures nClasses bits "int16_t".toList true true "static const".toList (leafBytesSoft f.leaves) cs hcs
  have hlv : f.leaves ≠ [] := by
    intro e
    obtain ⟨r, hr⟩ := List.exists_mem_of_ne_nil _ hm.roots
    have := (leafIndex_spec (fun _ _ => true) hok hr).2
    rw [e] at this
    exact absurd this (by simp)
  have hone := h.one
  have ha : LoadArgs f "mytree".toList nFeatures nClasses ["static".toList, "const".toList] (leafBytesSoft f.leaves) := by
    refine ⟨by decide +kernel, by decide +kernel, by decide +kernel, staticConst_mods, hnodes, ?_, ?_, hm.roots, ?_, ?_, ?_, by omega, by omega, hbytes, by omega, by omega⟩
    · intro n hn; have := hpk.feature n hn; omega
    · intro n hn; have := hpk.thresh n hn; omega
    · intro r hr; have := hok.roots r hr; omega
    · intro e
      obtain ⟨row, hr⟩ := List.exists_mem_of_ne_nil _ hlv
      have h1 := (hrow row hr).1
      unfold leafBytesSoft at e
      rw [List.map_eq_nil_iff, List.flatten_eq_nil_iff] at e
      rw [e row hr] at h1
      simp at h1
      omega
    · intro b hb
      unfold leafBytesSoft at hb
      obtain ⟨z, -, rfl⟩ := List.mem_map.1 hb
      omega
  obtain ⟨m, h2, h3⟩ := C110_loadable_proba c32 decode nan fuel depth f32Read f32Val f nFeatures nClasses bits (leafBytesSoft f.leaves) ha hone h.positive hfu text htext
  refine ⟨f, text, hf, htext, ?_⟩
  have key : ∀ features : List Int, features.length = nFeatures → ∃ (ps : List (List ℝ)) (out : List F32), List.Forall₂ (fun src p => srcPredict (cmpInt features trunc) src = some p) trees ps ∧
      predictProba treeOps m features nClasses = some (.ok out) ∧ ∀ c p, c < nClasses → out[c]? = some p → |p.val - meanAt ps c| ≤ softTol ℝ bits + (trees.length + 3) / 2 ^ 23 := by
    intro features hfl
    have hlow := h.low
    have hhigh := h.high
    have hd : Deployed trunc f (leafBytesSoft f.leaves) bits nClasses features m := ⟨hok, by rw [hfl]; exact h2, by rw [hfl]; exact hpk, by omega, by omega, by omega⟩
    obtain ⟨_, _, e3, e4, e5, e6, e7⟩ := hd.eqs
    have hncN : m.nClasses.toNat = nClasses := by rw [e7]; simp
    have hlb : m.leafBits = 8 := by rw [e5]; split <;> omega
    have hmlen : m.roots.length = trees.length := by rw [e3]; simp [hrl]
    have hroots : m.roots ≠ [] := by
      intro e
      rw [e] at hmlen
      exact h.nonempty (List.length_eq_zero_iff.mp hmlen.symm)
    obtain ⟨go, hgo⟩ : ∃ go : Int → ℚ → Bool, cmpInt features trunc = go := ⟨_, rfl⟩
    obtain ⟨rowOf, hrowOf⟩ : ∃ rowOf : Nat → List Nat, rowOf = fun i => (f.leaves[i]?).getD [] := ⟨_, rfl⟩
    have hidx : ∀ r ∈ f.roots, leafIndex go f r < f.leaves.length := fun r hr => (leafIndex_spec go hok hr).2
    obtain ⟨ps, g1, g2, g3, g4⟩ := hsim go ((f.roots.map (leafIndex go f)).map rowOf) (by
      rw [List.map_map, List.forall₂_map_right_iff]
      refine List.forall₂_same.2 ?_
      intro r hr
      unfold forestPredict
      rw [(leafIndex_spec go hok hr).1, Option.bind_some, hrowOf]
      have := hidx r hr
      simp [this])
    have hne : ps ≠ [] := by
      intro e
      rw [e] at g3
      exact h.nonempty (List.length_eq_zero_iff.1 g3.symm)
    obtain ⟨out, o1, -, o3⟩ := C103_soft_proba treeArith (by norm_num) m features (f.roots.map (leafIndex go f)) (fun i c => ((rowOf i).getD c 0) % 256) hlb hroots (by omega) (softFits32 (by omega)) (by
      rw [← hgo]; exact hd.trees) (by
      intro i hi c hc
      rw [hncN] at hc ⊢
      have hilt : i < f.leaves.length := by
        obtain ⟨r, hr, rfl⟩ := List.mem_map.1 hi
        exact hidx r hr
      rw [e4]
      unfold leafBytesSoft
      rw [List.getElem?_map, flatten_get f.leaves nClasses (fun r hr => (hrow r hr).1) i c hc]
      have hr := (hrow _ (List.getElem_mem hilt)).1
      rw [List.getElem?_eq_getElem hilt, Option.bind_some, List.getElem?_eq_getElem (by omega), hrowOf]
      simp [hilt, hr, hc]) (by intro i c; show _ % 256 ≤ 255; omega)
    have emod : ∀ c, (f.roots.map (leafIndex go f)).map (fun i => ((rowOf i).getD c 0) % 256) = (ps.map leafVal).map fun row => row.getD c 0 := by
      intro c
      rw [← g2, List.map_map, List.map_map, List.map_map]
      refine List.map_congr_left ?_
      intro r hr
      have hi := hidx r hr
      have hm' : rowOf (leafIndex go f r) ∈ f.leaves := by
        rw [hrowOf]
        simp [hi]
      show (rowOf (leafIndex go f r)).getD c 0 % 256 = (rowOf (leafIndex go f r)).getD c 0
      refine Nat.mod_eq_of_lt ?_
      by_cases hc : c < (rowOf (leafIndex go f r)).length
      · have : (rowOf (leafIndex go f r)).getD c 0 = (rowOf (leafIndex go f r))[c] := by simp [hc]
        rw [this]
        exact (hrow _ hm').2 _ (List.getElem_mem hc)
      · have : (rowOf (leafIndex go f r)).getD c 0 = 0 := by simp [Nat.not_lt.1 hc]
        rw [this]
        omega
    rw [e7] at o1
    refine ⟨ps, out, by rw [hgo]; exact g1, o1, ?_⟩
    intro c p hc hp
    obtain ⟨-, b0⟩ := o3 c p hp
    rw [emod c] at b0
    obtain ⟨b1, b2⟩ := soft_bytes bits h.low h.high nClasses leafVal h.quantize ps hne g4 c hc
    have b3 := b0.trans (softErrAt_le _ (softMean_range _ b1).2)
    simp only [List.length_map, hrl] at b3
    have b5 := b3.trans (C103_soft_err32 hN).2.1
    change |p.val - _| ≤ _ at b5
    have t := abs_add_le (p.val - softMean ((ps.map leafVal).map fun row => row.getD c 0)) (softMean ((ps.map leafVal).map fun row => row.getD c 0) - meanAt ps c)
    rw [sub_add_sub_cancel] at t
    linarith
  have hlen' : ∀ row ∈ X, ∀ features : List Int, rowInput c32 f32Read "int16_t".toList row = some (.ints features) → features.length = nFeatures := by
    intro row hr features hx
    obtain ⟨l, h4, h5⟩ := rowInput_int16 hx
    cases h4
    rw [h5, (hX.row row hr).1]
  obtain ⟨mat, h4, h5⟩ := h3 X hX (by
    intro row hr features hx
    obtain ⟨ps, out, -, o2, -⟩ := key features (hlen' row hr features hx)
    exact ⟨out, o2⟩)
  refine ⟨mat, h4, ?_⟩
  intro i c row hi hc
  obtain ⟨features, out, y, hx, o2, o3, o4⟩ := h5 i c row hi hc
  obtain ⟨ps, out', k1, k2, k3⟩ := key features (hlen' row (List.mem_of_getElem? hi) features hx)
  rw [show c32.toFOps = treeOps from rfl, k2] at o2
  cases o2
  refine ⟨features, ps, _, hx, k1, o4, ?_⟩
  have b1 := k3 c y hc o3
  have b2 := printed_close y
  have t := abs_add_le (((fixedValue 6 (f32Val y) : ℚ) : ℝ) - y.val) (y.val - meanAt ps c)
  rw [sub_add_sub_cancel] at t
  linarith

/-! ### Against the trained model itself -/

theorem forall₂_src {V : Type} {go go' : Int → ℚ → Bool} {trees : List (List (SrcNode ℚ V))} {vs : List V} (h : List.Forall₂ (fun src v => srcPredict go src = some v) trees vs)
    (he : ∀ src ∈ trees, srcPredict go src = srcPredict go' src) : List.Forall₂ (fun src v => srcPredict go' src = some v) trees vs := by
  induction h with
  | nil => exact .nil
  | cons h1 _ ih => exact .cons (by rw [← he _ (by simp)]; exact h1) (ih fun src hs => he src (by simp [hs]))

theorem forall₂_mem {α β : Type} {R R' : α → β → Prop} {l : List α} {l' : List β} (h : List.Forall₂ R l l') (hi : ∀ a ∈ l, ∀ b, R a b → R' a b) : List.Forall₂ R' l l' := by
  induction h with
  | nil => exact .nil
  | cons h1 _ ih => exact .cons (hi _ (by simp) _ h1) (ih fun a ha b hb => hi a (by simp [ha]) b hb)

theorem rowsOk_float {nFeatures : Nat} {X : List (List ℚ)} (hf : Fits X) (hl : ∀ row ∈ X, row.length = nFeatures) : RowsOk c32 f32Read "float".toList nFeatures X :=
  ⟨hf, fun row hr => ⟨hl row hr, by unfold rowInput; rw [if_pos rfl]; rfl⟩⟩

/-- **C122** (classifier against the trained model) with `dtype='float'` and rows none of whose features is within `6e-7` (and `2^-24` of the magnitudes) of a threshold, `predict(X)` returns the plurality of the classes that the trained
trees themselves give. -/
theorem C122_trained_predict {V : Type} {nFeatures : Nat} {trees : List (List (SrcNode ℚ V))} (h : SourceOk "float".toList nFeatures trees) (leafVal : V → Nat) (nClasses : Nat) (hn : nClasses ≤ 2147483647)
    (hleaf : ∀ src ∈ trees, ∀ row ∈ src, row.isLeaf = true → leafVal row.value < nClasses) (decode : List Nat → Nat → Option F32) (nan : F32) (fuel depth : Nat) (hfu : nClasses < fuel) (hfu' : nFeatures < fuel)
    (X : List (List ℚ)) (hf : Fits X) (hl : ∀ row ∈ X, row.length = nFeatures) (hclear : ∀ row ∈ X, ∀ src ∈ trees, Clear row src) :
    ∃ f text, convertForest 0 leafVal trees = some f ∧
      generateInlined f "mytree".toList nClasses 0 "float".toList true true "static const".toList (fun (c : Nat) => (c : ℚ)) (leafBytesHard f.leaves) = some text ∧
      ∃ preds, pyPredict c32 decode nan fuel (depth + 3) f32Read (saveText text) "float".toList nFeatures X = some preds ∧
        List.Forall₂ (fun row (c : Int) => ∃ (vs : List V) (k : Nat), List.Forall₂ (fun src v => srcPredict (trainedLess row) src = some v) trees vs ∧ Plurality (vs.map leafVal) nClasses k ∧ c = k) X preds := by
  obtain ⟨f, text, h1, h2, preds, h3, h4⟩ := C122_inline_predict h leafVal nClasses hn hleaf decode nan fuel depth hfu hfu' X (rowsOk_float hf hl)
  refine ⟨f, text, h1, h2, preds, h3, forall₂_mem h4 ?_⟩
  rintro row hr c ⟨x, vs, k, hx, h5, h6, h7⟩
  exact ⟨vs, k, forall₂_src h5 fun src hs => C122_same_leaf nFeatures row (hl row hr) src (h.feature src hs) (hclear row hr src hs) x hx, h6, h7⟩

/-- **C122** (regressor against the trained model) for such rows `predict(X)` returns the mean of the values that the trained trees themselves give, up to one millionth and the rounding of `float`. -/
theorem C122_trained_regress {nFeatures : Nat} {trees : List (List (SrcNode ℚ ℚ))} (h : SourceOk "float".toList nFeatures trees) (hleaf : ∀ src ∈ trees, ∀ row ∈ src, |row.value| ≤ 2 ^ 68)
    (decode : List Nat → Nat → Option F32) (nan : F32) (fuel depth : Nat) (hfu' : nFeatures < fuel)
    (X : List (List ℚ)) (hf : Fits X) (hl : ∀ row ∈ X, row.length = nFeatures) (hclear : ∀ row ∈ X, ∀ src ∈ trees, Clear row src) :
    ∃ f text, convertForest 0 id trees = some f ∧
      generateInlined f "mytree".toList 0 32 "float".toList false true "static const".toList id (leafBytes32 f.leaves) = some text ∧
      ∃ preds, pyRegress c32 decode nan fuel (depth + 3) f32Read f32Val (saveText text) "float".toList nFeatures X = some preds ∧
        List.Forall₂ (fun row (q : ℚ) => ∃ vals : List ℚ, List.Forall₂ (fun src v => srcPredict (trainedLess row) src = some v) trees vals ∧
          |(q : ℝ) - meanOf (vals.map fun v : ℚ => (v : ℝ))| ≤ (trees.length + 2) / 2 ^ 23 * (absMean (vals.map fun v : ℚ => (v : ℝ)) + 1 / (2 * 10 ^ 6)) + 1 / 2 ^ 148 + 1 / 10 ^ 6) X preds := by
  obtain ⟨f, text, h1, h2, preds, h3, h4⟩ := C122_inline_regress h hleaf decode nan fuel depth hfu' X (rowsOk_float hf hl)
  refine ⟨f, text, h1, h2, preds, h3, forall₂_mem h4 ?_⟩
  rintro row hr q ⟨x, vals, hx, h5, h6⟩
  exact ⟨vals, forall₂_src h5 fun src hs => C122_same_leaf nFeatures row (hl row hr) src (h.feature src hs) (hclear row hr src hs) x hx, h6⟩

/-! ### Integer features -/

/-- Whole numbers below `2^24` arrive as they are. -/
theorem seen_int (z : Int) (hz : |z| < 2 ^ 24) : c32.toInt (seen f32Read (z : ℚ)) = some z := by
  have hf : fixedValue 8 (z : ℚ) = z := by
    have := fixedValue_exact 8 (z * 10 ^ 8)
    have e : ((z * 10 ^ 8 : Int) : ℚ) / 10 ^ 8 = z := by push_cast; field_simp; norm_num
    rwa [e] at this
  have e : (seen f32Read (z : ℚ)).val = z := by
    show fl ((fixedValue 8 (z : ℚ) : ℚ) : ℝ) = z
    rw [hf]
    have := fl_exact z 0 (by exact_mod_cast hz) (by norm_num)
    simpa using this
  show some (if 0 ≤ (seen f32Read (z : ℚ)).val then ⌊(seen f32Read (z : ℚ)).val⌋ else ⌈(seen f32Read (z : ℚ)).val⌉) = some z
  rw [e]
  simp

/-- A row of whole numbers below `2^24` that the type holds is what the generated code gets. -/
theorem int_row {dtype : List Char} {r : Int × Int} (hr : intRange dtype = some r) (zs : List Int) (hz : ∀ z ∈ zs, |z| < 2 ^ 24 ∧ r.1 ≤ z ∧ z ≤ r.2) :
    rowInput c32 f32Read dtype (zs.map fun z : Int => (z : ℚ)) = some (.ints zs) := by
  have hnf : dtype ≠ "float".toList := notFloat_of_range (by rw [hr]; rfl)
  unfold rowInput
  rw [if_neg hnf, hr]
  simp only
  have : ∀ l : List Int, (∀ z ∈ l, |z| < 2 ^ 24 ∧ r.1 ≤ z ∧ z ≤ r.2) →
      mapOpt (fun x => (c32.toInt (seen f32Read x)).bind fun z => if r.1 ≤ z ∧ z ≤ r.2 then some z else none) (l.map fun z : Int => (z : ℚ)) = some l := by
    intro l
    induction l with
    | nil => intro _; rfl
    | cons z l ih =>
      intro hl
      obtain ⟨h1, h2⟩ := hl z (by simp)
      have ih' := ih fun y hy => hl y (by simp [hy])
      rw [List.map_cons]
      unfold mapOpt
      rw [seen_int z h1, Option.bind_some, if_pos h2, ih']
      rfl
  rw [this zs hz]
  rfl

/-- A feature that is the integer part of a threshold it is compared with, where the threshold is not negative or is whole: the trained tree goes left, the generated code right. -/
def Hits {V : Type} (zs : List Int) (src : List (SrcNode ℚ V)) : Prop :=
  ∃ n ∈ src, n.isLeaf = false ∧ zs.getD n.feature.toNat 0 = ⌊n.threshold⌋ ∧ (0 ≤ n.threshold ∨ (⌊n.threshold⌋ : ℚ) = n.threshold)

theorem C122_same_leaf_int {V : Type} (zs : List Int) (src : List (SrcNode ℚ V)) (h : ¬ Hits zs src) : srcPredict ((Input.ints zs : Input F32).less c32) src = srcPredict (trainedLess (zs.map fun z : Int => (z : ℚ))) src := by
  refine srcPredict_congr ?_
  intro n hn hl
  have hno : ¬ (zs.getD n.feature.toNat 0 = ⌊n.threshold⌋ ∧ (0 ≤ n.threshold ∨ (⌊n.threshold⌋ : ℚ) = n.threshold)) := fun hh => h ⟨n, hn, hl, hh⟩
  rw [← C06_branch_disagreement_exact, not_not] at hno
  have e : (zs.map fun z : Int => (z : ℚ)).getD n.feature.toNat 0 = ((zs.getD n.feature.toNat 0 : Int) : ℚ) := by
    by_cases hi : n.feature.toNat < zs.length
    · simp [hi]
    · simp [Nat.not_lt.1 hi]
  show decide (zs.getD n.feature.toNat 0 < trunc n.threshold) = decide ((zs.map fun z : Int => (z : ℚ)).getD n.feature.toNat 0 ≤ n.threshold)
  rw [e, decide_eq_decide]
  exact hno

/-- **C122** (integer features, in part) rows of whole numbers below `2^24` that the feature type holds and that hit no threshold: `predict(X)` returns the plurality of the classes that the trained trees themselves give. Missing: the rows
that hit a threshold, where the generated comparison takes the other branch (`C06_branch_disagreement_exact`, `C122_hits_refuted`). -/
theorem C122_integer_predict_partial {V : Type} {dtype : List Char} {r : Int × Int} (hr : intRange dtype = some r) {nFeatures : Nat} {trees : List (List (SrcNode ℚ V))} (h : SourceOk dtype nFeatures trees) (leafVal : V → Nat) (nClasses : Nat)
    (hn : nClasses ≤ 2147483647) (hleaf : ∀ src ∈ trees, ∀ row ∈ src, row.isLeaf = true → leafVal row.value < nClasses) (decode : List Nat → Nat → Option F32) (nan : F32) (fuel depth : Nat) (hfu : nClasses < fuel) (hfu' : nFeatures < fuel)
    (Z : List (List Int)) (hf : Fits (Z.map fun zs => zs.map fun z : Int => (z : ℚ))) (hl : ∀ zs ∈ Z, zs.length = nFeatures ∧ ∀ z ∈ zs, |z| < 2 ^ 24 ∧ r.1 ≤ z ∧ z ≤ r.2) (hclear : ∀ zs ∈ Z, ∀ src ∈ trees, ¬ Hits zs src) :
    ∃ f text, convertForest 0 leafVal trees = some f ∧
      generateInlined f "mytree".toList nClasses 0 dtype true true "static const".toList (fun (c : Nat) => (c : ℚ)) (leafBytesHard f.leaves) = some text ∧
      ∃ preds, pyPredict c32 decode nan fuel (depth + 3) f32Read (saveText text) dtype nFeatures (Z.map fun zs => zs.map fun z : Int => (z : ℚ)) = some preds ∧
        List.Forall₂ (fun zs (c : Int) => ∃ (vs : List V) (k : Nat), List.Forall₂ (fun src v => srcPredict (trainedLess (zs.map fun z : Int => (z : ℚ))) src = some v) trees vs ∧ Plurality (vs.map leafVal) nClasses k ∧ c = k) Z preds := by
  obtain ⟨f, text, h1, h2, preds, h3, h4⟩ := C122_inline_predict h leafVal nClasses hn hleaf decode nan fuel depth hfu hfu' (Z.map fun zs => zs.map fun z : Int => (z : ℚ)) ⟨hf, by
    intro row hrow
    obtain ⟨zs, hzs, rfl⟩ := List.mem_map.1 hrow
    refine ⟨by rw [List.length_map]; exact (hl zs hzs).1, ?_⟩
    rw [int_row hr zs (hl zs hzs).2]
    rfl⟩
  rw [List.forall₂_map_left_iff] at h4
  refine ⟨f, text, h1, h2, preds, h3, forall₂_mem h4 ?_⟩
  rintro zs hzs c ⟨x, vs, k, hx, h5, h6, h7⟩
  rw [int_row hr zs (hl zs hzs).2] at hx
  cases hx
  exact ⟨vs, k, forall₂_src h5 fun src hs => C122_same_leaf_int zs src (hclear zs hzs src hs), h6, h7⟩

/-- **C122, refuted without that condition**: one trained tree with the threshold 10.5, default `int16_t` features, the row (10): the trained tree says class 0, `predict` returns 1. -/
theorem C122_hits_refuted (decode : List Nat → Nat → Option F32) (nan : F32) : ∃ (src : List (SrcNode ℚ Nat)) (f : Forest ℚ Nat) (text : List Char), SourceOk "int16_t".toList 1 [src] ∧ convertForest 0 id [src] = some f ∧
    generateInlined f "mytree".toList 2 0 "int16_t".toList true true "static const".toList (fun (c : Nat) => (c : ℚ)) (leafBytesHard f.leaves) = some text ∧
    srcPredict (trainedLess [10]) src = some 0 ∧ pyPredict c32 decode nan 3 3 f32Read (saveText text) "int16_t".toList 1 [[10]] = some [1] := by
  have hwf : SrcWF ([⟨1, 2, 0, 21/2, 0⟩, ⟨-1, -1, -2, -2, 0⟩, ⟨-1, -1, -2, -2, 1⟩] : List (SrcNode ℚ Nat)) := by
    constructor
    · simp
    · intro i n hn hl
      match i with
      | 0 | 1 | 2 => simp at hn; subst hn; revert hl; simp [SrcNode.isLeaf]
      | i + 3 => simp at hn
    · have : childRefs ([⟨1, 2, 0, 21/2, 0⟩, ⟨-1, -1, -2, -2, 0⟩, ⟨-1, -1, -2, -2, 1⟩] : List (SrcNode ℚ Nat)) = (List.range' 1 (3 - 1)).map Int.ofNat := by decide
      rw [this]
      rfl
  have hs : SourceOk "int16_t".toList 1 [([⟨1, 2, 0, 21/2, 0⟩, ⟨-1, -1, -2, -2, 0⟩, ⟨-1, -1, -2, -2, 1⟩] : List (SrcNode ℚ Nat))] :=
    ⟨int16_type, by omega, by omega, by simp, by simpa using hwf, by simp, by decide +kernel, fun _ => by decide +kernel⟩
  have hrow := int_row (dtype := "int16_t".toList) (r := (-32768, 32767)) (by decide +kernel) [10] (by simp)
  have hrow' : rowInput c32 f32Read "int16_t".toList [10] = some (.ints [10]) := by simpa using hrow
  obtain ⟨f, text, h1, h2, preds, h3, h4⟩ := C122_inline_predict hs id 2 (by omega) (by decide +kernel) decode nan 3 0 (by omega) (by omega) [[10]] ⟨by
    intro i row h
    match i, h with
    | 0, h => cases h; decide +kernel, by
    intro row hr
    simp at hr
    subst hr
    exact ⟨rfl, by rw [hrow']; rfl⟩⟩
  refine ⟨_, f, text, hs, h1, h2, by decide +kernel, ?_⟩
  match preds, h4 with
  | [c], .cons ⟨x, vs, k, hx, h5, h6, h7⟩ .nil =>
    rw [hrow'] at hx
    cases hx
    match vs, h5 with
    | [v], .cons hv .nil =>
      have e : srcPredict ((Input.ints [10] : Input F32).less c32) ([⟨1, 2, 0, 21/2, 0⟩, ⟨-1, -1, -2, -2, 0⟩, ⟨-1, -1, -2, -2, 1⟩] : List (SrcNode ℚ Nat)) = some 1 := by
        have : (Input.ints [10] : Input F32).less c32 = fun f t => decide (([10] : List Int).getD f.toNat 0 < trunc t) := rfl
        rw [this]
        decide +kernel
      rw [e] at hv
      cases hv
      have hk : k = 1 := by
        obtain ⟨a, b, -⟩ := h6
        have := b 1 (by omega)
        match k, a with
        | 0, _ => simp at this
        | 1, _ => rfl
      rw [h3, h7, hk]
      rfl

/-! ### Non-vacuity -/

theorem float_type : DType "float".toList := ⟨by decide +kernel, by unfold NumType; decide +kernel⟩

/-- Two regression trees with `float` features. -/
theorem exReg_ok : SourceOk "float".toList 2 [exReg, exReg] :=
  ⟨float_type, by omega, by omega, by simp, exReg_wf, by simp, by decide +kernel, fun h => absurd rfl h⟩

/-- The theorem against the trained model applies: for the row (7.25, -9) both trees give 1/3, and Python gets 1/3 up to three millionths. -/
example (decode : List Nat → Nat → Option F32) (nan : F32) : ∃ (text : List Char) (q : ℚ),
    (convertForest 0 id [exReg, exReg]).bind (fun f => generateInlined f "mytree".toList 0 32 "float".toList false true "static const".toList id (leafBytes32 f.leaves)) = some text ∧
    pyRegress c32 decode nan 3 3 f32Read f32Val (saveText text) "float".toList 2 [[29 / 4, -9]] = some [q] ∧ |(q : ℝ) - 1 / 3| ≤ 3 / 10 ^ 6 := by
  obtain ⟨f, text, h1, h2, preds, h3, h4⟩ := C122_trained_regress exReg_ok (by decide +kernel) decode nan 3 0 (by omega) [[29 / 4, -9]] (by
    intro i row h
    match i, h with
    | 0, h => cases h; decide +kernel) (by simp) (by unfold Clear; decide +kernel)
  match preds, h4 with
  | [q], .cons ⟨vals, h5, h6⟩ .nil =>
    refine ⟨text, q, by rw [h1, Option.bind_some, h2], h3, ?_⟩
    have e : srcPredict (trainedLess [29 / 4, -9]) exReg = some (1/3) := by decide +kernel
    match vals, h5 with
    | [a, b], .cons ha (.cons hb .nil) =>
      rw [e] at ha hb
      cases ha
      cases hb
      have hm : meanOf ([(1/3 : ℚ), 1/3].map fun v : ℚ => (v : ℝ)) = 1 / 3 := by norm_num [meanOf]
      have hs : absMean ([(1/3 : ℚ), 1/3].map fun v : ℚ => (v : ℝ)) = 1 / 3 := by norm_num [absMean, absSum]
      rw [hm, hs] at h6
      refine h6.trans ?_
      norm_num

/-- Class probabilities in the leaves: a stump with leaves (1/4, 3/4) and (1, 0). -/
noncomputable def exProb : List (SrcNode ℚ (List ℝ)) := [⟨1, 2, 0, 21/2, []⟩, ⟨-1, -1, -2, -2, [1/4, 3/4]⟩, ⟨-1, -1, -2, -2, [1, 0]⟩]

open Classical in
noncomputable def exBytes (p : List ℝ) : List Nat := ((quantizeProbabilities 8 p).getD []).map Int.toNat

theorem exProb_ok : ProbOk "int16_t".toList 1 2 8 exBytes [exProb] := by
  refine ⟨⟨int16_type, by omega, by omega, by simp, ?_, by simp, ?_, ?_⟩, by omega, by omega, ?_, by omega, ?_, ?_⟩
  · intro src h
    simp at h
    subst h
    constructor
    · simp [exProb]
    · intro i n hn hl
      match i with
      | 0 | 1 | 2 => simp [exProb] at hn; subst hn; revert hl; simp [SrcNode.isLeaf]
      | i + 3 => simp [exProb] at hn
    · have : childRefs exProb = (List.range' 1 (exProb.length - 1)).map Int.ofNat := by simp [childRefs, exProb, SrcNode.isLeaf]; decide
      rw [this]
  · intro src h
    simp at h
    subst h
    simp [exProb, SrcNode.isLeaf]
  · intro _ src h
    simp at h
    subst h
    simp [exProb, SrcNode.isLeaf]
    decide +kernel
  · intro p b hb
    unfold exBytes
    rw [hb]
    rfl
  · intro src h
    simp at h
    subst h
    simp [exProb, SrcNode.isLeaf, ProbVector]
    norm_num
  · simp [exProb, SrcNode.isLeaf]

/-- The limits of the two probability theorems and of the class theorem hold for it. -/
example : (2 : Nat) < 2 * (2 ^ (8 : Int).toNat - 2) ∧ (([exProb].map (fun src => if src.length = 1 then 1 else src.countP (fun n => !n.isLeaf))).sum ≤ 32768) ∧
    ([exProb].map (fun src => src.countP (fun n => n.isLeaf))).sum ≤ 32768 ∧ (∀ src ∈ [exProb], ∀ row ∈ src, row.isLeaf = false → -32768 ≤ trunc row.threshold ∧ trunc row.threshold ≤ 32767) := by
  refine ⟨by decide, by simp [exProb, SrcNode.isLeaf], by simp [exProb, SrcNode.isLeaf], ?_⟩
  intro src h
  simp at h
  subst h
  simp [exProb, SrcNode.isLeaf]
  decide +kernel

end Emlearn.Trees
