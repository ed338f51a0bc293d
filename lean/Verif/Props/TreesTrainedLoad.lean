/- C122 for the class that a loadable classifier reports, with probability leaves and with hard voting. -/
import Verif.Props.TreesTrained
import Verif.Props.TreesSoftLoad
namespace Emlearn.Trees
open Emlearn.Cgen Emlearn.MiniC Emlearn.Harness Emlearn.Flt Emlearn.Flt.Binary32

attribute [local instance] order32

/-- **C122** (loadable classifier, probability leaves) `predict(X)` returns for each row an existing class, and no class has a mean probability in the leaves of the trained trees that exceeds that of the returned class by more than twice the
quantization tolerance and the rounding of `float`: up to 127 features, 30 classes, 32768 decision nodes and leaves, thresholds in the range of `int16_t`. -/
theorem C122_loadable_predict_soft {nFeatures nClasses : Nat} {bits : Int} {leafVal : List ℝ → List Nat} {trees : List (List (SrcNode ℚ (List ℝ)))} (h : ProbOk "int16_t".toList nFeatures nClasses bits leafVal trees)
    (hn2 : nClasses < 2 * (2 ^ bits.toNat - 2)) (hnf2 : nFeatures ≤ 127) (hnc : nClasses ≤ 30)
    (hthr : ∀ src ∈ trees, ∀ row ∈ src, row.isLeaf = false → -32768 ≤ trunc row.threshold ∧ trunc row.threshold ≤ 32767)
    (hsize : (trees.map (fun src => if src.length = 1 then 1 else src.countP (fun n => !n.isLeaf))).sum ≤ 32768) (hleaves : (trees.map (fun src => src.countP (fun n => n.isLeaf))).sum ≤ 32768)
    (decode : List Nat → Nat → Option F32) (nan : F32) (fuel depth : Nat) (hfu : nFeatures < fuel) (X : List (List ℚ)) (hX : RowsOk c32 f32Read "int16_t".toList nFeatures X) :
    ∃ f text, convertForest 0 leafVal trees = some f ∧
      generateLoadableText f "mytree".toList nFeatures nClasses bits "int16_t".toList true true "static const".toList (leafBytesSoft f.leaves) = some text ∧
      ∃ preds, pyPredict c32 decode nan fuel (depth + 3) f32Read (saveText text) "int16_t".toList nFeatures X = some preds ∧
        List.Forall₂ (fun row (c : Int) => ∃ (features : List Int) (ps : List (List ℝ)) (k : Nat), rowInput c32 f32Read "int16_t".toList row = some (.ints features) ∧
          List.Forall₂ (fun src p => srcPredict (cmpInt features trunc) src = some p) trees ps ∧ c = k ∧ k < nClasses ∧
          ∀ d, d < nClasses → meanAt ps d ≤ meanAt ps k + 2 * (softTol ℝ bits + (trees.length + 3) / 2 ^ 23)) X preds := by
  have hlow := h.low
  have hhigh := h.high
  have hN := h.count
  have hNR : (trees.length : ℝ) ≤ 2 ^ 22 := by exact_mod_cast hN
  have hpos : (0 : ℝ) < trees.length := by exact_mod_cast List.length_pos_iff.2 h.nonempty
  obtain ⟨lb, rfl⟩ : ∃ lb : Nat, (lb : Int) = bits := ⟨bits.toNat, by omega⟩
  have hleaf : ∀ src ∈ trees, ∀ row ∈ src, row.isLeaf = true → (leafVal row.value).length = nClasses ∧ ∀ b ∈ leafVal row.value, b < 256 := by
    intro src hs row hrow hl
    have hd := h.dist src hs row hrow hl
    have hpn : row.value ≠ [] := by intro e; have := hd.2.2; rw [e] at this; simp at this
    have e := h.quantize _ _ (quantizeProbabilities_eq lb h.low h.high row.value hpn hd.2.1 (probVector_le_one hd)).1
    rw [e]
    refine ⟨by simp [hd.1], ?_⟩
    intro b hb
    simp only [List.map_map, List.mem_map, Function.comp] at hb
    obtain ⟨p, hp, rfl⟩ := hb
    obtain ⟨q0, q1, -⟩ := quantizeByte_close lb h.low h.high p (hd.2.1 _ hp) (probVector_le_one hd _ hp)
    omega
  obtain ⟨f, text, hf, ht, ⟨preds, h1, h2⟩, -⟩ := C110_loadable_soft c32 lt32 leafVal trees h.nonempty h.wf (by omega) nFeatures nClasses h.positive hnf2 h.one hnc hleaf
    (fun src hs row hr hl => ⟨(h.feature src hs row hr hl).1, (h.feature src hs row hr hl).2, hthr src hs row hr hl⟩) hsize hleaves lb (by omega) (by omega) decode nan fuel depth hfu f32Read f32Val X hX
  refine ⟨f, text, hf, ht, preds, h1, h2.imp ?_⟩
  rintro row c ⟨features, rows, w, hx, h3, h4, rfl⟩
  -- the probabilities of the leaves
  obtain ⟨ps, h5, rfl⟩ : ∃ ps : List (List ℝ), List.Forall₂ (fun src p => srcPredict (cmpInt features trunc) src = some p) trees ps ∧ rows = ps.map leafVal := by
    clear h4 hleaf hthr hsize hleaves h2 hf h hNR hpos hN
    induction h3 with
    | nil => exact ⟨[], .nil, rfl⟩
    | cons hv _ ih =>
      obtain ⟨v, hv, rfl⟩ := hv
      obtain ⟨ps, g1, rfl⟩ := ih
      exact ⟨v :: ps, .cons hv g1, rfl⟩
  have hpl : ps.length = trees.length := h5.length_eq.symm
  have hne : ps ≠ [] := by
    intro e
    rw [e] at hpl
    exact h.nonempty (List.length_eq_zero_iff.1 hpl.symm)
  have hps : ∀ p ∈ ps, ProbVector nClasses p := by
    intro p hp
    obtain ⟨i, hi, rfl⟩ := List.mem_iff_getElem.1 hp
    have h6 := (List.forall₂_iff_get.1 h5).2 i (by omega) hi
    obtain ⟨r, hr, hl, hrv⟩ := srcWalk_leaf _ _ _ _ _ h6
    have := h.dist _ (List.get_mem _ _) r hr hl
    rw [hrv] at this
    exact this
  have share : ∀ d, d < nClasses → |(softShare c32 (ps.map leafVal) d).val - softMean ((ps.map leafVal).map fun row => row.getD d 0)| ≤
      softErrAt acc trees.length (softMean ((ps.map leafVal).map fun row => row.getD d 0)) := by
    intro d hd
    obtain ⟨b1, -⟩ := soft_bytes lb h.low h.high nClasses leafVal h.quantize ps hne hps d hd
    have b3 := soft_mean treeArith (by norm_num) ((ps.map leafVal).map fun row => row.getD d 0) (by simpa using hne) (by simp only [List.length_map]; omega) b1 (softFits32 (by simp only [List.length_map]; omega))
    rw [← softTotal_eq] at b3
    have b4 := b3.2
    simp only [List.length_map] at b4
    unfold softShare
    rw [List.length_map]
    rw [hpl] at b4 ⊢
    exact b4
  have mean : ∀ d, d < nClasses → |(softShare c32 (ps.map leafVal) d).val - meanAt ps d| ≤ softTol ℝ (lb : Int) + (trees.length + 3) / 2 ^ 23 := by
    intro d hd
    obtain ⟨b1, b2⟩ := soft_bytes lb h.low h.high nClasses leafVal h.quantize ps hne hps d hd
    have b4 := ((share d hd).trans (softErrAt_le _ (softMean_range _ b1).2)).trans (C103_soft_err32 hN).2.1
    have t := abs_add_le ((softShare c32 (ps.map leafVal) d).val - softMean ((ps.map leafVal).map fun row => row.getD d 0)) (softMean ((ps.map leafVal).map fun row => row.getD d 0) - meanAt ps d)
    rw [sub_add_sub_cancel] at t
    linarith
  cases w with
  | some k =>
    obtain ⟨hk, -, hmax, -⟩ := h4
    refine ⟨features, ps, k, hx, h5, rfl, hk, ?_⟩
    intro d hd
    have hle : (softShare c32 (ps.map leafVal) d).val ≤ (softShare c32 (ps.map leafVal) k).val := hmax d hd
    have m1 := (abs_le.1 (mean d hd)).1
    have m2 := (abs_le.1 (mean k hk)).2
    linarith
  | none =>
    exfalso
    obtain ⟨p, hp⟩ := List.exists_mem_of_ne_nil _ hne
    have hpv := hps p hp
    obtain ⟨v, hv, hbig⟩ := probVector_big hpv
    obtain ⟨d, hd, rfl⟩ := List.mem_iff_getElem.1 hv
    have hdn : d < nClasses := by rw [← hpv.1]; exact hd
    have hpn : p ≠ [] := List.ne_nil_of_mem hv
    have e := h.quantize p _ (quantizeProbabilities_eq lb h.low h.high p hpn hpv.2.1 (probVector_le_one hpv)).1
    have h4' : 2 ^ 2 ≤ 2 ^ (lb : Int).toNat := Nat.pow_le_pow_right (by omega) (by omega)
    have hbyte := (quantizeByte_close lb h.low h.high p[d] (hpv.2.1 _ hv) (probVector_le_one hpv _ hv)).2.2.2 (by
      have hn2R : (nClasses : ℝ) < 2 * ((2 ^ (lb : Int).toNat - 2 : Nat) : ℝ) := by exact_mod_cast hn2
      have hv0 : 0 < p[d] := by
        by_contra h0
        have : p[d] = 0 := le_antisymm (not_lt.1 h0) (hpv.2.1 _ hv)
        rw [this, zero_mul] at hbig
        linarith
      have := mul_lt_mul_of_pos_left hn2R hv0
      linarith)
    have hbm : (quantizeByte (2 ^ (lb : Int).toNat - 2) p[d]).toNat ∈ (ps.map leafVal).map fun row => row.getD d 0 := by
      rw [List.map_map]
      refine List.mem_map.2 ⟨p, hp, ?_⟩
      simp [e, hd]
    have s5 : (1 : ℝ) ≤ ((quantizeByte (2 ^ (lb : Int).toNat - 2) p[d]).toNat : ℝ) := by
      exact_mod_cast (show 1 ≤ (quantizeByte (2 ^ (lb : Int).toNat - 2) p[d]).toNat by omega)
    have hM : 1 / 255 / 2 ^ 22 ≤ softMean ((ps.map leafVal).map fun row => row.getD d 0) := by
      unfold softMean meanOf
      simp only [List.length_map, hpl]
      have s6 : ((quantizeByte (2 ^ (lb : Int).toNat - 2) p[d]).toNat : ℝ) / 255 ≤ (((ps.map leafVal).map fun row => row.getD d 0).map fun (b : Nat) => (b : ℝ) / 255).sum :=
        List.single_le_sum (by
          intro y hy
          obtain ⟨z, -, rfl⟩ := List.mem_map.1 hy
          positivity) _ (List.mem_map.2 ⟨_, hbm, rfl⟩)
      have s7 : (1 : ℝ) / 255 ≤ (((ps.map leafVal).map fun row => row.getD d 0).map fun (b : Nat) => (b : ℝ) / 255).sum := le_trans (by linarith) s6
      rw [div_le_div_iff₀ (by positivity) hpos]
      exact mul_le_mul s7 hNR hpos.le (le_trans (by norm_num) s7)
    have s8 := (abs_le.1 (share d hdn)).1
    have hz : (softShare c32 (ps.map leafVal) d).val ≤ 0 := by
      have : softShare c32 (ps.map leafVal) d ≤ c32.zero := h4 d hdn
      have : (softShare c32 (ps.map leafVal) d).val ≤ fl 0 := this
      rwa [fl_zero] at this
    have p1 := pow32 (k := trees.length + 2) (by omega)
    have p2 := pow32 (k := trees.length + 1) (by omega)
    push_cast at p1 p2
    have hη : acc.η = 1 / 2 ^ 150 := rfl
    unfold softErrAt at s8
    rw [hη] at s8
    have q1 : (1 + acc.u) ^ (trees.length + 2) - 1 ≤ 3 / 4 := by
      have : ((trees.length : ℝ) + 2) / 2 ^ 23 ≤ 3 / 4 := by
        rw [div_le_iff₀ (by positivity)]
        linarith
      linarith
    have q2 : ((1 + acc.u) ^ (trees.length + 1) + 1) * (1 / 2 ^ 150) ≤ 3 * (1 / 2 ^ 150) := by
      refine mul_le_mul_of_nonneg_right ?_ (by positivity)
      have : ((trees.length : ℝ) + 1) / 2 ^ 23 ≤ 1 := by
        rw [div_le_iff₀ (by positivity)]
        linarith
      linarith
    have q3 := mul_le_mul_of_nonneg_right q1 (le_trans (by norm_num) hM : (0 : ℝ) ≤ softMean ((ps.map leafVal).map fun row => row.getD d 0))
    have q4 : (3 : ℝ) * (1 / 2 ^ 150) < 1 / 4 * (1 / 255 / 2 ^ 22) := by norm_num
    linarith

/-- The theorem applied to a tree with the leaves (1/4, 3/4) and (1, 0) and the row (8): the class returned has a mean probability within 2% of the largest. -/
example (decode : List Nat → Nat → Option F32) (nan : F32) : ∃ (f : Forest ℚ (List Nat)) (text : List Char) (c : Int) (ps : List (List ℝ)) (k : Nat), convertForest 0 exBytes [exProb] = some f ∧
    pyPredict c32 decode nan 2 3 f32Read (saveText text) "int16_t".toList 1 [[8]] = some [c] ∧ c = k ∧ k < 2 ∧ ∀ d, d < 2 → meanAt ps d ≤ meanAt ps k + 2 * (softTol ℝ 8 + 4 / 2 ^ 23) := by
  obtain ⟨f, text, h1, -, preds, h2, h3⟩ := C122_loadable_predict_soft exProb_ok (by decide) (by omega) (by omega)
    (by
      intro src h
      simp at h
      subst h
      simp [exProb, SrcNode.isLeaf]
      decide +kernel) (by simp [exProb, SrcNode.isLeaf]) (by simp [exProb, SrcNode.isLeaf]) decode nan 2 0 (by omega) [[8]] ⟨by
        intro i row h
        match i, h with
        | 0, h => cases h; decide +kernel, by
        intro row hr
        simp at hr
        subst hr
        refine ⟨rfl, ?_⟩
        have hrow := int_row (dtype := "int16_t".toList) (r := (-32768, 32767)) (by decide +kernel) [8] (by simp)
        have : rowInput c32 f32Read "int16_t".toList [8] = some (.ints [8]) := by simpa using hrow
        rw [this]
        rfl⟩
  match preds, h3 with
  | [c], .cons ⟨features, ps, k, _, _, h4, h5, h6⟩ .nil =>
    refine ⟨f, text, c, ps, k, h1, h2, h4, h5, fun d hd => ?_⟩
    have := h6 d hd
    norm_num at this ⊢
    exact this

/-- **C122** (loadable classifier, hard voting) `predict(X)` returns for each row the plurality of the classes that the trees of the source model give: up to 127 features, 30 classes, 32768 decision nodes, 2^22 trees, thresholds in the
range of `int16_t`. -/
theorem C122_loadable_predict {V : Type} {nFeatures : Nat} {trees : List (List (SrcNode ℚ V))} (h : SourceOk "int16_t".toList nFeatures trees) (leafVal : V → Nat) (nClasses : Nat) (hnf2 : nFeatures ≤ 127) (hnc : nClasses ≤ 30)
    (hleaf : ∀ src ∈ trees, ∀ row ∈ src, leafVal row.value < nClasses)
    (hthr : ∀ src ∈ trees, ∀ row ∈ src, row.isLeaf = false → -32768 ≤ trunc row.threshold ∧ trunc row.threshold ≤ 32767)
    (hsize : (trees.map (fun src => if src.length = 1 then 1 else src.countP (fun n => !n.isLeaf))).sum ≤ 32768)
    (decode : List Nat → Nat → Option F32) (nan : F32) (fuel depth : Nat) (hfu : nFeatures < fuel) (X : List (List ℚ)) (hX : RowsOk c32 f32Read "int16_t".toList nFeatures X) :
    ∃ f text, convertForest 0 leafVal trees = some f ∧
      generateLoadableText f "mytree".toList nFeatures nClasses 0 "int16_t".toList true true "static const".toList (leafBytesHard f.leaves) = some text ∧
      ∃ preds, pyPredict c32 decode nan fuel (depth + 3) f32Read (saveText text) "int16_t".toList nFeatures X = some preds ∧
        List.Forall₂ (fun row (c : Int) => ∃ (features : List Int) (vs : List V) (k : Nat), rowInput c32 f32Read "int16_t".toList row = some (.ints features) ∧
          List.Forall₂ (fun src v => srcPredict (cmpInt features trunc) src = some v) trees vs ∧ Plurality (vs.map leafVal) nClasses k ∧ c = k) X preds := by
  have hN := h.count
  obtain ⟨f, text, hf, ht, preds, h1, h2⟩ := C110_loadable_predict c32 (tally treeOps) leafVal trees h.nonempty h.wf (voteLaws treeArith (List.length_pos_iff.2 h.nonempty) (by omega) (sep32 hN)) (by omega) nFeatures nClasses h.positive hnf2 hnc
    hleaf (fun src hs row hr hl => ⟨(h.feature src hs row hr hl).1, (h.feature src hs row hr hl).2, hthr src hs row hr hl⟩) hsize decode nan fuel depth hfu f32Read X hX
  refine ⟨f, text, hf, ht, preds, h1, h2.imp ?_⟩
  rintro row c ⟨features, classes, k, hx, h3, h4, rfl⟩
  obtain ⟨vs, h5, rfl⟩ : ∃ vs : List V, List.Forall₂ (fun src v => srcPredict (cmpInt features trunc) src = some v) trees vs ∧ classes = vs.map leafVal := by
    clear h4 hleaf hthr hsize h2 hf h hN
    induction h3 with
    | nil => exact ⟨[], .nil, rfl⟩
    | cons hv _ ih =>
      obtain ⟨v, hv, rfl⟩ := hv
      obtain ⟨ps, g1, rfl⟩ := ih
      exact ⟨v :: ps, .cons hv g1, rfl⟩
  exact ⟨features, vs, k, hx, h5, h4, rfl⟩

/-- **C122** (loadable classifier against the trained model, in part) rows of whole numbers below `2^24` that `int16_t` holds and that hit no threshold: `predict(X)` returns the plurality of the classes that the trained trees themselves give.
Missing: the rows that hit a threshold, where the generated comparison takes the other branch (`C122_hits_refuted`). -/
theorem C122_loadable_integer_partial {V : Type} {nFeatures : Nat} {trees : List (List (SrcNode ℚ V))} (h : SourceOk "int16_t".toList nFeatures trees) (leafVal : V → Nat) (nClasses : Nat) (hnf2 : nFeatures ≤ 127) (hnc : nClasses ≤ 30)
    (hleaf : ∀ src ∈ trees, ∀ row ∈ src, leafVal row.value < nClasses)
    (hthr : ∀ src ∈ trees, ∀ row ∈ src, row.isLeaf = false → -32768 ≤ trunc row.threshold ∧ trunc row.threshold ≤ 32767)
    (hsize : (trees.map (fun src => if src.length = 1 then 1 else src.countP (fun n => !n.isLeaf))).sum ≤ 32768)
    (decode : List Nat → Nat → Option F32) (nan : F32) (fuel depth : Nat) (hfu : nFeatures < fuel)
    (Z : List (List Int)) (hf : Fits (Z.map fun zs => zs.map fun z : Int => (z : ℚ))) (hl : ∀ zs ∈ Z, zs.length = nFeatures ∧ ∀ z ∈ zs, -32768 ≤ z ∧ z ≤ 32767) (hclear : ∀ zs ∈ Z, ∀ src ∈ trees, ¬ Hits zs src) :
    ∃ f text, convertForest 0 leafVal trees = some f ∧
      generateLoadableText f "mytree".toList nFeatures nClasses 0 "int16_t".toList true true "static const".toList (leafBytesHard f.leaves) = some text ∧
      ∃ preds, pyPredict c32 decode nan fuel (depth + 3) f32Read (saveText text) "int16_t".toList nFeatures (Z.map fun zs => zs.map fun z : Int => (z : ℚ)) = some preds ∧
        List.Forall₂ (fun zs (c : Int) => ∃ (vs : List V) (k : Nat), List.Forall₂ (fun src v => srcPredict (trainedLess (zs.map fun z : Int => (z : ℚ))) src = some v) trees vs ∧ Plurality (vs.map leafVal) nClasses k ∧ c = k) Z preds := by
  have hr : intRange "int16_t".toList = some (-32768, 32767) := by decide +kernel
  have hrow : ∀ zs ∈ Z, rowInput c32 f32Read "int16_t".toList (zs.map fun z : Int => (z : ℚ)) = some (.ints zs) := fun zs hzs => int_row hr zs fun z hz => by
    have := (hl zs hzs).2 z hz
    refine ⟨?_, this⟩
    rw [abs_lt]
    constructor <;> norm_num <;> omega
  obtain ⟨f, text, h1, h2, preds, h3, h4⟩ := C122_loadable_predict h leafVal nClasses hnf2 hnc hleaf hthr hsize decode nan fuel depth hfu (Z.map fun zs => zs.map fun z : Int => (z : ℚ)) ⟨hf, by
    intro row hm
    obtain ⟨zs, hzs, rfl⟩ := List.mem_map.1 hm
    refine ⟨by rw [List.length_map]; exact (hl zs hzs).1, ?_⟩
    rw [hrow zs hzs]
    rfl⟩
  rw [List.forall₂_map_left_iff] at h4
  refine ⟨f, text, h1, h2, preds, h3, forall₂_mem h4 ?_⟩
  rintro zs hzs c ⟨x, vs, k, hx, h5, h6, h7⟩
  rw [hrow zs hzs] at hx
  cases hx
  exact ⟨vs, k, forall₂_src h5 fun src hs => C122_same_leaf_int zs src (hclear zs hzs src hs), h6, h7⟩

/-- The theorem applied to the tree with the threshold 10.5 and the rows (8) and (11), which do not hit it: classes 0 and 1. -/
example (decode : List Nat → Nat → Option F32) (nan : F32) : ∃ (f : Forest ℚ Nat) (text : List Char),
    convertForest 0 id [([⟨1, 2, 0, 21/2, 0⟩, ⟨-1, -1, -2, -2, 0⟩, ⟨-1, -1, -2, -2, 1⟩] : List (SrcNode ℚ Nat))] = some f ∧
    generateLoadableText f "mytree".toList 1 2 0 "int16_t".toList true true "static const".toList (leafBytesHard f.leaves) = some text ∧
    pyPredict c32 decode nan 2 3 f32Read (saveText text) "int16_t".toList 1 [[8], [11]] = some [0, 1] := by
  have hwf : SrcWF ([⟨1, 2, 0, 21/2, 0⟩, ⟨-1, -1, -2, -2, 0⟩, ⟨-1, -1, -2, -2, 1⟩] : List (SrcNode ℚ Nat)) := by
    constructor
    · simp
    · intro i n hn hl
      match i with
      | 0 | 1 | 2 => simp at hn; subst hn; revert hl; simp [SrcNode.isLeaf]
      | i + 3 => simp at hn
    · have : childRefs ([⟨1, 2, 0, 21/2, 0⟩, ⟨-1, -1, -2, -2, 0⟩, ⟨-1, -1, -2, -2, 1⟩] : List (SrcNode ℚ Nat)) = (List.range' 1 (3 - 1)).map Int.ofNat := by decide
      rw [this]
      rfl
  have hs : SourceOk "int16_t".toList 1 [([⟨1, 2, 0, 21/2, 0⟩, ⟨-1, -1, -2, -2, 0⟩, ⟨-1, -1, -2, -2, 1⟩] : List (SrcNode ℚ Nat))] :=
    ⟨int16_type, by omega, by omega, by simp, by simpa using hwf, by simp, by decide +kernel, fun _ => by decide +kernel⟩
  obtain ⟨f, text, h1, h2, preds, h3, h4⟩ := C122_loadable_integer_partial hs id 2 (by omega) (by omega) (by decide +kernel) (by decide +kernel) (by decide +kernel) decode nan 2 0 (by omega) [[8], [11]]
    (by
      intro i row h
      match i, h with
      | 0, h => cases h; decide +kernel
      | 1, h => cases h; decide +kernel) (by decide +kernel) (by unfold Hits; decide +kernel)
  refine ⟨f, text, h1, h2, ?_⟩
  have pl : ∀ (c k : Nat), c < 2 → Plurality [c] 2 k → k = c := by
    rintro c k hc ⟨a, b, -⟩
    have := b c hc
    by_contra hk
    simp [Ne.symm hk] at this
  match preds, h4 with
  | [c, d], .cons ⟨vs, k, h5, h6, h7⟩ (.cons ⟨ws, l, g5, g6, g7⟩ .nil) =>
    match vs, h5, ws, g5 with
    | [v], .cons hv .nil, [w], .cons hw .nil =>
      have e1 : srcPredict (trainedLess ([8].map fun z : Int => (z : ℚ))) ([⟨1, 2, 0, 21/2, 0⟩, ⟨-1, -1, -2, -2, 0⟩, ⟨-1, -1, -2, -2, 1⟩] : List (SrcNode ℚ Nat)) = some 0 := by decide +kernel
      have e2 : srcPredict (trainedLess ([11].map fun z : Int => (z : ℚ))) ([⟨1, 2, 0, 21/2, 0⟩, ⟨-1, -1, -2, -2, 0⟩, ⟨-1, -1, -2, -2, 1⟩] : List (SrcNode ℚ Nat)) = some 1 := by decide +kernel
      rw [e1] at hv
      rw [e2] at hw
      cases hv
      cases hw
      have hk := pl 0 k (by omega) h6
      have hl := pl 1 l (by omega) g6
      subst hk hl
      rw [h7, g7] at h3
      simpa using h3
end Emlearn.Trees
