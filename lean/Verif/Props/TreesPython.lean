/- Property C110: `predict`, `predict_proba` and regression of a converted tree model called from Python, through the generated text, the compiled program and its standard input and output. -/
import Verif.Trees.PythonRun
import Verif.Props.TreesLoadText
namespace Emlearn.Trees
open Emlearn.Cgen Emlearn.MiniC Emlearn.Harness
variable {F : Type}

theorem staticConst : [' '].intercalate ["static".toList, "const".toList] = "static const".toList := by decide +kernel

theorem staticConst_mods : ∀ w ∈ ["static".toList, "const".toList], isMod w = true := by decide +kernel

theorem mytree_args {dtype : List Char} (hd : DType dtype) : TextArgs "mytree".toList dtype ["static".toList, "const".toList] := ⟨by decide +kernel, hd, staticConst_mods⟩

/-- The matrix: every row has one value per feature, and each value, in the type of the features, is one of that type; each line of the text on standard input fits the line buffer. -/
structure RowsOk (ops : CFloat F) (read : ℚ → F) (dtype : List Char) (nFeatures : Nat) (X : List (List ℚ)) : Prop where
  fits : Fits X
  row : ∀ row ∈ X, row.length = nFeatures ∧ (rowInput ops read dtype row).isSome = true

/-- The model: the type of the features is a C type, every node compares one of the features, and thresholds of integer features are `int`. -/
structure ModelOk {L : Type} (dtype : List Char) (nFeatures : Nat) (f : Forest ℚ L) : Prop where
  type : DType dtype
  positive : 1 ≤ nFeatures
  bound : nFeatures ≤ 10000
  forest : ForestOK f
  roots : f.roots ≠ []
  count : f.roots.length ≤ 2147483647
  feature : ∀ n ∈ f.nodes, 0 ≤ n.feature ∧ n.feature < nFeatures
  threshold : dtype ≠ "float".toList → ∀ n ∈ f.nodes, (trunc n.threshold).natAbs ≤ 2147483647

theorem ModelOk.fits {L : Type} {ops : CFloat F} {read : ℚ → F} {dtype : List Char} {nf : Nat} {f : Forest ℚ L} (h : ModelOk dtype nf f) {row : List ℚ} (hl : row.length = nf) {x : Input F}
    (hx : rowInput ops read dtype row = some x) : x.Fits dtype f := by
  obtain ⟨h1, h2, -⟩ := rowInput_some ops read dtype row x hx
  have hb := h.bound
  refine ⟨by cases x <;> exact h2, by omega, ?_, ?_⟩
  · intro n hn
    have := h.feature n hn
    rw [h1, hl]
    exact this
  · cases x with
    | ints l => exact h.threshold (notFloat_of_range h2)
    | floats l => trivial

section
variable (ops : CFloat F) (hk : Consts ops) (decode : List Nat → Nat → Option F) (nan : F) (fuel depth : Nat) (read : ℚ → F) (val : F → ℚ)

/-- **C110** (inline classifier, hard voting) `predict(X)` returns one class per row, in order: the smallest class with the most votes among the leaves that the trees reach with the row's values, each printed with eight
decimals, read as `float` and converted to the type of the features. -/
theorem C110_inline_predict (f : Forest ℚ Nat) (dtype : List Char) (nFeatures nClasses : Nat) (hm : ModelOk dtype nFeatures f) (hn : nClasses ≤ 2147483647) (hfu : nClasses < fuel) (hfu' : nFeatures < fuel)
    (hcls : ∀ c ∈ f.leaves, c < nClasses) (text : List Char) (h : generateInlined f "mytree".toList nClasses 0 dtype true true "static const".toList (fun (c : Nat) => (c : ℚ)) (leafBytesHard f.leaves) = some text)
    (X : List (List ℚ)) (hX : RowsOk ops read dtype nFeatures X) :
    ∃ preds, pyPredict ops decode nan fuel (depth + 3) read (saveText text) dtype nFeatures X = some preds ∧
      List.Forall₂ (fun row (c : Int) => ∃ (x : Input F) (classes : List Nat) (k : Nat), rowInput ops read dtype row = some x ∧
        List.Forall₂ (fun r c => forestPredict (x.less ops) f r = some c) f.roots classes ∧ Plurality classes nClasses k ∧ c = k) X preds := by
  rw [← staticConst] at h
  obtain ⟨p, hs⟩ := savedProg_inline f nClasses 0 dtype true true _ _ _ text hm.type staticConst_mods h
  obtain ⟨prog, h1, h2⟩ := C88_inline_predict_hard ops (treesLib ops decode nan p) fuel depth f hm.forest hm.roots hm.count "mytree".toList dtype nClasses hn hfu hcls true _ _ (mytree_args hm.type) text h
  rw [savedProg_parse hs] at h1
  cases h1
  have hb := hm.bound
  obtain ⟨preds, h3, h4⟩ := pyPredict_rows ops decode nan fuel (depth + 2) read hs dtype hm.type.1 nFeatures (by omega) hfu' hm.positive X hX.fits hX.row
    (fun x z => ∃ (classes : List Nat) (k : Nat), List.Forall₂ (fun r c => forestPredict (x.less ops) f r = some c) f.roots classes ∧ Plurality classes nClasses k ∧ z = k) (by
      intro row hr x hx
      obtain ⟨classes, h5, k, h6, h7⟩ := h2 x (hm.fits (hX.row row hr).1 hx)
      exact ⟨k, by omega, by have := h7.1; omega, ⟨classes, k, h5, h7, rfl⟩, h6⟩)
  refine ⟨preds, h3, h4.imp ?_⟩
  rintro row c ⟨x, z, hx, ⟨classes, k, h5, h6, rfl⟩, rfl⟩
  exact ⟨x, classes, k, hx, h5, h6, by simp⟩

include hk in
/-- **C110** (inline classifier, probability leaves) `predict(X)` returns for each row the first class whose summed leaf probabilities are largest. When no sum is positive the generated function returns -1, and the
wrapper, which removes the sign, reports class 1. -/
theorem C110_inline_predict_soft [LinearOrder F] (hlt : ∀ a b : F, ops.lt a b = decide (a < b)) (f : Forest ℚ (List Nat)) (dtype : List Char) (nFeatures nClasses : Nat) (hm : ModelOk dtype nFeatures f)
    (hn0 : 1 ≤ nClasses) (hn : nClasses ≤ 2147483647) (hfu : nClasses < fuel) (hfu' : nFeatures < fuel) (hrow : ∀ row ∈ f.leaves, row.length = nClasses ∧ ∀ b ∈ row, b < 256)
    (hsize : (leafBytesSoft f.leaves).length ≤ 2147483647) (lb : Int) (hlb : lb ≠ 0) (num : List Nat → ℚ) (text : List Char)
    (h : generateInlined f "mytree".toList nClasses lb dtype true true "static const".toList num (leafBytesSoft f.leaves) = some text) (X : List (List ℚ)) (hX : RowsOk ops read dtype nFeatures X) :
    ∃ preds, pyPredict ops decode nan fuel (depth + 3) read (saveText text) dtype nFeatures X = some preds ∧
      List.Forall₂ (fun row (c : Int) => ∃ (x : Input F) (rows : List (List Nat)), rowInput ops read dtype row = some x ∧ List.Forall₂ (fun r row => forestPredict (x.less ops) f r = some row) f.roots rows ∧
        ((c = 1 ∧ ∀ k, k < nClasses → softTotal ops rows k ≤ ops.zero) ∨
          ∃ k : Nat, c = k ∧ k < nClasses ∧ ops.zero < softTotal ops rows k ∧ (∀ j, j < nClasses → softTotal ops rows j ≤ softTotal ops rows k) ∧ ∀ j, j < k → softTotal ops rows j < softTotal ops rows k)) X preds := by
  rw [← staticConst] at h
  obtain ⟨p, hs⟩ := savedProg_inline f nClasses lb dtype true true _ _ _ text hm.type staticConst_mods h
  obtain ⟨prog, h1, h2⟩ := C88_inline_predict_soft ops hk (treesLib ops decode nan p) fuel depth hlt f hm.forest hm.roots "mytree".toList dtype nClasses hn0 hn hfu hrow hsize lb hlb num true _ (mytree_args hm.type) text h
  rw [savedProg_parse hs] at h1
  cases h1
  have hb := hm.bound
  obtain ⟨preds, h3, h4⟩ := pyPredict_rows ops decode nan fuel (depth + 2) read hs dtype hm.type.1 nFeatures (by omega) hfu' hm.positive X hX.fits hX.row
    (fun x z => ∃ rows : List (List Nat), List.Forall₂ (fun r row => forestPredict (x.less ops) f r = some row) f.roots rows ∧
      ((z = -1 ∧ ∀ k, k < nClasses → softTotal ops rows k ≤ ops.zero) ∨
          ∃ k : Nat, z = k ∧ k < nClasses ∧ ops.zero < softTotal ops rows k ∧ (∀ j, j < nClasses → softTotal ops rows j ≤ softTotal ops rows k) ∧ ∀ j, j < k → softTotal ops rows j < softTotal ops rows k)) (by
      intro row hr x hx
      obtain ⟨rows, h5, z, h6, h7⟩ := h2 x (hm.fits (hX.row row hr).1 hx)
      have hz : -1 ≤ z ∧ z ≤ 2147483647 := by rcases h7 with ⟨rfl, -⟩ | ⟨k, rfl, hk, -⟩ <;> omega
      exact ⟨z, by omega, by omega, ⟨rows, h5, h7⟩, h6⟩)
  refine ⟨preds, h3, h4.imp ?_⟩
  rintro row c ⟨x, z, hx, ⟨rows, h5, h6⟩, rfl⟩
  refine ⟨x, rows, hx, h5, ?_⟩
  rcases h6 with ⟨rfl, h6⟩ | ⟨k, rfl, h6⟩
  · exact .inl ⟨rfl, h6⟩
  · exact .inr ⟨k, by simp, h6⟩

include hk in
/-- **C110** (inline classifier, hard voting, probabilities) entry (row, class) of `predict_proba(X)` is the share of the trees that vote for the class, printed with six decimals. -/
theorem C110_inline_proba (f : Forest ℚ Nat) (dtype : List Char) (nFeatures nClasses : Nat) (hm : ModelOk dtype nFeatures f) (hn0 : 1 ≤ nClasses) (hn : nClasses ≤ 2147483647) (hfu : nClasses < fuel)
    (hfu' : nFeatures < fuel) (hcls : ∀ c ∈ f.leaves, c < nClasses) (text : List Char)
    (h : generateInlined f "mytree".toList nClasses 0 dtype true true "static const".toList (fun (c : Nat) => (c : ℚ)) (leafBytesHard f.leaves) = some text)
    (X : List (List ℚ)) (hX : RowsOk ops read dtype nFeatures X) :
    ∃ m, pyProba ops decode nan fuel (depth + 3) read val (saveText text) dtype nFeatures nClasses X = some m ∧
      ∀ (i c : Nat) (row : List ℚ), X[i]? = some row → c < nClasses → ∃ (x : Input F) (classes : List Nat), rowInput ops read dtype row = some x ∧
        List.Forall₂ (fun r c => forestPredict (x.less ops) f r = some c) f.roots classes ∧
        m i c = some (fixedValue 6 (val (ops.div ((fun y => ops.add y ops.one)^[classes.count c] ops.zero) (ops.ofInt f.roots.length)))) := by
  rw [← staticConst] at h
  obtain ⟨p, hs⟩ := savedProg_inline f nClasses 0 dtype true true _ _ _ text hm.type staticConst_mods h
  obtain ⟨prog, h1, h2⟩ := C88_inline_proba_hard ops hk (treesLib ops decode nan p) fuel depth f hm.forest hm.count "mytree".toList dtype nClasses hn hfu hcls _ _ (mytree_args hm.type) text h
  rw [savedProg_parse hs] at h1
  cases h1
  have hb := hm.bound
  obtain ⟨m, h3, h4⟩ := pyProba_rows ops decode nan fuel (depth + 2) read val hs dtype hm.type.1 nFeatures (by omega) hfu' hm.positive X hX.fits hX.row nClasses hn0 hn
    (fun x ps => ∃ (classes : List Nat), List.Forall₂ (fun r c => forestPredict (x.less ops) f r = some c) f.roots classes ∧
      ps = (List.range nClasses).map fun c => ops.div ((fun y => ops.add y ops.one)^[classes.count c] ops.zero) (ops.ofInt f.roots.length)) (by
      intro row hr x hx
      obtain ⟨classes, h5, -⟩ := h2 x (hm.fits (hX.row row hr).1 hx) (List.replicate nClasses none) (by simp)
      refine ⟨_, ?_, ⟨classes, h5, rfl⟩, ?_⟩
      · simp
      · intro outs ho
        obtain ⟨classes', h6, h7⟩ := h2 x (hm.fits (hX.row row hr).1 hx) outs ho
        have : classes' = classes := by
          clear h7
          revert h5 h6
          generalize f.roots = rs
          intro h5 h6
          induction h5 generalizing classes' with
          | nil => cases h6; rfl
          | cons a _ ih =>
            cases h6 with
            | cons b h6 => rw [a] at b; cases b; rw [ih _ h6]
        rw [h7, this, List.map_map]
        rfl)
  refine ⟨m, h3, ?_⟩
  intro i c row hi hc
  obtain ⟨x, ps, y, hx, ⟨classes, h5, rfl⟩, h6, h7⟩ := h4 i c row hi hc
  refine ⟨x, classes, hx, h5, ?_⟩
  rw [h7]
  have : y = ops.div ((fun y => ops.add y ops.one)^[classes.count c] ops.zero) (ops.ofInt f.roots.length) := by
    simp [hc] at h6
    exact h6.symm
  rw [this]

include hk in
/-- **C110** (inline classifier, probability leaves, probabilities) entry (row, class) of `predict_proba(X)` is the mean of the leaf probabilities (bytes over 255) of the trees, printed with six decimals. -/
theorem C110_inline_proba_soft (f : Forest ℚ (List Nat)) (dtype : List Char) (nFeatures nClasses : Nat) (hm : ModelOk dtype nFeatures f) (hn0 : 1 ≤ nClasses) (hn : nClasses ≤ 2147483647) (hfu : nClasses < fuel)
    (hfu' : nFeatures < fuel) (hrow : ∀ row ∈ f.leaves, row.length = nClasses ∧ ∀ b ∈ row, b < 256) (hsize : (leafBytesSoft f.leaves).length ≤ 2147483647) (lb : Int) (hlb : lb ≠ 0) (num : List Nat → ℚ)
    (text : List Char) (h : generateInlined f "mytree".toList nClasses lb dtype true true "static const".toList num (leafBytesSoft f.leaves) = some text)
    (X : List (List ℚ)) (hX : RowsOk ops read dtype nFeatures X) :
    ∃ m, pyProba ops decode nan fuel (depth + 3) read val (saveText text) dtype nFeatures nClasses X = some m ∧
      ∀ (i c : Nat) (row : List ℚ), X[i]? = some row → c < nClasses → ∃ (x : Input F) (rows : List (List Nat)), rowInput ops read dtype row = some x ∧
        List.Forall₂ (fun r row => forestPredict (x.less ops) f r = some row) f.roots rows ∧
        m i c = some (fixedValue 6 (val (ops.div (softTotal ops rows c) (ops.ofInt f.roots.length)))) := by
  rw [← staticConst] at h
  obtain ⟨p, hs⟩ := savedProg_inline f nClasses lb dtype true true _ _ _ text hm.type staticConst_mods h
  obtain ⟨prog, h1, h2⟩ := C88_inline_proba_soft ops hk (treesLib ops decode nan p) fuel depth f hm.forest hm.roots hm.count "mytree".toList dtype nClasses hn0 hn hfu hrow hsize lb hlb num _ (mytree_args hm.type) text h
  rw [savedProg_parse hs] at h1
  cases h1
  have hb := hm.bound
  obtain ⟨m, h3, h4⟩ := pyProba_rows ops decode nan fuel (depth + 2) read val hs dtype hm.type.1 nFeatures (by omega) hfu' hm.positive X hX.fits hX.row nClasses hn0 hn
    (fun x ps => ∃ (rows : List (List Nat)), List.Forall₂ (fun r row => forestPredict (x.less ops) f r = some row) f.roots rows ∧
      ps = (List.range nClasses).map fun c => ops.div (softTotal ops rows c) (ops.ofInt f.roots.length)) (by
      intro row hr x hx
      obtain ⟨rows, h5, -⟩ := h2 x (hm.fits (hX.row row hr).1 hx) (List.replicate nClasses none) (by simp)
      refine ⟨_, ?_, ⟨rows, h5, rfl⟩, ?_⟩
      · simp
      · intro outs ho
        obtain ⟨rows', h6, h7⟩ := h2 x (hm.fits (hX.row row hr).1 hx) outs ho
        have : rows' = rows := by
          clear h7
          revert h5 h6
          generalize f.roots = rs
          intro h5 h6
          induction h5 generalizing rows' with
          | nil => cases h6; rfl
          | cons a _ ih =>
            cases h6 with
            | cons b h6 => rw [a] at b; cases b; rw [ih _ h6]
        rw [h7, this, List.map_map]
        rfl)
  refine ⟨m, h3, ?_⟩
  intro i c row hi hc
  obtain ⟨x, ps, y, hx, ⟨rows, h5, rfl⟩, h6, h7⟩ := h4 i c row hi hc
  refine ⟨x, rows, hx, h5, ?_⟩
  rw [h7]
  have : y = ops.div (softTotal ops rows c) (ops.ofInt f.roots.length) := by
    simp [hc] at h6
    exact h6.symm
  rw [this]

include hk in
/-- **C110** (inline regressor) `predict(X)` returns for each row the mean of the leaf values that the trees reach, printed with six decimals; leaf values are those written with six decimals in the file. -/
theorem C110_inline_regress {L : Type} (f : Forest ℚ L) (dtype : List Char) (nFeatures nClasses : Nat) (hm : ModelOk dtype nFeatures f) (hfu' : nFeatures < fuel) (lb : Int) (num : L → ℚ) (bytes : List Nat)
    (text : List Char) (h : generateInlined f "mytree".toList nClasses lb dtype false true "static const".toList num bytes = some text) (X : List (List ℚ)) (hX : RowsOk ops read dtype nFeatures X) :
    ∃ preds, pyRegress ops decode nan fuel (depth + 3) read val (saveText text) dtype nFeatures X = some preds ∧
      List.Forall₂ (fun row (q : ℚ) => ∃ (x : Input F) (vals : List L), rowInput ops read dtype row = some x ∧ List.Forall₂ (fun r v => forestPredict (x.less ops) f r = some v) f.roots vals ∧
        q = fixedValue 6 (val (ops.div (vals.foldl (fun s v => ops.add s (ops.lit (decide (num v < 0)) |fixedValue 6 (num v)|)) ops.zero) (ops.ofInt f.roots.length)))) X preds := by
  rw [← staticConst] at h
  obtain ⟨p, hs⟩ := savedProg_inline f nClasses lb dtype false true _ _ _ text hm.type staticConst_mods h
  obtain ⟨prog, h1, h2⟩ := C88_inline_regress ops hk (treesLib ops decode nan p) fuel depth f hm.forest hm.count "mytree".toList dtype nClasses lb num true _ _ (mytree_args hm.type) text h
  rw [savedProg_parse hs] at h1
  cases h1
  have hb := hm.bound
  obtain ⟨preds, h3, h4⟩ := pyRegress_rows ops decode nan fuel (depth + 2) read val hs dtype hm.type.1 nFeatures (by omega) hfu' hm.positive X hX.fits hX.row
    (fun x y => ∃ vals : List L, List.Forall₂ (fun r v => forestPredict (x.less ops) f r = some v) f.roots vals ∧
      y = ops.div (vals.foldl (fun s v => ops.add s (ops.lit (decide (num v < 0)) |fixedValue 6 (num v)|)) ops.zero) (ops.ofInt f.roots.length)) (by
      intro row hr x hx
      obtain ⟨vals, h5, h6⟩ := h2 x (hm.fits (hX.row row hr).1 hx)
      exact ⟨_, ⟨vals, h5, rfl⟩, h6⟩)
  refine ⟨preds, h3, h4.imp ?_⟩
  rintro row c ⟨x, y, hx, ⟨vals, h5, rfl⟩, rfl⟩
  exact ⟨x, vals, hx, h5, rfl⟩

end

/-! ### The loadable method -/

/-- **C110** (loadable classifier, hard voting, from the trained trees) for every list of well-formed trained trees with at most 127 features, 30 classes and 32768 decision nodes, thresholds in the range of `int16_t`:
conversion and code generation succeed, and `predict(X)` returns for each row the smallest class that most of the trained trees vote for, comparing integer parts of the values with truncated thresholds. -/
theorem C110_loadable_predict {V : Type} (ops : CFloat F) (cnt : Nat → F) (leafVal : V → Nat) (trees : List (List (SrcNode ℚ V))) (hne : trees ≠ []) (hwf : ∀ src ∈ trees, SrcWF src)
    (laws : VoteLaws ops.toFOps trees.length cnt) (htl : trees.length ≤ 2147483647) (nFeatures nClasses : Nat) (hnf : 1 ≤ nFeatures) (hnf2 : nFeatures ≤ 127) (hnc : nClasses ≤ 30)
    (hleaf : ∀ src ∈ trees, ∀ row ∈ src, leafVal row.value < nClasses)
    (hfeat : ∀ src ∈ trees, ∀ row ∈ src, row.isLeaf = false → 0 ≤ row.feature ∧ row.feature < nFeatures ∧ -32768 ≤ trunc row.threshold ∧ trunc row.threshold ≤ 32767)
    (hsize : (trees.map (fun src => if src.length = 1 then 1 else src.countP (fun n => !n.isLeaf))).sum ≤ 32768)
    (decode : List Nat → Nat → Option F) (nan : F) (fuel depth : Nat) (hfu : nFeatures < fuel) (read : ℚ → F) (X : List (List ℚ)) (hX : RowsOk ops read "int16_t".toList nFeatures X) :
    ∃ f text, convertForest 0 leafVal trees = some f ∧
      generateLoadableText f "mytree".toList nFeatures nClasses 0 "int16_t".toList true true "static const".toList (leafBytesHard f.leaves) = some text ∧
      ∃ preds, pyPredict ops decode nan fuel (depth + 3) read (saveText text) "int16_t".toList nFeatures X = some preds ∧
        List.Forall₂ (fun row (c : Int) => ∃ (features : List Int) (classes : List Nat) (k : Nat), rowInput ops read "int16_t".toList row = some (.ints features) ∧
          List.Forall₂ (fun src cls => ∃ v, srcPredict (cmpInt features trunc) src = some v ∧ leafVal v = cls) trees classes ∧ Plurality classes nClasses k ∧ c = k) X preds := by
  obtain ⟨f, text, prog, h1, h2, h3, h4⟩ := C89_end_to_end ops cnt leafVal trees hne hwf laws htl nFeatures nClasses hnf hnf2 hnc hleaf hfeat hsize "mytree".toList (by decide +kernel) (by decide +kernel)
    (by decide +kernel) (by decide +kernel) ["static".toList, "const".toList] staticConst_mods true decode nan fuel depth
  obtain ⟨f', hf', hnodes, hok⟩ := C02_convert_refs_valid 0 leafVal trees hne hwf
  rw [h1] at hf'; cases hf'
  obtain ⟨f', hf', hrl, -⟩ := C01_convert_same_leaf 0 leafVal trees hne hwf
  rw [h1] at hf'; cases hf'
  have hroots : f.roots ≠ [] := by
    intro h
    rw [h] at hrl
    exact hne (List.length_eq_zero_iff.1 hrl.symm)
  obtain ⟨p, hs⟩ := savedProg_load f nFeatures nClasses 0 true true _ _ text staticConst_mods hnodes hroots h2
  rw [staticConst] at h2
  rw [savedProg_parse hs] at h3
  cases h3
  refine ⟨f, text, h1, h2, ?_⟩
  obtain ⟨preds, h5, h6⟩ := pyPredict_rows ops decode nan fuel (depth + 2) read hs "int16_t".toList int16_type.1 nFeatures (by omega) hfu hnf X hX.fits hX.row
    (fun x z => ∃ (features : List Int) (classes : List Nat) (k : Nat), x = .ints features ∧ List.Forall₂ (fun src cls => ∃ v, srcPredict (cmpInt features trunc) src = some v ∧ leafVal v = cls) trees classes ∧
      Plurality classes nClasses k ∧ z = k) (by
      intro row hr x hx
      obtain ⟨hl, ht, -⟩ := rowInput_some ops read "int16_t".toList row x hx
      cases x with
      | floats l => exact absurd ht int16_ne
      | ints l =>
        have hll : l.length = nFeatures := by rw [← (hX.row row hr).1, ← hl]; rfl
        obtain ⟨classes, k, h7, h8, h9⟩ := h4 l hll
        refine ⟨k, by omega, by have := h9.1; omega, ⟨l, classes, k, rfl, h7, h9, rfl⟩, ?_⟩
        rw [← h8]
        simp only [Input.array, Input.length, hll])
  refine ⟨preds, h5, h6.imp ?_⟩
  rintro row c ⟨x, z, hx, ⟨features, classes, k, rfl, h7, h8, rfl⟩, rfl⟩
  exact ⟨features, classes, k, hx, h7, h8, by simp⟩

/-- The features as integers. -/
theorem rowInput_int16 {ops : CFloat F} {read : ℚ → F} {row : List ℚ} {x : Input F} (hx : rowInput ops read "int16_t".toList row = some x) : ∃ l, x = .ints l ∧ l.length = row.length := by
  obtain ⟨hl, ht, -⟩ := rowInput_some ops read "int16_t".toList row x hx
  cases x with
  | floats l => exact absurd ht int16_ne
  | ints l => exact ⟨l, rfl, hl⟩

/-- **C110** (loadable classifier, probabilities) entry (row, class) of `predict_proba(X)` is entry `class` of what `eml_trees_predict_proba` computes for the row on the converted model, printed with six decimals,
when it computes probabilities for every row. -/
theorem C110_loadable_proba {L : Type} (ops : CFloat F) (decode : List Nat → Nat → Option F) (nan : F) (fuel depth : Nat) (read : ℚ → F) (val : F → ℚ) (f : Forest ℚ L) (nFeatures nClasses : Nat) (lb : Int) (bytes : List Nat)
    (ha : LoadArgs f "mytree".toList nFeatures nClasses ["static".toList, "const".toList] bytes) (hn0 : 1 ≤ nClasses) (hnf : 1 ≤ nFeatures) (hfu : nFeatures < fuel) (text : List Char)
    (h : generateLoadableText f "mytree".toList nFeatures nClasses lb "int16_t".toList true true "static const".toList bytes = some text) :
    ∃ m, generateLoadable trunc f bytes lb nFeatures nClasses = some m ∧ ∀ X : List (List ℚ), RowsOk ops read "int16_t".toList nFeatures X →
      (∀ row ∈ X, ∀ features, rowInput ops read "int16_t".toList row = some (.ints features) → ∃ ps, predictProba ops.toFOps m features nClasses = some (.ok ps)) →
      ∃ mat, pyProba ops decode nan fuel (depth + 3) read val (saveText text) "int16_t".toList nFeatures nClasses X = some mat ∧
        ∀ (i c : Nat) (row : List ℚ), X[i]? = some row → c < nClasses → ∃ (features : List Int) (ps : List F) (y : F), rowInput ops read "int16_t".toList row = some (.ints features) ∧
          predictProba ops.toFOps m features nClasses = some (.ok ps) ∧ ps[c]? = some y ∧ mat i c = some (fixedValue 6 (val y)) := by
  rw [← staticConst] at h
  obtain ⟨p, hs⟩ := savedProg_load f nFeatures nClasses lb true true _ _ text staticConst_mods ha.nodes ha.roots h
  obtain ⟨prog, m, h1, h2, h3⟩ := C89_loadable_proba ops f "mytree".toList nFeatures nClasses lb _ bytes text decode nan fuel depth ha h
  rw [savedProg_parse hs] at h1
  cases h1
  refine ⟨m, h2, ?_⟩
  intro X hX hps
  obtain ⟨-, -, -, c4, c5⟩ := ha.counts
  obtain ⟨mat, h4, h5⟩ := pyProba_rows ops decode nan fuel (depth + 2) read val hs "int16_t".toList int16_type.1 nFeatures c4 hfu hnf X hX.fits hX.row nClasses hn0 c5
    (fun x ps => ∃ features, x = .ints features ∧ predictProba ops.toFOps m features nClasses = some (.ok ps)) (by
      intro row hr x hx
      obtain ⟨l, rfl, hl⟩ := rowInput_int16 hx
      obtain ⟨ps, hp⟩ := hps row hr l hx
      refine ⟨ps, by simpa using predictProba_length ops m l nClasses ps hp, ⟨l, rfl, hp⟩, ?_⟩
      intro outs ho
      have hll : l.length = nFeatures := by rw [hl]; exact (hX.row row hr).1
      have := h3 l l.length outs (by omega) (by omega) (by omega)
      rw [ho, hp] at this
      exact this)
  refine ⟨mat, h4, ?_⟩
  intro i c row hi hc
  obtain ⟨x, ps, y, hx, ⟨l, rfl, hp⟩, h6, h7⟩ := h5 i c row hi hc
  exact ⟨l, ps, y, hx, hp, h6, h7⟩

/-- **C110** (loadable regressor) `predict(X)` returns for each row what `eml_trees_regress1` computes on the converted model, printed with six decimals (when it is a number). -/
theorem C110_loadable_regress {L : Type} (ops : CFloat F) (decode : List Nat → Nat → Option F) (nan : F) (fuel depth : Nat) (read : ℚ → F) (val : F → ℚ) (f : Forest ℚ L) (nFeatures nClasses : Nat) (lb : Int) (bytes : List Nat)
    (ha : LoadArgs f "mytree".toList nFeatures nClasses ["static".toList, "const".toList] bytes) (hnf : 1 ≤ nFeatures) (hfu : nFeatures < fuel) (text : List Char)
    (h : generateLoadableText f "mytree".toList nFeatures nClasses lb "int16_t".toList false true "static const".toList bytes = some text) :
    ∃ m, generateLoadable trunc f bytes lb nFeatures nClasses = some m ∧ ∀ X : List (List ℚ), RowsOk ops read "int16_t".toList nFeatures X →
      (∀ row ∈ X, ∀ features, rowInput ops read "int16_t".toList row = some (.ints features) → ∃ y, regress ops.toFOps m (decode bytes) features 1 = some (.ok y)) →
      ∃ preds, pyRegress ops decode nan fuel (depth + 3) read val (saveText text) "int16_t".toList nFeatures X = some preds ∧
        List.Forall₂ (fun row (q : ℚ) => ∃ (features : List Int) (y : F), rowInput ops read "int16_t".toList row = some (.ints features) ∧
          regress ops.toFOps m (decode bytes) features 1 = some (.ok y) ∧ q = fixedValue 6 (val y)) X preds := by
  rw [← staticConst] at h
  obtain ⟨p, hs⟩ := savedProg_load f nFeatures nClasses lb false true _ _ text staticConst_mods ha.nodes ha.roots h
  obtain ⟨prog, m, h1, h2, h3⟩ := C89_loadable_regress ops f "mytree".toList nFeatures nClasses lb _ bytes text decode nan fuel depth true ha h
  rw [savedProg_parse hs] at h1
  cases h1
  refine ⟨m, h2, ?_⟩
  intro X hX hps
  obtain ⟨-, -, -, c4, c5⟩ := ha.counts
  obtain ⟨preds, h4, h5⟩ := pyRegress_rows ops decode nan fuel (depth + 2) read val hs "int16_t".toList int16_type.1 nFeatures c4 hfu hnf X hX.fits hX.row
    (fun x y => ∃ features, x = .ints features ∧ regress ops.toFOps m (decode bytes) features 1 = some (.ok y)) (by
      intro row hr x hx
      obtain ⟨l, rfl, hl⟩ := rowInput_int16 hx
      obtain ⟨y, hp⟩ := hps row hr l hx
      refine ⟨y, ⟨l, rfl, hp⟩, ?_⟩
      have hll : l.length = nFeatures := by rw [hl]; exact (hX.row row hr).1
      have := h3 l l.length (by omega) (by omega)
      rw [hp] at this
      exact this)
  refine ⟨preds, h4, h5.imp ?_⟩
  rintro row q ⟨x, y, hx, ⟨l, rfl, hp⟩, rfl⟩
  exact ⟨l, y, hx, hp, rfl⟩

/-- **C110, refuted for other row lengths and for values outside the type.** `predict` does not check the number of columns or the range: a matrix with a row of more values than the model has features makes the compiled
program write outside its array, and a value whose integer part is not one of the (integer) type has no defined conversion. Nothing is defined about the result of the call. -/
theorem C110_columns_refuted {L : Type} (ops : CFloat F) (decode : List Nat → Nat → Option F) (nan : F) (fuel depth : Nat) (read : ℚ → F) (f : Forest ℚ L) (dtype : List Char) (nFeatures nClasses : Nat) (hd : DType dtype)
    (lb : Int) (num : L → ℚ) (bytes : List Nat) (text : List Char) (h : generateInlined f "mytree".toList nClasses lb dtype true true "static const".toList num bytes = some text)
    (X : List (List ℚ)) (hX : ∀ r ∈ X, r ≠ []) (hf : Fits X) (hbad : ∃ row ∈ X, row.length ≤ 2147483647 ∧ (nFeatures < row.length ∨ rowInput ops read dtype row = none)) :
    pyPredict ops decode nan fuel (depth + 1) read (saveText text) dtype nFeatures X = none := by
  rw [← staticConst] at h
  obtain ⟨p, hs⟩ := savedProg_inline f nClasses lb dtype true true _ _ _ text hd staticConst_mods h
  exact pyPredict_bad ops decode nan fuel depth read hs dtype hd.1 nFeatures X hf hX hbad

theorem C110_columns_loadable_refuted {L : Type} (ops : CFloat F) (decode : List Nat → Nat → Option F) (nan : F) (fuel depth : Nat) (read : ℚ → F) (f : Forest ℚ L) (nFeatures nClasses : Nat) (hnodes : f.nodes ≠ []) (hroots : f.roots ≠ [])
    (lb : Int) (bytes : List Nat) (text : List Char) (h : generateLoadableText f "mytree".toList nFeatures nClasses lb "int16_t".toList true true "static const".toList bytes = some text)
    (X : List (List ℚ)) (hX : ∀ r ∈ X, r ≠ []) (hf : Fits X) (hbad : ∃ row ∈ X, row.length ≤ 2147483647 ∧ (nFeatures < row.length ∨ rowInput ops read "int16_t".toList row = none)) :
    pyPredict ops decode nan fuel (depth + 1) read (saveText text) "int16_t".toList nFeatures X = none := by
  rw [← staticConst] at h
  obtain ⟨p, hs⟩ := savedProg_load f nFeatures nClasses lb true true _ _ text staticConst_mods hnodes hroots h
  exact pyPredict_bad ops decode nan fuel depth read hs "int16_t".toList int16_type.1 nFeatures X hf hX hbad

theorem intsOf_none {vs : List (Option (Val F))} (h : none ∈ vs) : intsOf vs = none := by
  unfold intsOf
  induction vs with
  | nil => cases h
  | cons a l ih =>
    rw [List.mapM_cons]
    rcases List.mem_cons.1 h with rfl | h
    · rfl
    · rw [ih h]
      cases a with
      | none => rfl
      | some v => cases v <;> rfl

theorem nFeatures_load {L : Type} {f : Forest ℚ L} {bytes : List Nat} {lb : Int} {nFeatures nClasses : Nat} {m : CModel} (h : generateLoadable trunc f bytes lb nFeatures nClasses = some m) : m.nFeatures = wrap8 nFeatures := by
  unfold generateLoadable at h
  cases hg : generateNodes trunc f.nodes with
  | none => rw [hg] at h; cases h
  | some ns => rw [hg] at h; cases h; rfl

/-- **C110, refuted for rows of fewer values** (loadable method): `predict` does not check the number of columns. With fewer values than features `eml_trees_predict` refuses the length and returns -3
(`-EmlTreesErrorLength`); `predict_wrapper` removes the sign, and every row is reported as class 3, whatever the model and the values. -/
theorem C110_short_rows_refuted {L : Type} (ops : CFloat F) (decode : List Nat → Nat → Option F) (nan : F) (fuel depth : Nat) (read : ℚ → F) (f : Forest ℚ L) (nFeatures nClasses : Nat) (lb : Int) (bytes : List Nat)
    (ha : LoadArgs f "mytree".toList nFeatures nClasses ["static".toList, "const".toList] bytes) (hnf : nFeatures ≤ 127) (text : List Char)
    (h : generateLoadableText f "mytree".toList nFeatures nClasses lb "int16_t".toList true true "static const".toList bytes = some text)
    (X : List (List ℚ)) (hf : Fits X) (hX : ∀ row ∈ X, row ≠ [] ∧ row.length < nFeatures ∧ (rowInput ops read "int16_t".toList row).isSome = true) (hfu : nFeatures < fuel) :
    pyPredict ops decode nan fuel (depth + 3) read (saveText text) "int16_t".toList nFeatures X = some (X.map fun _ => 3) := by
  rw [← staticConst] at h
  obtain ⟨p, hs⟩ := savedProg_load f nFeatures nClasses lb true true _ _ text staticConst_mods ha.nodes ha.roots h
  obtain ⟨rows, m, h1, h2, h3⟩ := load_prog ops f "mytree".toList nFeatures nClasses lb _ bytes text true true ha h
  rw [savedProg_parse hs] at h1
  have hm := nFeatures_load h2
  have hu : "mytree".toList ∉ usedNames := by decide +kernel
  have hfind := find_loadFunc "mytree".toList "int16_t".toList f.roots nFeatures nClasses lb true true ["static".toList, "const".toList] bytes rows (loadPredictFunc "mytree".toList "int16_t".toList) (by simp [loadFuncs])
  have hlib := find_lib "mytree".toList "int16_t".toList f.roots nFeatures nClasses lb true true ["static".toList, "const".toList] bytes rows hu "eml_trees_predict".toList (.inl rfl)
  rw [← Option.some.inj h1] at h3 hfind hlib
  unfold pyPredict
  rw [wrapCode_parse int16_type.1 nFeatures true (saveText text) p hs.lexes hs.ok]
  simp only
  refine predictIntU_eq _ (fun _ => 3) X (fun r hr => (hX r hr).1) hf ?_
  intro row hr
  obtain ⟨h4, h5, h6⟩ := hX row hr
  obtain ⟨x, hx⟩ := Option.isSome_iff_exists.1 h6
  obtain ⟨-, -, ws, h7, -⟩ := rowInput_some ops read "int16_t".toList row x hx
  have hl : (row.map (seen read)).length = row.length := by simp
  have hwl : ws.length = row.length := by rw [← h7.length_eq]; simp
  have hnone : (none : Option (Val F)) ∈ convArray ws nFeatures := by
    unfold convArray
    rw [List.mem_append]
    exact .inr (List.mem_replicate.2 ⟨by omega, rfl⟩)
  have key := call_simple ops "mytree".toList "int16_t".toList (treesLib ops decode nan p) p fuel depth ("mytree".toList ++ "_predict".toList) "eml_trees_predict".toList "int".toList "int32_t".toList
    (fun v => v = .int (-3)) hu (by rintro v rfl; exact conv_int32 ops (.inl rfl) _ (by omega) (by omega)) (by rintro v rfl; exact conv_int32 ops (.inr rfl) _ (by omega) (by omega)) (by decide +kernel)
    hfind hlib (convArray ws nFeatures) (row.map (seen read)).length (by omega) (by omega) (some (.int (-3))) (by
      unfold treesLib
      simp only
      rw [if_pos trivial, h3, intsOf_none hnone]
      simp only
      rw [if_pos]
      · rfl
      · refine ⟨trivial, rfl, ?_⟩
        rw [hm, hl, wrap8, wrap8]
        omega) (by rintro v hv; exact (Option.some.inj hv).symm)
  have h8 := callFunc_funcs ops (treesLib ops decode nan p) p (wrapFuncs true "int16_t".toList nFeatures) (treesLib_wrap ops decode nan p true "int16_t".toList nFeatures) fuel (depth + 2) _ _ _ key
  have h9 := call_predictWrap ops (treesLib ops decode nan p) (p ++ (wrapFuncs true "int16_t".toList nFeatures).map .func) fuel (depth + 2) "mytree".toList "int16_t".toList nFeatures (row.map (seen read)) ws
    (by omega) (by omega) (by omega) h7
    (wrapped_find hs true "int16_t".toList nFeatures (predictWrapF "mytree".toList "int16_t".toList nFeatures) (by simp [wrapFuncs])) (by decide +kernel) (-3) (by omega) (by omega) h8
  unfold predictCall
  rw [given_received, treesLib_funcs]
  simp only
  rw [h9]
  rfl

/-! ### Cases -/

/-- A model of two `int16_t` trees called on two rows: the values 7.9 and -9.4 become 7 and -9, and both trees vote for class 1; 12 and 9 reach classes 0 and 2. -/
example : ((generateInlined exTextHard "mytree".toList 3 0 "int16_t".toList true true "static const".toList (fun (c : Nat) => (c : ℚ)) (leafBytesHard exTextHard.leaves)).bind fun text =>
      pyPredict exactC (fun _ _ => none) 0 10 3 id (saveText text) "int16_t".toList 2 [[79/10, -94/10], [12, 9]]) = some [1, 0] := by
  decide +kernel

/-- The hypotheses hold for this model and matrix. -/
example : ModelOk "int16_t".toList 2 exTextHard ∧ RowsOk exactC id "int16_t".toList 2 [[79/10, -94/10], [12, 9]] ∧ (∀ c ∈ exTextHard.leaves, c < 3) ∧
    (generateInlined exTextHard "mytree".toList 3 0 "int16_t".toList true true "static const".toList (fun (c : Nat) => (c : ℚ)) (leafBytesHard exTextHard.leaves)).isSome = true := by
  refine ⟨⟨⟨by decide +kernel, by unfold NumType; decide +kernel⟩, by decide, by decide, exTextHard_ok, by decide, by decide, by decide, fun _ => by decide +kernel⟩, ⟨?_, by decide +kernel⟩, by decide, by decide +kernel⟩
  intro i row hi
  match i with
  | 0 => cases hi; decide +kernel
  | 1 => cases hi; decide +kernel
  | i + 2 => simp at hi

/-- The same model, loadable, called with one column: class 3, which the model does not even have. -/
example : ((generateLoadableText exTextHard "mytree".toList 2 3 0 "int16_t".toList true true "static const".toList (leafBytesHard exTextHard.leaves)).bind fun text =>
      pyPredict exactC (fun _ _ => none) 0 10 3 id (saveText text) "int16_t".toList 2 [[7], [12]]) = some [3, 3] := by
  decide +kernel

example : LoadArgs exTextHard "mytree".toList 2 3 ["static".toList, "const".toList] (leafBytesHard exTextHard.leaves) := by
  constructor <;> decide +kernel

/-- Probabilities of a model with `float` features and probability leaves: (10.25, 7.5) reaches leaves with means 0, 0.4 and 0.6. -/
example : ((generateInlined exTextSoft "mytree".toList 3 8 "float".toList true true "static const".toList (fun _ => 0) (leafBytesSoft exTextSoft.leaves)).bind fun text =>
      (pyProba exactC (fun _ _ => none) 0 10 3 id id (saveText text) "float".toList 2 3 [[41/4, 15/2]]).map fun m => [m 0 0, m 0 1, m 0 2]) = some [some 0, some (2/5), some (3/5)] := by
  decide +kernel

/-- A regressor: the leaf values 1.5 and -0.25 are reached. -/
example : ((generateInlined (⟨exTextHard.nodes, exTextHard.roots, [3/2, 7, -1/4]⟩ : Forest ℚ ℚ) "mytree".toList 0 32 "int16_t".toList false true "static const".toList id []).bind fun text =>
      pyRegress exactC (fun _ _ => none) 0 10 3 id id (saveText text) "int16_t".toList 2 [[12, 9]]) = some [5/8] := by
  decide +kernel

/-- Three columns for two features; a value that is no `int16_t`. -/
example : ((generateInlined exTextHard "mytree".toList 3 0 "int16_t".toList true true "static const".toList (fun (c : Nat) => (c : ℚ)) (leafBytesHard exTextHard.leaves)).map fun text =>
      (pyPredict exactC (fun _ _ => none) 0 10 3 id (saveText text) "int16_t".toList 2 [[7, 8, 9]], pyPredict exactC (fun _ _ => none) 0 10 3 id (saveText text) "int16_t".toList 2 [[40000, 8]])) =
    some (none, none) := by
  decide +kernel

end Emlearn.Trees
