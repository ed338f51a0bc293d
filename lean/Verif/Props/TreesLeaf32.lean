/- Property C120: tree regressors whose leaf values are stored as the bytes of `float` numbers, from the trained trees through the generated text to the value returned in C and in Python. -/
import Verif.Trees.Leaf32
import Verif.Props.FloatTrees
import Verif.Props.FloatNetText
import Verif.Props.TreesPython
import Verif.Harness.Read32
namespace Emlearn.Trees
open Emlearn.Flt Emlearn.Flt.Binary32 Emlearn.Cgen Emlearn.MiniC Emlearn.Harness

theorem finite_of_small {v : ℚ} (h : |v| ≤ 2 ^ 69) : |(rnd (v : ℝ)).val| ≤ maxFinite := by
  refine fl_fin _ ?_
  have : |(v : ℝ)| ≤ 2 ^ 69 := by exact_mod_cast h
  exact this.trans (le_trans (by norm_num) big)

/-- **C120** (the table) every leaf value that fits `float` is read back from the table as the nearest `float`, when the table starts at a multiple of 4. -/
theorem C120_leaf (leaves : List ℚ) (base : Nat) (hb : base % 4 = 0) (i : Nat) (v : ℚ) (h : leaves[i]? = some v) (hv : |(v : ℝ)| ≤ maxFinite) :
    loadLeaf base (leafBytes32 leaves) i = some (rnd v) := by
  have hf : |(rnd (v : ℝ)).val| ≤ maxFinite := fl_fin _ hv
  unfold loadLeaf
  rw [if_neg (by omega), leafBytes32_slice leaves i v h, ofLe4_le4 _ (toBits_lt _ hf), Option.bind_some, ofBits_toBits _ hf, Option.map_some, rnd_val]

/-- Only the alignment of the table decides, and a table that is not aligned has no defined value. -/
theorem loadLeaf_unaligned (base : Nat) (hb : base % 4 ≠ 0) (bytes : List Nat) (i : Nat) : loadLeaf base bytes i = none := by
  unfold loadLeaf
  rw [if_pos (by omega)]

theorem toBits_one : toBits (rnd 1) = 0x3f800000 := by
  have h1 : (rnd 1).val = 1 := by
    show fl 1 = 1
    exact fl_one
  have hu : ulpExp (1 : ℝ) = -23 := by unfold ulpExp; simp
  unfold toBits
  rw [h1, hu, if_neg one_ne_zero, if_neg (by norm_num), abs_one, show (1 : ℝ) / 2 ^ (-23 : ℤ) = ((2 ^ 23 : ℤ) : ℝ) by norm_num, Int.floor_intCast]
  norm_num
  decide

/-- **C120, refuted for big-endian processors**: the leaf 1 is read as a number below 1e-40. -/
theorem C120_big_endian_refuted : ∃ y, loadLeafBE 0 (leafBytes32 [1]) 0 = some y ∧ 0 < y.val ∧ y.val < 1 / 10 ^ 40 := by
  have hs : ((leafBytes32 [1]).drop (4 * 0)).take 4 = [0, 0, 0x80, 0x3f] := by
    rw [leafBytes32_slice [1] 0 1 rfl, Rat.cast_one, toBits_one]
    rfl
  have e : ofBits 0x803f = some (32831 * 2 ^ (-149 : ℤ)) := by norm_num [ofBits]
  refine ⟨rnd (32831 * 2 ^ (-149 : ℤ)), ?_, ?_⟩
  · unfold loadLeafBE
    rw [if_neg (by norm_num), hs]
    show ((ofLe4 [0x3f, 0x80, 0, 0]).bind ofBits).map rnd = _
    rw [show ofLe4 [0x3f, 0x80, 0, 0] = some 0x803f from rfl, Option.bind_some, e, Option.map_some]
  · have := fl_exact 32831 (-149) (by norm_num) (by norm_num)
    show 0 < fl _ ∧ fl _ < _
    push_cast at this
    rw [this]
    norm_num

/-- The mean of the rounded values is close to the mean of the values. -/
theorem mean_rounded (vals : List ℚ) (hne : vals ≠ []) :
    |meanOf (vals.map fun v : ℚ => (rnd (v : ℝ)).val) - meanOf (vals.map fun v : ℚ => (v : ℝ))| ≤ 1 / 2 ^ 24 * absMean (vals.map fun v : ℚ => (v : ℝ)) + 1 / 2 ^ 150 ∧
    absMean (vals.map fun v : ℚ => (rnd (v : ℝ)).val) ≤ (1 + 1 / 2 ^ 24) * absMean (vals.map fun v : ℚ => (v : ℝ)) + 1 / 2 ^ 150 := by
  have hn : (0 : ℝ) < vals.length := by exact_mod_cast List.length_pos_iff.2 hne
  have key : ∀ l : List ℚ, |(l.map fun v : ℚ => (rnd (v : ℝ)).val).sum - (l.map fun v : ℚ => (v : ℝ)).sum| ≤ 1 / 2 ^ 24 * absSum (l.map fun v : ℚ => (v : ℝ)) + l.length * (1 / 2 ^ 150) ∧
      absSum (l.map fun v : ℚ => (rnd (v : ℝ)).val) ≤ (1 + 1 / 2 ^ 24) * absSum (l.map fun v : ℚ => (v : ℝ)) + l.length * (1 / 2 ^ 150) := by
    intro l
    induction l with
    | nil => simp [absSum]
    | cons v l ih =>
      have hv := fl_error_any (v : ℝ)
      have hv' : |fl (v : ℝ)| ≤ |(v : ℝ)| + |fl (v : ℝ) - v| := by
        have := abs_add_le (v : ℝ) (fl v - v)
        rwa [add_sub_cancel] at this
      simp only [List.map_cons, List.sum_cons, absSum_cons, List.length_cons]
      push_cast
      have e : (rnd (v : ℝ)).val = fl v := rfl
      rw [e]
      refine ⟨?_, by linarith [ih.2]⟩
      have := abs_add_le (fl (v : ℝ) - v) ((l.map fun v : ℚ => (rnd (v : ℝ)).val).sum - (l.map fun v : ℚ => (v : ℝ)).sum)
      rw [show fl (v : ℝ) + (l.map fun v : ℚ => (rnd (v : ℝ)).val).sum - ((v : ℝ) + (l.map fun v : ℚ => (v : ℝ)).sum) =
        fl (v : ℝ) - v + ((l.map fun v : ℚ => (rnd (v : ℝ)).val).sum - (l.map fun v : ℚ => (v : ℝ)).sum) by ring]
      linarith [ih.1]
  obtain ⟨k1, k2⟩ := key vals
  unfold meanOf absMean
  simp only [List.length_map]
  constructor
  · rw [← sub_div, abs_div, abs_of_pos hn, div_le_iff₀ hn]
    refine k1.trans (le_of_eq ?_)
    field_simp
  · rw [div_le_iff₀ hn]
    refine k2.trans (le_of_eq ?_)
    field_simp

/-- **C120** (the library function) for every list of well-formed trained trees with leaf values up to `2^69`, up to four million of them: `eml_trees_regress` on the converted model, with its table of bytes at an aligned address, returns a
`float` that differs from the mean of the leaf values that the trained trees give by at most `(T+2)/2^23` of their mean magnitude (and `2^-148`). -/
theorem C120_converted_regress {Θ : Type} (zero : Θ) (quant : Θ → Int) (nClasses : Int) (trees : List (List (SrcNode Θ ℚ))) (hne : trees ≠ []) (hwf : ∀ src ∈ trees, SrcWF src) (hN : trees.length ≤ 2 ^ 22)
    (hleaf : ∀ src ∈ trees, ∀ row ∈ src, |row.value| ≤ 2 ^ 69) (features : List Int) (base : Nat) (hb : base % 4 = 0) :
    ∃ f, convertForest zero id trees = some f ∧
      ∀ m, Deployed quant f (leafBytes32 f.leaves) 32 nClasses features m →
        ∃ (vals : List ℚ) (y : F32), List.Forall₂ (fun src v => srcPredict (cmpInt features quant) src = some v) trees vals ∧
          regress treeOps m (loadLeaf base m.leaves) features 1 = some (.ok y) ∧
          |y.val - meanOf (vals.map fun v : ℚ => (v : ℝ))| ≤ (trees.length + 2) / 2 ^ 23 * absMean (vals.map fun v : ℚ => (v : ℝ)) + 1 / 2 ^ 148 := by
  obtain ⟨f, hf, hrl, hsim⟩ := C01_convert_same_leaf zero (id : ℚ → ℚ) trees hne hwf
  refine ⟨f, hf, ?_⟩
  intro m hd
  obtain ⟨_, _, e3, e4, e5, e6, e7⟩ := hd.eqs
  have hleafs : ∀ x ∈ f.leaves, |x| ≤ 2 ^ 69 := by
    intro x hx
    obtain ⟨src, hs, row, hr, -, rfl⟩ := convertForest_leaves zero id trees f hf x hx
    exact hleaf src hs row hr
  obtain ⟨go, hgo⟩ : ∃ go, cmpInt features quant = go := ⟨_, rfl⟩
  obtain ⟨val, hval⟩ : ∃ val : List (SrcNode Θ ℚ) → ℚ, val = fun src => (srcPredict go src).getD 0 := ⟨_, rfl⟩
  have hmlen : m.roots.length = trees.length := by rw [e3]; simp [hrl]
  have hroots : m.roots ≠ [] := by
    intro h
    rw [h] at hmlen
    exact hne (List.length_eq_zero_iff.mp hmlen.symm)
  have hpred : ∀ i (hi : i < trees.length), ∃ r, f.roots[i]? = some r ∧ srcPredict go trees[i] = some (val trees[i]) ∧ f.leaves[leafIndex go f r]? = some (val trees[i]) := by
    intro i hi
    obtain ⟨r, v, p1, p2, p3⟩ := hsim go i trees[i] (List.getElem?_eq_getElem hi)
    have hr : r ∈ f.roots := List.mem_of_getElem? p1
    have hleafI := leafIndex_spec go hd.ok hr
    refine ⟨r, p1, by rw [hval]; simp [p2], ?_⟩
    simp only [forestPredict, hleafI.1, Option.bind_some] at p3
    rw [p3, hval]
    simp [p2]
  have htr : List.Forall₂ (fun root v => ∃ leaf : Nat, m.tree features root = some (leaf : Int) ∧ loadLeaf base m.leaves leaf = some v) m.roots ((trees.map val).map fun v : ℚ => rnd (v : ℝ)) := by
    apply List.forall₂_iff_get.mpr
    refine ⟨by simp [hmlen], ?_⟩
    intro i h1 h2
    have hi : i < trees.length := by simpa using h2
    obtain ⟨r, p1, p2, p3⟩ := hpred i hi
    have ht := List.forall₂_iff_get.mp hd.trees
    have g := ht.2 i h1 (by rw [← ht.1]; exact h1)
    simp only [List.get_eq_getElem, List.getElem_map] at g ⊢
    have hi' : i < f.roots.length := by omega
    have er : f.roots[i] = r := by
      rw [List.getElem?_eq_getElem hi'] at p1
      exact Option.some.inj p1
    rw [er, hgo] at g
    refine ⟨leafIndex go f r, g, ?_⟩
    rw [e4]
    refine C120_leaf f.leaves base hb _ _ p3 ?_
    have : |((val trees[i] : ℚ) : ℝ)| ≤ 2 ^ 69 := by exact_mod_cast hleafs _ (List.mem_of_getElem? p3)
    exact this.trans (le_trans (by norm_num) big)
  have hvals : ∀ v ∈ trees.map val, |v| ≤ 2 ^ 69 := by
    intro v hv
    obtain ⟨src, hs, rfl⟩ := List.mem_map.1 hv
    obtain ⟨i, hi, rfl⟩ := List.mem_iff_getElem.1 hs
    obtain ⟨r, -, -, p3⟩ := hpred i hi
    exact hleafs _ (List.mem_of_getElem? p3)
  obtain ⟨y, hy1, hy2⟩ := C103_regress32 m (loadLeaf base m.leaves) features _ 1 (le_refl _) (by rw [e5]; simp) hroots (by omega) htr (by
    intro a ha
    obtain ⟨v, hv, rfl⟩ := List.mem_map.1 ha
    have h1 : |(v : ℝ)| ≤ 2 ^ 69 := by exact_mod_cast hvals v hv
    have h2 := fl_error_any (v : ℝ)
    have h3 : |fl (v : ℝ)| ≤ |(v : ℝ)| + |fl (v : ℝ) - v| := by
      have := abs_add_le (v : ℝ) (fl v - v)
      rwa [add_sub_cancel] at this
    show |fl (v : ℝ)| ≤ 2 ^ 70
    refine h3.trans ((add_le_add h1 (h2.trans (add_le_add (mul_le_mul_of_nonneg_left h1 (by positivity)) (le_refl _)))).trans ?_)
    norm_num)
  refine ⟨trees.map val, y, ?_, hy1, ?_⟩
  · rw [List.forall₂_map_right_iff, hgo]
    apply List.forall₂_same.mpr
    intro src hs
    obtain ⟨i, hi, rfl⟩ := List.mem_iff_getElem.1 hs
    obtain ⟨r, -, p2, -⟩ := hpred i hi
    exact p2
  · have hv0 : trees.map val ≠ [] := by simpa using hne
    obtain ⟨r1, r2⟩ := mean_rounded (trees.map val) hv0
    have hTR : (trees.length : ℝ) ≤ 2 ^ 22 := by exact_mod_cast hN
    rw [List.map_map] at hy2
    simp only [List.length_map] at hy2
    have ef : (F32.val ∘ fun v : ℚ => rnd (v : ℝ)) = fun v : ℚ => (rnd (v : ℝ)).val := rfl
    rw [ef] at hy2
    have hA : 0 ≤ absMean ((trees.map val).map fun v : ℚ => (v : ℝ)) := div_nonneg (absSum_nonneg _) (Nat.cast_nonneg _)
    have hT0 : (0 : ℝ) ≤ trees.length := Nat.cast_nonneg _
    generalize absMean ((trees.map val).map fun v : ℚ => (v : ℝ)) = A at r1 r2 hA ⊢
    generalize meanOf ((trees.map val).map fun v : ℚ => (v : ℝ)) = M at r1 ⊢
    generalize absMean ((trees.map val).map fun v : ℚ => (rnd (v : ℝ)).val) = A' at r2 hy2
    generalize meanOf ((trees.map val).map fun v : ℚ => (rnd (v : ℝ)).val) = M' at r1 hy2
    have t1 : |y.val - M| ≤ |y.val - M'| + |M' - M| := by
      have := abs_add_le (y.val - M') (M' - M)
      rwa [sub_add_sub_cancel] at this
    have t2 : ((trees.length : ℝ) + 1) / 2 ^ 23 * A' ≤ ((trees.length : ℝ) + 1) / 2 ^ 23 * ((1 + 1 / 2 ^ 24) * A + 1 / 2 ^ 150) := mul_le_mul_of_nonneg_left r2 (by positivity)
    have c1 : ((trees.length : ℝ) + 1) / 2 ^ 23 ≤ 1 := by rw [div_le_one (by positivity)]; linarith
    have t3 : ((trees.length : ℝ) + 1) / 2 ^ 23 * ((1 + 1 / 2 ^ 24) * A + 1 / 2 ^ 150) ≤ ((trees.length : ℝ) + 1) / 2 ^ 23 * A + (1 / 2 ^ 24 * A + 1 / 2 ^ 150) := by
      have : ((trees.length : ℝ) + 1) / 2 ^ 23 * (1 / 2 ^ 24 * A + 1 / 2 ^ 150) ≤ 1 * (1 / 2 ^ 24 * A + 1 / 2 ^ 150) := mul_le_mul_of_nonneg_right c1 (by positivity)
      linarith
    have t4 : ((trees.length : ℝ) + 2) / 2 ^ 23 * A = ((trees.length : ℝ) + 1) / 2 ^ 23 * A + 1 / 2 ^ 23 * A := by ring
    rw [t4]
    have t5 : (3 : ℝ) * (1 / 2 ^ 150) ≤ 1 / 2 ^ 148 := by norm_num
    have t6 : (1 : ℝ) / 2 ^ 23 * A = 2 * (1 / 2 ^ 24 * A) := by ring
    linarith

/-- **C120, refuted without alignment.** C gives an array of `uint8_t` no alignment, and the generated declaration asks for none: when the linker puts the table at an address that is not a multiple of 4, reading a leaf is undefined
behaviour for every model and every row. -/
theorem C120_aligned_refuted {Θ : Type} (quant : Θ → Int) (nClasses : Int) (f : Forest Θ ℚ) (hroots : f.roots ≠ []) (features : List Int) (m : CModel)
    (hd : Deployed quant f (leafBytes32 f.leaves) 32 nClasses features m) (base : Nat) (hb : base % 4 ≠ 0) : regress treeOps m (loadLeaf base m.leaves) features 1 = none := by
  obtain ⟨_, _, e3, e4, e5, e6, e7⟩ := hd.eqs
  have ht := hd.trees
  unfold regress
  rw [if_neg (by omega), if_neg (by rw [e5]; simp), Option.map_eq_none_iff]
  cases hm : m.roots with
  | nil =>
    rw [e3] at hm
    exact absurd (List.map_eq_nil_iff.1 hm) hroots
  | cons r rs =>
    rw [hm] at ht
    rw [List.foldlM_cons]
    generalize f.roots.map (leafIndex (cmpInt features quant) f) = ls at ht
    cases ht with
    | cons h1 h2 =>
      unfold TreeLeaf at h1
      simp only [h1, Option.bind_eq_bind, Option.bind_some]
      rw [if_neg (by omega), loadLeaf_unaligned base hb]
      rfl

/-- Conversion and generation of a regressor, and the arguments of the text theorems. -/
theorem load32 (trees : List (List (SrcNode ℚ ℚ))) (hne : trees ≠ []) (hwf : ∀ src ∈ trees, SrcWF src) (htl : trees.length ≤ 2147483647) (nFeatures nClasses : Nat) (hnf : 1 ≤ nFeatures) (hnf2 : nFeatures ≤ 127)
    (hnc : nClasses ≤ 127)
    (hfeat : ∀ src ∈ trees, ∀ row ∈ src, row.isLeaf = false → 0 ≤ row.feature ∧ row.feature < nFeatures ∧ -32768 ≤ trunc row.threshold ∧ trunc row.threshold ≤ 32767)
    (hsize : (trees.map (fun src => if src.length = 1 then 1 else src.countP (fun n => !n.isLeaf))).sum ≤ 32768) (hleaves : (trees.map (fun src => src.countP (fun n => n.isLeaf))).sum ≤ 32768)
    (name : List Char) (hv : assertValidIdentifier name = true) (hline : '\n' ∉ name) (hkey : isKey name = false)
    (hused : name ∉ ["features", "features_length", "out", "out_length", "err", "eml_trees"].map String.toList) (ws : List (List Char)) (hws : ∀ w ∈ ws, isMod w = true) (ip : Bool) :
    ∃ f text, convertForest 0 id trees = some f ∧ ForestOK f ∧ Packs trunc nFeatures f.nodes ∧
      generateLoadableText f name nFeatures nClasses 32 "int16_t".toList false ip ([' '].intercalate ws) (leafBytes32 f.leaves) = some text ∧ LoadArgs f name nFeatures nClasses ws (leafBytes32 f.leaves) := by
  obtain ⟨f, hf, hnodes, hok⟩ := C02_convert_refs_valid 0 (id : ℚ → ℚ) trees hne hwf
  obtain ⟨f', hf', hprov, hlen, hll, hnd⟩ := C02_convert_provenance 0 (id : ℚ → ℚ) trees hne hwf
  rw [hf] at hf'; cases hf'
  obtain ⟨f', hf', hrl, -⟩ := C01_convert_same_leaf 0 (id : ℚ → ℚ) trees hne hwf
  rw [hf] at hf'; cases hf'
  have hns : f.nodes.length ≤ 32768 := by omega
  have hpk := packs_of_source 0 trunc trees nFeatures f hok hprov hnf hnf2 hfeat (by simp [trunc]) hns
  obtain ⟨cs, hcs⟩ := C04_generation_accepts trunc f hok hns (by omega)
  obtain ⟨text, htext⟩ := generateLoadableText_some f name hv nFeatures nClasses 32 "int16_t".toList false ip ([' '].intercalate ws) (leafBytes32 f.leaves) cs hcs
  have hroots : f.roots ≠ [] := by
    intro h
    rw [h] at hrl
    exact hne (List.length_eq_zero_iff.1 hrl.symm)
  have hlv : f.leaves ≠ [] := by
    intro h
    obtain ⟨r, hr⟩ := List.exists_mem_of_ne_nil _ hroots
    have := (leafIndex_spec (fun _ _ => true) hok hr).2
    rw [h] at this
    exact absurd this (by simp)
  refine ⟨f, text, hf, hok, hpk, htext, hline, hkey, hused, hws, hnodes, ?_, ?_, hroots, ?_, ?_, leafBytes32_byte _, ?_⟩
  · intro n hn; have := hpk.feature n hn; omega
  · intro n hn; have := hpk.thresh n hn; omega
  · intro r hr; have := hok.roots r hr; omega
  · intro h
    have := leafBytes32_length f.leaves
    rw [h, List.length_nil] at this
    have := List.length_pos_iff.2 hlv
    omega
  · rw [leafBytes32_length]
    omega

/-- **C120** (the generated file) for every list of well-formed trained regression trees, up to four million of them, with at most 127 features, 32768 decision nodes and 32768 leaves, thresholds in the range of `int16_t` and leaf
values up to `2^69`: conversion and code generation succeed, the written text is a C program, and for every feature vector `<name>_predict` returns, with binary32 `float` and an aligned table, the mean of the values
of the trained trees (comparing with truncated thresholds) up to `(T+2)/2^23` of their mean magnitude. -/
theorem C120_end_to_end (trees : List (List (SrcNode ℚ ℚ))) (hne : trees ≠ []) (hwf : ∀ src ∈ trees, SrcWF src) (hN : trees.length ≤ 2 ^ 22) (nFeatures nClasses : Nat) (hnf : 1 ≤ nFeatures) (hnf2 : nFeatures ≤ 127)
    (hnc : nClasses ≤ 127) (hleaf : ∀ src ∈ trees, ∀ row ∈ src, |row.value| ≤ 2 ^ 69)
    (hfeat : ∀ src ∈ trees, ∀ row ∈ src, row.isLeaf = false → 0 ≤ row.feature ∧ row.feature < nFeatures ∧ -32768 ≤ trunc row.threshold ∧ trunc row.threshold ≤ 32767)
    (hsize : (trees.map (fun src => if src.length = 1 then 1 else src.countP (fun n => !n.isLeaf))).sum ≤ 32768) (hleaves : (trees.map (fun src => src.countP (fun n => n.isLeaf))).sum ≤ 32768)
    (name : List Char) (hv : assertValidIdentifier name = true) (hline : '\n' ∉ name) (hkey : isKey name = false)
    (hused : name ∉ ["features", "features_length", "out", "out_length", "err", "eml_trees"].map String.toList) (ws : List (List Char)) (hws : ∀ w ∈ ws, isMod w = true) (ip : Bool)
    (base : Nat) (hb : base % 4 = 0) (nan : F32) (fuel depth : Nat) :
    ∃ f text prog, convertForest 0 id trees = some f ∧
      generateLoadableText f name nFeatures nClasses 32 "int16_t".toList false ip ([' '].intercalate ws) (leafBytes32 f.leaves) = some text ∧ parse (saveText text) = some prog ∧
      ∀ features : List Int, features.length = nFeatures → ∃ (vals : List ℚ) (y : F32),
        List.Forall₂ (fun src v => srcPredict (cmpInt features trunc) src = some v) trees vals ∧
        callFunc c32 (treesLib c32 (loadLeaf base) nan prog) prog fuel (depth + 2) (name ++ "_predict".toList) [.arr "int16_t".toList (features.map fun z => some (.int z)), .num (.int nFeatures)] =
          some (.flt y, []) ∧
        |y.val - meanOf (vals.map fun v : ℚ => (v : ℝ))| ≤ (trees.length + 2) / 2 ^ 23 * absMean (vals.map fun v : ℚ => (v : ℝ)) + 1 / 2 ^ 148 := by
  obtain ⟨f, text, hf, hok, hpk, htext, ha⟩ := load32 trees hne hwf (by omega) nFeatures nClasses hnf hnf2 hnc hfeat hsize hleaves name hv hline hkey hused ws hws ip
  obtain ⟨prog, m, h1, h2, h3⟩ := C89_loadable_regress c32 f name nFeatures nClasses 32 ws (leafBytes32 f.leaves) text (loadLeaf base) nan fuel depth ip ha htext
  refine ⟨f, text, prog, hf, htext, h1, ?_⟩
  intro features hfl
  obtain ⟨f', hf', h7⟩ := C120_converted_regress 0 trunc nClasses trees hne hwf hN hleaf features base hb
  rw [hf] at hf'; cases hf'
  have hd : Deployed trunc f (leafBytes32 f.leaves) 32 nClasses features m := ⟨hok, by rw [hfl]; exact h2, by rw [hfl]; exact hpk, by omega, by omega, by omega⟩
  obtain ⟨vals, y, g1, g2, g3⟩ := h7 m hd
  refine ⟨vals, y, g1, ?_, g3⟩
  rw [hd.eqs.2.2.2.1] at g2
  rw [h3 features nFeatures (by omega) (by omega), show c32.toFOps = treeOps from rfl, g2]
  rfl

/-- **C120** (from Python) for such a model `predict(X)` returns one number per row: the mean of the values that the trained trees give for the integer parts of the row's values, up to the rounding of `float` and half a millionth (six
printed decimals). -/
theorem C120_python (trees : List (List (SrcNode ℚ ℚ))) (hne : trees ≠ []) (hwf : ∀ src ∈ trees, SrcWF src) (hN : trees.length ≤ 2 ^ 22) (nFeatures nClasses : Nat) (hnf : 1 ≤ nFeatures) (hnf2 : nFeatures ≤ 127)
    (hnc : nClasses ≤ 127) (hleaf : ∀ src ∈ trees, ∀ row ∈ src, |row.value| ≤ 2 ^ 69)
    (hfeat : ∀ src ∈ trees, ∀ row ∈ src, row.isLeaf = false → 0 ≤ row.feature ∧ row.feature < nFeatures ∧ -32768 ≤ trunc row.threshold ∧ trunc row.threshold ≤ 32767)
    (hsize : (trees.map (fun src => if src.length = 1 then 1 else src.countP (fun n => !n.isLeaf))).sum ≤ 32768) (hleaves : (trees.map (fun src => src.countP (fun n => n.isLeaf))).sum ≤ 32768)
    (base : Nat) (hb : base % 4 = 0) (nan : F32) (fuel depth : Nat) (hfu : nFeatures < fuel) (X : List (List ℚ)) (hX : RowsOk c32 f32Read "int16_t".toList nFeatures X) :
    ∃ f text, convertForest 0 id trees = some f ∧
      generateLoadableText f "mytree".toList nFeatures nClasses 32 "int16_t".toList false true "static const".toList (leafBytes32 f.leaves) = some text ∧
      ∃ preds, pyRegress c32 (loadLeaf base) nan fuel (depth + 3) f32Read f32Val (saveText text) "int16_t".toList nFeatures X = some preds ∧
        List.Forall₂ (fun row (q : ℚ) => ∃ (features : List Int) (vals : List ℚ), rowInput c32 f32Read "int16_t".toList row = some (.ints features) ∧
          List.Forall₂ (fun src v => srcPredict (cmpInt features trunc) src = some v) trees vals ∧
          |(q : ℝ) - meanOf (vals.map fun v : ℚ => (v : ℝ))| ≤ (trees.length + 2) / 2 ^ 23 * absMean (vals.map fun v : ℚ => (v : ℝ)) + 1 / 2 ^ 148 + 1 / (2 * 10 ^ 6)) X preds := by
  obtain ⟨f, text, hf, hok, hpk, htext, ha⟩ := load32 trees hne hwf (by omega) nFeatures nClasses hnf hnf2 hnc hfeat hsize hleaves "mytree".toList (by decide +kernel) (by decide +kernel)
    (by decide +kernel) (by decide +kernel) ["static".toList, "const".toList] staticConst_mods true
  rw [staticConst] at htext
  obtain ⟨m, h2, h3⟩ := C110_loadable_regress c32 (loadLeaf base) nan fuel depth f32Read f32Val f nFeatures nClasses 32 (leafBytes32 f.leaves) ha hnf hfu text htext
  refine ⟨f, text, hf, htext, ?_⟩
  have key : ∀ features : List Int, features.length = nFeatures → ∃ (vals : List ℚ) (y : F32), List.Forall₂ (fun src v => srcPredict (cmpInt features trunc) src = some v) trees vals ∧
      regress treeOps m (loadLeaf base (leafBytes32 f.leaves)) features 1 = some (.ok y) ∧
      |y.val - meanOf (vals.map fun v : ℚ => (v : ℝ))| ≤ (trees.length + 2) / 2 ^ 23 * absMean (vals.map fun v : ℚ => (v : ℝ)) + 1 / 2 ^ 148 := by
    intro features hfl
    obtain ⟨f', hf', h7⟩ := C120_converted_regress 0 trunc nClasses trees hne hwf hN hleaf features base hb
    rw [hf] at hf'; cases hf'
    have hd : Deployed trunc f (leafBytes32 f.leaves) 32 nClasses features m := ⟨hok, by rw [hfl]; exact h2, by rw [hfl]; exact hpk, by omega, by omega, by omega⟩
    obtain ⟨vals, y, g1, g2, g3⟩ := h7 m hd
    rw [hd.eqs.2.2.2.1] at g2
    exact ⟨vals, y, g1, g2, g3⟩
  have hlen : ∀ row ∈ X, ∀ features : List Int, rowInput c32 f32Read "int16_t".toList row = some (.ints features) → features.length = nFeatures := by
    intro row hr features hx
    obtain ⟨l, h4, h5⟩ := rowInput_int16 hx
    cases h4
    rw [h5, (hX.row row hr).1]
  obtain ⟨preds, h4, h5⟩ := h3 X hX (by
    intro row hr features hx
    obtain ⟨vals, y, -, g2, -⟩ := key features (hlen row hr features hx)
    exact ⟨y, g2⟩)
  refine ⟨preds, h4, ?_⟩
  have h6 := List.forall₂_iff_get.1 h5
  refine List.forall₂_iff_get.2 ⟨h6.1, ?_⟩
  intro i i1 i2
  obtain ⟨features, y, hx, g2, hq⟩ := h6.2 i i1 i2
  obtain ⟨vals, y', g1, g2', g3⟩ := key features (hlen _ (List.get_mem X ⟨i, i1⟩) features hx)
  rw [show c32.toFOps = treeOps from rfl, g2'] at g2
  cases g2
  refine ⟨features, vals, hx, g1, ?_⟩
  rw [hq]
  have c := fixedValue_close 6 (f32Val y)
  have c' : |((fixedValue 6 (f32Val y) : ℚ) : ℝ) - ((f32Val y : ℚ) : ℝ)| ≤ 1 / (2 * 10 ^ 6) := by
    have h' : ((|fixedValue 6 (f32Val y) - f32Val y| : ℚ) : ℝ) ≤ ((1 / (2 * 10 ^ 6) : ℚ) : ℝ) := by exact_mod_cast c
    push_cast at h'
    exact h'
  have hv : ((f32Val y : ℚ) : ℝ) = y.val := (f32_rational y).choose_spec
  rw [hv] at c'
  have := abs_add_le (((fixedValue 6 (f32Val y) : ℚ) : ℝ) - y.val) (y.val - meanOf (vals.map fun v : ℚ => (v : ℝ)))
  rw [sub_add_sub_cancel] at this
  linarith

/-! ### Non-vacuity: two trees with leaves 1/3, -7/2 and 10 -/

def exReg : List (SrcNode ℚ ℚ) := [⟨1, 2, 0, 21/2, 0⟩, ⟨-1, -1, -2, -2, 1/3⟩, ⟨3, 4, 1, -5/2, 0⟩, ⟨-1, -1, -2, -2, -7/2⟩, ⟨-1, -1, -2, -2, 10⟩]

theorem exReg_wf : ∀ src ∈ [exReg, exReg], SrcWF src := by
  intro src h
  simp at h
  subst h
  constructor
  · simp [exReg]
  · intro i n hn hl
    match i with
    | 0 | 1 | 2 | 3 | 4 => simp [exReg] at hn; subst hn; revert hl; simp [SrcNode.isLeaf]
    | i + 5 => simp [exReg] at hn
  · have : childRefs exReg = (List.range' 1 (exReg.length - 1)).map Int.ofNat := by decide
    rw [this]

/-- The theorems apply: with features (7, -9) both trees reach the leaf 1/3, and the program returns 1/3 up to one millionth. -/
example : ∃ (text : List Char) (prog : Prog) (y : F32),
    (convertForest 0 id [exReg, exReg]).bind (fun f => generateLoadableText f "model".toList 2 0 32 "int16_t".toList false true "static const".toList (leafBytes32 f.leaves)) = some text ∧ parse (saveText text) = some prog ∧
    callFunc c32 (treesLib c32 (loadLeaf 4096) (rnd 0) prog) prog 0 2 "model_predict".toList [.arr "int16_t".toList [some (.int 7), some (.int (-9))], .num (.int 2)] = some (.flt y, []) ∧ |y.val - 1 / 3| ≤ 1 / 10 ^ 6 := by
  obtain ⟨f, text, prog, h1, h2, h3, h4⟩ := C120_end_to_end [exReg, exReg] (by simp) exReg_wf (by simp) 2 0 (by omega) (by omega) (by omega) (by decide +kernel) (by decide +kernel) (by decide) (by decide)
    "model".toList (by decide +kernel) (by decide +kernel) (by decide +kernel) (by decide +kernel) ["static".toList, "const".toList] staticConst_mods true 4096 (by norm_num) (rnd 0) 0 0
  obtain ⟨vals, y, h5, h6, h7⟩ := h4 [7, -9] rfl
  rw [staticConst] at h2
  refine ⟨text, prog, y, by rw [h1, Option.bind_some, h2], h3, h6, ?_⟩
  have e : srcPredict (cmpInt [7, -9] trunc) exReg = some (1/3) := by decide +kernel
  match vals, h5 with
  | [a, b], .cons ha (.cons hb .nil) =>
    rw [e] at ha hb
    cases ha
    cases hb
    have hm : meanOf ([(1/3 : ℚ), 1/3].map fun v : ℚ => (v : ℝ)) = 1 / 3 := by norm_num [meanOf]
    have hs : absMean ([(1/3 : ℚ), 1/3].map fun v : ℚ => (v : ℝ)) = 1 / 3 := by norm_num [absMean, absSum]
    rw [hm, hs] at h7
    refine h7.trans ?_
    norm_num

/-- The matrix of one row (7, -9) is accepted. -/
example : RowsOk c32 f32Read "int16_t".toList 2 [[7, -9]] := by
  have h7 : c32.toInt (seen f32Read 7) = some 7 := by
    have e : (seen f32Read 7).val = 7 := by
      show fl ((fixedValue 8 7 : ℚ) : ℝ) = 7
      rw [show fixedValue 8 7 = 7 by decide +kernel]
      simpa using fl_exact 7 0 (by norm_num) (by norm_num)
    show some (if 0 ≤ (seen f32Read 7).val then ⌊(seen f32Read 7).val⌋ else ⌈(seen f32Read 7).val⌉) = some 7
    rw [e]
    norm_num
  have h9 : c32.toInt (seen f32Read (-9)) = some (-9) := by
    have e : (seen f32Read (-9)).val = -9 := by
      show fl ((fixedValue 8 (-9) : ℚ) : ℝ) = -9
      rw [show fixedValue 8 (-9) = -9 by decide +kernel]
      simpa using fl_exact (-9) 0 (by norm_num) (by norm_num)
    show some (if 0 ≤ (seen f32Read (-9)).val then ⌊(seen f32Read (-9)).val⌋ else ⌈(seen f32Read (-9)).val⌉) = some (-9)
    rw [e]
    norm_num
  constructor
  · intro i row hi
    match i with
    | 0 => cases hi; decide +kernel
    | i + 1 => simp at hi
  · intro row hr
    simp only [List.mem_singleton] at hr
    subst hr
    refine ⟨rfl, ?_⟩
    unfold rowInput
    rw [if_neg int16_ne, show intRange "int16_t".toList = some (-32768, 32767) by decide +kernel]
    simp [mapOpt, h7, h9]

end Emlearn.Trees
