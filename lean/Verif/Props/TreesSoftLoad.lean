/- C89 and C110 with probability leaves, end to end: from trained trees whose leaves are rows of bytes to the loadable C file and to `predict`/`predict_proba` called from Python
(`trees.py` 325-345, 581-683; `eml_trees.h` 117-235). -/
import Verif.Props.TreesPython
import Verif.Props.TreesText
namespace Emlearn.Trees
open Emlearn.Cgen Emlearn.MiniC Emlearn.Harness
variable {F : Type}

/-- The mean over the trees of the probabilities that the leaves `rows` give to class `c` (one byte each), in `float`: summed in the order of the trees, then divided by their number. -/
def softShare (ops : CFloat F) (rows : List (List Nat)) (c : Nat) : F := ops.div (softTotal ops rows c) (ops.ofInt rows.length)

/-- The winning class of shares: the first of those with the largest share, which is positive; or `none` if no share is positive. -/
def Wins [LinearOrder F] (zero : F) (n : Nat) (share : Nat → F) : Option Nat → Prop
  | none => ∀ k, k < n → share k ≤ zero
  | some k => k < n ∧ zero < share k ∧ (∀ j, j < n → share j ≤ share k) ∧ ∀ j, j < k → share j < share k

/-- The number of the winning class, `no` if there is none. -/
def classNumber (w : Option Nat) (no : Int) : Int := match w with | some k => k | none => no

/-- What the library computes on a deployed model with probability leaves. -/
theorem deployed_soft (ops : CFloat F) (f : Forest ℚ (List Nat)) (lb nClasses : Nat) (hlb : lb ≠ 0) (hlb2 : lb ≠ 32) (hrow : ∀ row ∈ f.leaves, row.length = nClasses ∧ ∀ b ∈ row, b < 256)
    (features : List Int) (m : CModel) (hd : Deployed trunc f (leafBytesSoft f.leaves) lb nClasses features m) :
    ∃ rows, List.Forall₂ (fun r row => forestPredict (cmpInt features trunc) f r = some row) f.roots rows ∧
      predictProba ops.toFOps m features nClasses = some (.ok ((List.range nClasses).map (softShare ops rows))) := by
  obtain ⟨rows, h1, h2, h3⟩ := forest_leaves (cmpInt features trunc) hd.ok
  refine ⟨rows, h1, ?_⟩
  obtain ⟨-, -, e3, e4, e5, -, e7⟩ := hd.eqs
  have e5' : m.leafBits = 8 := by rw [e5, if_neg (by omega)]
  have hsum := soft_rows ops (leafBytesSoft f.leaves) nClasses rows _ (soft_leaves f nClasses hrow _ rows f.roots h2) (fun _ => ops.zero)
  have hf := soft_fold ops.toFOps m features _ hd.trees (List.replicate nClasses ops.zero)
  have hrl : m.roots.length = rows.length := by rw [e3, List.length_map]; exact h1.length_eq
  unfold predictProba
  rw [if_neg (by rw [e7]; simp), e5', if_neg (by decide), if_pos rfl]
  simp only [Int.toNat_natCast]
  rw [hf, e7, e4]
  simp only [Int.toNat_natCast]
  have : (f.roots.map (leafIndex (cmpInt features trunc) f)).foldlM (fun o i => (List.range nClasses).foldlM (fun o c => ((leafBytesSoft f.leaves)[i * nClasses + c]?).bind
      (fun b => addAt ops.toFOps o c (ops.div (ops.ofInt b) (ops.ofInt 255)))) o) (List.replicate nClasses ops.zero) = some ((List.range nClasses).map (softTotal ops rows)) := by
    have e : (fun (o : List F) (i : Nat) => (List.range nClasses).foldlM (fun o c => ((leafBytesSoft f.leaves)[i * nClasses + c]?).bind
      (fun b => addAt ops.toFOps o c (ops.div (ops.ofInt b) (ops.ofInt 255)))) o) = fun o i => (List.range nClasses).foldlM (softAt ops.toFOps (leafBytesSoft f.leaves) (nClasses * i)) o := by
      funext o i
      congr 1
      funext o c
      rw [Nat.mul_comm i nClasses]
      unfold softAt
      cases (leafBytesSoft f.leaves)[nClasses * i + c]? <;> rfl
    rw [e]
    rw [List.map_const', List.length_range] at hsum
    exact hsum
  rw [this]
  simp only [Option.map_some, List.map_map, hrl]
  rfl

theorem deployed_soft_class [LinearOrder F] (ops : CFloat F) (hlt : ∀ a b : F, ops.lt a b = decide (a < b)) (nClasses : Nat) (hn : nClasses ≤ 30) (share : Nat → F) (m : CModel) (features : List Int)
    (h7 : m.nClasses = nClasses) (h6 : m.nFeatures = features.length)
    (h : predictProba ops.toFOps m features nClasses = some (.ok ((List.range nClasses).map share))) :
    ∃ w, Wins ops.zero nClasses share w ∧ predict ops.toFOps m features features.length = some (classNumber w (-1)) := by
  have e : ops.lt = fun a b => decide (a < b) := by funext a b; exact hlt a b
  have hp : predict ops.toFOps m features features.length = some (argmaxLoop ops.lt ((List.range nClasses).map share) 0 (-1) ops.zero) := by
    unfold predict
    rw [if_neg (by rw [h6]; simp), if_neg (by rw [h7]; omega), h7, h]
  rw [hp, e]
  rcases argmaxLoop_spec ((List.range nClasses).map share) 0 (-1) ops.zero with ⟨h1, h2⟩ | ⟨c, h1, v, h2, h3, h4, h5⟩
  · refine ⟨none, fun k hk => h2 _ (List.mem_map.2 ⟨k, List.mem_range.2 hk, rfl⟩), by rw [h1]; rfl⟩
  · have hc : c < nClasses := by
      have := (List.getElem?_eq_some_iff.1 h2).1
      simpa using this
    have key : ∀ j, j < nClasses → ((List.range nClasses).map share)[j]? = some (share j) := by
      intro j hj
      rw [List.getElem?_map, List.getElem?_range hj]
      rfl
    rw [key c hc] at h2
    cases h2
    refine ⟨some c, ⟨hc, h3, fun j hj => h4 j _ (key j hj), fun j hj => h5 j _ hj (key j (by omega))⟩, ?_⟩
    rw [h1]
    simp [classNumber]

/-- **C89** (end to end, probability leaves) for every list of well-formed trained trees whose leaves hold one byte per class, with at most 127 features, 30 classes, 32768 decision nodes and 32768 leaves, and thresholds
in the range of `int16_t`: conversion and code generation succeed, the written text is a C program, and for every feature vector `<name>_predict_proba` fills the buffer with the mean over the trained trees of
the probabilities (bytes over 255) of the leaves that they reach, comparing with truncated thresholds; `<name>_predict` returns the first class of those with the largest mean, or -1 if no mean is positive.
The means are those of `float` arithmetic, whatever it is. -/
theorem C89_end_to_end_soft [LinearOrder F] {V : Type} (ops : CFloat F) (hlt : ∀ a b : F, ops.lt a b = decide (a < b)) (leafVal : V → List Nat) (trees : List (List (SrcNode ℚ V))) (hne : trees ≠ [])
    (hwf : ∀ src ∈ trees, SrcWF src) (htl : trees.length ≤ 2147483647) (nFeatures nClasses : Nat) (hnf : 1 ≤ nFeatures) (hnf2 : nFeatures ≤ 127) (hn0 : 1 ≤ nClasses) (hnc : nClasses ≤ 30)
    (hleaf : ∀ src ∈ trees, ∀ row ∈ src, row.isLeaf = true → (leafVal row.value).length = nClasses ∧ ∀ b ∈ leafVal row.value, b < 256)
    (hfeat : ∀ src ∈ trees, ∀ row ∈ src, row.isLeaf = false → 0 ≤ row.feature ∧ row.feature < nFeatures ∧ -32768 ≤ trunc row.threshold ∧ trunc row.threshold ≤ 32767)
    (hsize : (trees.map (fun src => if src.length = 1 then 1 else src.countP (fun n => !n.isLeaf))).sum ≤ 32768) (hsize2 : (trees.map (fun src => src.countP (fun n => n.isLeaf))).sum ≤ 32768)
    (name : List Char) (hv : assertValidIdentifier name = true) (hline : '\n' ∉ name) (hkey : isKey name = false)
    (hused : name ∉ ["features", "features_length", "out", "out_length", "err", "eml_trees"].map String.toList) (ws : List (List Char)) (hws : ∀ w ∈ ws, isMod w = true) (lb : Nat) (hlb : lb ≠ 0) (hlb2 : lb ≠ 32)
    (decode : List Nat → Nat → Option F) (nan : F) (fuel depth : Nat) :
    ∃ f text prog, convertForest 0 leafVal trees = some f ∧
      generateLoadableText f name nFeatures nClasses lb "int16_t".toList true true ([' '].intercalate ws) (leafBytesSoft f.leaves) = some text ∧ parse (saveText text) = some prog ∧
      ∀ features : List Int, features.length = nFeatures → ∃ (rows : List (List Nat)) (w : Option Nat),
        List.Forall₂ (fun src row => ∃ v, srcPredict (cmpInt features trunc) src = some v ∧ leafVal v = row) trees rows ∧ Wins ops.zero nClasses (softShare ops rows) w ∧
        callFunc ops (treesLib ops decode nan prog) prog fuel (depth + 2) (name ++ "_predict".toList) [.arr "int16_t".toList (features.map fun z => some (.int z)), .num (.int nFeatures)] =
          some (.int (classNumber w (-1)), []) ∧
        ∀ outs : List (Option (Val F)), outs.length = nClasses →
          callFunc ops (treesLib ops decode nan prog) prog fuel (depth + 2) (name ++ "_predict_proba".toList)
            [.arr "int16_t".toList (features.map fun z => some (.int z)), .num (.int nFeatures), .arr "float".toList outs, .num (.int nClasses)] =
          some (.int 0, [(2, (List.range nClasses).map fun c => some (.flt (softShare ops rows c)))]) := by
  obtain ⟨f, hf, hnodes, hok⟩ := C02_convert_refs_valid 0 leafVal trees hne hwf
  obtain ⟨f', hf', hprov, hlen, hlen2, -⟩ := C02_convert_provenance 0 leafVal trees hne hwf
  rw [hf] at hf'; cases hf'
  obtain ⟨f', hf', hrl, hsim⟩ := C01_convert_same_leaf 0 leafVal trees hne hwf
  rw [hf] at hf'; cases hf'
  have hrow : ∀ x ∈ f.leaves, x.length = nClasses ∧ ∀ b ∈ x, b < 256 := by
    intro x hx
    obtain ⟨src, hs, row, hr, hl, rfl⟩ := convertForest_leaves 0 leafVal trees f hf x hx
    exact hleaf src hs row hr hl
  have hll : f.leaves.length ≤ 32768 := by omega
  have hns : f.nodes.length ≤ 32768 := by omega
  have hpk := packs_of_source 0 trunc trees nFeatures f hok hprov hnf hnf2 hfeat (by simp [trunc]) hns
  obtain ⟨cs, hcs⟩ := C04_generation_accepts trunc f hok hns hll
  obtain ⟨text, htext⟩ := generateLoadableText_some f name hv nFeatures nClasses lb "int16_t".toList true true ([' '].intercalate ws) (leafBytesSoft f.leaves) cs hcs
  have hroots : f.roots ≠ [] := by
    intro h
    rw [h] at hrl
    exact hne (List.length_eq_zero_iff.1 hrl.symm)
  have hbl : (leafBytesSoft f.leaves).length = f.leaves.length * nClasses := by
    unfold leafBytesSoft
    rw [List.length_map, List.length_flatten, List.map_congr_left (g := fun _ => nClasses) (fun x hx => (hrow x hx).1), List.map_const']
    simp
  have hbl2 : f.leaves.length * nClasses ≤ 32768 * 30 := Nat.mul_le_mul hll hnc
  have ha : LoadArgs f name nFeatures nClasses ws (leafBytesSoft f.leaves) := by
    refine ⟨hline, hkey, hused, hws, hnodes, ?_, ?_, hroots, ?_, leafBytesSoft_ne f hok hroots nClasses hn0 hrow (fun _ _ => true), leafBytesSoft_lt _, ?_⟩
    · intro n hn; have := hpk.feature n hn; omega
    · intro n hn; have := hpk.thresh n hn; omega
    · intro r hr; have := hok.roots r hr; omega
    · exact ⟨by omega, by omega, by omega, by omega, by omega⟩
  obtain ⟨prog, m, h1, h2, h3⟩ := C89_loadable_predict ops f name nFeatures nClasses lb ws (leafBytesSoft f.leaves) text decode nan fuel depth true ha htext
  obtain ⟨prog', m', h1', h2', h4⟩ := C89_loadable_proba ops f name nFeatures nClasses lb ws (leafBytesSoft f.leaves) text decode nan fuel depth ha htext
  rw [h1] at h1'; cases h1'
  rw [h2] at h2'; cases h2'
  refine ⟨f, text, prog, hf, htext, h1, ?_⟩
  intro features hfl
  have hd : Deployed trunc f (leafBytesSoft f.leaves) lb nClasses features m := ⟨hok, by rw [hfl]; exact h2, by rw [hfl]; exact hpk, by omega, by omega, by omega⟩
  obtain ⟨-, -, -, -, -, e6, e7⟩ := hd.eqs
  obtain ⟨rows, g1, g2⟩ := deployed_soft ops f lb nClasses hlb hlb2 hrow features m hd
  obtain ⟨w, g3, g4⟩ := deployed_soft_class ops hlt nClasses hnc (softShare ops rows) m features e7 e6 g2
  refine ⟨rows, w, ?_, g3, ?_, ?_⟩
  · rw [List.forall₂_iff_get]
    refine ⟨by rw [← g1.length_eq, hrl], ?_⟩
    intro i hi hi'
    obtain ⟨r, v, q1, q2, q3⟩ := hsim (cmpInt features trunc) i (trees.get ⟨i, hi⟩) (by simp)
    refine ⟨v, q2, ?_⟩
    have hri : i < f.roots.length := by omega
    have := (List.forall₂_iff_get.1 g1).2 i hri hi'
    rw [List.getElem?_eq_getElem hri] at q1
    cases q1
    simp only [List.get_eq_getElem] at this ⊢
    rw [q3] at this
    exact Option.some.inj this
  · rw [h3 features nFeatures (by omega) (by omega), wrap8_id (by omega) (by omega), ← hfl, g4]
    rfl
  · intro outs ho
    have := h4 features nFeatures outs (by omega) (by omega) (by omega)
    rw [ho, g2] at this
    simp only [List.map_map] at this
    exact this

/-- In exact arithmetic the mean is the mean: the sum of the bytes of the class over 255, over the number of trees. -/
theorem softShare_exact (rows : List (List Nat)) (c : Nat) : softShare exactC rows c = ((rows.map fun r => ((r.getD c 0 : Nat) : ℚ) / 255).sum) / rows.length := by
  have key : ∀ (acc : ℚ), rows.foldl (fun s (row : List Nat) => s + ((row.getD c 0 : Nat) : ℚ) / 255) acc = acc + (rows.map fun r => ((r.getD c 0 : Nat) : ℚ) / 255).sum := by
    induction rows with
    | nil => intro acc; simp
    | cons r rows ih => intro acc; rw [List.foldl_cons, ih, List.map_cons, List.sum_cons, add_assoc]
  have h := key 0
  rw [zero_add] at h
  unfold softShare softTotal
  simp only [exactC, exactOps] at h ⊢
  rw [← h]
  simp

/-- **C110** (loadable classifier, probability leaves, from the trained trees) under the conditions of `C89_end_to_end_soft`: conversion and code generation succeed, `predict(X)` returns for each row the first of the classes
with the largest mean probability — and class 1 when no mean is positive, because the wrapper drops the sign of -1 — and entry (row, class) of `predict_proba(X)` is the mean, printed with six decimals. -/
theorem C110_loadable_soft [LinearOrder F] {V : Type} (ops : CFloat F) (hlt : ∀ a b : F, ops.lt a b = decide (a < b)) (leafVal : V → List Nat) (trees : List (List (SrcNode ℚ V))) (hne : trees ≠ [])
    (hwf : ∀ src ∈ trees, SrcWF src) (htl : trees.length ≤ 2147483647) (nFeatures nClasses : Nat) (hnf : 1 ≤ nFeatures) (hnf2 : nFeatures ≤ 127) (hn0 : 1 ≤ nClasses) (hnc : nClasses ≤ 30)
    (hleaf : ∀ src ∈ trees, ∀ row ∈ src, row.isLeaf = true → (leafVal row.value).length = nClasses ∧ ∀ b ∈ leafVal row.value, b < 256)
    (hfeat : ∀ src ∈ trees, ∀ row ∈ src, row.isLeaf = false → 0 ≤ row.feature ∧ row.feature < nFeatures ∧ -32768 ≤ trunc row.threshold ∧ trunc row.threshold ≤ 32767)
    (hsize : (trees.map (fun src => if src.length = 1 then 1 else src.countP (fun n => !n.isLeaf))).sum ≤ 32768) (hsize2 : (trees.map (fun src => src.countP (fun n => n.isLeaf))).sum ≤ 32768)
    (lb : Nat) (hlb : lb ≠ 0) (hlb2 : lb ≠ 32)
    (decode : List Nat → Nat → Option F) (nan : F) (fuel depth : Nat) (hfu : nFeatures < fuel) (read : ℚ → F) (val : F → ℚ) (X : List (List ℚ)) (hX : RowsOk ops read "int16_t".toList nFeatures X) :
    ∃ f text, convertForest 0 leafVal trees = some f ∧
      generateLoadableText f "mytree".toList nFeatures nClasses lb "int16_t".toList true true "static const".toList (leafBytesSoft f.leaves) = some text ∧
      (∃ preds, pyPredict ops decode nan fuel (depth + 3) read (saveText text) "int16_t".toList nFeatures X = some preds ∧
        List.Forall₂ (fun row (c : Int) => ∃ (features : List Int) (rows : List (List Nat)) (w : Option Nat), rowInput ops read "int16_t".toList row = some (.ints features) ∧
          List.Forall₂ (fun src r => ∃ v, srcPredict (cmpInt features trunc) src = some v ∧ leafVal v = r) trees rows ∧ Wins ops.zero nClasses (softShare ops rows) w ∧
          c = classNumber w 1) X preds) ∧
      ∃ mat, pyProba ops decode nan fuel (depth + 3) read val (saveText text) "int16_t".toList nFeatures nClasses X = some mat ∧
        ∀ (i c : Nat) (row : List ℚ), X[i]? = some row → c < nClasses → ∃ (features : List Int) (rows : List (List Nat)), rowInput ops read "int16_t".toList row = some (.ints features) ∧
          List.Forall₂ (fun src r => ∃ v, srcPredict (cmpInt features trunc) src = some v ∧ leafVal v = r) trees rows ∧ mat i c = some (fixedValue 6 (val (softShare ops rows c))) := by
  obtain ⟨f, text, prog, h1, h2, h3, h4⟩ := C89_end_to_end_soft ops hlt leafVal trees hne hwf htl nFeatures nClasses hnf hnf2 hn0 hnc hleaf hfeat hsize hsize2 "mytree".toList (by decide +kernel) (by decide +kernel)
    (by decide +kernel) (by decide +kernel) ["static".toList, "const".toList] staticConst_mods lb hlb hlb2 decode nan fuel depth
  obtain ⟨f', hf', hnodes, hok⟩ := C02_convert_refs_valid 0 leafVal trees hne hwf
  rw [h1] at hf'; cases hf'
  obtain ⟨f', hf', hrl, -⟩ := C01_convert_same_leaf 0 leafVal trees hne hwf
  rw [h1] at hf'; cases hf'
  have hroots : f.roots ≠ [] := by
    intro h
    rw [h] at hrl
    exact hne (List.length_eq_zero_iff.1 hrl.symm)
  obtain ⟨p, hs⟩ := savedProg_load f nFeatures nClasses lb true true _ _ text staticConst_mods hnodes hroots h2
  rw [staticConst] at h2
  rw [savedProg_parse hs] at h3
  cases h3
  refine ⟨f, text, h1, h2, ?_, ?_⟩
  · obtain ⟨preds, h5, h6⟩ := pyPredict_rows ops decode nan fuel (depth + 2) read hs "int16_t".toList int16_type.1 nFeatures (by omega) hfu hnf X hX.fits hX.row
      (fun x z => ∃ (features : List Int) (rows : List (List Nat)) (w : Option Nat), x = .ints features ∧
        List.Forall₂ (fun src r => ∃ v, srcPredict (cmpInt features trunc) src = some v ∧ leafVal v = r) trees rows ∧ Wins ops.zero nClasses (softShare ops rows) w ∧
        z = classNumber w (-1)) (by
        intro row hr x hx
        obtain ⟨l, rfl, hl⟩ := rowInput_int16 hx
        have hll : l.length = nFeatures := by rw [hl]; exact (hX.row row hr).1
        obtain ⟨rows, w, h7, h8, h9, -⟩ := h4 l hll
        refine ⟨classNumber w (-1), ?_, ?_, ⟨l, rows, w, rfl, h7, h8, rfl⟩, ?_⟩
        · cases w with
          | none => decide
          | some k => simp only [classNumber]; omega
        · cases w with
          | none => decide
          | some k => have := h8.1; simp only [classNumber]; omega
        · rw [← h9]
          simp only [Input.array, Input.length, hll])
    refine ⟨preds, h5, h6.imp ?_⟩
    rintro row c ⟨x, z, hx, ⟨features, rows, w, rfl, h7, h8, rfl⟩, rfl⟩
    refine ⟨features, rows, w, hx, h7, h8, ?_⟩
    cases w with
    | none => rfl
    | some k => simp [classNumber]
  · obtain ⟨mat, h5, h6⟩ := pyProba_rows ops decode nan fuel (depth + 2) read val hs "int16_t".toList int16_type.1 nFeatures (by omega) hfu hnf X hX.fits hX.row nClasses hn0 (by omega)
      (fun x ps => ∃ (features : List Int) (rows : List (List Nat)), x = .ints features ∧
        List.Forall₂ (fun src r => ∃ v, srcPredict (cmpInt features trunc) src = some v ∧ leafVal v = r) trees rows ∧ ps = (List.range nClasses).map (softShare ops rows)) (by
        intro row hr x hx
        obtain ⟨l, rfl, hl⟩ := rowInput_int16 hx
        have hll : l.length = nFeatures := by rw [hl]; exact (hX.row row hr).1
        obtain ⟨rows, w, h7, -, -, h9⟩ := h4 l hll
        refine ⟨(List.range nClasses).map (softShare ops rows), by simp, ⟨l, rows, rfl, h7, rfl⟩, ?_⟩
        intro outs ho
        have := h9 outs ho
        simp only [Input.array, Input.length, hll, List.map_map]
        exact this)
    refine ⟨mat, h5, ?_⟩
    intro i c row hi hc
    obtain ⟨x, ps, y, hx, ⟨l, rows, rfl, h7, rfl⟩, h8, h9⟩ := h6 i c row hi hc
    refine ⟨l, rows, hx, h7, ?_⟩
    rw [h9]
    rw [List.getElem?_map, List.getElem?_range hc] at h8
    cases h8
    rfl

/-! ### Cases -/

/-- A trained tree over two features with three classes. -/
def exSrcSoft : List (SrcNode ℚ (List Nat)) := [⟨1, 2, 0, 21/2, []⟩, ⟨-1, -1, -2, -2, [0, 204, 51]⟩, ⟨3, 4, 1, -5/2, []⟩, ⟨-1, -1, -2, -2, [255, 0, 0]⟩, ⟨-1, -1, -2, -2, [51, 102, 102]⟩]

theorem exSrcSoft_wf : SrcWF exSrcSoft := by
  constructor
  · simp [exSrcSoft]
  · intro i n hn hl
    match i with
    | 0 | 1 | 2 | 3 | 4 => simp [exSrcSoft] at hn; subst hn; revert hl; simp [SrcNode.isLeaf]
    | i + 5 => simp [exSrcSoft] at hn
  · have : childRefs exSrcSoft = (List.range' 1 (exSrcSoft.length - 1)).map Int.ofNat := by decide
    rw [this]

/-- The hypotheses hold for a forest of this tree and a tree that is a single leaf. -/
example : ([exSrcSoft, [⟨-1, -1, -2, -2, [0, 0, 255]⟩]].all fun src => src.all fun row => !row.isLeaf || (row.value.length = 3 ∧ ∀ b ∈ row.value, b < 256)) = true ∧
    (∀ src ∈ [exSrcSoft, exSrcSoft], ∀ row ∈ src, row.isLeaf = false → 0 ≤ row.feature ∧ row.feature < 2 ∧ -32768 ≤ trunc row.threshold ∧ trunc row.threshold ≤ 32767) ∧
    (([exSrcSoft, exSrcSoft].map (fun src => if src.length = 1 then 1 else src.countP (fun n => !n.isLeaf))).sum ≤ 32768) := by
  refine ⟨by decide, by decide +kernel, by decide⟩

/-- The forest from trees to C and back: features (7, -9) reach (0, 204, 51) and (0, 0, 255), with means 0, 0.4 and 0.6. -/
example : ((convertForest 0 id [exSrcSoft, [⟨-1, -1, -2, -2, [0, 0, 255]⟩]]).bind fun f =>
      (generateLoadableText f "mytree".toList 2 3 8 "int16_t".toList true true "static const".toList (leafBytesSoft f.leaves)).bind fun text =>
        (pyProba exactC (fun _ _ => none) 0 10 3 id id (saveText text) "int16_t".toList 2 3 [[79/10, -94/10]]).map fun m => [m 0 0, m 0 1, m 0 2]) = some [some 0, some (2/5), some (3/5)] := by
  decide +kernel

end Emlearn.Trees
