/- Properties C55 (option validation), C61 (CSV model export), C62 (model size). -/
import Verif.Props.TreesInfer
import Verif.Trees.Wrapper
namespace Emlearn.Trees
variable {Θ V L : Type}

/-! ### C55 -/

/-- What the documentation promises about acceptance. -/
def OptionsOK (nFeatures : Nat) (method dtype : Option String) : Prop :=
  (method = none ∨ method = some "inline" ∨ method = some "loadable") ∧
  (method = some "loadable" → (dtype = none ∨ dtype = some "int16_t") ∧ nFeatures ≤ 127) ∧
  (method ≠ some "loadable" → nFeatures ≤ 10000)

/-- **C55** (part) The constructor accepts exactly the documented options, applies the documented defaults, and for an accepted loadable model the feature count fits `int8_t`.
Missing (and false, see `C55_refuted`): the class count of an accepted loadable model need not fit `int8_t`. -/
theorem C55_options_validated_partial (isRegressor : Bool) (nFeatures nClasses : Nat) (method dtype : Option String) (leafBits : Option Int) :
    ((wrapperInit isRegressor nFeatures nClasses method dtype leafBits).isSome ↔ OptionsOK nFeatures method dtype) ∧
    ∀ w, wrapperInit isRegressor nFeatures nClasses method dtype leafBits = some w →
      (method = none → w.method = "inline") ∧ (∀ s, method = some s → w.method = s) ∧
      (dtype = none → w.dtype = "int16_t") ∧ (∀ s, dtype = some s → w.dtype = s) ∧
      (w.method = "loadable" → w.dtype = "int16_t" ∧ wrap8 w.nFeatures = w.nFeatures) ∧
      w.nFeatures = nFeatures ∧ (w.isClassifier = !isRegressor) ∧ (isRegressor = false → w.nClasses = nClasses) ∧ (isRegressor = true → w.nClasses = 0) ∧
      (leafBits = some 1 → w.leafBits = 0) ∧
      (leafBits = none → w.leafBits = if isRegressor then 32 else 0) ∧
      (∀ b, leafBits = some b → b ≠ 1 → w.leafBits = b) ∧
      (w.leaf = .probabilities ↔ (isRegressor = false ∧ 0 < w.leafBits ∧ w.leafBits ≤ 8)) ∧
      (w.leaf = .value ↔ isRegressor = true) := by
  constructor
  · unfold wrapperInit OptionsOK
    rcases method with _ | m
    · simp only [Option.getD_none]
      simp only [show ("inline" = "loadable") = False by decide, show ("inline" = "inline") = True by simp]
      by_cases h : nFeatures > 10000 <;> simp [h] <;> omega
    · simp only [Option.getD_some, Option.some.injEq]
      by_cases h1 : m = "loadable"
      · subst h1
        rcases dtype with _ | d
        · by_cases h : nFeatures > 127 <;> simp [h] <;> omega
        · by_cases h2 : d = "int16_t"
          · subst h2
            by_cases h : nFeatures > 127 <;> simp [h] <;> omega
          · simp [h2]
      · by_cases h2 : m = "inline"
        · subst h2
          by_cases h : nFeatures > 10000 <;> simp [h] <;> omega
        · simp [h1, h2]
  · intro w hw
    unfold wrapperInit at hw
    simp only at hw
    split at hw
    · simp at hw
    · rename_i hm
      split at hw
      · simp at hw
      · rename_i hd
        by_cases hf : nFeatures > (if method.getD "inline" = "loadable" then 127 else 10000)
        · rw [if_pos hf] at hw; simp at hw
        · rw [if_neg hf] at hw
          simp only [Option.some.injEq] at hw
          subst hw
          simp only
          refine ⟨?_, ?_, ?_, ?_, ?_, trivial, trivial, ?_, ?_, ?_, ?_, ?_, ?_, ?_⟩
          · rintro rfl; rfl
          · rintro s rfl; rfl
          · rintro rfl; rfl
          · rintro s rfl; rfl
          · intro hl
            constructor
            · by_contra h; exact hd ⟨hl, h⟩
            · rw [if_pos hl] at hf
              exact wrap8_id (by omega) (by omega)
          · rintro rfl; rfl
          · rintro rfl; rfl
          · rintro rfl; rfl
          · rintro rfl; cases isRegressor <;> rfl
          · rintro b rfl hb
            simp [normLeafBits, hb]
          · cases isRegressor <;> simp
          · cases isRegressor
            · simp; split <;> simp
            · simp

/-- **C55 is false in general**: a classifier with 200 classes is accepted for `method='loadable'`, but the `int8_t n_classes` field of the generated
struct then holds -56, and `eml_trees_predict_proba` refuses the 200-element output buffer. -/
theorem C55_refuted : ∃ (w : WrapperCfg) (m : CModel), wrapperInit false 2 200 (some "loadable") none none = some w ∧
    generateLoadable id exForest (leafBytesHard exForest.leaves) w.leafBits w.nFeatures w.nClasses = some m ∧
    m.nClasses = -56 ∧ ∀ (F : Type) (ops : FOps F) (features : List Int), predictProba ops m features 200 = some (.error .sizeMismatch) := by
  refine ⟨⟨"loadable", "int16_t", true, 0, .argmax, 2, 200⟩, ⟨exModel.nodes, exModel.roots, exModel.leaves, 0, 2, -56⟩, by decide, by decide, rfl, ?_⟩
  intro F ops features
  rfl

example : OptionsOK 5 (some "loadable") none ∧ ¬ OptionsOK 200 (some "loadable") none ∧ ¬ OptionsOK 5 (some "loadable") (some "float") ∧
    ¬ OptionsOK 5 (some "jit") none ∧ OptionsOK 200 none (some "float") := by
  simp [OptionsOK]

/-! ### C61 -/

/-- A decoded model file: header numbers, leaf texts, roots, and nodes with absolute children and threshold texts. -/
structure CsvModel where
  nFeatures : List Int
  nClasses : List Int
  leafBits : List Int
  leaves : List (List Char)
  roots : List Int
  nodes : List (Int × List Char × Int × Int)
  deriving DecidableEq, Repr

/-- Rows of a text: lines (carriage returns dropped) split at commas. -/
def csvRows (text : List Char) : List (List (List Char)) :=
  ((text.filter (· ≠ '\r')).splitOn '\n').map (fun l => l.splitOn ',')

/-- Rows with the given tag and one integer field. -/
def taggedInts (tag : List Char) (rows : List (List (List Char))) : List Int :=
  rows.filterMap (fun r => match r with
    | [t, x] => if t = tag then readInt x else none
    | _ => none)

/-- A node row. -/
def nodeRow (r : List (List Char)) : Option (Int × List Char × Int × Int) :=
  match r with
  | [['n'], f, t, l, r] => (readInt f).bind fun f => (readInt l).bind fun l => (readInt r).map fun r => (f, t, l, r)
  | _ => none

/-- Reading a model file back: children are relative to the node when non-negative. -/
def decodeCsv (text : List Char) : CsvModel :=
  let rows := csvRows text
  { nFeatures := taggedInts ['f'] rows
    nClasses := taggedInts ['c'] rows
    leafBits := taggedInts ['l', 'b'] rows
    leaves := rows.filterMap (fun r => match r with
      | [['l'], x] => some x
      | _ => none)
    roots := taggedInts ['r'] rows
    nodes := (rows.filterMap nodeRow).mapIdx (fun i n => (n.1, n.2.1, decodeChild i n.2.2.1, decodeChild i n.2.2.2)) }

/-- Text that can stand in a field. -/
def FieldOK (s : List Char) : Prop := ',' ∉ s ∧ '\n' ∉ s ∧ '\r' ∉ s

theorem fieldOK_int (i : Int) : FieldOK (showInt i) :=
  ⟨showInt_not_sep (by decide) (by decide), showInt_not_sep (by decide) (by decide), showInt_not_sep (by decide) (by decide)⟩

theorem filter_intercalate (lines : List (List Char)) (h : ∀ l ∈ lines, '\r' ∉ l) :
    (['\r', '\n'].intercalate lines).filter (· ≠ '\r') = ['\n'].intercalate lines := by
  have hf : ∀ l : List Char, '\r' ∉ l → l.filter (· ≠ '\r') = l := by
    intro l hl
    apply List.filter_eq_self.mpr
    intro c hc
    simp only [ne_eq, decide_not, Bool.not_eq_eq_eq_not, Bool.not_true, decide_eq_false_iff_not]
    rintro rfl; exact hl hc
  induction lines with
  | nil => rfl
  | cons l rest ih =>
    have h0 := hf l (h l (by simp))
    have ih' := ih (fun x hx => h x (by simp [hx]))
    cases rest with
    | nil => simp only [List.intercalate, List.intersperse, List.flatten_cons, List.flatten_nil, List.append_nil]; exact h0
    | cons l2 rest =>
      have e : ∀ (sep : List Char), sep.intercalate (l :: l2 :: rest) = l ++ sep ++ sep.intercalate (l2 :: rest) := by
        intro sep; simp [List.intercalate, List.intersperse]
      rw [e, e, List.filter_append, List.filter_append, h0, ih']
      rfl

theorem mem_intercalate {x : Char} {sep : List Char} {ls : List (List Char)} (h : x ∈ sep.intercalate ls) :
    x ∈ sep ∨ ∃ l ∈ ls, x ∈ l := by
  unfold List.intercalate at h
  rw [List.mem_flatten] at h
  obtain ⟨l, hl, hx⟩ := h
  have : l = sep ∨ l ∈ ls := by
    clear hx
    induction ls with
    | nil => simp at hl
    | cons a rest ih =>
      cases rest with
      | nil => simp at hl; right; simp [hl]
      | cons b rest =>
        have he : List.intersperse sep (a :: b :: rest) = a :: sep :: List.intersperse sep (b :: rest) := rfl
        rw [he] at hl
        simp only [List.mem_cons] at hl
        rcases hl with rfl | rfl | hl
        · right; simp
        · left; rfl
        · rcases ih hl with h | h
          · exact Or.inl h
          · right; exact List.mem_cons_of_mem _ h
  rcases this with rfl | h
  · exact Or.inl hx
  · exact Or.inr ⟨l, h, hx⟩

/-- Splitting undoes joining for rows of well-formed fields. -/
theorem csvRows_join (rows : List (List (List Char))) (hne : rows ≠ []) (h : ∀ r ∈ rows, r ≠ [] ∧ ∀ x ∈ r, FieldOK x) :
    csvRows (['\r', '\n'].intercalate (rows.map csvLine)) = rows := by
  have nr : ∀ l ∈ rows.map csvLine, '\r' ∉ l ∧ '\n' ∉ l := by
    intro l hl
    simp only [List.mem_map] at hl
    obtain ⟨r, hr, rfl⟩ := hl
    constructor
    · intro hx
      rcases mem_intercalate hx with h1 | ⟨y, hy, hx⟩
      · simp at h1
      · exact ((h r hr).2 y hy).2.2 hx
    · intro hx
      rcases mem_intercalate hx with h1 | ⟨y, hy, hx⟩
      · simp at h1
      · exact ((h r hr).2 y hy).2.1 hx
  unfold csvRows
  rw [filter_intercalate _ (fun l hl => (nr l hl).1), List.splitOn_intercalate _ (fun l hl => (nr l hl).2) (by simp [hne]), List.map_map]
  conv_rhs => rw [← List.map_id rows]
  apply List.map_congr_left
  intro r hr
  simp only [Function.comp_apply, csvLine, id]
  exact List.splitOn_intercalate _ (fun x hx => ((h r hr).2 x hx).1) (h r hr).1

theorem encodeChild_decode (p : Nat) (c e : Int) (h : encodeChild p c = some e) : decodeChild p e = c := by
  unfold encodeChild assertValidChild at h
  unfold decodeChild
  split_ifs at h <;> simp only [Option.some.injEq] at h <;> subst h
  · rw [if_pos (by omega)]; omega
  · rw [if_neg (by omega)]

theorem serializeNodesFrom_spec (showTh : Θ → List Char) (hth : ∀ t, FieldOK (showTh t)) (nodes : List (Node (Option Θ))) (i : Nat)
    (h : ∀ (p : Nat) (n : Node (Option Θ)), nodes[p]? = some n →
      (∃ t, n.threshold = some t) ∧ (∃ e, encodeChild (i + p) n.left = some e) ∧ (∃ e, encodeChild (i + p) n.right = some e)) :
    ∃ ls, serializeNodesFrom showTh i nodes = some ls ∧ (∀ r ∈ ls, r ≠ [] ∧ r.head? = some ['n'] ∧ r.length = 5 ∧ ∀ x ∈ r, FieldOK x) ∧
      ((ls.filterMap nodeRow).mapIdx (fun k n => (n.1, n.2.1, decodeChild (i + k) n.2.2.1, decodeChild (i + k) n.2.2.2)))
        = nodes.map (fun n => (n.feature, (n.threshold.map showTh).getD [], n.left, n.right)) := by
  induction nodes generalizing i with
  | nil => exact ⟨[], rfl, by simp, by simp⟩
  | cons n rest ih =>
    obtain ⟨⟨t, ht⟩, ⟨l, hl⟩, ⟨r, hr⟩⟩ := h 0 n rfl
    obtain ⟨ls, h1, h2, h3⟩ := ih (i + 1) (by
      intro p n hp
      have := h (p + 1) n (by simpa using hp)
      rw [show i + (p + 1) = i + 1 + p by omega] at this
      exact this)
    rw [Nat.add_zero] at hl hr
    have hs : serializeNode showTh i n = some [['n'], showInt n.feature, showTh t, showInt l, showInt r] := by
      unfold serializeNode
      simp only [hl, hr, ht, Option.bind_eq_bind, Option.bind_some]
    refine ⟨[['n'], showInt n.feature, showTh t, showInt l, showInt r] :: ls, ?_, ?_, ?_⟩
    · unfold serializeNodesFrom
      rw [hs]
      simp only [Option.bind_eq_bind, Option.bind_some]
      rw [h1]
      rfl
    · intro x hx
      simp only [List.mem_cons] at hx
      rcases hx with rfl | hx
      · refine ⟨by simp, rfl, rfl, ?_⟩
        intro y hy
        simp only [List.mem_cons, List.not_mem_nil, or_false] at hy
        rcases hy with rfl | rfl | rfl | rfl | rfl
        · exact ⟨by decide, by decide, by decide⟩
        · exact fieldOK_int _
        · exact hth t
        · exact fieldOK_int _
        · exact fieldOK_int _
      · exact h2 x hx
    · have hn : nodeRow [['n'], showInt n.feature, showTh t, showInt l, showInt r] = some (n.feature, showTh t, l, r) := by
        simp [nodeRow, readInt_showInt]
      rw [List.filterMap_cons, hn]
      simp only [List.mapIdx_cons, List.map_cons, Nat.add_zero]
      congr 1
      · rw [encodeChild_decode i _ _ hl, encodeChild_decode i _ _ hr, ht]; rfl
      · rw [← h3]
        congr 1
        funext k m
        rw [show i + 1 + k = i + (k + 1) by omega]

/-- **C61** (part) For every valid forest with at most 32768 decision nodes and leaves whose thresholds are all numpy floats (no single-node tree), whose threshold and leaf
texts contain no separators, CSV export succeeds and decoding the text gives back the feature count, class count, leaf bits, leaf texts, roots, and every node's feature, threshold text and
absolute children.  Missing: forests with a single-node tree, for which export raises (`C61_refuted`). -/
theorem C61_csv_export_round_trip_partial (showTh : Θ → List Char) (showLeaf : L → List Char)
    (hth : ∀ t, FieldOK (showTh t)) (hleaf : ∀ l, FieldOK (showLeaf l)) (nFeatures nClasses leafBits : Int)
    (f : Forest (Option Θ) L) (hok : ForestOK f) (hn : f.nodes.length ≤ 32768) (hl : f.leaves.length ≤ 32768)
    (hnp : ∀ n ∈ f.nodes, n.threshold ≠ none) :
    ∃ text, saveCsv showTh showLeaf nFeatures nClasses leafBits f = some text ∧
      decodeCsv text =
        { nFeatures := [nFeatures], nClasses := [nClasses], leafBits := [leafBits], leaves := f.leaves.map showLeaf,
          roots := f.roots.map (fun r => (r : Int)),
          nodes := f.nodes.map (fun n => (n.feature, (n.threshold.map showTh).getD [], n.left, n.right)) } := by
  obtain ⟨ls, h1, h2, h3⟩ := serializeNodesFrom_spec showTh hth f.nodes 0 (by
    intro p n hp
    have hplt := (List.getElem?_eq_some_iff.mp hp).1
    obtain ⟨r1, r2⟩ := hok.refs p n hp
    unfold RefOK at r1 r2
    refine ⟨Option.ne_none_iff_exists'.mp (hnp n (List.mem_of_getElem? hp)), ?_, ?_⟩
    · apply encodeChild_isSome <;> intro h0 <;> have := r1.1 <;> have := r1.2 <;> omega
    · apply encodeChild_isSome <;> intro h0 <;> have := r2.1 <;> have := r2.2 <;> omega)
  refine ⟨_, by unfold saveCsv; rw [h1]; rfl, ?_⟩
  unfold decodeCsv
  rw [csvRows_join]
  · simp only [Nat.zero_add] at h3
    have hN : ∀ (tag : List Char), ls.filterMap (fun r => match r with
        | [t, x] => if t = tag then readInt x else none
        | _ => none) = ([] : List Int) := by
      intro tag
      rw [List.filterMap_eq_nil_iff]
      intro r hr
      have := (h2 r hr).2.2.1
      match r, this with
      | [a, b, c, d, e], _ => rfl
    have hN2 : ls.filterMap (fun r => match r with
        | [['l'], x] => some x
        | _ => none) = ([] : List (List Char)) := by
      rw [List.filterMap_eq_nil_iff]
      intro r hr
      have := (h2 r hr).2.2.1
      match r, this with
      | [a, b, c, d, e], _ => split <;> simp_all
    have e1 : ∀ tag : List Char, tag ≠ ['l'] → (f.leaves.map (fun l => [['l'], showLeaf l])).filterMap (fun r => match r with
        | [t, x] => if t = tag then readInt x else none
        | _ => none) = ([] : List Int) := by
      intro tag ht
      rw [List.filterMap_map, List.filterMap_eq_nil_iff]
      intro l _
      simp only [Function.comp_apply]
      rw [if_neg (fun h => ht h.symm)]
    have e2 : ∀ tag : List Char, tag ≠ ['r'] → (f.roots.map (fun r => [['r'], showInt (r : Int)])).filterMap (fun r => match r with
        | [t, x] => if t = tag then readInt x else none
        | _ => none) = ([] : List Int) := by
      intro tag ht
      rw [List.filterMap_map, List.filterMap_eq_nil_iff]
      intro l _
      simp only [Function.comp_apply]
      rw [if_neg (fun h => ht h.symm)]
    have e3 : (f.roots.map (fun r => [['r'], showInt (r : Int)])).filterMap (fun r => match r with
        | [t, x] => if t = ['r'] then readInt x else none
        | _ => none) = f.roots.map (fun r => (r : Int)) := by
      rw [List.filterMap_map, ← List.filterMap_eq_map]
      congr 1
      funext r
      simp [readInt_showInt]
    have e4 : (f.leaves.map (fun l => [['l'], showLeaf l])).filterMap (fun r => match r with
        | [['l'], x] => some x
        | _ => none) = f.leaves.map showLeaf := by
      rw [List.filterMap_map, ← List.filterMap_eq_map]
      congr 1
    have e5 : (f.roots.map (fun r => [['r'], showInt (r : Int)])).filterMap (fun r => match r with
        | [['l'], x] => some x
        | _ => none) = ([] : List (List Char)) := by
      rw [List.filterMap_map, List.filterMap_eq_nil_iff]
      intro r _
      simp
    have e6 : (f.roots.map (fun r => [['r'], showInt (r : Int)])).filterMap nodeRow = [] := by
      rw [List.filterMap_map, List.filterMap_eq_nil_iff]
      intro r _
      rfl
    have e7 : (f.leaves.map (fun l => [['l'], showLeaf l])).filterMap nodeRow = [] := by
      rw [List.filterMap_map, List.filterMap_eq_nil_iff]
      intro r _
      rfl
    simp only [taggedInts, List.filterMap_append, hN, hN2, e1 ['f'] (by decide), e1 ['c'] (by decide), e1 ['l','b'] (by decide), e1 ['r'] (by decide),
      e2 ['f'] (by decide), e2 ['c'] (by decide), e2 ['l','b'] (by decide), e3, e4, e5, e6, e7]
    rw [CsvModel.mk.injEq]
    refine ⟨?_, ?_, ?_, ?_, ?_, ?_⟩
    · simp [readInt_showInt]
    · simp [readInt_showInt]
    · simp [readInt_showInt]
    · simp
    · simp
    · rw [← h3]
      simp [nodeRow]
  · simp
  · intro r hr
    simp only [List.mem_append, List.mem_cons, List.not_mem_nil, or_false, List.mem_map] at hr
    have k1 : FieldOK ['f'] ∧ FieldOK ['c'] ∧ FieldOK ['l', 'b'] ∧ FieldOK ['l'] ∧ FieldOK ['r'] := by unfold FieldOK; decide
    rcases hr with (((rfl | rfl | rfl) | ⟨l, _, rfl⟩) | ⟨q, _, rfl⟩) | hr
    · exact ⟨by simp, by simp [k1, fieldOK_int]⟩
    · exact ⟨by simp, by simp [k1, fieldOK_int]⟩
    · exact ⟨by simp, by simp [k1, fieldOK_int]⟩
    · exact ⟨by simp, by simp [k1, hleaf]⟩
    · exact ⟨by simp, by simp [k1, fieldOK_int]⟩
    · exact ⟨(h2 r hr).1, (h2 r hr).2.2.2⟩

/-- **C61 is false in general**: a forest converted from a single-node tree (whose decision node carries the Python integer 0 as threshold) cannot be exported, whatever
the other parameters. -/
theorem C61_refuted : ∃ f : Forest (Option Int) Nat,
    convertForest none (id : Nat → Nat) [[⟨-1, -1, -2, some (-2), 1⟩]] = some f ∧
    ∀ (showTh : Int → List Char) (showLeaf : Nat → List Char) (nf nc lb : Int), saveCsv showTh showLeaf nf nc lb f = none := by
  refine ⟨⟨[⟨0, none, -1, -1⟩], [0], [1]⟩, rfl, ?_⟩
  intro showTh showLeaf nf nc lb
  rfl

/-- Non-vacuity: a real export. -/
example : (saveCsv showInt (fun n : Nat => showInt n) 2 9 0 ⟨[⟨0, some 10, -1, 1⟩, ⟨1, some 20, -2, -1⟩], [0], [7, 8]⟩).map String.ofList
    = some "f,2\r\nc,9\r\nlb,0\r\nl,7\r\nl,8\r\nr,0\r\nn,0,10,-1,1\r\nn,1,20,-2,-1" := by decide +kernel

example : ∀ n ∈ (⟨[⟨0, some 10, -1, 1⟩, ⟨1, some 20, -2, -1⟩], [0], [7, 8]⟩ : Forest (Option Int) Nat).nodes, n.threshold ≠ none := by decide

/-! ### C62 -/

/-- Bytes of the generated node table: `EmlTreesNode` is `int8_t, int16_t, int16_t, int16_t` = 8 bytes with alignment. -/
def nodeTableBytes (m : CModel) : Nat := 8 * m.nodes.length

/-- **C62** (part) The reported node and leaf counts are those of the generated tables, and the reported byte size is exact for 4-byte (regression) leaves; for hard voting it misses exactly one byte per
leaf, and for soft voting exactly `n_classes - 1` bytes per leaf.  So the claim "reported size = size of the generated tables" is proved only for regressors
(`C62_refuted` for the others). -/
theorem C62_reported_size_partial (quant : Θ → Int) (leafBits nFeatures nClasses : Int) (m : CModel) :
    (∀ (f : Forest Θ L) (bytes : List Nat), generateLoadable quant f bytes leafBits nFeatures nClasses = some m →
      modelSizeNodes f = m.nodes.length ∧
      (bytes.length = 4 * f.leaves.length → modelSizeBytes 32 f = nodeTableBytes m + m.leaves.length)) ∧
    (∀ (f : Forest Θ Nat), generateLoadable quant f (leafBytesHard f.leaves) 0 nFeatures nClasses = some m →
      modelSizeLeaves f = m.leaves.length ∧ modelSizeBytes 0 f + f.leaves.length = nodeTableBytes m + m.leaves.length) ∧
    (∀ (f : Forest Θ (List Nat)) (k lb : Nat), 1 ≤ lb → lb ≤ 8 → (∀ r ∈ f.leaves, r.length = k) → 1 ≤ k →
      generateLoadable quant f (leafBytesSoft f.leaves) lb nFeatures nClasses = some m →
      modelSizeBytes lb f + f.leaves.length * (k - 1) = nodeTableBytes m + m.leaves.length) := by
  have key : ∀ {L' : Type} (f : Forest Θ L') (bytes : List Nat) (lb : Int), generateLoadable quant f bytes lb nFeatures nClasses = some m →
      m.nodes.length = f.nodes.length ∧ m.leaves = bytes := by
    intro L' f bytes lb hg
    unfold generateLoadable at hg
    cases hn : generateNodes quant f.nodes with
    | none => simp [hn] at hg
    | some tbl =>
      simp [hn] at hg
      subst hg
      exact ⟨generateNodesFrom_length quant f.nodes 0 tbl hn, rfl⟩
  refine ⟨?_, ?_, ?_⟩
  · intro f bytes hg
    obtain ⟨h1, h2⟩ := key f bytes leafBits hg
    refine ⟨h1.symm, ?_⟩
    intro hb
    unfold modelSizeBytes nodeTableBytes modelSizeNodes modelSizeLeaves
    rw [h1, h2, hb]
    omega
  · intro f hg
    obtain ⟨h1, h2⟩ := key f _ 0 hg
    unfold modelSizeBytes nodeTableBytes modelSizeNodes modelSizeLeaves
    rw [h1, h2]
    simp [leafBytesHard]
    omega
  · intro f k lb hl1 hl8 hk hk1 hg
    obtain ⟨h1, h2⟩ := key f _ lb hg
    unfold modelSizeBytes nodeTableBytes modelSizeNodes modelSizeLeaves
    rw [h1, h2]
    have hlen : (leafBytesSoft f.leaves).length = f.leaves.length * k := by
      unfold leafBytesSoft
      rw [List.length_map, List.length_flatten]
      have : f.leaves.map List.length = List.replicate f.leaves.length k := by
        rw [List.eq_replicate_iff]
        refine ⟨by simp, ?_⟩
        intro b hb
        simp only [List.mem_map] at hb
        obtain ⟨r, hr, rfl⟩ := hb
        exact hk r hr
      rw [this]; simp
    rw [hlen]
    have : (lb + 7) / 8 = 1 := by omega
    rw [this]
    obtain ⟨k', rfl⟩ : ∃ k', k = k' + 1 := ⟨k - 1, by omega⟩
    rw [Nat.add_sub_cancel, Nat.mul_add]
    omega

/-- **C62 is false in general**: for the hard-voting example forest the report is smaller than the generated tables. -/
theorem C62_refuted : ∃ (f : Forest Int Nat) (m : CModel), generateLoadable id f (leafBytesHard f.leaves) 0 2 9 = some m ∧
    modelSizeBytes 0 f < nodeTableBytes m + m.leaves.length :=
  ⟨exForest, exModel, by decide, by decide⟩

end Emlearn.Trees
