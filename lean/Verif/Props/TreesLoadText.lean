/- Property C89: the loadable C code written by `save` / `convert(method='loadable')`, read as C, declares the intended model, and its functions pass it to `eml_trees.h`. -/
import Verif.Trees.TextRun
import Verif.Props.TreesText
import Verif.Trees.LeafProv
namespace Emlearn.Trees
open Emlearn.Cgen Emlearn.MiniC
variable {F L : Type}

/-- What is asked of the arguments of `generate_c_loadable`: the name is a line of text, not a C keyword or type, and none of the names that the generated functions use themselves; the features are
`int16_t` (the wrapper refuses other types); the modifiers are words such as `static const`; every number fits an `int`; there is at least one tree and one leaf, and leaf data are bytes. -/
structure LoadArgs (f : Forest ℚ L) (name : List Char) (nFeatures nClasses : Nat) (ws : List (List Char)) (bytes : List Nat) : Prop where
  line : '\n' ∉ name
  notKey : isKey name = false
  notUsed : name ∉ ["features", "features_length", "out", "out_length", "err", "eml_trees"].map String.toList
  modifiers : ∀ w ∈ ws, isMod w = true
  nodes : f.nodes ≠ []
  feature : ∀ n ∈ f.nodes, n.feature.natAbs ≤ 2147483647
  threshold : ∀ n ∈ f.nodes, (trunc n.threshold).natAbs ≤ 2147483647
  roots : f.roots ≠ []
  root : ∀ r ∈ f.roots, r ≤ 2147483647
  leaves : bytes ≠ []
  byte : ∀ b ∈ bytes, b < 256
  counts : f.nodes.length ≤ 2147483647 ∧ f.roots.length ≤ 2147483647 ∧ bytes.length ≤ 2147483647 ∧ nFeatures ≤ 2147483647 ∧ nClasses ≤ 2147483647

theorem usedNames_eq : usedNames = ["features", "features_length", "out", "out_length", "err", "eml_trees"].map String.toList := by decide +kernel

theorem int16_type : DType "int16_t".toList := ⟨by decide +kernel, by unfold NumType; decide +kernel⟩

theorem int16_ne : "int16_t".toList ≠ "float".toList := by decide +kernel

section
variable (ops : CFloat F) (f : Forest ℚ L) (name : List Char) (nFeatures nClasses : Nat) (leafBits : Int) (ws : List (List Char)) (bytes : List Nat) (text : List Char)

theorem load_prog (c ip : Bool) (ha : LoadArgs f name nFeatures nClasses ws bytes)
    (h : generateLoadableText f name nFeatures nClasses leafBits "int16_t".toList c ip ([' '].intercalate ws) bytes = some text) :
    ∃ rows m, parse (saveText text) = some (loadProg name "int16_t".toList f.roots nFeatures nClasses leafBits c ip ws bytes rows) ∧
      generateLoadable trunc f bytes leafBits nFeatures nClasses = some m ∧
      readTrees ops (loadProg name "int16_t".toList f.roots nFeatures nClasses leafBits c ip ws bytes rows) name = some m := by
  obtain ⟨c1, c2, c3, c4, c5⟩ := ha.counts
  obtain ⟨rows, h1, h2, h3⟩ := loadable_parse f name nFeatures nClasses leafBits "int16_t".toList c ip ws bytes text ha.line ha.notKey int16_type ha.modifiers ha.nodes ha.roots h
  obtain ⟨m, h4, h5⟩ := readTrees_loadProg ops name "int16_t".toList nFeatures nClasses leafBits c ip ws bytes rows int16_ne f ⟨ha.feature, ha.threshold⟩ c1 ha.roots ha.root c2 ha.byte ha.leaves c3 c4 c5 h1 h2
  exact ⟨rows, m, h3, h4, h5⟩

/-- **C89** (data) the text is a C program whose variable `<name>` is an `EmlTrees` with the nodes, roots, leaf bytes and sizes of the converted model, each reduced to the width of its field, with lengths that
agree with the arrays. -/
theorem C89_loadable_struct (c ip : Bool) (ha : LoadArgs f name nFeatures nClasses ws bytes)
    (h : generateLoadableText f name nFeatures nClasses leafBits "int16_t".toList c ip ([' '].intercalate ws) bytes = some text) :
    ∃ prog m, parse (saveText text) = some prog ∧ generateLoadable trunc f bytes leafBits nFeatures nClasses = some m ∧ readTrees ops prog name = some m := by
  obtain ⟨rows, m, h1, h2, h3⟩ := load_prog ops f name nFeatures nClasses leafBits ws bytes text c ip ha h
  exact ⟨_, m, h1, h2, h3⟩

theorem predictProba_length (m : CModel) (features : List Int) (n : Int) (votes : List F) (hp : predictProba ops.toFOps m features n = some (.ok votes)) : votes.length = n.toNat := by
  have hadd : ∀ (o o' : List F) (i : Nat) (v : F), addAt ops.toFOps o i v = some o' → o'.length = o.length := fun o o' i v h => addAt_length ops.toFOps h
  have hfold : ∀ {A : Type} (g : List F → A → Option (List F)), (∀ o a o', g o a = some o' → o'.length = o.length) → ∀ (l : List A) (o o' : List F), l.foldlM g o = some o' → o'.length = o.length := by
    intro A g hg l
    induction l with
    | nil => intro o o' h; simp at h; subst h; rfl
    | cons a l ih =>
      intro o o' h
      rw [List.foldlM_cons] at h
      cases h1 : g o a with
      | none => rw [h1] at h; cases h
      | some o1 =>
        rw [h1] at h
        exact (ih o1 o' h).trans (hg o a o1 h1)
  unfold predictProba at hp
  split at hp
  · cases hp
  simp only at hp
  split at hp
  · obtain ⟨o, ho, e⟩ := Option.map_eq_some_iff.1 hp
    cases e
    rw [List.length_map, hfold _ ?_ _ _ _ ho, List.length_replicate]
    intro o r o' h
    unfold hardStep at h
    cases h1 : m.tree features r with
    | none => simp [h1] at h
    | some leaf =>
      simp only [h1, Option.bind_eq_bind, Option.bind_some] at h
      split at h
      · cases h
      · cases h2 : m.leaves[leaf.toNat]? with
        | none => simp [h2] at h
        | some cls => simp only [h2, Option.bind_some] at h; exact hadd _ _ _ _ h
  · split at hp
    · obtain ⟨o, ho, e⟩ := Option.map_eq_some_iff.1 hp
      cases e
      rw [List.length_map, hfold _ ?_ _ _ _ ho, List.length_replicate]
      intro o r o' h
      unfold softStep at h
      cases h1 : m.tree features r with
      | none => simp [h1] at h
      | some leaf =>
        simp only [h1, Option.bind_eq_bind, Option.bind_some] at h
        split at h
        · cases h
        · refine hfold _ ?_ _ _ _ h
          intro o a o' h
          cases h2 : m.leaves[leaf.toNat * m.nClasses.toNat + a]? with
          | none => simp [h2] at h
          | some cls => simp only [h2, Option.bind_some] at h; exact hadd _ _ _ _ h
    · cases hp

theorem predict_range (m : CModel) (features : List Int) (len : Int) (z : Int) (h : predict ops.toFOps m features len = some z) : -2147483648 ≤ z ∧ z ≤ 2147483647 := by
  unfold predict at h
  split at h
  · cases h; omega
  · split at h
    · cases h; omega
    · rename_i h30
      cases hp : predictProba ops.toFOps m features m.nClasses with
      | none => rw [hp] at h; cases h
      | some r =>
        rw [hp] at h
        cases r with
        | error e => cases h; omega
        | ok votes =>
          cases h
          have hlen := predictProba_length ops m features m.nClasses votes hp
          have := argmaxLoop_bounds ops.lt votes 0 (-1) ops.zero (by omega)
          omega

variable (decode : List Nat → Nat → Option F) (nan : F) (fuel depth : Nat)

/-- **C89** (class) `<name>_predict(features, length)` of the written file returns what `eml_trees_predict` computes for the converted model (`generateLoadable`), with the length reduced to `int8_t`;
for every feature vector, every length and every `float` arithmetic. -/
theorem C89_loadable_predict (ip : Bool) (ha : LoadArgs f name nFeatures nClasses ws bytes)
    (h : generateLoadableText f name nFeatures nClasses leafBits "int16_t".toList true ip ([' '].intercalate ws) bytes = some text) :
    ∃ prog m, parse (saveText text) = some prog ∧ generateLoadable trunc f bytes leafBits nFeatures nClasses = some m ∧
      ∀ (features : List Int) (len : Int), -2147483648 ≤ len → len ≤ 2147483647 →
        callFunc ops (treesLib ops decode nan prog) prog fuel (depth + 2) (name ++ "_predict".toList) [.arr "int16_t".toList (features.map fun z => some (.int z)), .num (.int len)] =
          (predict ops.toFOps m features (wrap8 len)).map fun c => (.int c, []) := by
  obtain ⟨rows, m, h1, h2, h3⟩ := load_prog ops f name nFeatures nClasses leafBits ws bytes text true ip ha h
  refine ⟨_, m, h1, h2, ?_⟩
  intro features len hl1 hl2
  have hu : name ∉ usedNames := by rw [usedNames_eq]; exact ha.notUsed
  have hfind := find_loadFunc name "int16_t".toList f.roots nFeatures nClasses leafBits true ip ws bytes rows (loadPredictFunc name "int16_t".toList) (by simp [loadFuncs])
  have hlib := find_lib name "int16_t".toList f.roots nFeatures nClasses leafBits true ip ws bytes rows hu "eml_trees_predict".toList (.inl rfl)
  generalize loadProg name "int16_t".toList f.roots nFeatures nClasses leafBits true ip ws bytes rows = prog at h1 h3 hfind hlib ⊢
  have key := call_simple ops name "int16_t".toList (treesLib ops decode nan prog) prog fuel depth (name ++ "_predict".toList) "eml_trees_predict".toList "int".toList "int32_t".toList
    (fun v => ∃ z : Int, v = .int z ∧ -2147483648 ≤ z ∧ z ≤ 2147483647) hu
    (by rintro v ⟨z, rfl, h1, h2⟩; exact conv_int32 ops (.inl rfl) z h1 h2) (by rintro v ⟨z, rfl, h1, h2⟩; exact conv_int32 ops (.inr rfl) z h1 h2) (by decide +kernel)
    hfind hlib (features.map fun z => some (.int z)) len hl1 hl2 ((predict ops.toFOps m features (wrap8 len)).map .int) ?_ ?_
  · rw [key, Option.map_map]
    rfl
  · unfold treesLib
    simp only
    rw [if_pos trivial, h3, intsOf_ints]
    simp only
    rw [if_pos trivial, Option.map_map]
    rfl
  · intro v hv
    obtain ⟨z, hz, rfl⟩ := Option.map_eq_some_iff.1 hv
    exact ⟨z, rfl, predict_range ops m features _ z hz⟩

/-- **C89** (regression) `<name>_predict` of a regressor returns what `eml_trees_regress1` computes: the mean of the leaf values (read from the leaf bytes), or NaN. -/
theorem C89_loadable_regress (ip : Bool) (ha : LoadArgs f name nFeatures nClasses ws bytes)
    (h : generateLoadableText f name nFeatures nClasses leafBits "int16_t".toList false ip ([' '].intercalate ws) bytes = some text) :
    ∃ prog m, parse (saveText text) = some prog ∧ generateLoadable trunc f bytes leafBits nFeatures nClasses = some m ∧
      ∀ (features : List Int) (len : Int), -2147483648 ≤ len → len ≤ 2147483647 →
        callFunc ops (treesLib ops decode nan prog) prog fuel (depth + 2) (name ++ "_predict".toList) [.arr "int16_t".toList (features.map fun z => some (.int z)), .num (.int len)] =
          (regress ops.toFOps m (decode bytes) features 1).map fun r => match r with | .ok y => (.flt y, []) | .error _ => (.flt nan, []) := by
  obtain ⟨rows, m, h1, h2, h3⟩ := load_prog ops f name nFeatures nClasses leafBits ws bytes text false ip ha h
  refine ⟨_, m, h1, h2, ?_⟩
  intro features len hl1 hl2
  have hm : m.leaves = bytes := by
    unfold generateLoadable at h2
    cases hg : generateNodes trunc f.nodes with
    | none => rw [hg] at h2; cases h2
    | some ns => rw [hg] at h2; cases h2; rfl
  have hu : name ∉ usedNames := by rw [usedNames_eq]; exact ha.notUsed
  have hfind := find_loadFunc name "int16_t".toList f.roots nFeatures nClasses leafBits false ip ws bytes rows (loadRegressFunc name "int16_t".toList) (by simp [loadFuncs])
  have hlib := find_lib name "int16_t".toList f.roots nFeatures nClasses leafBits false ip ws bytes rows hu "eml_trees_regress1".toList (.inr (.inr rfl))
  generalize loadProg name "int16_t".toList f.roots nFeatures nClasses leafBits false ip ws bytes rows = prog at h1 h3 hfind hlib ⊢
  have key := call_simple ops name "int16_t".toList (treesLib ops decode nan prog) prog fuel depth (name ++ "_predict".toList) "eml_trees_regress1".toList "float".toList "float".toList
    (fun v => ∃ y : F, v = .flt y) hu
    (by rintro v ⟨y, rfl⟩; exact conv_float ops y) (by rintro v ⟨y, rfl⟩; exact conv_float ops y) (by decide +kernel)
    hfind hlib (features.map fun z => some (.int z)) len hl1 hl2
    ((regress ops.toFOps m (decode bytes) features 1).map fun r => match r with | .ok y => .flt y | .error _ => .flt nan) ?_ ?_
  · rw [key, Option.map_map]
    congr 1
    funext r
    cases r <;> rfl
  · unfold treesLib
    simp only
    rw [if_pos trivial, h3, intsOf_ints]
    simp only
    rw [if_neg (by decide +kernel), if_pos trivial, Option.map_map, hm]
    congr 1
    funext r
    cases r <;> rfl
  · intro v hv
    obtain ⟨r, hz, rfl⟩ := Option.map_eq_some_iff.1 hv
    cases r with
    | ok y => exact ⟨y, rfl⟩
    | error e => exact ⟨nan, rfl⟩

/-- **C89** (probabilities) `<name>_predict_proba(features, length, out, out_length)` with a buffer of `out_length` numbers returns the error code of `eml_trees_predict_proba` and leaves its
result in `out`; when the size is wrong, code 1 and `out` is as before. -/
theorem C89_loadable_proba (ha : LoadArgs f name nFeatures nClasses ws bytes)
    (h : generateLoadableText f name nFeatures nClasses leafBits "int16_t".toList true true ([' '].intercalate ws) bytes = some text) :
    ∃ prog m, parse (saveText text) = some prog ∧ generateLoadable trunc f bytes leafBits nFeatures nClasses = some m ∧
      ∀ (features : List Int) (len : Int) (outs : List (Option (Val F))), -2147483648 ≤ len → len ≤ 2147483647 → outs.length ≤ 2147483647 →
        let run := callFunc ops (treesLib ops decode nan prog) prog fuel (depth + 2) (name ++ "_predict_proba".toList)
          [.arr "int16_t".toList (features.map fun z => some (.int z)), .num (.int len), .arr "float".toList outs, .num (.int outs.length)]
        match predictProba ops.toFOps m features outs.length with
        | some (.ok p) => run = some (.int 0, [(2, p.map fun y => some (.flt y))])
        | some (.error .sizeMismatch) => run = some (.int 1, [(2, outs)])
        | some (.error e) => run = some (.int (errNum e), [(2, List.replicate outs.length (some (.flt ops.zero)))])
        | none => run = none := by
  obtain ⟨rows, m, h1, h2, h3⟩ := load_prog ops f name nFeatures nClasses leafBits ws bytes text true true ha h
  refine ⟨_, m, h1, h2, ?_⟩
  intro features len outs hl1 hl2 ho
  have hu : name ∉ usedNames := by rw [usedNames_eq]; exact ha.notUsed
  have hfind := find_loadFunc name "int16_t".toList f.roots nFeatures nClasses leafBits true true ws bytes rows (loadProbaFunc name "int16_t".toList) (by simp [loadFuncs])
  have hlib := find_lib name "int16_t".toList f.roots nFeatures nClasses leafBits true true ws bytes rows hu "eml_trees_predict_proba".toList (.inr (.inl rfl))
  generalize loadProg name "int16_t".toList f.roots nFeatures nClasses leafBits true true ws bytes rows = prog at h1 h3 hfind hlib ⊢
  let r : Option (Int × Option (List (Option (Val F)))) := match predictProba ops.toFOps m features outs.length with
    | some (.ok p) => some (0, some (flts p))
    | some (.error .sizeMismatch) => some (1, none)
    | some (.error e) => some (errNum e, some (flts (List.replicate outs.length ops.zero)))
    | none => none
  have key := call_proba ops name "int16_t".toList (treesLib ops decode nan prog) prog fuel depth hu hfind hlib (features.map fun z => some (.int z)) outs len outs.length hl1 hl2 (by omega) (by omega) r ?_ ?_
  · simp only
    rw [key]
    simp only [r]
    cases predictProba ops.toFOps m features outs.length with
    | none => rfl
    | some q =>
      cases q with
      | ok p => rfl
      | error e => cases e <;> first | rfl | simp [flts]
  · unfold treesLib
    simp only
    rw [if_pos trivial, h3, intsOf_ints]
    simp only
    rw [if_pos ⟨trivial, trivial, trivial⟩]
    simp only [r]
    cases predictProba ops.toFOps m features outs.length with
    | none => rfl
    | some q =>
      cases q with
      | ok p => rfl
      | error e => cases e <;> rfl
  · intro q hq
    simp only [r] at hq
    cases hp : predictProba ops.toFOps m features outs.length with
    | none => rw [hp] at hq; cases hq
    | some t =>
      rw [hp] at hq
      cases t with
      | ok p => cases hq; simp
      | error e => cases e <;> cases hq <;> simp [errNum]
end

/-! ### From the trained trees to the result of the generated C file -/

theorem nodeTexts_some (dtype : List Char) (i : Nat) (nodes : List (Node ℚ)) (cs : List CNode) (h : generateNodesFrom trunc i nodes = some cs) : ∃ ts, nodeTextsFrom dtype i nodes = some ts := by
  induction nodes generalizing i cs with
  | nil => exact ⟨[], rfl⟩
  | cons n rest ih =>
    unfold generateNodesFrom makeNode at h
    cases hl : encodeChild i n.left with
    | none => simp [hl] at h
    | some l =>
    cases hr : encodeChild i n.right with
    | none => simp [hl, hr] at h
    | some r =>
    cases hs : generateNodesFrom trunc (i + 1) rest with
    | none => simp [hl, hr, hs] at h
    | some us =>
    obtain ⟨ts, hts⟩ := ih (i + 1) us hs
    unfold nodeTextsFrom nodeText
    rw [hl, hr, hts]
    exact ⟨_, rfl⟩

theorem generateLoadableText_some (f : Forest ℚ L) (name : List Char) (hv : assertValidIdentifier name = true) (nFeatures nClasses : Nat) (leafBits : Int) (dtype : List Char) (c ip : Bool)
    (mods : List Char) (bytes : List Nat) (cs : List CNode) (h : generateNodes trunc f.nodes = some cs) :
    ∃ text, generateLoadableText f name nFeatures nClasses leafBits dtype c ip mods bytes = some text := by
  obtain ⟨ts, hts⟩ := nodeTexts_some dtype 0 f.nodes cs h
  obtain ⟨lc, hlc⟩ := leavesText_some name mods bytes
  obtain ⟨nc, hnc⟩ : ∃ nc, nodesText f.nodes (name ++ "_nodes".toList) dtype mods = some nc := by
    unfold nodesText
    rw [hts]
    exact ⟨_, rfl⟩
  unfold generateLoadableText
  rw [if_pos hv, hnc, Option.bind_some, hlc]
  exact ⟨_, rfl⟩

/-- **C89** (end to end, hard voting) for every list of well-formed trained trees with at most 127 features, 30 classes and 32768 decision nodes, and thresholds in the range of `int16_t`: conversion and code generation
succeed, the written text is a C program, and for every feature vector `<name>_predict` returns the smallest class that most of the trained trees vote for (comparing with truncated thresholds),
in every `float` arithmetic in which votes are counted faithfully. -/
theorem C89_end_to_end {V : Type} (ops : CFloat F) (cnt : Nat → F) (leafVal : V → Nat) (trees : List (List (SrcNode ℚ V))) (hne : trees ≠ []) (hwf : ∀ src ∈ trees, SrcWF src)
    (laws : VoteLaws ops.toFOps trees.length cnt) (htl : trees.length ≤ 2147483647) (nFeatures nClasses : Nat) (hnf : 1 ≤ nFeatures) (hnf2 : nFeatures ≤ 127) (hnc : nClasses ≤ 30)
    (hleaf : ∀ src ∈ trees, ∀ row ∈ src, leafVal row.value < nClasses)
    (hfeat : ∀ src ∈ trees, ∀ row ∈ src, row.isLeaf = false → 0 ≤ row.feature ∧ row.feature < nFeatures ∧ -32768 ≤ trunc row.threshold ∧ trunc row.threshold ≤ 32767)
    (hsize : (trees.map (fun src => if src.length = 1 then 1 else src.countP (fun n => !n.isLeaf))).sum ≤ 32768)
    (name : List Char) (hv : assertValidIdentifier name = true) (hline : '\n' ∉ name) (hkey : isKey name = false)
    (hused : name ∉ ["features", "features_length", "out", "out_length", "err", "eml_trees"].map String.toList) (ws : List (List Char)) (hws : ∀ w ∈ ws, isMod w = true) (ip : Bool)
    (decode : List Nat → Nat → Option F) (nan : F) (fuel depth : Nat) :
    ∃ f text prog, convertForest 0 leafVal trees = some f ∧
      generateLoadableText f name nFeatures nClasses 0 "int16_t".toList true ip ([' '].intercalate ws) (leafBytesHard f.leaves) = some text ∧ parse (saveText text) = some prog ∧
      ∀ features : List Int, features.length = nFeatures → ∃ (classes : List Nat) (c : Nat),
        List.Forall₂ (fun src cls => ∃ v, srcPredict (cmpInt features trunc) src = some v ∧ leafVal v = cls) trees classes ∧
        callFunc ops (treesLib ops decode nan prog) prog fuel (depth + 2) (name ++ "_predict".toList) [.arr "int16_t".toList (features.map fun z => some (.int z)), .num (.int nFeatures)] =
          some (.int c, []) ∧ Plurality classes nClasses c := by
  obtain ⟨f, hf, hnodes, hok⟩ := C02_convert_refs_valid 0 leafVal trees hne hwf
  obtain ⟨f', hf', hprov, hlen, -, hnd⟩ := C02_convert_provenance 0 leafVal trees hne hwf
  rw [hf] at hf'; cases hf'
  obtain ⟨f', hf', hrl, -⟩ := C01_convert_same_leaf 0 leafVal trees hne hwf
  rw [hf] at hf'; cases hf'
  have hlt : ∀ x ∈ f.leaves, x < nClasses := by
    intro x hx
    obtain ⟨src, hs, row, hr, -, rfl⟩ := convertForest_leaves 0 leafVal trees f hf x hx
    exact hleaf src hs row hr
  have hll : f.leaves.length ≤ nClasses := by
    have := (List.subperm_of_subset hnd (fun x hx => List.mem_range.2 (hlt x hx)) : f.leaves.Subperm (List.range nClasses)).length_le
    simpa using this
  have hns : f.nodes.length ≤ 32768 := by omega
  have hpk := packs_of_source 0 trunc trees nFeatures f hok hprov hnf hnf2 hfeat (by simp [trunc]) hns
  obtain ⟨cs, hcs⟩ := C04_generation_accepts trunc f hok hns (by omega)
  obtain ⟨text, htext⟩ := generateLoadableText_some f name hv nFeatures nClasses 0 "int16_t".toList true ip ([' '].intercalate ws) (leafBytesHard f.leaves) cs hcs
  have hroots : f.roots ≠ [] := by
    intro h
    rw [h] at hrl
    exact hne (List.length_eq_zero_iff.1 hrl.symm)
  have hleaves : f.leaves ≠ [] := by
    intro h
    obtain ⟨r, hr⟩ := List.exists_mem_of_ne_nil _ hroots
    have := (leafIndex_spec (fun _ _ => true) hok hr).2
    rw [h] at this
    exact absurd this (by simp)
  have ha : LoadArgs f name nFeatures nClasses ws (leafBytesHard f.leaves) := by
    refine ⟨hline, hkey, hused, hws, hnodes, ?_, ?_, hroots, ?_, ?_, ?_, ?_⟩
    · intro n hn; have := hpk.feature n hn; omega
    · intro n hn; have := hpk.thresh n hn; omega
    · intro r hr; have := hok.roots r hr; omega
    · unfold leafBytesHard; simpa using hleaves
    · intro b hb
      unfold leafBytesHard at hb
      obtain ⟨x, -, rfl⟩ := List.mem_map.1 hb
      omega
    · refine ⟨by omega, by omega, ?_, by omega, by omega⟩
      unfold leafBytesHard
      rw [List.length_map]; omega
  obtain ⟨prog, m, h1, h2, h3⟩ := C89_loadable_predict ops f name nFeatures nClasses 0 ws (leafBytesHard f.leaves) text decode nan fuel depth ip ha htext
  refine ⟨f, text, prog, hf, htext, h1, ?_⟩
  intro features hfl
  obtain ⟨f', hf', h7⟩ := C07_converted_plurality ops.toFOps cnt 0 leafVal trunc trees hne hwf laws features nClasses hnc hleaf
  rw [hf] at hf'; cases hf'
  obtain ⟨classes, c, g1, g2, g3⟩ := h7 m ⟨hok, by rw [hfl]; exact h2, by rw [hfl]; exact hpk, by omega, by omega, by omega⟩
  refine ⟨classes, c, g1, ?_, g3⟩
  rw [h3 features nFeatures (by omega) (by omega), wrap8_id (by omega) (by omega), ← hfl, g2]
  rfl

/-! ### Non-vacuity: concrete files, read and run -/

theorem exLoad_args : LoadArgs exTextHard "model".toList 2 3 ["static".toList, "const".toList] (leafBytesHard exTextHard.leaves) := by
  refine ⟨by decide +kernel, by decide +kernel, by decide +kernel, by decide +kernel, by decide, by decide, by decide +kernel, by decide, by decide, by decide, by decide, by decide⟩

/-- The file for two trees and three classes is generated, parsed, and declares the model with the encoded nodes. -/
example : ((generateLoadableText exTextHard "model".toList 2 3 0 "int16_t".toList true true "static const".toList (leafBytesHard exTextHard.leaves)).bind fun text =>
      (parse (saveText text)).bind fun prog => readTrees exactC prog "model".toList) =
    some ⟨[⟨0, 10, 1, -1⟩, ⟨1, -3, -2, -3⟩, ⟨1, 5, -2, -3⟩], [0, 2], [0, 1, 2], 0, 2, 3⟩ := by
  decide +kernel

/-- ... and run. -/
example : ((generateLoadableText exTextHard "model".toList 2 3 0 "int16_t".toList true true "static const".toList (leafBytesHard exTextHard.leaves)).bind fun text =>
      (parse (saveText text)).bind fun prog =>
        callFunc exactC (treesLib exactC (fun _ _ => none) 0 prog) prog 10 2 "model_predict".toList [.arr "int16_t".toList [some (.int 7), some (.int (-9))], .num (.int 2)]) = some (.int 1, []) := by
  decide +kernel

/-- Probabilities, with soft voting. -/
example : ((generateLoadableText exTextSoft "model".toList 2 3 8 "int16_t".toList true true "static const".toList (leafBytesSoft exTextSoft.leaves)).bind fun text =>
      (parse (saveText text)).bind fun prog =>
        callFunc exactC (treesLib exactC (fun _ _ => none) 0 prog) prog 10 2 "model_predict_proba".toList
          [.arr "int16_t".toList [some (.int 7), some (.int (-9))], .num (.int 2), .arr "float".toList [none, none, none], .num (.int 3)]) =
      some (.int 0, [(2, [some (.flt (1/5)), some (.flt (4/5)), some (.flt 0)])]) := by
  decide +kernel

/-- Two trained trees over two features. -/
def exSrcQ : List (SrcNode ℚ Nat) := [⟨1, 2, 0, 21/2, 0⟩, ⟨-1, -1, -2, -2, 1⟩, ⟨3, 4, 1, -5/2, 0⟩, ⟨-1, -1, -2, -2, 2⟩, ⟨-1, -1, -2, -2, 0⟩]

theorem exSrcQ_wf : SrcWF exSrcQ := by
  constructor
  · simp [exSrcQ]
  · intro i n hn hl
    match i with
    | 0 | 1 | 2 | 3 | 4 => simp [exSrcQ] at hn; subst hn; revert hl; simp [SrcNode.isLeaf]
    | i + 5 => simp [exSrcQ] at hn
  · have : childRefs exSrcQ = (List.range' 1 (exSrcQ.length - 1)).map Int.ofNat := by decide
    rw [this]

/-- The hypotheses of the end-to-end theorem hold for a concrete trained forest of two trees. -/
example : (∀ src ∈ [exSrcQ, exSrcQ], SrcWF src) ∧ VoteLaws exactC.toFOps 2 (fun k => (k : ℚ)) ∧ (∀ src ∈ [exSrcQ, exSrcQ], ∀ row ∈ src, row.value < 3) ∧
    (∀ src ∈ [exSrcQ, exSrcQ], ∀ row ∈ src, row.isLeaf = false → 0 ≤ row.feature ∧ row.feature < 2 ∧ -32768 ≤ trunc row.threshold ∧ trunc row.threshold ≤ 32767) ∧
    (([exSrcQ, exSrcQ].map (fun src => if src.length = 1 then 1 else src.countP (fun n => !n.isLeaf))).sum ≤ 32768) ∧ assertValidIdentifier "model".toList = true := by
  refine ⟨?_, exact_voteLaws 2 (by decide), by decide, by decide +kernel, by decide, by decide +kernel⟩
  intro src h
  simp at h
  subst h
  exact exSrcQ_wf

/-! ### Names that pass the check but break the generated code -/

/-- The generated text for a model of a given name, and the result of its `<name>_predict` on features (7, -9). -/
def runNamed (name : String) : Option (Option (CallResult ℚ)) :=
  (generateLoadableText exTextHard name.toList 2 3 0 "int16_t".toList true true "static const".toList (leafBytesHard exTextHard.leaves)).map fun text =>
    (parse (saveText text)).bind fun prog =>
      callFunc exactC (treesLib exactC (fun _ _ => none) 0 prog) prog 10 9 (name.toList ++ "_predict".toList) [.arr "int16_t".toList [some (.int 7), some (.int (-9))], .num (.int 2)]

/-- **C89** (negation) a valid identifier is not enough: for the names below, which the generator accepts, code is generated, but the program is not valid C (the name is a type) or does not
reach the library (the name is hidden by a variable of the generated function or makes it call itself), while an ordinary name gives class 1. -/
theorem C89_names_refuted : runNamed "model" = some (some (.int 1, [])) ∧
    ∀ name ∈ ["out", "features", "features_length", "eml_trees", "int32_t", "EmlTrees"], assertValidIdentifier name.toList = true ∧ runNamed name = some none := by
  have h : ∀ name ∈ ["out", "features", "features_length", "eml_trees", "int32_t", "EmlTrees"], assertValidIdentifier name.toList = true ∧ (runNamed name).isSome = true ∧ (runNamed name).join.isNone = true := by
    decide +kernel
  refine ⟨?_, fun name hn => ⟨(h name hn).1, ?_⟩⟩
  · have : (runNamed "model").map (fun r => r.map fun p => (p.1, p.2.length)) = some (some (.int 1, 0)) := by decide +kernel
    generalize runNamed "model" = r at this
    match r, this with
    | some (some (v, [])), h => simpa using h
    | some (some (v, a :: l)), h => simp at h
    | some none, h => simp at h
    | none, h => simp at h
  · obtain ⟨-, h1, h2⟩ := h name hn
    generalize runNamed name = r at h1 h2
    match r, h1, h2 with
    | some (some _), _, h => simp at h
    | some none, _, _ => rfl
    | none, h, _ => simp at h

end Emlearn.Trees
