/- The loadable code (`generate_c_loadable`) as text, read as a program. -/
import Verif.Trees.TextParse
namespace Emlearn.Trees
open Emlearn.Cgen Emlearn.MiniC

/-! ### Nodes -/

/-- The initializer of one node with encoded children. -/
def nodeExprs (dtype : List Char) (n : Node ℚ) (l r : Int) : List Expr :=
  [sgnExpr (intSgn n.feature), litExpr n.threshold dtype, sgnExpr (intSgn l), sgnExpr (intSgn r)]

/-- The initializers of all nodes. -/
def nodeRowsFrom (dtype : List Char) : Nat → List (Node ℚ) → Option (List (List Expr))
  | _, [] => some []
  | i, n :: rest =>
    match encodeChild i n.left, encodeChild i n.right, nodeRowsFrom dtype (i + 1) rest with
    | some l, some r, some rows => some (nodeExprs dtype n l r :: rows)
    | _, _, _ => none

theorem node_lexes (dtype : List Char) (h : NumType dtype) (n : Node ℚ) (l r : Int) :
    Lexes (["{ ".toList, showInt n.feature, ", ".toList, lit n.threshold dtype, ", ".toList, showInt l, ", ".toList, showInt r, " }".toList].flatten)
      (.sym '{' :: (printExprs (nodeExprs dtype n l r) ++ [.sym '}'])) := by
  have k3 := lexes_sgn_chain (intSgn r) (intSgn_word r) " }".toList [.sym '}'] (by decide +kernel) Lexes.nil
  have k2 := lexes_sgn_chain (intSgn l) (intSgn_word l) ", ".toList [.sym ','] (by decide +kernel) k3
  have k1 := lexes_sgn_chain (litSgn n.threshold dtype) (litSgn_word _ _) ", ".toList [.sym ','] (by decide +kernel) k2
  have k0 := lexes_sgn_chain (intSgn n.feature) (intSgn_word _) ", ".toList [.sym ','] (by decide +kernel) k1
  have k := lexes_lit_chain "{ ".toList [.sym '{'] (by decide +kernel) k0
  refine k.congr ?_ ?_
  · rw [showInt_sgn, showInt_sgn, showInt_sgn, lit, constant_sgn _ _ _ h]
    simp only [List.flatten_cons, List.flatten_nil]
  · simp [nodeExprs, printExprs]

theorem nodeTexts_lexes (dtype : List Char) (h : NumType dtype) (i : Nat) (nodes : List (Node ℚ)) (ts : List (List Char)) (ht : nodeTextsFrom dtype i nodes = some ts) :
    ∃ rows, nodeRowsFrom dtype i nodes = some rows ∧ rows.length = nodes.length ∧ (nodes ≠ [] → Lexes (",\n  ".toList.intercalate ts) (printGroups rows)) := by
  have hsep := lexes_lits ",\n  ".toList [.sym ','] (by decide +kernel) (by decide +kernel)
  generalize ",\n  ".toList = sep at hsep ⊢
  induction nodes generalizing i ts with
  | nil => simp [nodeTextsFrom] at ht; exact ⟨[], rfl, rfl, fun h => absurd rfl h⟩
  | cons n rest ih =>
    unfold nodeTextsFrom nodeText at ht
    cases hl : encodeChild i n.left with
    | none => rw [hl] at ht; cases ht
    | some l =>
    cases hr : encodeChild i n.right with
    | none => rw [hl, hr] at ht; cases ht
    | some r =>
    cases hs : nodeTextsFrom dtype (i + 1) rest with
    | none => rw [hl, hr, hs] at ht; cases ht
    | some us =>
    rw [hl, hr, hs] at ht
    cases ht
    obtain ⟨rows, h1, h2, h3⟩ := ih (i + 1) us hs
    refine ⟨nodeExprs dtype n l r :: rows, by simp [nodeRowsFrom, hl, hr, h1], by simp [h2], fun _ => ?_⟩
    have hn := node_lexes dtype h n l r
    generalize ["{ ".toList, showInt n.feature, ", ".toList, lit n.threshold dtype, ", ".toList, showInt l, ", ".toList, showInt r, " }".toList].flatten = t at hn ⊢
    cases rest with
    | nil =>
      simp only [nodeTextsFrom, Option.some.injEq] at hs
      subst hs
      simp only [nodeRowsFrom, Option.some.injEq] at h1
      subst h1
      simpa [List.intercalate, printGroups] using hn
    | cons m rest =>
      have h3 := h3 (by simp)
      cases us with
      | nil =>
        unfold nodeTextsFrom at hs
        cases h4 : nodeText dtype (i + 1) m with
        | none => rw [h4] at hs; cases hs
        | some a =>
          cases h5 : nodeTextsFrom dtype (i + 1 + 1) rest with
          | none => rw [h4, h5] at hs; cases hs
          | some b => rw [h4, h5] at hs; cases hs
      | cons u us =>
        cases rows with
        | nil => simp at h2
        | cons row rows =>
          have := hn.append (hsep.append h3)
          refine this.congr ?_ ?_
          · simp [List.intercalate]
          · simp [printGroups]

/-- The array of nodes. -/
def nodesDecl (name : List Char) (ws : List (List Char)) (rows : List (List Expr)) : MiniC.Decl :=
  ⟨ws, "EmlTreesNode".toList, name ++ "_nodes".toList, some (showNat rows.length), some (.nested rows)⟩

set_option simprocs false in
theorem nodes_lexes {name dtype : List Char} (hn : isName name = true) (h : NumType dtype) {ws : List (List Char)} (hws : ∀ w ∈ ws, IsWord w) (nodes : List (Node ℚ)) (hne : nodes ≠ []) {text : List Char}
    (ht : nodesText nodes (name ++ "_nodes".toList) dtype ([' '].intercalate ws) = some text) :
    ∃ rows, nodeRowsFrom dtype 0 nodes = some rows ∧ rows.length = nodes.length ∧ Lexes text (nodesDecl name ws rows).print := by
  unfold nodesText at ht
  cases hs : nodeTextsFrom dtype 0 nodes with
  | none => rw [hs] at ht; cases ht
  | some us =>
  obtain ⟨rows, h1, h2, h3⟩ := nodeTexts_lexes dtype h 0 nodes us hs
  refine ⟨rows, h1, h2, ?_⟩
  rw [hs] at ht
  have e := Option.some.inj ht
  subst e
  have h3 := h3 hne
  have k0 := lexes_mods ws hws
  have k4 := lexes_lit_chain " \n};".toList [.sym '}', .sym ';'] (by decide +kernel) Lexes.nil
  have k3 := h3.append k4
  have k2 := lexes_word_chain (showNat nodes.length) (isWord_showNat _) "] = {\n  ".toList [.sym ']', .sym '=', .sym '{'] (by decide +kernel) k3
  have k1 := lexes_word_chain (name ++ "_nodes".toList) (isName_word (isName_append hn (by decide +kernel))) "[".toList [.sym '['] (by decide +kernel) k2
  have k := k0.append (lexes_lit_chain "EmlTreesNode ".toList [.word "EmlTreesNode".toList] (by decide +kernel) k1)
  refine k.congr ?_ ?_
  · have e : " EmlTreesNode ".toList = [' '] ++ "EmlTreesNode ".toList := by decide +kernel
    rw [e]
    simp only [List.flatten_cons, List.flatten_nil, List.append_assoc]
  · show Decl.print _ = _
    unfold nodesDecl Decl.print Init.print
    rw [h2]
    simp only [List.append_assoc, List.cons_append, List.nil_append, List.append_nil]

/-! ### Roots -/

def rootsDecl (name : List Char) (ws : List (List Char)) (roots : List Nat) : MiniC.Decl :=
  ⟨ws, "int32_t".toList, name ++ "_tree_roots".toList, some (showNat roots.length), some (.flat (roots.map fun (r : Nat) => sgnExpr (intSgn r)) false)⟩

set_option simprocs false in
theorem roots_lexes {name : List Char} (hn : isName name = true) {ws : List (List Char)} (hws : ∀ w ∈ ws, IsWord w) (roots : List Nat) (hne : roots ≠ []) :
    Lexes (rootsText name ([' '].intercalate ws) roots) (rootsDecl name ws roots).print := by
  have k0 := lexes_mods ws hws
  have k3 := lexes_sgn_list ", ".toList (by decide +kernel) (by decide +kernel) (by decide +kernel) (roots.map fun (r : Nat) => intSgn r) (by simpa using hne)
    (by intro p hp; obtain ⟨r, -, rfl⟩ := List.mem_map.1 hp; exact intSgn_word _) " };".toList [.sym '}', .sym ';'] (by decide +kernel) (by decide +kernel) (by decide +kernel)
  have k2 := lexes_word_chain (showNat roots.length) (isWord_showNat _) "] = { ".toList [.sym ']', .sym '=', .sym '{'] (by decide +kernel) k3
  have k1 := lexes_word_chain (name ++ "_tree_roots".toList) (isName_word (isName_append hn (by decide +kernel))) "[".toList [.sym '['] (by decide +kernel) k2
  have k := k0.append (lexes_lit_chain "int32_t ".toList [.word "int32_t".toList] (by decide +kernel) k1)
  refine k.congr ?_ ?_
  · have e : " int32_t ".toList = [' '] ++ "int32_t ".toList := by decide +kernel
    have em : roots.map showNat = (roots.map fun (r : Nat) => intSgn r).map sgnText := by
      rw [List.map_map]
      apply List.map_congr_left
      intro r _
      have := showInt_sgn (r : Int)
      simp only [Function.comp_apply]
      rw [← this]
      unfold showInt
      rw [if_neg (by omega)]
      simp
    unfold rootsText
    rw [e, em]
    simp only [List.flatten_cons, List.flatten_nil, List.append_assoc, List.append_nil]
  · show Decl.print _ = _
    unfold rootsDecl Decl.print Init.print
    rw [List.map_map]
    simp only [List.append_assoc, List.cons_append, List.nil_append, List.append_nil, Bool.false_eq_true, if_false, Function.comp_def]

/-! ### The struct -/

def structDecl (name : List Char) (nNodes nRoots nLeaves : Nat) (bits : Int) (nFeatures nClasses : Nat) : MiniC.Decl :=
  ⟨[], "EmlTrees".toList, name, none, some (.flat [.lit (showNat nNodes), .cast "EmlTreesNode".toList true (.paren (.var (name ++ "_nodes".toList))), .lit (showNat nRoots),
    .cast "int32_t".toList true (.paren (.var (name ++ "_tree_roots".toList))), .lit (showNat nLeaves), .cast "uint8_t".toList true (.paren (.var (name ++ "_leaves".toList))),
    sgnExpr (intSgn bits), .lit (showNat nFeatures), .lit (showNat nClasses)] true)⟩

def callArgs (name : List Char) : List Arg := [⟨some '&', name⟩, ⟨none, nmFeatures⟩, ⟨none, nmLength⟩]

def loadRegressFunc (name dtype : List Char) : Func :=
  ⟨[], "float".toList, name ++ "_predict".toList, featureParams dtype,
    .decl ⟨["const".toList], "float".toList, "out".toList, none, some (.one (.call "eml_trees_regress1".toList (callArgs name)))⟩ (.ret (.var "out".toList) .done)⟩

def loadPredictFunc (name dtype : List Char) : Func :=
  ⟨[], "int32_t".toList, name ++ "_predict".toList, featureParams dtype,
    .decl ⟨["const".toList], "int".toList, "out".toList, none, some (.one (.call "eml_trees_predict".toList (callArgs name)))⟩ (.ret (.var "out".toList) .done)⟩

def loadProbaFunc (name dtype : List Char) : Func :=
  ⟨[], "int".toList, name ++ "_predict_proba".toList, probaParams dtype,
    .decl ⟨["const".toList], "EmlError".toList, "err".toList, none,
      some (.one (.call "eml_trees_predict_proba".toList (callArgs name ++ [⟨none, "out".toList⟩, ⟨none, "out_length".toList⟩])))⟩ (.ret (.var "err".toList) .done)⟩

set_option simprocs false in
theorem struct_lexes (name : List Char) (hn : isName name = true) (nNodes nRoots nLeaves : Nat) (bits : Int) (nFeatures nClasses : Nat) :
    Lexes (structText name nNodes nRoots nLeaves bits nFeatures nClasses) ((structDecl name nNodes nRoots nLeaves bits nFeatures nClasses).print) := by
  have k0 := lexes_word_chain (showNat nClasses) (isWord_showNat nClasses) ",\n    };".toList [.sym ',', .sym '}', .sym ';'] (by decide +kernel) (Lexes.nil)
  have k1 := lexes_word_chain (showNat nFeatures) (isWord_showNat nFeatures) ",\n        ".toList [.sym ','] (by decide +kernel) (k0)
  have k2 := lexes_sgn_chain (intSgn bits) (intSgn_word bits) ",\n        ".toList [.sym ','] (by decide +kernel) (k1)
  have k3 := lexes_word_chain (name ++ "_leaves".toList) (isName_word (isName_append hn (by decide +kernel))) "),\n        ".toList [.sym ')', .sym ','] (by decide +kernel) (k2)
  have k4 := lexes_word_chain (showNat nLeaves) (isWord_showNat nLeaves) ",\n        (uint8_t *)(".toList [.sym ',', .sym '(', .word "uint8_t".toList, .sym '*', .sym ')', .sym '('] (by decide +kernel) (k3)
  have k5 := lexes_word_chain (name ++ "_tree_roots".toList) (isName_word (isName_append hn (by decide +kernel))) "),\n        ".toList [.sym ')', .sym ','] (by decide +kernel) (k4)
  have k6 := lexes_word_chain (showNat nRoots) (isWord_showNat nRoots) ",\n        (int32_t *)(".toList [.sym ',', .sym '(', .word "int32_t".toList, .sym '*', .sym ')', .sym '('] (by decide +kernel) (k5)
  have k7 := lexes_word_chain (name ++ "_nodes".toList) (isName_word (isName_append hn (by decide +kernel))) "),\t  \n        ".toList [.sym ')', .sym ','] (by decide +kernel) (k6)
  have k8 := lexes_word_chain (showNat nNodes) (isWord_showNat nNodes) ",\n        (EmlTreesNode *)(".toList [.sym ',', .sym '(', .word "EmlTreesNode".toList, .sym '*', .sym ')', .sym '('] (by decide +kernel) (k7)
  have k9 := lexes_word_chain (name) (isName_word hn) " = {\n        ".toList [.sym '=', .sym '{'] (by decide +kernel) (k8)
  have k10 := lexes_lit_chain "EmlTrees ".toList [.word "EmlTrees".toList] (by decide +kernel) (k9)
  refine k10.congr ?_ ?_
  · unfold structText; rw [showInt_sgn]; rfl
  · unfold structDecl Decl.print Init.print
    simp only [printExprs, Expr.print, List.map_nil, List.nil_append, List.append_assoc, List.cons_append, if_true]

set_option simprocs false in
theorem loadRegress_lexes (name dtype : List Char) (hn : isName name = true) (hd : IsWord dtype) :
    Lexes (loadRegressText name dtype) ((loadRegressFunc name dtype).print) := by
  have k0 := lexes_word_chain (name) (isName_word hn) ", features, features_length);\n        return out;\n    }\n    ".toList [.sym ',', .word "features".toList, .sym ',', .word "features_length".toList, .sym ')', .sym ';', .word "return".toList, .word "out".toList, .sym ';', .sym '}'] (by decide +kernel) (Lexes.nil)
  have k1 := lexes_word_chain (dtype) (hd) " *features, int32_t features_length) {\n\n        const float out = eml_trees_regress1(&".toList [.sym '*', .word "features".toList, .sym ',', .word "int32_t".toList, .word "features_length".toList, .sym ')', .sym '{', .word "const".toList, .word "float".toList, .word "out".toList, .sym '=', .word "eml_trees_regress1".toList, .sym '(', .sym '&'] (by decide +kernel) (k0)
  have k2 := lexes_word_chain (name ++ "_predict".toList) (isName_word (isName_append hn (by decide +kernel))) "(const ".toList [.sym '(', .word "const".toList] (by decide +kernel) (k1)
  have k3 := lexes_lit_chain "float ".toList [.word "float".toList] (by decide +kernel) (k2)
  refine k3.congr ?_ ?_
  · unfold loadRegressText; rfl
  · rfl

set_option simprocs false in
theorem loadPredict_lexes (name dtype : List Char) (hn : isName name = true) (hd : IsWord dtype) :
    Lexes (loadPredictText name dtype) ((loadPredictFunc name dtype).print) := by
  have k0 := lexes_word_chain (name) (isName_word hn) ", features, features_length);\n        return out;\n\n    }\n    ".toList [.sym ',', .word "features".toList, .sym ',', .word "features_length".toList, .sym ')', .sym ';', .word "return".toList, .word "out".toList, .sym ';', .sym '}'] (by decide +kernel) (Lexes.nil)
  have k1 := lexes_word_chain (dtype) (hd) " *features, int32_t features_length) {\n\n        const int out = eml_trees_predict(&".toList [.sym '*', .word "features".toList, .sym ',', .word "int32_t".toList, .word "features_length".toList, .sym ')', .sym '{', .word "const".toList, .word "int".toList, .word "out".toList, .sym '=', .word "eml_trees_predict".toList, .sym '(', .sym '&'] (by decide +kernel) (k0)
  have k2 := lexes_word_chain (name ++ "_predict".toList) (isName_word (isName_append hn (by decide +kernel))) "(const ".toList [.sym '(', .word "const".toList] (by decide +kernel) (k1)
  have k3 := lexes_lit_chain "int32_t ".toList [.word "int32_t".toList] (by decide +kernel) (k2)
  refine k3.congr ?_ ?_
  · unfold loadPredictText; rfl
  · rfl

set_option simprocs false in
theorem loadProba_lexes (name dtype : List Char) (hn : isName name = true) (hd : IsWord dtype) :
    Lexes (loadProbaText name dtype) ((loadProbaFunc name dtype).print) := by
  have k0 := lexes_word_chain (name) (isName_word hn) ", features, features_length, out, out_length);\n        return err;\n\n    }\n    ".toList [.sym ',', .word "features".toList, .sym ',', .word "features_length".toList, .sym ',', .word "out".toList, .sym ',', .word "out_length".toList, .sym ')', .sym ';', .word "return".toList, .word "err".toList, .sym ';', .sym '}'] (by decide +kernel) (Lexes.nil)
  have k1 := lexes_word_chain (dtype) (hd) " *features, int32_t features_length, float *out, int out_length) {\n\n        const EmlError err =             eml_trees_predict_proba(&".toList [.sym '*', .word "features".toList, .sym ',', .word "int32_t".toList, .word "features_length".toList, .sym ',', .word "float".toList, .sym '*', .word "out".toList, .sym ',', .word "int".toList, .word "out_length".toList, .sym ')', .sym '{', .word "const".toList, .word "EmlError".toList, .word "err".toList, .sym '=', .word "eml_trees_predict_proba".toList, .sym '(', .sym '&'] (by decide +kernel) (k0)
  have k2 := lexes_word_chain (name ++ "_predict_proba".toList) (isName_word (isName_append hn (by decide +kernel))) "(const ".toList [.sym '(', .word "const".toList] (by decide +kernel) (k1)
  have k3 := lexes_lit_chain "int ".toList [.word "int".toList] (by decide +kernel) (k2)
  refine k3.congr ?_ ?_
  · unfold loadProbaText; rfl
  · rfl

/-! ### The whole program -/

/-- The value stored in `leaf_bits` (`trees.py` 606). -/
def treeBits (leafBits : Int) : Int := if leafBits = 0 ∨ leafBits = 32 then leafBits else 8

def loadFuncs (name dtype : List Char) (classifier includeProba : Bool) : List Func :=
  if classifier then loadPredictFunc name dtype :: (if includeProba then [loadProbaFunc name dtype] else []) else [loadRegressFunc name dtype]

def loadProg (name dtype : List Char) (roots : List Nat) (nFeatures nClasses : Nat) (leafBits : Int) (classifier includeProba : Bool) (ws : List (List Char)) (bytes : List Nat)
    (rows : List (List Expr)) : Prog :=
  [.decl (nodesDecl name ws rows), .decl (rootsDecl name ws roots), .decl (leavesDecl name ws bytes),
    .decl (structDecl name rows.length roots.length bytes.length (treeBits leafBits) nFeatures nClasses)] ++ (loadFuncs name dtype classifier includeProba).map .func

theorem nodeRowsFrom_ok (dtype : List Char) (i : Nat) (nodes : List (Node ℚ)) (rows : List (List Expr)) (h : nodeRowsFrom dtype i nodes = some rows) :
    ∀ row ∈ rows, row ≠ [] ∧ ∀ e ∈ row, e.Ok := by
  induction nodes generalizing i rows with
  | nil => simp [nodeRowsFrom] at h; subst h; simp
  | cons n rest ih =>
    unfold nodeRowsFrom at h
    cases hl : encodeChild i n.left with
    | none => rw [hl] at h; cases h
    | some l =>
    cases hr : encodeChild i n.right with
    | none => rw [hl, hr] at h; cases h
    | some r =>
    cases hs : nodeRowsFrom dtype (i + 1) rest with
    | none => rw [hl, hr, hs] at h; cases h
    | some us =>
    rw [hl, hr, hs] at h
    cases h
    intro row hrow
    rcases List.mem_cons.1 hrow with rfl | hrow
    · refine ⟨by simp [nodeExprs], ?_⟩
      intro e he
      simp only [nodeExprs, List.mem_cons, List.not_mem_nil, or_false] at he
      rcases he with rfl | rfl | rfl | rfl
      · exact (sgnExpr_ok _ (isNum_showNat _)).2
      · exact (litExpr_ok _ _).2
      · exact (sgnExpr_ok _ (isNum_showNat _)).2
      · exact (sgnExpr_ok _ (isNum_showNat _)).2
    · exact ih (i + 1) us hs row hrow

theorem nodesDecl_ok {name : List Char} (hn : isName name = true) {ws : List (List Char)} (hws : ∀ w ∈ ws, isMod w = true) (rows : List (List Expr)) (hne : rows ≠ [])
    (h : ∀ row ∈ rows, row ≠ [] ∧ ∀ e ∈ row, e.Ok) : (nodesDecl name ws rows).Ok := by
  refine ⟨hws, by show isType "EmlTreesNode".toList = true; decide +kernel, nm_suffix hn (by decide +kernel) (by decide +kernel), size_ok _, ?_⟩
  intro i hi
  cases hi
  exact ⟨hne, h⟩

theorem rootsDecl_ok {name : List Char} (hn : isName name = true) {ws : List (List Char)} (hws : ∀ w ∈ ws, isMod w = true) (roots : List Nat) : (rootsDecl name ws roots).Ok := by
  refine ⟨hws, tyInt32, nm_suffix hn (by decide +kernel) (by decide +kernel), size_ok _, ?_⟩
  intro i hi
  cases hi
  refine ⟨?_, fun _ => rfl⟩
  intro e he
  obtain ⟨b, -, rfl⟩ := List.mem_map.1 he
  exact (sgnExpr_ok _ (isNum_showNat _)).2

theorem structDecl_ok {name : List Char} (hn : Nm name) (a b c : Nat) (d : Int) (e f : Nat) : (structDecl name a b c d e f).Ok := by
  refine ⟨by simp [structDecl], by show isType "EmlTrees".toList = true; decide +kernel, hn, by simp [structDecl], ?_⟩
  intro i hi
  cases hi
  refine ⟨?_, by simp⟩
  have hnn : Nm (name ++ "_nodes".toList) := nm_suffix hn.1 (by decide +kernel) (by decide +kernel)
  have hnr : Nm (name ++ "_tree_roots".toList) := nm_suffix hn.1 (by decide +kernel) (by decide +kernel)
  have hnl : Nm (name ++ "_leaves".toList) := nm_suffix hn.1 (by decide +kernel) (by decide +kernel)
  intro x hx
  simp only [List.mem_cons, List.not_mem_nil, or_false] at hx
  rcases hx with rfl | rfl | rfl | rfl | rfl | rfl | rfl | rfl | rfl
  · exact isNum_showNat _
  · exact ⟨by decide +kernel, trivial, hnn⟩
  · exact isNum_showNat _
  · exact ⟨by decide +kernel, trivial, hnr⟩
  · exact isNum_showNat _
  · exact ⟨by decide +kernel, trivial, hnl⟩
  · exact (sgnExpr_ok _ (isNum_showNat _)).2
  · exact isNum_showNat _
  · exact isNum_showNat _

theorem loadFuncs_ok {name dtype : List Char} (hn : isName name = true) (hd : isType dtype = true) (c ip : Bool) : ∀ g ∈ loadFuncs name dtype c ip, g.Ok := by
  have hp : (loadPredictFunc name dtype).Ok := by
    refine ⟨by simp [loadPredictFunc], tyInt32, nm_suffix hn (by decide +kernel) (by decide +kernel), by simp [loadPredictFunc, featureParams], featureParams_ok hd,
      ⟨(by show ∀ m ∈ ["const".toList], isMod m = true; decide +kernel), (by show isType "int".toList = true; decide +kernel), (by show Nm "out".toList; decide +kernel), by simp, one_ok ⟨by decide +kernel, by simp [callArgs], ?_⟩⟩, (by decide +kernel : Nm "out".toList), trivial⟩
    simp [callArgs, Arg.Ok]
  have hr : (loadRegressFunc name dtype).Ok := by
    refine ⟨by simp [loadRegressFunc], tyFloat, nm_suffix hn (by decide +kernel) (by decide +kernel), by simp [loadRegressFunc, featureParams], featureParams_ok hd,
      ⟨(by show ∀ m ∈ ["const".toList], isMod m = true; decide +kernel), (by show isType "float".toList = true; decide +kernel), (by show Nm "out".toList; decide +kernel), by simp, one_ok ⟨by decide +kernel, by simp [callArgs], ?_⟩⟩, (by decide +kernel : Nm "out".toList), trivial⟩
    simp [callArgs, Arg.Ok]
  have hq : (loadProbaFunc name dtype).Ok := by
    refine ⟨by simp [loadProbaFunc], tyInt, nm_suffix hn (by decide +kernel) (by decide +kernel), by simp [loadProbaFunc, probaParams], probaParams_ok hd,
      ⟨(by show ∀ m ∈ ["const".toList], isMod m = true; decide +kernel), (by show isType "EmlError".toList = true; decide +kernel), (by show Nm "err".toList; decide +kernel), by simp, one_ok ⟨by decide +kernel, by simp [callArgs], ?_⟩⟩, (by decide +kernel : Nm "err".toList), trivial⟩
    simp [callArgs, Arg.Ok]
  intro g hg
  cases c <;> cases ip <;> simp [loadFuncs] at hg <;> rcases hg with rfl | rfl <;> assumption

/-- The text of `generate_c_loadable` is read as the loadable program. -/
theorem loadable_lexes {L : Type} (f : Forest ℚ L) (name : List Char) (nFeatures nClasses : Nat) (leafBits : Int) (dtype : List Char) (classifier includeProba : Bool)
    (ws : List (List Char)) (bytes : List Nat) (text : List Char) (hnl : '\n' ∉ name) (hty : isKey name = false) (hd : DType dtype) (hws : ∀ w ∈ ws, isMod w = true)
    (hnodes : f.nodes ≠ []) (hroots : f.roots ≠ [])
    (h : generateLoadableText f name nFeatures nClasses leafBits dtype classifier includeProba ([' '].intercalate ws) bytes = some text) :
    ∃ rows, nodeRowsFrom dtype 0 f.nodes = some rows ∧ rows.length = f.nodes.length ∧
      Lexes text (printProg (loadProg name dtype f.roots nFeatures nClasses leafBits classifier includeProba ws bytes rows)) ∧
      ∀ t ∈ loadProg name dtype f.roots nFeatures nClasses leafBits classifier includeProba ws bytes rows, t.Ok := by
  unfold generateLoadableText at h
  by_cases hv : assertValidIdentifier name = true
  swap
  · rw [if_neg hv] at h; cases h
  rw [if_pos hv] at h
  have hn := isName_of_valid hv hnl
  have hwsw : ∀ w ∈ ws, IsWord w := fun w hw => isMod_word (hws w hw)
  obtain ⟨lc, hlc⟩ := leavesText_some name ([' '].intercalate ws) bytes
  cases hnt : nodesText f.nodes (name ++ "_nodes".toList) dtype ([' '].intercalate ws) with
  | none => rw [hnt] at h; cases h
  | some nc =>
  obtain ⟨rows, hr1, hr2, hr3⟩ := nodes_lexes hn hd.2 hwsw f.nodes hnodes hnt
  refine ⟨rows, hr1, hr2, ?_⟩
  rw [hnt, Option.bind_some, hlc, Option.map_some, Option.some.injEq] at h
  have hdw := isType_word hd.1
  unfold loadableParts at h
  have hhead := lexes_lits "\n    // !!! This file is generated using emlearn !!!\n\n    #include <eml_trees.h>\n    ".toList [] (by decide +kernel) (by decide +kernel)
  have hsep := lexes_lits "\n\n".toList [] (by decide +kernel) (by decide +kernel)
  generalize "\n    // !!! This file is generated using emlearn !!!\n\n    #include <eml_trees.h>\n    ".toList = head at h hhead
  generalize hsepe : "\n\n".toList = sep at h hsep
  have hs := struct_lexes name hn f.nodes.length f.roots.length bytes.length (treeBits leafBits) nFeatures nClasses
  let pfuncs : List (List Char × List Tok) := if classifier then
      (loadPredictText name dtype, (loadPredictFunc name dtype).print) :: (if includeProba then [(loadProbaText name dtype, (loadProbaFunc name dtype).print)] else [])
    else [(loadRegressText name dtype, (loadRegressFunc name dtype).print)]
  let pall : List (List Char × List Tok) := [(head, []), (nc, (nodesDecl name ws rows).print), (rootsText name ([' '].intercalate ws) f.roots, (rootsDecl name ws f.roots).print),
    (lc, (leavesDecl name ws bytes).print), (structText name f.nodes.length f.roots.length bytes.length (treeBits leafBits) nFeatures nClasses,
      (structDecl name f.nodes.length f.roots.length bytes.length (treeBits leafBits) nFeatures nClasses).print)] ++ pfuncs
  have hall : ∀ a ∈ pall, Lexes a.1 a.2 := by
    intro a ha
    simp only [pall] at ha
    rw [List.mem_append] at ha
    rcases ha with ha | ha
    · simp only [List.mem_cons, List.not_mem_nil, or_false] at ha
      rcases ha with rfl | rfl | rfl | rfl | rfl
      · exact hhead
      · exact hr3
      · exact roots_lexes hn hwsw f.roots hroots
      · exact leaves_lexes hn hws bytes hlc
      · exact hs
    · simp only [pfuncs] at ha
      cases classifier with
      | false =>
        simp only [Bool.false_eq_true, if_false, List.mem_singleton] at ha
        subst ha
        exact loadRegress_lexes name dtype hn hdw
      | true =>
        simp only [if_true] at ha
        rcases List.mem_cons.1 ha with rfl | ha
        · exact loadPredict_lexes name dtype hn hdw
        · cases includeProba with
          | false => simp at ha
          | true =>
            simp only [if_true, List.mem_singleton] at ha
            subst ha
            exact loadProba_lexes name dtype hn hdw
  have hj := lexes_join_pairs sep hsep _ hall
  have etext : text = sep.intercalate (pall.map (·.1)) := by
    rw [← h]
    congr 1
    have e3 : pfuncs.map (·.1) = if classifier = true then [loadPredictText name dtype] ++ (if includeProba = true then [loadProbaText name dtype] else []) else [loadRegressText name dtype] := by
      simp only [pfuncs]
      cases classifier <;> cases includeProba <;> simp only [if_true, if_false, Bool.false_eq_true] <;> rfl
    simp only [pall]
    rw [List.map_append, e3]
    rfl
  have etoks : pall.flatMap (·.2) = printProg (loadProg name dtype f.roots nFeatures nClasses leafBits classifier includeProba ws bytes rows) := by
    have e3 : pfuncs.flatMap (·.2) = printProg ((loadFuncs name dtype classifier includeProba).map .func) := by
      simp only [pfuncs, loadFuncs]
      cases classifier <;> cases includeProba <;> simp only [if_true, if_false, Bool.false_eq_true] <;> rfl
    simp only [pall]
    rw [List.flatMap_append, e3, loadProg, hr2]
    simp only [printProg, List.flatMap_append, List.flatMap_cons, List.flatMap_nil, List.nil_append, Top.print]
  have hlex : Lexes text (printProg (loadProg name dtype f.roots nFeatures nClasses leafBits classifier includeProba ws bytes rows)) := by rw [etext, ← etoks]; exact hj
  have hok : ∀ t ∈ loadProg name dtype f.roots nFeatures nClasses leafBits classifier includeProba ws bytes rows, t.Ok := by
    intro t ht
    unfold loadProg at ht
    rw [List.mem_append] at ht
    rcases ht with ht | ht
    · simp only [List.mem_cons, List.not_mem_nil, or_false] at ht
      rcases ht with rfl | rfl | rfl | rfl
      · exact nodesDecl_ok hn hws rows (by intro e; rw [e] at hr2; exact hnodes (List.length_eq_zero_iff.1 hr2.symm)) (nodeRowsFrom_ok dtype 0 f.nodes rows hr1)
      · exact rootsDecl_ok hn hws f.roots
      · exact leavesDecl_ok hn hws bytes
      · exact structDecl_ok ⟨hn, hty⟩ _ _ _ _ _ _
    · obtain ⟨g, hg, rfl⟩ := List.mem_map.1 ht
      exact loadFuncs_ok hn hd.1 classifier includeProba g hg
  exact ⟨hlex, hok⟩

theorem loadable_parse {L : Type} (f : Forest ℚ L) (name : List Char) (nFeatures nClasses : Nat) (leafBits : Int) (dtype : List Char) (classifier includeProba : Bool)
    (ws : List (List Char)) (bytes : List Nat) (text : List Char) (hnl : '\n' ∉ name) (hty : isKey name = false) (hd : DType dtype) (hws : ∀ w ∈ ws, isMod w = true)
    (hnodes : f.nodes ≠ []) (hroots : f.roots ≠ [])
    (h : generateLoadableText f name nFeatures nClasses leafBits dtype classifier includeProba ([' '].intercalate ws) bytes = some text) :
    ∃ rows, nodeRowsFrom dtype 0 f.nodes = some rows ∧ rows.length = f.nodes.length ∧
      parse (saveText text) = some (loadProg name dtype f.roots nFeatures nClasses leafBits classifier includeProba ws bytes rows) := by
  obtain ⟨rows, h1, h2, hlex, hok⟩ := loadable_lexes f name nFeatures nClasses leafBits dtype classifier includeProba ws bytes text hnl hty hd hws hnodes hroots h
  exact ⟨rows, h1, h2, parse_eq _ _ hok (lexes_saveText hlex).lex⟩
end Emlearn.Trees
