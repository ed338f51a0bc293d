/- Model of the text produced by the code generators of `emlearn/trees.py` (`generate_c_nodes`, `generate_c_inlined`, `generate_c_loadable`), character by character.
Thresholds and leaf values are rationals (finite floats). Texts are lists of characters; a format string with its arguments is the list of its parts. -/
import Verif.Trees.CModel
import Verif.Cgen.Model
namespace Emlearn.Trees
open Emlearn.Cgen

/-- `n * ' '`. -/
def spaces (n : Nat) : List Char := List.replicate n ' '

/-- `cgen.constant` (`cgen.py` 42-54) for the types `float` and integers; `str(val)` of other types does not occur here. -/
def lit (val : ℚ) (dtype : List Char) : List Char := constant (fun _ => []) val dtype

/-! ### Inline code -/

/-- `name + '_tree_{}'.format(i)` (`trees.py` 355). -/
def treeName (name : List Char) (i : Nat) : List Char := name ++ "_tree_".toList ++ showNat i

/-- `c_leaf` and `c_internal` (`trees.py` 370-385): the text of a tree of nested ifs. `c_node(idx, depth)` calls them with `depth + 1`, and `c_internal` calls `c_node` with its own depth plus 1. -/
def stmtText (dtype leafDtype : List Char) : Nat → Stmt ℚ ℚ → List Char
  | depth, .ret v => [spaces ((depth + 1) * 2), "return ".toList, lit v leafDtype, ";".toList].flatten
  | depth, .ite f t l r =>
    [spaces ((depth + 1) * 2), "if (features[".toList, lit f "int".toList, "] < ".toList, lit t dtype, ") {\n        ".toList,
     stmtText dtype leafDtype (depth + 2) l, "\n        ".toList, spaces ((depth + 1) * 2), "} else {\n        ".toList,
     stmtText dtype leafDtype (depth + 2) r, "\n        ".toList, spaces ((depth + 1) * 2), "}".toList].flatten

/-- `tree_func(name, root, return_type)` (`trees.py` 404-413). -/
def treeFuncText (dtype leafDtype returnType fname : List Char) (code : Stmt ℚ ℚ) : List Char :=
  ["static inline ".toList, returnType, " ".toList, fname, "(const ".toList, dtype, " *features, int32_t features_length) {\n        ".toList,
   stmtText dtype leafDtype 0 code, "\n        }\n        ".toList].flatten

/-- `tree_vote_classifier` (`trees.py` 415-416). -/
def voteText (tree : List Char) : List Char := ["_class = ".toList, tree, "(features, features_length); votes[_class] += 1;".toList].flatten

/-- `tree_vote_proba` (`trees.py` 418-419). -/
def voteProbaText (tree : List Char) : List Char := ["_class = ".toList, tree, "(features, features_length); out[_class] += 1.0f;".toList].flatten

/-- `tree_vote_regressor` (`trees.py` 421-422). -/
def voteRegressText (tree : List Char) : List Char := ["avg += ".toList, tree, "(features, features_length); ".toList].flatten

/-- `tree_vote_leaf_proportion` (`trees.py` 493-498). -/
def voteSoftText (nClasses : Nat) (leavesName tree : List Char) : List Char :=
  ["offset = ".toList, showNat nClasses, "*".toList, tree, "(features, features_length);\n            for (int i=0; i<".toList, showNat nClasses, "; i++) { out[i] += (".toList, leavesName,
   "[offset+i]/255.0f); }\n        ".toList].flatten

/-- `'\n    '.join(...)` of the tree votes. -/
def votesText (votes : List (List Char)) : List Char := "\n    ".toList.intercalate votes

/-- `forest_regressor_func` (`trees.py` 424-438). -/
def regressorText (name dtype : List Char) (trees : List (List Char)) : List Char :=
  ["float ".toList, name ++ "_predict".toList, "(const ".toList, dtype, " *features, int32_t features_length) {\n\n        float avg = 0;\n\n        ".toList,
   votesText (trees.map voteRegressText), "\n        \n        return avg/".toList, showNat trees.length, ";\n    }\n    ".toList].flatten

/-- `forest_predict_majority_func` (`trees.py` 440-463). -/
def predictHardText (name dtype : List Char) (nClasses : Nat) (trees : List (List Char)) : List Char :=
  ["int32_t ".toList, name ++ "_predict".toList, "(const ".toList, dtype, " *features, int32_t features_length) {\n\n        int32_t votes[".toList, showNat nClasses,
   "] = {0,};\n        int32_t _class = -1;\n\n        ".toList, votesText (trees.map voteText),
   "\n    \n        int32_t most_voted_class = -1;\n        int32_t most_voted_votes = 0;\n        for (int32_t i=0; i<".toList, showNat nClasses,
   "; i++) {\n\n            if (votes[i] > most_voted_votes) {\n                most_voted_class = i;\n                most_voted_votes = votes[i];\n            }\n        }\n        return most_voted_class;\n    }\n    ".toList].flatten

/-- `forest_proba_majority_func` (`trees.py` 466-488). -/
def probaHardText (name dtype : List Char) (trees : List (List Char)) : List Char :=
  ["int ".toList, name ++ "_predict_proba".toList, "(const ".toList, dtype,
   " *features, int32_t features_length, float *out, int out_length) {\n\n        int32_t _class = -1;\n\n        for (int i=0; i<out_length; i++) {\n            out[i] = 0.0f;\n        }\n\n        ".toList,
   votesText (trees.map voteProbaText), "\n    \n        // compute mean\n        for (int i=0; i<out_length; i++) {\n            out[i] = out[i] / ".toList, showNat trees.length,
   ";\n        }\n        return 0;\n    }\n    ".toList].flatten

/-- `forest_proba_proportions_func` (`trees.py` 499-521). -/
def probaSoftText (name dtype leavesName : List Char) (nClasses : Nat) (trees : List (List Char)) : List Char :=
  ["int ".toList, name ++ "_predict_proba".toList, "(const ".toList, dtype,
   " *features, int32_t features_length, float *out, int out_length) {\n\n        int offset = 0;\n\n        for (int i=0; i<out_length; i++) {\n            out[i] = 0.0f;\n        }\n\n        ".toList,
   votesText (trees.map (voteSoftText nClasses leavesName)), "\n    \n        // compute mean\n        for (int i=0; i<out_length; i++) {\n            out[i] = out[i] / ".toList, showNat trees.length,
   ";\n        }\n        return 0;\n    }\n    ".toList].flatten

/-- `forest_predict_proportions_func` (`trees.py` 524-549). -/
def predictSoftText (name dtype leavesName : List Char) (nClasses : Nat) (trees : List (List Char)) : List Char :=
  ["int32_t ".toList, name ++ "_predict".toList, "(const ".toList, dtype, " *features, int32_t features_length) {\n\n        float out[".toList, showNat nClasses,
   "] = {0.0f,};\n\n        int offset = 0;\n\n        ".toList, votesText (trees.map (voteSoftText nClasses leavesName)),
   "\n    \n        // argmax over probabilities\n        int32_t most_voted_class = -1;\n        float most_voted_proba = 0.0f;\n        for (int32_t i=0; i<".toList, showNat nClasses,
   "; i++) {\n\n            if (out[i] > most_voted_proba) {\n                most_voted_class = i;\n                most_voted_proba = out[i];\n            }\n        }\n        return most_voted_class;\n    }\n    ".toList].flatten

/-- `leaves_code` (`trees.py` 364-368, 598-603); `none`: the assertion on the size fails. -/
def leavesText (name modifiers : List Char) (bytes : List Nat) : Option (List Char) :=
  arrayDeclare (fun _ => []) (name ++ "_leaves".toList) (some bytes.length) "uint8_t".toList modifiers (some (bytes.map fun (b : Nat) => (b : ℚ))) [] []

/-- The value a leaf returns (`trees.py` 387-398): the leaf value of regression and hard voting, else the number of the leaf. -/
def leafValue {L : Type} (f : Forest ℚ L) (classifier : Bool) (leafBits : Int) (num : L → ℚ) (i : Nat) : Option ℚ :=
  if classifier = false then (f.leaves[i]?).map num
  else if leafBits = 0 then (f.leaves[i]?).map num
  else some i

/-- The parts of the inline code (`trees.py` 552-575): a header, the tree functions, the leaf bytes unless `leaf_bits` is 0, the functions of the forest. -/
def inlineParts (name : List Char) (nClasses : Nat) (leafBits : Int) (dtype : List Char) (classifier includeProba : Bool) (leavesCode : List Char) (codes : List (Stmt ℚ ℚ)) : List (List Char) :=
  let trees := (List.range codes.length).map (treeName name)
  let leavesName := name ++ "_leaves".toList
  let leafDtype := if classifier then "int".toList else "float".toList
  let returnType := if classifier then "int32_t".toList else "float".toList
  let predict := if leafBits = 0 then predictHardText name dtype nClasses trees else predictSoftText name dtype leavesName nClasses trees
  let proba := if leafBits = 0 then probaHardText name dtype trees else probaSoftText name dtype leavesName nClasses trees
  let funcs := if classifier then [predict] ++ (if includeProba then [proba] else []) else [regressorText name dtype trees]
  let treeFuncs := (trees.zip codes).map fun p => treeFuncText dtype leafDtype returnType p.1 p.2
  let head := "\n    // !!! This file is generated using emlearn !!!\n\n    #include <stdint.h>\n    ".toList
  [head] ++ treeFuncs ++ (if leafBits ≠ 0 then [leavesCode] else []) ++ funcs

/-- `generate_c_inlined(forest, name, n_features, n_classes, leaf_bits, dtype, classifier, include_proba, weight_modifiers)` (`trees.py` 350-577).
`num` is the number in a leaf (regression, hard voting), `bytes` the result of `leaves_to_bytelist` (`trees.py` 329-348). `none`: an exception. -/
def generateInlined {L : Type} (f : Forest ℚ L) (name : List Char) (nClasses : Nat) (leafBits : Int) (dtype : List Char) (classifier includeProba : Bool)
    (modifiers : List Char) (num : L → ℚ) (bytes : List Nat) : Option (List Char) :=
  if assertValidIdentifier name then
    (leavesText name modifiers bytes).bind fun leavesCode =>
      (inlineTrees f (leafValue f classifier leafBits num)).map fun codes =>
        "\n\n".toList.intercalate (inlineParts name nClasses leafBits dtype classifier includeProba leavesCode codes)
  else none

/-! ### Loadable code -/

/-- `make_node` of `generate_c_nodes` (`trees.py` 311-318); `none`: an assertion of `encode_child` fails. -/
def nodeText (dtype : List Char) (index : Nat) (n : Node ℚ) : Option (List Char) := do
  let l ← encodeChild index n.left
  let r ← encodeChild index n.right
  some ["{ ".toList, showInt n.feature, ", ".toList, lit n.threshold dtype, ", ".toList, showInt l, ", ".toList, showInt r, " }".toList].flatten

/-- The loop of `generate_c_nodes` from an index (`trees.py` 320). -/
def nodeTextsFrom (dtype : List Char) : Nat → List (Node ℚ) → Option (List (List Char))
  | _, [] => some []
  | i, n :: rest => do
    let t ← nodeText dtype i n
    let ts ← nodeTextsFrom dtype (i + 1) rest
    some (t :: ts)

/-- `generate_c_nodes(flat, name, dtype, modifiers)` (`trees.py` 309-327). -/
def nodesText (nodes : List (Node ℚ)) (name dtype modifiers : List Char) : Option (List Char) := do
  let structs ← nodeTextsFrom dtype 0 nodes
  some [modifiers, " EmlTreesNode ".toList, name, "[".toList, showNat nodes.length, "] = {\n  ".toList, ",\n  ".toList.intercalate structs, " \n};".toList].flatten

/-- `tree_roots` (`trees.py` 593-596). -/
def rootsText (name modifiers : List Char) (roots : List Nat) : List Char :=
  [modifiers, " int32_t ".toList, name ++ "_tree_roots".toList, "[".toList, showNat roots.length, "] = { ".toList, ", ".toList.intercalate (roots.map showNat), " };".toList].flatten

/-- `forest_struct` (`trees.py` 608-618); `treeLeafBits` is 0, 32 or 8 (line 606). -/
def structText (name : List Char) (nNodes nRoots nLeaves : Nat) (treeLeafBits : Int) (nFeatures nClasses : Nat) : List Char :=
  ["EmlTrees ".toList, name, " = {\n        ".toList, showNat nNodes, ",\n        (EmlTreesNode *)(".toList, name ++ "_nodes".toList, "),\t  \n        ".toList, showNat nRoots,
   ",\n        (int32_t *)(".toList, name ++ "_tree_roots".toList, "),\n        ".toList, showNat nLeaves, ",\n        (uint8_t *)(".toList, name ++ "_leaves".toList, "),\n        ".toList,
   showInt treeLeafBits, ",\n        ".toList, showNat nFeatures, ",\n        ".toList, showNat nClasses, ",\n    };".toList].flatten

/-- `forest_regressor_func` (`trees.py` 624-634). -/
def loadRegressText (name dtype : List Char) : List Char :=
  ["float ".toList, name ++ "_predict".toList, "(const ".toList, dtype, " *features, int32_t features_length) {\n\n        const float out = eml_trees_regress1(&".toList, name,
   ", features, features_length);\n        return out;\n    }\n    ".toList].flatten

/-- `forest_classifier_func` (`trees.py` 636-646). -/
def loadPredictText (name dtype : List Char) : List Char :=
  ["int32_t ".toList, name ++ "_predict".toList, "(const ".toList, dtype, " *features, int32_t features_length) {\n\n        const int out = eml_trees_predict(&".toList, name,
   ", features, features_length);\n        return out;\n\n    }\n    ".toList].flatten

/-- `forest_proba_func` (`trees.py` 649-660); the backslash at the end of a line joins it with the next one. -/
def loadProbaText (name dtype : List Char) : List Char :=
  ["int ".toList, name ++ "_predict_proba".toList, "(const ".toList, dtype,
   " *features, int32_t features_length, float *out, int out_length) {\n\n        const EmlError err =             eml_trees_predict_proba(&".toList, name,
   ", features, features_length, out, out_length);\n        return err;\n\n    }\n    ".toList].flatten

/-- The parts of the loadable code (`trees.py` 606, 662-676). -/
def loadableParts (name : List Char) (nNodes : Nat) (roots : List Nat) (nFeatures nClasses : Nat) (leafBits : Int) (dtype : List Char) (classifier includeProba : Bool)
    (modifiers : List Char) (bytes : List Nat) (nodesC leavesCode : List Char) : List (List Char) :=
  let treeLeafBits := if leafBits = 0 ∨ leafBits = 32 then leafBits else 8
  let funcs := if classifier then [loadPredictText name dtype] ++ (if includeProba then [loadProbaText name dtype] else []) else [loadRegressText name dtype]
  let head := "\n    // !!! This file is generated using emlearn !!!\n\n    #include <eml_trees.h>\n    ".toList
  [head, nodesC, rootsText name modifiers roots, leavesCode, structText name nNodes roots.length bytes.length treeLeafBits nFeatures nClasses] ++ funcs

/-- `generate_c_loadable(forest, name, n_features, weight_modifiers, dtype, classifier, n_classes, leaf_bits, include_proba)` (`trees.py` 580-677).
`bytes` is the result of `leaves_to_bytelist`. `none`: an exception. -/
def generateLoadableText {L : Type} (f : Forest ℚ L) (name : List Char) (nFeatures nClasses : Nat) (leafBits : Int) (dtype : List Char) (classifier includeProba : Bool)
    (modifiers : List Char) (bytes : List Nat) : Option (List Char) :=
  if assertValidIdentifier name then
    (nodesText f.nodes (name ++ "_nodes".toList) dtype modifiers).bind fun nodesC =>
      (leavesText name modifiers bytes).map fun leavesCode =>
        "\n\n".toList.intercalate (loadableParts name f.nodes.length f.roots nFeatures nClasses leafBits dtype classifier includeProba modifiers bytes nodesC leavesCode)
  else none

/-- `Wrapper.save(name=..., format='c')` (`trees.py` 849-881): the text of the chosen inference method after two newlines. -/
def saveText (text : List Char) : List Char := "\n\n".toList ++ text

end Emlearn.Trees
