/- The C text that `emlearn/bayes.py` produces for a Gaussian naive Bayes classifier, and the program that it stands for. -/
import Verif.Bayes.Model
import Verif.Mixture.Text
namespace Emlearn.Bayes.CText
open Emlearn.Cgen Emlearn.MiniC Emlearn.Net.CText
open Emlearn.Mixture.CText (nm_const)

/-- The summary of one class and feature: mean, standard deviation, its logarithm. -/
abbrev Row := PyFloat × PyFloat × PyFloat

/-- `c_tofixed(v)`, `bayes.py` 27-28 (`v` a `numpy.float64`, formatted like a Python float). -/
def tofixed (v : PyFloat) : List Char := "EML_Q16_FROMFLOAT(".toList ++ (v.text ++ ")".toList)

/-- `c_struct_init(vals, c_tofixed)`, `bayes.py` 21-25, for the three values of a summary. -/
def structInit (r : Row) : List Char := "{ ".toList ++ ([','].intercalate [tofixed r.1, tofixed r.2.1, tofixed r.2.2] ++ " }".toList)

/-- `summaries`, `bayes.py` 42-50. -/
def summariesText (pre : List Char) (items : Nat) (rows : List Row) : List Char :=
  ["EmlBayesSummary ".toList, pre, "_summaries[".toList, showNat items, "] = {\n        ".toList, ",\n  ".toList.intercalate (rows.map structInit), "\n    };\n    ".toList].flatten

/-- `model`, `bayes.py` 52-62. -/
def modelText (pre : List Char) (nClasses nFeatures : Nat) : List Char :=
  ["EmlBayesModel ".toList, pre, "_model = {\n        ".toList, showNat nClasses, ",\n        ".toList, showNat nFeatures, ",\n        ".toList, pre, "_summaries,\n    };\n    ".toList].flatten

/-- `predict_function`, `bayes.py` 69-77. -/
def predictText (pre : List Char) : List Char :=
  ["\n    int32_t\n    ".toList, pre, "_predict(const float *features, int32_t n_features)\n    {\n        return eml_bayes_predict(&".toList, pre, "_model, features, n_features);\n\n    }\n    ".toList].flatten

/-- `generate_c(model, name)`, `bayes.py` 31-79; the array has `nFeatures` features for each of the classes. `none`: the name is refused. -/
def generateText (pre : List Char) (nFeatures : Nat) (table : List (List Row)) : Option (List Char) :=
  if assertValidIdentifier pre then
    some ("\n\n".toList.intercalate ["// !!! This file is generated by emlearn !!!\n\n    #include <eml_bayes.h>\n    ".toList, summariesText pre (table.length * nFeatures) table.flatten,
      modelText pre table.length nFeatures, predictText pre])
  else none

/-! ### The program -/

def macroName : List Char := "EML_Q16_FROMFLOAT".toList

/-- The use of the macro for one number. -/
def fixedExpr (v : PyFloat) : Expr := .call macroName [⟨if v.neg then some '-' else none, v.magText⟩]

def rowExprs (r : Row) : List Expr := [fixedExpr r.1, fixedExpr r.2.1, fixedExpr r.2.2]

def summariesVar (pre : List Char) (items : Nat) (rows : List Row) : MiniC.Decl :=
  ⟨[], "EmlBayesSummary".toList, pre ++ "_summaries".toList, some (showNat items), some (.nested (rows.map rowExprs))⟩

def modelVar (pre : List Char) (nClasses nFeatures : Nat) : MiniC.Decl :=
  ⟨[], "EmlBayesModel".toList, pre ++ "_model".toList, none, some (.flat [.lit (showNat nClasses), .lit (showNat nFeatures), .var (pre ++ "_summaries".toList)] true)⟩

def predictF (pre : List Char) : Func :=
  forwardF "int32_t".toList (pre ++ "_predict".toList) "eml_bayes_predict".toList (pre ++ "_model".toList) "features".toList "n_features".toList []

def bayesProg (pre : List Char) (nFeatures : Nat) (table : List (List Row)) : Prog :=
  [.decl (summariesVar pre (table.length * nFeatures) table.flatten), .decl (modelVar pre table.length nFeatures), .func (predictF pre)]

/-! ### Words of the text -/

theorem tofixed_lexes (v : PyFloat) : Lexes (tofixed v) (fixedExpr v).print := by
  have k1 := lexes_sgn_chain (v.neg, v.magText) (isWord_magText v) ")".toList [.sym ')'] (by decide +kernel) Lexes.nil
  have k := lexes_lit_chain "EML_Q16_FROMFLOAT(".toList [.word macroName, .sym '('] (by decide +kernel) k1
  refine k.congr ?_ ?_
  · unfold tofixed PyFloat.text sgnText
    rw [List.append_nil]
  · unfold fixedExpr sgnExpr
    simp only
    cases v.neg <;> rfl

set_option simprocs false in
theorem structInit_lexes (r : Row) : Lexes (structInit r) (.sym '{' :: (printExprs (rowExprs r) ++ [.sym '}'])) := by
  have hc := lexes_lits [','] [.sym ','] (by decide +kernel) (by decide +kernel)
  have h0 := lexes_lits "{ ".toList [.sym '{'] (by decide +kernel) (by decide +kernel)
  have h1 := lexes_lits " }".toList [.sym '}'] (by decide +kernel) (by decide +kernel)
  have k := h0.append ((tofixed_lexes r.1).append (hc.append ((tofixed_lexes r.2.1).append (hc.append ((tofixed_lexes r.2.2).append h1)))))
  refine k.congr ?_ ?_
  · unfold structInit
    simp only [List.intercalate, List.intersperse, List.flatten_cons, List.flatten_nil, List.append_assoc, List.append_nil]
  · unfold rowExprs
    simp only [printExprs, List.append_assoc, List.cons_append, List.nil_append]

theorem rows_lexes (rows : List Row) (hne : rows ≠ []) : Lexes (",\n  ".toList.intercalate (rows.map structInit)) (printGroups (rows.map rowExprs)) := by
  have hsep := lexes_lits ",\n  ".toList [.sym ','] (by decide +kernel) (by decide +kernel)
  generalize ",\n  ".toList = sep at *
  induction rows with
  | nil => exact absurd rfl hne
  | cons r l ih =>
    have hr := structInit_lexes r
    cases l with
    | nil =>
      refine hr.congr ?_ ?_
      · simp [List.intercalate]
      · simp [printGroups]
    | cons s l =>
      have := hr.append (hsep.append (ih (by simp)))
      refine this.congr ?_ ?_
      · simp [List.intercalate]
      · simp [printGroups]

set_option simprocs false in
theorem summaries_lexes {pre : List Char} (hn : isName pre = true) (items : Nat) (rows : List Row) (hne : rows ≠ []) : Lexes (summariesText pre items rows) (summariesVar pre items rows).print := by
  have k4 := lexes_lit_chain "\n    };\n    ".toList [.sym '}', .sym ';'] (by decide +kernel) Lexes.nil
  have k3 := (rows_lexes rows hne).append k4
  have k2 := lexes_word_chain (showNat items) (isWord_showNat _) "] = {\n        ".toList [.sym ']', .sym '=', .sym '{'] (by decide +kernel) k3
  have k1 := lexes_word_chain (pre ++ "_summaries".toList) (isName_word (isName_append hn (by decide +kernel))) "[".toList [.sym '['] (by decide +kernel) k2
  have k := lexes_lit_chain "EmlBayesSummary ".toList [.word "EmlBayesSummary".toList] (by decide +kernel) k1
  refine k.congr ?_ ?_
  · unfold summariesText
    rw [show "_summaries[".toList = "_summaries".toList ++ "[".toList by decide +kernel]
    simp only [List.flatten_cons, List.flatten_nil, List.append_assoc, List.append_nil]
  · unfold summariesVar Decl.print Init.print
    simp only [List.append_assoc, List.cons_append, List.nil_append, List.append_nil, List.map_nil]

set_option simprocs false in
theorem model_lexes {pre : List Char} (hn : isName pre = true) (nc nf : Nat) : Lexes (modelText pre nc nf) (modelVar pre nc nf).print := by
  have k3 := lexes_word_chain (pre ++ "_summaries".toList) (isName_word (isName_append hn (by decide +kernel))) ",\n    };\n    ".toList [.sym ',', .sym '}', .sym ';'] (by decide +kernel) Lexes.nil
  have k2 := lexes_word_chain (showNat nf) (isWord_showNat _) ",\n        ".toList [.sym ','] (by decide +kernel) k3
  have k1 := lexes_word_chain (showNat nc) (isWord_showNat _) ",\n        ".toList [.sym ','] (by decide +kernel) k2
  have k0 := lexes_word_chain (pre ++ "_model".toList) (isName_word (isName_append hn (by decide +kernel))) " = {\n        ".toList [.sym '=', .sym '{'] (by decide +kernel) k1
  have k := lexes_lit_chain "EmlBayesModel ".toList [.word "EmlBayesModel".toList] (by decide +kernel) k0
  refine k.congr ?_ ?_
  · unfold modelText
    rw [show "_model = {\n        ".toList = "_model".toList ++ " = {\n        ".toList by decide +kernel, show "_summaries,\n    };\n    ".toList = "_summaries".toList ++ ",\n    };\n    ".toList by decide +kernel]
    simp only [List.flatten_cons, List.flatten_nil, List.append_assoc, List.append_nil]
  · unfold modelVar Decl.print Init.print
    simp only [printExprs, Expr.print, List.append_assoc, List.cons_append, List.nil_append, List.append_nil, List.map_nil, if_true]

set_option simprocs false in
theorem predict_lexes {pre : List Char} (hn : isName pre = true) : Lexes (predictText pre) (predictF pre).print := by
  have k1 := lexes_word_chain (pre ++ "_model".toList) (isName_word (isName_append hn (by decide +kernel))) ", features, n_features);\n\n    }\n    ".toList
    [.sym ',', .word "features".toList, .sym ',', .word "n_features".toList, .sym ')', .sym ';', .sym '}'] (by decide +kernel) Lexes.nil
  have k0 := lexes_word_chain (pre ++ "_predict".toList) (isName_word (isName_append hn (by decide +kernel))) "(const float *features, int32_t n_features)\n    {\n        return eml_bayes_predict(&".toList
    [.sym '(', .word "const".toList, .word "float".toList, .sym '*', .word "features".toList, .sym ',', .word "int32_t".toList, .word "n_features".toList, .sym ')', .sym '{', .word "return".toList,
     .word "eml_bayes_predict".toList, .sym '(', .sym '&'] (by decide +kernel) k1
  have k := lexes_lit_chain "\n    int32_t\n    ".toList [.word "int32_t".toList] (by decide +kernel) k0
  refine k.congr ?_ ?_
  · unfold predictText
    rw [show "_predict(const float *features, int32_t n_features)\n    {\n        return eml_bayes_predict(&".toList = "_predict".toList ++ "(const float *features, int32_t n_features)\n    {\n        return eml_bayes_predict(&".toList by decide +kernel,
      show "_model, features, n_features);\n\n    }\n    ".toList = "_model".toList ++ ", features, n_features);\n\n    }\n    ".toList by decide +kernel]
    simp only [List.flatten_cons, List.flatten_nil, List.append_assoc, List.append_nil]
  · unfold predictF forwardF Func.print
    simp only [Expr.print, Code.print, printParams, Param.print, printArgs, Arg.print, List.map_cons, List.map_nil, List.append_assoc, List.nil_append, List.cons_append, Bool.false_eq_true, if_false, if_true]

/-! ### The text is read as the program -/

theorem generate_parse (pre : List Char) (nf : Nat) (table : List (List Row)) (hv : assertValidIdentifier pre = true) (hnl : '\n' ∉ pre) (hne : table.flatten ≠ []) :
    ∃ text, generateText pre nf table = some text ∧ parse text = some (bayesProg pre nf table) := by
  have hn := isName_of_valid hv hnl
  have hnm : ∀ {s : List Char}, s.all identRest = true → keyWords.all (fun k => !(s.isSuffixOf k)) = true → Nm (pre ++ s) := fun h1 h2 => nm_suffix hn h1 h2
  have k0 := lexes_lits "// !!! This file is generated by emlearn !!!\n\n    #include <eml_bayes.h>\n    \n\n".toList [] (by decide +kernel) (by decide +kernel)
  have k1 := summaries_lexes hn (table.length * nf) table.flatten hne
  have k2 := model_lexes hn table.length nf
  have k3 := predict_lexes hn
  have knl := lexes_lits "\n\n".toList [] (by decide +kernel) (by decide +kernel)
  refine ⟨_, by unfold generateText; rw [if_pos hv], ?_⟩
  refine parse_eq _ _ ?_ ?_
  · intro t ht
    unfold bayesProg at ht
    simp only [List.mem_cons, List.not_mem_nil, or_false] at ht
    rcases ht with rfl | rfl | rfl
    · refine ⟨(by intro m hm; cases hm), by show isType "EmlBayesSummary".toList = true; decide +kernel, hnm (by decide +kernel) (by decide +kernel), (by intro n h; cases h; exact isNum_showNat _), ?_⟩
      intro i h
      cases h
      refine ⟨by simpa using hne, ?_⟩
      intro es hes
      obtain ⟨r, -, rfl⟩ := List.mem_map.1 hes
      refine ⟨by simp [rowExprs], ?_⟩
      have hf : ∀ v, (fixedExpr v).Ok := by
        intro v
        refine ⟨nm_const (by decide +kernel), by simp, ?_⟩
        intro a ha
        simp only [List.mem_cons, List.not_mem_nil, or_false] at ha
        subst ha
        cases h : v.neg
        · exact .inl (by simp)
        · exact .inr (.inr (by simp))
      intro e he
      unfold rowExprs at he
      simp only [List.mem_cons, List.not_mem_nil, or_false] at he
      rcases he with rfl | rfl | rfl <;> exact hf _
    · refine ⟨(by intro m hm; cases hm), by show isType "EmlBayesModel".toList = true; decide +kernel, hnm (by decide +kernel) (by decide +kernel), (by intro n h; cases h), ?_⟩
      intro i h
      cases h
      refine ⟨?_, fun h => by cases h⟩
      intro e he
      simp only [List.mem_cons, List.not_mem_nil, or_false] at he
      rcases he with rfl | rfl | rfl
      · exact isNum_showNat _
      · exact isNum_showNat _
      · exact hnm (by decide +kernel) (by decide +kernel)
    · refine ⟨(by intro m hm; cases hm), by show isType "int32_t".toList = true; decide +kernel, hnm (by decide +kernel) (by decide +kernel), by simp [predictF, forwardF], ?_, ?_⟩
      · intro q hq
        unfold predictF forwardF at hq
        simp only [List.map_nil, List.mem_cons, List.not_mem_nil, or_false] at hq
        rcases hq with rfl | rfl
        · exact ⟨by show isType "float".toList = true; decide +kernel, nm_const (s := "features".toList) (by decide +kernel)⟩
        · exact ⟨by show isType "int32_t".toList = true; decide +kernel, nm_const (s := "n_features".toList) (by decide +kernel)⟩
      · refine ⟨⟨nm_const (s := "eml_bayes_predict".toList) (by decide +kernel), by simp, ?_⟩, trivial⟩
        intro a ha
        simp only [List.map_nil, List.mem_cons, List.not_mem_nil, or_false] at ha
        rcases ha with rfl | rfl | rfl
        · exact .inr (.inl rfl)
        · exact .inl rfl
        · exact .inl rfl
  · refine ((k0.append (k1.append (knl.append (k2.append (knl.append k3))))).congr ?_ ?_).lex
    · rw [show "// !!! This file is generated by emlearn !!!\n\n    #include <eml_bayes.h>\n    \n\n".toList = "// !!! This file is generated by emlearn !!!\n\n    #include <eml_bayes.h>\n    ".toList ++ "\n\n".toList by decide +kernel]
      generalize "\n\n".toList = nl
      simp only [List.intercalate, List.intersperse, List.flatten_cons, List.flatten_nil, List.append_assoc, List.append_nil]
    · simp only [bayesProg, printProg, Top.print, List.flatMap_cons, List.flatMap_nil, List.nil_append, List.append_nil]

end Emlearn.Bayes.CText
