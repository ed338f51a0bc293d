/- The C text that `emlearn/mixture.py` produces, and the program that it stands for. -/
import Verif.Mixture.Model
import Verif.Net.TextRun
import Verif.MiniC.Forward
namespace Emlearn.Mixture.CText
open Emlearn.Cgen Emlearn.MiniC Emlearn.Net.CText

/-- `get_covariance_type`, `mixture.py` 18-21, for the names of the four types. -/
def covarianceType : Cov → List Char
  | .full => "EmlCovarianceFull".toList
  | .tied => "EmlCovarianceTied".toList
  | .diagonal => "EmlCovarianceDiagonal".toList
  | .spherical => "EmlCovarianceSpherical".toList

/-- `cgen.array_declare(name, size, values=values)` with the default type and modifiers, `mixture.py` 38-48 and `cgen.py` 73-81. -/
def declareArray (other : ℚ → List Char) (name : List Char) (size : Option Int) (values : List ℚ) : Option (List Char) :=
  arrayDeclare other name size "float".toList "static const".toList (some values) [] []

/-- `predict_func`, `mixture.py` 51-79. -/
def functionsText (pre : List Char) : List Char :=
  ["\n        int32_t\n        ".toList, pre, "_predict_log_proba(const float values[], int32_t values_length, float *out)\n        {\n\n            return eml_mixture_predict_log_proba(&".toList, pre,
   "_model,\n                                values, values_length,\n                                out);\n        }\n\n\n        EmlError\n        ".toList, pre,
   "_score(const float values[], int32_t values_length, float *probabilities, float *score)\n        {\n\n            return eml_mixture_score(&".toList, pre,
   "_model,\n                                values, values_length,\n                                probabilities, score);\n        }\n\n        int32_t\n        ".toList, pre,
   "_predict_proba(const float values[], int32_t values_length, float *probabilities, float *score, float *resp)\n        {\n\n            return eml_mixture_predict_proba(&".toList, pre,
   "_model,\n                                values, values_length,\n                                probabilities, score, resp);\n        }\n    ".toList].flatten

/-- The values of `model_init`, `mixture.py` 81-89. -/
def modelFields (pre : List Char) (nComponents nFeatures : Nat) (cov : Cov) : List (List Char) :=
  [showNat nComponents, showNat nFeatures, covarianceType cov, pre ++ "_means".toList, pre ++ "_precisions".toList, pre ++ "_log_dets".toList, pre ++ "_log_weights".toList]

/-- `generate_code(model, name)`, `mixture.py` 24-107; the rows of `means` have `nFeatures` values. `none`: the name is refused, or the size of the means is not `n_components * n_features`. -/
def generateText (other : ℚ → List Char) (pre : List Char) (means : List (List ℚ)) (prec : List (List (List ℚ))) (logDets logWeights : List ℚ) (nFeatures : Nat) (cov : Cov) : Option (List Char) :=
  if assertValidIdentifier pre then
    (declareArray other (pre ++ "_means".toList) (some ((means.length * nFeatures : Nat) : Int)) means.flatten).bind fun a1 =>
    (declareArray other (pre ++ "_log_dets".toList) none logDets).bind fun a2 =>
    (declareArray other (pre ++ "_precisions".toList) none prec.flatten.flatten).bind fun a3 =>
    (declareArray other (pre ++ "_log_weights".toList) none logWeights).map fun a4 =>
      ['\n'].intercalate ["\n    // !! This file was generated using emlearn\n\n    #include <eml_mixture.h>\n    ".toList, a1, a3, a4, a2,
        "EmlMixtureModel ".toList ++ pre ++ "_model = ".toList ++ structInit (modelFields pre means.length nFeatures cov) ++ ";\n".toList, functionsText pre]
  else none

/-! ### The program -/

def modelVar (pre : List Char) (nComponents nFeatures : Nat) (cov : Cov) : MiniC.Decl :=
  ⟨[], "EmlMixtureModel".toList, pre ++ "_model".toList, none, some (.flat [.lit (showNat nComponents), .lit (showNat nFeatures), .var (covarianceType cov), .var (pre ++ "_means".toList),
    .var (pre ++ "_precisions".toList), .var (pre ++ "_log_dets".toList), .var (pre ++ "_log_weights".toList)] false)⟩

/-- `values`, `values_length` and the model variable are the same in all functions. -/
def fwd (pre ty f lib : List Char) (outs : List (List Char)) : Func := forwardF ty (pre ++ f) lib (pre ++ "_model".toList) "values".toList "values_length".toList outs

def logProbaF (pre : List Char) : Func := fwd pre "int32_t".toList "_predict_log_proba".toList "eml_mixture_predict_log_proba".toList ["out".toList]
def scoreF (pre : List Char) : Func := fwd pre "EmlError".toList "_score".toList "eml_mixture_score".toList ["probabilities".toList, "score".toList]
def probaF (pre : List Char) : Func := fwd pre "int32_t".toList "_predict_proba".toList "eml_mixture_predict_proba".toList ["probabilities".toList, "score".toList, "resp".toList]

def arrays (pre : List Char) (means : List (List ℚ)) (prec : List (List (List ℚ))) (logDets logWeights : List ℚ) : List MiniC.Decl :=
  [floatArr (pre ++ "_means".toList) means.flatten, floatArr (pre ++ "_precisions".toList) prec.flatten.flatten, floatArr (pre ++ "_log_weights".toList) logWeights, floatArr (pre ++ "_log_dets".toList) logDets]

def mixtureProg (pre : List Char) (means : List (List ℚ)) (prec : List (List (List ℚ))) (logDets logWeights : List ℚ) (nFeatures : Nat) (cov : Cov) : Prog :=
  (arrays pre means prec logDets logWeights).map .decl ++ [.decl (modelVar pre means.length nFeatures cov), .func (logProbaF pre), .func (scoreF pre), .func (probaF pre)]

/-! ### Words of the text -/

/-- `const float values[], int32_t values_length, ` followed by the output parameters. -/
def paramToks (outs : List (List Char)) : List Tok :=
  .word "const".toList :: .word "float".toList :: .word "values".toList :: .sym '[' :: .sym ']' :: .sym ',' :: printParams (⟨false, "int32_t".toList, false, "values_length".toList⟩ :: outs.map outParam)

theorem nm_const {s : List Char} (h : (isName s && !isKey s) = true) : Nm s := by
  simp only [Bool.and_eq_true, Bool.not_eq_true'] at h; exact h

theorem paramToks_read (outs : List (List Char)) (h : ∀ o ∈ outs, Nm o) :
    ParamsRead (⟨true, "float".toList, true, "values".toList⟩ :: ⟨false, "int32_t".toList, false, "values_length".toList⟩ :: outs.map outParam) (paramToks outs) := by
  intro k hk rest
  have hp := paramsRead_print (⟨false, "int32_t".toList, false, "values_length".toList⟩ :: outs.map outParam) (by simp) (by
    intro p hp
    rcases List.mem_cons.1 hp with rfl | hp
    · exact ⟨by show isType "int32_t".toList = true; decide +kernel, nm_const (s := "values_length".toList) (by decide +kernel)⟩
    · obtain ⟨o, ho, rfl⟩ := List.mem_map.1 hp
      exact ⟨by show isType "float".toList = true; decide +kernel, h o ho⟩)
  unfold paramToks at hk ⊢
  generalize printParams (⟨false, "int32_t".toList, false, "values_length".toList⟩ :: outs.map outParam) = pt at hp hk ⊢
  simp only [List.length_cons] at hk
  obtain ⟨k, rfl⟩ : ∃ j, k = j + 1 := ⟨k - 1, by omega⟩
  have h1 : parseParam (.word "const".toList :: .word "float".toList :: .word "values".toList :: .sym '[' :: .sym ']' :: .sym ',' :: (pt ++ .sym ')' :: rest)) =
      some (⟨true, "float".toList, true, "values".toList⟩, .sym ',' :: (pt ++ .sym ')' :: rest)) := by
    simp only [parseParam]
    rw [if_pos trivial, if_pos (by decide +kernel)]
  simp only [List.cons_append]
  rw [parseParams, h1]
  simp only
  rw [hp k (by omega) rest]
  rfl

theorem array_lexes {name : List Char} (hn : isName name = true) (other : ℚ → List Char) (vs : List ℚ) (text : List Char) (h : declareArray other name (some (vs.length : Int)) vs = some text) :
    Lexes text (floatArr name vs).print := by
  refine arrayDeclare_lexes other name "float".toList ["static".toList, "const".toList] vs text hn (by constructor <;> decide +kernel) (.inl rfl) (by
    intro w hw; simp only [List.mem_cons, List.not_mem_nil, or_false] at hw; rcases hw with rfl | rfl <;> constructor <;> decide +kernel) ?_
  rw [show [' '].intercalate ["static".toList, "const".toList] = "static const".toList by decide +kernel]
  exact h

theorem declareArray_some (other : ℚ → List Char) (name : List Char) (vs : List ℚ) : ∃ text, declareArray other name (some (vs.length : Int)) vs = some text ∧ declareArray other name none vs = some text := by
  unfold declareArray arrayDeclare
  simp only [Option.getD_none, Option.getD_some, if_true]
  exact ⟨_, rfl, rfl⟩

set_option simprocs false in
theorem modelVar_lexes {pre : List Char} (hn : isName pre = true) (nc nf : Nat) (cov : Cov) :
    Lexes ("EmlMixtureModel ".toList ++ pre ++ "_model = ".toList ++ structInit (modelFields pre nc nf cov) ++ ";\n".toList) (modelVar pre nc nf cov).print := by
  have hb : ∀ {s : List Char}, s.all identRest = true → IsWord (pre ++ s) := fun h => isName_word (isName_append hn h)
  have hc : IsWord (covarianceType cov) := by cases cov <;> (unfold covarianceType; exact ⟨by decide +kernel, by decide +kernel, by decide +kernel⟩)
  have k0 := lexes_word_chain (pre ++ "_log_weights".toList) (hb (by decide +kernel)) " };\n".toList [.sym '}', .sym ';'] (by decide +kernel) Lexes.nil
  have k1 := lexes_word_chain (pre ++ "_log_dets".toList) (hb (by decide +kernel)) [',', ' '] [.sym ','] (by decide +kernel) k0
  have k2 := lexes_word_chain (pre ++ "_precisions".toList) (hb (by decide +kernel)) [',', ' '] [.sym ','] (by decide +kernel) k1
  have k3 := lexes_word_chain (pre ++ "_means".toList) (hb (by decide +kernel)) [',', ' '] [.sym ','] (by decide +kernel) k2
  have k4 := lexes_word_chain (covarianceType cov) hc [',', ' '] [.sym ','] (by decide +kernel) k3
  have k5 := lexes_word_chain (showNat nf) (isWord_showNat _) [',', ' '] [.sym ','] (by decide +kernel) k4
  have k6 := lexes_word_chain (showNat nc) (isWord_showNat _) [',', ' '] [.sym ','] (by decide +kernel) k5
  have k7 := lexes_word_chain (pre ++ "_model".toList) (hb (by decide +kernel)) " = { ".toList [.sym '=', .sym '{'] (by decide +kernel) k6
  have k := lexes_lit_chain "EmlMixtureModel ".toList [.word "EmlMixtureModel".toList] (by decide +kernel) k7
  refine k.congr ?_ ?_
  · unfold structInit modelFields
    rw [show "_model = ".toList = "_model".toList ++ " = ".toList by decide +kernel, show " = { ".toList = " = ".toList ++ "{ ".toList by decide +kernel,
      show " };\n".toList = " }".toList ++ ";\n".toList by decide +kernel]
    simp only [List.intercalate, List.intersperse, List.flatten_cons, List.flatten_nil, List.append_assoc, List.cons_append, List.nil_append, List.append_nil]
  · unfold modelVar Decl.print Init.print
    simp only [printExprs, Expr.print, List.map_nil, List.nil_append, List.cons_append, Bool.false_eq_true, if_false]

/-- The words of the three functions. -/
def funcToks (pre : List Char) : List Tok :=
  (logProbaF pre).printWith (paramToks ["out".toList]) ++ ((scoreF pre).printWith (paramToks ["probabilities".toList, "score".toList]) ++
    (probaF pre).printWith (paramToks ["probabilities".toList, "score".toList, "resp".toList]))

set_option simprocs false in
theorem functions_lexes {pre : List Char} (hn : isName pre = true) : Lexes (functionsText pre) (funcToks pre) := by
  have hb : ∀ {s : List Char}, s.all identRest = true → IsWord (pre ++ s) := fun h => isName_word (isName_append hn h)
  have k1 := lexes_word_chain (pre ++ "_model".toList) (hb (by decide +kernel)) ",\n                                values, values_length,\n                                probabilities, score, resp);\n        }\n    ".toList
    [.sym ',', .word "values".toList, .sym ',', .word "values_length".toList, .sym ',', .word "probabilities".toList, .sym ',', .word "score".toList, .sym ',', .word "resp".toList, .sym ')', .sym ';', .sym '}']
    (by decide +kernel) Lexes.nil
  have k2 := lexes_word_chain (pre ++ "_predict_proba".toList) (hb (by decide +kernel))
    "(const float values[], int32_t values_length, float *probabilities, float *score, float *resp)\n        {\n\n            return eml_mixture_predict_proba(&".toList
    [.sym '(', .word "const".toList, .word "float".toList, .word "values".toList, .sym '[', .sym ']', .sym ',', .word "int32_t".toList, .word "values_length".toList, .sym ',', .word "float".toList, .sym '*',
     .word "probabilities".toList, .sym ',', .word "float".toList, .sym '*', .word "score".toList, .sym ',', .word "float".toList, .sym '*', .word "resp".toList, .sym ')', .sym '{', .word "return".toList,
     .word "eml_mixture_predict_proba".toList, .sym '(', .sym '&'] (by decide +kernel) k1
  have k3 := lexes_word_chain (pre ++ "_model".toList) (hb (by decide +kernel))
    ",\n                                values, values_length,\n                                probabilities, score);\n        }\n\n        int32_t\n        ".toList
    [.sym ',', .word "values".toList, .sym ',', .word "values_length".toList, .sym ',', .word "probabilities".toList, .sym ',', .word "score".toList, .sym ')', .sym ';', .sym '}', .word "int32_t".toList]
    (by decide +kernel) k2
  have k4 := lexes_word_chain (pre ++ "_score".toList) (hb (by decide +kernel))
    "(const float values[], int32_t values_length, float *probabilities, float *score)\n        {\n\n            return eml_mixture_score(&".toList
    [.sym '(', .word "const".toList, .word "float".toList, .word "values".toList, .sym '[', .sym ']', .sym ',', .word "int32_t".toList, .word "values_length".toList, .sym ',', .word "float".toList, .sym '*',
     .word "probabilities".toList, .sym ',', .word "float".toList, .sym '*', .word "score".toList, .sym ')', .sym '{', .word "return".toList,
     .word "eml_mixture_score".toList, .sym '(', .sym '&'] (by decide +kernel) k3
  have k5 := lexes_word_chain (pre ++ "_model".toList) (hb (by decide +kernel))
    ",\n                                values, values_length,\n                                out);\n        }\n\n\n        EmlError\n        ".toList
    [.sym ',', .word "values".toList, .sym ',', .word "values_length".toList, .sym ',', .word "out".toList, .sym ')', .sym ';', .sym '}', .word "EmlError".toList] (by decide +kernel) k4
  have k6 := lexes_word_chain (pre ++ "_predict_log_proba".toList) (hb (by decide +kernel))
    "(const float values[], int32_t values_length, float *out)\n        {\n\n            return eml_mixture_predict_log_proba(&".toList
    [.sym '(', .word "const".toList, .word "float".toList, .word "values".toList, .sym '[', .sym ']', .sym ',', .word "int32_t".toList, .word "values_length".toList, .sym ',', .word "float".toList, .sym '*',
     .word "out".toList, .sym ')', .sym '{', .word "return".toList, .word "eml_mixture_predict_log_proba".toList, .sym '(', .sym '&'] (by decide +kernel) k5
  have k := lexes_lit_chain "\n        int32_t\n        ".toList [.word "int32_t".toList] (by decide +kernel) k6
  refine k.congr ?_ ?_
  · unfold functionsText
    rw [show "_predict_log_proba(const float values[], int32_t values_length, float *out)\n        {\n\n            return eml_mixture_predict_log_proba(&".toList =
        "_predict_log_proba".toList ++ "(const float values[], int32_t values_length, float *out)\n        {\n\n            return eml_mixture_predict_log_proba(&".toList by decide +kernel,
      show "_score(const float values[], int32_t values_length, float *probabilities, float *score)\n        {\n\n            return eml_mixture_score(&".toList =
        "_score".toList ++ "(const float values[], int32_t values_length, float *probabilities, float *score)\n        {\n\n            return eml_mixture_score(&".toList by decide +kernel,
      show "_predict_proba(const float values[], int32_t values_length, float *probabilities, float *score, float *resp)\n        {\n\n            return eml_mixture_predict_proba(&".toList =
        "_predict_proba".toList ++ "(const float values[], int32_t values_length, float *probabilities, float *score, float *resp)\n        {\n\n            return eml_mixture_predict_proba(&".toList by decide +kernel,
      show "_model,\n                                values, values_length,\n                                out);\n        }\n\n\n        EmlError\n        ".toList =
        "_model".toList ++ ",\n                                values, values_length,\n                                out);\n        }\n\n\n        EmlError\n        ".toList by decide +kernel,
      show "_model,\n                                values, values_length,\n                                probabilities, score);\n        }\n\n        int32_t\n        ".toList =
        "_model".toList ++ ",\n                                values, values_length,\n                                probabilities, score);\n        }\n\n        int32_t\n        ".toList by decide +kernel,
      show "_model,\n                                values, values_length,\n                                probabilities, score, resp);\n        }\n    ".toList =
        "_model".toList ++ ",\n                                values, values_length,\n                                probabilities, score, resp);\n        }\n    ".toList by decide +kernel]
    simp only [List.flatten_cons, List.flatten_nil, List.append_assoc, List.append_nil]
  · rfl

/-! ### The text is read as the program -/

theorem fwd_reads {pre : List Char} (hn : isName pre = true) (ty f lib : List Char) (outs : List (List Char)) (hty : isType ty = true) (hf : f.all identRest = true)
    (hk : keyWords.all (fun k => !(f.isSuffixOf k)) = true) (hlib : Nm lib) (ho : ∀ o ∈ outs, Nm o) :
    (Top.func (fwd pre ty f lib outs)).Reads ((fwd pre ty f lib outs).printWith (paramToks outs)) := by
  refine ⟨(by intro m hm; cases hm), hty, nm_suffix hn hf hk, ?_, paramToks outs, paramToks_read outs ho, rfl⟩
  refine ⟨⟨hlib, by simp, ?_⟩, trivial⟩
  intro a ha
  simp only [List.mem_cons, List.mem_map] at ha
  rcases ha with rfl | rfl | rfl | ⟨o, -, rfl⟩
  · exact .inr (.inl rfl)
  · exact .inl rfl
  · exact .inl rfl
  · exact .inl rfl

theorem generate_parse (other : ℚ → List Char) (pre : List Char) (means : List (List ℚ)) (prec : List (List (List ℚ))) (logDets logWeights : List ℚ) (nf : Nat) (cov : Cov)
    (hv : assertValidIdentifier pre = true) (hnl : '\n' ∉ pre) (hrect : means.flatten.length = means.length * nf) :
    ∃ text, generateText other pre means prec logDets logWeights nf cov = some text ∧ parse text = some (mixtureProg pre means prec logDets logWeights nf cov) := by
  have hn := isName_of_valid hv hnl
  have hs : ∀ {s : List Char}, s.all identRest = true → isName (pre ++ s) = true := fun h => isName_append hn h
  have hnm : ∀ {s : List Char}, s.all identRest = true → keyWords.all (fun k => !(s.isSuffixOf k)) = true → Nm (pre ++ s) := fun h1 h2 => nm_suffix hn h1 h2
  have hmod : Nm (pre ++ "_model".toList) := hnm (by decide +kernel) (by decide +kernel)
  obtain ⟨a1, e1, -⟩ := declareArray_some other (pre ++ "_means".toList) means.flatten
  obtain ⟨a2, l2, e2⟩ := declareArray_some other (pre ++ "_log_dets".toList) logDets
  obtain ⟨a3, l3, e3⟩ := declareArray_some other (pre ++ "_precisions".toList) prec.flatten.flatten
  obtain ⟨a4, l4, e4⟩ := declareArray_some other (pre ++ "_log_weights".toList) logWeights
  have k1 := array_lexes (hs (by decide +kernel)) other _ a1 e1
  have k2 := array_lexes (hs (by decide +kernel)) other _ a2 l2
  have k3 := array_lexes (hs (by decide +kernel)) other _ a3 l3
  have k4 := array_lexes (hs (by decide +kernel)) other _ a4 l4
  have k5 := modelVar_lexes hn means.length nf cov
  have k6 := functions_lexes hn
  rw [hrect] at e1
  have k0 := lexes_lits "\n    // !! This file was generated using emlearn\n\n    #include <eml_mixture.h>\n    \n".toList [] (by decide +kernel) (by decide +kernel)
  have hnl := lexes_lits ['\n'] [] (by decide +kernel) (by decide +kernel)
  refine ⟨_, by unfold generateText; rw [if_pos hv, e1, Option.bind_some, e2, Option.bind_some, e3, Option.bind_some, e4, Option.map_some], ?_⟩
  refine parse_reads _ [(.decl (floatArr (pre ++ "_means".toList) means.flatten), (floatArr (pre ++ "_means".toList) means.flatten).print),
    (.decl (floatArr (pre ++ "_precisions".toList) prec.flatten.flatten), (floatArr (pre ++ "_precisions".toList) prec.flatten.flatten).print),
    (.decl (floatArr (pre ++ "_log_weights".toList) logWeights), (floatArr (pre ++ "_log_weights".toList) logWeights).print),
    (.decl (floatArr (pre ++ "_log_dets".toList) logDets), (floatArr (pre ++ "_log_dets".toList) logDets).print),
    (.decl (modelVar pre means.length nf cov), (modelVar pre means.length nf cov).print),
    (.func (logProbaF pre), (logProbaF pre).printWith (paramToks ["out".toList])),
    (.func (scoreF pre), (scoreF pre).printWith (paramToks ["probabilities".toList, "score".toList])),
    (.func (probaF pre), (probaF pre).printWith (paramToks ["probabilities".toList, "score".toList, "resp".toList]))] ?_ ?_
  · have hout : Nm "out".toList := nm_const (by decide +kernel)
    have hpr : Nm "probabilities".toList := nm_const (by decide +kernel)
    have hsc : Nm "score".toList := nm_const (by decide +kernel)
    have hre : Nm "resp".toList := nm_const (by decide +kernel)
    intro a ha
    simp only [List.mem_cons, List.not_mem_nil, or_false] at ha
    rcases ha with rfl | rfl | rfl | rfl | rfl | rfl | rfl | rfl
    · exact ⟨floatArr_ok (hnm (by decide +kernel) (by decide +kernel)) _, rfl⟩
    · exact ⟨floatArr_ok (hnm (by decide +kernel) (by decide +kernel)) _, rfl⟩
    · exact ⟨floatArr_ok (hnm (by decide +kernel) (by decide +kernel)) _, rfl⟩
    · exact ⟨floatArr_ok (hnm (by decide +kernel) (by decide +kernel)) _, rfl⟩
    · refine ⟨⟨(by intro m hm; cases hm), by show isType "EmlMixtureModel".toList = true; decide +kernel, hmod, (by intro n h; cases h), ?_⟩, rfl⟩
      intro i h
      cases h
      have hc : Nm (covarianceType cov) := by cases cov <;> exact nm_const (by decide +kernel)
      refine ⟨?_, fun _ => rfl⟩
      intro e he
      simp only [List.mem_cons, List.not_mem_nil, or_false] at he
      rcases he with rfl | rfl | rfl | rfl | rfl | rfl | rfl
      · exact isNum_showNat _
      · exact isNum_showNat _
      · exact hc
      · exact hnm (by decide +kernel) (by decide +kernel)
      · exact hnm (by decide +kernel) (by decide +kernel)
      · exact hnm (by decide +kernel) (by decide +kernel)
      · exact hnm (by decide +kernel) (by decide +kernel)
    · exact fwd_reads hn _ _ _ _ (by decide +kernel) (by decide +kernel) (by decide +kernel) (nm_const (by decide +kernel)) (by intro o ho; simp only [List.mem_cons, List.not_mem_nil, or_false] at ho; subst ho; exact hout)
    · exact fwd_reads hn _ _ _ _ (by decide +kernel) (by decide +kernel) (by decide +kernel) (nm_const (by decide +kernel)) (by intro o ho; simp only [List.mem_cons, List.not_mem_nil, or_false] at ho; rcases ho with rfl | rfl <;> assumption)
    · exact fwd_reads hn _ _ _ _ (by decide +kernel) (by decide +kernel) (by decide +kernel) (nm_const (by decide +kernel)) (by intro o ho; simp only [List.mem_cons, List.not_mem_nil, or_false] at ho; rcases ho with rfl | rfl | rfl <;> assumption)
  · refine ((k0.append (k1.append (hnl.append (k3.append (hnl.append (k4.append (hnl.append (k2.append (hnl.append (k5.append (hnl.append k6))))))))))).congr ?_ ?_).lex
    · rw [show "\n    // !! This file was generated using emlearn\n\n    #include <eml_mixture.h>\n    \n".toList = "\n    // !! This file was generated using emlearn\n\n    #include <eml_mixture.h>\n    ".toList ++ ['\n'] by decide +kernel]
      simp only [List.intercalate, List.intersperse, List.flatten_cons, List.flatten_nil, List.append_assoc, List.append_nil]
    · simp only [List.flatMap_cons, List.flatMap_nil, List.nil_append, List.append_nil, funcToks]

end Emlearn.Mixture.CText
