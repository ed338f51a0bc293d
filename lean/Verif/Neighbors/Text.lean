/- The C text that `emlearn/neighbors.py` produces, and the program that it stands for. -/
import Verif.Neighbors.Convert
import Verif.MiniC.Call
namespace Emlearn.Neighbors.CText
open Emlearn.Cgen Emlearn.MiniC

/-! ### The text -/

/-- `declare_array` in `c_generate_neighbors`, `neighbors.py` 152-153. -/
def declareArray (other : ℚ → List Char) (name : List Char) (values : List ℚ) : Option (List Char) :=
  arrayDeclare other name none "int16_t".toList "static const".toList (some values) [] []

/-- The values of `neighbors_model_init`, `neighbors.py` 122-129 and 158-165. -/
def modelFields (pre : List Char) (nFeatures nItems : Nat) (k : Int) : List (List Char) :=
  [showNat nFeatures, showNat nItems, showNat nItems, "(int16_t *)".toList ++ (pre ++ "_data".toList), "(int16_t *)".toList ++ (pre ++ "_labels".toList), showInt k]

/-- `Wrapper.save` and `c_generate_neighbors(data, labels, n_neighbors, prefix)`, `neighbors.py` 131-175; the rows of `data` have `nFeatures` values. `none`: the name is refused. -/
def saveText (other : ℚ → List Char) (pre : List Char) (data : List (List ℚ)) (nFeatures : Nat) (labels : List Int) (k : Int) : Option (List Char) :=
  if assertValidIdentifier pre then
    (declareArray other (pre ++ "_data".toList) data.flatten).bind fun d =>
    (declareArray other (pre ++ "_labels".toList) (labels.map fun (z : Int) => (z : ℚ))).map fun l =>
      ['\n'].intercalate ["#include <eml_neighbors.h>".toList, d, l, structDeclare pre "EmlNeighborsModel".toList (some (modelFields pre nFeatures data.length k)) "static const".toList]
  else none

/-- `predict_func`, `neighbors.py` 60-79. -/
def predictFuncText (name : List Char) (nFeatures distanceLength : Nat) : List Char :=
  ["\n                int32_t\n                predict_func(const float *values, int length) {\n                    int16_t out = -1;\n\n                    // Convert to integer\n                    int16_t features[".toList,
   showNat nFeatures,
   "];\n                    for (int i=0; i<length; i++) {\n                        features[i] = (int16_t)values[i];\n                    }\n                    const EmlError err =                         eml_neighbors_predict(&".toList,
   name, ", features, length, distance_array, ".toList, showNat distanceLength,
   ", &out);\n                    if (err != EmlOk) {\n                        return -err;\n                    }\n                    return out;\n                }\n                ".toList].flatten

/-- The code compiled by `Wrapper.__init__`, `neighbors.py` 47-80. -/
def wrapperText (other : ℚ → List Char) (data : List (List ℚ)) (nFeatures : Nat) (labels : List Int) (k : Int) : Option (List Char) :=
  (saveText other "mymodel".toList data nFeatures labels k).bind fun s =>
  (arrayDeclare other "distance_array".toList (some data.length) "EmlNeighborsDistanceItem".toList "static".toList none [] []).map fun a =>
    ['\n'].intercalate [s, a, predictFuncText "mymodel".toList nFeatures data.length]

/-! ### The program -/

def intArr (name : List Char) (vs : List ℚ) : MiniC.Decl :=
  ⟨["static".toList, "const".toList], "int16_t".toList, name, some (showNat vs.length), some (.flat (vs.map (litExpr · "int16_t".toList)) false)⟩

def modelVar (pre : List Char) (nFeatures nItems : Nat) (k : Int) : MiniC.Decl :=
  ⟨[], "EmlNeighborsModel".toList, pre, none, some (.flat [.lit (showNat nFeatures), .lit (showNat nItems), .lit (showNat nItems),
    .cast "int16_t".toList true (.var (pre ++ "_data".toList)), .cast "int16_t".toList true (.var (pre ++ "_labels".toList)), sgnExpr (intSgn k)] false)⟩

def saveProg (pre : List Char) (data : List (List ℚ)) (nFeatures : Nat) (labels : List Int) (k : Int) : Prog :=
  [.decl (intArr (pre ++ "_data".toList) data.flatten), .decl (intArr (pre ++ "_labels".toList) (labels.map fun (z : Int) => (z : ℚ))), .decl (modelVar pre nFeatures data.length k)]

def distances (n : Nat) : MiniC.Decl := ⟨["static".toList], "EmlNeighborsDistanceItem".toList, "distance_array".toList, some (showNat n), none⟩

def predictParams : List Param := [⟨true, "float".toList, true, "values".toList⟩, ⟨false, "int".toList, false, "length".toList⟩]

def convBody : Code := .assign "features".toList (some (.var "i".toList)) false (.cast "int16_t".toList false (.idx "values".toList (.var "i".toList))) .done

def predictArgs (name : List Char) (n : Nat) : List Arg :=
  [⟨some '&', name⟩, ⟨none, "features".toList⟩, ⟨none, "length".toList⟩, ⟨none, "distance_array".toList⟩, ⟨none, showNat n⟩, ⟨some '&', "out".toList⟩]

def errDecl (name : List Char) (n : Nat) : MiniC.Decl := ⟨["const".toList], "EmlError".toList, "err".toList, none, some (.one (.call "eml_neighbors_predict".toList (predictArgs name n)))⟩

def tailCode : Code :=
  .ifThen (.bin '!' (.var "err".toList) (.var "EmlOk".toList)) (.ret (.neg (.var "err".toList)) .done) (.ret (.var "out".toList) .done)

def predictF (name : List Char) (nFeatures n : Nat) : Func :=
  ⟨[], "int32_t".toList, "predict_func".toList, predictParams,
    .decl ⟨[], "int16_t".toList, "out".toList, none, some (.one (.neg (.lit "1".toList)))⟩
      (.decl ⟨[], "int16_t".toList, "features".toList, some (showNat nFeatures), none⟩
        (.loop "int".toList "i".toList (.var "length".toList) convBody
          (.decl (errDecl name n) tailCode)))⟩

def wrapperProg (data : List (List ℚ)) (nFeatures : Nat) (labels : List Int) (k : Int) : Prog :=
  saveProg "mymodel".toList data nFeatures labels k ++ [.decl (distances data.length), .func (predictF "mymodel".toList nFeatures data.length)]

/-! ### Words of the text -/

theorem intArr_lexes {name : List Char} (hn : isName name = true) (other : ℚ → List Char) (vs : List ℚ) (text : List Char) (h : declareArray other name vs = some text) :
    Lexes text (intArr name vs).print := by
  refine arrayDeclare_lexes other name "int16_t".toList ["static".toList, "const".toList] vs text hn (by constructor <;> decide +kernel) (.inr (by decide +kernel)) (by
    intro w hw; simp only [List.mem_cons, List.not_mem_nil, or_false] at hw; rcases hw with rfl | rfl <;> constructor <;> decide +kernel) ?_
  rw [show [' '].intercalate ["static".toList, "const".toList] = "static const".toList by decide +kernel]
  exact h

theorem declareArray_some (other : ℚ → List Char) (name : List Char) (vs : List ℚ) : ∃ text, declareArray other name vs = some text := by
  unfold declareArray arrayDeclare
  simp only [Option.getD_none, if_true]
  exact ⟨_, rfl⟩

set_option simprocs false in
theorem modelVar_lexes {pre : List Char} (hn : isName pre = true) (nFeatures nItems : Nat) (k : Int) :
    Lexes (structDeclare pre "EmlNeighborsModel".toList (some (modelFields pre nFeatures nItems k)) "static const".toList) (modelVar pre nFeatures nItems k).print := by
  have hb : ∀ {s : List Char}, s.all identRest = true → IsWord (pre ++ s) := fun h => isName_word (isName_append hn h)
  have k0 := lexes_sgn_chain (intSgn k) (intSgn_word k) " };".toList [.sym '}', .sym ';'] (by decide +kernel) Lexes.nil
  have k1 := lexes_word_chain (pre ++ "_labels".toList) (hb (by decide +kernel)) [',', ' '] [.sym ','] (by decide +kernel) k0
  have k2 := lexes_word_chain (pre ++ "_data".toList) (hb (by decide +kernel)) ", (int16_t *)".toList [.sym ',', .sym '(', .word "int16_t".toList, .sym '*', .sym ')'] (by decide +kernel) k1
  have k3 := lexes_word_chain (showNat nItems) (isWord_showNat _) ", (int16_t *)".toList [.sym ',', .sym '(', .word "int16_t".toList, .sym '*', .sym ')'] (by decide +kernel) k2
  have k4 := lexes_word_chain (showNat nItems) (isWord_showNat _) [',', ' '] [.sym ','] (by decide +kernel) k3
  have k5 := lexes_word_chain (showNat nFeatures) (isWord_showNat _) [',', ' '] [.sym ','] (by decide +kernel) k4
  have k6 := lexes_word_chain pre (isName_word hn) "= { ".toList [.sym '=', .sym '{'] (by decide +kernel) k5
  have k7 := lexes_lit_chain "EmlNeighborsModel ".toList [.word "EmlNeighborsModel".toList] (by decide +kernel) k6
  refine k7.congr ?_ ?_
  · unfold structDeclare structInit modelFields
    rw [showInt_sgn, show "EmlNeighborsModel ".toList = "EmlNeighborsModel".toList ++ [' '] by decide +kernel, show ", (int16_t *)".toList = [',', ' '] ++ "(int16_t *)".toList by decide +kernel,
      show "= { ".toList = "= ".toList ++ "{ ".toList by decide +kernel, show " };".toList = " }".toList ++ [';'] by decide +kernel]
    simp only [List.intercalate, List.intersperse, List.flatten_cons, List.flatten_nil, List.append_assoc, List.cons_append, List.nil_append, List.append_nil]
  · unfold modelVar Decl.print Init.print
    simp only [printExprs, Expr.print, List.map_nil, List.nil_append, List.append_assoc, List.cons_append, Bool.false_eq_true, if_true, if_false, sgnExpr_print]

theorem saveText_eq (other : ℚ → List Char) (pre : List Char) (data : List (List ℚ)) (nFeatures : Nat) (labels : List Int) (k : Int) (hv : assertValidIdentifier pre = true) (hnl : '\n' ∉ pre) :
    ∃ text, saveText other pre data nFeatures labels k = some text ∧ Lexes text (printProg (saveProg pre data nFeatures labels k)) := by
  have hn := isName_of_valid hv hnl
  have hs : ∀ {s : List Char}, s.all identRest = true → isName (pre ++ s) = true := fun h => isName_append hn h
  obtain ⟨d, hd⟩ := declareArray_some other (pre ++ "_data".toList) data.flatten
  obtain ⟨l, hl⟩ := declareArray_some other (pre ++ "_labels".toList) (labels.map fun (z : Int) => (z : ℚ))
  refine ⟨_, by unfold saveText; rw [if_pos hv, hd, Option.bind_some, hl, Option.map_some], ?_⟩
  have k1 := intArr_lexes (hs (by decide +kernel)) other _ d hd
  have k2 := intArr_lexes (hs (by decide +kernel)) other _ l hl
  have k3 := modelVar_lexes hn nFeatures data.length k
  have h0 := lexes_lits "#include <eml_neighbors.h>\n".toList [] (by decide +kernel) (by decide +kernel)
  have hnl := lexes_lits ['\n'] [] (by decide +kernel) (by decide +kernel)
  refine (h0.append (k1.append (hnl.append (k2.append (hnl.append k3))))).congr ?_ ?_
  · rw [show "#include <eml_neighbors.h>\n".toList = "#include <eml_neighbors.h>".toList ++ ['\n'] by decide +kernel]
    simp only [List.intercalate, List.intersperse, List.flatten_cons, List.flatten_nil, List.append_assoc, List.append_nil]
  · unfold saveProg printProg
    simp only [List.flatMap_cons, List.flatMap_nil, Top.print, List.nil_append, List.append_nil]

theorem num_size (n : Nat) : ∀ m, some (showNat n) = some m → isNum m = true := by intro m hm; cases hm; exact isNum_showNat n

theorem intArr_ok {name : List Char} (hn : Nm name) (vs : List ℚ) : (intArr name vs).Ok := by
  refine ⟨by show ∀ m ∈ ["static".toList, "const".toList], isMod m = true; decide +kernel, by show isType "int16_t".toList = true; decide +kernel, hn, num_size _, ?_⟩
  intro i hi
  cases hi
  refine ⟨?_, fun _ => rfl⟩
  intro e he
  obtain ⟨v, -, rfl⟩ := List.mem_map.1 he
  exact (litExpr_ok _ _).2

theorem saveProg_ok {pre : List Char} (hn : Nm pre) (data : List (List ℚ)) (nFeatures : Nat) (labels : List Int) (k : Int) : ∀ t ∈ saveProg pre data nFeatures labels k, t.Ok := by
  have hs : ∀ {s : List Char}, s.all identRest = true → keyWords.all (fun k => !(s.isSuffixOf k)) = true → Nm (pre ++ s) := fun h1 h2 => nm_suffix hn.1 h1 h2
  have hd : Nm (pre ++ "_data".toList) := hs (by decide +kernel) (by decide +kernel)
  have hl : Nm (pre ++ "_labels".toList) := hs (by decide +kernel) (by decide +kernel)
  have hi : isType "int16_t".toList = true := by decide +kernel
  intro t ht
  simp only [saveProg, List.mem_cons, List.not_mem_nil, or_false] at ht
  rcases ht with rfl | rfl | rfl
  · exact intArr_ok hd _
  · exact intArr_ok hl _
  · refine ⟨(by intro m hm; cases hm), by show isType "EmlNeighborsModel".toList = true; decide +kernel, hn, (by intro n h; cases h), ?_⟩
    intro i h
    cases h
    refine ⟨?_, by simp⟩
    intro e he
    simp only [List.mem_cons, List.not_mem_nil, or_false] at he
    rcases he with rfl | rfl | rfl | rfl | rfl | rfl
    · exact isNum_showNat _
    · exact isNum_showNat _
    · exact isNum_showNat _
    · exact ⟨hi, trivial, hd⟩
    · exact ⟨hi, trivial, hl⟩
    · exact (sgnExpr_ok _ (isNum_showNat _)).2

/-- The text of `save` is read as the program with the two arrays and the model structure. -/
theorem saveText_parse (other : ℚ → List Char) (pre : List Char) (data : List (List ℚ)) (nFeatures : Nat) (labels : List Int) (k : Int) (hv : assertValidIdentifier pre = true) (hnl : '\n' ∉ pre)
    (hk : isKey pre = false) : ∃ text, saveText other pre data nFeatures labels k = some text ∧ parse text = some (saveProg pre data nFeatures labels k) := by
  obtain ⟨text, h1, h2⟩ := saveText_eq other pre data nFeatures labels k hv hnl
  exact ⟨text, h1, parse_eq _ _ (saveProg_ok ⟨isName_of_valid hv hnl, hk⟩ data nFeatures labels k) h2.lex⟩

set_option simprocs false in
theorem distances_lexes (other : ℚ → List Char) (n : Nat) (text : List Char)
    (h : arrayDeclare other "distance_array".toList (some n) "EmlNeighborsDistanceItem".toList "static".toList none [] [] = some text) : Lexes text (distances n).print := by
  unfold arrayDeclare at h
  simp only [Option.some.injEq] at h
  subst h
  have k2 := lexes_word_chain (showNat n) (isWord_showNat n) "];".toList [.sym ']', .sym ';'] (by decide +kernel) Lexes.nil
  have k := lexes_lit_chain "static EmlNeighborsDistanceItem distance_array[".toList [.word "static".toList, .word "EmlNeighborsDistanceItem".toList, .word "distance_array".toList, .sym '['] (by decide +kernel) k2
  refine k.congr ?_ rfl
  have es : showSize (some (n : Int)) = showNat n := by simp [showSize, showInt]
  rw [es, show "static EmlNeighborsDistanceItem distance_array[".toList = "static".toList ++ [' '] ++ "EmlNeighborsDistanceItem".toList ++ [' '] ++ "distance_array".toList ++ ['['] by decide +kernel,
    show "];".toList = [']'] ++ [';'] by decide +kernel]
  simp only [List.append_assoc, List.nil_append, List.append_nil]

set_option simprocs false in
theorem predictF_lexes {name : List Char} (hn : isName name = true) (nFeatures n : Nat) : Lexes (predictFuncText name nFeatures n) (predictF name nFeatures n).print := by
  have k1 := lexes_word_chain (showNat n) (isWord_showNat n)
    ", &out);\n                    if (err != EmlOk) {\n                        return -err;\n                    }\n                    return out;\n                }\n                ".toList
    [.sym ',', .sym '&', .word "out".toList, .sym ')', .sym ';', .word "if".toList, .sym '(', .word "err".toList, .sym '!', .sym '=', .word "EmlOk".toList, .sym ')', .sym '{', .word "return".toList, .sym '-',
      .word "err".toList, .sym ';', .sym '}', .word "return".toList, .word "out".toList, .sym ';', .sym '}'] (by decide +kernel) Lexes.nil
  have k2 := lexes_word_chain name (isName_word hn) ", features, length, distance_array, ".toList
    [.sym ',', .word "features".toList, .sym ',', .word "length".toList, .sym ',', .word "distance_array".toList, .sym ','] (by decide +kernel) k1
  have k3 := lexes_word_chain (showNat nFeatures) (isWord_showNat nFeatures)
    "];\n                    for (int i=0; i<length; i++) {\n                        features[i] = (int16_t)values[i];\n                    }\n                    const EmlError err =                         eml_neighbors_predict(&".toList
    [.sym ']', .sym ';', .word "for".toList, .sym '(', .word "int".toList, .word "i".toList, .sym '=', .word "0".toList, .sym ';', .word "i".toList, .sym '<', .word "length".toList, .sym ';', .word "i".toList,
      .sym '+', .sym '+', .sym ')', .sym '{', .word "features".toList, .sym '[', .word "i".toList, .sym ']', .sym '=', .sym '(', .word "int16_t".toList, .sym ')', .word "values".toList, .sym '[',
      .word "i".toList, .sym ']', .sym ';', .sym '}', .word "const".toList, .word "EmlError".toList, .word "err".toList, .sym '=', .word "eml_neighbors_predict".toList, .sym '(', .sym '&'] (by decide +kernel) k2
  have k := lexes_lit_chain
    "\n                int32_t\n                predict_func(const float *values, int length) {\n                    int16_t out = -1;\n\n                    // Convert to integer\n                    int16_t features[".toList
    [.word "int32_t".toList, .word "predict_func".toList, .sym '(', .word "const".toList, .word "float".toList, .sym '*', .word "values".toList, .sym ',', .word "int".toList, .word "length".toList, .sym ')',
      .sym '{', .word "int16_t".toList, .word "out".toList, .sym '=', .sym '-', .word "1".toList, .sym ';', .word "int16_t".toList, .word "features".toList, .sym '['] (by decide +kernel) k3
  refine k.congr ?_ rfl
  unfold predictFuncText
  simp only [List.flatten_cons, List.flatten_nil, List.append_assoc, List.append_nil]

theorem nm_const {s : List Char} (h : (isName s && !isKey s) = true) : Nm s := by
  simp only [Bool.and_eq_true, Bool.not_eq_true'] at h; exact h

theorem predictF_ok (name : List Char) (nFeatures n : Nat) : (predictF name nFeatures n).Ok := by
  have hi : isType "int16_t".toList = true := by decide +kernel
  have hout : Nm "out".toList := nm_const (by decide +kernel)
  have hfe : Nm "features".toList := nm_const (by decide +kernel)
  have herr : Nm "err".toList := nm_const (by decide +kernel)
  have hl : Nm "length".toList := nm_const (by decide +kernel)
  have hii : Nm "i".toList := nm_const (by decide +kernel)
  have hv : Nm "values".toList := nm_const (by decide +kernel)
  refine ⟨(by intro m hm; cases hm), by show isType "int32_t".toList = true; decide +kernel, nm_const (s := "predict_func".toList) (by decide +kernel), by simp [predictF, predictParams], ?_, ?_, ?_, ?_, hii, trivial, hl, ?_, ?_, ?_, ?_, ?_⟩
  · intro p hp
    simp only [predictF, predictParams, List.mem_cons, List.not_mem_nil, or_false] at hp
    rcases hp with rfl | rfl
    · exact ⟨by show isType "float".toList = true; decide +kernel, hv⟩
    · exact ⟨by show isType "int".toList = true; decide +kernel, hl⟩
  · refine ⟨(by intro m hm; cases hm), hi, hout, (by intro n h; cases h), ?_⟩
    intro i h; cases h
    exact ⟨trivial, by show isNum "1".toList = true; decide +kernel⟩
  · exact ⟨(by intro m hm; cases hm), hi, hfe, num_size _, by intro i h; cases h⟩
  · show isType "int".toList = true; decide +kernel
  · exact ⟨hfe, by intro j h; cases h; exact hii, ⟨hi, trivial, hv, hii⟩, trivial⟩
  · refine ⟨by show ∀ m ∈ ["const".toList], isMod m = true; decide +kernel, by show isType "EmlError".toList = true; decide +kernel, herr, (by intro n h; cases h), ?_⟩
    intro i h; cases h
    exact ⟨nm_const (by decide +kernel), by simp [predictArgs], by simp [predictArgs, Arg.Ok]⟩
  · exact ⟨by show binOp '!' = true; decide +kernel, trivial, herr, trivial, nm_const (by decide +kernel)⟩
  · exact ⟨⟨trivial, herr⟩, trivial⟩
  · exact ⟨hout, trivial⟩

/-- The code of the wrapper is read as the program with the model, the distance array and `predict_func`. -/
theorem wrapperText_parse (other : ℚ → List Char) (data : List (List ℚ)) (nFeatures : Nat) (labels : List Int) (k : Int) :
    ∃ text, wrapperText other data nFeatures labels k = some text ∧ parse text = some (wrapperProg data nFeatures labels k) := by
  have hn : isName "mymodel".toList = true := by decide +kernel
  obtain ⟨text, h1, h2⟩ := saveText_eq other "mymodel".toList data nFeatures labels k (by decide +kernel) (by decide +kernel)
  obtain ⟨a, ha⟩ : ∃ a, arrayDeclare other "distance_array".toList (some data.length) "EmlNeighborsDistanceItem".toList "static".toList none [] [] = some a := ⟨_, rfl⟩
  have k1 := distances_lexes other data.length a ha
  have k2 := predictF_lexes hn nFeatures data.length
  have hnl := lexes_lits ['\n'] [] (by decide +kernel) (by decide +kernel)
  refine ⟨_, by unfold wrapperText; rw [h1, Option.bind_some, ha, Option.map_some], parse_eq _ _ ?_ ?_⟩
  · intro t ht
    rcases List.mem_append.1 ht with ht | ht
    · exact saveProg_ok ⟨hn, by decide +kernel⟩ data nFeatures labels k t ht
    · simp only [List.mem_cons, List.not_mem_nil, or_false] at ht
      rcases ht with rfl | rfl
      · exact ⟨by show ∀ m ∈ ["static".toList], isMod m = true; decide +kernel, by show isType "EmlNeighborsDistanceItem".toList = true; decide +kernel, nm_const (s := "distance_array".toList) (by decide +kernel), num_size _,
          by intro i h; cases h⟩
      · exact predictF_ok _ _ _
  · refine ((h2.append (hnl.append (k1.append (hnl.append k2)))).congr ?_ ?_).lex
    · simp only [List.intercalate, List.intersperse, List.flatten_cons, List.flatten_nil, List.append_assoc, List.append_nil]
    · unfold wrapperProg printProg
      rw [List.flatMap_append]
      simp only [List.flatMap_cons, List.flatMap_nil, Top.print, List.nil_append, List.append_nil]

end Emlearn.Neighbors.CText
