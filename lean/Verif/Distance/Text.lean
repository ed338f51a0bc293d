/- The C text that `emlearn/distance.py` produces for an elliptic envelope, and the program that it stands for. -/
import Verif.Distance.Model
import Verif.Mixture.Text
namespace Emlearn.Distance.CText
open Emlearn.Cgen Emlearn.MiniC Emlearn.Net.CText
open Emlearn.Mixture.CText (array_lexes nm_const)

/-- `cgen.array_declare(name, size, modifiers='static const', values=values)`, `distance.py` 62-66 and `cgen.py` 73-81. -/
def declareArray (other : ℚ → List Char) (name : List Char) (size : Nat) (values : List ℚ) : Option (List Char) :=
  arrayDeclare other name (some (size : Int)) "float".toList "static const".toList (some values) [] []

/-- `main`, `distance.py` 69-87. -/
def mainText (pre : List Char) (nFeatures : Nat) (offset : PyFloat) : List Char :=
  ["\n    #include <stdio.h>\n\n    // Data definitions\n    static const EmlEllipticEnvelope ".toList, pre, "_classifier = {\n        ".toList, showNat nFeatures, ",\n        ".toList, offset.text, "f,\n        ".toList,
   pre, "_means,\n        ".toList, pre, "_precisions\n    };\n\n    // Prediction function\n    float ".toList, pre,
   "_predict(const float *features, int n_features) {\n        float dist = 0.0;\n        const int class = eml_elliptic_envelope_predict(&".toList, pre,
   "_classifier,\n                                features, n_features, &dist);\n        return dist; \n    }\n    ".toList].flatten

/-- `generate_code(means, precision, offset, name)`, `distance.py` 43-91, with the default modifiers (`save`, 142, passes none). `none`: the name is refused, or the precision matrix does not have
`n_features * n_features` values. -/
def generateText (other : ℚ → List Char) (pre : List Char) (means : List ℚ) (precision : List (List ℚ)) (offset : PyFloat) : Option (List Char) :=
  if assertValidIdentifier pre then
    (declareArray other (pre ++ "_means".toList) means.length means).bind fun a1 =>
    (declareArray other (pre ++ "_precisions".toList) (means.length * means.length) precision.flatten).map fun a2 =>
      "\n\n".toList.intercalate ["\n    // This code is generated by emlearn\n\n    #include <eml_distance.h>\n    ".toList, a1, a2] ++ mainText pre means.length offset
  else none

/-! ### The program -/

/-- The offset as a C constant. -/
def offsetSgn (offset : PyFloat) : Bool × List Char := (offset.neg, offset.magText ++ ['f'])

def classifierVar (pre : List Char) (nFeatures : Nat) (offset : PyFloat) : MiniC.Decl :=
  ⟨["static".toList, "const".toList], "EmlEllipticEnvelope".toList, pre ++ "_classifier".toList, none,
    some (.flat [.lit (showNat nFeatures), sgnExpr (offsetSgn offset), .var (pre ++ "_means".toList), .var (pre ++ "_precisions".toList)] false)⟩

def predictBody (pre : List Char) : Code :=
  .decl ⟨[], "float".toList, "dist".toList, none, some (.one (.lit "0.0".toList))⟩
    (.decl ⟨["const".toList], "int".toList, "class".toList, none, some (.one (.call "eml_elliptic_envelope_predict".toList
        [⟨some '&', pre ++ "_classifier".toList⟩, ⟨none, "features".toList⟩, ⟨none, "n_features".toList⟩, ⟨some '&', "dist".toList⟩]))⟩
      (.ret (.var "dist".toList) .done))

def predictF (pre : List Char) : Func :=
  ⟨[], "float".toList, pre ++ "_predict".toList, [⟨true, "float".toList, true, "features".toList⟩, ⟨false, "int".toList, false, "n_features".toList⟩], predictBody pre⟩

def arrays (pre : List Char) (means precision : List ℚ) : List MiniC.Decl := [floatArr (pre ++ "_means".toList) means, floatArr (pre ++ "_precisions".toList) precision]

def envelopeProg (pre : List Char) (means precision : List ℚ) (offset : PyFloat) : Prog :=
  (arrays pre means precision).map .decl ++ [.decl (classifierVar pre means.length offset), .func (predictF pre)]

/-! ### Words of the text -/

theorem text_sgn (x : PyFloat) : x.text ++ ['f'] = sgnText (x.neg, x.magText ++ ['f']) := by
  unfold PyFloat.text sgnText
  cases x.neg <;> rfl

set_option simprocs false in
theorem main_lexes {pre : List Char} (hn : isName pre = true) (nf : Nat) (offset : PyFloat) : Lexes (mainText pre nf offset) ((classifierVar pre nf offset).print ++ (predictF pre).print) := by
  have hb : ∀ {s : List Char}, s.all identRest = true → IsWord (pre ++ s) := fun h => isName_word (isName_append hn h)
  have k1 := lexes_word_chain (pre ++ "_classifier".toList) (hb (by decide +kernel)) ",\n                                features, n_features, &dist);\n        return dist; \n    }\n    ".toList
    [.sym ',', .word "features".toList, .sym ',', .word "n_features".toList, .sym ',', .sym '&', .word "dist".toList, .sym ')', .sym ';', .word "return".toList, .word "dist".toList, .sym ';', .sym '}'] (by decide +kernel) Lexes.nil
  have k2 := lexes_word_chain (pre ++ "_predict".toList) (hb (by decide +kernel))
    "(const float *features, int n_features) {\n        float dist = 0.0;\n        const int class = eml_elliptic_envelope_predict(&".toList
    [.sym '(', .word "const".toList, .word "float".toList, .sym '*', .word "features".toList, .sym ',', .word "int".toList, .word "n_features".toList, .sym ')', .sym '{',
     .word "float".toList, .word "dist".toList, .sym '=', .word "0.0".toList, .sym ';', .word "const".toList, .word "int".toList, .word "class".toList, .sym '=', .word "eml_elliptic_envelope_predict".toList, .sym '(', .sym '&']
    (by decide +kernel) k1
  have k3 := lexes_word_chain (pre ++ "_precisions".toList) (hb (by decide +kernel)) "\n    };\n\n    // Prediction function\n    float ".toList [.sym '}', .sym ';', .word "float".toList] (by decide +kernel) k2
  have k4 := lexes_word_chain (pre ++ "_means".toList) (hb (by decide +kernel)) ",\n        ".toList [.sym ','] (by decide +kernel) k3
  have k5 := lexes_sgn_chain (offsetSgn offset) (isWord_magText_f offset) ",\n        ".toList [.sym ','] (by decide +kernel) k4
  have k6 := lexes_word_chain (showNat nf) (isWord_showNat nf) ",\n        ".toList [.sym ','] (by decide +kernel) k5
  have k7 := lexes_word_chain (pre ++ "_classifier".toList) (hb (by decide +kernel)) " = {\n        ".toList [.sym '=', .sym '{'] (by decide +kernel) k6
  have k := lexes_lit_chain "\n    #include <stdio.h>\n\n    // Data definitions\n    static const EmlEllipticEnvelope ".toList [.word "static".toList, .word "const".toList, .word "EmlEllipticEnvelope".toList] (by decide +kernel) k7
  refine k.congr ?_ ?_
  · unfold mainText offsetSgn
    rw [← text_sgn, show "_classifier = {\n        ".toList = "_classifier".toList ++ " = {\n        ".toList by decide +kernel, show "f,\n        ".toList = ['f'] ++ ",\n        ".toList by decide +kernel,
      show "_means,\n        ".toList = "_means".toList ++ ",\n        ".toList by decide +kernel,
      show "_precisions\n    };\n\n    // Prediction function\n    float ".toList = "_precisions".toList ++ "\n    };\n\n    // Prediction function\n    float ".toList by decide +kernel,
      show "_predict(const float *features, int n_features) {\n        float dist = 0.0;\n        const int class = eml_elliptic_envelope_predict(&".toList =
        "_predict".toList ++ "(const float *features, int n_features) {\n        float dist = 0.0;\n        const int class = eml_elliptic_envelope_predict(&".toList by decide +kernel,
      show "_classifier,\n                                features, n_features, &dist);\n        return dist; \n    }\n    ".toList =
        "_classifier".toList ++ ",\n                                features, n_features, &dist);\n        return dist; \n    }\n    ".toList by decide +kernel]
    simp only [List.flatten_cons, List.flatten_nil, List.append_assoc, List.append_nil]
  · unfold classifierVar Decl.print Init.print predictF predictBody Func.print
    simp only [printExprs, Expr.print, Code.print, Decl.print, Init.print, printParams, Param.print, printArgs, Arg.print, List.map_cons, List.map_nil, List.append_assoc, List.nil_append, List.cons_append, Bool.false_eq_true, if_false, if_true]

/-! ### The text is read as the program -/

theorem declare_some {pre s : List Char} (hn : isName pre = true) (h : s.all identRest = true) (other : ℚ → List Char) (vs : List ℚ) :
    ∃ text, declareArray other (pre ++ s) vs.length vs = some text ∧ Lexes text (floatArr (pre ++ s) vs).print := by
  obtain ⟨a, e, -⟩ := Mixture.CText.declareArray_some other (pre ++ s) vs
  exact ⟨a, e, array_lexes (isName_append hn h) other _ a e⟩

theorem generate_parse (other : ℚ → List Char) (pre : List Char) (means : List ℚ) (precision : List (List ℚ)) (offset : PyFloat)
    (hv : assertValidIdentifier pre = true) (hnl : '\n' ∉ pre) (hsq : precision.flatten.length = means.length * means.length) :
    ∃ text, generateText other pre means precision offset = some text ∧ parse text = some (envelopeProg pre means precision.flatten offset) := by
  have hn := isName_of_valid hv hnl
  have hs : ∀ {s : List Char}, s.all identRest = true → isName (pre ++ s) = true := fun h => isName_append hn h
  have hnm : ∀ {s : List Char}, s.all identRest = true → keyWords.all (fun k => !(s.isSuffixOf k)) = true → Nm (pre ++ s) := fun h1 h2 => nm_suffix hn h1 h2
  obtain ⟨a1, e1, k1⟩ := declare_some hn (s := "_means".toList) (by decide +kernel) other means
  obtain ⟨a2, e2, k2⟩ := declare_some hn (s := "_precisions".toList) (by decide +kernel) other precision.flatten
  rw [hsq] at e2
  have k3 := main_lexes hn means.length offset
  have k0 := lexes_lits "\n    // This code is generated by emlearn\n\n    #include <eml_distance.h>\n    \n\n".toList [] (by decide +kernel) (by decide +kernel)
  have knl := lexes_lits "\n\n".toList [] (by decide +kernel) (by decide +kernel)
  refine ⟨_, by unfold generateText; rw [if_pos hv, e1, Option.bind_some, e2, Option.map_some], ?_⟩
  refine parse_eq _ _ ?_ ?_
  · intro t ht
    unfold envelopeProg arrays at ht
    simp only [List.map_cons, List.map_nil, List.cons_append, List.nil_append, List.mem_cons, List.not_mem_nil, or_false] at ht
    rcases ht with rfl | rfl | rfl | rfl
    · exact floatArr_ok (hnm (by decide +kernel) (by decide +kernel)) _
    · exact floatArr_ok (hnm (by decide +kernel) (by decide +kernel)) _
    · refine ⟨by show ∀ m ∈ ["static".toList, "const".toList], isMod m = true; decide +kernel, by show isType "EmlEllipticEnvelope".toList = true; decide +kernel, hnm (by decide +kernel) (by decide +kernel), (by intro n h; cases h), ?_⟩
      intro i h
      cases h
      refine ⟨?_, fun _ => rfl⟩
      intro e he
      simp only [List.mem_cons, List.not_mem_nil, or_false] at he
      rcases he with rfl | rfl | rfl | rfl
      · exact isNum_showNat _
      · exact (sgnExpr_ok _ (isNum_append _ (isNum_magText offset))).2
      · exact hnm (by decide +kernel) (by decide +kernel)
      · exact hnm (by decide +kernel) (by decide +kernel)
    · refine ⟨(by intro m hm; cases hm), by show isType "float".toList = true; decide +kernel, hnm (by decide +kernel) (by decide +kernel), by simp [predictF], ?_, ?_⟩
      · intro q hq
        unfold predictF at hq
        simp only [List.mem_cons, List.not_mem_nil, or_false] at hq
        rcases hq with rfl | rfl
        · exact ⟨by show isType "float".toList = true; decide +kernel, nm_const (s := "features".toList) (by decide +kernel)⟩
        · exact ⟨by show isType "int".toList = true; decide +kernel, nm_const (s := "n_features".toList) (by decide +kernel)⟩
      · refine ⟨⟨(by intro m hm; cases hm), by show isType "float".toList = true; decide +kernel, nm_const (s := "dist".toList) (by decide +kernel), (by intro n h; cases h), ?_⟩,
          ⟨⟨by show ∀ m ∈ ["const".toList], isMod m = true; decide +kernel, by show isType "int".toList = true; decide +kernel, nm_const (s := "class".toList) (by decide +kernel), (by intro n h; cases h), ?_⟩,
          nm_const (s := "dist".toList) (by decide +kernel), trivial⟩⟩
        · intro i h
          cases h
          show isNum "0.0".toList = true
          decide +kernel
        · intro i h
          cases h
          refine ⟨nm_const (by decide +kernel), by simp, ?_⟩
          intro a ha
          simp only [List.mem_cons, List.not_mem_nil, or_false] at ha
          rcases ha with rfl | rfl | rfl | rfl
          · exact .inr (.inl rfl)
          · exact .inl rfl
          · exact .inl rfl
          · exact .inr (.inl rfl)
  · refine ((k0.append (k1.append (knl.append (k2.append k3)))).congr ?_ ?_).lex
    · rw [show "\n    // This code is generated by emlearn\n\n    #include <eml_distance.h>\n    \n\n".toList = "\n    // This code is generated by emlearn\n\n    #include <eml_distance.h>\n    ".toList ++ "\n\n".toList by decide +kernel]
      generalize "\n\n".toList = nl
      simp only [List.intercalate, List.intersperse, List.flatten_cons, List.flatten_nil, List.append_assoc, List.append_nil]
    · simp only [envelopeProg, arrays, printProg, Top.print, List.map_cons, List.map_nil, List.cons_append, List.flatMap_cons, List.flatMap_nil, List.nil_append, List.append_nil]

end Emlearn.Distance.CText
