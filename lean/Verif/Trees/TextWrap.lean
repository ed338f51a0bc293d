/- The C code that `Wrapper.predict` and `Wrapper.predict_proba` of a converted tree model compile: the generated code followed by functions that take `float` values. -/
import Verif.Trees.TextRun
import Verif.MiniC.Extend
import Verif.Neighbors.TextRun
namespace Emlearn.Trees
open Emlearn.Cgen Emlearn.MiniC
variable {F : Type}

/-! ### The text -/

/-- The first of `classifier_functions`, `trees.py` 760-773. -/
def predictWrapText (name dtype : List Char) (nFeatures : Nat) : List Char :=
  ["\n            int32_t\n            predict_wrapper(const float *values, int length) {\n                // Convert to whatever is needed for inline\n                ".toList, dtype, " features[".toList,
   showNat nFeatures, "];\n                for (int i=0; i<length; i++) {\n                    features[i] = (".toList, dtype, ")values[i];\n                }\n                const int32_t out = ".toList,
   name ++ "_predict".toList, "(features, length);\n                if (out < 0) {\n                    return -out;\n                }\n                return out;\n            }".toList].flatten

/-- The second of `classifier_functions`, `trees.py` 774-788. -/
def probaWrapText (name dtype : List Char) (nFeatures : Nat) : List Char :=
  ["\n            int\n            predict_proba_wrapper(const float *values, int length, float *outputs, int n_outputs) {\n                // Convert to whatever is needed for inline\n                ".toList, dtype,
   " features[".toList, showNat nFeatures, "];\n                for (int i=0; i<length; i++) {\n                    features[i] = (".toList, dtype,
   ")values[i];\n                }\n\n                const int err =                     ".toList, name ++ "_predict_proba".toList,
   "(features, length, outputs, n_outputs);\n\n                return err;\n            }\n            ".toList].flatten

/-- The one of `regression_functions`, `trees.py` 791-803. -/
def regressWrapText (name dtype : List Char) (nFeatures : Nat) : List Char :=
  ["\n            float\n            regress_wrapper(const float *values, int length) {\n                // Convert to whatever is needed for inline\n                ".toList, dtype, " features[".toList,
   showNat nFeatures, "];\n                for (int i=0; i<length; i++) {\n                    features[i] = (".toList, dtype, ")values[i];\n                }\n                const float out = ".toList,
   name ++ "_predict".toList, "(features, length);\n                return out;\n            }\n            ".toList].flatten

/-- The code handed to the compiler, `trees.py` 744-813: what `save(name='mytree', include_proba=True)` returns, then the functions, joined by newlines. -/
def wrapCode (classifier : Bool) (saved : List Char) (dtype : List Char) (nFeatures : Nat) : List Char :=
  ['\n'].intercalate (saved ::
    if classifier then [predictWrapText "mytree".toList dtype nFeatures, probaWrapText "mytree".toList dtype nFeatures] else [regressWrapText "mytree".toList dtype nFeatures])

/-! ### The functions -/

def featuresDecl (dtype : List Char) (nf : Nat) : MiniC.Decl := ⟨[], dtype, "features".toList, some (showNat nf), none⟩

def convAssign (dtype : List Char) : Code := .assign "features".toList (some (.var "i".toList)) false (.cast dtype false (.idx "values".toList (.var "i".toList))) .done

def convLoop (dtype : List Char) (k : Code) : Code := .loop "int".toList "i".toList (.var "length".toList) (convAssign dtype) k

def valueParams : List Param := [⟨true, "float".toList, true, "values".toList⟩, ⟨false, "int".toList, false, "length".toList⟩]

def featureArgs : List Arg := [⟨none, "features".toList⟩, ⟨none, "length".toList⟩]

def outDecl (ty f : List Char) : MiniC.Decl := ⟨["const".toList], ty, "out".toList, none, some (.one (.call f featureArgs))⟩

def predictWrapF (name dtype : List Char) (nf : Nat) : Func :=
  ⟨[], "int32_t".toList, "predict_wrapper".toList, valueParams, .decl (featuresDecl dtype nf) (convLoop dtype (.decl (outDecl "int32_t".toList (name ++ "_predict".toList))
    (.ifThen (.bin '<' (.var "out".toList) (.lit "0".toList)) (.ret (.neg (.var "out".toList)) .done) (.ret (.var "out".toList) .done))))⟩

def regressWrapF (name dtype : List Char) (nf : Nat) : Func :=
  ⟨[], "float".toList, "regress_wrapper".toList, valueParams, .decl (featuresDecl dtype nf) (convLoop dtype (.decl (outDecl "float".toList (name ++ "_predict".toList)) (.ret (.var "out".toList) .done)))⟩

def wrapOutParams : List Param := valueParams ++ [⟨false, "float".toList, true, "outputs".toList⟩, ⟨false, "int".toList, false, "n_outputs".toList⟩]

def outputArgs : List Arg := featureArgs ++ [⟨none, "outputs".toList⟩, ⟨none, "n_outputs".toList⟩]

def errInit (f : List Char) : MiniC.Decl := ⟨["const".toList], "int".toList, "err".toList, none, some (.one (.call f outputArgs))⟩

def probaWrapF (name dtype : List Char) (nf : Nat) : Func :=
  ⟨[], "int".toList, "predict_proba_wrapper".toList, wrapOutParams, .decl (featuresDecl dtype nf) (convLoop dtype (.decl (errInit (name ++ "_predict_proba".toList)) (.ret (.var "err".toList) .done)))⟩

def wrapFuncs (classifier : Bool) (dtype : List Char) (nf : Nat) : List Func :=
  if classifier then [predictWrapF "mytree".toList dtype nf, probaWrapF "mytree".toList dtype nf] else [regressWrapF "mytree".toList dtype nf]

/-! ### Words of the text -/

theorem tail_lexes (dtype : List Char) (hd : IsWord dtype) (nf : Nat) (mid : List Char) (ts : List Tok) (h : stopOk (")values[i];\n                }\n".toList ++ mid) ([.sym ')', .word "values".toList, .sym '[', .word "i".toList, .sym ']', .sym ';', .sym '}'] ++ ts) = true)
    {r : List Char} {us : List Tok} (hr : Lexes r us) :
    Lexes (dtype ++ (" features[".toList ++ (showNat nf ++ ("];\n                for (int i=0; i<length; i++) {\n                    features[i] = (".toList ++ (dtype ++ ((")values[i];\n                }\n".toList ++ mid) ++ r))))))
      (.word dtype :: ([.word "features".toList, .sym '['] ++ (.word (showNat nf) :: ([.sym ']', .sym ';', .word "for".toList, .sym '(', .word "int".toList, .word "i".toList, .sym '=', .word "0".toList, .sym ';',
        .word "i".toList, .sym '<', .word "length".toList, .sym ';', .word "i".toList, .sym '+', .sym '+', .sym ')', .sym '{', .word "features".toList, .sym '[', .word "i".toList, .sym ']', .sym '=', .sym '('] ++
        (.word dtype :: (([.sym ')', .word "values".toList, .sym '[', .word "i".toList, .sym ']', .sym ';', .sym '}'] ++ ts) ++ us)))))) := by
  have k1 := lexes_word_chain dtype hd _ _ h hr
  have k2 := lexes_word_chain (showNat nf) (isWord_showNat nf) "];\n                for (int i=0; i<length; i++) {\n                    features[i] = (".toList
    [.sym ']', .sym ';', .word "for".toList, .sym '(', .word "int".toList, .word "i".toList, .sym '=', .word "0".toList, .sym ';',
        .word "i".toList, .sym '<', .word "length".toList, .sym ';', .word "i".toList, .sym '+', .sym '+', .sym ')', .sym '{', .word "features".toList, .sym '[', .word "i".toList, .sym ']', .sym '=', .sym '('] (by decide +kernel) k1
  exact lexes_word_chain dtype hd " features[".toList [.word "features".toList, .sym '['] (by decide +kernel) k2

set_option simprocs false in
theorem predictWrap_lexes {name dtype : List Char} (hn : isName name = true) (hd : IsWord dtype) (nf : Nat) : Lexes (predictWrapText name dtype nf) (predictWrapF name dtype nf).print := by
  have k0 := lexes_word_chain (name ++ "_predict".toList) (isName_word (isName_append hn (by decide +kernel)))
    "(features, length);\n                if (out < 0) {\n                    return -out;\n                }\n                return out;\n            }".toList
    [.sym '(', .word "features".toList, .sym ',', .word "length".toList, .sym ')', .sym ';', .word "if".toList, .sym '(', .word "out".toList, .sym '<', .word "0".toList, .sym ')', .sym '{', .word "return".toList, .sym '-',
      .word "out".toList, .sym ';', .sym '}', .word "return".toList, .word "out".toList, .sym ';', .sym '}'] (by decide +kernel) Lexes.nil
  have k1 := tail_lexes dtype hd nf "                const int32_t out = ".toList [.word "const".toList, .word "int32_t".toList, .word "out".toList, .sym '='] (by decide +kernel) k0
  have k := lexes_lit_chain "\n            int32_t\n            predict_wrapper(const float *values, int length) {\n                // Convert to whatever is needed for inline\n                ".toList
    [.word "int32_t".toList, .word "predict_wrapper".toList, .sym '(', .word "const".toList, .word "float".toList, .sym '*', .word "values".toList, .sym ',', .word "int".toList, .word "length".toList, .sym ')', .sym '{']
    (by decide +kernel) k1
  refine k.congr ?_ rfl
  unfold predictWrapText
  rw [show ")values[i];\n                }\n".toList ++ "                const int32_t out = ".toList = ")values[i];\n                }\n                const int32_t out = ".toList by decide +kernel]
  simp only [List.flatten_cons, List.flatten_nil, List.append_assoc, List.append_nil]

set_option simprocs false in
theorem regressWrap_lexes {name dtype : List Char} (hn : isName name = true) (hd : IsWord dtype) (nf : Nat) : Lexes (regressWrapText name dtype nf) (regressWrapF name dtype nf).print := by
  have k0 := lexes_word_chain (name ++ "_predict".toList) (isName_word (isName_append hn (by decide +kernel)))
    "(features, length);\n                return out;\n            }\n            ".toList
    [.sym '(', .word "features".toList, .sym ',', .word "length".toList, .sym ')', .sym ';', .word "return".toList, .word "out".toList, .sym ';', .sym '}'] (by decide +kernel) Lexes.nil
  have k1 := tail_lexes dtype hd nf "                const float out = ".toList [.word "const".toList, .word "float".toList, .word "out".toList, .sym '='] (by decide +kernel) k0
  have k := lexes_lit_chain "\n            float\n            regress_wrapper(const float *values, int length) {\n                // Convert to whatever is needed for inline\n                ".toList
    [.word "float".toList, .word "regress_wrapper".toList, .sym '(', .word "const".toList, .word "float".toList, .sym '*', .word "values".toList, .sym ',', .word "int".toList, .word "length".toList, .sym ')', .sym '{']
    (by decide +kernel) k1
  refine k.congr ?_ rfl
  unfold regressWrapText
  rw [show ")values[i];\n                }\n".toList ++ "                const float out = ".toList = ")values[i];\n                }\n                const float out = ".toList by decide +kernel]
  simp only [List.flatten_cons, List.flatten_nil, List.append_assoc, List.append_nil]

set_option simprocs false in
theorem probaWrap_lexes {name dtype : List Char} (hn : isName name = true) (hd : IsWord dtype) (nf : Nat) : Lexes (probaWrapText name dtype nf) (probaWrapF name dtype nf).print := by
  have k0 := lexes_word_chain (name ++ "_predict_proba".toList) (isName_word (isName_append hn (by decide +kernel)))
    "(features, length, outputs, n_outputs);\n\n                return err;\n            }\n            ".toList
    [.sym '(', .word "features".toList, .sym ',', .word "length".toList, .sym ',', .word "outputs".toList, .sym ',', .word "n_outputs".toList, .sym ')', .sym ';', .word "return".toList, .word "err".toList, .sym ';', .sym '}']
    (by decide +kernel) Lexes.nil
  have k1 := tail_lexes dtype hd nf "\n                const int err =                     ".toList [.word "const".toList, .word "int".toList, .word "err".toList, .sym '='] (by decide +kernel) k0
  have k := lexes_lit_chain
    "\n            int\n            predict_proba_wrapper(const float *values, int length, float *outputs, int n_outputs) {\n                // Convert to whatever is needed for inline\n                ".toList
    [.word "int".toList, .word "predict_proba_wrapper".toList, .sym '(', .word "const".toList, .word "float".toList, .sym '*', .word "values".toList, .sym ',', .word "int".toList, .word "length".toList, .sym ',',
      .word "float".toList, .sym '*', .word "outputs".toList, .sym ',', .word "int".toList, .word "n_outputs".toList, .sym ')', .sym '{']
    (by decide +kernel) k1
  refine k.congr ?_ rfl
  unfold probaWrapText
  rw [show ")values[i];\n                }\n".toList ++ "\n                const int err =                     ".toList = ")values[i];\n                }\n\n                const int err =                     ".toList by decide +kernel]
  simp only [List.flatten_cons, List.flatten_nil, List.append_assoc, List.append_nil]

theorem nmOf {s : List Char} (h : (isName s && !isKey s) = true) : Nm s := Neighbors.CText.nm_const h

theorem featuresDecl_ok {dtype : List Char} (hd : isType dtype = true) (nf : Nat) : (featuresDecl dtype nf).Ok :=
  ⟨by simp [featuresDecl], hd, nmOf (s := "features".toList) (by decide +kernel), size_ok nf, by intro i h; cases h⟩

theorem convLoop_ok {dtype : List Char} (hd : isType dtype = true) {k : Code} (hk : k.Ok) : (convLoop dtype k).Ok :=
  ⟨by decide +kernel, nmI, trivial, nmOf (by decide +kernel), ⟨nmOf (by decide +kernel), fun j hj => by cases hj; exact nmI, ⟨hd, trivial, nmOf (by decide +kernel), nmI⟩, trivial⟩, hk⟩

theorem valueParams_ok : ∀ p ∈ valueParams, p.Ok := by
  intro p hp
  simp only [valueParams, List.mem_cons, List.not_mem_nil, or_false] at hp
  rcases hp with rfl | rfl <;> exact ⟨by decide +kernel, nmOf (by decide +kernel)⟩

theorem wrapOutParams_ok : ∀ p ∈ wrapOutParams, p.Ok := by
  intro p hp
  simp only [wrapOutParams, valueParams, List.mem_cons, List.mem_append, List.not_mem_nil, or_false] at hp
  rcases hp with (rfl | rfl) | rfl | rfl <;> exact ⟨by decide +kernel, nmOf (by decide +kernel)⟩

theorem constMod : ∀ m ∈ ["const".toList], isMod m = true := by decide +kernel

theorem outDecl_ok {name ty : List Char} (hn : isName name = true) (ht : isType ty = true) : (outDecl ty (name ++ "_predict".toList)).Ok :=
  ⟨constMod, ht, nmOf (s := "out".toList) (by decide +kernel), (by intro n h; cases h),
    one_ok ⟨nm_suffix hn (by decide +kernel) (by decide +kernel), by simp [featureArgs], by simp [featureArgs, Arg.Ok]⟩⟩

theorem errInit_ok {name : List Char} (hn : isName name = true) : (errInit (name ++ "_predict_proba".toList)).Ok :=
  ⟨constMod, tyInt, nmOf (s := "err".toList) (by decide +kernel), (by intro n h; cases h),
    one_ok ⟨nm_suffix hn (by decide +kernel) (by decide +kernel), by simp [outputArgs, featureArgs], by simp [outputArgs, featureArgs, Arg.Ok]⟩⟩

theorem predictWrapF_ok {name dtype : List Char} (hn : isName name = true) (hd : isType dtype = true) (nf : Nat) : (predictWrapF name dtype nf).Ok :=
  ⟨by simp [predictWrapF], tyInt32, nmOf (s := "predict_wrapper".toList) (by decide +kernel), by simp [predictWrapF, valueParams], valueParams_ok, featuresDecl_ok hd nf, convLoop_ok hd ⟨outDecl_ok hn tyInt32,
    ⟨by decide, trivial, nmOf (by decide +kernel), trivial, (by decide +kernel : isNum "0".toList = true)⟩, ⟨⟨trivial, nmOf (by decide +kernel)⟩, trivial⟩, nmOf (by decide +kernel), trivial⟩⟩

theorem regressWrapF_ok {name dtype : List Char} (hn : isName name = true) (hd : isType dtype = true) (nf : Nat) : (regressWrapF name dtype nf).Ok :=
  ⟨by simp [regressWrapF], tyFloat, nmOf (s := "regress_wrapper".toList) (by decide +kernel), by simp [regressWrapF, valueParams], valueParams_ok, featuresDecl_ok hd nf, convLoop_ok hd ⟨outDecl_ok hn tyFloat, nmOf (by decide +kernel), trivial⟩⟩

theorem probaWrapF_ok {name dtype : List Char} (hn : isName name = true) (hd : isType dtype = true) (nf : Nat) : (probaWrapF name dtype nf).Ok :=
  ⟨by simp [probaWrapF], tyInt, nmOf (s := "predict_proba_wrapper".toList) (by decide +kernel), by simp [probaWrapF, wrapOutParams, valueParams], wrapOutParams_ok, featuresDecl_ok hd nf, convLoop_ok hd ⟨errInit_ok hn, nmOf (by decide +kernel), trivial⟩⟩

theorem wrapFuncs_ok {dtype : List Char} (hd : isType dtype = true) (nf : Nat) (classifier : Bool) : ∀ t ∈ (wrapFuncs classifier dtype nf).map Top.func, t.Ok := by
  have hm : isName "mytree".toList = true := by decide +kernel
  intro t ht
  obtain ⟨g, hg, rfl⟩ := List.mem_map.1 ht
  cases classifier with
  | false =>
    simp only [wrapFuncs, Bool.false_eq_true, if_false, List.mem_singleton] at hg
    subst hg
    exact regressWrapF_ok hm hd nf
  | true =>
    simp only [wrapFuncs, if_true, List.mem_cons, List.not_mem_nil, or_false] at hg
    rcases hg with rfl | rfl
    · exact predictWrapF_ok hm hd nf
    · exact probaWrapF_ok hm hd nf

/-- The code with the wrapper functions is the generated program followed by these functions. -/
theorem wrapCode_parse {dtype : List Char} (hd : isType dtype = true) (nf : Nat) (classifier : Bool) (saved : List Char) (p : Prog) (hl : Lexes saved (printProg p)) (hp : ∀ t ∈ p, t.Ok) :
    parse (wrapCode classifier saved dtype nf) = some (p ++ (wrapFuncs classifier dtype nf).map .func) := by
  have hm : isName "mytree".toList = true := by decide +kernel
  have hdw := isType_word hd
  have hnl := lexes_lits ['\n'] [] (by decide +kernel) (by decide +kernel)
  refine parse_eq _ _ ?_ ?_
  · intro t ht
    rcases List.mem_append.1 ht with ht | ht
    · exact hp t ht
    · exact wrapFuncs_ok hd nf classifier t ht
  · cases classifier with
    | false =>
      refine ((hl.append (hnl.append (regressWrap_lexes hm hdw nf))).congr ?_ ?_).lex
      · unfold wrapCode
        simp only [List.intercalate, List.intersperse, List.flatten_cons, List.flatten_nil, List.append_nil, Bool.false_eq_true, if_false]
      · unfold wrapFuncs printProg
        simp only [List.flatMap_append, List.flatMap_cons, List.flatMap_nil, Top.print, List.nil_append, List.append_nil, Bool.false_eq_true, if_false, List.map_cons, List.map_nil]
    | true =>
      refine ((hl.append (hnl.append ((predictWrap_lexes hm hdw nf).append (hnl.append (probaWrap_lexes hm hdw nf))))).congr ?_ ?_).lex
      · unfold wrapCode
        simp only [List.intercalate, List.intersperse, List.flatten_cons, List.flatten_nil, List.append_nil, if_true]
      · unfold wrapFuncs printProg
        simp only [List.flatMap_append, List.flatMap_cons, List.flatMap_nil, Top.print, List.nil_append, List.append_nil, if_true, List.map_cons, List.map_nil]

end Emlearn.Trees
