/- The programs the texts of `Trees/Text.lean` stand for. -/
import Verif.Trees.Text
import Verif.MiniC.Gen
namespace Emlearn.Trees
open Emlearn.Cgen Emlearn.MiniC

/-! ### Tree functions -/

abbrev nmFeatures : List Char := "features".toList
abbrev nmLength : List Char := "features_length".toList

/-- The body of a tree function. -/
def stmtCode (dtype leafDtype : List Char) : Stmt ℚ ℚ → Code
  | .ret v => .ret (litExpr v leafDtype) .done
  | .ite f t l r => .ifElse (.bin '<' (.idx nmFeatures (litExpr f "int".toList)) (litExpr t dtype)) (stmtCode dtype leafDtype l) (stmtCode dtype leafDtype r) .done

theorem lexes_lit (v : ℚ) (dtype : List Char) (h : NumType dtype) (s : List Char) (ts : List Tok) (hc : clean s = true) (e : lex s = ts) (hs : stopsWord s = true) :
    Lexes (lit v dtype ++ s) ((litExpr v dtype).print ++ ts) := by
  rw [lit, constant_sgn _ v dtype h]
  exact lexes_sgn_lits _ (litSgn_word v dtype) s ts hc e hs

theorem lexes_spaces (n : Nat) : Lexes (spaces n) [] := lexes_lits _ _ (clean_spaces n) (lex_spaces n)

theorem stmt_lexes (dtype leafDtype : List Char) (h : NumType dtype) (hl : NumType leafDtype) (d : Nat) (st : Stmt ℚ ℚ) :
    Lexes (stmtText dtype leafDtype d st) (stmtCode dtype leafDtype st).print := by
  induction st generalizing d with
  | ret v =>
    have h1 := lexes_spaces ((d + 1) * 2)
    have h2 := lexes_lits "return ".toList [.word "return".toList] (by decide +kernel) (by decide +kernel)
    have h3 := lexes_lit v leafDtype hl ";".toList [.sym ';'] (by decide +kernel) (by decide +kernel) (by decide +kernel)
    have := (h1.append h2).append h3
    simpa [stmtText, stmtCode, Code.print] using this
  | ite f t l r ihl ihr =>
    have h1 := lexes_spaces ((d + 1) * 2)
    have h2 := lexes_lits "if (features[".toList [.word "if".toList, .sym '(', .word nmFeatures, .sym '['] (by decide +kernel) (by decide +kernel)
    have h3 := lexes_lit f "int".toList (.inr (by decide +kernel)) "] < ".toList [.sym ']', .sym '<'] (by decide +kernel) (by decide +kernel) (by decide +kernel)
    have h4 := lexes_lit t dtype h ") {\n        ".toList [.sym ')', .sym '{'] (by decide +kernel) (by decide +kernel) (by decide +kernel)
    have h5 := lexes_lits "\n        ".toList [] (by decide +kernel) (by decide +kernel)
    have h6 := lexes_lits "} else {\n        ".toList [.sym '}', .word "else".toList, .sym '{'] (by decide +kernel) (by decide +kernel)
    have h7 := lexes_lits "}".toList [.sym '}'] (by decide +kernel) (by decide +kernel)
    have := h1.append (h2.append (h3.append (h4.append ((ihl (d + 2)).append (h5.append (h1.append (h6.append ((ihr (d + 2)).append (h5.append (h1.append h7))))))))))
    simpa [stmtText, stmtCode, Code.print, Expr.print] using this

/-- The parameters of the generated functions. -/
def featureParams (dtype : List Char) : List Param := [⟨true, dtype, true, nmFeatures⟩, ⟨false, "int32_t".toList, false, nmLength⟩]

def probaParams (dtype : List Char) : List Param := featureParams dtype ++ [⟨false, "float".toList, true, "out".toList⟩, ⟨false, "int".toList, false, "out_length".toList⟩]

def treeFunc (dtype leafDtype returnType fname : List Char) (code : Stmt ℚ ℚ) : Func :=
  ⟨["static".toList, "inline".toList], returnType, fname, featureParams dtype, stmtCode dtype leafDtype code⟩

set_option simprocs false in
theorem treeFunc_lexes (dtype leafDtype returnType fname : List Char) (code : Stmt ℚ ℚ) (h : NumType dtype) (hl : NumType leafDtype) (hd : IsWord dtype) (hr : IsWord returnType) (hf : IsWord fname) :
    Lexes (treeFuncText dtype leafDtype returnType fname code) ((treeFunc dtype leafDtype returnType fname code).print) := by
  have k0 := lexes_lit_chain "\n        }\n        ".toList [.sym '}'] (by decide +kernel) (Lexes.nil)
  have k1 := Lexes.append (stmt_lexes dtype leafDtype h hl 0 code) (k0)
  have k2 := lexes_word_chain (dtype) (hd) " *features, int32_t features_length) {\n        ".toList [.sym '*', .word "features".toList, .sym ',', .word "int32_t".toList, .word "features_length".toList, .sym ')', .sym '{'] (by decide +kernel) (k1)
  have k3 := lexes_word_chain (fname) (hf) "(const ".toList [.sym '(', .word "const".toList] (by decide +kernel) (k2)
  have k4 := lexes_word_chain (returnType) (hr) " ".toList [] (by decide +kernel) (k3)
  have k5 := lexes_lit_chain "static inline ".toList [.word "static".toList, .word "inline".toList] (by decide +kernel) (k4)
  refine k5.congr ?_ ?_
  · unfold treeFuncText; rfl
  · rfl

/-! ### Votes -/

abbrev callTree (tree : List Char) : Expr := .call tree [⟨none, nmFeatures⟩, ⟨none, nmLength⟩]

def voteCode (tree : List Char) (k : Code) : Code :=
  .assign "_class".toList none false (callTree tree) (.assign "votes".toList (some (.var "_class".toList)) true (.lit "1".toList) k)

def voteProbaCode (tree : List Char) (k : Code) : Code :=
  .assign "_class".toList none false (callTree tree) (.assign "out".toList (some (.var "_class".toList)) true (.lit "1.0f".toList) k)

def voteRegressCode (tree : List Char) (k : Code) : Code := .assign "avg".toList none true (callTree tree) k

def softBody (leavesName : List Char) : Code :=
  .assign "out".toList (some (.var "i".toList)) true
    (.paren (.bin '/' (.idx leavesName (.bin '+' (.var "offset".toList) (.var "i".toList))) (.lit "255.0f".toList))) .done

def voteSoftCode (nClasses : Nat) (leavesName tree : List Char) (k : Code) : Code :=
  .assign "offset".toList none false (.bin '*' (.lit (showNat nClasses)) (callTree tree))
    (.loop "int".toList "i".toList (.lit (showNat nClasses)) (softBody leavesName) k)

set_option simprocs false in
theorem vote_lexes (tree : List Char) (ht : IsWord tree) :
    Lexes (voteText tree) ((voteCode tree .done).print) := by
  have k0 := lexes_word_chain (tree) (ht) "(features, features_length); votes[_class] += 1;".toList [.sym '(', .word "features".toList, .sym ',', .word "features_length".toList, .sym ')', .sym ';', .word "votes".toList, .sym '[', .word "_class".toList, .sym ']', .sym '+', .sym '=', .word "1".toList, .sym ';'] (by decide +kernel) (Lexes.nil)
  have k1 := lexes_lit_chain "_class = ".toList [.word "_class".toList, .sym '='] (by decide +kernel) (k0)
  refine k1.congr ?_ ?_
  · unfold voteText; rfl
  · rfl

set_option simprocs false in
theorem voteProba_lexes (tree : List Char) (ht : IsWord tree) :
    Lexes (voteProbaText tree) ((voteProbaCode tree .done).print) := by
  have k0 := lexes_word_chain (tree) (ht) "(features, features_length); out[_class] += 1.0f;".toList [.sym '(', .word "features".toList, .sym ',', .word "features_length".toList, .sym ')', .sym ';', .word "out".toList, .sym '[', .word "_class".toList, .sym ']', .sym '+', .sym '=', .word "1.0f".toList, .sym ';'] (by decide +kernel) (Lexes.nil)
  have k1 := lexes_lit_chain "_class = ".toList [.word "_class".toList, .sym '='] (by decide +kernel) (k0)
  refine k1.congr ?_ ?_
  · unfold voteProbaText; rfl
  · rfl

set_option simprocs false in
theorem voteRegress_lexes (tree : List Char) (ht : IsWord tree) :
    Lexes (voteRegressText tree) ((voteRegressCode tree .done).print) := by
  have k0 := lexes_word_chain (tree) (ht) "(features, features_length); ".toList [.sym '(', .word "features".toList, .sym ',', .word "features_length".toList, .sym ')', .sym ';'] (by decide +kernel) (Lexes.nil)
  have k1 := lexes_lit_chain "avg += ".toList [.word "avg".toList, .sym '+', .sym '='] (by decide +kernel) (k0)
  refine k1.congr ?_ ?_
  · unfold voteRegressText; rfl
  · rfl

set_option simprocs false in
theorem voteSoft_lexes (nClasses : Nat) (leavesName tree : List Char) (hl : IsWord leavesName) (ht : IsWord tree) :
    Lexes (voteSoftText nClasses leavesName tree) ((voteSoftCode nClasses leavesName tree .done).print) := by
  have k0 := lexes_word_chain (leavesName) (hl) "[offset+i]/255.0f); }\n        ".toList [.sym '[', .word "offset".toList, .sym '+', .word "i".toList, .sym ']', .sym '/', .word "255.0f".toList, .sym ')', .sym ';', .sym '}'] (by decide +kernel) (Lexes.nil)
  have k1 := lexes_word_chain (showNat nClasses) (isWord_showNat nClasses) "; i++) { out[i] += (".toList [.sym ';', .word "i".toList, .sym '+', .sym '+', .sym ')', .sym '{', .word "out".toList, .sym '[', .word "i".toList, .sym ']', .sym '+', .sym '=', .sym '('] (by decide +kernel) (k0)
  have k2 := lexes_word_chain (tree) (ht) "(features, features_length);\n            for (int i=0; i<".toList [.sym '(', .word "features".toList, .sym ',', .word "features_length".toList, .sym ')', .sym ';', .word "for".toList, .sym '(', .word "int".toList, .word "i".toList, .sym '=', .word "0".toList, .sym ';', .word "i".toList, .sym '<'] (by decide +kernel) (k1)
  have k3 := lexes_word_chain (showNat nClasses) (isWord_showNat nClasses) "*".toList [.sym '*'] (by decide +kernel) (k2)
  have k4 := lexes_lit_chain "offset = ".toList [.word "offset".toList, .sym '='] (by decide +kernel) (k3)
  refine k4.congr ?_ ?_
  · unfold voteSoftText; rfl
  · rfl

/-- The votes of all trees. -/
def votesCode (vote : List Char → Code → Code) (trees : List (List Char)) (k : Code) : Code := trees.foldr vote k

theorem votes_lexes (text : List Char → List Char) (vote : List Char → Code → Code) (trees : List (List Char)) (hv : ∀ t ∈ trees, Lexes (text t) (vote t .done).print) :
    Lexes (votesText (trees.map text)) (trees.flatMap fun t => (vote t .done).print) :=
  lexes_join _ (lexes_lits _ _ (by decide +kernel) (by decide +kernel)) text (fun t => (vote t .done).print) trees hv

theorem votesCode_print (vote : List Char → Code → Code) (hp : ∀ t k, (vote t k).print = (vote t .done).print ++ k.print) (trees : List (List Char)) (k : Code) :
    (votesCode vote trees k).print = (trees.flatMap fun t => (vote t .done).print) ++ k.print := by
  induction trees with
  | nil => rfl
  | cons t l ih =>
    show (vote t (votesCode vote l k)).print = _
    rw [hp, ih]
    simp

theorem votes_chain (text : List Char → List Char) (vote : List Char → Code → Code) (hp : ∀ t k, (vote t k).print = (vote t .done).print ++ k.print) (trees : List (List Char))
    (hv : ∀ t ∈ trees, Lexes (text t) (vote t .done).print) (k : Code) (ts : List Tok) {r : List Char} (h : Lexes r (k.print ++ ts)) :
    Lexes (votesText (trees.map text) ++ r) ((votesCode vote trees k).print ++ ts) := by
  rw [votesCode_print vote hp, List.append_assoc]
  exact (votes_lexes text vote trees hv).append h

theorem voteCode_print (t : List Char) (k : Code) : (voteCode t k).print = (voteCode t .done).print ++ k.print := by simp [voteCode, Code.print]
theorem voteProbaCode_print (t : List Char) (k : Code) : (voteProbaCode t k).print = (voteProbaCode t .done).print ++ k.print := by simp [voteProbaCode, Code.print]
theorem voteRegressCode_print (t : List Char) (k : Code) : (voteRegressCode t k).print = (voteRegressCode t .done).print ++ k.print := by simp [voteRegressCode, Code.print]
theorem voteSoftCode_print (n : Nat) (ln t : List Char) (k : Code) : (voteSoftCode n ln t k).print = (voteSoftCode n ln t .done).print ++ k.print := by
  simp [voteSoftCode, Code.print]

/-! ### Functions of the forest -/

def regressorFunc (name dtype : List Char) (trees : List (List Char)) : Func :=
  ⟨[], "float".toList, name ++ "_predict".toList, featureParams dtype,
    .decl ⟨[], "float".toList, "avg".toList, none, some (.one (.lit "0".toList))⟩
      (votesCode voteRegressCode trees (.ret (.bin '/' (.var "avg".toList) (.lit (showNat trees.length))) .done))⟩

/-- The search for the largest element of `arr`. -/
def argmaxCode (nClasses : Nat) (arr best ty zero : List Char) : Code :=
  .decl ⟨[], "int32_t".toList, "most_voted_class".toList, none, some (.one (.neg (.lit "1".toList)))⟩
    (.decl ⟨[], ty, best, none, some (.one (.lit zero))⟩
      (.loop "int32_t".toList "i".toList (.lit (showNat nClasses))
        (.ifThen (.bin '>' (.idx arr (.var "i".toList)) (.var best))
          (.assign "most_voted_class".toList none false (.var "i".toList) (.assign best none false (.idx arr (.var "i".toList)) .done)) .done)
        (.ret (.var "most_voted_class".toList) .done)))

def predictHardFunc (name dtype : List Char) (nClasses : Nat) (trees : List (List Char)) : Func :=
  ⟨[], "int32_t".toList, name ++ "_predict".toList, featureParams dtype,
    .decl ⟨[], "int32_t".toList, "votes".toList, some (showNat nClasses), some (.flat [.lit "0".toList] true)⟩
      (.decl ⟨[], "int32_t".toList, "_class".toList, none, some (.one (.neg (.lit "1".toList)))⟩
        (votesCode voteCode trees (argmaxCode nClasses "votes".toList "most_voted_votes".toList "int32_t".toList "0".toList)))⟩

def predictSoftFunc (name dtype leavesName : List Char) (nClasses : Nat) (trees : List (List Char)) : Func :=
  ⟨[], "int32_t".toList, name ++ "_predict".toList, featureParams dtype,
    .decl ⟨[], "float".toList, "out".toList, some (showNat nClasses), some (.flat [.lit "0.0f".toList] true)⟩
      (.decl ⟨[], "int".toList, "offset".toList, none, some (.one (.lit "0".toList))⟩
        (votesCode (voteSoftCode nClasses leavesName) trees (argmaxCode nClasses "out".toList "most_voted_proba".toList "float".toList "0.0f".toList)))⟩

/-- Setting all outputs to zero. -/
def zeroLoop (k : Code) : Code :=
  .loop "int".toList "i".toList (.var "out_length".toList) (.assign "out".toList (some (.var "i".toList)) false (.lit "0.0f".toList) .done) k

/-- Division of all outputs by the number of trees. -/
def meanLoop (n : Nat) : Code :=
  .loop "int".toList "i".toList (.var "out_length".toList)
    (.assign "out".toList (some (.var "i".toList)) false (.bin '/' (.idx "out".toList (.var "i".toList)) (.lit (showNat n))) .done) (.ret (.lit "0".toList) .done)

def probaHardFunc (name dtype : List Char) (trees : List (List Char)) : Func :=
  ⟨[], "int".toList, name ++ "_predict_proba".toList, probaParams dtype,
    .decl ⟨[], "int32_t".toList, "_class".toList, none, some (.one (.neg (.lit "1".toList)))⟩ (zeroLoop (votesCode voteProbaCode trees (meanLoop trees.length)))⟩

def probaSoftFunc (name dtype leavesName : List Char) (nClasses : Nat) (trees : List (List Char)) : Func :=
  ⟨[], "int".toList, name ++ "_predict_proba".toList, probaParams dtype,
    .decl ⟨[], "int".toList, "offset".toList, none, some (.one (.lit "0".toList))⟩ (zeroLoop (votesCode (voteSoftCode nClasses leavesName) trees (meanLoop trees.length)))⟩

theorem lexes_avg (n : Nat) {r : List Char} {us : List Tok} (hr : Lexes r us) : Lexes ("\n        \n        return avg/".toList ++ (showNat n ++ (";\n    }\n    ".toList ++ r)))
    ([.word "return".toList, .word "avg".toList, .sym '/', .word (showNat n), .sym ';', .sym '}'] ++ us) := by
  have h := (lexes_pieces [.lit "\n        \n        return ".toList, .word "avg".toList, .slash, .word (showNat n), .lit ";\n    }\n    ".toList]
    ⟨by decide +kernel, ⟨by decide +kernel, by decide +kernel⟩, rfl, rfl, isWord_showNat n, by decide +kernel, by decide +kernel, trivial⟩ rfl).append hr
  have e : "\n        \n        return avg/".toList = "\n        \n        return ".toList ++ ("avg".toList ++ ['/']) := by decide +kernel
  have e1 : lex "\n        \n        return ".toList = [.word "return".toList] := by decide +kernel
  have e2 : lex ";\n    }\n    ".toList = [.sym ';', .sym '}'] := by decide +kernel
  rw [e]
  generalize "\n        \n        return ".toList = a at *
  generalize ";\n    }\n    ".toList = b at *
  generalize "avg".toList = c at *
  simpa [renderAll, toksAll, Piece.render, Piece.toks, e1, e2] using h

set_option simprocs false in
theorem regressor_lexes (name dtype : List Char) (hn : isName name = true) (hd : IsWord dtype) (trees : List (List Char)) (ht : ∀ t ∈ trees, IsWord t) :
    Lexes (regressorText name dtype trees) ((regressorFunc name dtype trees).print) := by
  have k0 := lexes_avg trees.length (Lexes.nil)
  have k1 := votes_chain voteRegressText voteRegressCode voteRegressCode_print trees (fun t h => voteRegress_lexes t (ht t h)) (.ret (.bin '/' (.var "avg".toList) (.lit (showNat trees.length))) .done) [.sym '}'] (k0)
  have k2 := lexes_word_chain (dtype) (hd) " *features, int32_t features_length) {\n\n        float avg = 0;\n\n        ".toList [.sym '*', .word "features".toList, .sym ',', .word "int32_t".toList, .word "features_length".toList, .sym ')', .sym '{', .word "float".toList, .word "avg".toList, .sym '=', .word "0".toList, .sym ';'] (by decide +kernel) (k1)
  have k3 := lexes_word_chain (name ++ "_predict".toList) (isName_word (isName_append hn (by decide +kernel))) "(const ".toList [.sym '(', .word "const".toList] (by decide +kernel) (k2)
  have k4 := lexes_lit_chain "float ".toList [.word "float".toList] (by decide +kernel) (k3)
  refine k4.congr ?_ ?_
  · unfold regressorText; rfl
  · rfl

set_option simprocs false in
theorem predictHard_lexes (name dtype : List Char) (hn : isName name = true) (hd : IsWord dtype) (nClasses : Nat) (trees : List (List Char)) (ht : ∀ t ∈ trees, IsWord t) :
    Lexes (predictHardText name dtype nClasses trees) ((predictHardFunc name dtype nClasses trees).print) := by
  have k0 := lexes_word_chain (showNat nClasses) (isWord_showNat nClasses) "; i++) {\n\n            if (votes[i] > most_voted_votes) {\n                most_voted_class = i;\n                most_voted_votes = votes[i];\n            }\n        }\n        return most_voted_class;\n    }\n    ".toList [.sym ';', .word "i".toList, .sym '+', .sym '+', .sym ')', .sym '{', .word "if".toList, .sym '(', .word "votes".toList, .sym '[', .word "i".toList, .sym ']', .sym '>', .word "most_voted_votes".toList, .sym ')', .sym '{', .word "most_voted_class".toList, .sym '=', .word "i".toList, .sym ';', .word "most_voted_votes".toList, .sym '=', .word "votes".toList, .sym '[', .word "i".toList, .sym ']', .sym ';', .sym '}', .sym '}', .word "return".toList, .word "most_voted_class".toList, .sym ';', .sym '}'] (by decide +kernel) (Lexes.nil)
  have k1 := lexes_lit_chain "\n    \n        int32_t most_voted_class = -1;\n        int32_t most_voted_votes = 0;\n        for (int32_t i=0; i<".toList [.word "int32_t".toList, .word "most_voted_class".toList, .sym '=', .sym '-', .word "1".toList, .sym ';', .word "int32_t".toList, .word "most_voted_votes".toList, .sym '=', .word "0".toList, .sym ';', .word "for".toList, .sym '(', .word "int32_t".toList, .word "i".toList, .sym '=', .word "0".toList, .sym ';', .word "i".toList, .sym '<'] (by decide +kernel) (k0)
  have k2 := votes_chain voteText voteCode voteCode_print trees (fun t h => vote_lexes t (ht t h)) (argmaxCode nClasses "votes".toList "most_voted_votes".toList "int32_t".toList "0".toList) [.sym '}'] (k1)
  have k3 := lexes_word_chain (showNat nClasses) (isWord_showNat nClasses) "] = {0,};\n        int32_t _class = -1;\n\n        ".toList [.sym ']', .sym '=', .sym '{', .word "0".toList, .sym ',', .sym '}', .sym ';', .word "int32_t".toList, .word "_class".toList, .sym '=', .sym '-', .word "1".toList, .sym ';'] (by decide +kernel) (k2)
  have k4 := lexes_word_chain (dtype) (hd) " *features, int32_t features_length) {\n\n        int32_t votes[".toList [.sym '*', .word "features".toList, .sym ',', .word "int32_t".toList, .word "features_length".toList, .sym ')', .sym '{', .word "int32_t".toList, .word "votes".toList, .sym '['] (by decide +kernel) (k3)
  have k5 := lexes_word_chain (name ++ "_predict".toList) (isName_word (isName_append hn (by decide +kernel))) "(const ".toList [.sym '(', .word "const".toList] (by decide +kernel) (k4)
  have k6 := lexes_lit_chain "int32_t ".toList [.word "int32_t".toList] (by decide +kernel) (k5)
  refine k6.congr ?_ ?_
  · unfold predictHardText; rfl
  · rfl

set_option simprocs false in
theorem predictSoft_lexes (name dtype leavesName : List Char) (hn : isName name = true) (hd : IsWord dtype) (hl : IsWord leavesName) (nClasses : Nat) (trees : List (List Char)) (ht : ∀ t ∈ trees, IsWord t) :
    Lexes (predictSoftText name dtype leavesName nClasses trees) ((predictSoftFunc name dtype leavesName nClasses trees).print) := by
  have k0 := lexes_word_chain (showNat nClasses) (isWord_showNat nClasses) "; i++) {\n\n            if (out[i] > most_voted_proba) {\n                most_voted_class = i;\n                most_voted_proba = out[i];\n            }\n        }\n        return most_voted_class;\n    }\n    ".toList [.sym ';', .word "i".toList, .sym '+', .sym '+', .sym ')', .sym '{', .word "if".toList, .sym '(', .word "out".toList, .sym '[', .word "i".toList, .sym ']', .sym '>', .word "most_voted_proba".toList, .sym ')', .sym '{', .word "most_voted_class".toList, .sym '=', .word "i".toList, .sym ';', .word "most_voted_proba".toList, .sym '=', .word "out".toList, .sym '[', .word "i".toList, .sym ']', .sym ';', .sym '}', .sym '}', .word "return".toList, .word "most_voted_class".toList, .sym ';', .sym '}'] (by decide +kernel) (Lexes.nil)
  have k1 := lexes_lit_chain "\n    \n        // argmax over probabilities\n        int32_t most_voted_class = -1;\n        float most_voted_proba = 0.0f;\n        for (int32_t i=0; i<".toList [.word "int32_t".toList, .word "most_voted_class".toList, .sym '=', .sym '-', .word "1".toList, .sym ';', .word "float".toList, .word "most_voted_proba".toList, .sym '=', .word "0.0f".toList, .sym ';', .word "for".toList, .sym '(', .word "int32_t".toList, .word "i".toList, .sym '=', .word "0".toList, .sym ';', .word "i".toList, .sym '<'] (by decide +kernel) (k0)
  have k2 := votes_chain (voteSoftText nClasses leavesName) (voteSoftCode nClasses leavesName) (voteSoftCode_print nClasses leavesName) trees (fun t h => voteSoft_lexes nClasses leavesName t hl (ht t h)) (argmaxCode nClasses "out".toList "most_voted_proba".toList "float".toList "0.0f".toList) [.sym '}'] (k1)
  have k3 := lexes_word_chain (showNat nClasses) (isWord_showNat nClasses) "] = {0.0f,};\n\n        int offset = 0;\n\n        ".toList [.sym ']', .sym '=', .sym '{', .word "0.0f".toList, .sym ',', .sym '}', .sym ';', .word "int".toList, .word "offset".toList, .sym '=', .word "0".toList, .sym ';'] (by decide +kernel) (k2)
  have k4 := lexes_word_chain (dtype) (hd) " *features, int32_t features_length) {\n\n        float out[".toList [.sym '*', .word "features".toList, .sym ',', .word "int32_t".toList, .word "features_length".toList, .sym ')', .sym '{', .word "float".toList, .word "out".toList, .sym '['] (by decide +kernel) (k3)
  have k5 := lexes_word_chain (name ++ "_predict".toList) (isName_word (isName_append hn (by decide +kernel))) "(const ".toList [.sym '(', .word "const".toList] (by decide +kernel) (k4)
  have k6 := lexes_lit_chain "int32_t ".toList [.word "int32_t".toList] (by decide +kernel) (k5)
  refine k6.congr ?_ ?_
  · unfold predictSoftText; rfl
  · rfl

set_option simprocs false in
theorem probaHard_lexes (name dtype : List Char) (hn : isName name = true) (hd : IsWord dtype) (trees : List (List Char)) (ht : ∀ t ∈ trees, IsWord t) :
    Lexes (probaHardText name dtype trees) ((probaHardFunc name dtype trees).print) := by
  have k0 := lexes_word_chain (showNat trees.length) (isWord_showNat trees.length) ";\n        }\n        return 0;\n    }\n    ".toList [.sym ';', .sym '}', .word "return".toList, .word "0".toList, .sym ';', .sym '}'] (by decide +kernel) (Lexes.nil)
  have k1 := lexes_lit_chain "\n    \n        // compute mean\n        for (int i=0; i<out_length; i++) {\n            out[i] = out[i] / ".toList [.word "for".toList, .sym '(', .word "int".toList, .word "i".toList, .sym '=', .word "0".toList, .sym ';', .word "i".toList, .sym '<', .word "out_length".toList, .sym ';', .word "i".toList, .sym '+', .sym '+', .sym ')', .sym '{', .word "out".toList, .sym '[', .word "i".toList, .sym ']', .sym '=', .word "out".toList, .sym '[', .word "i".toList, .sym ']', .sym '/'] (by decide +kernel) (k0)
  have k2 := votes_chain voteProbaText voteProbaCode voteProbaCode_print trees (fun t h => voteProba_lexes t (ht t h)) (meanLoop trees.length) [.sym '}'] (k1)
  have k3 := lexes_word_chain (dtype) (hd) " *features, int32_t features_length, float *out, int out_length) {\n\n        int32_t _class = -1;\n\n        for (int i=0; i<out_length; i++) {\n            out[i] = 0.0f;\n        }\n\n        ".toList [.sym '*', .word "features".toList, .sym ',', .word "int32_t".toList, .word "features_length".toList, .sym ',', .word "float".toList, .sym '*', .word "out".toList, .sym ',', .word "int".toList, .word "out_length".toList, .sym ')', .sym '{', .word "int32_t".toList, .word "_class".toList, .sym '=', .sym '-', .word "1".toList, .sym ';', .word "for".toList, .sym '(', .word "int".toList, .word "i".toList, .sym '=', .word "0".toList, .sym ';', .word "i".toList, .sym '<', .word "out_length".toList, .sym ';', .word "i".toList, .sym '+', .sym '+', .sym ')', .sym '{', .word "out".toList, .sym '[', .word "i".toList, .sym ']', .sym '=', .word "0.0f".toList, .sym ';', .sym '}'] (by decide +kernel) (k2)
  have k4 := lexes_word_chain (name ++ "_predict_proba".toList) (isName_word (isName_append hn (by decide +kernel))) "(const ".toList [.sym '(', .word "const".toList] (by decide +kernel) (k3)
  have k5 := lexes_lit_chain "int ".toList [.word "int".toList] (by decide +kernel) (k4)
  refine k5.congr ?_ ?_
  · unfold probaHardText; rfl
  · rfl

set_option simprocs false in
theorem probaSoft_lexes (name dtype leavesName : List Char) (hn : isName name = true) (hd : IsWord dtype) (hl : IsWord leavesName) (nClasses : Nat) (trees : List (List Char)) (ht : ∀ t ∈ trees, IsWord t) :
    Lexes (probaSoftText name dtype leavesName nClasses trees) ((probaSoftFunc name dtype leavesName nClasses trees).print) := by
  have k0 := lexes_word_chain (showNat trees.length) (isWord_showNat trees.length) ";\n        }\n        return 0;\n    }\n    ".toList [.sym ';', .sym '}', .word "return".toList, .word "0".toList, .sym ';', .sym '}'] (by decide +kernel) (Lexes.nil)
  have k1 := lexes_lit_chain "\n    \n        // compute mean\n        for (int i=0; i<out_length; i++) {\n            out[i] = out[i] / ".toList [.word "for".toList, .sym '(', .word "int".toList, .word "i".toList, .sym '=', .word "0".toList, .sym ';', .word "i".toList, .sym '<', .word "out_length".toList, .sym ';', .word "i".toList, .sym '+', .sym '+', .sym ')', .sym '{', .word "out".toList, .sym '[', .word "i".toList, .sym ']', .sym '=', .word "out".toList, .sym '[', .word "i".toList, .sym ']', .sym '/'] (by decide +kernel) (k0)
  have k2 := votes_chain (voteSoftText nClasses leavesName) (voteSoftCode nClasses leavesName) (voteSoftCode_print nClasses leavesName) trees (fun t h => voteSoft_lexes nClasses leavesName t hl (ht t h)) (meanLoop trees.length) [.sym '}'] (k1)
  have k3 := lexes_word_chain (dtype) (hd) " *features, int32_t features_length, float *out, int out_length) {\n\n        int offset = 0;\n\n        for (int i=0; i<out_length; i++) {\n            out[i] = 0.0f;\n        }\n\n        ".toList [.sym '*', .word "features".toList, .sym ',', .word "int32_t".toList, .word "features_length".toList, .sym ',', .word "float".toList, .sym '*', .word "out".toList, .sym ',', .word "int".toList, .word "out_length".toList, .sym ')', .sym '{', .word "int".toList, .word "offset".toList, .sym '=', .word "0".toList, .sym ';', .word "for".toList, .sym '(', .word "int".toList, .word "i".toList, .sym '=', .word "0".toList, .sym ';', .word "i".toList, .sym '<', .word "out_length".toList, .sym ';', .word "i".toList, .sym '+', .sym '+', .sym ')', .sym '{', .word "out".toList, .sym '[', .word "i".toList, .sym ']', .sym '=', .word "0.0f".toList, .sym ';', .sym '}'] (by decide +kernel) (k2)
  have k4 := lexes_word_chain (name ++ "_predict_proba".toList) (isName_word (isName_append hn (by decide +kernel))) "(const ".toList [.sym '(', .word "const".toList] (by decide +kernel) (k3)
  have k5 := lexes_lit_chain "int ".toList [.word "int".toList] (by decide +kernel) (k4)
  refine k5.congr ?_ ?_
  · unfold probaSoftText; rfl
  · rfl

end Emlearn.Trees
