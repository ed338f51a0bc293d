/- The generated inline text is read as the program of `Trees/TextAst.lean`. -/
import Verif.Trees.TextAst
namespace Emlearn.Trees
open Emlearn.Cgen Emlearn.MiniC

instance (x : List Char) : Decidable (Nm x) := inferInstanceAs (Decidable (_ ∧ _))

/-- The types a caller can choose for features (`dtype`), as read by the specification. -/
def DType (dtype : List Char) : Prop := isType dtype = true ∧ NumType dtype

theorem tyInt32 : isType "int32_t".toList = true := by decide +kernel
theorem tyInt : isType "int".toList = true := by decide +kernel
theorem tyFloat : isType "float".toList = true := by decide +kernel
theorem nmFeat : Nm nmFeatures := by decide +kernel
theorem nmVotes : Nm "votes".toList := by decide +kernel
theorem nmOut : Nm "out".toList := by decide +kernel

theorem isType_word {w : List Char} (h : isType w = true) : IsWord w := by
  have := isType_cases h
  revert this
  revert w
  suffices ∀ w ∈ typeNames.map String.toList, w ≠ [] ∧ grows [] w = true ∧ ppExp w = false from fun w _ h => this w h
  decide +kernel

theorem nm_tree {name : List Char} (h : isName name = true) (i : Nat) : Nm (treeName name i) := by
  have hd : ∀ c ∈ showNat i, identRest c = true := fun c hc => Reader.identRest_digit (showNat_digits hc)
  have h1 : isName (treeName name i) = true := by
    unfold treeName
    refine isName_append (isName_append h (by decide +kernel)) (List.all_eq_true.2 hd)
  refine ⟨h1, ?_⟩
  rw [← Bool.not_eq_true]
  intro hc
  have hm := isKey_mem hc
  -- no special word ends with a digit
  have hk : ∀ w ∈ keyWords, ∀ c, w.getLast? = some c → c.isDigit = false := by
    have : keyWords.all (fun w => match w.getLast? with | some c => !c.isDigit | none => true) = true := by decide +kernel
    intro w hw c hc
    have := List.all_eq_true.1 this w hw
    rw [hc] at this
    simpa using this
  obtain ⟨c, hc⟩ : ∃ c, (showNat i).getLast? = some c := ⟨_, List.getLast?_eq_some_getLast (showNat_ne_nil i)⟩
  have hl : (treeName name i).getLast? = some c := by
    unfold treeName
    rw [List.getLast?_append, hc]; rfl
  have := hk _ hm c hl
  rw [showNat_digits (List.mem_of_getLast? hc)] at this
  cases this

theorem stmtCode_ok (dtype leafDtype : List Char) (st : Stmt ℚ ℚ) : (stmtCode dtype leafDtype st).Ok := by
  induction st with
  | ret v => exact ⟨(litExpr_ok v leafDtype).2, trivial⟩
  | ite f t l r ihl ihr =>
    exact ⟨⟨by decide, trivial, ⟨by decide +kernel, (litExpr_ok _ _).2⟩, litExpr_ok t dtype⟩, ihl, ihr, trivial⟩

theorem featureParams_ok {dtype : List Char} (hd : isType dtype = true) : ∀ p ∈ featureParams dtype, p.Ok := by
  intro p hp
  simp only [featureParams, List.mem_cons, List.not_mem_nil, or_false] at hp
  rcases hp with rfl | rfl
  · exact ⟨hd, nmFeat⟩
  · exact ⟨by decide +kernel, by decide +kernel⟩

theorem probaParams_ok {dtype : List Char} (hd : isType dtype = true) : ∀ p ∈ probaParams dtype, p.Ok := by
  intro p hp
  rw [probaParams, List.mem_append] at hp
  rcases hp with hp | hp
  · exact featureParams_ok hd p hp
  · simp only [List.mem_cons, List.not_mem_nil, or_false] at hp
    rcases hp with rfl | rfl
    · exact ⟨by decide +kernel, by decide +kernel⟩
    · exact ⟨by decide +kernel, by decide +kernel⟩

theorem treeFunc_ok {dtype leafDtype returnType fname : List Char} (code : Stmt ℚ ℚ) (hd : isType dtype = true) (hr : isType returnType = true) (hf : Nm fname) :
    (treeFunc dtype leafDtype returnType fname code).Ok :=
  ⟨fun m hm => (by decide +kernel : ∀ m ∈ ["static".toList, "inline".toList], isMod m = true) m hm, hr, hf, by simp [treeFunc, featureParams], featureParams_ok hd, stmtCode_ok _ _ _⟩

theorem callTree_ok {t : List Char} (h : Nm t) : (callTree t).Prim ∧ (callTree t).Ok := by
  refine ⟨trivial, h, by simp, ?_⟩
  intro a ha
  simp only [List.mem_cons, List.not_mem_nil, or_false] at ha
  rcases ha with rfl | rfl <;> exact .inl rfl

theorem votesCode_ok (vote : List Char → Code → Code) (trees : List (List Char)) (hv : ∀ t ∈ trees, ∀ k : Code, k.Ok → (vote t k).Ok) (k : Code) (hk : k.Ok) : (votesCode vote trees k).Ok := by
  induction trees with
  | nil => exact hk
  | cons t l ih => exact hv t (by simp) _ (ih fun t ht => hv t (by simp [ht]))

theorem voteCode_ok {t : List Char} (h : Nm t) (k : Code) (hk : k.Ok) : (voteCode t k).Ok :=
  ⟨by decide +kernel, by simp, (callTree_ok h).2, by decide +kernel, fun j hj => by cases hj; exact (by decide +kernel : Nm "_class".toList), (by decide +kernel : isNum "1".toList = true), hk⟩

theorem voteProbaCode_ok {t : List Char} (h : Nm t) (k : Code) (hk : k.Ok) : (voteProbaCode t k).Ok :=
  ⟨by decide +kernel, by simp, (callTree_ok h).2, by decide +kernel, fun j hj => by cases hj; exact (by decide +kernel : Nm "_class".toList), (by decide +kernel : isNum "1.0f".toList = true), hk⟩

theorem voteRegressCode_ok {t : List Char} (h : Nm t) (k : Code) (hk : k.Ok) : (voteRegressCode t k).Ok :=
  ⟨by decide +kernel, by simp, (callTree_ok h).2, hk⟩

theorem nmI : Nm "i".toList := by decide +kernel
theorem softBody_ok {ln : List Char} (hl : Nm ln) : (softBody ln).Ok :=
  ⟨nmOut, fun j hj => by cases hj; exact nmI, ⟨by decide, trivial, ⟨hl, by decide, trivial, (by decide +kernel : Nm "offset".toList), trivial, nmI⟩, trivial, (by decide +kernel : isNum "255.0f".toList = true)⟩, trivial⟩

theorem voteSoftCode_ok (n : Nat) {ln t : List Char} (hl : Nm ln) (h : Nm t) (k : Code) (hk : k.Ok) : (voteSoftCode n ln t k).Ok :=
  ⟨by decide +kernel, by simp, ⟨by decide, trivial, isNum_showNat n, callTree_ok h⟩, by decide +kernel, nmI, trivial, isNum_showNat n, softBody_ok hl, hk⟩

theorem one_ok {e : Expr} (h : e.Ok) : ∀ i, some (Init.one e) = some i → i.Ok := by intro i hi; cases hi; exact h

theorem argmaxCode_ok (n : Nat) {arr best ty zero : List Char} (ha : Nm arr) (hb : Nm best) (ht : isType ty = true) (hz : isNum zero = true) : (argmaxCode n arr best ty zero).Ok := by
  refine ⟨⟨by simp, by decide +kernel, by decide +kernel, by simp, one_ok ⟨trivial, (by decide +kernel : isNum "1".toList = true)⟩⟩, ⟨by simp, ht, hb, by simp, one_ok hz⟩,
    by decide +kernel, nmI, trivial, isNum_showNat n, ⟨⟨by decide, trivial, ⟨ha, nmI⟩, trivial, hb⟩, ⟨by decide +kernel, by simp, nmI, hb, by simp, ⟨ha, nmI⟩, trivial⟩, trivial⟩,
    (by decide +kernel : Nm "most_voted_class".toList), trivial⟩

theorem regressorFunc_ok {name dtype : List Char} (hn : isName name = true) (hd : isType dtype = true) (trees : List (List Char)) (ht : ∀ t ∈ trees, Nm t) : (regressorFunc name dtype trees).Ok :=
  ⟨by simp [regressorFunc], tyFloat, nm_suffix hn (by decide +kernel) (by decide +kernel), by simp [regressorFunc, featureParams], featureParams_ok hd,
    ⟨by simp, by decide +kernel, by decide +kernel, by simp, one_ok (by decide +kernel : isNum "0".toList = true)⟩,
    votesCode_ok _ trees (fun t h => voteRegressCode_ok (ht t h)) _ ⟨⟨by decide, trivial, (by decide +kernel : Nm "avg".toList), trivial, isNum_showNat _⟩, trivial⟩⟩

theorem flat_ok {s : List Char} (h : isNum s = true) : ∀ i, some (Init.flat [.lit s] true) = some i → i.Ok := by
  intro i hi; cases hi
  refine ⟨?_, by simp⟩
  intro e he
  simp only [List.mem_singleton] at he
  subst he
  exact h

theorem size_ok (n : Nat) : ∀ m, some (showNat n) = some m → isNum m = true := by intro m hm; cases hm; exact isNum_showNat n

theorem predictHardFunc_ok {name dtype : List Char} (hn : isName name = true) (hd : isType dtype = true) (n : Nat) (trees : List (List Char)) (ht : ∀ t ∈ trees, Nm t) :
    (predictHardFunc name dtype n trees).Ok :=
  ⟨by simp [predictHardFunc], tyInt32, nm_suffix hn (by decide +kernel) (by decide +kernel), by simp [predictHardFunc, featureParams], featureParams_ok hd,
    ⟨by simp, tyInt32, nmVotes, size_ok n, flat_ok (by decide +kernel)⟩,
    ⟨by simp, by decide +kernel, by decide +kernel, by simp, one_ok ⟨trivial, (by decide +kernel : isNum "1".toList = true)⟩⟩,
    votesCode_ok _ trees (fun t h => voteCode_ok (ht t h)) _ (argmaxCode_ok n (by decide +kernel) (by decide +kernel) (by decide +kernel) (by decide +kernel))⟩

theorem predictSoftFunc_ok {name dtype ln : List Char} (hn : isName name = true) (hd : isType dtype = true) (hl : Nm ln) (n : Nat) (trees : List (List Char)) (ht : ∀ t ∈ trees, Nm t) :
    (predictSoftFunc name dtype ln n trees).Ok :=
  ⟨by simp [predictSoftFunc], tyInt32, nm_suffix hn (by decide +kernel) (by decide +kernel), by simp [predictSoftFunc, featureParams], featureParams_ok hd,
    ⟨by simp, tyFloat, nmOut, size_ok n, flat_ok (by decide +kernel)⟩,
    ⟨by simp, by decide +kernel, by decide +kernel, by simp, one_ok (by decide +kernel : isNum "0".toList = true)⟩,
    votesCode_ok _ trees (fun t h => voteSoftCode_ok n hl (ht t h)) _ (argmaxCode_ok n (by decide +kernel) (by decide +kernel) (by decide +kernel) (by decide +kernel))⟩

theorem zeroLoop_ok (k : Code) (hk : k.Ok) : (zeroLoop k).Ok :=
  ⟨by decide +kernel, nmI, trivial, (by decide +kernel : Nm "out_length".toList), ⟨nmOut, fun j hj => by cases hj; exact nmI, (by decide +kernel : isNum "0.0f".toList = true), trivial⟩, hk⟩

theorem meanLoop_ok (n : Nat) : (meanLoop n).Ok :=
  ⟨by decide +kernel, nmI, trivial, (by decide +kernel : Nm "out_length".toList), ⟨nmOut, fun j hj => by cases hj; exact nmI, ⟨by decide, trivial, ⟨nmOut, nmI⟩, trivial, isNum_showNat n⟩, trivial⟩,
    (by decide +kernel : isNum "0".toList = true), trivial⟩

theorem probaHardFunc_ok {name dtype : List Char} (hn : isName name = true) (hd : isType dtype = true) (trees : List (List Char)) (ht : ∀ t ∈ trees, Nm t) :
    (probaHardFunc name dtype trees).Ok :=
  ⟨by simp [probaHardFunc], tyInt, nm_suffix hn (by decide +kernel) (by decide +kernel), by simp [probaHardFunc, probaParams], probaParams_ok hd,
    ⟨by simp, by decide +kernel, by decide +kernel, by simp, one_ok ⟨trivial, (by decide +kernel : isNum "1".toList = true)⟩⟩,
    zeroLoop_ok _ (votesCode_ok _ trees (fun t h => voteProbaCode_ok (ht t h)) _ (meanLoop_ok _))⟩

theorem probaSoftFunc_ok {name dtype ln : List Char} (hn : isName name = true) (hd : isType dtype = true) (hl : Nm ln) (n : Nat) (trees : List (List Char)) (ht : ∀ t ∈ trees, Nm t) :
    (probaSoftFunc name dtype ln n trees).Ok :=
  ⟨by simp [probaSoftFunc], tyInt, nm_suffix hn (by decide +kernel) (by decide +kernel), by simp [probaSoftFunc, probaParams], probaParams_ok hd,
    ⟨by simp, by decide +kernel, by decide +kernel, by simp, one_ok (by decide +kernel : isNum "0".toList = true)⟩,
    zeroLoop_ok _ (votesCode_ok _ trees (fun t h => voteSoftCode_ok n hl (ht t h)) _ (meanLoop_ok _))⟩

/-! ### The whole inline program -/

/-- The array of leaf bytes. -/
def leavesDecl (name : List Char) (ws : List (List Char)) (bytes : List Nat) : MiniC.Decl :=
  ⟨ws, "uint8_t".toList, name ++ "_leaves".toList, some (showNat bytes.length), some (.flat (bytes.map fun (b : Nat) => litExpr (b : ℚ) "uint8_t".toList) false)⟩

theorem leavesDecl_ok {name : List Char} (hn : isName name = true) {ws : List (List Char)} (hws : ∀ w ∈ ws, isMod w = true) (bytes : List Nat) : (leavesDecl name ws bytes).Ok := by
  refine ⟨hws, by show isType "uint8_t".toList = true; decide +kernel, nm_suffix hn (by decide +kernel) (by decide +kernel), size_ok _, ?_⟩
  intro i hi
  cases hi
  refine ⟨?_, fun _ => rfl⟩
  intro e he
  obtain ⟨b, -, rfl⟩ := List.mem_map.1 he
  exact (litExpr_ok _ _).2

theorem isMod_word {w : List Char} (h : isMod w = true) : IsWord w := by
  simp only [isMod, Bool.or_eq_true, beq_iff_eq] at h
  rcases h with (rfl | rfl) | rfl <;> exact ⟨by decide +kernel, by decide +kernel, by decide +kernel⟩

theorem leaves_lexes {name : List Char} (hn : isName name = true) {ws : List (List Char)} (hws : ∀ w ∈ ws, isMod w = true) (bytes : List Nat) {text : List Char}
    (h : leavesText name ([' '].intercalate ws) bytes = some text) : Lexes text (leavesDecl name ws bytes).print := by
  unfold leavesText at h
  have := arrayDeclare_lexes (fun _ => []) (name ++ "_leaves".toList) "uint8_t".toList ws (bytes.map fun (b : Nat) => (b : ℚ)) text (isName_append hn (by decide +kernel))
    ⟨by decide +kernel, by decide +kernel⟩ (.inr (by decide +kernel)) (fun w hw => isMod_word (hws w hw)) (by rw [List.length_map]; exact h)
  rw [List.length_map, List.map_map] at this
  exact this

theorem leavesText_some (name modifiers : List Char) (bytes : List Nat) : ∃ text, leavesText name modifiers bytes = some text := by
  unfold leavesText arrayDeclare
  simp

/-- The functions of the forest. -/
def forestFuncs (name dtype : List Char) (nClasses : Nat) (leafBits : Int) (classifier includeProba : Bool) (trees : List (List Char)) : List Func :=
  if classifier then
    (if leafBits = 0 then predictHardFunc name dtype nClasses trees else predictSoftFunc name dtype (name ++ "_leaves".toList) nClasses trees) ::
      (if includeProba then [if leafBits = 0 then probaHardFunc name dtype trees else probaSoftFunc name dtype (name ++ "_leaves".toList) nClasses trees] else [])
  else [regressorFunc name dtype trees]

/-- The names of the tree functions. -/
def treeNames (name : List Char) (n : Nat) : List (List Char) := (List.range n).map (treeName name)

/-- The tree functions. -/
def treeFuncs (name dtype : List Char) (classifier : Bool) (codes : List (Stmt ℚ ℚ)) : List Func :=
  ((treeNames name codes.length).zip codes).map fun p =>
    treeFunc dtype (if classifier then "int".toList else "float".toList) (if classifier then "int32_t".toList else "float".toList) p.1 p.2

/-- The inline program. -/
def inlineProg (name dtype : List Char) (nClasses : Nat) (leafBits : Int) (classifier includeProba : Bool) (ws : List (List Char)) (bytes : List Nat) (codes : List (Stmt ℚ ℚ)) : Prog :=
  (treeFuncs name dtype classifier codes).map .func ++ ((if leafBits ≠ 0 then [Top.decl (leavesDecl name ws bytes)] else []) ++
    (forestFuncs name dtype nClasses leafBits classifier includeProba (treeNames name codes.length)).map .func)

theorem treeNames_nm {name : List Char} (hn : isName name = true) (n : Nat) : ∀ t ∈ treeNames name n, Nm t := by
  intro t ht
  obtain ⟨i, -, rfl⟩ := List.mem_map.1 ht
  exact nm_tree hn i

theorem forestFuncs_ok {name dtype : List Char} (hn : isName name = true) (hd : isType dtype = true) (n : Nat) (lb : Int) (c ip : Bool) (trees : List (List Char)) (ht : ∀ t ∈ trees, Nm t) :
    ∀ g ∈ forestFuncs name dtype n lb c ip trees, g.Ok := by
  have hl : Nm (name ++ "_leaves".toList) := nm_suffix hn (by decide +kernel) (by decide +kernel)
  intro g hg
  unfold forestFuncs at hg
  cases c with
  | false =>
    simp only [Bool.false_eq_true, if_false, List.mem_singleton] at hg
    subst hg
    exact regressorFunc_ok hn hd trees ht
  | true =>
    rw [if_pos rfl] at hg
    rcases List.mem_cons.1 hg with rfl | hg
    · split
      · exact predictHardFunc_ok hn hd n trees ht
      · exact predictSoftFunc_ok hn hd hl n trees ht
    · cases ip with
      | false => simp at hg
      | true =>
        simp only [if_true, List.mem_singleton] at hg
        subst hg
        split
        · exact probaHardFunc_ok hn hd trees ht
        · exact probaSoftFunc_ok hn hd hl n trees ht

theorem inlineProg_ok {name dtype : List Char} (hn : isName name = true) (hd : isType dtype = true) (n : Nat) (lb : Int) (c ip : Bool) (ws : List (List Char)) (hws : ∀ w ∈ ws, isMod w = true)
    (bytes : List Nat) (codes : List (Stmt ℚ ℚ)) : ∀ t ∈ inlineProg name dtype n lb c ip ws bytes codes, t.Ok := by
  intro t ht
  unfold inlineProg at ht
  rw [List.mem_append, List.mem_append] at ht
  rcases ht with ht | ht | ht
  · obtain ⟨g, hg, rfl⟩ := List.mem_map.1 ht
    obtain ⟨p, hp, rfl⟩ := List.mem_map.1 hg
    refine treeFunc_ok p.2 hd ?_ (treeNames_nm hn _ p.1 (List.of_mem_zip hp).1)
    cases c <;> decide +kernel
  · by_cases h0 : lb = 0
    · simp [h0] at ht
    · rw [if_pos h0, List.mem_singleton] at ht
      subst ht
      exact leavesDecl_ok hn hws bytes
  · obtain ⟨g, hg, rfl⟩ := List.mem_map.1 ht
    exact forestFuncs_ok hn hd n lb c ip _ (treeNames_nm hn _) g hg

theorem inlineTrees_length {Θ L R : Type} {f : Forest Θ L} {leafOf : Nat → Option R} {codes : List (Stmt Θ R)} (h : inlineTrees f leafOf = some codes) : codes.length = f.roots.length := by
  unfold inlineTrees at h
  have key : ∀ (l : List Nat) (out : List (Stmt Θ R)), l.mapM (fun (r : Nat) => inlineNode f.nodes leafOf f.nodes.length (r : Int)) = some out → out.length = l.length := by
    intro l
    induction l with
    | nil => intro out h; simp at h; subst h; rfl
    | cons a l ih =>
      intro out h
      rw [List.mapM_cons] at h
      cases h1 : inlineNode f.nodes leafOf f.nodes.length (a : Int) with
      | none => rw [h1] at h; simp at h
      | some b =>
        cases h2 : l.mapM (fun (r : Nat) => inlineNode f.nodes leafOf f.nodes.length (r : Int)) with
        | none => rw [h1, h2] at h; simp at h
        | some bs =>
          rw [h1, h2] at h
          simp at h
          subst h
          simp [ih bs h2]
  exact key _ _ h

/-- The text of `generate_c_inlined` is read as the inline program. -/
theorem inline_lexes {L : Type} (f : Forest ℚ L) (name : List Char) (nClasses : Nat) (leafBits : Int) (dtype : List Char) (classifier includeProba : Bool)
    (ws : List (List Char)) (num : L → ℚ) (bytes : List Nat) (text : List Char) (hnl : '\n' ∉ name) (hd : DType dtype) (hws : ∀ w ∈ ws, isMod w = true)
    (h : generateInlined f name nClasses leafBits dtype classifier includeProba ([' '].intercalate ws) num bytes = some text) :
    ∃ codes, inlineTrees f (leafValue f classifier leafBits num) = some codes ∧
      Lexes text (printProg (inlineProg name dtype nClasses leafBits classifier includeProba ws bytes codes)) ∧
      ∀ t ∈ inlineProg name dtype nClasses leafBits classifier includeProba ws bytes codes, t.Ok := by
  unfold generateInlined at h
  by_cases hv : assertValidIdentifier name = true
  swap
  · rw [if_neg hv] at h; cases h
  rw [if_pos hv] at h
  obtain ⟨lc, hlc⟩ := leavesText_some name ([' '].intercalate ws) bytes
  rw [hlc, Option.bind_some] at h
  cases hc : inlineTrees f (leafValue f classifier leafBits num) with
  | none => rw [hc] at h; cases h
  | some codes =>
    rw [hc, Option.map_some, Option.some.injEq] at h
    have hn := isName_of_valid hv hnl
    unfold inlineParts at h
    refine ⟨codes, rfl, ?_⟩
    have htn : ∀ t ∈ treeNames name codes.length, IsWord t := fun t ht => isName_word (treeNames_nm hn _ t ht).1
    have hln : IsWord (name ++ "_leaves".toList) := isName_word (isName_append hn (by decide +kernel))
    have hdw := isType_word hd.1
    -- the parts with their words
    have hhead := lexes_lits "\n    // !!! This file is generated using emlearn !!!\n\n    #include <stdint.h>\n    ".toList [] (by decide +kernel) (by decide +kernel)
    have hsep := lexes_lits "\n\n".toList [] (by decide +kernel) (by decide +kernel)
    generalize "\n    // !!! This file is generated using emlearn !!!\n\n    #include <stdint.h>\n    ".toList = head at h hhead
    generalize hsepe : "\n\n".toList = sep at h hsep
    let leafDtype := if classifier then "int".toList else "float".toList
    let returnType := if classifier then "int32_t".toList else "float".toList
    let trees := treeNames name codes.length
    let ptrees : List (List Char × List Tok) := (trees.zip codes).map fun p => (treeFuncText dtype leafDtype returnType p.1 p.2, (treeFunc dtype leafDtype returnType p.1 p.2).print)
    let pleaves : List (List Char × List Tok) := if leafBits ≠ 0 then [(lc, (leavesDecl name ws bytes).print)] else []
    let pfuncs : List (List Char × List Tok) := if classifier then
        (if leafBits = 0 then (predictHardText name dtype nClasses trees, (predictHardFunc name dtype nClasses trees).print)
          else (predictSoftText name dtype (name ++ "_leaves".toList) nClasses trees, (predictSoftFunc name dtype (name ++ "_leaves".toList) nClasses trees).print)) ::
        (if includeProba then [if leafBits = 0 then (probaHardText name dtype trees, (probaHardFunc name dtype trees).print)
          else (probaSoftText name dtype (name ++ "_leaves".toList) nClasses trees, (probaSoftFunc name dtype (name ++ "_leaves".toList) nClasses trees).print)] else [])
      else [(regressorText name dtype trees, (regressorFunc name dtype trees).print)]
    have hall : ∀ a ∈ ((head, []) :: ptrees ++ pleaves ++ pfuncs), Lexes a.1 a.2 := by
      intro a ha
      rw [List.mem_append, List.mem_append, List.mem_cons] at ha
      rcases ha with ((rfl | ha) | ha) | ha
      · exact hhead
      · obtain ⟨p, hp, rfl⟩ := List.mem_map.1 ha
        refine treeFunc_lexes dtype leafDtype returnType p.1 p.2 hd.2 ?_ hdw ?_ (htn _ (List.of_mem_zip hp).1)
        · cases classifier
          · exact .inl rfl
          · exact .inr (by show hasInt "int".toList = true; decide +kernel)
        · cases classifier
          · exact ⟨by show "float".toList ≠ []; decide +kernel, by show grows [] "float".toList = true ∧ ppExp "float".toList = false; decide +kernel⟩
          · exact ⟨by show "int32_t".toList ≠ []; decide +kernel, by show grows [] "int32_t".toList = true ∧ ppExp "int32_t".toList = false; decide +kernel⟩
      · by_cases h0 : leafBits = 0
        · simp [pleaves, h0] at ha
        · simp only [pleaves] at ha
          rw [if_pos h0, List.mem_singleton] at ha
          subst ha
          exact leaves_lexes hn hws bytes hlc
      · cases classifier with
        | false =>
          simp only [pfuncs, Bool.false_eq_true, if_false, List.mem_singleton] at ha
          subst ha
          exact regressor_lexes name dtype hn hdw trees htn
        | true =>
          simp only [pfuncs, if_true] at ha
          rcases List.mem_cons.1 ha with rfl | ha
          · split
            · exact predictHard_lexes name dtype hn hdw nClasses trees htn
            · exact predictSoft_lexes name dtype _ hn hdw hln nClasses trees htn
          · cases includeProba with
            | false => simp at ha
            | true =>
              simp only [if_true, List.mem_singleton] at ha
              subst ha
              split
              · exact probaHard_lexes name dtype hn hdw trees htn
              · exact probaSoft_lexes name dtype _ hn hdw hln nClasses trees htn
    have hj := lexes_join_pairs sep hsep _ hall
    have etext : text = sep.intercalate (((head, []) :: ptrees ++ pleaves ++ pfuncs).map (·.1)) := by
      rw [← h]
      congr 1
      have e1 : ptrees.map (·.1) = (trees.zip codes).map fun p => treeFuncText dtype leafDtype returnType p.1 p.2 := by simp only [ptrees, List.map_map]; rfl
      have e2 : pleaves.map (·.1) = if leafBits ≠ 0 then [lc] else [] := by simp only [pleaves]; split <;> rfl
      have e3 : pfuncs.map (·.1) = if classifier = true then [if leafBits = 0 then predictHardText name dtype nClasses trees else predictSoftText name dtype (name ++ "_leaves".toList) nClasses trees] ++
          (if includeProba = true then [if leafBits = 0 then probaHardText name dtype trees else probaSoftText name dtype (name ++ "_leaves".toList) nClasses trees] else [])
          else [regressorText name dtype trees] := by
        simp only [pfuncs]
        cases classifier <;> cases includeProba <;> by_cases h0 : leafBits = 0 <;> simp only [h0, if_true, if_false, Bool.false_eq_true] <;> rfl
      rw [List.map_append, List.map_append, List.map_cons, e1, e2, e3]
      rfl
    have etoks : ((head, []) :: ptrees ++ pleaves ++ pfuncs).flatMap (·.2) = printProg (inlineProg name dtype nClasses leafBits classifier includeProba ws bytes codes) := by
      have e1 : ptrees.flatMap (·.2) = printProg ((treeFuncs name dtype classifier codes).map .func) := by
        simp only [ptrees, treeFuncs, printProg, List.flatMap_map]; rfl
      have e2 : pleaves.flatMap (·.2) = printProg (if leafBits ≠ 0 then [Top.decl (leavesDecl name ws bytes)] else []) := by simp only [pleaves]; split <;> rfl
      have e3 : pfuncs.flatMap (·.2) = printProg ((forestFuncs name dtype nClasses leafBits classifier includeProba trees).map .func) := by
        simp only [pfuncs, forestFuncs]
        cases classifier <;> cases includeProba <;> by_cases h0 : leafBits = 0 <;> simp only [h0, if_true, if_false, Bool.false_eq_true] <;> rfl
      rw [List.flatMap_append, List.flatMap_append, List.flatMap_cons, e1, e2, e3, inlineProg, List.nil_append]
      simp only [printProg, List.flatMap_append, List.append_assoc]
      rfl
    have hlex : Lexes text (printProg (inlineProg name dtype nClasses leafBits classifier includeProba ws bytes codes)) := by rw [etext, ← etoks]; exact hj
    have hok := inlineProg_ok hn hd.1 nClasses leafBits classifier includeProba ws hws bytes codes
    exact ⟨hlex, hok⟩

theorem lexes_saveText {text : List Char} {ts : List Tok} (h : Lexes text ts) : Lexes (saveText text) ts := by
  have hsep := lexes_lits "\n\n".toList [] (by decide +kernel) (by decide +kernel)
  exact hsep.append h

theorem inline_parse {L : Type} (f : Forest ℚ L) (name : List Char) (nClasses : Nat) (leafBits : Int) (dtype : List Char) (classifier includeProba : Bool)
    (ws : List (List Char)) (num : L → ℚ) (bytes : List Nat) (text : List Char) (hnl : '\n' ∉ name) (hd : DType dtype) (hws : ∀ w ∈ ws, isMod w = true)
    (h : generateInlined f name nClasses leafBits dtype classifier includeProba ([' '].intercalate ws) num bytes = some text) :
    ∃ codes, inlineTrees f (leafValue f classifier leafBits num) = some codes ∧
      parse text = some (inlineProg name dtype nClasses leafBits classifier includeProba ws bytes codes) ∧
      parse (saveText text) = some (inlineProg name dtype nClasses leafBits classifier includeProba ws bytes codes) := by
  obtain ⟨codes, h1, hlex, hok⟩ := inline_lexes f name nClasses leafBits dtype classifier includeProba ws num bytes text hnl hd hws h
  exact ⟨codes, h1, parse_eq _ _ hok hlex.lex, parse_eq _ _ hok (lexes_saveText hlex).lex⟩
end Emlearn.Trees
