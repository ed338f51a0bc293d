/- `predict`, `predict_proba` and regression of a converted tree model, called from Python: the generated code with the functions of `Wrapper._build_classifier` (`trees.py` 744-846),
compiled and run by `common.CompiledClassifier` (Harness). -/
import Verif.Trees.TextWrapRun
import Verif.Trees.TextRun
import Verif.Harness.Partial
namespace Emlearn.Trees
open Emlearn.Cgen Emlearn.MiniC Emlearn.Harness
variable {F : Type}

/-- The `float` that the program has for a value of the matrix: printed with eight decimals (`common.py` 127-128), read by `sscanf("%f")` (`read`). -/
def seen (read : ℚ → F) (x : ℚ) : F := read (fixedValue 8 x)

/-- The features of a row in the type of the model (`features[i] = (dtype)values[i]`, `trees.py` 765-767): the numbers themselves, or their integer parts; `none` when the integer part of one is not a value of
the type, which C leaves undefined. -/
def rowInput (ops : CFloat F) (read : ℚ → F) (dtype : List Char) (row : List ℚ) : Option (Input F) :=
  if dtype = "float".toList then some (.floats (row.map (seen read)))
  else
    match intRange dtype with
    | none => none
    | some r => (mapOpt (fun x => (ops.toInt (seen read x)).bind fun z => if r.1 ≤ z ∧ z ≤ r.2 then some z else none) row).map .ints

/-- The array `values` of the callback; an indeterminate value has no meaning. -/
def given (read : ℚ → F) (values : List (Option ℚ)) : Option (List F) := mapOpt (fun v => v.map read) values

section
variable (ops : CFloat F) (decode : List Nat → Nat → Option F) (nan : F) (fuel depth : Nat) (read : ℚ → F) (val : F → ℚ)

/-- `predict_wrapper(values, length)` in the compiled program, as a number (`(double)` in `common.py` 101). -/
def predictCall (prog : Prog) (values : List (Option ℚ)) : Option ℚ :=
  match given read values with
  | none => none
  | some vs =>
    match callFunc ops (treesLib ops decode nan prog) prog fuel depth "predict_wrapper".toList [.arr "float".toList (vs.map fun x => some (.flt x)), .num (.int vs.length)] with
    | some (.int z, _) => some (z : ℚ)
    | _ => none

/-- `regress_wrapper(values, length)`; `val` is the value of a finite `float`. -/
def regressCall (prog : Prog) (values : List (Option ℚ)) : Option ℚ :=
  match given read values with
  | none => none
  | some vs =>
    match callFunc ops (treesLib ops decode nan prog) prog fuel depth "regress_wrapper".toList [.arr "float".toList (vs.map fun x => some (.flt x)), .num (.int vs.length)] with
    | some (.flt y, _) => some (val y)
    | _ => none

/-- `predict_proba_wrapper(values, length, outputs, N_CLASSES)`: the array `outputs` afterwards; the returned error is not looked at (`common.py` 84). -/
def probaCall (nClasses : Nat) (prog : Prog) (values : List (Option ℚ)) (outs : List (Option (Val F))) : Option (List (Option (Val F))) :=
  match given read values with
  | none => none
  | some vs =>
    match callFunc ops (treesLib ops decode nan prog) prog fuel depth "predict_proba_wrapper".toList
        [.arr "float".toList (vs.map fun x => some (.flt x)), .num (.int vs.length), .arr "float".toList outs, .num (.int nClasses)] with
    | some (_, [(_, outs')]) => some outs'
    | _ => none

/-- The numbers in the array `outputs` (it starts with zeros, and generated code stores `float` values only). -/
def outputVals (outs : List (Option (Val F))) : List ℚ := outs.map fun v => match v with | some (.flt y) => val y | some (.int z) => z | none => 0

/-- `Wrapper.predict` of a classifier (`trees.py` 825-835) on the generated code `saved`: `none` is an exception or undefined behaviour of the compiled program. -/
def pyPredict (saved dtype : List Char) (nFeatures : Nat) (X : List (List ℚ)) : Option (List Int) :=
  match parse (wrapCode true saved dtype nFeatures) with
  | none => none
  | some prog => predictIntU (predictCall ops decode nan fuel depth read prog) X

/-- `Wrapper.predict` of a regressor. -/
def pyRegress (saved dtype : List Char) (nFeatures : Nat) (X : List (List ℚ)) : Option (List ℚ) :=
  match parse (wrapCode false saved dtype nFeatures) with
  | none => none
  | some prog => predictU (regressCall ops decode nan fuel depth read val prog) X

/-- `Wrapper.predict_proba` (`trees.py` 837-846). -/
def pyProba (saved dtype : List Char) (nFeatures nClasses : Nat) (X : List (List ℚ)) : Option (Nat → Nat → Option ℚ) :=
  match parse (wrapCode true saved dtype nFeatures) with
  | none => none
  | some prog => predictProbaU (probaCall ops decode nan fuel depth read nClasses prog) (outputVals val) (List.replicate nClasses (some (.flt ops.zero))) nClasses X

end

/-! ### The library in the extended program -/

theorem takeWhile_append_stop {α : Type} (q : α → Bool) (l m : List α) (h : ∃ a ∈ l, q a = false) : (l ++ m).takeWhile q = l.takeWhile q := by
  induction l with
  | nil => obtain ⟨a, ha, -⟩ := h; cases ha
  | cons b l ih =>
    rw [List.cons_append, List.takeWhile_cons, List.takeWhile_cons]
    by_cases hb : q b = true
    · rw [if_pos hb, if_pos hb, ih]
      obtain ⟨a, ha, e⟩ := h
      rcases List.mem_cons.1 ha with rfl | ha
      · rw [e] at hb; cases hb
      · exact ⟨a, ha, e⟩
    · rw [if_neg hb, if_neg hb]

theorem readTrees_funcs (ops : CFloat F) (p : Prog) (q : List Func) (g : List Char) : readTrees ops (p ++ q.map .func) g = readTrees ops p g := by
  unfold readTrees
  rw [findDecl_funcs]
  cases h : findDecl p g with
  | none => rfl
  | some d =>
    have : before (p ++ q.map .func) g = before p g := by
      unfold before
      refine takeWhile_append_stop _ _ _ ?_
      unfold findDecl at h
      obtain ⟨t, ht, e⟩ := List.exists_of_findSome?_eq_some h
      refine ⟨t, ht, ?_⟩
      cases t with
      | decl d' =>
        simp only at e ⊢
        split at e
        · rename_i hn; simp [hn]
        · cases e
      | func f => cases e
    rw [this]

theorem treesLib_funcs (ops : CFloat F) (decode : List Nat → Nat → Option F) (nan : F) (p : Prog) (q : List Func) : treesLib ops decode nan (p ++ q.map .func) = treesLib ops decode nan p := by
  funext f args
  unfold treesLib
  simp only [readTrees_funcs]

theorem treesLib_other (ops : CFloat F) (decode : List Nat → Nat → Option F) (nan : F) (p : Prog) (f : List Char)
    (h : f ≠ "eml_trees_predict".toList ∧ f ≠ "eml_trees_regress1".toList ∧ f ≠ "eml_trees_predict_proba".toList) (args : List (ArgVal F)) : treesLib ops decode nan p f args = none := by
  obtain ⟨h1, h2, h3⟩ := h
  unfold treesLib
  simp only [h1, h2, h3, false_and, if_false]
  repeat' split
  all_goals first | rfl | (exfalso; simp_all; done) | skip

end Emlearn.Trees
