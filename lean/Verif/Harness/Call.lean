/- A call of a C function from the callbacks of `common.py`: the values of a row go to the function as an array of `float` and its length. -/
import Verif.Harness.Partial
import Verif.MiniC.Call
namespace Emlearn.Harness
open Emlearn.MiniC
variable {F : Type}

/-- A value of the matrix as the compiled program has it: printed with 8 decimals (`common.py` 124-125), read by `sscanf(.., "%f", ..)` (`eml_test.h` 39, the function `read`). -/
def seen (read : ℚ → F) (x : ℚ) : F := read (fixedValue 8 x)

/-- The array `values` of the callback; an indeterminate value has no meaning. -/
def given (read : ℚ → F) (values : List (Option ℚ)) : Option (List F) := mapOpt (fun v => v.map read) values

/-- The arguments `values, length` of a call in the callback (`common.py` 84, 101). -/
def rowArgs (vs : List F) : List (ArgVal F) := [.arr "float".toList (vs.map fun x => some (.flt x)), .num (.int vs.length)]

/-- `(double){func}` in `classify` (`common.py` 100-102) for a function with an integer result. `call` is the call on the values of the row. -/
def callInt (read : ℚ → F) (call : List F → Option (CallResult F)) (values : List (Option ℚ)) : Option ℚ :=
  match given read values with
  | none => none
  | some vs =>
    match call vs with
    | some (.int z, _) => some (z : ℚ)
    | _ => none

/-- The same for a `float` result; `val` is the value of a finite `float`. -/
def callFlt (read : ℚ → F) (val : F → ℚ) (call : List F → Option (CallResult F)) (values : List (Option ℚ)) : Option ℚ :=
  match given read values with
  | none => none
  | some vs =>
    match call vs with
    | some (.flt y, _) => some (val y)
    | _ => none

/-- `{func};` in `classify_proba` (`common.py` 83-84): the array `outputs` afterwards, for a call whose only written argument is `outputs`; the result is not looked at. -/
def callProba (read : ℚ → F) (call : List F → List (Option (Val F)) → Option (CallResult F)) (values : List (Option ℚ)) (outs : List (Option (Val F))) : Option (List (Option (Val F))) :=
  match given read values with
  | none => none
  | some vs =>
    match call vs outs with
    | some (_, [(_, outs')]) => some outs'
    | some (_, []) => some outs
    | _ => none

/-- The numbers in the array `outputs`. -/
def outputVals (val : F → ℚ) (outs : List (Option (Val F))) : List ℚ := outs.map fun v => match v with | some (.flt y) => val y | some (.int z) => z | none => 0

theorem given_received (read : ℚ → F) (row : List ℚ) : given read (received row) = some (row.map (seen read)) := by
  unfold given received
  induction row with
  | nil => rfl
  | cons x row ih => simp only [List.map_cons, mapOpt, Option.map_some, ih]; rfl

theorem callInt_row (read : ℚ → F) (call : List F → Option (CallResult F)) (row : List ℚ) (z : Int) (w : List (Nat × List (Option (Val F)))) (h : call (row.map (seen read)) = some (.int z, w)) :
    callInt read call (received row) = some (z : ℚ) := by
  unfold callInt
  rw [given_received]
  simp only []
  rw [h]

theorem callFlt_row (read : ℚ → F) (val : F → ℚ) (call : List F → Option (CallResult F)) (row : List ℚ) (y : F) (w : List (Nat × List (Option (Val F)))) (h : call (row.map (seen read)) = some (.flt y, w)) :
    callFlt read val call (received row) = some (val y) := by
  unfold callFlt
  rw [given_received]
  simp only []
  rw [h]

theorem callInt_none (read : ℚ → F) (call : List F → Option (CallResult F)) (row : List ℚ) (h : call (row.map (seen read)) = none) : callInt read call (received row) = none := by
  unfold callInt
  rw [given_received]
  simp only []
  rw [h]

theorem callFlt_none (read : ℚ → F) (val : F → ℚ) (call : List F → Option (CallResult F)) (row : List ℚ) (h : call (row.map (seen read)) = none) : callFlt read val call (received row) = none := by
  unfold callFlt
  rw [given_received]
  simp only []
  rw [h]

/-- Every row is answered: the predictions, in order. -/
theorem predictInt_rows (read : ℚ → F) (call : List F → Option (CallResult F)) (X : List (List ℚ)) (hX : ∀ r ∈ X, r ≠ []) (hf : Fits X) (P : List ℚ → Int → Prop)
    (h : ∀ row ∈ X, ∃ z w, call (row.map (seen read)) = some (.int z, w) ∧ P row z) :
    ∃ preds, predictIntU (callInt read call) X = some preds ∧ List.Forall₂ P X preds := by
  refine ⟨X.map fun row => (fun v => ((callInt read call v).getD 0).num) (received row), predictIntU_eq (callInt read call) (fun v => ((callInt read call v).getD 0).num) X hX hf ?_, ?_⟩
  · intro r hr
    obtain ⟨z, w, h1, -⟩ := h r hr
    rw [callInt_row read call r z w h1]
    simp
  · rw [List.forall₂_map_right_iff]
    refine List.forall₂_same.2 fun row hr => ?_
    obtain ⟨z, w, h1, h2⟩ := h row hr
    show P row ((callInt read call (received row)).getD 0).num
    rw [callInt_row read call row z w h1]
    simpa using h2

theorem predictFlt_rows (read : ℚ → F) (val : F → ℚ) (call : List F → Option (CallResult F)) (X : List (List ℚ)) (hX : ∀ r ∈ X, r ≠ []) (hf : Fits X) (P : List ℚ → F → Prop)
    (h : ∀ row ∈ X, ∃ y w, call (row.map (seen read)) = some (.flt y, w) ∧ P row y) :
    ∃ preds, predictU (callFlt read val call) X = some preds ∧ List.Forall₂ (fun row q => ∃ y, P row y ∧ q = fixedValue 6 (val y)) X preds := by
  refine ⟨X.map fun row => fixedValue 6 ((fun v => (callFlt read val call v).getD 0) (received row)), predictU_eq (callFlt read val call) (fun v => (callFlt read val call v).getD 0) X hX hf ?_, ?_⟩
  · intro r hr
    obtain ⟨y, w, h1, -⟩ := h r hr
    rw [callFlt_row read val call r y w h1]
    rfl
  · rw [List.forall₂_map_right_iff]
    refine List.forall₂_same.2 fun row hr => ?_
    obtain ⟨y, w, h1, h2⟩ := h row hr
    refine ⟨y, h2, ?_⟩
    show fixedValue 6 ((callFlt read val call (received row)).getD 0) = _
    rw [callFlt_row read val call row y w h1]
    rfl

/-- Some row has no defined answer: there is no result. -/
theorem predictInt_bad (read : ℚ → F) (call : List F → Option (CallResult F)) (X : List (List ℚ)) (hX : ∀ r ∈ X, r ≠ []) (hf : Fits X) (h : ∃ row ∈ X, call (row.map (seen read)) = none) :
    predictIntU (callInt read call) X = none := by
  obtain ⟨row, hr, h⟩ := h
  exact predictIntU_bad _ X hX hf ⟨row, hr, callInt_none read call row h⟩

theorem predictFlt_bad (read : ℚ → F) (val : F → ℚ) (call : List F → Option (CallResult F)) (X : List (List ℚ)) (hX : ∀ r ∈ X, r ≠ []) (hf : Fits X) (h : ∃ row ∈ X, call (row.map (seen read)) = none) :
    predictU (callFlt read val call) X = none := by
  obtain ⟨row, hr, h⟩ := h
  exact predictU_bad _ X hX hf ⟨row, hr, callFlt_none read val call row h⟩

/-- Probabilities: every call fills `outputs`. -/
theorem predictProba_rows (read : ℚ → F) (val : F → ℚ) (call : List F → List (Option (Val F)) → Option (CallResult F)) (zero : F) (nClasses : Nat) (hk : 0 < nClasses) (X : List (List ℚ))
    (hX : ∀ r ∈ X, r ≠ []) (hf : Fits X) (g : List F → List F)
    (h : ∀ row ∈ X, ∀ outs : List (Option (Val F)), outs.length = nClasses → ∃ r i, call (row.map (seen read)) outs = some (r, [(i, (g (row.map (seen read))).map fun y => some (.flt y))]) ∧ (g (row.map (seen read))).length = nClasses) :
    ∃ m, predictProbaU (callProba read call) (outputVals val) (List.replicate nClasses (some (.flt zero))) nClasses X = some m ∧
      ∀ (i c : Nat) (row : List ℚ), X[i]? = some row → ∀ y, (g (row.map (seen read)))[c]? = some y → m i c = some (fixedValue 6 (val y)) := by
  have hgv : ∀ row, (given read (received row)).getD [] = row.map (seen read) := fun row => by rw [given_received]; rfl
  obtain ⟨G, hG⟩ : ∃ G : List (Option ℚ) → List ℚ, G = fun v => if (g ((given read v).getD [])).length = nClasses then (g ((given read v).getD [])).map val else List.replicate nClasses 0 := ⟨_, rfl⟩
  have hGr : ∀ row ∈ X, G (received row) = (g (row.map (seen read))).map val := by
    intro row hr
    obtain ⟨_, _, -, hl⟩ := h row hr (List.replicate nClasses none) (by simp)
    rw [hG]
    simp only [hgv]
    rw [if_pos hl]
  obtain ⟨m, h1, h2⟩ := predictProbaU_eq (callProba read call) (outputVals val) (List.replicate nClasses (some (.flt zero))) (fun a => a.length = nClasses) (by simp) nClasses hk
    G (by intro v; rw [hG]; simp only []; split_ifs with hl <;> simp [hl]) X hX hf (by
      intro row hr a ha
      obtain ⟨r, i, h3, h4⟩ := h row hr a ha
      refine ⟨(g (row.map (seen read))).map fun y => some (.flt y), ?_, by simp [h4], ?_⟩
      · unfold callProba
        rw [given_received]
        simp only []
        rw [h3]
      · rw [hGr row hr]
        unfold outputVals
        rw [List.map_map]
        rfl)
  refine ⟨m, h1, fun i c row hi y hy => ?_⟩
  have hr : row ∈ X := List.mem_of_getElem? hi
  obtain ⟨_, _, -, hl⟩ := h row hr (List.replicate nClasses none) (by simp)
  have hc : c < nClasses := by rw [← hl]; exact (List.getElem?_eq_some_iff.1 hy).1
  obtain ⟨p, h3, h4⟩ := h2 i c row hi hc
  rw [hGr row hr, List.getElem?_map, hy] at h3
  cases h3
  exact h4

end Emlearn.Harness
