/- The harness of `common.py` around a compiled function that may have no defined result (undefined behaviour in C). -/
import Verif.Props.Harness
namespace Emlearn.Harness

/-- `classify`, `common.py` 100-102, when the call may be undefined: the program then has no defined output. -/
def classifyU (func : List (Option ℚ) → Option ℚ) (out : Option (List Char)) (values : List (Option ℚ)) (row : Nat) : Option (List Char) :=
  match out, func values with
  | some o, some q => some (o ++ (showNat row ++ ',' :: showFixed 6 q) ++ ['\n'])
  | _, _ => none

/-- `CompiledClassifier.predict` with `out_dtype='float'` (`common.py` 182-187): `none` is an exception, or no defined result. -/
def predictU (func : List (Option ℚ) → Option ℚ) (X : List (List ℚ)) : Option (List ℚ) :=
  match (readCsv (classifyU func) (serialize X) (some [])).1 with
  | none => none
  | some out => (mapOpt parsePrediction (outputLines out)).bind fun r => if r.length = X.length then some r else none

/-- The same with `out_dtype='int'`. -/
def predictIntU (func : List (Option ℚ) → Option ℚ) (X : List (List ℚ)) : Option (List Int) :=
  match (readCsv (classifyU func) (serialize X) (some [])).1 with
  | none => none
  | some out => (mapOpt (fun l => (parsePrediction l).map pyInt) (outputLines out)).bind fun r => if r.length = X.length then some r else none

/-- `classify_proba`, `common.py` 83-89, when the call may be undefined. `A` is what the global array `outputs` can hold, `vals` its numbers. -/
def classifyProbaU {A : Type} (func : List (Option ℚ) → A → Option A) (vals : A → List ℚ) (st : Option (A × List Char)) (values : List (Option ℚ)) (row : Nat) : Option (A × List Char) :=
  match st with
  | none => none
  | some (a, out) => (func values a).map fun a' => (a', out ++ probaLines row 0 (vals a'))

/-- `CompiledClassifier.predict_proba`, `common.py` 189-205. -/
def predictProbaU {A : Type} (func : List (Option ℚ) → A → Option A) (vals : A → List ℚ) (init : A) (nClasses : Nat) (X : List (List ℚ)) : Option (Nat → Nat → Option ℚ) :=
  match (readCsv (classifyProbaU func vals) (serialize X) (some (init, []))).1 with
  | none => none
  | some (_, out) => (mapOpt parseProba (outputLines out)).bind fun r => fillProba X.length nClasses r (fun _ _ => none)

/-- The calls of the callback, with the values of each row. -/
def foldValues {S : Type} (cb : S → List (Option ℚ) → Nat → S) : Nat → List (List (Option ℚ)) → S → S
  | _, [], st => st
  | row, v :: vs, st => foldValues cb (row + 1) vs (cb st v row)

theorem foldRows_values {S : Type} (cb : S → List (Option ℚ) → Nat → S) (row : Nat) (bs : List (List Char)) (st : S) :
    foldRows cb row bs st = foldValues cb row (bs.map fun b => (strtok b []).map scanFloat) st := by
  induction bs generalizing row st with
  | nil => rfl
  | cons b bs ih => simp [foldRows, foldValues, ih]

theorem readCsv_values {S : Type} (cb : S → List (Option ℚ) → Nat → S) (X : List (List ℚ)) (hX : ∀ r ∈ X, r ≠ []) (hf : Fits X) (st : S) :
    (readCsv cb (serialize X) st).1 = foldValues cb 0 (X.map received) st := by
  rw [readCsv_fold cb X hX st]
  simp only []
  rw [foldRows_values, (chunks_serialize X hX).1 hf, tokens_lines X hX]
  rfl

theorem foldValues_classifyU_none (func : List (Option ℚ) → Option ℚ) (row : Nat) (vs : List (List (Option ℚ))) : foldValues (classifyU func) row vs none = none := by
  induction vs generalizing row with
  | nil => rfl
  | cons v vs ih => exact ih (row + 1)

theorem foldValues_classifyU (func : List (Option ℚ) → Option ℚ) (g : List (Option ℚ) → ℚ) (row : Nat) (vs : List (List (Option ℚ))) (h : ∀ v ∈ vs, func v = some (g v)) (out : List Char) :
    foldValues (classifyU func) row vs (some out) = some (foldValues (classify g) row vs out) := by
  induction vs generalizing row out with
  | nil => rfl
  | cons v vs ih =>
    have e : classifyU func (some out) v row = some (classify g out v row) := by unfold classifyU; rw [h v (by simp)]; rfl
    rw [foldValues, foldValues, e]
    exact ih (row + 1) (fun v hv => h v (by simp [hv])) _

theorem foldValues_classifyU_bad (func : List (Option ℚ) → Option ℚ) (row : Nat) (vs : List (List (Option ℚ))) (h : ∃ v ∈ vs, func v = none) (out : Option (List Char)) :
    foldValues (classifyU func) row vs out = none := by
  induction vs generalizing row out with
  | nil => obtain ⟨v, hv, -⟩ := h; cases hv
  | cons v vs ih =>
    rw [foldValues]
    by_cases hv : func v = none
    · have : classifyU func out v row = none := by unfold classifyU; rw [hv]; cases out <;> rfl
      rw [this, foldValues_classifyU_none]
    · refine ih (row + 1) ?_ _
      obtain ⟨w, hw, e⟩ := h
      rcases List.mem_cons.1 hw with rfl | hw
      · exact absurd e hv
      · exact ⟨w, hw, e⟩

theorem predictU_eq (func : List (Option ℚ) → Option ℚ) (g : List (Option ℚ) → ℚ) (X : List (List ℚ)) (hX : ∀ r ∈ X, r ≠ []) (hf : Fits X) (h : ∀ r ∈ X, func (received r) = some (g (received r))) :
    predictU func X = some (X.map fun row => fixedValue 6 (g (received row))) := by
  rw [← (C56_predict g X hX).1 hf]
  unfold predictU predict
  rw [readCsv_values _ X hX hf, readCsv_values _ X hX hf, foldValues_classifyU func g]
  intro v hv
  obtain ⟨r, hr, rfl⟩ := List.mem_map.1 hv
  exact h r hr

theorem predictIntU_eq (func : List (Option ℚ) → Option ℚ) (g : List (Option ℚ) → Int) (X : List (List ℚ)) (hX : ∀ r ∈ X, r ≠ []) (hf : Fits X) (h : ∀ r ∈ X, func (received r) = some (g (received r) : ℚ)) :
    predictIntU func X = some (X.map fun row => g (received row)) := by
  rw [← (C56_predict_classes g X hX).1 hf]
  unfold predictIntU predictInt
  rw [readCsv_values _ X hX hf, readCsv_values _ X hX hf, foldValues_classifyU func (fun v => (g v : ℚ))]
  intro v hv
  obtain ⟨r, hr, rfl⟩ := List.mem_map.1 hv
  exact h r hr

theorem predictIntU_bad (func : List (Option ℚ) → Option ℚ) (X : List (List ℚ)) (hX : ∀ r ∈ X, r ≠ []) (hf : Fits X) (h : ∃ r ∈ X, func (received r) = none) : predictIntU func X = none := by
  unfold predictIntU
  rw [readCsv_values _ X hX hf, foldValues_classifyU_bad]
  obtain ⟨r, hr, e⟩ := h
  exact ⟨_, List.mem_map_of_mem hr, e⟩

theorem predictU_bad (func : List (Option ℚ) → Option ℚ) (X : List (List ℚ)) (hX : ∀ r ∈ X, r ≠ []) (hf : Fits X) (h : ∃ r ∈ X, func (received r) = none) : predictU func X = none := by
  unfold predictU
  rw [readCsv_values _ X hX hf, foldValues_classifyU_bad]
  obtain ⟨r, hr, e⟩ := h
  exact ⟨_, List.mem_map_of_mem hr, e⟩

theorem foldValues_probaU {A : Type} (func : List (Option ℚ) → A → Option A) (vals : A → List ℚ) (P : A → Prop) (g : List (Option ℚ) → List ℚ) (row : Nat) (vs : List (List (Option ℚ)))
    (h : ∀ v ∈ vs, ∀ a, P a → ∃ a', func v a = some a' ∧ P a' ∧ vals a' = g v) (a : A) (ha : P a) (o : List ℚ) (out : List Char) :
    ∃ a', foldValues (classifyProbaU func vals) row vs (some (a, out)) = some (a', (foldValues (classifyProba fun v _ => g v) row vs (o, out)).2) := by
  induction vs generalizing row a o out with
  | nil => exact ⟨a, rfl⟩
  | cons v vs ih =>
    obtain ⟨a', h1, h2, h3⟩ := h v (by simp) a ha
    obtain ⟨a'', h4⟩ := ih (row + 1) (fun v hv => h v (by simp [hv])) a' h2 (g v) (out ++ probaLines row 0 (vals a'))
    refine ⟨a'', ?_⟩
    rw [foldValues, foldValues, classifyProbaU, h1, Option.map_some, h4, classifyProba, h3]

theorem predictProbaU_eq {A : Type} (func : List (Option ℚ) → A → Option A) (vals : A → List ℚ) (init : A) (P : A → Prop) (hi : P init) (nClasses : Nat) (hk : 0 < nClasses) (g : List (Option ℚ) → List ℚ)
    (hg : ∀ v, (g v).length = nClasses) (X : List (List ℚ)) (hX : ∀ r ∈ X, r ≠ []) (hf : Fits X)
    (h : ∀ r ∈ X, ∀ a, P a → ∃ a', func (received r) a = some a' ∧ P a' ∧ vals a' = g (received r)) :
    ∃ (m : Nat → Nat → Option ℚ), predictProbaU func vals init nClasses X = some m ∧ ∀ (row cls : Nat) (r : List ℚ), X[row]? = some r → cls < nClasses →
      ∃ (p : ℚ), (g (received r))[cls]? = some p ∧ m row cls = some (fixedValue 6 p) := by
  obtain ⟨m, h1, h2⟩ := C57_predict_proba_success g nClasses hk hg X hX hf
  refine ⟨m, ?_, h2⟩
  rw [← h1]
  unfold predictProbaU predictProba
  rw [readCsv_values _ X hX hf, readCsv_values _ X hX hf]
  obtain ⟨a', h3⟩ := foldValues_probaU func vals P g 0 (X.map received) (by
    intro v hv
    obtain ⟨r, hr, rfl⟩ := List.mem_map.1 hv
    exact h r hr) init hi (List.replicate nClasses 0) []
  rw [h3]

end Emlearn.Harness
