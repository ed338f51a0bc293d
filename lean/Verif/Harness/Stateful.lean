/- Callbacks of `common.py` that call a C function with its own global state (the activation buffers of a network): the state that one row leaves is what the next row finds. -/
import Verif.Harness.Call
namespace Emlearn.Harness
open Emlearn.MiniC
variable {F S : Type}

/-- `classify`, `common.py` 100-102, for a call that may be undefined and that changes the state `S` of the program. -/
def classifyS (call : S → List (Option ℚ) → Option (ℚ × S)) (st : Option (S × List Char)) (values : List (Option ℚ)) (row : Nat) : Option (S × List Char) :=
  match st with
  | none => none
  | some (s, out) => (call s values).map fun r => (r.2, out ++ (showNat row ++ ',' :: showFixed 6 r.1) ++ ['\n'])

/-- `CompiledClassifier.predict` with `out_dtype='float'` (`common.py` 182-187); `init` is the state at the start of the program. `none` is an exception, or no defined result. -/
def predictS (call : S → List (Option ℚ) → Option (ℚ × S)) (init : S) (X : List (List ℚ)) : Option (List ℚ) :=
  match (readCsv (classifyS call) (serialize X) (some (init, []))).1 with
  | none => none
  | some (_, out) => (mapOpt parsePrediction (outputLines out)).bind fun r => if r.length = X.length then some r else none

/-- The same with `out_dtype='int'`. -/
def predictIntS (call : S → List (Option ℚ) → Option (ℚ × S)) (init : S) (X : List (List ℚ)) : Option (List Int) :=
  match (readCsv (classifyS call) (serialize X) (some (init, []))).1 with
  | none => none
  | some (_, out) => (mapOpt (fun l => (parsePrediction l).map pyInt) (outputLines out)).bind fun r => if r.length = X.length then some r else none

/-- The values of the row for a call on `float` values. -/
def callS (read : ℚ → F) (call : S → List F → Option (ℚ × S)) (s : S) (values : List (Option ℚ)) : Option (ℚ × S) := (given read values).bind (call s)

theorem foldValues_classifyS (call : S → List (Option ℚ) → Option (ℚ × S)) (g : List (Option ℚ) → ℚ) (I : S → Prop) (row : Nat) (vs : List (List (Option ℚ)))
    (h : ∀ v ∈ vs, ∀ s, I s → ∃ s', call s v = some (g v, s') ∧ I s') (s : S) (hs : I s) (out : List Char) :
    ∃ s', foldValues (classifyS call) row vs (some (s, out)) = some (s', foldValues (classify g) row vs out) := by
  induction vs generalizing row s out with
  | nil => exact ⟨s, rfl⟩
  | cons v vs ih =>
    obtain ⟨s', h1, h2⟩ := h v (by simp) s hs
    obtain ⟨s'', h3⟩ := ih (row + 1) (fun v hv => h v (by simp [hv])) s' h2 (classify g out v row)
    refine ⟨s'', ?_⟩
    rw [foldValues, foldValues, classifyS, h1, Option.map_some, ← h3]
    rfl

theorem foldValues_classifyS_none (call : S → List (Option ℚ) → Option (ℚ × S)) (row : Nat) (vs : List (List (Option ℚ))) : foldValues (classifyS call) row vs none = none := by
  induction vs generalizing row with
  | nil => rfl
  | cons v vs ih => exact ih (row + 1)

variable (read : ℚ → F) (call : S → List F → Option (ℚ × S)) (init : S) (I : S → Prop) (hi : I init) (X : List (List ℚ)) (hX : ∀ r ∈ X, r ≠ []) (hf : Fits X)

include hi hX hf in
/-- Every row is answered by a function of its values, whatever the state: the numbers printed, in order. -/
theorem predictS_rows (g : List F → ℚ) (h : ∀ row ∈ X, ∀ s, I s → ∃ s', call s (row.map (seen read)) = some (g (row.map (seen read)), s') ∧ I s') :
    predictS (callS read call) init X = some (X.map fun row => fixedValue 6 (g (row.map (seen read)))) := by
  obtain ⟨G, hG⟩ : ∃ G : List (Option ℚ) → ℚ, G = fun v => g ((given read v).getD []) := ⟨_, rfl⟩
  have hGr : ∀ row, G (received row) = g (row.map (seen read)) := fun row => by rw [hG]; simp only [given_received, Option.getD_some]
  have e := (C56_predict G X hX).1 hf
  simp only [hGr] at e
  rw [← e]
  unfold predictS predict
  rw [readCsv_values _ X hX hf, readCsv_values _ X hX hf]
  obtain ⟨s', h1⟩ := foldValues_classifyS (callS read call) G I 0 (X.map received) (by
    intro v hv s hs
    obtain ⟨row, hr, rfl⟩ := List.mem_map.1 hv
    obtain ⟨s', h1, h2⟩ := h row hr s hs
    refine ⟨s', ?_, h2⟩
    unfold callS
    rw [given_received, Option.bind_some, h1, hGr]) init hi []
  rw [h1]

include hi hX hf in
theorem predictIntS_rows (g : List F → Int) (h : ∀ row ∈ X, ∀ s, I s → ∃ s', call s (row.map (seen read)) = some ((g (row.map (seen read)) : ℚ), s') ∧ I s') :
    predictIntS (callS read call) init X = some (X.map fun row => g (row.map (seen read))) := by
  obtain ⟨G, hG⟩ : ∃ G : List (Option ℚ) → Int, G = fun v => g ((given read v).getD []) := ⟨_, rfl⟩
  have hGr : ∀ row, G (received row) = g (row.map (seen read)) := fun row => by rw [hG]; simp only [given_received, Option.getD_some]
  have e := (C56_predict_classes G X hX).1 hf
  simp only [hGr] at e
  rw [← e]
  unfold predictIntS predictInt
  rw [readCsv_values _ X hX hf, readCsv_values _ X hX hf]
  obtain ⟨s', h1⟩ := foldValues_classifyS (callS read call) (fun v => (G v : ℚ)) I 0 (X.map received) (by
    intro v hv s hs
    obtain ⟨row, hr, rfl⟩ := List.mem_map.1 hv
    obtain ⟨s', h1, h2⟩ := h row hr s hs
    refine ⟨s', ?_, h2⟩
    unfold callS
    rw [given_received, Option.bind_some, h1, hGr]) init hi []
  rw [h1]

include hX hf in
/-- The call is undefined for the first row: there is no result. -/
theorem predictS_first_bad (row : List ℚ) (hr : X.head? = some row) (h : call init (row.map (seen read)) = none) : predictS (callS read call) init X = none := by
  unfold predictS
  rw [readCsv_values _ X hX hf]
  cases X with
  | nil => cases hr
  | cons r X =>
    simp only [List.head?_cons, Option.some.injEq] at hr
    subst hr
    rw [List.map_cons, foldValues, classifyS, callS, given_received, Option.bind_some, h, Option.map_none, foldValues_classifyS_none]

end Emlearn.Harness
