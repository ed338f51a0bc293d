/- Property C64: `eml_error_str`. -/
import Verif.Common
namespace Emlearn.ErrorStr

/-- `eml_error_strs`, `eml_common.h` 30-38. -/
def errorStrs : List String := ["OK", "SizeMismatch", "Uninitialized", "Unsupported", "Postcondition failed", "Unknown error"]

/-- `eml_error_valid`, `eml_common.h` 40-43 (`EmlErrors` = 6). -/
def errorValid (e : Int) : Bool := decide (e ≥ 0) && decide (e < 6)

/-- `eml_error_str`, `eml_common.h` 48-55; `none`: a read outside the table. -/
def errorStr (e : Int) : Option String := if errorValid e then errorStrs[e.toNat]? else some "Invalid error code"

/-- Numeric value of an error, `eml_common.h` 20-28. -/
def code : EmlError → Int
  | .ok => 0 | .sizeMismatch => 1 | .unsupported => 2 | .uninitialized => 3 | .postconditionFailed => 4 | .unknownError => 5

/-- The name each error should print as (specification). -/
def nameOf : EmlError → String
  | .ok => "OK" | .sizeMismatch => "SizeMismatch" | .unsupported => "Unsupported" | .uninitialized => "Uninitialized"
  | .postconditionFailed => "Postcondition failed" | .unknownError => "Unknown error"

/-- **C64 is false as stated**: `EmlUnsupported` prints as "Uninitialized" and `EmlUninitialized` as "Unsupported". -/
theorem C64_refuted : errorStr (code .unsupported) = some (nameOf .uninitialized) ∧ errorStr (code .uninitialized) = some (nameOf .unsupported) ∧
    ¬ ∀ e, errorStr (code e) = some (nameOf e) := by
  refine ⟨by decide +kernel, by decide +kernel, fun h => ?_⟩
  exact absurd (h .unsupported) (by decide +kernel)

/-- **C64 (partial: all codes except the two swapped ones)** Every other error prints its own name, every integer that is no error code prints as invalid, no code whatsoever reads outside the table, and different errors
print differently. -/
theorem C64_error_names_partial :
    (∀ e, e ≠ .unsupported → e ≠ .uninitialized → errorStr (code e) = some (nameOf e)) ∧
    (∀ i : Int, (∀ e, code e ≠ i) → errorStr i = some "Invalid error code") ∧
    (∀ i : Int, (errorStr i).isSome) ∧
    (∀ e f, errorStr (code e) = errorStr (code f) → e = f) := by
  refine ⟨?_, ?_, ?_, ?_⟩
  · intro e h1 h2; cases e <;> first | rfl | (exact absurd rfl h1) | (exact absurd rfl h2)
  · intro i h
    have h0 := h .ok; have h1 := h .sizeMismatch; have h2 := h .unsupported; have h3 := h .uninitialized; have h4 := h .postconditionFailed; have h5 := h .unknownError
    simp only [code] at h0 h1 h2 h3 h4 h5
    unfold errorStr errorValid
    rw [if_neg]
    simp only [Bool.and_eq_true, decide_eq_true_eq]; omega
  · intro i
    unfold errorStr errorValid
    split
    · rename_i h
      simp only [Bool.and_eq_true, decide_eq_true_eq] at h
      rw [List.getElem?_eq_getElem (by simp [errorStrs]; omega)]; rfl
    · rfl
  · intro e f h
    cases e <;> cases f <;> first | rfl | (exact absurd h (by decide +kernel))

example : errorStr 5 = some "Unknown error" ∧ errorStr (-1) = some "Invalid error code" ∧ errorStr 6 = some "Invalid error code" := by decide +kernel

end Emlearn.ErrorStr
