/- The compiled programs of the Python harness with IEEE binary32 `float`: reading a value, and the number in a `float`. -/
import Verif.Harness.Call
import Verif.Float.BinaryNet
namespace Emlearn.Harness
open Emlearn.Flt Emlearn.Flt.Binary32

theorem f32_rational (y : F32) : ∃ q : ℚ, (q : ℝ) = y.val := by
  obtain ⟨x, hx⟩ := y.rounded
  refine ⟨(round (x / 2 ^ ulpExp x) : ℚ) * 2 ^ ulpExp x, ?_⟩
  rw [← hx, fl]
  push_cast
  rfl

/-- The number in a binary32 `float`. -/
noncomputable def f32Val (y : F32) : ℚ := (f32_rational y).choose

theorem f32Val_eq (y : F32) (_ : fmt.fin y) : (f32Val y : ℝ) = fmt.val y := (f32_rational y).choose_spec

/-- `sscanf` with correct rounding. -/
noncomputable def f32Read (q : ℚ) : F32 := rnd q

theorem f32Read_close (v : ℚ) (hv : |(v : ℝ)| ≤ 9) : Close fmt (1 / 10 ^ 6) (seen f32Read v) v := by
  have h8 : |((fixedValue 8 v : ℚ) : ℝ) - (v : ℝ)| ≤ 1 / (2 * 10 ^ 8) := by
    have h := fixedValue_close 8 v
    have h' : ((|fixedValue 8 v - v| : ℚ) : ℝ) ≤ ((1 / (2 * 10 ^ 8) : ℚ) : ℝ) := by exact_mod_cast h
    push_cast at h'
    exact h'
  have ha : |((fixedValue 8 v : ℚ) : ℝ)| ≤ 10 := by
    have h1 := abs_le.1 h8
    have h2 := abs_le.1 hv
    rw [abs_le]
    norm_num at h1 ⊢
    constructor <;> linarith [h1.1, h1.2, h2.1, h2.2]
  have hb := big
  norm_num at hb
  have he := fl_error_any ((fixedValue 8 v : ℚ) : ℝ)
  refine ⟨fl_fin _ (ha.trans (by linarith)), ?_⟩
  have h3 : |fl ((fixedValue 8 v : ℚ) : ℝ) - ((fixedValue 8 v : ℚ) : ℝ)| ≤ 9 / 10 ^ 7 := by
    refine he.trans ?_
    have := mul_le_mul_of_nonneg_left ha (show (0 : ℝ) ≤ 1 / 2 ^ 24 by positivity)
    norm_num at this ⊢
    linarith
  have h1 := abs_le.1 h8
  have h2 := abs_le.1 h3
  show |fl ((fixedValue 8 v : ℚ) : ℝ) - (v : ℝ)| ≤ _
  rw [abs_le]
  norm_num at h1 h2 ⊢
  constructor <;> linarith [h1.1, h1.2, h2.1, h2.2]

end Emlearn.Harness
