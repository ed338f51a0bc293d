/- The feature quantizer in floating point: `emlearn/eml_quantizer.h` with `float` and `emlearn/preprocessing/quantizer.py` with `float64`. `rd` is the rounding of the type. NaN is not represented; a product beyond the largest number is
infinite in C and is compared and saturated like the (larger) number that stands for it here. -/
import Verif.Quant.Model
import Mathlib.Data.Real.Archimedean
namespace Emlearn.Quant.Flt

/-- One iteration, `eml_quantizer.h` 28-39: the product is rounded to `float`; the bounds are numbers of the type. -/
noncomputable def step (rd : ℝ → ℝ) (scale : ℝ) (acc : Acc) (v : ℝ) : Option Acc :=
  let scaled := rd (v * scale)
  let (nu, scaled) := if scaled < -32767 then (acc.nUnder + 1, -32767) else (acc.nUnder, scaled)
  let (no, scaled) := if scaled > 32767 then (acc.nOver + 1, 32767) else (acc.nOver, scaled)
  (toInt16 scaled).map (fun q => { out := acc.out ++ [q], nUnder := nu, nOver := no })

/-- `eml_quantizer_check_forward_int16`, `eml_quantizer.h` 14-45. -/
noncomputable def checkForward (rd : ℝ → ℝ) (scale : ℝ) (values : List ℝ) (out : List Int) : Option (EmlError × List Int × Option (Nat × Nat)) :=
  if out.length = values.length then
    (values.foldlM (step rd scale) { out := [], nUnder := 0, nOver := 0 }).map (fun a => (.ok, a.out, some (a.nUnder, a.nOver)))
  else some (.sizeMismatch, out, none)

/-- `eml_quantizer_forward_int16`, `eml_quantizer.h` 47-62. -/
noncomputable def forward (rd : ℝ → ℝ) (scale : ℝ) (values : List ℝ) (out : List Int) : Option (EmlError × List Int) :=
  (checkForward rd scale values out).map (fun r => (r.1, r.2.1))

/-- `eml_quantizer_inverse_int16`, `eml_quantizer.h` 65-79; an `int16_t` is a `float` without rounding. -/
noncomputable def inverse (rd : ℝ → ℝ) (scale : ℝ) (values : List Int) (out : List ℝ) : EmlError × List ℝ :=
  if out.length = values.length then (.ok, values.map (fun v : Int => rd ((v : ℝ) / scale))) else (.sizeMismatch, out)

/-- `Quantizer.fit` with `max_value` given (not zero), `quantizer.py` 45-65: one division. -/
noncomputable def fitMax (rd : ℝ → ℝ) (t : IntType) (outMax : Option Int) (largest : ℝ) : ℝ := rd ((getOutMax t outMax : ℝ) / largest)

/-- `Quantizer.transform` elementwise, `quantizer.py` 67-86. -/
noncomputable def transform (rd : ℝ → ℝ) (t : IntType) (outMax : Option Int) (scale : ℝ) (x : List ℝ) : Option (List Int) :=
  x.mapM (fun v => astype t (clip (rd (v * scale)) (-(getOutMax t outMax : ℝ)) (getOutMax t outMax)))

/-- `Quantizer.inverse_transform` elementwise, `quantizer.py` 88-105. -/
noncomputable def inverseTransform (rd : ℝ → ℝ) (t : IntType) (outMax : Option Int) (scale : ℝ) (q : List Int) : List ℝ :=
  q.map (fun v : Int => rd (clip (v : ℝ) (-(getOutMax t outMax : ℝ)) (getOutMax t outMax) / scale))

end Emlearn.Quant.Flt
