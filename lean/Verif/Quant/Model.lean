/- Model of `emlearn/eml_quantizer.h`, `emlearn/preprocessing/quantizer.py`, `emlearn/eml_fixedpoint.h`, `emlearn/fixedpoint.py`.
Simplification: `float`/`float64` values are exact elements of a linearly ordered field (no rounding, infinities or NaN). -/
import Verif.Common
import Verif.Trunc
namespace Emlearn.Quant
variable {K : Type} [Field K] [LinearOrder K] [IsStrictOrderedRing K] [FloorRing K]

/-- The C conversion `(int16_t)x` of a float: truncation toward zero, undefined (`none`) when the result does not fit. -/
def toInt16 (x : K) : Option Int := if -32768 ≤ trunc x ∧ trunc x ≤ 32767 then some (trunc x) else none

/-- State of the loop: outputs so far, underflows, overflows. -/
structure Acc where
  out : List Int
  nUnder : Nat
  nOver : Nat
  deriving DecidableEq

/-- One iteration, `eml_quantizer.h` 28-39. -/
def step (scale : K) (acc : Acc) (v : K) : Option Acc :=
  let scaled := v * scale
  let (nu, scaled) := if scaled < -32767 then (acc.nUnder + 1, -32767) else (acc.nUnder, scaled)
  let (no, scaled) := if scaled > 32767 then (acc.nOver + 1, 32767) else (acc.nOver, scaled)
  (toInt16 scaled).map (fun q => { out := acc.out ++ [q], nUnder := nu, nOver := no })

/-- `eml_quantizer_check_forward_int16`, `eml_quantizer.h` 14-45: error code, contents of `out` afterwards, the two counters (`none`: not written). Outer `none`: undefined behaviour. -/
def checkForward (scale : K) (values : List K) (out : List Int) : Option (EmlError × List Int × Option (Nat × Nat)) :=
  if out.length = values.length then
    (values.foldlM (step scale) { out := [], nUnder := 0, nOver := 0 }).map (fun a => (.ok, a.out, some (a.nUnder, a.nOver)))
  else some (.sizeMismatch, out, none)

/-- `eml_quantizer_forward_int16`, `eml_quantizer.h` 47-62. -/
def forward (scale : K) (values : List K) (out : List Int) : Option (EmlError × List Int) :=
  (checkForward scale values out).map (fun r => (r.1, r.2.1))

/-- `eml_quantizer_inverse_int16`, `eml_quantizer.h` 65-79. -/
def inverse (scale : K) (values : List Int) (out : List K) : EmlError × List K :=
  if out.length = values.length then (.ok, values.map (fun v : Int => (v : K) / scale)) else (.sizeMismatch, out)

/-- Integer dtypes of numpy: width and signedness. -/
structure IntType where
  bits : Nat
  signed : Bool
  deriving DecidableEq

/-- `numpy.iinfo(dtype).max`. -/
def IntType.max (t : IntType) : Int := if t.signed then 2 ^ (t.bits - 1) - 1 else 2 ^ t.bits - 1
/-- `numpy.iinfo(dtype).min`. -/
def IntType.min (t : IntType) : Int := if t.signed then -(2 ^ (t.bits - 1)) else 0

def int16 : IntType := { bits := 16, signed := true }

/-- `astype(dtype)` of a float: truncation; `none` outside the type's range (undefined in C, platform dependent in numpy). -/
def astype (t : IntType) (x : K) : Option Int := if t.min ≤ trunc x ∧ trunc x ≤ t.max then some (trunc x) else none

/-- `numpy.clip(x, lo, hi)` = `minimum(maximum(x, lo), hi)`. -/
def clip (x lo hi : K) : K := min (max x lo) hi

/-- `Quantizer._get_out_max` for integer dtypes, `quantizer.py` 30-43. -/
def getOutMax (t : IntType) (outMax : Option Int) : Int := outMax.getD t.max

/-- `Quantizer.fit`, `quantizer.py` 45-65, with `max_value` given, or `max_quantile=None` on non-empty data (the `numpy.quantile` branch is not modelled). Division by zero gives `none`. -/
def fit (t : IntType) (outMax : Option Int) (maxValue : Option K) (x : List K) : Option K :=
  let largest := match maxValue with
    | some m => some m
    | none => match x with
      | [] => none
      | a :: l => some (max (l.foldl max a) (-(l.foldl min a)))
  largest.bind (fun g => if g = 0 then none else some ((getOutMax t outMax : K) / g))

/-- `Quantizer.transform` elementwise, `quantizer.py` 67-86. -/
def transform (t : IntType) (outMax : Option Int) (scale : K) (x : List K) : Option (List Int) :=
  x.mapM (fun v => astype t (clip (v * scale) (-(getOutMax t outMax : K)) (getOutMax t outMax)))

/-- `Quantizer.inverse_transform` elementwise, `quantizer.py` 88-105. -/
def inverseTransform (t : IntType) (outMax : Option Int) (scale : K) (q : List Int) : List K :=
  q.map (fun v : Int => clip (v : K) (-(getOutMax t outMax : K)) (getOutMax t outMax) / scale)

/-! ### Fixed point -/

/-- `from_float`, `fixedpoint.py` 34-40, and `EML_Q16_FROMFLOAT` (`bits = 16`), `eml_fixedpoint.h` 28: multiply by `1 << bits`, truncate. (int64 / int range not modelled.) -/
def fromFloat (bits : Nat) (x : K) : Int := trunc (x * (2 ^ bits : K))

/-- `to_float`, `fixedpoint.py` 42-48, and `EML_Q16_TOFLOAT`, `eml_fixedpoint.h` 30. -/
def toFloat (bits : Nat) (n : Int) : K := (n : K) / (2 ^ bits : K)

/-- `EML_Q16_FROMINT`, `eml_fixedpoint.h` 27 (no overflow). -/
def q16FromInt (x : Int) : Int := x * 65536
/-- `EML_Q16_TOINT`, `eml_fixedpoint.h` 29: arithmetic shift right. -/
def q16ToInt (x : Int) : Int := x / 65536

/-- Fits `int32_t`. -/
def InI32 (x : Int) : Prop := -2147483648 ≤ x ∧ x ≤ 2147483647
instance (x : Int) : Decidable (InI32 x) := inferInstanceAs (Decidable (_ ∧ _))

/-- `eml_q16_mul`, `eml_fixedpoint.h` 33: arithmetic shifts and an `int` product; `none`: signed overflow. -/
def q16Mul (x y : Int) : Option Int :=
  let p := (x / 256) * (y / 256)
  if InI32 p then some p else none

/-- Conversion to `int32_t`. -/
def wrap32 (x : Int) : Int := (x + 2147483648) % 4294967296 - 2147483648

/-- `eml_q16_div`, `eml_fixedpoint.h` 35-45; `none`: division by zero. C division truncates (`Int.tdiv`). The 64-bit intermediate never overflows for int32 operands. -/
def q16Div (a b : Int) : Option Int :=
  if b = 0 then none
  else
    let temp := a * 65536
    let temp := if (temp ≥ 0 ∧ b ≥ 0) ∨ (temp < 0 ∧ b < 0) then temp + b.tdiv 2 else temp - b.tdiv 2
    some (wrap32 (temp.tdiv b))

end Emlearn.Quant
