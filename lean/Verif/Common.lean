/- Shared modelling vocabulary: C error codes, fixed-width wrapping, arbitrary float-like arithmetic. -/
namespace Emlearn

/-- `EmlError`, `eml_common.h` 19-27. -/
inductive EmlError where
  | ok | sizeMismatch | unsupported | uninitialized | postconditionFailed | unknownError
  deriving DecidableEq, Repr

/-- Conversion to `int16_t` (two's complement wrap-around). -/
def wrap16 (x : Int) : Int := (x + 32768) % 65536 - 32768

/-- Conversion to `int8_t` (two's complement wrap-around). -/
def wrap8 (x : Int) : Int := (x + 128) % 256 - 128

theorem wrap16_id {x : Int} (h1 : -32768 ≤ x) (h2 : x ≤ 32767) : wrap16 x = x := by
  unfold wrap16; omega

theorem wrap8_id {x : Int} (h1 : -128 ≤ x) (h2 : x ≤ 127) : wrap8 x = x := by
  unfold wrap8; omega

/-- Operations of an *arbitrary* float-like arithmetic: no law is assumed, so that statements parametric in `FOps`
cover IEEE-754 single precision with every rounding and NaN behaviour. -/
structure FOps (F : Type) where
  zero : F
  one : F
  add : F → F → F
  mul : F → F → F
  div : F → F → F
  ofInt : Int → F
  lt : F → F → Bool

end Emlearn
