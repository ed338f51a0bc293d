/- Model of `emlearn/eml_iir.h`. Generic in the arithmetic: only `+`, `-` and `*` are used; C47 uses it over a commutative ring, C99 with rounded operations. -/
import Verif.Common
namespace Emlearn.Iir
variable {K : Type} [Add K] [Sub K] [Mul K]

/-- `eml_biquad_tdf2`, `eml_iir.h` 15-26, on the state array with `s1` and `s2` at the given offsets and coefficients at offsets `den`, `num`. `none`: access out of bounds. -/
def biquad (states coef : List K) (s1 s2 den num : Nat) (inp : K) : Option (K × List K) := do
  let b0 ← coef[num]?
  let b1 ← coef[num + 1]?
  let b2 ← coef[num + 2]?
  let a1 ← coef[den + 1]?
  let a2 ← coef[den + 2]?
  let s11 ← states[s1 + 1]?
  let s21 ← states[s2 + 1]?
  let out := s11 + b0 * inp
  let s10 := s21 + b1 * inp - a1 * out
  let s20 := b2 * inp - a2 * out
  some (out, (((states.set s1 s10).set s2 s20).set (s1 + 1) s10).set (s2 + 1) s20)

/-- `EmlIIR`, `eml_iir.h` 39-45; the state array is kept apart. -/
structure Filter (K : Type) where
  nStages : Nat
  statesLength : Nat
  coef : List K
  coefLength : Nat

/-- `eml_iir_check`, `eml_iir.h` 55-63 (pointers non-NULL). -/
def check (f : Filter K) : EmlError :=
  if f.nStages ≥ 1 then
    if f.statesLength = f.nStages * 4 then
      if f.coefLength = f.nStages * 6 then .ok else .sizeMismatch
    else .sizeMismatch
  else .uninitialized

/-- Stage loop of `eml_iir_filter`, `eml_iir.h` 79-86: `k` stages remain, starting at `stage`. -/
def stageLoop (coef : List K) : Nat → Nat → List K → K → Option (K × List K)
  | 0, _, states, out => some (out, states)
  | k + 1, stage, states, out => do
    let (out, states) ← biquad states coef (4 * stage) (4 * stage + 2) (6 * stage + 3) (6 * stage) out
    stageLoop coef k (stage + 1) states out

/-- `eml_iir_filter`, `eml_iir.h` 76-88: output and new states. -/
def filter (f : Filter K) (states : List K) (inp : K) : Option (K × List K) := stageLoop f.coef f.nStages 0 states inp

/-- Feeding a sequence of values, one call per value. -/
def run (f : Filter K) : List K → List K → Option (List K × List K)
  | states, [] => some ([], states)
  | states, x :: xs => do
    let (y, states) ← filter f states x
    let (ys, states) ← run f states xs
    some (y :: ys, states)

end Emlearn.Iir
