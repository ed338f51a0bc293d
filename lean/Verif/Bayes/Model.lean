/- Model of `emlearn/eml_bayes.h` (Gaussian naive Bayes in Q16 fixed point) and of the table generated by `emlearn/bayes.py`. -/
import Verif.Quant.Model
namespace Emlearn.Bayes
open Emlearn.Quant

/-- What can go wrong at run time. -/
inductive Fault where
  | overflow   -- signed overflow or float-to-int conversion out of range
  | divZero    -- integer division by zero
  | outOfBounds -- access outside an array
  deriving DecidableEq, Repr

/-- A signed 32-bit result. -/
def chk32 (x : Int) : Except Fault Int := if InI32 x then .ok x else .error .overflow

def ofOpt (e : Fault) : Option Int → Except Fault Int
  | some x => .ok x
  | none => .error e

/-- `a`, `b`, `c` of `eml_bayes_logpdf_std`, `eml_bayes.h` 77-79, after `EML_Q16_FROMFLOAT` (checked against the decimal literals in `Props/Bayes.lean`). -/
def cA : Int := -47274
def cB : Int := 0
def cC : Int := -86884

/-- `eml_bayes_logpdf_std`, `eml_bayes.h` 74-85. -/
def logpdfStd (x : Int) : Except Fault Int := do
  let xx ← ofOpt .overflow (q16Mul x x)
  let axx ← ofOpt .overflow (q16Mul cA xx)
  let bx ← ofOpt .overflow (q16Mul cB x)
  let s ← chk32 (axx + bx)
  chk32 (s + cC)

/-- `(xm > 0) ? xm : -xm`, `eml_bayes.h` 93. -/
def absQ (xm : Int) : Except Fault Int := if xm > 0 then .ok xm else chk32 (-xm)

/-- `eml_bayes_logpdf`, `eml_bayes.h` 89-96. -/
def logpdf (x mean std stdlog2 : Int) : Except Fault Int := do
  let d ← chk32 (x - mean)
  let xm ← ofOpt .divZero (q16Div d std)
  let xx ← absQ xm
  let p ← logpdfStd xx
  chk32 (p - stdlog2)

/-- `EmlBayesSummary`, `eml_bayes.h` 15-19. -/
structure Summary where
  mean : Int
  std : Int
  stdlog2 : Int
  deriving DecidableEq

/-- `EmlBayesModel`, `eml_bayes.h` 26-30; the table is the array behind the pointer. -/
structure Model where
  nClasses : Int
  nFeatures : Int
  summaries : List Summary

variable {K : Type} [Field K] [LinearOrder K] [IsStrictOrderedRing K] [FloorRing K]

/-- Array read with bounds check. -/
def readAt {α : Type} (l : List α) (i : Int) : Except Fault α :=
  if 0 ≤ i then match l[i.toNat]? with
    | some a => .ok a
    | none => .error .outOfBounds
  else .error .outOfBounds

/-- Inner loop over the values, `eml_bayes.h` 120-128; `idx` is `value_idx`. (Input values are exact numbers, the conversion to Q16 must fit `int`.) -/
def classLoop (m : Model) (classIdx : Nat) : Nat → List K → Int → Except Fault Int
  | _, [], p => .ok p
  | idx, v :: vs, p => do
    let s ← readAt m.summaries (classIdx * m.nFeatures + idx)
    let val ← chk32 (fromFloat 16 v)
    let plog ← logpdf val s.mean s.std s.stdlog2
    let p ← chk32 (p + plog)
    classLoop m classIdx (idx + 1) vs p

/-- Loop over the classes, `eml_bayes.h` 118-131: `n` classes remain, starting at `c`; writes past `EML_MAX_CLASSES` = 10 (`eml_bayes.h` 11-13) are out of bounds. -/
def scoresLoop (m : Model) (values : List K) : Nat → Nat → List Int → Except Fault (List Int)
  | 0, _, acc => .ok acc
  | n + 1, c, acc => do
    let p ← classLoop m c 0 values 0
    if c < 10 then scoresLoop m values n (c + 1) (acc ++ [p]) else .error .outOfBounds

/-- Arg-max loop, `eml_bayes.h` 133-141. -/
def argmaxLoop : List Int → Nat → Int → Nat → Nat
  | [], _, _, best => best
  | p :: ps, i, hi, best => if p > hi then argmaxLoop ps (i + 1) p i else argmaxLoop ps (i + 1) hi best

/-- `eml_bayes_predict`, `eml_bayes.h` 107-143 (non-NULL pointers); `EmlUninitialized` = 3. -/
def predict (m : Model) (values : List K) : Except Fault Int :=
  if m.nClasses ≥ 2 then do
    let ps ← scoresLoop m values m.nClasses.toNat 0 []
    match ps with
    | [] => .error .outOfBounds   -- not reachable, `n_classes >= 2`
    | p :: ps => .ok (argmaxLoop ps 1 p 0 : Nat)
  else .ok (-3)

/-- `bayes.generate_c`, `bayes.py` 31-62: rows of (mean, std, log2 std) per class and feature, flattened class by class, printed as `EML_Q16_FROMFLOAT(...)`. -/
def generate (nFeatures : Nat) (rows : List (List (K × K × K))) : Model :=
  { nClasses := rows.length, nFeatures := nFeatures,
    summaries := rows.flatten.map (fun r => { mean := fromFloat 16 r.1, std := fromFloat 16 r.2.1, stdlog2 := fromFloat 16 r.2.2 }) }

/-! ### log2 -/

/-- First normalising loop of `eml_bayes_log2fix`, `eml_bayes.h` 49-52: `while (x < 1U << p) { x <<= 1; y -= 1U << p; }`; fuel = iterations allowed, `none` if it runs out. `y` is an `int32_t`. -/
def normUp (p : Nat) : Nat → Nat → Int → Option (Nat × Int)
  | 0, _, _ => none
  | f + 1, x, y => if x < 2 ^ p % 2 ^ 32 then normUp p f (x * 2 % 2 ^ 32) (wrap32 (y - 2 ^ p)) else some (x, y)

/-- Second loop, `eml_bayes.h` 54-57: `while (x >= 2U << p) { x >>= 1; y += 1U << p; }`; the constant `2U << p` is an unsigned 32-bit value (0 for p = 31). -/
def normDown (p : Nat) : Nat → Nat → Int → Option (Nat × Int)
  | 0, _, _ => none
  | f + 1, x, y => if x ≥ 2 ^ (p + 1) % 2 ^ 32 then normDown p f (x / 2) (wrap32 (y + 2 ^ p)) else some (x, y)

/-- The fraction loop, `eml_bayes.h` 61-68, `n` iterations remain and `b = 2^n/2`. `z` is `uint64_t`. -/
def fracLoop (p : Nat) : Nat → Nat → Int → Int
  | 0, _, y => y
  | n + 1, z, y =>
    let z := z * z % 2 ^ 64 / 2 ^ p
    if z ≥ 2 ^ (p + 1) % 2 ^ 32 then fracLoop p n (z / 2) (wrap32 (y + 2 ^ n)) else fracLoop p n z y

/-- `eml_bayes_log2fix(x, precision)`, `eml_bayes.h` 34-71. `b = 1U << (precision - 1)` is evaluated before the range check: precision 0 (a shift by `SIZE_MAX`) and above 32 are undefined. `fuel` bounds each loop; `none`: undefined, or a loop did not finish. -/
def log2fix (fuel : Nat) (x precision : Nat) : Option Int :=
  if precision < 1 ∨ precision > 32 then none
  else if precision > 31 then some 2147483647
  else if x = 0 then some (-2147483648)
  else do
    let (x, y) ← normUp precision fuel x 0
    let (x, y) ← normDown precision fuel x y
    some (fracLoop precision precision x y)

end Emlearn.Bayes
