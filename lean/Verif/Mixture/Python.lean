/- Gaussian mixtures called from Python: the wrapper of `mixture.py`, which compiles a program and runs it once for each row. -/
import Verif.Harness.Call
import Verif.Props.MixtureText
namespace Emlearn.Mixture.CText
open Emlearn.Cgen Emlearn.MiniC Emlearn.Net.CText Emlearn.Harness
variable {F : Type}

/-- The `output_type` of `build_executable`, `mixture.py` 146-187 (any other value is a `ValueError`). -/
inductive Query where
  | score
  | logProba
  | proba

/-- The generated function that the program calls, `mixture.py` 149, 158, 172. -/
def Query.func : Query → List Char
  | .score => "gmm_score".toList
  | .logProba => "gmm_score".toList
  | .proba => "gmm_predict_proba".toList

/-- `printf` with `%f` or `%.6f` for each number, commas between them, `mixture.py` 153, 162-167, 176-181. `val` is the number in a `float`. Not modelled: `nan` and `inf`, which have no number. -/
def printed (val : F → Option ℚ) (vs : List (Option (Val F))) : Option (List Char) :=
  (mapOpt (fun v => match v with
    | some (.flt y) => (val y).map (showFixed 6)
    | _ => none) vs).map (joinSep ',')

section
variable [Zero F] [Add F] [Sub F] [Mul F] (ops : CFloat F) (comb : Nat → F → F → F) (lse : List F → F) (ex : F → F) (fuel depth : Nat) (val : F → Option ℚ) (pyStr : ℚ → List Char) (strtod : List Char → F) (other : ℚ → List Char)

/-- The arguments of the call: the features, their number, the zeroed static array of outputs, the uninitialised `score` and, for `predict_proba`, the memory from `malloc`, `mixture.py` 148-149, 170-172, 191-192, 197-198. -/
def Query.args (q : Query) (nc nf : Nat) (features : List F) : List (ArgVal F) :=
  [.arr "float".toList (features.map fun z => some (.flt z)), .num (.int nf), .arr "float".toList (List.replicate nc (some (.flt (ops.lit false 0)))), .arr "float".toList [none]] ++
    match q with
    | .proba => [.arr "float".toList (List.replicate nc none)]
    | _ => []

/-- The array that is printed: argument 3 (`score`), 2 (`output`) or 4 (`resp`). -/
def Query.result (q : Query) (nc : Nat) (written : List (Nat × List (Option (Val F)))) : Option (List (Option (Val F))) :=
  match q with
  | .score => (written.lookup 3).map (List.take 1)
  | .logProba => (written.lookup 2).map (List.take nc)
  | .proba => (written.lookup 4).map (List.take nc)

/-- `main` of the program, `mixture.py` 145-212, on its arguments without the name of the program: the value it returns and what it prints. `strtod` is the C function followed by the conversion to `float` (line 205). -/
def gmmMain (prog : Prog) (nc nf : Nat) (q : Query) (argv : List (List Char)) : Option (Int × List Char) :=
  if argv.length = nf then
    match callFunc ops (mixtureLib ops comb lse ex prog) prog fuel depth q.func (q.args ops nc nf (argv.map strtod)) with
    | some (.int e, written) => if e = 0 then ((q.result nc written).bind (printed val)).map fun t => (0, t) else some (-e, [])
    | _ => none
  else some (-1, [])

/-- `subprocess.check_output`, `mixture.py` 115: an exception unless the exit status (the low eight bits of the returned value) is zero. -/
def checkOutput (r : Int × List Char) : Option (List Char) := if r.1 % 256 = 0 then some r.2 else none

/-- The numbers in the last line, `mixture.py` 119-126. -/
def lastLine (out : List Char) : Option (List ℚ) := mapOpt readFixed (pySplit ',' ((pySplit '\n' out).getLast?.getD []))

/-- One row, `predict_one`, `mixture.py` 112-126. `pyStr` is Python `str` of a number. -/
def pyRow (prog : Prog) (nc nf : Nat) (q : Query) (row : List ℚ) : Option (List ℚ) :=
  (gmmMain ops comb lse ex fuel depth val strtod prog nc nf q (row.map pyStr)).bind fun r => (checkOutput r).bind lastLine

/-- A mixture as scikit-learn stores it (`means_`, `precisions_cholesky_`), with the logarithms of the determinants and `get_log_weights`, `mixture.py` 306-328. -/
structure Estimator where
  means : List (List ℚ)
  chol : Chol ℚ
  logDets : List ℚ
  logWeights : List ℚ
  nFeatures : Nat

/-- `Wrapper.__init__`, `build_executable` and `predict`, `mixture.py` 112-224, 306-328: the program is built once, and run once for each row. `none` is an exception. -/
def pyRows (est : Estimator) (q : Query) (X : List (List ℚ)) : Option (List (List ℚ)) :=
  match convertToFull est.means.length est.nFeatures est.chol with
  | none => none
  | some prec =>
    match (generateText other "gmm".toList est.means prec est.logDets est.logWeights est.nFeatures .full).bind parse with
    | none => none
    | some prog => mapOpt (pyRow ops comb lse ex fuel depth val pyStr strtod prog est.means.length est.nFeatures q) X

/-- `numpy.argmax` of one row: the first of the largest; `none` (an exception) for an empty row. -/
def npArgmax : List ℚ → Option Nat
  | [] => none
  | [_] => some 0
  | v :: w :: l => (npArgmax (w :: l)).map fun i => if (w :: l).getD i 0 ≤ v then 0 else i + 1

/-- `Wrapper.predict`, `mixture.py` 350-353; with no row, `numpy.array([])` has one axis and `axis=1` is an exception. -/
def pyPredict (est : Estimator) (X : List (List ℚ)) : Option (List Nat) :=
  if X = [] then none else (pyRows ops comb lse ex fuel depth val pyStr strtod other est .proba X).bind (mapOpt npArgmax)

/-- `Wrapper.score_samples`, `mixture.py` 355-364; with no row, the index `[:,0]` is an exception. -/
def pyScore (est : Estimator) (X : List (List ℚ)) : Option (List ℚ) :=
  if X = [] then none else (pyRows ops comb lse ex fuel depth val pyStr strtod other est .score X).bind (mapOpt List.head?)
end

end Emlearn.Mixture.CText
