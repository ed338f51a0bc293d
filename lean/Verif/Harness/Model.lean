/- Model of the compiled-model harness: `emlearn/common.py` (build_classifier programs, run_classifier, CompiledClassifier) and `emlearn/eml_test.h`.
Characters stand for bytes; numbers are rationals (every finite double is one). -/
import Verif.Common
import Verif.Fixed
namespace Emlearn.Harness

/-- Python `sep.join(parts)` for a one-character separator. -/
def joinSep (sep : Char) : List (List Char) → List Char
  | [] => []
  | [a] => a
  | a :: b :: l => a ++ sep :: joinSep sep (b :: l)

/-- One line of the serialization, `common.py` 127-132: every value as `'{:.8f}'`, joined by commas. -/
def serializeRow (row : List ℚ) : List Char := joinSep ',' (row.map (showFixed 8))

/-- The text on stdin, `common.py` 130-133: the lines joined by newlines (no newline at the end). -/
def serialize (X : List (List ℚ)) : List Char := joinSep '\n' (X.map serializeRow)

/-- The characters `fgets` stores when at most `k` fit: up to and including the first newline; and the rest of the stream. -/
def fgetsTake : Nat → List Char → List Char × List Char
  | 0, s => ([], s)
  | _ + 1, [] => ([], [])
  | k + 1, c :: cs => if c = '\n' then ([c], cs) else (c :: (fgetsTake k cs).1, (fgetsTake k cs).2)

/-- `fgets(buffer, n, fp)`: `none` (NULL) at the end of the stream. -/
def fgets (n : Nat) (s : List Char) : Option (List Char × List Char) :=
  if s = [] then none else some (fgetsTake (n - 1) s)

/-- The separators `",;"`, `eml_test.h` 33. -/
def isSep (c : Char) : Bool := c == ',' || c == ';'

/-- All tokens successive `strtok` calls return: maximal runs of non-separators (`cur` is the run being read). -/
def strtok : List Char → List Char → List (List Char)
  | [], cur => if cur = [] then [] else [cur]
  | c :: cs, cur => if isSep c then (if cur = [] then strtok cs [] else cur :: strtok cs []) else strtok cs (cur ++ [c])

def isSpace (c : Char) : Bool := c == ' ' || c == '\n' || c == '\t' || c == '\r'

/-- Unsigned decimal number at the start of a text: digits, optional point and digits, at least one digit. -/
def scanUFloat (s : List Char) : Option ℚ :=
  let i := s.takeWhile Char.isDigit
  let f := match s.dropWhile Char.isDigit with
    | '.' :: r => r.takeWhile Char.isDigit
    | _ => []
  if i ++ f = [] then none else some ((Nat.ofDigitChars 10 (i ++ f) 0 : ℚ) / 10 ^ f.length)

/-- `sscanf(token, "%f", &value)`, `eml_test.h` 39: leading white space, optional sign, number; `none` when nothing matches, which leaves `value` indeterminate.
Not modelled: exponents, hexadecimal, `inf`/`nan` (none is ever serialized), and the rounding to `float` (a function applied to the result, below). -/
def scanFloat (s : List Char) : Option ℚ :=
  match s.dropWhile isSpace with
  | '-' :: t => (scanUFloat t).map (fun q => -q)
  | '+' :: t => scanUFloat t
  | t => scanUFloat t

/-- Loop of `eml_test_parse_csv_line`, `eml_test.h` 36-48: the tokens left and the values stored so far. -/
def parseTokens (valuesLength : Nat) : List (List Char) → List (Option ℚ) → Except EmlError (List (Option ℚ))
  | [], acc => .ok acc
  | t :: ts, acc => if acc.length ≥ valuesLength then .error .sizeMismatch else parseTokens valuesLength ts (acc ++ [scanFloat t])

/-- `eml_test_parse_csv_line`, `eml_test.h` 25-55 (the two pointers are never NULL here). -/
def parseLine (valuesLength : Nat) (buffer : List Char) : Except EmlError (List (Option ℚ)) := parseTokens valuesLength (strtok buffer []) []

/-- `EML_CSV_BUFFER_LENGTH`, `eml_test.h` 15-17. -/
def bufferLength : Nat := 2 * 1024
/-- `EML_CSV_VALUES_LENGTH`, `eml_test.h` 18-20. -/
def valuesLength : Nat := 256

/-- Loop of `eml_test_read_csv`, `eml_test.h` 63-70, over a callback that changes a state (its globals and stdout). `fuel` bounds the iterations; each consumes at least a
character, so the length of the stream is enough. The row counter is an `int` in C (no overflow modelled). -/
def readLoop {S : Type} (cb : S → List (Option ℚ) → Nat → S) : Nat → Nat → List Char → S → S × EmlError
  | 0, _, _, st => (st, .ok)
  | fuel + 1, row, s, st =>
    match fgets bufferLength s with
    | none => (st, .ok)
    | some (buf, rest) =>
      match parseLine valuesLength buf with
      | .error e => (st, e)
      | .ok vals => readLoop cb fuel (row + 1) rest (cb st vals row)

/-- `eml_test_read_csv`, `eml_test.h` 57-72. -/
def readCsv {S : Type} (cb : S → List (Option ℚ) → Nat → S) (s : List Char) (st : S) : S × EmlError := readLoop cb (s.length + 1) 0 s st

/-- `classify`, `common.py` 100-102: prints `"%d,%f\n"`. `func` is the value of `(double){func}` for the parsed values (an indeterminate value is `none`). -/
def classify (func : List (Option ℚ) → ℚ) (out : List Char) (values : List (Option ℚ)) (row : Nat) : List Char :=
  out ++ (showNat row ++ ',' :: showFixed 6 (func values)) ++ ['\n']

/-- Loop of `classify_proba`, `common.py` 85-88: one line `"%d,%d,%f\n"` per class. -/
def probaLines (row : Nat) : Nat → List ℚ → List Char
  | _, [] => []
  | c, p :: ps => (showNat row ++ ',' :: (showNat c ++ ',' :: showFixed 6 p)) ++ ['\n'] ++ probaLines row (c + 1) ps

/-- `classify_proba`, `common.py` 83-89. The global `outputs` (length `N_CLASSES`) keeps its contents between rows; `func` is the effect of the call on it (its error code is
not looked at). -/
def classifyProba (func : List (Option ℚ) → List ℚ → List ℚ) (st : List ℚ × List Char) (values : List (Option ℚ)) (row : Nat) : List ℚ × List Char :=
  let outputs := func values st.1
  (outputs, st.2 ++ probaLines row 0 outputs)

/-- Python `s.split(sep)`, one-character separator. -/
def pySplit (sep : Char) : List Char → List (List Char)
  | [] => [[]]
  | c :: cs =>
    if c = sep then [] :: pySplit sep cs
    else match pySplit sep cs with
      | [] => [[c]]
      | a :: l => (c :: a) :: l

/-- Python `int(x)` of a float: towards zero. -/
def pyInt (q : ℚ) : Int := if q < 0 then -⌊-q⌋ else ⌊q⌋

/-- The non-empty output lines, `common.py` 143-145. -/
def outputLines (out : List Char) : List (List Char) := (pySplit '\n' out).filter (fun l => !l.isEmpty)

/-- One output line with `out_dtype='float'`, `common.py` 146-157: two tokens, the second a number; `none` is an exception. `out_dtype='int'` applies `pyInt` to it. -/
def parsePrediction (line : List Char) : Option ℚ :=
  match pySplit ',' line with
  | [_, v] => readFixed v
  | _ => none

/-- Option-valued map over a list (a Python loop where any exception aborts). -/
def mapOpt {A B : Type} (f : A → Option B) : List A → Option (List B)
  | [] => some []
  | a :: l => (f a).bind fun b => (mapOpt f l).map fun bs => b :: bs

/-- `CompiledClassifier.predict` with `out_dtype='float'`, `common.py` 182-187 over 124-158: `none` is an exception. -/
def predict (func : List (Option ℚ) → ℚ) (X : List (List ℚ)) : Option (List ℚ) :=
  let out := (readCsv (classify func) (serialize X) []).1
  (mapOpt parsePrediction (outputLines out)).bind fun r => if r.length = X.length then some r else none

/-- `CompiledClassifier.predict` with `out_dtype='int'`. -/
def predictInt (func : List (Option ℚ) → ℚ) (X : List (List ℚ)) : Option (List Int) :=
  let out := (readCsv (classify func) (serialize X) []).1
  (mapOpt (fun l => (parsePrediction l).map pyInt) (outputLines out)).bind fun r => if r.length = X.length then some r else none

/-- `convert_out`, `common.py` 195-197. -/
def parseProba (line : List Char) : Option (Nat × Nat × ℚ) :=
  match pySplit ',' line with
  | [r, c, v] => (readNat r).bind fun r => (readNat c).bind fun c => (readFixed v).map fun v => (r, c, v)
  | _ => none

/-- The assignment loop of `predict_proba`, `common.py` 201-202: `none` is an IndexError; a matrix entry `none` is one `numpy.empty` left uninitialised. -/
def fillProba (nRows nClasses : Nat) : List (Nat × Nat × ℚ) → (Nat → Nat → Option ℚ) → Option (Nat → Nat → Option ℚ)
  | [], m => some m
  | (r, c, v) :: l, m =>
    if r < nRows ∧ c < nClasses then fillProba nRows nClasses l (fun i j => if i = r ∧ j = c then some v else m i j) else none

/-- `CompiledClassifier.predict_proba`, `common.py` 189-205, for `n_classes > 0` (the zero-initialised `outputs` is `common.py` 81). -/
def predictProba (func : List (Option ℚ) → List ℚ → List ℚ) (nClasses : Nat) (X : List (List ℚ)) : Option (Nat → Nat → Option ℚ) :=
  let out := (readCsv (classifyProba func) (serialize X) (List.replicate nClasses 0, [])).1.2
  (mapOpt parseProba (outputLines out)).bind fun r => fillProba X.length nClasses r (fun _ _ => none)

end Emlearn.Harness
