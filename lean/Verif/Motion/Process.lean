/- Model of the program `examples/motion_recognition/tools/motion_process.c`: command-line options, names of the output columns in their string pool, reading sensor rows from CSV, and the
whole of `main`. Exact real arithmetic for the numbers; `none` is undefined behaviour (access outside a buffer, `atoi` out of range, `fopen(NULL)`) or, where said, something not modelled. -/
import Verif.Text
import Verif.Csv.Model
import Verif.Motion.Windows
import Verif.Motion.Preprocess
namespace Emlearn.Motion

/-! ### Command line -/

/-- White space of `isspace`. (C library.) -/
def isSpaceC (c : Char) : Bool := c == ' ' || c == '\n' || c == '\t' || c == '\r' || c == '\x0b' || c == '\x0c'

/-- An optional sign and the longest run of digits (0 if there is none). (C library.) -/
def signedDigits : List Char → Int
  | '-' :: t => -((Nat.ofDigitChars 10 (t.takeWhile Char.isDigit) 0 : Nat) : Int)
  | '+' :: t => ((Nat.ofDigitChars 10 (t.takeWhile Char.isDigit) 0 : Nat) : Int)
  | t => ((Nat.ofDigitChars 10 (t.takeWhile Char.isDigit) 0 : Nat) : Int)

/-- `atoi` (C library): white space, then a signed number; `none` if the number is outside `int` (undefined behaviour). -/
def atoi (s : List Char) : Option Int :=
  let v := signedDigits (s.dropWhile isSpaceC)
  if -2147483648 ≤ v ∧ v ≤ 2147483647 then some v else none

/-- `MotionConfig`, `motion_process.c` 186-192. A null pointer is `none`. -/
structure Config where
  input : Option (List Char)
  output : Option (List Char)
  samplerate : Int
  hopLength : Int
  windowLength : Int
deriving DecidableEq

/-- The configuration before parsing, `motion_process.c` 217-223. -/
def defaults : Config := { input := none, output := none, samplerate := 50, hopLength := 50, windowLength := 50 }

/-- The entries of `opts`, `motion_process.c` 198-204. -/
inductive Opt | input | output | samplerate | hopLength | windowLength
deriving DecidableEq

/-- The names in `opts`, `motion_process.c` 198-204. -/
def optNames : List (List Char × Opt) :=
  [("input".toList, .input), ("output".toList, .output), ("samplerate".toList, .samplerate), ("hop_length".toList, .hopLength), ("window_length".toList, .windowLength)]

/-- The text after the dashes of an argument, `motion_process.c` 157-159; `none` if it does not start with a dash. -/
def optName : List Char → Option (List Char)
  | '-' :: '-' :: r => some r
  | '-' :: r => some r
  | _ => none

/-- The inner loop: the option with exactly this name, `motion_process.c` 161-162. -/
def findOpt (name : List Char) : Option Opt := (optNames.find? (fun p => p.1 == name)).map Prod.snd

/-- Storing the value of an option, `motion_process.c` 165-175. -/
def setOpt (o : Opt) (v : List Char) (c : Config) : Option Config :=
  match o with
  | .input => some { c with input := some v }
  | .output => some { c with output := some v }
  | .samplerate => (atoi v).map fun n => { c with samplerate := n }
  | .hopLength => (atoi v).map fun n => { c with hopLength := n }
  | .windowLength => (atoi v).map fun n => { c with windowLength := n }

/-- `opt_parse_args` on the arguments after the program name, `motion_process.c` 155-182: the return code and the configuration. -/
def optParse : List (List Char) → Config → Option (Int × Config)
  | [], c => some (0, c)
  | a :: rest, c =>
    match (optName a).bind findOpt with
    | none => optParse rest c
    | some o =>
      match rest with
      | [] => some (-1, c)
      | v :: rest => (setOpt o v c).bind (optParse rest)

/-! ### Column names -/

/-- `snprintf(buf + off, len, "%s", text)` (C library) into a buffer: at most `len - 1` characters and a NUL; the result is the length of the whole text. -/
def snprintf (buf : List Char) (off len : Nat) (text : List Char) : Option (Nat × List Char) :=
  if len = 0 then some (text.length, buf)
  else
    let out := text.take (len - 1) ++ ['\x00']
    if off + out.length ≤ buf.length then some (text.length, buf.take off ++ out ++ buf.drop (off + out.length)) else none

/-- `motion_feature_names` without the last, `motion_preprocessing.h` 32-42. -/
def fixedNames : List (List Char) :=
  ["orientation_x".toList, "orientation_y".toList, "orientation_z".toList, "motion_mag_rms".toList, "motion_mag_p2p".toList, "motion_x_rms".toList, "motion_y_rms".toList,
   "motion_z_rms".toList]

/-- The text `"fft_%d_%dhz"` of an FFT feature, `motion_preprocessing.h` 186-187. -/
noncomputable def fftName (p : Pre) (index : Int) : List Char :=
  "fft_".toList ++ showInt (fftNameParts p index).1 ++ "_".toList ++ showInt (fftNameParts p index).2 ++ "hz".toList

/-- `motion_preprocessor_get_feature_name(self, index, buf + off, len)`, `motion_preprocessing.h` 145-202: the return code and the buffer. -/
noncomputable def getFeatureName (p : Pre) (index : Int) (buf : List Char) (off len : Nat) : Option (Int × List Char) :=
  let n := getFeatureLength p
  if n < 0 then some (-1, buf)
  else if index < 0 then some (-2, buf)
  else if index > n - 1 then some (-2, buf)
  else if index < 8 then
    (snprintf buf off len (fixedNames.getD index.toNat [])).map fun r => if r.1 ≥ len then (-5, r.2) else ((r.1 : Int) + 1, r.2)
  else
    (snprintf buf off len (fftName p index)).map fun r => if r.1 ≥ len then (-7, r.2) else ((r.1 : Int) + 1, r.2)

/-- The pool of column names while it is filled: contents, `pool_item` as an offset, `pool_remaining`, and the column pointers stored so far (offsets into the pool). -/
structure Pool where
  mem : List Char
  item : Nat
  remaining : Int
  cols : List Nat

/-- The loop over features, `motion_process.c` 308-326: `k` features remain, the next is `feature`. An error is the exit status of `main`. -/
noncomputable def poolFeatures (p : Pre) : Nat → Int → Pool → Option (Except Int Pool)
  | 0, _, s => some (.ok s)
  | k + 1, feature, s =>
    (getFeatureName p feature s.mem s.item s.remaining.toNat).bind fun r =>
      if r.1 ≤ 0 then some (.error 7)
      else
        let s := { mem := r.2, item := s.item + r.1.toNat, remaining := s.remaining - r.1, cols := s.cols ++ [s.item] }
        if s.remaining ≤ 0 then some (.error 11) else poolFeatures p k (feature + 1) s

/-- The loop over classes, `motion_process.c` 328-348. -/
def poolClasses : Nat → Nat → Pool → Option (Except Int Pool)
  | 0, _, s => some (.ok s)
  | k + 1, cls, s =>
    if s.remaining ≤ 0 then some (.error 12)
    else
      (snprintf s.mem s.item s.remaining.toNat ("class_".toList ++ showNat cls)).bind fun r =>
        if (r.1 : Int) ≥ s.remaining then some (.error 10)
        else poolClasses k (cls + 1) { mem := r.2, item := s.item + (r.1 + 1), remaining := s.remaining - (r.1 + 1), cols := s.cols ++ [s.item] }

/-- The names of the output columns, `motion_process.c` 297-348: `MOTION_MODEL_CLASSES` is 2, the pool `OUTPUT_COLUMNS_POOL_LENGTH` characters (static, so zero). -/
noncomputable def columnNames (p : Pre) (poolLength : Nat) : Option (Except Int (List (List Char))) :=
  if getFeatureLength p < 0 then some (.error 3)
  else
    (poolFeatures p (getFeatureLength p).toNat 0 { mem := List.replicate poolLength '\x00', item := 0, remaining := poolLength, cols := [] }).bind fun r =>
      match r with
      | .error e => some (.error e)
      | .ok s => (poolClasses 2 0 s).map fun r =>
        match r with
        | .error e => .error e
        | .ok s => .ok ("time".toList :: s.cols.map (Csv.cstr s.mem))

/-! ### Reading rows -/

/-- The reader with the two static buffers behind it: `read_buffer` and `input_columns` (offsets into `read_buffer`). `motion_process.c` 35, 54-55. -/
structure Source where
  reader : Csv.Reader
  buf : List Char
  cols : List Nat

/-- One call of `eml_csv_reader_read_data` and the seven column texts found through `input_columns` afterwards, `motion_process.c` 110-123. Only a return value of 0 ends the input; on an
error (negative) the texts are whatever the pointers now show. A line with more than ten columns is not modelled (`none`). The code converts each text with `strtod`; here the texts are kept. -/
def nextRow (s : Source) : Option (Option (List (List Char)) × Source) :=
  match (Csv.readInternal s.reader s.buf 10).2 with
  | none => none
  | some (p, _) =>
    let cols := p.columns ++ s.cols.drop p.columns.length
    let out := Csv.readData s.reader s.buf 10
    let s := { reader := out.1, buf := p.buffer, cols := cols }
    if out.2.1 = 0 then some (none, s) else some (some ((cols.take 7).map (Csv.cstr p.buffer)), s)

/-- State of the windowing, as `Win` of `Windows.lean` but with the CSV source. -/
structure CsvWin where
  src : Source
  readIndex : Int
  buffer : List (List (List Char))

/-- The read loop of `read_overlapped_windows`, `motion_process.c` 109-138. -/
def readRowsCsv (windowLength : Int) : Nat → CsvWin → Option (Int × CsvWin)
  | 0, s => some (0, s)
  | k + 1, s =>
    (nextRow s.src).bind fun r =>
      match r with
      | (none, src) => some (s.readIndex, { s with src := src })
      | (some row, src) =>
        if 0 ≤ s.readIndex ∧ s.readIndex.toNat < s.buffer.length then
          let s := { src := src, readIndex := s.readIndex + 1, buffer := s.buffer.set s.readIndex.toNat row }
          if s.readIndex = windowLength then some (s.readIndex, s) else readRowsCsv windowLength k s
        else none

/-- `read_overlapped_windows`, `motion_process.c` 65-143, reading CSV. -/
def readOverlappedCsv (bufferLength windowLength hopLength : Int) (s : CsvWin) : Option (Int × CsvWin) :=
  if bufferLength ≠ windowLength * 6 then some (-12, s)
  else if (s.src.reader.nColumns : Int) ≠ 6 + 1 then some (-3, s)
  else if s.readIndex > windowLength then some (-2, s)
  else if s.readIndex < 0 then some (-2, s)
  else if s.readIndex > bufferLength / 6 then some (-2, s)
  else if s.readIndex = windowLength then
    let moveLength := windowLength - hopLength
    if 0 ≤ moveLength ∧ 0 ≤ hopLength ∧ windowLength ≤ s.buffer.length then
      let moved := (s.buffer.drop hopLength.toNat).take moveLength.toNat
      readRowsCsv windowLength windowLength.toNat { s with buffer := moved ++ s.buffer.drop moveLength.toNat, readIndex := s.readIndex - hopLength }
    else none
  else readRowsCsv windowLength windowLength.toNat s

/-! ### The program -/

/-- What the program is compiled and run with: `strtod` to `float` of a text, `"%.6f"` of a number, and `motion_model_predict_proba` if `MOTION_MODEL_FILE` is defined (the code and the
predictions array afterwards). -/
structure Env where
  num : List Char → ℝ
  fmt : ℝ → List Char
  model : Option (List ℝ → List ℝ → Int × List ℝ)

/-- What changes in the processing loop: preprocessor, output file, `window_no` and `model_predictions`. -/
structure Progress where
  pre : Pre
  out : Csv.Writer
  windowNo : Nat
  predictions : List ℝ

/-- The six sensor values of each row in the window: columns 1 to 6, `motion_process.c` 126-130. -/
def windowData (env : Env) (rows : List (List (List Char))) : List ℝ := rows.flatMap fun r => (r.drop 1).map env.num

/-- Running the model if there is one, `motion_process.c` 417-424: the code and `model_predictions`. -/
noncomputable def predictions (env : Env) (features previous : List ℝ) : Int × List ℝ :=
  match env.model with
  | none => (0, previous)
  | some predict => predict features previous

/-- What is done with a complete window, `motion_process.c` 390-437: an error is the exit status. `output_values` has `OUTPUT_COLUMNS_LENGTH` = 140 elements; `nFeatures` is the feature count
of the header. -/
noncomputable def onWindow (env : Env) (cfg : Config) (nFeatures : Int) (rows : List (List (List Char))) (s : Progress) : Option (Except (Int × Csv.Writer) Progress) :=
  (runPre s.pre (windowData env rows)).bind fun r =>
    if r.1 ≠ 0 then some (.error (-3, s.out))
    else
      (getFeatures r.2 (List.replicate 139 0)).bind fun f =>
        if f.1 ≠ 0 then some (.error (4, s.out))
        else
          let m := predictions env r.2.features s.predictions
          if m.1 ≠ 0 then some (.error (4, s.out))
          else
            let windowNo := s.windowNo + 1
            let time : ℝ := windowNo * ((cfg.hopLength : ℝ) / cfg.samplerate)
            match Csv.writeData env.fmt s.out (time :: f.2.take nFeatures.toNat ++ m.2) with
            | (w, .ok) => some (.ok { pre := r.2, out := w, windowNo := windowNo, predictions := m.2 })
            | (w, _) => some (.error (-3, w))

/-- The processing loop, `motion_process.c` 377-451: exit status and output file; `fuel` bounds the iterations (`none` when used up). -/
noncomputable def mainLoop (env : Env) (cfg : Config) (nFeatures : Int) : Nat → Nat → CsvWin → Progress → Option (Int × Csv.Writer)
  | 0, _, _, _ => none
  | fuel + 1, attempts, s, g =>
    if attempts < 100 then
      (readOverlappedCsv (cfg.windowLength * 6) cfg.windowLength cfg.hopLength s).bind fun r =>
        if r.1 = cfg.windowLength then
          (onWindow env cfg nFeatures (r.2.buffer.take cfg.windowLength.toNat) g).bind fun o =>
            match o with
            | .error e => some e
            | .ok g => mainLoop env cfg nFeatures fuel 0 r.2 g
        else if r.1 < 0 then some (0, g.out)
        else if r.1 ≠ 0 then some (0, g.out)
        else mainLoop env cfg nFeatures fuel (attempts + 1) r.2 g
    else some (0, g.out)

/-- `expect_columns`, `motion_process.c` 25-33. -/
def expectColumns : List (List Char) :=
  ["time".toList, "acc_x".toList, "acc_y".toList, "acc_z".toList, "gyro_x".toList, "gyro_y".toList, "gyro_z".toList]

/-- `main`, `motion_process.c` 213-460, with `MOTION_FFT_LENGTH` 128 and the gravity filter coefficients `coef`. `files` gives the contents of readable files, `writable` the names that can be
opened for writing; the result is the exit status and, once the output file is open, its contents. `pre0` is the uninitialised structure; the window buffer starts with 200 rows. Every seek
succeeds. `junk` stands for the initial contents of the window buffer. -/
noncomputable def main (env : Env) (coef : List ℝ) (files : List Char → Option (List Char)) (writable : List Char → Bool) (pre0 : Pre) (junk : List (List Char)) (fuel : Nat)
    (args : List (List Char)) : Option (Int × Option (List Char)) :=
  (optParse args defaults).bind fun parsed =>
    if parsed.1 ≠ 0 then some (1, none)
    else
      let cfg := parsed.2
      cfg.input.bind fun inputName =>
        match files inputName with
        | none => some (1, none)
        | some contents =>
          let reader : Csv.Reader := { nColumns := 0, loc := 0, file := contents, pos := 0, seekOk := fun _ => true }
          let buf0 := List.replicate 1000 '\x00'
          match (Csv.readInternal reader buf0 10).2 with
          | none => some (20, none)
          | some (p, _) =>
            let h := Csv.readHeader reader buf0 10
            if h.2.1 ≠ .ok then some (20, none)
            else if h.1.nColumns ≠ 7 then some (21, none)
            else if h.2.2 ≠ expectColumns then some (22, none)
            else if cfg.windowLength > 200 then some (31, none)
            else
              let i := init 128 pre0 cfg.samplerate cfg.windowLength
              if i.1 ≠ 0 then some (3, none)
              else
                let g := setGravityLowpass i.2 coef
                if g.1 ≠ 0 then some (3, none)
                else
                  let c := setFftFeatures g.2 1 10
                  if c.1 ≠ 0 then some (3, none)
                  else
                    (columnNames c.2 2800).bind fun names =>
                      match names with
                      | .error e => some (e, none)
                      | .ok columns =>
                        cfg.output.bind fun outputName =>
                          if writable outputName then
                            let w := (Csv.writeHeader { nColumns := columns.length, out := [] } columns).1
                            (mainLoop env cfg (getFeatureLength c.2) fuel 0
                              { src := { reader := h.1, buf := p.buffer, cols := p.columns ++ List.replicate (10 - p.columns.length) 0 }, readIndex := 0, buffer := List.replicate 200 junk }
                              { pre := c.2, out := w, windowNo := 0, predictions := [-1, -1] }).map fun r => (r.1, some r.2.out)
                          else some (3, none)

end Emlearn.Motion
