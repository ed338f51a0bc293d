/- Model of the recording of sensor data in `platform_examples/zephyr/motion_recognition/src/main.c`: the file on the medium, the stream the program writes to, and the reader thread (`Motion/Sensor`).
Characters stand for bytes. A stream that is not closed may have any part of its data on the medium. -/
import Verif.Csv.Model
import Verif.Motion.Sensor
import Verif.Motion.Preprocess
namespace Emlearn.Recorder

/-- `channel_names`, `main.c` 46-53. -/
def channelNames : List (List Char) := ["accel_x".toList, "accel_y".toList, "accel_z".toList, "gyro_x".toList, "gyro_y".toList, "gyro_z".toList]

/-- Data reaching a medium that holds `cap` bytes in the file at most (`none`: unlimited). The program looks neither at `fwrite`'s result (`eml_fileio.h` 22-26, `eml_csv.h` 63-73, 97-100) nor at `fclose`'s. -/
def push (cap : Option Nat) (disk text : List Char) : List Char :=
  match cap with
  | none => disk ++ text
  | some c => disk ++ text.take (c - disk.length)

/-- `write_header`, `main.c` 74-102: `fopen(path, "w")` empties the file. The return code and the file. -/
def writeHeader (cap : Option Nat) (canOpen : Bool) (disk : List Char) : Int × List Char :=
  if canOpen then
    let w := Csv.writeHeader { nColumns := 6, out := [] } channelNames
    if w.2 ≠ .ok then (-1, push cap [] w.1.out) else (0, push cap [] w.1.out)
  else (-1, disk)

/-- The loop of `write_samples`, `main.c` 124-136: `k` rows remain; the writer, `write_errors` and `write_success`. -/
def writeLoop {F : Type} (fmt : F → List Char) : Nat → List F → Csv.Writer → Nat → Nat → Csv.Writer × Nat × Nat
  | 0, _, w, errors, success => (w, errors, success)
  | k + 1, values, w, errors, success =>
    match Csv.writeData fmt w (values.take 6) with
    | (w, .ok) => writeLoop fmt k (values.drop 6) w errors (success + 1)
    | (w, _) => writeLoop fmt k (values.drop 6) w (errors + 1) success

/-- `write_samples(output_path, values, length)`, `main.c` 104-147, as one step: the return code and the file. -/
def writeSamples {F : Type} (fmt : F → List Char) (cap : Option Nat) (canOpen : Bool) (disk : List Char) (values : List F) : Int × List Char :=
  if canOpen then
    let r := writeLoop fmt (values.length / 6) values { nColumns := 6, out := [] } 0 0
    let disk := push cap disk r.1.out
    if r.2.1 ≠ 0 then (-2, disk) else if r.2.2 = 0 then (-3, disk) else (0, disk)
  else (-1, disk)

/-- `main` up to its loop, `main.c` 182-268, with `MOTION_FFT_LENGTH = 64` (`motion_preprocessing.h` 13-15), `SAMPLERATE = 52`, `WINDOW_LENGTH = 50` (`main.c` 32-33). `canOpen`: the file can be opened; `ready`: the sensor is
ready; `coef`: `gravity_lowpass_values`. Returns the exit code (`none`: the loop starts) and the file. The USB setup (its failure is only logged) and the sensor's sampling frequency (errors ignored) are left out; the path is a constant. -/
noncomputable def boot (cap : Option Nat) (canOpen ready : Bool) (coef : List ℝ) (pre0 : Motion.Pre) (disk : List Char) : Option Int × List Char :=
  match writeHeader cap canOpen disk with
  | (code, disk) =>
    if code ≠ 0 then (some 3, disk)
    else
      match Motion.init 64 pre0 52 50 with
      | (e, p) =>
        if e ≠ 0 then (some (-2), disk)
        else
          match Motion.setGravityLowpass p coef with
          | (e, p) =>
            if e ≠ 0 then (some 2, disk)
            else
              match Motion.setFftFeatures p 1 10 with
              | (e, p) =>
                if e ≠ 0 then (some 2, disk)
                else if ready = false then (some 0, disk)
                else if Motion.getFeatureLength p < 0 then (some 2, disk)
                else (none, disk)

/-- The program while recording. -/
structure State where
  /-- the reader thread, the queue, and the rows the main loop has read (`Motion/Sensor`) -/
  sensor : Sensor.State
  /-- the file on the medium -/
  disk : List Char
  /-- what was written to the open stream and is not yet on the medium; `none`: no stream is open -/
  pending : Option (List Char)

/-- Who acts next: the reader thread, the main loop, or the file system writing `n` bytes of the stream's data to the medium. -/
inductive Ev where
  | reader
  | main
  | flush (n : Nat)

/-- What `eml_csv_writer_write_data` writes for one row (`main.c` 128-130). -/
def rowText {F : Type} (fmt : F → List Char) (row : List F) : List Char := (Csv.writeData fmt { nColumns := 6, out := [] } row).1.out

/-- One step of the main loop, `main.c` 275-284 with `write_samples` (104-147) unfolded: take a message and open the file, write the next row read through `chunk.buffer`, or close the file. Every `fopen` succeeds here.
`sample t` are the six values of sample number `t`; a row is read in one step. The second reading of the chunk by the preprocessor (`main.c` 287-288) is left out. -/
def mainStep {F : Type} (fmt : F → List Char) (cap : Option Nat) (W : Nat) (sample : Nat → List F) (s : State) : Option State :=
  match s.sensor.processing with
  | none => some (if s.sensor.queued then { s with sensor := { s.sensor with queued := false, processing := some [] }, pending := some [] } else s)
  | some rows =>
    if rows.length < W then
      match s.sensor.output[rows.length]? with
      | none => none
      | some t => some { s with sensor := { s.sensor with processing := some (rows ++ [t]) }, pending := s.pending.map (· ++ rowText fmt (sample t)) }
    else some { sensor := { s.sensor with processing := none, processed := s.sensor.processed ++ [rows] }, disk := push cap s.disk (s.pending.getD []), pending := none }

def step {F : Type} (fmt : F → List Char) (cap : Option Nat) (W : Nat) (sample : Nat → List F) (s : State) : Ev → Option State
  | .reader => some { s with sensor := Sensor.readerStep W s.sensor }
  | .main => mainStep fmt cap W sample s
  | .flush n =>
    match s.pending with
    | none => some s
    | some p => some { s with disk := push cap s.disk (p.take n), pending := some (p.drop n) }

/-- Execution under a schedule; power can fail after any step, leaving `disk`. -/
def run {F : Type} (fmt : F → List Char) (cap : Option Nat) (W : Nat) (sample : Nat → List F) : List Ev → State → Option State
  | [], s => some s
  | e :: es, s => (step fmt cap W sample s e).bind (run fmt cap W sample es)

/-- The state in which the loop starts (`main.c` 270-275), the file being `disk`. -/
def start (disk : List Char) : State := { sensor := Sensor.init, disk := disk, pending := none }

end Emlearn.Recorder
