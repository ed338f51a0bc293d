/- Model of `examples/motion_recognition/tools/motion_process.c`: `read_overlapped_windows` and the processing loop of `main`. -/
namespace Emlearn.Motion

/-- State of the windowing: the rows the CSV reader has not delivered yet, `*read_index`, and the window buffer. A row is its six sensor values (all offsets in the code are
multiples of `SENSOR_DATA_COLUMNS`, so the buffer is a list of rows here); a row for which the CSV read fails is delivered like any other (the code only looks for 0), with
whatever the column buffer holds. -/
structure Win (R : Type) where
  stream : List R
  readIndex : Int
  buffer : List R
deriving DecidableEq

variable {R : Type}

/-- The read loop, `motion_process.c` 109-138: `k` iterations remain. `none` is a `memcpy` outside the buffer. The result is the return code. -/
def readRows (windowLength : Int) : Nat → Win R → Option (Int × Win R)
  | 0, s => some (0, s)
  | k + 1, s =>
    match s.stream with
    | [] => some (s.readIndex, s)
    | r :: rest =>
      if 0 ≤ s.readIndex ∧ s.readIndex.toNat < s.buffer.length then
        let s := { stream := rest, readIndex := s.readIndex + 1, buffer := s.buffer.set s.readIndex.toNat r }
        if s.readIndex = windowLength then some (s.readIndex, s) else readRows windowLength k s
      else none

/-- `read_overlapped_windows`, `motion_process.c` 65-143. `bufferLength` and `nColumns` are the argument and the reader's column count; `none` is a fault (a `memmove` of a
negative number of rows or outside the buffer). -/
def readOverlapped (nColumns bufferLength windowLength hopLength : Int) (s : Win R) : Option (Int × Win R) :=
  if bufferLength ≠ windowLength * 6 then some (-12, s)
  else if nColumns ≠ 6 + 1 then some (-3, s)
  else if s.readIndex > windowLength then some (-2, s)
  else if s.readIndex < 0 then some (-2, s)
  else if s.readIndex > bufferLength / 6 then some (-2, s)
  else if s.readIndex = windowLength then
    let moveLength := windowLength - hopLength
    if 0 ≤ moveLength ∧ 0 ≤ hopLength ∧ windowLength ≤ s.buffer.length then
      let moved := (s.buffer.drop hopLength.toNat).take moveLength.toNat
      readRows windowLength windowLength.toNat { s with buffer := moved ++ s.buffer.drop moveLength.toNat, readIndex := s.readIndex - hopLength }
    else none
  else readRows windowLength windowLength.toNat s

/-- Processing loop of `main`, `motion_process.c` 377-444: the windows handed to the preprocessor (`window_buffer` up to `window_length` rows). `fuel` bounds the iterations;
`none` is a fault, the flag tells that the loop ended by itself. Preprocessing and output are assumed to succeed. -/
def processLoop (nColumns windowLength hopLength : Int) : Nat → Nat → Win R → List (List R) → Option (List (List R) × Bool)
  | 0, _, _, done => some (done, false)
  | fuel + 1, attempts, s, done =>
    if attempts < 100 then
      match readOverlapped nColumns (windowLength * 6) windowLength hopLength s with
      | none => none
      | some (ret, s) =>
        if ret = windowLength then processLoop nColumns windowLength hopLength fuel 0 s (done ++ [s.buffer.take windowLength.toNat])
        else if ret < 0 then some (done, true)
        else if ret ≠ 0 then some (done, true)
        else processLoop nColumns windowLength hopLength fuel (attempts + 1) s done
    else some (done, true)

end Emlearn.Motion
