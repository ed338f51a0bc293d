/- Model of the sensor thread and main loop of `platform_examples/zephyr/motion_recognition/src/` (`sensor_reader.c`, `main.c`).
A sample (one row of `n_channels` values) is identified with its number: sample `t` is the `t`-th one fetched. Each step of the reader thread is one iteration of its loop, with the copy
of a finished window taken as one step; the main loop reads the rows of a chunk one step each, so the reader can run in between (`thread_priority = 10`, `main.c` 224). Fetch errors only
count up (the stale sample is still a sample) and are not modelled. -/
namespace Emlearn.Sensor

structure State where
  /-- samples fetched so far -/
  time : Nat
  /-- `read_samples[0 .. read_samples_index)` -/
  samples : List Nat
  /-- `output_buffer` (shared with the main loop); zeros until the first window, when no message has been sent -/
  output : List Nat
  /-- `sensor_reader_queue` holds a message (capacity 1, `main.c` 77); all messages are the same pointer -/
  queued : Bool
  /-- `put_errors` -/
  putErrors : Nat
  /-- rows the main loop has read of the chunk it is processing; `none` when it waits for a message -/
  processing : Option (List Nat)
  /-- the chunks the main loop has processed -/
  processed : List (List Nat)
deriving DecidableEq

def init : State := { time := 0, samples := [], output := [], queued := false, putErrors := 0, processing := none, processed := [] }

/-- One iteration of `sensor_chunk_reader_task`, `sensor_reader.c` 17-64. -/
def readerStep (W : Nat) (s : State) : State :=
  let samples := s.samples ++ [s.time]
  if samples.length = W then
    { s with time := s.time + 1, samples := [], output := samples, queued := true, putErrors := if s.queued then s.putErrors + 1 else s.putErrors }
  else { s with time := s.time + 1, samples := samples }

/-- One step of the main loop, `main.c` 282-318: take a message if there is one; read the next row through `chunk.buffer` (which is `output_buffer`); or finish the chunk.
`none`: a row outside the buffer is read. -/
def mainStep (W : Nat) (s : State) : Option State :=
  match s.processing with
  | none => some (if s.queued then { s with queued := false, processing := some [] } else s)
  | some rows =>
    if rows.length < W then
      match s.output[rows.length]? with
      | none => none
      | some v => some { s with processing := some (rows ++ [v]) }
    else some { s with processing := none, processed := s.processed ++ [rows] }

inductive Who where
  | reader
  | main
deriving DecidableEq

def step (W : Nat) (s : State) : Who → Option State
  | .reader => some (readerStep W s)
  | .main => mainStep W s

/-- Execution under a schedule. -/
def run (W : Nat) : List Who → State → Option State
  | [], s => some s
  | w :: ws, s => (step W s w).bind (run W ws)

end Emlearn.Sensor
