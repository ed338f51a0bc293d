/- C119: the recording of sensor data on a device: what is in the file after any schedule and any power failure. -/
import Verif.Motion.Recorder
import Verif.Props.Csv
import Verif.Props.Sensor
import Verif.Props.MotionPre
import Mathlib.Data.List.TakeWhile
namespace Emlearn.Recorder
open Emlearn.Csv (csvLine)

/-- The first line of a recording. -/
def header : List Char := "accel_x,accel_y,accel_z,gyro_x,gyro_y,gyro_z\n".toList

theorem header_eq : header = csvLine channelNames := by decide +kernel

/-- The lines of the samples with the given numbers. -/
def lines {F : Type} (fmt : F → List Char) (sample : Nat → List F) (ts : List Nat) : List Char := ts.flatMap fun t => csvLine ((sample t).map fmt)

/-- Every sample has six values, and each is printed in fewer than 20 characters. -/
def Printable {F : Type} (fmt : F → List Char) (sample : Nat → List F) : Prop := ∀ t, (sample t).length = 6 ∧ ∀ v ∈ sample t, (fmt v).length < 20

theorem rowText_eq {F : Type} (fmt : F → List Char) (row : List F) (h : row.length = 6) (hf : ∀ v ∈ row, (fmt v).length < 20) : rowText fmt row = csvLine (row.map fmt) := by
  unfold rowText
  rw [Csv.writeData_ok fmt _ row h hf]
  rfl

/-- The part of the schedule that the sensor model knows. -/
def acts : List Ev → List Sensor.Who
  | [] => []
  | .reader :: es => .reader :: acts es
  | .main :: es => .main :: acts es
  | .flush _ :: es => acts es

theorem sensor_main {F : Type} (fmt : F → List Char) (cap : Option Nat) (W : Nat) (sample : Nat → List F) (s : State) :
    (mainStep fmt cap W sample s).map (·.sensor) = Sensor.mainStep W s.sensor := by
  unfold mainStep Sensor.mainStep
  cases h : s.sensor.processing with
  | none => simp only [Option.map_some]; split <;> rfl
  | some rows =>
    simp only []
    split
    · cases s.sensor.output[rows.length]? <;> rfl
    · rfl

theorem sensor_run {F : Type} (fmt : F → List Char) (cap : Option Nat) (W : Nat) (sample : Nat → List F) (sched : List Ev) (s : State) :
    (run fmt cap W sample sched s).map (·.sensor) = Sensor.run W (acts sched) s.sensor := by
  induction sched generalizing s with
  | nil => rfl
  | cons e es ih =>
    cases e with
    | reader => rw [run, step, Option.bind_some, ih]; rfl
    | main =>
      rw [run, step, acts, Sensor.run, Sensor.step, ← sensor_main fmt cap W sample s]
      cases mainStep fmt cap W sample s with
      | none => rfl
      | some t => exact ih t
    | flush n =>
      rw [run, step, acts]
      cases h : s.pending with
      | none => exact ih s
      | some p => simp only [Option.bind_some]; rw [ih]

/-- What the file holds: all rows of finished chunks, and some of the characters of the rows of the chunk being written. -/
structure Holds {F : Type} (fmt : F → List Char) (sample : Nat → List F) (before : List Char) (s : State) : Prop where
  closed : s.sensor.processing = none → s.pending = none ∧ s.disk = before ++ lines fmt sample s.sensor.processed.flatten
  opened : ∀ rows, s.sensor.processing = some rows → ∃ d p, s.pending = some p ∧ s.disk = before ++ lines fmt sample s.sensor.processed.flatten ++ d ∧ d ++ p = lines fmt sample rows

theorem lines_append {F : Type} (fmt : F → List Char) (sample : Nat → List F) (a b : List Nat) : lines fmt sample (a ++ b) = lines fmt sample a ++ lines fmt sample b := by
  unfold lines; rw [List.flatMap_append]

theorem holds_step {F : Type} (fmt : F → List Char) (W : Nat) (sample : Nat → List F) (hp : Printable fmt sample) (before : List Char) (s s' : State) (e : Ev) (h : Holds fmt sample before s)
    (hs : step fmt none W sample s e = some s') : Holds fmt sample before s' := by
  obtain ⟨hc, ho⟩ := h
  cases e with
  | reader =>
    rw [step, Option.some.injEq] at hs
    subst hs
    have e1 : (Sensor.readerStep W s.sensor).processing = s.sensor.processing := by unfold Sensor.readerStep; simp only []; split <;> rfl
    have e2 : (Sensor.readerStep W s.sensor).processed = s.sensor.processed := by unfold Sensor.readerStep; simp only []; split <;> rfl
    exact ⟨by simp only [e1, e2]; exact hc, by simp only [e1, e2]; exact ho⟩
  | flush n =>
    rw [step] at hs
    cases hpend : s.pending with
    | none =>
      simp only [hpend, Option.some.injEq] at hs
      subst hs
      exact ⟨hc, ho⟩
    | some p =>
      simp only [hpend, Option.some.injEq] at hs
      subst hs
      refine ⟨fun hn => ?_, fun rows hr => ?_⟩
      · rw [(hc hn).1] at hpend; cases hpend
      · obtain ⟨d, p', h1, h2, h3⟩ := ho rows hr
        rw [hpend] at h1
        obtain rfl := Option.some.inj h1
        exact ⟨d ++ p.take n, p.drop n, rfl, by simp only [push, h2, List.append_assoc], by rw [List.append_assoc, List.take_append_drop, h3]⟩
  | main =>
    rw [step, mainStep] at hs
    cases hpr : s.sensor.processing with
    | none =>
      obtain ⟨h1, h2⟩ := hc hpr
      simp only [hpr, Option.some.injEq] at hs
      split at hs
      · subst hs
        refine ⟨fun hn => by simp at hn, fun rows hr => ?_⟩
        simp only [Option.some.injEq] at hr
        subst hr
        exact ⟨[], [], rfl, by simp only [h2, List.append_nil], by simp [lines]⟩
      · subst hs
        exact ⟨hc, ho⟩
    | some rows =>
      obtain ⟨d, p, h1, h2, h3⟩ := ho rows hpr
      simp only [hpr] at hs
      split at hs
      · cases hout : s.sensor.output[rows.length]? with
        | none => simp [hout] at hs
        | some t =>
          simp only [hout, Option.some.injEq] at hs
          subst hs
          refine ⟨fun hn => by simp at hn, fun rows' hr => ?_⟩
          simp only [Option.some.injEq] at hr
          subst hr
          refine ⟨d, p ++ rowText fmt (sample t), by simp [h1], h2, ?_⟩
          rw [← List.append_assoc, h3, lines_append, rowText_eq fmt _ (hp t).1 (hp t).2]
          simp [lines]
      · simp only [Option.some.injEq] at hs
        subst hs
        refine ⟨fun _ => ⟨rfl, ?_⟩, fun rows' hr => by simp at hr⟩
        simp only [push, h1, h2, Option.getD_some]
        rw [List.append_assoc, List.append_assoc, h3, List.flatten_append, lines_append]
        simp

theorem holds_run {F : Type} (fmt : F → List Char) (W : Nat) (sample : Nat → List F) (hp : Printable fmt sample) (before : List Char) (sched : List Ev) : ∀ s s' : State, Holds fmt sample before s →
    run fmt none W sample sched s = some s' → Holds fmt sample before s' := by
  induction sched with
  | nil => intro s s' h hr; rw [run, Option.some.injEq] at hr; subst hr; exact h
  | cons e es ih =>
    intro s s' h hr
    rw [run, Option.bind_eq_some_iff] at hr
    obtain ⟨t, h1, h2⟩ := hr
    exact ih t s' (holds_step fmt W sample hp before s t e h h1) h2

theorem run_some {F : Type} (fmt : F → List Char) (cap : Option Nat) (W : Nat) (sample : Nat → List F) (sched : List Ev) (s : State) (t : Sensor.State) (h : Sensor.run W (acts sched) s.sensor = some t) :
    ∃ s', run fmt cap W sample sched s = some s' ∧ s'.sensor = t := by
  rw [← sensor_run fmt cap W sample, Option.map_eq_some_iff] at h
  exact h

/-- **C119 (every schedule, every power failure).** However the reader thread, the main loop and the file system interleave, and wherever the power fails: the file holds the header and every row of every chunk that was finished, in order,
followed only by a beginning of the rows of the chunk being written. -/
theorem C119_durable {F : Type} (fmt : F → List Char) (W : Nat) (hW : 0 < W) (sample : Nat → List F) (hp : Printable fmt sample) (sched : List Ev) :
    ∃ s, run fmt none W sample sched (start header) = some s ∧
      header ++ lines fmt sample s.sensor.processed.flatten <+: s.disk ∧
      s.disk <+: header ++ lines fmt sample (s.sensor.processed.flatten ++ s.sensor.processing.getD []) := by
  obtain ⟨t, h1, -⟩ := Sensor.inv_run W hW (acts sched) Sensor.init (Sensor.inv_init W hW)
  obtain ⟨s, h2, -⟩ := run_some fmt none W sample sched (start header) t h1
  refine ⟨s, h2, ?_⟩
  obtain ⟨hc, ho⟩ := holds_run fmt W sample hp header sched _ s ⟨fun _ => ⟨rfl, by simp [start, Sensor.init, lines]⟩, fun rows hr => by simp [start, Sensor.init] at hr⟩ h2
  cases hpr : s.sensor.processing with
  | none =>
    rw [(hc hpr).2]
    simp
  | some rows =>
    obtain ⟨d, p, h3, h4, h5⟩ := ho rows hpr
    rw [h4, Option.getD_some, lines_append, ← h5]
    exact ⟨⟨d, rfl⟩, ⟨p, by simp only [List.append_assoc]⟩⟩

theorem windows_flatten (W k : Nat) : ((List.range k).map (Sensor.window W)).flatten = List.range (k * W) := by
  induction k with
  | zero => simp
  | succ k ih =>
    rw [List.range_succ, List.map_append, List.flatten_append, ih, Nat.succ_mul, List.range_add]
    simp [Sensor.window]

theorem line_short {F : Type} (fmt : F → List Char) (row : List F) (h : row.length = 6) (hf : ∀ v ∈ row, (fmt v).length < 20) : (csvLine (row.map fmt)).length ≤ 120 := by
  match row, h with
  | [a, b, c, d, e, f], _ =>
    have := hf a (by simp)
    have := hf b (by simp)
    have := hf c (by simp)
    have := hf d (by simp)
    have := hf e (by simp)
    have := hf f (by simp)
    simp [csvLine, List.intercalate]
    omega

/-- **C119 (a main loop that keeps up).** If between completions of windows the main loop gets `W + 2` steps (as in C59), then after `n + 1` windows the file, read as CSV, gives the channel names and then samples `0, 1, 2, ...` up to
`(n + 1) * W - 1`, each once and in order, whatever the file system did in between. -/
theorem C119_complete {F : Type} (fmt : F → List Char) (hfmt : ∀ v, fmt v ≠ [] ∧ Csv.Clean (fmt v)) (W : Nat) (hW : 0 < W) (sample : Nat → List F) (hp : Printable fmt sample) (sched : List Ev)
    (first : List Sensor.Who) (hf : first.count .reader = W - 1) (blocks : List (List Sensor.Who)) (hb : ∀ b ∈ blocks, b.count .reader = W - 1 ∧ W + 2 ≤ b.count .main)
    (last : List Sensor.Who) (hl : last.count .reader < W ∧ W + 2 ≤ last.count .main) (hs : acts sched = (first ++ [.reader]) ++ blocks.flatMap (· ++ [.reader]) ++ last) :
    ∃ s, run fmt none W sample sched (start header) = some s ∧ s.sensor.putErrors = 0 ∧
      s.disk = header ++ lines fmt sample (List.range ((blocks.length + 1) * W)) ∧
      ∀ (r0 : Csv.Reader) (bufH : List Char) (bufs : List (List Char)) (bufE : List Char) (cl : Nat),
        r0.file = s.disk → r0.pos = 0 → (∀ p, r0.seekOk p = true) → 6 ≤ cl → header.length ≤ bufH.length → bufs.length = (blocks.length + 1) * W → (∀ b ∈ bufs, 120 ≤ b.length) →
        (Csv.readHeader r0 bufH cl).2 = (.ok, channelNames) ∧
        Csv.session cl (bufs ++ [bufE]) (Csv.readHeader r0 bufH cl).1 = (List.range ((blocks.length + 1) * W)).map (fun t => ((6 : Int), (sample t).map fmt)) ++ [(0, [])] := by
  obtain ⟨t, h1, h2, -, h3⟩ := Sensor.C59_keeps_up W hW first hf blocks hb last hl.1
  obtain ⟨h3, -, h6⟩ := h3 hl.2
  obtain ⟨s, h4, h5⟩ := run_some fmt none W sample sched (start header) t (by rw [hs]; exact h1)
  have hidle : s.sensor.processing = none := by rw [h5]; exact h6
  obtain ⟨hc, -⟩ := holds_run fmt W sample hp header sched _ s ⟨fun _ => ⟨rfl, by simp [start, Sensor.init, lines]⟩, fun rows hr => by simp [start, Sensor.init] at hr⟩ h4
  have hd : s.disk = header ++ lines fmt sample (List.range ((blocks.length + 1) * W)) := by
    rw [(hc hidle).2, h5, h3, windows_flatten]
  refine ⟨s, h4, by rw [h5, h2], hd, ?_⟩
  intro r0 bufH bufs bufE cl hfile hpos hseek hcl hbH hbl hbs
  have hr : ∀ r ∈ (List.range ((blocks.length + 1) * W)).map sample, r.length = channelNames.length ∧ ∀ v ∈ r, (fmt v).length < 20 := by
    intro r hr
    rw [List.mem_map] at hr
    obtain ⟨t, -, rfl⟩ := hr
    exact ⟨(hp t).1, (hp t).2⟩
  obtain ⟨-, wN, e1, e2⟩ := Csv.C25_csv_round_trip fmt hfmt channelNames (by decide +kernel) (by unfold Csv.Clean; decide +kernel) ((List.range ((blocks.length + 1) * W)).map sample) hr { nColumns := 6, out := [] } rfl
  have hw : wN.out = s.disk := by
    rw [Csv.writeRows_ok fmt _ _ (by intro r h; exact hr r h), Option.some.injEq] at e1
    rw [← e1, hd, header_eq]
    show (Csv.writeHeader _ channelNames).1.out ++ _ = _
    rw [show (Csv.writeHeader { nColumns := 6, out := [] } channelNames).1.out = csvLine channelNames by decide +kernel]
    congr 1
    unfold lines
    rw [List.map_map, List.flatMap_def]
    rfl
  have := e2 r0 bufH bufs bufE cl (by rw [hfile, hw]) hpos hseek hcl (by rw [← header_eq]; exact hbH) (by rw [hbl, List.length_map, List.length_range]) (by
    intro b hb r hr'
    rw [List.mem_map] at hr'
    obtain ⟨t, -, rfl⟩ := hr'
    exact (line_short fmt _ (hp t).1 (hp t).2).trans (hbs b hb))
  refine ⟨this.1, this.2.trans ?_⟩
  rw [List.map_map]
  rfl

/-! ### One chunk -/

/-- The rows of six of a chunk (a rest of fewer is dropped). -/
def chunkRows {F : Type} (values : List F) : List (List F) := (List.range (values.length / 6)).map fun i : Nat => (values.drop (6 * i)).take 6

/-- Some value of the row is printed in 20 characters or more. -/
def TooLong {F : Type} (fmt : F → List Char) (row : List F) : Prop := ∃ v ∈ row, 20 ≤ (fmt v).length

/-- What reaches the file for a row: its line; or, when a value is too long, the fields before that value, each with a comma, and no line end. -/
def rowLine {F : Type} (fmt : F → List Char) (row : List F) : List Char :=
  if row.all fun v => (fmt v).length < 20 then csvLine (row.map fmt) else (row.takeWhile fun v => (fmt v).length < 20).flatMap fun v => fmt v ++ [',']

theorem writeData_row {F : Type} (fmt : F → List Char) (out : List Char) (row : List F) (h : row.length = 6) :
    (Csv.writeData fmt { nColumns := 6, out := out } row).1 = { nColumns := 6, out := out ++ rowLine fmt row } ∧
    ((Csv.writeData fmt { nColumns := 6, out := out } row).2 = .ok ↔ ¬ TooLong fmt row) := by
  obtain ⟨-, h2, h3, -⟩ := Csv.C27_write_effect_partial fmt { nColumns := 6, out := out } row
  by_cases hf : ∀ v ∈ row, (fmt v).length < 20
  · rw [h2 h hf]
    have : (row.all fun v => decide ((fmt v).length < 20)) = true := by simpa using hf
    unfold rowLine
    rw [if_pos this]
    exact ⟨rfl, fun _ ⟨v, hv, hl⟩ => absurd (hf v hv) (by omega), fun _ => rfl⟩
  · have hn : ¬ (row.all fun v => decide ((fmt v).length < 20)) = true := by simpa using hf
    have hsplit := List.takeWhile_append_dropWhile (p := fun v => decide ((fmt v).length < 20)) (l := row)
    have hok : ∀ v ∈ row.takeWhile (fun v => decide ((fmt v).length < 20)), (fmt v).length < 20 := fun v hv => by simpa using List.mem_takeWhile_imp hv
    cases hdw : row.dropWhile (fun v => decide ((fmt v).length < 20)) with
    | nil => rw [hdw, List.append_nil] at hsplit; rw [hsplit] at hok; exact absurd hok hf
    | cons bad rest =>
      have hbad : 20 ≤ (fmt bad).length := by
        have := List.head?_dropWhile_not (fun v => decide ((fmt v).length < 20)) row
        rw [hdw] at this
        simpa using this
      have he := h3 _ bad rest (by rw [← hdw, hsplit]) h hok hbad
      rw [he]
      unfold rowLine
      rw [if_neg hn, ← List.flatMap_def]
      refine ⟨rfl, fun h => (nomatch h), fun h => absurd ⟨bad, ?_, hbad⟩ h⟩
      rw [← hsplit, hdw]
      simp

theorem writeLoop_eq {F : Type} (fmt : F → List Char) (k : Nat) : ∀ (values : List F) (out : List Char) (e s : Nat), 6 * k ≤ values.length →
    ∃ e' s', writeLoop fmt k values { nColumns := 6, out := out } e s = ({ nColumns := 6, out := out ++ ((List.range k).map fun i : Nat => (values.drop (6 * i)).take 6).flatMap (rowLine fmt) }, e', s') ∧
      e' + s' = e + s + k ∧ e ≤ e' ∧ s ≤ s' ∧ (e' = e ↔ ∀ row ∈ (List.range k).map fun i : Nat => (values.drop (6 * i)).take 6, ¬ TooLong fmt row) := by
  induction k with
  | zero => intro values out e s _; exact ⟨e, s, by simp [writeLoop], rfl, le_rfl, le_rfl, by simp⟩
  | succ k ih =>
    intro values out e s hl
    obtain ⟨h1, h2⟩ := writeData_row fmt out (values.take 6) (by rw [List.length_take]; omega)
    have hrows : ((List.range (k + 1)).map fun i : Nat => (values.drop (6 * i)).take 6) = values.take 6 :: ((List.range k).map fun i : Nat => ((values.drop 6).drop (6 * i)).take 6) := by
      rw [List.range_succ_eq_map, List.map_cons, List.map_map, Nat.mul_zero, List.drop_zero]
      congr 1
      apply List.map_congr_left
      intro i _
      show (values.drop (6 * (i + 1))).take 6 = _
      rw [List.drop_drop, Nat.mul_add, Nat.add_comm]
    have hd : 6 * k ≤ (values.drop 6).length := by rw [List.length_drop]; omega
    rw [writeLoop, hrows, List.flatMap_cons]
    obtain ⟨⟨w, err⟩, hw⟩ : ∃ r, Csv.writeData fmt { nColumns := 6, out := out } (values.take 6) = r := ⟨_, rfl⟩
    rw [hw] at h1 h2 ⊢
    simp only at h1 h2
    subst h1
    by_cases hok : err = .ok
    · subst hok
      obtain ⟨e', s', g1, g2, g3, g4, g5⟩ := ih (values.drop 6) (out ++ rowLine fmt (values.take 6)) e (s + 1) hd
      refine ⟨e', s', ?_, by omega, g3, by omega, ?_⟩
      · rw [← List.append_assoc]; exact g1
      · rw [g5, List.forall_mem_cons]
        exact ⟨fun h => ⟨h2.1 rfl, h⟩, fun h => h.2⟩
    · obtain ⟨e', s', g1, g2, g3, g4, g5⟩ := ih (values.drop 6) (out ++ rowLine fmt (values.take 6)) (e + 1) s hd
      refine ⟨e', s', ?_, by omega, by omega, g4, ?_⟩
      · rw [← List.append_assoc]
        cases err <;> first | exact g1 | exact absurd rfl hok
      · rw [List.forall_mem_cons]
        exact ⟨fun h => by omega, fun h => absurd (h2.2 h.1) hok⟩

/-- **C119 (one chunk).** `write_samples` on an unlimited medium: -1 exactly when the file cannot be opened (nothing changes), -2 exactly when a value is too long to print (those rows are cut, the others are written), -3 exactly when
there is not even one row, and otherwise 0 with one line per row appended to the file, all earlier content kept. -/
theorem C119_write_samples {F : Type} (fmt : F → List Char) (canOpen : Bool) (disk : List Char) (values : List F) :
    (canOpen = false → writeSamples fmt none canOpen disk values = (-1, disk)) ∧
    (canOpen = true → (writeSamples fmt none canOpen disk values).2 = disk ++ (chunkRows values).flatMap (rowLine fmt) ∧
      ((writeSamples fmt none canOpen disk values).1 = -2 ↔ ∃ row ∈ chunkRows values, TooLong fmt row) ∧
      ((writeSamples fmt none canOpen disk values).1 = -3 ↔ values.length < 6) ∧
      ((writeSamples fmt none canOpen disk values).1 = 0 ↔ 6 ≤ values.length ∧ ∀ row ∈ chunkRows values, ¬ TooLong fmt row)) ∧
    ((∀ row ∈ chunkRows values, ¬ TooLong fmt row) → (chunkRows values).flatMap (rowLine fmt) = (chunkRows values).flatMap fun row => csvLine (row.map fmt)) := by
  refine ⟨fun h => by rw [writeSamples, h]; rfl, fun h => ?_, fun h => ?_⟩
  · obtain ⟨e, s, g1, g2, -, -, g5⟩ := writeLoop_eq fmt (values.length / 6) values [] 0 0 (by omega)
    rw [writeSamples, if_pos h]
    simp only [g1, push, List.nil_append]
    have g6 : e = 0 ↔ ∀ row ∈ chunkRows values, ¬ TooLong fmt row := g5
    have g7 : (∃ row ∈ chunkRows values, TooLong fmt row) ↔ e ≠ 0 := by rw [Ne, g6]; push Not; rfl
    rw [g7, ← g6]
    by_cases he : e = 0
    · rw [if_neg (by simpa using he)]
      by_cases hs : s = 0
      · rw [if_pos hs]; refine ⟨rfl, by simp [he], by simp; omega, by simp; omega⟩
      · rw [if_neg hs]; refine ⟨rfl, by simp [he], by simp; omega, by simp [he]; omega⟩
    · have hz : ¬ values.length < 6 := fun hl => by
        have : values.length / 6 = 0 := by omega
        have : chunkRows values = [] := by unfold chunkRows; rw [this]; rfl
        exact he (g6.2 (by rw [this]; simp))
      rw [if_pos he]; refine ⟨rfl, by simp [he], by simp; omega, by simp [he]⟩
  · unfold List.flatMap
    congr 1
    apply List.map_congr_left
    intro row hr
    have : (row.all fun v => decide ((fmt v).length < 20)) = true := by
      rw [List.all_eq_true]
      intro v hv
      have := h row hr
      by_contra hc
      exact this ⟨v, hv, by simpa using hc⟩
    unfold rowLine
    rw [if_pos this]

/-- **C119, refuted on a full medium.** When the medium is full, `write_samples` reports success for every chunk it could print, and nothing is stored. -/
theorem C119_full_refuted {F : Type} (fmt : F → List Char) (disk : List Char) (values : List F) (h : 6 ≤ values.length) (hv : ∀ row ∈ chunkRows values, ¬ TooLong fmt row) :
    writeSamples fmt (some disk.length) true disk values = (0, disk) := by
  obtain ⟨e, s, g1, g2, -, -, g5⟩ := writeLoop_eq fmt (values.length / 6) values [] 0 0 (by omega)
  have he : e = 0 := g5.2 hv
  rw [writeSamples, if_pos rfl]
  simp only [g1, push, Nat.sub_self, List.take_zero, List.append_nil]
  rw [if_neg (by simpa using he), if_neg (by omega)]

/-- **C119 (start).** What the program does when it starts: it stops with 3 when the file cannot be opened, with 2 when the filter does not have 12 coefficients, with 0 when the sensor is not ready; else it records. -/
theorem C119_boot (canOpen ready : Bool) (coef : List ℝ) (pre0 : Motion.Pre) (hf : pre0.features.length = 8) (disk : List Char) :
    boot none canOpen ready coef pre0 disk =
      if canOpen = false then (some 3, disk) else (if coef.length ≠ 12 then some 2 else if ready = false then some 0 else none, header) := by
  have hi := (Motion.C63_init 64 pre0 hf 52 50).1 (by norm_num)
  obtain ⟨⟨e, p⟩, hp⟩ : ∃ r, Motion.init 64 pre0 52 50 = r := ⟨_, rfl⟩
  rw [hp] at hi
  obtain ⟨rfl, hok, -⟩ := hi
  cases canOpen with
  | false => simp [boot, writeHeader]
  | true =>
    have hw : writeHeader none true disk = (0, header) := by
      rw [header_eq]
      unfold writeHeader
      rw [if_pos rfl]
      simp only [show (Csv.writeHeader { nColumns := 6, out := [] } channelNames).1.out = csvLine channelNames by decide +kernel]
      rfl
    rw [boot, hw]
    simp only [hp]
    by_cases hc : coef.length = 12
    · have hg : Motion.setGravityLowpass p coef = (0, { p with coef := coef, enable := true }) := by unfold Motion.setGravityLowpass; rw [if_neg (by simpa using hc)]
      have hs : Motion.setFftFeatures { p with coef := coef, enable := true } 1 10 = (0, { p with coef := coef, enable := true, fftStart := 1, fftEnd := 10 }) := by
        have hl : p.fftLength = 64 := hok.2
        unfold Motion.setFftFeatures
        simp [hl]
      simp only [hg, hs, hc]
      cases ready <;> simp [Motion.getFeatureLength]
    · have hg : Motion.setGravityLowpass p coef = (-1, p) := by unfold Motion.setGravityLowpass; rw [if_pos (by simpa using hc)]
      simp [hg, hc]

/-- **C119, refuted over restarts.** Whatever was recorded before, starting the program again leaves only the header, also when it then stops because the sensor is not ready. -/
theorem C119_restart_refuted (ready : Bool) (coef : List ℝ) (pre0 : Motion.Pre) (hf : pre0.features.length = 8) (recording : List Char) :
    (boot none true ready coef pre0 (header ++ recording)).2 = header := by
  rw [C119_boot true ready coef pre0 hf]; rfl

/-- **C119, refuted when the main loop is late.** For every window of at least two samples there is a schedule after which the file shows sample 0 and, where the window's last sample should be, sample `2W - 1`. -/
theorem C119_late_refuted {F : Type} (fmt : F → List Char) (W : Nat) (hW : 2 ≤ W) (sample : Nat → List F) (hp : Printable fmt sample) : ∃ (sched : List Ev) (s : State) (rows : List Nat),
    run fmt none W sample sched (start header) = some s ∧ rows ∈ s.sensor.processed ∧ header ++ lines fmt sample s.sensor.processed.flatten <+: s.disk ∧ rows[0]? = some 0 ∧ rows[W - 1]? = some (2 * W - 1) := by
  obtain ⟨sched, t, rows, h1, h2, h3, h4⟩ := Sensor.C59_refuted W hW
  have ha : ∀ l : List Sensor.Who, acts (l.map fun w => match w with | .reader => Ev.reader | .main => Ev.main) = l := by
    intro l
    induction l with
    | nil => rfl
    | cons w l ih => cases w <;> rw [List.map_cons, acts, ih]
  obtain ⟨s, h5, h6⟩ := run_some fmt none W sample (sched.map fun w => match w with | .reader => Ev.reader | .main => Ev.main) (start header) t (by rw [ha]; exact h1)
  obtain ⟨s', h7, h8, -⟩ := C119_durable fmt W (by omega) sample hp (sched.map fun w => match w with | .reader => Ev.reader | .main => Ev.main)
  rw [h5] at h7
  obtain rfl := Option.some.inj h7
  exact ⟨_, s, rows, h5, by rw [h6]; exact h2, h8, h3, h4⟩

/-- Non-vacuity: values printed as `0.000000` or `-1.500000`; two windows of two samples, a late first window, flushes in between. -/
example : ∃ s, run (fun b : Bool => if b then "-1.500000".toList else "0.000000".toList) none 2 (fun t => [t == 1, false, false, false, false, false])
    [.main, .reader, .reader, .main, .main, .flush 7, .reader, .main, .main, .reader, .main, .main, .main, .flush 50, .main] (start header) = some s ∧
      s.disk = ("accel_x,accel_y,accel_z,gyro_x,gyro_y,gyro_z\n0.000000,0.000000,0.000000,0.000000,0.000000,0.000000\n-1.500000,0.000000,0.000000,0.000000,0.000000,0.000000\n" ++
        "0.000000,0.000000,0.000000,0.000000,0.000000,0.000000\n0.000000,0.000000,0.000000,0.000000,0.000000,0.000000\n").toList := by
  obtain ⟨s, h1, -, h2, -⟩ := C119_complete (fun b : Bool => if b then "-1.500000".toList else "0.000000".toList) (by intro v; cases v <;> exact ⟨by decide, by unfold Csv.Clean; decide⟩) 2 (by omega)
    (fun t => [t == 1, false, false, false, false, false]) (fun t => ⟨rfl, fun v _ => by cases v <;> decide⟩)
    [.main, .reader, .reader, .main, .main, .flush 7, .reader, .main, .main, .reader, .main, .main, .main, .flush 50, .main]
    [.main, .reader] (by decide) [[.main, .main, .reader, .main, .main]] (by decide) [.main, .main, .main, .main] (by decide) rfl
  exact ⟨s, h1, by rw [h2]; decide +kernel⟩

end Emlearn.Recorder
