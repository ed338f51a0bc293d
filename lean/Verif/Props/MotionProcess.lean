/- C109: the whole program `motion_process.c` (reading sensor rows, windows, features, output file). -/
import Verif.Props.MotionColumns
import Verif.Props.MotionRun
import Verif.Props.Motion
import Verif.Props.Csv
namespace Emlearn.Motion

/-! ### Reading rows -/

/-- A row of seven non-empty fields without separators whose line fits the read buffer. -/
structure RowOk (row : List (List Char)) : Prop where
  seven : row.length = 7
  clean : ∀ c ∈ row, Csv.Clean c
  nonempty : ∀ c ∈ row, c ≠ []
  fits : (Csv.csvLine row).length ≤ 1000

/-- The source will deliver exactly these rows. -/
structure Delivers (s : Source) (rows : List (List (List Char))) : Prop where
  file : s.reader.file.drop s.reader.pos = (rows.map Csv.csvLine).flatten
  ncols : s.reader.nColumns = 7
  loc : s.reader.loc = s.reader.pos
  seek : ∀ p, s.reader.seekOk p = true
  buf : s.buf.length = 1000
  ok : ∀ r ∈ rows, RowOk r

theorem nextRow_row (s : Source) (row : List (List Char)) (rows : List (List (List Char))) (h : Delivers s (row :: rows)) :
    ∃ s', nextRow s = some (some row, s') ∧ Delivers s' rows := by
  obtain ⟨hf, hn, hl, hs, hb, hok⟩ := h
  obtain ⟨h7, hc, hx, hfit⟩ := hok row (by simp)
  have hne : row ≠ [] := by rintro rfl; simp at h7
  have hlen : ([','].intercalate row).length < s.buf.length := by
    rw [Csv.csvLine, List.length_append] at hfit
    simp only [List.length_singleton] at hfit
    omega
  have hf' : s.reader.file.drop s.reader.pos = Csv.csvLine row ++ (rows.map Csv.csvLine).flatten := by rw [hf]; simp
  obtain ⟨r1, p, a1, a2, a3, a4, a5, a6⟩ := Csv.readInternal_line s.reader s.buf 10 row hne hc ((rows.map Csv.csvLine).flatten)
    (by rw [hf']; simp [Csv.csvLine]) (by omega) hlen
  obtain ⟨r2, b1, b2, b3, b4, b5⟩ := Csv.readData_line s.reader s.buf 10 row hne hc hx _ hf' (by omega) (by omega) hlen hl hs
  have hpl : p.columns.length = 7 := by rw [← h7, ← a2]; simp [Csv.Parse.strings]
  have hpb := ((Csv.C26_buffer_bounds s.reader s.buf 10).2 p _ (by rw [a1])).1
  refine ⟨{ reader := r2, buf := p.buffer, cols := p.columns ++ s.cols.drop 7 }, ?_, ⟨b2, by simp only []; omega, b4, by simp only []; rw [b5]; exact hs, by simp only []; omega, fun r hr => hok r (by simp [hr])⟩⟩
  unfold nextRow
  rw [a1]
  simp only []
  rw [b1]
  simp only []
  rw [if_neg (by omega), hpl]
  have e : (p.columns ++ s.cols.drop 7).take 7 = p.columns := by rw [← hpl, List.take_left]
  rw [e]
  have : p.columns.map (Csv.cstr p.buffer) = row := a2
  rw [this]

theorem nextRow_end (s : Source) (h : Delivers s []) : ∃ s', nextRow s = some (none, s') ∧ Delivers s' [] := by
  obtain ⟨hf, hn, hl, hs, hb, hok⟩ := h
  have hf : s.reader.file.drop s.reader.pos = [] := by simpa using hf
  have e1 : Csv.readInternal s.reader s.buf 10 = (s.reader, some ({ buffer := s.buf, columns := [], start := 0 }, 0)) := by
    unfold Csv.readInternal
    rw [hf]
    simp [Csv.parseLoop]
  have e2 : Csv.readData s.reader s.buf 10 = (s.reader, 0, []) := by
    unfold Csv.readData
    rw [if_pos (by omega), e1]
    simp [Csv.Parse.strings]
  refine ⟨{ reader := s.reader, buf := s.buf, cols := [] ++ s.cols.drop 0 }, ?_, ⟨by simpa using hf, hn, hl, hs, hb, hok⟩⟩
  unfold nextRow
  rw [e1, e2]
  rfl

theorem readRows_csv (W : Int) (k : Nat) (src : Source) (w : Win (List (List Char))) (h : Delivers src w.stream) (ret : Int) (w' : Win (List (List Char)))
    (hr : readRows W k w = some (ret, w')) :
    ∃ src', readRowsCsv W k ⟨src, w.readIndex, w.buffer⟩ = some (ret, ⟨src', w'.readIndex, w'.buffer⟩) ∧ Delivers src' w'.stream := by
  induction k generalizing src w with
  | zero => cases hr; exact ⟨src, rfl, h⟩
  | succ k ih =>
    obtain ⟨stream, i, b⟩ := w
    cases stream with
    | nil =>
      cases hr
      obtain ⟨s', e, hd⟩ := nextRow_end src h
      refine ⟨s', ?_, hd⟩
      rw [readRowsCsv, e]
      rfl
    | cons r rest =>
      obtain ⟨s', e, hd⟩ := nextRow_row src r rest h
      rw [readRows] at hr
      simp only [] at hr
      rw [readRowsCsv, e, Option.bind_some]
      simp only []
      by_cases hin : 0 ≤ i ∧ i.toNat < b.length
      · rw [if_pos hin] at hr
        rw [if_pos hin]
        by_cases hw : i + 1 = W
        · rw [if_pos hw] at hr
          rw [if_pos hw]
          cases hr
          exact ⟨s', rfl, hd⟩
        · rw [if_neg hw] at hr
          rw [if_neg hw]
          exact ih s' _ hd hr
      · rw [if_neg hin] at hr
        cases hr

theorem readOverlapped_csv (W H : Int) (src : Source) (w : Win (List (List Char))) (h : Delivers src w.stream) (ret : Int) (w' : Win (List (List Char)))
    (hr : readOverlapped 7 (W * 6) W H w = some (ret, w')) :
    ∃ src', readOverlappedCsv (W * 6) W H ⟨src, w.readIndex, w.buffer⟩ = some (ret, ⟨src', w'.readIndex, w'.buffer⟩) ∧ Delivers src' w'.stream := by
  unfold readOverlapped at hr
  unfold readOverlappedCsv
  rw [if_neg (by omega), if_neg (by omega)] at hr
  rw [if_neg (by omega), if_neg (by simp only []; rw [h.ncols]; omega)]
  simp only []
  by_cases h1 : w.readIndex > W
  · rw [if_pos h1] at hr; rw [if_pos h1]; cases hr; exact ⟨src, rfl, h⟩
  rw [if_neg h1] at hr; rw [if_neg h1]
  by_cases h2 : w.readIndex < 0
  · rw [if_pos h2] at hr; rw [if_pos h2]; cases hr; exact ⟨src, rfl, h⟩
  rw [if_neg h2] at hr; rw [if_neg h2]
  by_cases h3 : w.readIndex > W * 6 / 6
  · rw [if_pos h3] at hr; rw [if_pos h3]; cases hr; exact ⟨src, rfl, h⟩
  rw [if_neg h3] at hr; rw [if_neg h3]
  by_cases h4 : w.readIndex = W
  · rw [if_pos h4] at hr; rw [if_pos h4]
    simp only [] at hr
    by_cases h5 : 0 ≤ W - H ∧ 0 ≤ H ∧ W ≤ w.buffer.length
    · rw [if_pos h5] at hr; rw [if_pos h5]
      exact readRows_csv W W.toNat src { stream := w.stream, readIndex := w.readIndex - H, buffer := (w.buffer.drop H.toNat).take (W - H).toNat ++ w.buffer.drop (W - H).toNat } h ret w' hr
    · rw [if_neg h5] at hr; cases hr
  · rw [if_neg h4] at hr; rw [if_neg h4]
    exact readRows_csv W W.toNat src w h ret w' hr

theorem processLoop_done {R : Type} (n W H : Int) (fuel a : Nat) (w : Win R) (done : List (List R)) :
    processLoop n W H fuel a w done = (processLoop n W H fuel a w []).map (fun r => (done ++ r.1, r.2)) := by
  induction fuel generalizing a w done with
  | zero => simp [processLoop]
  | succ fuel ih =>
    rw [processLoop, processLoop]
    by_cases ha : a < 100
    · rw [if_pos ha, if_pos ha]
      cases readOverlapped n (W * 6) W H w with
      | none => rfl
      | some r =>
        obtain ⟨ret, w'⟩ := r
        simp only []
        by_cases h1 : ret = W
        · rw [if_pos h1, if_pos h1, ih 0 w' (done ++ _), ih 0 w' ([] ++ _), Option.map_map]
          congr 1
          funext r
          simp
        · rw [if_neg h1, if_neg h1]
          by_cases h2 : ret < 0
          · rw [if_pos h2, if_pos h2]; simp
          · rw [if_neg h2, if_neg h2]
            by_cases h3 : ret ≠ 0
            · rw [if_pos h3, if_pos h3]; simp
            · rw [if_neg h3, if_neg h3]; exact ih _ _ _
    · rw [if_neg ha, if_neg ha]; simp

/-! ### The loop -/

/-- The windows processed one after the other until one fails. -/
noncomputable def runWindows (env : Env) (cfg : Config) (n : Int) : List (List (List (List Char))) → Progress → Option (Except (Int × Csv.Writer) Progress)
  | [], g => some (.ok g)
  | w :: ws, g => (onWindow env cfg n w g).bind fun o =>
    match o with
    | .error e => some (.error e)
    | .ok g => runWindows env cfg n ws g

/-- Exit status and file, from the result of the windows. -/
def finish : Except (Int × Csv.Writer) Progress → Int × Csv.Writer
  | .error e => e
  | .ok g => (0, g.out)

theorem mainLoop_windows (env : Env) (cfg : Config) (n : Int) (fuel a : Nat) (src : Source) (w : Win (List (List Char))) (h : Delivers src w.stream)
    (ws : List (List (List (List Char)))) (hp : processLoop 7 cfg.windowLength cfg.hopLength fuel a w [] = some (ws, true)) (g : Progress)
    (res : Except (Int × Csv.Writer) Progress) (hr : runWindows env cfg n ws g = some res) :
    mainLoop env cfg n fuel a ⟨src, w.readIndex, w.buffer⟩ g = some (finish res) := by
  induction fuel generalizing a src w ws g with
  | zero => simp [processLoop] at hp
  | succ fuel ih =>
    rw [processLoop] at hp
    rw [mainLoop]
    by_cases ha : a < 100
    · rw [if_pos ha] at hp ⊢
      cases hc : readOverlapped 7 (cfg.windowLength * 6) cfg.windowLength cfg.hopLength w with
      | none => rw [hc] at hp; cases hp
      | some r =>
        obtain ⟨ret, w'⟩ := r
        rw [hc] at hp
        simp only [] at hp
        obtain ⟨src', e, hd⟩ := readOverlapped_csv _ _ src w h ret w' hc
        rw [e, Option.bind_some]
        simp only []
        by_cases h1 : ret = cfg.windowLength
        · rw [if_pos h1] at hp ⊢
          rw [processLoop_done, Option.map_eq_some_iff] at hp
          obtain ⟨⟨ws', b⟩, hp', he⟩ := hp
          simp only [Prod.mk.injEq, List.nil_append, List.singleton_append] at he
          obtain ⟨rfl, rfl⟩ := he
          rw [runWindows] at hr
          cases ho : onWindow env cfg n (w'.buffer.take cfg.windowLength.toNat) g with
          | none => rw [ho] at hr; cases hr
          | some o =>
            rw [ho, Option.bind_some] at hr
            rw [Option.bind_some]
            cases o with
            | error e => cases hr; rfl
            | ok g' => exact ih 0 src' w' hd ws' hp' g' hr
        · rw [if_neg h1] at hp ⊢
          by_cases h2 : ret < 0
          · rw [if_pos h2] at hp ⊢; cases hp; cases hr; rfl
          · rw [if_neg h2] at hp ⊢
            by_cases h3 : ret ≠ 0
            · rw [if_pos h3] at hp ⊢; cases hp; cases hr; rfl
            · rw [if_neg h3] at hp ⊢
              exact ih _ src' w' hd ws hp g hr
    · rw [if_neg ha] at hp ⊢; cases hp; cases hr; rfl

/-! ### One window -/

/-- The preprocessor as the program sets it up (128-point FFT, gravity filter `coef`, FFT features 1 to 9), with any history. -/
structure Configured (cfg : Config) (coeff : List ℝ) (p : Pre) : Prop extends Ready (2 ^ 7) p where
  window : p.windowLength = cfg.windowLength
  rate : p.samplerate = cfg.samplerate
  lowpass : p.coef = coeff
  filtered : p.enable = true
  first : p.fftStart = 1
  last : p.fftEnd = 10

/-- Specification: the values of output line `k` (counted from 1): its time, the 8 fixed features, FFT bins 1 to 9, the class probabilities. -/
noncomputable def outputRow (cfg : Config) (k : Nat) (p : Pre) (probabilities : List ℝ) : List ℝ :=
  ((k : ℝ) * ((cfg.hopLength : ℝ) / cfg.samplerate)) :: (p.features ++ (List.range 9).map (fun i => p.fft.re (i + 1)) ++ probabilities)

/-- Specification: the class probabilities of a window, by the model compiled in, or the previous ones without a model. -/
noncomputable def classify (env : Env) (p : Pre) (previous : List ℝ) : List ℝ :=
  match env.model with
  | none => previous
  | some predict => (predict p.features previous).2

/-- The model compiled in (if any) succeeds and fills both classes. -/
def ModelOk (env : Env) : Prop := ∀ predict, env.model = some predict → ∀ (x y : List ℝ), y.length = 2 → (predict x y).1 = 0 ∧ (predict x y).2.length = 2

theorem windowData_length (env : Env) (rows : List (List (List Char))) (h : ∀ r ∈ rows, r.length = 7) : (windowData env rows).length = rows.length * 6 := by
  unfold windowData
  induction rows with
  | nil => rfl
  | cons r rs ih =>
    rw [List.flatMap_cons, List.length_append, ih (fun x hx => h x (by simp [hx]))]
    have := h r (by simp)
    simp only [List.length_map, List.length_drop, List.length_cons]
    omega

theorem classify_length (env : Env) (hm : ModelOk env) (p : Pre) (y : List ℝ) (hy : y.length = 2) : (classify env p y).length = 2 := by
  unfold classify
  cases h : env.model with
  | none => exact hy
  | some f => exact (hm f h _ _ hy).2

theorem onWindow_eq (env : Env) (hm : ModelOk env) (cfg : Config) (coef : List ℝ) (W : Nat) (hW : 1 ≤ W) (hWN : W ≤ 128) (hw : cfg.windowLength = W) (hsr : 0 < cfg.samplerate)
    (rows : List (List (List Char))) (hl : rows.length = W) (h7 : ∀ r ∈ rows, r.length = 7) (g : Progress) (hg : Configured cfg coef g.pre) (hp : g.predictions.length = 2) :
    ∃ p', runPre g.pre (windowData env rows) = some (0, p') ∧ Configured cfg coef p' ∧ p'.features.length = 8 ∧
      onWindow env cfg 17 rows g =
        match Csv.writeData env.fmt g.out (outputRow cfg (g.windowNo + 1) p' (classify env p' g.predictions)) with
        | (w, .ok) => some (.ok { pre := p', out := w, windowNo := g.windowNo + 1, predictions := classify env p' g.predictions })
        | (w, _) => some (.error (-3, w)) := by
  obtain ⟨hr, h1, h2, h3, h4, h5, h6⟩ := hg
  obtain ⟨p', gr, lo, hi, e1, e2, _, ⟨c1, c2, c3, c4, c5, c6⟩, _⟩ := C77_run 7 (by norm_num) g.pre hr W hW (by simpa using hWN) (by rw [h1, hw]) (by rw [h2]; exact hsr)
    (windowData env rows) (by rw [windowData_length env rows h7, hl])
  have hf : p'.features.length = 8 := e2.1.1
  obtain ⟨bins, b1, b2, b3, b4⟩ := (C63_get_features_partial (2 ^ 7) p' e2.1 (by rw [c3, c4, h5, h6]; norm_num) (List.replicate 139 0)).2
    (by unfold getFeatureLength; rw [c3, c4, h5, h6]; simp)
  have hbl : bins.length = 9 := by rw [c3, c4, h5, h6] at b1; omega
  have hbins : bins = (List.range 9).map (fun i => p'.fft.re (i + 1)) := by
    apply List.ext_getElem?
    intro i
    by_cases hi : i < 9
    · rw [b2 i (by rw [c3, c4, h5, h6]; omega), List.getElem?_map, List.getElem?_range hi, c3, h5]
      simp [Nat.add_comm]
    · rw [List.getElem?_eq_none (by omega), List.getElem?_eq_none (by simp; omega)]
  refine ⟨p', e1, ⟨e2, by rw [c1, h1], by rw [c2, h2], by rw [c6, h3], by rw [c5, h4], by rw [c3, h5], by rw [c4, h6]⟩, hf, ?_⟩
  have hpr : ∃ m : Int × List ℝ, predictions env p'.features g.predictions = m ∧ m.1 = 0 ∧ m.2 = classify env p' g.predictions := by
    unfold classify predictions
    cases h : env.model with
    | none => exact ⟨_, rfl, rfl, rfl⟩
    | some f => exact ⟨_, rfl, (hm f h _ _ hp).1, rfl⟩
  obtain ⟨m, hm1, hm2, hm3⟩ := hpr
  unfold onWindow
  rw [e1, Option.bind_some]
  rw [if_neg (by simp)]
  simp only []
  rw [b3, Option.bind_some, if_neg (by simp), hm1, if_neg (by simp [hm2])]
  have ht : (p'.features ++ bins ++ (List.replicate 139 (0 : ℝ)).drop (getFeatureLength p').toNat).take (17 : Int).toNat = p'.features ++ (List.range 9).map (fun i => p'.fft.re (i + 1)) := by
    rw [← hbins, show (17 : Int).toNat = (p'.features ++ bins).length by simp [hf, hbl], List.take_left]
  simp only []
  rw [ht, hm3]
  have hrow : ((((g.windowNo + 1 : Nat) : ℝ)) * ((cfg.hopLength : ℝ) / cfg.samplerate)) :: (p'.features ++ (List.range 9).map (fun i => p'.fft.re (i + 1))) ++ classify env p' g.predictions =
    outputRow cfg (g.windowNo + 1) p' (classify env p' g.predictions) := by simp [outputRow]
  rw [hrow]
  generalize Csv.writeData env.fmt g.out (outputRow cfg (g.windowNo + 1) p' (classify env p' g.predictions)) = o
  obtain ⟨w, e⟩ := o
  cases e <;> rfl

theorem outputRow_length (cfg : Config) (k : Nat) (p : Pre) (y : List ℝ) (h : p.features.length = 8) (hy : y.length = 2) : (outputRow cfg k p y).length = 20 := by
  simp [outputRow, h, hy]

/-- The lines of the output file after its header. -/
noncomputable def outputLines (env : Env) (cfg : Config) (from' n : Nat) (st : Nat → Pre) (pr : Nat → List ℝ) : List Char :=
  ((List.range n).map fun k => Csv.csvLine ((outputRow cfg (from' + k + 1) (st (k + 1)) (pr (k + 1))).map env.fmt)).flatten

theorem outputLines_succ (env : Env) (cfg : Config) (a n : Nat) (st st' : Nat → Pre) (pr pr' : Nat → List ℝ) (h : ∀ k, st (k + 1) = st' k) (h' : ∀ k, pr (k + 1) = pr' k) :
    outputLines env cfg a (n + 1) st pr = Csv.csvLine ((outputRow cfg (a + 1) (st 1) (pr 1)).map env.fmt) ++ outputLines env cfg (a + 1) n st' pr' := by
  unfold outputLines
  rw [List.range_succ_eq_map, List.map_cons, List.flatten_cons, List.map_map]
  congr 2
  apply List.map_congr_left
  intro k _
  simp only [Function.comp, Nat.succ_eq_add_one]
  rw [h (k + 1), h' (k + 1), show a + (k + 1) + 1 = a + 1 + k + 1 by omega]

theorem first_bad (p : ℝ → Prop) [DecidablePred p] (l : List ℝ) (h : ¬ ∀ v ∈ l, p v) : ∃ a b c, l = a ++ b :: c ∧ (∀ v ∈ a, p v) ∧ ¬ p b := by
  induction l with
  | nil => simp at h
  | cons x xs ih =>
    by_cases hx : p x
    · obtain ⟨a, b, c, e, h1, h2⟩ := ih (by intro h'; apply h; intro v hv; rcases List.mem_cons.1 hv with rfl | hv; exacts [hx, h' v hv])
      exact ⟨x :: a, b, c, by simp [e], by intro v hv; rcases List.mem_cons.1 hv with rfl | hv; exacts [hx, h1 v hv], h2⟩
    · exact ⟨[], x, xs, rfl, by simp, hx⟩

theorem runWindows_spec (env : Env) (hm : ModelOk env) (cfg : Config) (coef : List ℝ) (W : Nat) (hW : 1 ≤ W) (hWN : W ≤ 128) (hw : cfg.windowLength = W) (hsr : 0 < cfg.samplerate)
    (ws : List (List (List (List Char)))) (hws : ∀ w ∈ ws, w.length = W ∧ ∀ r ∈ w, r.length = 7) (g : Progress) (hg : Configured cfg coef g.pre) (hp : g.predictions.length = 2)
    (hn : g.out.nColumns = 20) :
    ∃ (st : Nat → Pre) (pr : Nat → List ℝ), st 0 = g.pre ∧ pr 0 = g.predictions ∧
      (∀ k < ws.length, runPre (st k) (windowData env (ws.getD k [])) = some (0, st (k + 1)) ∧ Configured cfg coef (st (k + 1)) ∧ pr (k + 1) = classify env (st (k + 1)) (pr k)) ∧
      ((∀ k < ws.length, ∀ v ∈ outputRow cfg (g.windowNo + k + 1) (st (k + 1)) (pr (k + 1)), (env.fmt v).length < 20) →
        ∃ g', runWindows env cfg 17 ws g = some (.ok g') ∧ g'.out.out = g.out.out ++ outputLines env cfg g.windowNo ws.length st pr) ∧
      (∀ m < ws.length, (∀ k < m, ∀ v ∈ outputRow cfg (g.windowNo + k + 1) (st (k + 1)) (pr (k + 1)), (env.fmt v).length < 20) →
        ∀ good bad rest, outputRow cfg (g.windowNo + m + 1) (st (m + 1)) (pr (m + 1)) = good ++ bad :: rest → (∀ v ∈ good, (env.fmt v).length < 20) → 20 ≤ (env.fmt bad).length →
        ∃ w, runWindows env cfg 17 ws g = some (.error (-3, w)) ∧ w.out = g.out.out ++ outputLines env cfg g.windowNo m st pr ++ (good.map (fun v => env.fmt v ++ [','])).flatten) := by
  induction ws generalizing g with
  | nil => exact ⟨fun _ => g.pre, fun _ => g.predictions, rfl, rfl, by simp, fun _ => ⟨g, rfl, by simp [outputLines]⟩, by simp⟩
  | cons w ws ih =>
    obtain ⟨p', e1, e2, e3, e4⟩ := onWindow_eq env hm cfg coef W hW hWN hw hsr w (hws w (by simp)).1 (hws w (by simp)).2 g hg hp
    have hy := classify_length env hm p' _ hp
    have hlen := outputRow_length cfg (g.windowNo + 1) p' (classify env p' g.predictions) e3 hy
    obtain ⟨st', pr', i1, i2, i3, i4, i5⟩ := ih (fun x hx => hws x (by simp [hx]))
      { pre := p', out := { g.out with out := g.out.out ++ Csv.csvLine ((outputRow cfg (g.windowNo + 1) p' (classify env p' g.predictions)).map env.fmt) }, windowNo := g.windowNo + 1,
        predictions := classify env p' g.predictions } e2 hy hn
    simp only [] at i1 i2 i4 i5
    refine ⟨fun k => Nat.casesOn k g.pre st', fun k => Nat.casesOn k g.predictions pr', rfl, rfl, ?_, ?_, ?_⟩
    · intro k hk
      cases k with
      | zero => simp only [i1, i2]; exact ⟨e1, e2, rfl⟩
      | succ k => exact i3 k (by simpa using hk)
    · intro hall
      have h0 := hall 0 (by simp)
      simp only [i1, i2, Nat.add_zero] at h0
      obtain ⟨g', r1, r2⟩ := i4 (fun k hk => by
        have := hall (k + 1) (by simpa using hk)
        simp only [] at this
        rw [show g.windowNo + 1 + k + 1 = g.windowNo + (k + 1) + 1 by omega]; exact this)
      refine ⟨g', ?_, ?_⟩
      · rw [runWindows, e4, Csv.writeData_ok env.fmt g.out _ (by rw [hlen, hn]) h0]
        simp only [Option.bind_some]
        exact r1
      · rw [r2, List.length_cons, outputLines_succ env cfg g.windowNo ws.length _ st' _ pr' (fun _ => rfl) (fun _ => rfl)]
        show (g.out.out ++ Csv.csvLine _) ++ _ = g.out.out ++ (Csv.csvLine ((outputRow cfg (g.windowNo + 1) (st' 0) (pr' 0)).map env.fmt) ++ _)
        rw [i1, i2, List.append_assoc]
    · intro m hmlt hall good bad rest hsplit hgood hbad
      cases m with
      | zero =>
        simp only [i1, i2, Nat.add_zero] at hsplit
        refine ⟨{ g.out with out := g.out.out ++ (good.map (fun v => env.fmt v ++ [','])).flatten }, ?_, by simp [outputLines]⟩
        rw [runWindows, e4, (Csv.C27_write_effect_partial env.fmt g.out _).2.2.1 good bad rest hsplit (by rw [hlen, hn]) hgood hbad]
        rfl
      | succ m =>
        have h0 := hall 0 (by omega)
        simp only [i1, i2, Nat.add_zero] at h0
        obtain ⟨w', r1, r2⟩ := i5 m (by simpa using hmlt) (fun k hk => by
          have := hall (k + 1) (by omega)
          simp only [] at this
          rw [show g.windowNo + 1 + k + 1 = g.windowNo + (k + 1) + 1 by omega]; exact this) good bad rest (by
            rw [show g.windowNo + 1 + m + 1 = g.windowNo + (m + 1) + 1 by omega]; exact hsplit) hgood hbad
        refine ⟨w', ?_, ?_⟩
        · rw [runWindows, e4, Csv.writeData_ok env.fmt g.out _ (by rw [hlen, hn]) h0]
          simp only [Option.bind_some]
          exact r1
        · rw [r2, outputLines_succ env cfg g.windowNo m _ st' _ pr' (fun _ => rfl) (fun _ => rfl)]
          show (g.out.out ++ Csv.csvLine _) ++ _ ++ _ = g.out.out ++ (Csv.csvLine ((outputRow cfg (g.windowNo + 1) (st' 0) (pr' 0)).map env.fmt) ++ _) ++ _
          rw [i1, i2, List.append_assoc g.out.out]


/-! ### The whole program -/

/-- The preprocessor as the program sets it up. -/
noncomputable def setup (coef : List ℝ) (pre0 : Pre) (cfg : Config) : Pre :=
  (setFftFeatures (setGravityLowpass (init 128 pre0 cfg.samplerate cfg.windowLength).2 coef).2 1 10).2

theorem setup_ok (coef : List ℝ) (hc : coef.length = 12) (pre0 : Pre) (hf : pre0.features.length = 8) (hc0 : pre0.coef.length = 12) (cfg : Config) (hW : cfg.windowLength ≤ 128) :
    (init 128 pre0 cfg.samplerate cfg.windowLength).1 = 0 ∧ (setGravityLowpass (init 128 pre0 cfg.samplerate cfg.windowLength).2 coef).1 = 0 ∧
    (setFftFeatures (setGravityLowpass (init 128 pre0 cfg.samplerate cfg.windowLength).2 coef).2 1 10).1 = 0 ∧
    Configured cfg coef (setup coef pre0 cfg) ∧ (setup coef pre0 cfg).frames = 0 ∧ ∀ i, (setup coef pre0 cfg).states i = List.replicate 8 0 := by
  obtain ⟨i1, i2, _, _, i5, _, i7, i8⟩ := (C63_init 128 pre0 hf cfg.samplerate cfg.windowLength).1 (by simpa using hW)
  have hr := C77_init_ready 128 pre0 hf hc0 cfg.samplerate cfg.windowLength (by simpa using hW)
  obtain ⟨g1, g2⟩ := (C77_set_gravity 128 _ hr coef).1 hc
  have hst : ∀ i, (init 128 pre0 cfg.samplerate cfg.windowLength).2.states i = List.replicate 8 0 := by
    intro i
    unfold init
    rw [if_neg (by push Not; intro; simpa using hW)]
    simp only []
    rw [if_neg (by simp [Iir.check, Pre.filter])]
    unfold Fft.fill Fft.fillWith
    rw [if_pos rfl]
  have hs : setFftFeatures (setGravityLowpass (init 128 pre0 cfg.samplerate cfg.windowLength).2 coef).2 1 10 =
      (0, { (setGravityLowpass (init 128 pre0 cfg.samplerate cfg.windowLength).2 coef).2 with fftStart := 1, fftEnd := 10 }) := by
    unfold setFftFeatures
    have := g2.1.2
    rw [if_neg (by norm_num), if_neg (by rw [this]; norm_num), if_neg (by rw [this]; norm_num)]
  refine ⟨i1, by rw [g1], by rw [hs], ?_, ?_, ?_⟩
  · unfold setup
    rw [hs]
    refine ⟨⟨⟨g2.1.1, g2.1.2, g2.1.3, by norm_num, by norm_num⟩, g2.2, g2.3, g2.4⟩, ?_, ?_, ?_, ?_, rfl, rfl⟩
    · simp only [g1]; exact i5
    · simp only [g1]; exact i7
    · simp only [g1]
    · simp only [g1]
  · unfold setup
    rw [hs]
    simp only [g1]; exact i8
  · unfold setup
    rw [hs]
    simp only [g1]; exact hst

theorem expectColumns_ok : expectColumns ≠ [] ∧ (∀ c ∈ expectColumns, Csv.Clean c) ∧ ([','].intercalate expectColumns).length = 43 ∧ expectColumns.length = 7 := by
  refine ⟨by decide +kernel, ?_, by decide +kernel, rfl⟩
  have : ∀ c ∈ expectColumns, ∀ x ∈ c, x ≠ ',' ∧ x ≠ '\n' ∧ x ≠ '\x00' := by decide +kernel
  exact this

/-- The state of the reader after the header of a well-formed file. -/
theorem header_delivers (contents : List Char) (rows : List (List (List Char))) (hfile : contents = Csv.csvLine expectColumns ++ (rows.map Csv.csvLine).flatten) (hok : ∀ r ∈ rows, RowOk r) :
    ∃ p n, (Csv.readInternal { nColumns := 0, loc := 0, file := contents, pos := 0, seekOk := fun _ => true } (List.replicate 1000 '\x00') 10).2 = some (p, n) ∧
      (Csv.readHeader { nColumns := 0, loc := 0, file := contents, pos := 0, seekOk := fun _ => true } (List.replicate 1000 '\x00') 10).2 = (.ok, expectColumns) ∧
      (Csv.readHeader { nColumns := 0, loc := 0, file := contents, pos := 0, seekOk := fun _ => true } (List.replicate 1000 '\x00') 10).1.nColumns = 7 ∧
      ∀ cols, Delivers ⟨(Csv.readHeader { nColumns := 0, loc := 0, file := contents, pos := 0, seekOk := fun _ => true } (List.replicate 1000 '\x00') 10).1, p.buffer, cols⟩ rows := by
  obtain ⟨hne, hclean, hlen, h7⟩ := expectColumns_ok
  obtain ⟨r0, hr0⟩ : ∃ r0 : Csv.Reader, r0 = { nColumns := 0, loc := 0, file := contents, pos := 0, seekOk := fun _ => true } := ⟨_, rfl⟩
  rw [← hr0]
  have hfile0 : r0.file = contents := by rw [hr0]
  have hpos0 : r0.pos = 0 := by rw [hr0]
  have hseek : ∀ q, r0.seekOk q = true := by rw [hr0]; intro q; rfl
  obtain ⟨r', p, a1, a2, a3, a4, a5, a6⟩ := Csv.readInternal_line r0 (List.replicate 1000 '\x00') 10 expectColumns hne hclean ((rows.map Csv.csvLine).flatten)
    (by rw [hfile0, hpos0, hfile]; simp [Csv.csvLine]) (by omega) (by rw [hlen, List.length_replicate]; omega)
  have hplen : p.columns.length = 7 := by rw [← h7, ← a2]; simp [Csv.Parse.strings]
  have hread : Csv.readHeader r0 (List.replicate 1000 '\x00') 10 = ({ r' with nColumns := 7, loc := 44, pos := 44 }, .ok, expectColumns) := by
    unfold Csv.readHeader
    rw [a1]
    simp only
    rw [a6, if_pos (hseek _), hplen, a2, hlen]
  refine ⟨p, _, by rw [a1], by rw [hread], by rw [hread], fun cols => ?_⟩
  rw [hread]
  refine ⟨?_, rfl, rfl, by rw [a6]; exact hseek, ?_, hok⟩
  · simp only
    rw [a5, hfile0, hfile, show (44 : Nat) = (Csv.csvLine expectColumns).length by rw [Csv.csvLine, List.length_append, hlen]; rfl, List.drop_left]
  · have := ((Csv.C26_buffer_bounds r0 (List.replicate 1000 '\x00') 10).2 p _ (by rw [a1])).1
    rw [this, List.length_replicate]

/-- `main` from a successful setup on. -/
theorem main_setup (env : Env) (coef : List ℝ) (hc : coef.length = 12) (files : List Char → Option (List Char)) (writable : List Char → Bool) (pre0 : Pre) (hf : pre0.features.length = 8)
    (hc0 : pre0.coef.length = 12) (junk : List (List Char)) (fuel : Nat) (args : List (List Char)) (cfg : Config) (hargs : optParse args defaults = some (0, cfg))
    (input output : List Char) (hin : cfg.input = some input) (hout : cfg.output = some output) (hw : writable output = true)
    (rows : List (List (List Char))) (hfile : files input = some (Csv.csvLine expectColumns ++ (rows.map Csv.csvLine).flatten)) (hrows : ∀ r ∈ rows, RowOk r)
    (hW : cfg.windowLength ≤ 128) (hs1 : -2147483648 ≤ cfg.samplerate) (hs2 : cfg.samplerate ≤ 2147483647) :
    ∃ src, Delivers src rows ∧ main env coef files writable pre0 junk fuel args =
      (mainLoop env cfg 17 fuel 0 { src := src, readIndex := 0, buffer := List.replicate 200 junk }
        { pre := setup coef pre0 cfg, out := { nColumns := 20, out := Csv.csvLine (columns (setup coef pre0 cfg)) }, windowNo := 0, predictions := [-1, -1] }).map fun r => (r.1, some r.2.out) := by
  obtain ⟨p, n, b1, b2, b3, b4⟩ := header_delivers _ rows rfl hrows
  obtain ⟨s1, s2, s3, s4, _⟩ := setup_ok coef hc pre0 hf hc0 cfg hW
  have hlen : getFeatureLength (setup coef pre0 cfg) = 17 := by unfold getFeatureLength; rw [s4.first, s4.last]; norm_num
  have hcols := program_columns (setup coef pre0 cfg) s4.first s4.last s4.1.1.2 (by rw [s4.rate]; exact hs1) (by rw [s4.rate]; exact hs2)
  have hcl : (columns (setup coef pre0 cfg)).length = 20 := by unfold columns; rw [hlen]; simp
  refine ⟨_, b4 (p.columns ++ List.replicate (10 - p.columns.length) 0), ?_⟩
  unfold main
  rw [hargs, Option.bind_some, if_neg (by simp)]
  simp only []
  rw [hin, Option.bind_some, hfile]
  simp only []
  rw [b1]
  simp only []
  rw [if_neg (by rw [b2]; simp), if_neg (by rw [b3]; simp), if_neg (by rw [b2]; simp), if_neg (by omega), if_neg (by rw [s1]; simp), if_neg (by rw [s2]; simp), if_neg (by rw [s3]; simp)]
  show ((columnNames (setup coef pre0 cfg) 2800).bind _) = _
  rw [hcols, Option.bind_some]
  simp only []
  rw [hout, Option.bind_some, if_pos hw]
  have hh : (Csv.writeHeader { nColumns := (columns (setup coef pre0 cfg)).length, out := [] } (columns (setup coef pre0 cfg))).1 =
      { nColumns := 20, out := Csv.csvLine (columns (setup coef pre0 cfg)) } := by
    simp [Csv.writeHeader, Csv.headerLoop_eq, Csv.csvLine, Csv.eol, hcl]
  rw [hh]
  show (mainLoop env cfg (getFeatureLength (setup coef pre0 cfg)) _ _ _ _).map _ = _
  rw [hlen]
  rfl

/-- **C109.** For every command line that names a readable CSV file of sensor rows and a writable output, hop and window lengths `1 ≤ H ≤ W ≤ 128` and a positive sampling rate, and every model
compiled in that works: the program ends, having processed exactly the windows of `W` rows that start at multiples of `H` and fit in the file, in order, each with the preprocessor state
the previous left. With `st k` and `pr k` the preprocessor and class probabilities after `k` windows (`st 0` being as set up, `pr 0` two times -1): if every number's text has
fewer than 20 characters, the exit status is 0 and the output file is the header line and one line per window — time of the window's end hop, the 8 fixed features, FFT bins 1 to 9, probabilities;
otherwise the status is -3 and the file ends before the first number that is too long. -/
theorem C109_process (env : Env) (hm : ModelOk env) (coef : List ℝ) (hc : coef.length = 12) (files : List Char → Option (List Char)) (writable : List Char → Bool) (pre0 : Pre)
    (hf : pre0.features.length = 8) (hc0 : pre0.coef.length = 12) (junk : List (List Char)) (args : List (List Char)) (cfg : Config) (hargs : optParse args defaults = some (0, cfg))
    (input output : List Char) (hin : cfg.input = some input) (hout : cfg.output = some output) (hw : writable output = true)
    (rows : List (List (List Char))) (hfile : files input = some (Csv.csvLine expectColumns ++ (rows.map Csv.csvLine).flatten)) (hrows : ∀ r ∈ rows, RowOk r)
    (W H : Nat) (hW : cfg.windowLength = W) (hH : cfg.hopLength = H) (h1 : 1 ≤ H) (h2 : H ≤ W) (h3 : W ≤ 128) (hs1 : 0 < cfg.samplerate) (hs2 : cfg.samplerate ≤ 2147483647)
    (fuel : Nat) (hfuel : rows.length + 104 ≤ fuel) :
    ∃ (st : Nat → Pre) (pr : Nat → List ℝ), st 0 = setup coef pre0 cfg ∧ Configured cfg coef (st 0) ∧ pr 0 = [-1, -1] ∧
      (∀ k < (windows rows W H).length, runPre (st k) (windowData env (slice rows (k * H) W)) = some (0, st (k + 1)) ∧ Configured cfg coef (st (k + 1)) ∧
        pr (k + 1) = classify env (st (k + 1)) (pr k)) ∧
      ((∀ k < (windows rows W H).length, ∀ v ∈ outputRow cfg (k + 1) (st (k + 1)) (pr (k + 1)), (env.fmt v).length < 20) →
        main env coef files writable pre0 junk fuel args =
          some (0, some (Csv.csvLine (columns (st 0)) ++
            ((List.range (windows rows W H).length).map fun k => Csv.csvLine ((outputRow cfg (k + 1) (st (k + 1)) (pr (k + 1))).map env.fmt)).flatten))) ∧
      (∀ m < (windows rows W H).length, (∀ k < m, ∀ v ∈ outputRow cfg (k + 1) (st (k + 1)) (pr (k + 1)), (env.fmt v).length < 20) →
        ∀ good bad rest, outputRow cfg (m + 1) (st (m + 1)) (pr (m + 1)) = good ++ bad :: rest → (∀ v ∈ good, (env.fmt v).length < 20) → 20 ≤ (env.fmt bad).length →
        main env coef files writable pre0 junk fuel args =
          some (-3, some (Csv.csvLine (columns (st 0)) ++
            ((List.range m).map fun k => Csv.csvLine ((outputRow cfg (k + 1) (st (k + 1)) (pr (k + 1))).map env.fmt)).flatten ++ (good.map (fun v => env.fmt v ++ [','])).flatten))) := by
  obtain ⟨_, _, _, s4, _⟩ := setup_ok coef hc pre0 hf hc0 cfg (by omega)
  obtain ⟨src, hd, hmain⟩ := main_setup env coef hc files writable pre0 hf hc0 junk fuel args cfg hargs input output hin hout hw rows hfile hrows (by omega) (by omega) hs2
  have hp := C58_process rows (List.replicate 200 junk) W H h1 h2 (by rw [List.length_replicate]; omega) fuel hfuel
  rw [← hW, ← hH] at hp
  have hlenw : ∀ k < (windows rows W H).length, k * H + W ≤ rows.length ∧ (windows rows W H).getD k [] = slice rows (k * H) W := by
    intro k hk
    unfold windows at hk ⊢
    rw [List.length_map, List.length_range] at hk
    by_cases hw' : W ≤ rows.length
    · rw [if_pos hw'] at hk ⊢
      have : k * H ≤ rows.length - W := le_trans (Nat.mul_le_mul_right H (by omega : k ≤ (rows.length - W) / H)) (Nat.div_mul_le_self _ _)
      refine ⟨by omega, ?_⟩
      rw [List.getD_eq_getElem?_getD, List.getElem?_map, List.getElem?_range hk]
      rfl
    · rw [if_neg hw'] at hk; omega
  have hws : ∀ w ∈ windows rows W H, w.length = W ∧ ∀ r ∈ w, r.length = 7 := by
    intro w hwm
    obtain ⟨k, hk, rfl⟩ := List.getElem_of_mem hwm
    obtain ⟨e1, e2⟩ := hlenw k hk
    rw [List.getD_eq_getElem?_getD, List.getElem?_eq_getElem hk, Option.getD_some] at e2
    rw [e2]
    unfold slice
    refine ⟨by simp; omega, fun r hr => (hrows r (List.mem_of_mem_drop (List.mem_of_mem_take hr))).seven⟩
  obtain ⟨st, pr, r1, r2, r3, r4, r5⟩ := runWindows_spec env hm cfg coef W (by omega) h3 hW hs1 (windows rows W H) hws
    { pre := setup coef pre0 cfg, out := { nColumns := 20, out := Csv.csvLine (columns (setup coef pre0 cfg)) }, windowNo := 0, predictions := [-1, -1] } s4 rfl rfl
  simp only [Nat.zero_add] at r1 r2 r4 r5
  refine ⟨st, pr, r1, by rw [r1]; exact s4, r2, fun k hk => by rw [← (hlenw k hk).2]; exact r3 k hk, fun hall => ?_, fun m hmlt hall good bad rest hsp hg hb => ?_⟩
  · obtain ⟨g', q1, q2⟩ := r4 hall
    rw [hmain, mainLoop_windows env cfg 17 fuel 0 src { stream := rows, readIndex := 0, buffer := List.replicate 200 junk } hd (windows rows W H) hp _ _ q1, r1]
    simp only [finish, Option.map_some, q2, outputLines, Nat.zero_add]
  · obtain ⟨w, q1, q2⟩ := r5 m hmlt hall good bad rest hsp hg hb
    rw [hmain, mainLoop_windows env cfg 17 fuel 0 src { stream := rows, readIndex := 0, buffer := List.replicate 200 junk } hd (windows rows W H) hp _ _ q1, r1]
    simp only [finish, Option.map_some, q2, outputLines, Nat.zero_add]

/-- **C109 (refusals).** A command line that does not parse or an unreadable input gives status 1; a header line (of at most ten names, in the 1000-byte read buffer) with a number of columns
other than 7 gives 21, with other names 22; with the expected header, window lengths over 200 give 31, those from 129 to 200 give 3, and an output that cannot be opened gives 3. The output file is
not touched in any of these. -/
theorem C109_refusals (env : Env) (coef : List ℝ) (files : List Char → Option (List Char)) (writable : List Char → Bool) (pre0 : Pre) (junk : List (List Char)) (fuel : Nat)
    (args : List (List Char)) (code : Int) (cfg : Config) (hargs : optParse args defaults = some (code, cfg)) :
    (code ≠ 0 → main env coef files writable pre0 junk fuel args = some (1, none)) ∧
    (code = 0 → ∀ input, cfg.input = some input →
      (files input = none → main env coef files writable pre0 junk fuel args = some (1, none)) ∧
      ∀ (names : List (List Char)) (rest : List Char), names ≠ [] → (∀ c ∈ names, Csv.Clean c) → names.length ≤ 10 → (Csv.csvLine names).length ≤ 1000 →
        files input = some (Csv.csvLine names ++ rest) →
        (names.length ≠ 7 → main env coef files writable pre0 junk fuel args = some (21, none)) ∧
        (names.length = 7 → names ≠ expectColumns → main env coef files writable pre0 junk fuel args = some (22, none)) ∧
        (names = expectColumns → 200 < cfg.windowLength → main env coef files writable pre0 junk fuel args = some (31, none)) ∧
        (names = expectColumns → 128 < cfg.windowLength → cfg.windowLength ≤ 200 → main env coef files writable pre0 junk fuel args = some (3, none)) ∧
        (names = expectColumns → cfg.windowLength ≤ 128 → coef.length = 12 → pre0.features.length = 8 → pre0.coef.length = 12 → -2147483648 ≤ cfg.samplerate →
          cfg.samplerate ≤ 2147483647 → ∀ output, cfg.output = some output → writable output = false → main env coef files writable pre0 junk fuel args = some (3, none))) := by
  constructor
  · intro hne
    unfold main
    rw [hargs, Option.bind_some, if_pos hne]
  intro hcode input hin
  subst hcode
  constructor
  · intro hn
    unfold main
    rw [hargs, Option.bind_some, if_neg (by simp)]
    simp only []
    rw [hin, Option.bind_some, hn]
  intro names rest hne hclean h10 hlen hfile
  obtain ⟨r0, hr0⟩ : ∃ r0 : Csv.Reader, r0 = { nColumns := 0, loc := 0, file := Csv.csvLine names ++ rest, pos := 0, seekOk := fun _ => true } := ⟨_, rfl⟩
  have hfile0 : r0.file = Csv.csvLine names ++ rest := by rw [hr0]
  have hpos0 : r0.pos = 0 := by rw [hr0]
  have hseek : ∀ q, r0.seekOk q = true := by rw [hr0]; intro q; rfl
  obtain ⟨r', p, a1, a2, a3, a4, a5, a6⟩ := Csv.readInternal_line r0 (List.replicate 1000 '\x00') 10 names hne hclean rest
    (by rw [hfile0, hpos0]; simp [Csv.csvLine]) h10 (by
      rw [Csv.csvLine, List.length_append, List.length_singleton] at hlen
      rw [List.length_replicate]; omega)
  have hplen : p.columns.length = names.length := by rw [← a2]; simp [Csv.Parse.strings]
  have hread : Csv.readHeader r0 (List.replicate 1000 '\x00') 10 =
      ({ r' with nColumns := names.length, loc := ([','].intercalate names).length + 1, pos := ([','].intercalate names).length + 1 }, .ok, names) := by
    unfold Csv.readHeader
    rw [a1]
    simp only
    rw [a6, if_pos (hseek _), hplen, a2]
  have hmain : ∃ src : CsvWin, main env coef files writable pre0 junk fuel args =
      if names.length ≠ 7 then some (21, none)
      else if names ≠ expectColumns then some (22, none)
      else if cfg.windowLength > 200 then some (31, none)
      else if (init 128 pre0 cfg.samplerate cfg.windowLength).1 ≠ 0 then some (3, none)
      else if (setGravityLowpass (init 128 pre0 cfg.samplerate cfg.windowLength).2 coef).1 ≠ 0 then some (3, none)
      else if (setFftFeatures (setGravityLowpass (init 128 pre0 cfg.samplerate cfg.windowLength).2 coef).2 1 10).1 ≠ 0 then some (3, none)
      else (columnNames (setup coef pre0 cfg) 2800).bind fun n =>
        match n with
        | .error e => some (e, none)
        | .ok columns => cfg.output.bind fun outputName =>
          if writable outputName then
            (mainLoop env cfg (getFeatureLength (setup coef pre0 cfg)) fuel 0 src
              { pre := setup coef pre0 cfg, out := (Csv.writeHeader { nColumns := columns.length, out := [] } columns).1, windowNo := 0, predictions := [-1, -1] }).map fun r => (r.1, some r.2.out)
          else some (3, none) := by
    refine ⟨⟨⟨{ r' with nColumns := names.length, loc := ([','].intercalate names).length + 1, pos := ([','].intercalate names).length + 1 }, p.buffer,
      p.columns ++ List.replicate (10 - p.columns.length) 0⟩, 0, List.replicate 200 junk⟩, ?_⟩
    unfold main
    rw [hargs, Option.bind_some, if_neg (by simp)]
    simp only []
    rw [hin, Option.bind_some, hfile]
    simp only []
    rw [← hr0, a1]
    simp only []
    rw [hread, if_neg (by simp)]
    rfl
  obtain ⟨src, hmain⟩ := hmain
  refine ⟨fun h => by rw [hmain, if_pos h], fun h h' => by rw [hmain, if_neg (by omega), if_pos h'], fun h h' => ?_, fun h h' h'' => ?_, fun h h' hc hf hc0 hs1 hs2 output hout hw => ?_⟩
  · have h7 : names.length = 7 := by rw [h]; rfl
    rw [hmain, if_neg (by omega), if_neg (by simpa using h), if_pos h']
  · have h7 : names.length = 7 := by rw [h]; rfl
    rw [hmain, if_neg (by omega), if_neg (by simpa using h), if_neg (by omega), if_pos]
    unfold init
    rw [if_pos ⟨by norm_num, by simpa using h'⟩]
    simp
  · have h7 : names.length = 7 := by rw [h]; rfl
    obtain ⟨s1, s2, s3, s4, _⟩ := setup_ok coef hc pre0 hf hc0 cfg h'
    have hcols := program_columns (setup coef pre0 cfg) s4.first s4.last s4.1.1.2 (by rw [s4.rate]; exact hs1) (by rw [s4.rate]; exact hs2)
    rw [hmain, if_neg (by omega), if_neg (by simpa using h), if_neg (by omega), if_neg (by rw [s1]; simp), if_neg (by rw [s2]; simp), if_neg (by rw [s3]; simp), hcols, Option.bind_some]
    simp only []
    rw [hout, Option.bind_some, if_neg (by simp [hw])]

/-- The first `n` rows the program sees in a file (after its header), `none` at the end. -/
def seenRows : Nat → Source → List (Option (List (List Char)))
  | 0, _ => []
  | n + 1, s =>
    match nextRow s with
    | none => []
    | some (r, s') => r :: seenRows n s'

/-- The program's source once it has read the header of a file. -/
def opened (contents : List Char) : Source :=
  let r : Csv.Reader := { nColumns := 0, loc := 0, file := contents, pos := 0, seekOk := fun _ => true }
  { reader := (Csv.readHeader r (List.replicate 1000 '\x00') 10).1
    buf := match (Csv.readInternal r (List.replicate 1000 '\x00') 10).2 with | none => [] | some (p, _) => p.buffer
    cols := match (Csv.readInternal r (List.replicate 1000 '\x00') 10).2 with | none => [] | some (p, _) => p.columns ++ List.replicate (10 - p.columns.length) 0 }

/-- **C109, refuted without a newline at the end of the file.** The reader reports the incomplete last line with an error code; the program does not look at it, and takes the line with whatever the
pointer to the last column showed: here the last value of the second row is read from an empty text (which `strtod` turns into 0) instead of "6". -/
theorem C109_last_line_refuted :
    seenRows 3 (opened "time,acc_x,acc_y,acc_z,gyro_x,gyro_y,gyro_z\n0,1,2,3,4,5,6\n1,10,2,3,4,5,6".toList) =
      [some ["0".toList, "1".toList, "2".toList, "3".toList, "4".toList, "5".toList, "6".toList],
       some ["1".toList, "10".toList, "2".toList, "3".toList, "4".toList, "5".toList, []], none] := by decide +kernel

/-- **C109, refuted for a line with too few columns.** Such a line is not skipped or reported: it is taken as a row (its missing values read from what the old pointers show), and all that follows it
in the 1000-byte buffer is lost: of the four lines below, two rows are seen. -/
theorem C109_short_line_refuted :
    (seenRows 4 (opened "time,acc_x,acc_y,acc_z,gyro_x,gyro_y,gyro_z\n0,1,2,3,4,5,6\n1,2\n2,1,2,3,4,5,6\n3,1,2,3,4,5,6\n".toList)).map (Option.map (List.take 2)) =
      [some ["0".toList, "1".toList], some ["1".toList, "2".toList], none, none] := by decide +kernel

/-- Non-vacuity: three rows, windows of 2 rows with hop 1, no model; any uninitialised structure, any 12 filter coefficients, any numbers in the text. -/
example (num : List Char → ℝ) (coef : List ℝ) (hc : coef.length = 12) (pre0 : Pre) (hf : pre0.features.length = 8) (hc0 : pre0.coef.length = 12) (junk : List (List Char)) :
    ∃ file, main { num := num, fmt := fun _ => "0.000000".toList, model := none } coef
      (fun name => if name = "in.csv".toList then some "time,acc_x,acc_y,acc_z,gyro_x,gyro_y,gyro_z\n0,1,2,3,4,5,6\n1,1,2,3,4,5,6\n2,1,2,3,4,5,6\n".toList else none)
      (fun _ => true) pre0 junk 200 ["--input".toList, "in.csv".toList, "-output".toList, "out.csv".toList, "--window_length".toList, "2".toList, "--hop_length".toList, "1".toList] =
      some (0, some file) := by
  have hargs : optParse ["--input".toList, "in.csv".toList, "-output".toList, "out.csv".toList, "--window_length".toList, "2".toList, "--hop_length".toList, "1".toList] defaults =
      some (0, { input := some "in.csv".toList, output := some "out.csv".toList, samplerate := 50, hopLength := 1, windowLength := 2 }) := by decide +kernel
  have hrows : ∀ r ∈ ["0,1,2,3,4,5,6".toList, "1,1,2,3,4,5,6".toList, "2,1,2,3,4,5,6".toList].map (List.splitOn ','), RowOk r := by
    have h : ∀ r ∈ ["0,1,2,3,4,5,6".toList, "1,1,2,3,4,5,6".toList, "2,1,2,3,4,5,6".toList].map (List.splitOn ','),
      r.length = 7 ∧ (∀ c ∈ r, ∀ x ∈ c, x ≠ ',' ∧ x ≠ '\n' ∧ x ≠ '\x00') ∧ (∀ c ∈ r, c ≠ []) ∧ (Csv.csvLine r).length ≤ 1000 := by decide +kernel
    exact fun r hr => ⟨(h r hr).1, (h r hr).2.1, (h r hr).2.2.1, (h r hr).2.2.2⟩
  obtain ⟨st, pr, _, _, _, _, h, _⟩ := C109_process { num := num, fmt := fun _ => "0.000000".toList, model := none } (by intro f h; cases h) coef hc
    (fun name => if name = "in.csv".toList then some "time,acc_x,acc_y,acc_z,gyro_x,gyro_y,gyro_z\n0,1,2,3,4,5,6\n1,1,2,3,4,5,6\n2,1,2,3,4,5,6\n".toList else none)
    (fun _ => true) pre0 hf hc0 junk _ _ hargs "in.csv".toList "out.csv".toList rfl rfl rfl
    (["0,1,2,3,4,5,6".toList, "1,1,2,3,4,5,6".toList, "2,1,2,3,4,5,6".toList].map (List.splitOn ',')) (by rw [if_pos rfl]; decide +kernel) hrows 2 1 rfl rfl le_rfl (by norm_num) (by norm_num)
    (by norm_num) (by norm_num) 200 (by decide +kernel)
  exact ⟨_, h (fun k _ v _ => by show "0.000000".toList.length < 20; decide)⟩

end Emlearn.Motion
