/- C59: the zephyr sensor reader thread and main loop, under every schedule. -/
import Verif.Motion.Sensor
import Mathlib.Tactic.Ring
import Mathlib.Tactic.Linarith
namespace Emlearn.Sensor

/-- Window number `j`: `W` consecutive samples. -/
def window (W j : Nat) : List Nat := (List.range W).map (fun i => j * W + i)

theorem window_get (W j i : Nat) (h : i < W) : (window W j)[i]? = some (j * W + i) := by simp [window, h]

theorem window_length (W j : Nat) : (window W j).length = W := by simp [window]

/-- A chunk row by row comes from windows that never go backwards: row `i` is row `i` of window `js[i]`. -/
def Torn (W : Nat) (rows : List Nat) : Prop :=
  ∃ (js : List Nat), js.length = rows.length ∧ js.Pairwise (· ≤ ·) ∧ ∀ i < rows.length, ∃ (j : Nat), js[i]? = some j ∧ rows[i]? = some (j * W + i)

/-- Invariant of all reachable states: `done` windows are complete. -/
structure Inv (W : Nat) (s : State) : Prop where
  time : s.time = s.time / W * W + s.samples.length
  samples : ∀ i < s.samples.length, s.samples[i]? = some (s.time / W * W + i)
  short : s.samples.length < W
  output : s.time / W = 0 ∨ s.output = window W (s.time / W - 1)
  fresh : s.time / W = 0 → s.queued = false ∧ s.processing = none
  cur : ∀ rows, s.processing = some rows → rows.length ≤ W ∧ ∃ (js : List Nat), js.length = rows.length ∧ js.Pairwise (· ≤ ·) ∧ (∀ j ∈ js, j < s.time / W) ∧
    ∀ i < rows.length, ∃ (j : Nat), js[i]? = some j ∧ rows[i]? = some (j * W + i)
  past : ∀ rows ∈ s.processed, rows.length = W ∧ Torn W rows

theorem inv_init (W : Nat) (hW : 0 < W) : Inv W init := by
  constructor <;> simp [init, hW]

theorem inv_reader (W : Nat) (hW : 0 < W) (s : State) (h : Inv W s) : Inv W (readerStep W s) := by
  obtain ⟨h1, h2, h3, h4, h5, h6, h7⟩ := h
  unfold readerStep
  simp only []
  by_cases hl : (s.samples ++ [s.time]).length = W
  · rw [if_pos hl]
    have hlen : s.samples.length + 1 = W := by simpa using hl
    have hd : (s.time + 1) / W = s.time / W + 1 := by
      have : s.time + 1 = (s.time / W + 1) * W := by rw [Nat.add_mul, Nat.one_mul]; linarith
      rw [this, Nat.mul_div_cancel _ hW]
    constructor
    · simp only [List.length_nil, hd]; rw [Nat.add_mul, Nat.one_mul]; linarith
    · simp
    · simpa using hW
    · right
      simp only [hd]
      rw [Nat.add_sub_cancel]
      apply List.ext_getElem?
      intro i
      by_cases hi : i < W
      · rw [window_get W _ i hi]
        by_cases hi2 : i < s.samples.length
        · rw [List.getElem?_append_left hi2]; exact h2 i hi2
        · have hie : i = s.samples.length := by clear h1; omega
          rw [hie, List.getElem?_append_right le_rfl, Nat.sub_self]
          simp only [List.getElem?_cons_zero, Option.some.injEq]
          exact h1
      · rw [List.getElem?_eq_none (by omega), List.getElem?_eq_none (by rw [window_length]; omega)]
    · simp only [hd]; intro h0; exact absurd h0 (Nat.succ_ne_zero _)
    · intro rows hr
      obtain ⟨a, js, b, c, d, e⟩ := h6 rows hr
      exact ⟨a, js, b, c, fun j hj => by have := d j hj; simp only [hd]; omega, e⟩
    · exact h7
  · rw [if_neg hl]
    have hlen : s.samples.length + 1 < W := by simp at hl; omega
    have hd : (s.time + 1) / W = s.time / W := by
      have : s.time + 1 = (s.samples.length + 1) + s.time / W * W := by omega
      rw [this, Nat.add_mul_div_right _ _ hW, Nat.div_eq_of_lt hlen]; simp
    constructor
    · simp only [hd, List.length_append, List.length_singleton]; omega
    · intro i hi
      simp only [List.length_append, List.length_singleton] at hi
      simp only [hd]
      by_cases hi2 : i < s.samples.length
      · rw [List.getElem?_append_left hi2]; exact h2 i hi2
      · rw [List.getElem?_append_right (by omega), show i - s.samples.length = 0 by omega]
        simp only [List.getElem?_cons_zero, Option.some.injEq]
        omega
    · simpa using hlen
    · simp only [hd]; exact h4
    · simp only [hd]; exact h5
    · simp only [hd]; exact h6
    · exact h7

theorem inv_main (W : Nat) (s : State) (h : Inv W s) : ∃ (s' : State), mainStep W s = some s' ∧ Inv W s' := by
  obtain ⟨h1, h2, h3, h4, h5, h6, h7⟩ := h
  unfold mainStep
  cases hp : s.processing with
  | none =>
    simp only []
    refine ⟨_, rfl, ?_⟩
    split
    · rename_i hq
      refine ⟨h1, h2, h3, h4, fun h0 => absurd (h5 h0).1 (by simp [hq]), ?_, h7⟩
      intro rows hr
      simp only [Option.some.injEq] at hr
      subst hr
      exact ⟨by simp, [], rfl, List.Pairwise.nil, by simp, by simp⟩
    · exact ⟨h1, h2, h3, h4, h5, h6, h7⟩
  | some rows =>
    simp only []
    obtain ⟨a, js, b, c, d, e⟩ := h6 rows hp
    have hpos : s.time / W ≠ 0 := fun h0 => by have := (h5 h0).2; rw [hp] at this; simp at this
    split
    · rename_i hlt
      have hout := (h4.resolve_left hpos)
      have hg : s.output[rows.length]? = some ((s.time / W - 1) * W + rows.length) := by rw [hout, window_get W _ _ hlt]
      rw [hg]
      refine ⟨_, rfl, ⟨h1, h2, h3, h4, fun h0 => absurd h0 hpos, ?_, h7⟩⟩
      intro rows' hr
      simp only [Option.some.injEq] at hr
      subst hr
      refine ⟨by simp; omega, js ++ [s.time / W - 1], by simp [b], ?_, ?_, ?_⟩
      · rw [List.pairwise_append]
        refine ⟨c, List.pairwise_singleton _ _, ?_⟩
        intro x hx y hy
        simp only [List.mem_singleton] at hy
        have := d x hx; omega
      · intro j hj
        simp only [List.mem_append, List.mem_singleton] at hj
        show j < s.time / W
        rcases hj with hj | hj
        · exact d j hj
        · rw [hj]; exact Nat.sub_lt (Nat.pos_of_ne_zero hpos) Nat.one_pos
      · intro i hi
        simp only [List.length_append, List.length_singleton] at hi
        by_cases hi2 : i < rows.length
        · obtain ⟨j, e1, e2⟩ := e i hi2
          exact ⟨j, by rw [List.getElem?_append_left (by omega)]; exact e1, by rw [List.getElem?_append_left hi2]; exact e2⟩
        · have : i = rows.length := by clear h1; omega
          subst this
          exact ⟨s.time / W - 1, by rw [List.getElem?_append_right (by omega)]; simp [b], by simp⟩
    · rename_i hlt
      refine ⟨_, rfl, ⟨h1, h2, h3, h4, fun h0 => absurd h0 hpos, by simp, ?_⟩⟩
      intro rows' hr
      simp only [List.mem_append, List.mem_singleton] at hr
      rcases hr with hr | rfl
      · exact h7 rows' hr
      · exact ⟨by omega, js, b, c, e⟩

theorem run_append (W : Nat) (a b : List Who) (s : State) : run W (a ++ b) s = (run W a s).bind (run W b) := by
  induction a generalizing s with
  | nil => rfl
  | cons w a ih =>
    simp only [List.cons_append, run]
    cases step W s w with
    | none => rfl
    | some s' => simpa using ih s'

theorem inv_run (W : Nat) (hW : 0 < W) (sched : List Who) (s : State) (h : Inv W s) : ∃ (s' : State), run W sched s = some s' ∧ Inv W s' := by
  induction sched generalizing s with
  | nil => exact ⟨s, rfl, h⟩
  | cons w ws ih =>
    cases w with
    | reader =>
      obtain ⟨s', h1, h2⟩ := ih (readerStep W s) (inv_reader W hW s h)
      exact ⟨s', by simpa [run, step] using h1, h2⟩
    | main =>
      obtain ⟨s1, e1, e2⟩ := inv_main W s h
      obtain ⟨s', h1, h2⟩ := ih s1 e2
      exact ⟨s', by simp [run, step, e1, h1], h2⟩

/-- **C59 (every schedule).** Under every interleaving no access is out of bounds, and every chunk the main loop processes has `W` rows, each taken from its own place in some window, the
windows never going backwards within the chunk. -/
theorem C59_every_schedule_partial (W : Nat) (hW : 0 < W) (sched : List Who) :
    ∃ (s : State), run W sched init = some s ∧ ∀ rows ∈ s.processed, rows.length = W ∧ Torn W rows := by
  obtain ⟨s, h1, h2⟩ := inv_run W hW sched init (inv_init W hW)
  exact ⟨s, h1, h2.past⟩

/-- Invariant when, while a chunk is being processed, fewer than `W` samples arrive. -/
def Calm (W : Nat) (s : State) : Prop :=
  (∀ rows, s.processing = some rows → s.time / W ≠ 0 ∧ rows = (window W (s.time / W - 1)).take rows.length ∧ rows.length ≤ W) ∧
  ∀ rows ∈ s.processed, ∃ j, rows = window W j

/-- A schedule is calm when no window is completed while the main loop is in the middle of a chunk. -/
def CalmSchedule (W : Nat) : List Who → State → Prop
  | [], _ => True
  | w :: ws, s => (w = .reader → s.processing ≠ none → s.samples.length + 1 ≠ W) ∧ ∀ s', step W s w = some s' → CalmSchedule W ws s'

theorem calm_run (W : Nat) (hW : 0 < W) (sched : List Who) (s : State) (h : Inv W s) (hc : Calm W s) (hs : CalmSchedule W sched s) :
    ∃ (s' : State), run W sched s = some s' ∧ Calm W s' := by
  induction sched generalizing s with
  | nil => exact ⟨s, rfl, hc⟩
  | cons w ws ih =>
    obtain ⟨hs1, hs2⟩ := hs
    cases w with
    | reader =>
      have hc' : Calm W (readerStep W s) := by
        unfold readerStep
        simp only []
        by_cases hl : (s.samples ++ [s.time]).length = W
        · rw [if_pos hl]
          have hn : s.processing = none := by
            by_contra hne
            exact hs1 rfl hne (by simpa using hl)
          exact ⟨fun rows hr => by rw [hn] at hr; simp at hr, hc.2⟩
        · rw [if_neg hl]
          have hlen : s.samples.length + 1 < W := by have := h.short; simp at hl; omega
          have hd : (s.time + 1) / W = s.time / W := by
            have := h.time
            have : s.time + 1 = (s.samples.length + 1) + s.time / W * W := by omega
            rw [this, Nat.add_mul_div_right _ _ hW, Nat.div_eq_of_lt hlen]; simp
          refine ⟨fun rows hr => ?_, hc.2⟩
          simp only [hd]
          exact hc.1 rows hr
      obtain ⟨s', h1, h2⟩ := ih (readerStep W s) (inv_reader W hW s h) hc' (hs2 _ rfl)
      exact ⟨s', by simpa [run, step] using h1, h2⟩
    | main =>
      obtain ⟨s1, e1, e2⟩ := inv_main W s h
      have hc' : Calm W s1 := by
        unfold mainStep at e1
        cases hp : s.processing with
        | none =>
          rw [hp] at e1
          simp only [Option.some.injEq] at e1
          rw [← e1]
          split
          · rename_i hq
            refine ⟨fun rows hr => ?_, hc.2⟩
            simp only [Option.some.injEq] at hr
            subst hr
            exact ⟨fun h0 => absurd (h.fresh h0).1 (by simp [hq]), by simp, by simp⟩
          · exact hc
        | some rows =>
          rw [hp] at e1
          simp only [] at e1
          obtain ⟨a, b, c⟩ := hc.1 rows hp
          split at e1
          · rename_i hlt
            rw [h.output.resolve_left a, window_get W _ _ hlt] at e1
            simp only [Option.some.injEq] at e1
            rw [← e1]
            refine ⟨fun rows' hr => ?_, hc.2⟩
            simp only [Option.some.injEq] at hr
            subst hr
            refine ⟨a, ?_, by simp; omega⟩
            simp only [List.length_append, List.length_singleton]
            rw [List.take_add_one, window_get W _ _ hlt, ← b]
            rfl
          · rename_i hlt
            simp only [Option.some.injEq] at e1
            rw [← e1]
            refine ⟨by simp, fun rows' hr => ?_⟩
            simp only [List.mem_append, List.mem_singleton] at hr
            rcases hr with hr | rfl
            · exact hc.2 rows' hr
            · refine ⟨s.time / W - 1, ?_⟩
              rw [b, List.take_of_length_le]
              rw [window_length]; omega
      obtain ⟨s', h1, h2⟩ := ih s1 e2 hc' (hs2 _ e1)
      exact ⟨s', by simp [run, step, e1, h1], h2⟩

/-- **C59 (partial).** Every chunk processed is one window of `W` consecutive samples, for every schedule in which the main loop always finishes a chunk before the next window is complete. -/
theorem C59_calm_partial (W : Nat) (hW : 0 < W) (sched : List Who) (hs : CalmSchedule W sched init) :
    ∃ (s : State), run W sched init = some s ∧ ∀ rows ∈ s.processed, ∃ (j : Nat), rows = window W j := by
  obtain ⟨s, h1, h2⟩ := calm_run W hW sched init (inv_init W hW) ⟨by simp [init], by simp [init]⟩ hs
  exact ⟨s, h1, h2.2⟩

/-- **C59, refuted.** For every window of at least two samples there is a schedule in which a processed chunk is not a run of consecutive samples: its first row is sample 0 and its last row
belongs to the next window. -/
theorem C59_refuted (W : Nat) (hW : 2 ≤ W) : ∃ (sched : List Who) (s : State) (rows : List Nat), run W sched init = some s ∧ rows ∈ s.processed ∧
    rows[0]? = some 0 ∧ rows[W - 1]? = some (2 * W - 1) := by
  -- reader fills a window; main takes the message and one row; reader fills the next window; main continues
  have hr : ∀ (n : Nat) (s : State), s.samples.length + n < W → run W (List.replicate n .reader) s = some { s with time := s.time + n, samples := s.samples ++ (List.range n).map (s.time + ·) } := by
    intro n
    induction n with
    | zero => intro s _; simp [run]
    | succ n ih =>
      intro s hs
      rw [List.replicate_succ', run_append, ih s (by omega)]
      simp only [Option.bind_some, run, step, Option.bind_some]
      unfold readerStep
      simp only []
      rw [if_neg (by simp; omega)]
      congr 1
      simp [List.range_succ, Nat.add_assoc]
  have hfull : ∀ (s : State), s.samples = [] → run W (List.replicate W .reader) s =
      some { s with time := s.time + W, samples := [], output := (List.range W).map (s.time + ·), queued := true, putErrors := if s.queued then s.putErrors + 1 else s.putErrors } := by
    intro s hs
    obtain ⟨n, rfl⟩ : ∃ n, W = n + 1 := ⟨W - 1, by omega⟩
    rw [List.replicate_succ', run_append, hr n s (by simp [hs])]
    simp only [Option.bind_some, run, step]
    unfold readerStep
    simp only [hs, List.nil_append]
    rw [if_pos (by simp)]
    congr 1
    simp [List.range_succ, Nat.add_assoc]
  have hm : ∀ (k : Nat) (s : State) (rows : List Nat), s.processing = some rows → rows.length + k = W → s.output.length = W →
      run W (List.replicate k .main) s = some { s with processing := some (rows ++ s.output.drop rows.length) } := by
    intro k
    induction k with
    | zero =>
      intro s rows hp hk ho
      have : s.output.drop rows.length = [] := by simp; omega
      simp only [List.replicate_zero, run, this, List.append_nil, ← hp]
    | succ k ih =>
      intro s rows hp hk ho
      simp only [List.replicate_succ, run, step, mainStep, hp]
      rw [if_pos (by omega)]
      have hlt : rows.length < s.output.length := by omega
      rw [List.getElem?_eq_getElem hlt]
      simp only [Option.bind_some]
      refine (ih { s with processing := some (rows ++ [s.output[rows.length]]) } (rows ++ [s.output[rows.length]]) rfl (by simp; omega) ho).trans ?_
      congr 2
      simp only [List.length_append, List.length_singleton, List.append_assoc, List.singleton_append]
      rw [← List.drop_eq_getElem_cons hlt]
  let s1 : State := { init with time := W, samples := [], output := (List.range W).map (0 + ·), queued := true }
  have e1 : run W (List.replicate W .reader) init = some s1 := by
    rw [hfull init rfl]; simp [s1, init]
  let s2 : State := { s1 with queued := false, processing := some [0] }
  have e2 : run W [.main, .main] s1 = some s2 := by
    simp only [run, step, mainStep, s1, init, s2]
    simp [show 0 < W by omega]
  let s3 : State := { s2 with time := W + W, samples := [], output := (List.range W).map (W + ·), queued := true }
  have e3 : run W (List.replicate W .reader) s2 = some s3 := by
    rw [hfull s2 rfl]; simp [s3, s2, s1, init]
  let s4 : State := { s3 with processing := some ([0] ++ s3.output.drop 1) }
  have e4 : run W (List.replicate (W - 1) .main) s3 = some s4 := by
    have := hm (W - 1) s3 [0] rfl (by simp; omega) (by simp [s3])
    simpa [s4] using this
  have e5 : run W [.main] s4 = some { s4 with processing := none, processed := [[0] ++ s3.output.drop 1] } := by
    simp only [run, step, mainStep, s4]
    rw [if_neg (by simp [s3]; omega)]
    simp [s3, s2, s1, init]
  refine ⟨List.replicate W .reader ++ ([.main, .main] ++ (List.replicate W .reader ++ (List.replicate (W - 1) .main ++ [.main]))),
    { s4 with processing := none, processed := [[0] ++ s3.output.drop 1] }, [0] ++ s3.output.drop 1, ?_, by simp, by simp, ?_⟩
  · rw [run_append, e1, Option.bind_some, run_append, e2, Option.bind_some, run_append, e3, Option.bind_some, run_append, e4, Option.bind_some, e5]
  · obtain ⟨n, hn⟩ : ∃ n, W - 1 = n + 1 := ⟨W - 2, by omega⟩
    rw [hn]
    simp only [List.singleton_append, List.getElem?_cons_succ, List.getElem?_drop, s3, List.getElem?_map]
    rw [List.getElem?_range (by omega)]
    simp; omega

/-- A concrete calm run: two windows of three samples, both delivered whole. -/
example : (run 3 [.reader, .reader, .reader, .main, .main, .main, .reader, .main, .main, .reader, .reader, .main, .main, .main, .main, .main] init).map (·.processed) = some [[0, 1, 2], [3, 4, 5]] := by
  decide

example : CalmSchedule 2 [.reader, .reader, .main, .main, .reader, .main, .main, .reader] init := by
  simp [CalmSchedule, step, readerStep, mainStep, init]

/-- The first `k` windows. -/
def windows (W k : Nat) : List (List Nat) := (List.range k).map (window W)

theorem windows_succ (W k : Nat) : windows W (k + 1) = windows W k ++ [window W k] := by
  unfold windows; rw [List.range_succ, List.map_append]; rfl

/-- All windows before number `k` are processed, in order, and number `k - 1` is waiting, being processed or processed; `n` more steps of the main loop finish it. -/
inductive Good (W k : Nat) (s : State) : Nat → Prop
  | waiting (j : Nat) (hk : k = j + 1) (hq : s.queued = true) (hp : s.processing = none) (hd : s.processed = windows W j) : Good W k s (W + 2)
  | reading (j : Nat) (hk : k = j + 1) (hq : s.queued = false) (n : Nat) (hn : n ≤ W) (hp : s.processing = some ((window W j).take n)) (hd : s.processed = windows W j) : Good W k s (W - n + 1)
  | idle (hq : s.queued = false) (hp : s.processing = none) (hd : s.processed = windows W k) : Good W k s 0

theorem good_main (W : Nat) {k n : Nat} {s : State} (h : Inv W s) (hk : s.time / W = k) (hg : Good W k s n) :
    ∃ s', mainStep W s = some s' ∧ s'.time = s.time ∧ s'.samples = s.samples ∧ s'.putErrors = s.putErrors ∧ Good W k s' (n - 1) := by
  unfold mainStep
  cases hg with
  | waiting j hk hq hp hd =>
    simp only [hp, hq]
    refine ⟨_, rfl, rfl, rfl, rfl, ?_⟩
    refine Good.reading j hk ?_ 0 (Nat.zero_le W) ?_ ?_
    · rfl
    · simp
    · exact hd
  | reading j hkj hq m hm hp hd =>
    simp only [hp]
    have hlen : ((window W j).take m).length = m := by rw [List.length_take, window_length]; omega
    have hout : s.output = window W j := by
      rcases h.output with h0 | h0
      · omega
      · rw [h0, hk, hkj, Nat.add_sub_cancel]
    rw [hlen]
    by_cases hlt : m < W
    · rw [if_pos hlt, hout]
      have hg := window_get W j m hlt
      simp only [hg]
      refine ⟨_, rfl, rfl, rfl, rfl, ?_⟩
      have : (W - m + 1) - 1 = W - (m + 1) + 1 := by omega
      rw [this]
      refine Good.reading j hkj ?_ (m + 1) (by omega) ?_ ?_
      · exact hq
      · rw [List.take_add_one, hg]
        rfl
      · exact hd
    · rw [if_neg hlt]
      obtain rfl : m = W := by omega
      refine ⟨_, rfl, rfl, rfl, rfl, ?_⟩
      rw [Nat.sub_self, Nat.zero_add, Nat.sub_self]
      refine Good.idle hq rfl ?_
      show s.processed ++ _ = _
      rw [hd, hkj, windows_succ, List.take_of_length_le (by rw [window_length])]
  | idle hq hp hd =>
    simp only [hp, hq]
    exact ⟨s, rfl, rfl, rfl, rfl, Good.idle hq hp hd⟩

theorem good_reader (W : Nat) {k n : Nat} {s : State} (hg : Good W k s n) (hs : s.samples.length + 1 < W) : Good W k (readerStep W s) n := by
  unfold readerStep
  simp only []
  rw [if_neg (by simp; omega)]
  cases hg with
  | waiting j hk hq hp hd => exact .waiting j hk hq hp hd
  | reading j hk hq m hm hp hd => 
    refine .reading j hk ?_ m hm ?_ ?_
    · exact hq
    · exact hp
    · exact hd
  | idle hq hp hd => exact .idle hq hp hd

theorem time_of_inv {W : Nat} (hW : 0 < W) {s : State} (h : Inv W s) : (s.time + 1) / W = if s.samples.length + 1 = W then s.time / W + 1 else s.time / W := by
  have h1 := h.time
  have h2 := h.short
  split
  · rename_i he
    have : s.time + 1 = (s.time / W + 1) * W := by rw [Nat.add_mul, Nat.one_mul]; omega
    rw [this, Nat.mul_div_cancel _ hW]
  · rename_i he
    have : s.time + 1 = (s.samples.length + 1) + s.time / W * W := by omega
    rw [this, Nat.add_mul_div_right _ _ hW, Nat.div_eq_of_lt (by omega)]
    omega

theorem reader_time (W : Nat) (s : State) : (readerStep W s).time = s.time + 1 := by
  unfold readerStep; simp only []; split <;> rfl

theorem reader_samples (W : Nat) (s : State) (hs : s.samples.length + 1 < W) : (readerStep W s).samples.length = s.samples.length + 1 := by
  unfold readerStep; simp only []; rw [if_neg (by simp; omega)]; simp

theorem reader_put (W : Nat) (s : State) (hs : s.samples.length + 1 < W) : (readerStep W s).putErrors = s.putErrors := by
  unfold readerStep; simp only []; rw [if_neg (by simp; omega)]

/-- A stretch of the schedule in which no window is completed. -/
theorem good_block (W : Nat) (hW : 0 < W) (b : List Who) : ∀ {k n : Nat} {s : State}, Inv W s → s.time / W = k → Good W k s n → s.samples.length + b.count .reader < W →
    ∃ s', run W b s = some s' ∧ Inv W s' ∧ s'.time / W = k ∧ s'.samples.length = s.samples.length + b.count .reader ∧ s'.putErrors = s.putErrors ∧ Good W k s' (n - b.count .main) := by
  induction b with
  | nil => intro k n s hi hk hg _; exact ⟨s, rfl, hi, hk, by simp, rfl, by simpa using hg⟩
  | cons w b ih =>
    intro k n s hi hk hg hl
    cases w with
    | reader =>
      rw [List.count_cons_self] at hl
      have hs : s.samples.length + 1 < W := by omega
      have ht : (readerStep W s).time / W = k := by rw [reader_time, time_of_inv hW hi, if_neg (by omega), hk]
      obtain ⟨s', h1, h2, h3, h4, h6, h5⟩ := ih (inv_reader W hW s hi) ht (good_reader W hg hs) (by rw [reader_samples W s hs]; omega)
      refine ⟨s', by rw [run, step, Option.bind_some, h1], h2, h3, ?_, by rw [h6, reader_put W s hs], ?_⟩
      · rw [h4, reader_samples W s hs, List.count_cons_self]; omega
      · rwa [List.count_cons_of_ne (by decide)]
    | main =>
      rw [List.count_cons_of_ne (by decide)] at hl
      obtain ⟨t, e1, e2, e3, e5, e4⟩ := good_main W hi hk hg
      obtain ⟨t', f1, f2⟩ := inv_main W s hi
      rw [e1] at f1
      obtain rfl := Option.some.inj f1
      obtain ⟨s', h1, h2, h3, h4, h6, h5⟩ := ih f2 (by rw [e2, hk]) e4 (by rw [e3]; exact hl)
      refine ⟨s', by rw [run, step, e1, Option.bind_some, h1], h2, h3, ?_, by rw [h6, e5], ?_⟩
      · rw [h4, e3, List.count_cons_of_ne (by decide)]
      · rw [List.count_cons_self, Nat.add_comm, Nat.sub_add_eq]; exact h5

/-- A window is completed while nothing waits. -/
theorem good_complete (W : Nat) (hW : 0 < W) {k : Nat} {s : State} (hi : Inv W s) (hk : s.time / W = k) (hg : Good W k s 0) (hs : s.samples.length + 1 = W) :
    Inv W (readerStep W s) ∧ (readerStep W s).time / W = k + 1 ∧ (readerStep W s).samples.length = 0 ∧ Good W (k + 1) (readerStep W s) (W + 2) ∧ (readerStep W s).putErrors = s.putErrors := by
  have hz : ∀ m, m = 0 → Good W k s m → s.queued = false ∧ s.processing = none ∧ s.processed = windows W k := by
    intro m hm hg
    cases hg with
    | waiting => omega
    | reading => omega
    | idle hq hp hd => exact ⟨hq, hp, hd⟩
  obtain ⟨hq, hp, hd⟩ := hz 0 rfl hg
  refine ⟨inv_reader W hW s hi, by rw [reader_time, time_of_inv hW hi, if_pos hs, hk], ?_, ?_, ?_⟩
  all_goals
    unfold readerStep
    simp only []
    rw [if_pos (by simpa using hs)]
  · rfl
  · exact Good.waiting k rfl rfl hp hd
  · simp [hq]

theorem good_rounds (W : Nat) (hW : 0 < W) (blocks : List (List Who)) : ∀ {k n : Nat} {s : State}, Inv W s → s.time / W = k → Good W k s n → s.samples.length = 0 →
    (∀ b ∈ blocks, b.count .reader = W - 1 ∧ W + 2 ≤ b.count .main) → n ≤ W + 2 →
    ∃ s' m, run W (blocks.flatMap (· ++ [.reader])) s = some s' ∧ Inv W s' ∧ s'.time / W = k + blocks.length ∧ s'.samples.length = 0 ∧ s'.putErrors = s.putErrors ∧ Good W (k + blocks.length) s' m ∧ m ≤ W + 2 := by
  induction blocks with
  | nil => intro k n s hi hk hg hl _ hn; exact ⟨s, n, rfl, hi, hk, hl, rfl, hg, hn⟩
  | cons b blocks ih =>
    intro k n s hi hk hg hl hb hn
    obtain ⟨hb1, hb2⟩ := hb b (by simp)
    obtain ⟨t, h1, h2, h3, h4, h5, h6⟩ := good_block W hW b hi hk hg (by omega)
    rw [show n - b.count .main = 0 by omega] at h6
    obtain ⟨c1, c2, c3, c4, c5⟩ := good_complete W hW h2 h3 h6 (by omega)
    obtain ⟨s', m, f1, f2, f3, f4, f5, f6, f7⟩ := ih c1 c2 c4 c3 (fun b h => hb b (by simp [h])) le_rfl
    refine ⟨s', m, ?_, f2, by rw [f3, List.length_cons]; omega, f4, by rw [f5, c5, h5], by rw [List.length_cons, Nat.add_comm blocks.length, ← Nat.add_assoc]; exact f6, f7⟩
    rw [List.flatMap_cons, run_append, run_append, h1, Option.bind_some]
    simp only [run, step, Option.bind_some, f1]

/-- **C59 (a main loop that keeps up).** Cut the schedule where windows are completed: `first` up to the first, then `blocks` between completions, and `last`. If between two completions the main loop
gets `W + 2` steps (take the message, `W` rows, finish; in whatever interleaving with the reader, and with no condition on `first`), no message is lost, and the chunks processed are all the windows, each of consecutive
samples, in order, at most the newest being unfinished. -/
theorem C59_keeps_up (W : Nat) (hW : 0 < W) (first : List Who) (hf : first.count .reader = W - 1) (blocks : List (List Who)) (hb : ∀ b ∈ blocks, b.count .reader = W - 1 ∧ W + 2 ≤ b.count .main)
    (last : List Who) (hl : last.count .reader < W) :
    ∃ s, run W ((first ++ [.reader]) ++ blocks.flatMap (· ++ [.reader]) ++ last) init = some s ∧ s.putErrors = 0 ∧
      (s.processed = (List.range blocks.length).map (window W) ∨ s.processed = (List.range (blocks.length + 1)).map (window W)) ∧
      (W + 2 ≤ last.count .main → s.processed = (List.range (blocks.length + 1)).map (window W) ∧ s.queued = false ∧ s.processing = none) := by
  have h0 : Good W 0 init 0 := .idle rfl rfl rfl
  obtain ⟨t, h1, h2, h3, h4, h5, h6⟩ := good_block W hW first (inv_init W hW) (by simp [init]) h0 (by simp [init]; omega)
  rw [Nat.zero_sub] at h6
  obtain ⟨c1, c2, c3, c4, c5⟩ := good_complete W hW h2 h3 h6 (by rw [h4]; simp [init]; omega)
  obtain ⟨u, m, f1, f2, f3, f4, f5, f6, f7⟩ := good_rounds W hW blocks c1 c2 c4 c3 hb le_rfl
  obtain ⟨s, g1, g2, g3, g4, g5, g6⟩ := good_block W hW last f2 f3 f6 (by omega)
  refine ⟨s, ?_, by rw [g5, f5, c5, h5]; rfl, ?_, ?_⟩
  · rw [run_append, run_append, run_append, h1, Option.bind_some]
    simp only [run, step, Option.bind_some, f1, g1]
  · have key : ∀ q, Good W (0 + 1 + blocks.length) s q → s.processed = (List.range blocks.length).map (window W) ∨ s.processed = (List.range (blocks.length + 1)).map (window W) := by
      intro q g
      cases g with
      | waiting j hk _ _ hd => left; rw [hd, show j = blocks.length by omega]; rfl
      | reading j hk _ _ _ _ hd => left; rw [hd, show j = blocks.length by omega]; rfl
      | idle _ _ hd => right; rw [hd, show 0 + 1 + blocks.length = blocks.length + 1 by omega]; rfl
    exact key _ g6
  · intro hm
    rw [show m - last.count .main = 0 by omega] at g6
    have key : ∀ q, q = 0 → Good W (0 + 1 + blocks.length) s q → s.processed = (List.range (blocks.length + 1)).map (window W) ∧ s.queued = false ∧ s.processing = none := by
      intro q hq g
      cases g with
      | waiting => omega
      | reading => omega
      | idle hq2 hp2 hd => exact ⟨by rw [hd, show 0 + 1 + blocks.length = blocks.length + 1 by omega]; rfl, hq2, hp2⟩
    exact key 0 rfl g6

/-- Non-vacuity: windows of two samples; the main loop's steps come in the middle of the reader's. -/
example : ∃ s, run 2 (([.main, .reader] ++ [.reader]) ++ [[.main, .main, .reader, .main, .main]].flatMap (· ++ [.reader]) ++ [.main, .main, .main, .main]) init = some s ∧ s.processed = [[0, 1], [2, 3]] := by
  obtain ⟨s, h1, _, _, h2⟩ := C59_keeps_up 2 (by omega) [.main, .reader] (by decide) [[.main, .main, .reader, .main, .main]] (by decide) [.main, .main, .main, .main] (by decide)
  exact ⟨s, h1, by rw [(h2 (by decide)).1]; decide⟩

end Emlearn.Sensor
