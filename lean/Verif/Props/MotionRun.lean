/- C77: what the motion preprocessor computes from a window. -/
import Verif.Props.MotionPre
namespace Emlearn.Motion
open Finset

theorem biquad_total (st coef : List ℝ) (s1 s2 den num : Nat) (x : ℝ) (h1 : num + 2 < coef.length) (h2 : den + 2 < coef.length) (h3 : s1 + 1 < st.length) (h4 : s2 + 1 < st.length) :
    ∃ (y : ℝ) (st' : List ℝ), Iir.biquad st coef s1 s2 den num x = some (y, st') ∧ st'.length = st.length := by
  unfold Iir.biquad
  rw [List.getElem?_eq_getElem (show num < coef.length by omega), List.getElem?_eq_getElem (show num + 1 < coef.length by omega), List.getElem?_eq_getElem h1,
    List.getElem?_eq_getElem (show den + 1 < coef.length by omega), List.getElem?_eq_getElem h2, List.getElem?_eq_getElem h3, List.getElem?_eq_getElem h4]
  simp [bind]

theorem filter_total (p : Pre) (hc : p.coef.length = 12) (st : List ℝ) (hs : st.length = 8) (x : ℝ) :
    ∃ (y : ℝ) (st' : List ℝ), Iir.filter p.filter st x = some (y, st') ∧ st'.length = 8 := by
  obtain ⟨y1, st1, e1, l1⟩ := biquad_total st p.coef (4 * 0) (4 * 0 + 2) (6 * 0 + 3) (6 * 0) x (by omega) (by omega) (by omega) (by omega)
  obtain ⟨y2, st2, e2, l2⟩ := biquad_total st1 p.coef (4 * (0 + 1)) (4 * (0 + 1) + 2) (6 * (0 + 1) + 3) (6 * (0 + 1)) y1 (by omega) (by omega) (by omega) (by omega)
  refine ⟨y2, st2, ?_, by omega⟩
  show Iir.stageLoop p.coef 2 0 st x = _
  simp only [Iir.stageLoop, e1, e2, bind, Option.bind_some]

theorem run_append (f : Iir.Filter ℝ) (xs ys : List ℝ) (st : List ℝ) :
    Iir.run f st (xs ++ ys) = (Iir.run f st xs).bind fun r => (Iir.run f r.2 ys).map fun q => (r.1 ++ q.1, q.2) := by
  induction xs generalizing st with
  | nil => simp [Iir.run]
  | cons x xs ih =>
    simp only [List.cons_append, Iir.run, bind]
    cases Iir.filter f st x with
    | none => rfl
    | some r =>
      simp only [Option.bind_some, ih]
      cases Iir.run f r.2 xs with
      | none => rfl
      | some q =>
        simp only [Option.bind_some]
        cases Iir.run f q.2 ys <;> rfl

theorem warmUp_run (f : Iir.Filter ℝ) (x : ℝ) (k : Nat) (st : List ℝ) : warmUp f x k st = (Iir.run f st (List.replicate k x)).map (·.2) := by
  induction k generalizing st with
  | zero => rfl
  | succ k ih =>
    simp only [warmUp, List.replicate_succ, Iir.run, bind]
    cases Iir.filter f st x with
    | none => rfl
    | some r =>
      simp only [Option.bind_some, ih]
      cases Iir.run f r.2 (List.replicate k x) <;> rfl

theorem run_total (p : Pre) (hc : p.coef.length = 12) (xs : List ℝ) (st : List ℝ) (hs : st.length = 8) :
    ∃ (ys st' : List ℝ), Iir.run p.filter st xs = some (ys, st') ∧ st'.length = 8 ∧ ys.length = xs.length := by
  induction xs generalizing st with
  | nil => exact ⟨[], st, rfl, hs, rfl⟩
  | cons x xs ih =>
    obtain ⟨y, st1, e1, l1⟩ := filter_total p hc st hs x
    obtain ⟨ys, st2, e2, l2, l3⟩ := ih st1 l1
    exact ⟨y :: ys, st2, by simp [Iir.run, e1, e2, bind], l2, by simp [l3]⟩

/-- Sample `f` of axis `i` in the window. -/
def acc (data : List ℝ) (i : Fin 3) (f : Nat) : ℝ := data.getD (6 * f + i) 0

/-- Motion magnitude of frame `f`, for gravity estimates `g`. -/
noncomputable def mag (data : List ℝ) (g : Fin 3 → Nat → ℝ) (f : Nat) : ℝ :=
  Real.sqrt ((acc data 0 f - g 0 f) * (acc data 0 f - g 0 f) + (acc data 1 f - g 1 f) * (acc data 1 f - g 1 f) + (acc data 2 f - g 2 f) * (acc data 2 f - g 2 f))

/-- The gravity estimates of one axis for inputs `xs`: the outputs of the low-pass filter from its states, or the inputs themselves without a filter. -/
def Series (p : Pre) (i : Fin 3) (xs ys st' : List ℝ) : Prop :=
  if p.enable then Iir.run p.filter (p.states i) xs = some (ys, st') else ys = xs ∧ st' = p.states i

theorem mag_sq (data : List ℝ) (g : Fin 3 → Nat → ℝ) (f : Nat) : mag data g f * mag data g f =
    (acc data 0 f - g 0 f) * (acc data 0 f - g 0 f) + (acc data 1 f - g 1 f) * (acc data 1 f - g 1 f) + (acc data 2 f - g 2 f) * (acc data 2 f - g 2 f) := by
  unfold mag
  rw [Real.mul_self_sqrt]
  have := mul_self_nonneg (acc data 0 f - g 0 f)
  have := mul_self_nonneg (acc data 1 f - g 1 f)
  have := mul_self_nonneg (acc data 2 f - g 2 f)
  linarith

/-- The state after the frames `f .. f+k-1`. -/
def afterFrames (data : List ℝ) (g : Fin 3 → Nat → ℝ) (st : Fin 3 → List ℝ) (p : Pre) (re im : Nat → ℝ) (gravity : Fin 3 → ℝ) (k : Nat) : Pre :=
  { p with gravity := gravity, states := st, frames := p.frames + k, fft := { p.fft with re := re, im := im } }

/-- One frame with filters that are past their warm-up (or no filters). -/
theorem frameStep_spec (data : List ℝ) (f : Nat) (p : Pre) (a : Acc) (hd : 6 * f + 2 < data.length) (hf : f < p.fft.len) (hN : p.fftLength ≠ 0)
    (y : Fin 3 → ℝ) (st : Fin 3 → List ℝ) (hax : ∀ i, axis p i (acc data i f) = some (y i, st i)) (g : Fin 3 → Nat → ℝ) (hg : ∀ i, g i f = y i) :
    frameStep data f (p, a) = some (afterFrames data g st p (Fft.put p.fft.re f (mag data g f)) (Fft.put p.fft.im f 0) (fun i => g i f) 1,
      { x2 := a.x2 + (acc data 0 f - g 0 f) * (acc data 0 f - g 0 f), y2 := a.y2 + (acc data 1 f - g 1 f) * (acc data 1 f - g 1 f),
        z2 := a.z2 + (acc data 2 f - g 2 f) * (acc data 2 f - g 2 f), mag2 := a.mag2 + mag data g f * mag data g f, range := Acc.see a.range (mag data g f) }) := by
  have ha : ∀ i : Fin 3, data[6 * f + i.val]? = some (acc data i f) := by
    intro i
    have : 6 * f + i.val < data.length := by have := i.isLt; omega
    rw [List.getElem?_eq_getElem this, acc, List.getD_eq_getElem?_getD, List.getElem?_eq_getElem this]
    rfl
  have a0 := ha 0
  have a1 := ha 1
  have a2 := ha 2
  simp only [Fin.val_zero, Nat.add_zero] at a0
  rw [show ((1 : Fin 3).val) = 1 from rfl] at a1
  rw [show ((2 : Fin 3).val) = 2 from rfl] at a2
  unfold frameStep
  simp only [a0, a1, a2, Option.bind_some, hax]
  rw [if_neg (by simp [hf])]
  rw [if_pos hN]
  have hv : ∀ {A : Type} (h : Fin 3 → A), ![h 0, h 1, h 2] = h := by
    intro A h; funext i; fin_cases i <;> rfl
  rw [hv y, hv st]
  simp only [afterFrames, mag, hg]
  rfl

/-- Sum over a block of frames, of a function of the frame. -/
theorem frameLoop_spec (data : List ℝ) (k : Nat) : ∀ (f : Nat) (p : Pre) (a : Acc), 0 < p.frames → 6 * (f + k) ≤ data.length → f + k ≤ p.fft.len → p.fftLength ≠ 0 →
    p.coef.length = 12 → (∀ i, (p.states i).length = 8) →
    ∃ (g : Fin 3 → Nat → ℝ) (st : Fin 3 → List ℝ), (∀ i, (st i).length = 8) ∧
      (∀ i, Series p i ((List.range' f k).map (acc data i)) ((List.range' f k).map (g i)) (st i)) ∧
      ∃ (re im : Nat → ℝ) (gravity : Fin 3 → ℝ) (a' : Acc),
        frameLoop data k f (p, a) = some (afterFrames data g st p re im gravity k, a') ∧
        (∀ j, re j = if f ≤ j ∧ j < f + k then mag data g j else p.fft.re j) ∧ (∀ j, im j = if f ≤ j ∧ j < f + k then 0 else p.fft.im j) ∧
        (0 < k → ∀ i, gravity i = g i (f + k - 1)) ∧ (k = 0 → gravity = p.gravity) ∧
        a'.x2 = a.x2 + ∑ j ∈ Ico f (f + k), (acc data 0 j - g 0 j) * (acc data 0 j - g 0 j) ∧
        a'.y2 = a.y2 + ∑ j ∈ Ico f (f + k), (acc data 1 j - g 1 j) * (acc data 1 j - g 1 j) ∧
        a'.z2 = a.z2 + ∑ j ∈ Ico f (f + k), (acc data 2 j - g 2 j) * (acc data 2 j - g 2 j) ∧
        a'.mag2 = a.mag2 + ∑ j ∈ Ico f (f + k), mag data g j * mag data g j ∧
        a'.range = ((List.range' f k).map (mag data g)).foldl Acc.see a.range := by
  induction k with
  | zero =>
    intro f p a _ _ _ _ _ hst
    refine ⟨fun _ _ => 0, p.states, hst, fun i => ?_, p.fft.re, p.fft.im, p.gravity, a, ?_, ?_, ?_, by omega, fun _ => rfl, by simp, by simp, by simp, by simp, by simp⟩
    · unfold Series; split <;> simp [Iir.run]
    · simp [frameLoop, afterFrames]
    · intro j; rw [if_neg (by omega)]
    · intro j; rw [if_neg (by omega)]
  | succ k ih =>
    intro f p a hfr hdl hfl hN hc hst
    -- one frame
    have hax : ∀ i, ∃ (y : ℝ) (st : List ℝ), axis p i (acc data i f) = some (y, st) ∧ st.length = 8 ∧ Series p i [acc data i f] [y] st := by
      intro i
      unfold axis Series
      by_cases he : p.enable
      · rw [if_pos he, if_neg (by omega)]
        obtain ⟨y, st, e1, l1⟩ := filter_total p hc (p.states i) (hst i) (acc data i f)
        exact ⟨y, st, by simpa using e1, l1, by rw [if_pos he]; simp [Iir.run, e1, bind]⟩
      · rw [if_neg he]
        exact ⟨_, _, rfl, hst i, by rw [if_neg he]; simp⟩
    choose y st hy hl hser using hax
    -- the rest
    let g1 : Fin 3 → Nat → ℝ := fun i _ => y i
    have hstep := frameStep_spec data f p a (by omega) (by omega) hN y st hy g1 (fun i => rfl)
    set p1 := afterFrames data g1 st p (Fft.put p.fft.re f (mag data g1 f)) (Fft.put p.fft.im f 0) (fun i => g1 i f) 1
    obtain ⟨g2, st2, hl2, hser2, re, im, gravity, a', hloop, hre, him, hgr, hgr0, hx, hy2, hz, hm, hrg⟩ :=
      ih (f + 1) p1 _ (by simp only [p1, afterFrames]; omega) (by omega) (by show f + 1 + k ≤ p.fft.len; omega) hN hc hl
    -- combined gravity
    let g : Fin 3 → Nat → ℝ := fun i j => if j = f then y i else g2 i j
    have hgf : ∀ i, g i f = y i := fun i => by simp [g]
    have hgne : ∀ i j, j ≠ f → g i j = g2 i j := fun i j hj => by simp [g, hj]
    have hmagf : mag data g f = mag data g1 f := by simp [mag, hgf, g1]
    have hmagne : ∀ j, j ≠ f → mag data g j = mag data g2 j := fun j hj => by simp [mag, hgne _ j hj]
    have hmap : ∀ i, (List.range' (f + 1) k).map (g i) = (List.range' (f + 1) k).map (g2 i) := by
      intro i
      apply List.map_congr_left
      intro j hj
      exact hgne i j (by have := List.mem_range'.mp hj; omega)
    have hmapm : (List.range' (f + 1) k).map (mag data g) = (List.range' (f + 1) k).map (mag data g2) := by
      apply List.map_congr_left
      intro j hj
      exact hmagne j (by have := List.mem_range'.mp hj; omega)
    have hsum : ∀ (F G : Nat → ℝ), (∀ j, j ≠ f → F j = G j) → ∑ j ∈ Ico f (f + (k + 1)), F j = F f + ∑ j ∈ Ico (f + 1) (f + 1 + k), G j := by
      intro F G hFG
      rw [Finset.sum_eq_sum_Ico_succ_bot (by omega), show f + (k + 1) = f + 1 + k by omega]
      congr 1
      apply Finset.sum_congr rfl
      intro j hj
      exact hFG j (by have := Finset.mem_Ico.mp hj; omega)
    refine ⟨g, st2, hl2, fun i => ?_, re, im, gravity, a', ?_, ?_, ?_, ?_, by omega, ?_, ?_, ?_, ?_, ?_⟩
    · have h1 := hser i
      have h2 := hser2 i
      unfold Series at h1 h2 ⊢
      simp only [p1, afterFrames] at h2
      rw [List.range'_succ, List.map_cons, List.map_cons, hgf, hmap]
      by_cases he : p.enable
      · rw [if_pos he] at h1 h2 ⊢
        have := run_append p.filter [acc data i f] ((List.range' (f + 1) k).map (acc data i)) (p.states i)
        rw [List.singleton_append, h1] at this
        simp only [Option.bind_some] at this
        have h2' : Iir.run p.filter (st i) ((List.range' (f + 1) k).map (acc data i)) = some ((List.range' (f + 1) k).map (g2 i), st2 i) := h2
        rw [h2'] at this
        rw [this]
        rfl
      · rw [if_neg he] at h1 h2 ⊢
        obtain ⟨h1a, h1b⟩ := h1
        obtain ⟨h2a, h2b⟩ := h2
        refine ⟨?_, by rw [h2b, h1b]⟩
        rw [h2a]
        simp at h1a
        rw [h1a]
    · simp only [frameLoop, hstep, Option.bind_some]
      rw [hloop]
      simp only [p1, afterFrames, Option.some.injEq, Prod.mk.injEq, and_true]
      congr 1
      push_cast; ring
    · intro j
      rw [hre j]
      by_cases hj : j = f
      · subst hj
        rw [if_neg (by omega), if_pos (by omega), hmagf]
        simp [p1, afterFrames, Fft.put]
      · by_cases hr : f + 1 ≤ j ∧ j < f + 1 + k
        · rw [if_pos hr, if_pos (by omega), hmagne j hj]
        · rw [if_neg hr, if_neg (by omega)]
          simp [p1, afterFrames, Fft.put, hj]
    · intro j
      rw [him j]
      by_cases hj : j = f
      · subst hj
        rw [if_neg (by omega), if_pos (by omega)]
        simp [p1, afterFrames, Fft.put]
      · by_cases hr : f + 1 ≤ j ∧ j < f + 1 + k
        · rw [if_pos hr, if_pos (by omega)]
        · rw [if_neg hr, if_neg (by omega)]
          simp [p1, afterFrames, Fft.put, hj]
    · intro _ i
      by_cases hk : 0 < k
      · rw [hgr hk i, hgne i _ (by omega)]
        congr 1; omega
      · have : k = 0 := by omega
        rw [hgr0 this]
        subst this
        simp only [p1, afterFrames]
        rw [show f + (0 + 1) - 1 = f by omega, hgf]
    · rw [hx, hsum _ (fun j => (acc data 0 j - g2 0 j) * (acc data 0 j - g2 0 j)) (fun j hj => by rw [hgne _ j hj]), hgf, add_assoc]
    · rw [hy2, hsum _ (fun j => (acc data 1 j - g2 1 j) * (acc data 1 j - g2 1 j)) (fun j hj => by rw [hgne _ j hj]), hgf, add_assoc]
    · rw [hz, hsum _ (fun j => (acc data 2 j - g2 2 j) * (acc data 2 j - g2 2 j)) (fun j hj => by rw [hgne _ j hj]), hgf, add_assoc]
    · rw [hm, hsum _ (fun j => mag data g2 j * mag data g2 j) (fun j hj => by rw [hmagne j hj]), hmagf, add_assoc]
    · rw [hrg, List.range'_succ, List.map_cons, List.foldl_cons, hmapm, hmagf]

/-! ### the frame counter only matters for the warm-up -/

def setF (c : Int) (s : Pre × Acc) : Pre × Acc := ({ s.1 with frames := c }, s.2)

theorem frameStep_setF (data : List ℝ) (f : Nat) (p q : Pre) (a : Acc) (hax : ∀ i x, axis p i x = axis q i x)
    (hq : q.fftLength = p.fftLength ∧ q.fft = p.fft ∧ { q with frames := p.frames, states := p.states } = p) :
    frameStep data f (p, a) = (frameStep data f (q, a)).map (setF (p.frames + 1)) := by
  obtain ⟨h1, h2, h3⟩ := hq
  unfold frameStep
  simp only [hax, h1, h2]
  cases data[6 * f]? with
  | none => rfl
  | some x =>
    cases data[6 * f + 1]? with
    | none => rfl
    | some y =>
      cases data[6 * f + 2]? with
      | none => rfl
      | some z =>
        simp only [Option.bind_some]
        cases axis q 0 x with
        | none => rfl
        | some rx =>
          cases axis q 1 y with
          | none => rfl
          | some ry =>
            cases axis q 2 z with
            | none => rfl
            | some rz =>
              simp only [Option.bind_some]
              split
              · rfl
              · simp only [Option.map_some, setF]
                rw [← h3]

theorem axis_frames (p : Pre) (c : Int) (hp : 0 < p.frames) (hc : 0 < c) (i : Fin 3) (x : ℝ) : axis { p with frames := c } i x = axis p i x := by
  unfold axis
  simp only []
  split
  · rw [if_neg (by omega), if_neg (by omega)]; rfl
  · rfl

theorem frameStep_pos (data : List ℝ) (f : Nat) (s r : Pre × Acc) (h : frameStep data f s = some r) : r.1.frames = s.1.frames + 1 := by
  unfold frameStep at h
  simp only [Option.bind_eq_some_iff] at h
  obtain ⟨x, _, y, _, z, _, rx, _, ry, _, rz, _, h⟩ := h
  split at h
  · simp at h
  · simp only [Option.some.injEq] at h
    rw [← h]

theorem frameLoop_setF (data : List ℝ) (k : Nat) : ∀ (f : Nat) (s : Pre × Acc) (c : Int), 0 < s.1.frames → 0 < c →
    frameLoop data k f (setF c s) = (frameLoop data k f s).map (setF (c + k)) := by
  induction k with
  | zero => intro f s c _ _; simp [frameLoop]
  | succ k ih =>
    intro f s c hs hc
    simp only [frameLoop]
    have := frameStep_setF data f { s.1 with frames := c } s.1 s.2 (fun i x => axis_frames s.1 c hs hc i x) ⟨rfl, rfl, rfl⟩
    rw [show setF c s = ({ s.1 with frames := c }, s.2) from rfl, this]
    cases h : frameStep data f (s.1, s.2) with
    | none => simp only [Option.map_none, Option.bind_none]
    | some r =>
      simp only [Option.map_some, Option.bind_some]
      rw [ih (f + 1) r (c + 1) (by rw [frameStep_pos data f _ r h]; simp only []; omega) (by omega)]
      congr 2
      push_cast; ring

/-- State in which a window can be processed: what `init` gives and the setters and every run keep. -/
structure Ready (N : Nat) (p : Pre) : Prop extends Ok N p where
  table : ∃ (t0 : Fft.Table ℝ), t0.length = N / 2 ∧ p.table = (Fft.fill t0 N).2
  coef : p.coef.length = 12
  states : ∀ i, (p.states i).length = 8

/-- The gravity estimates `g` of one axis over a window of `W` frames, and the filter states after it: without a filter the samples themselves; with one its outputs for the
window, preceded in the very first window by ten repetitions of the first sample (whose outputs are dropped). -/
def Gravity (p : Pre) (data : List ℝ) (W : Nat) (i : Fin 3) (g : Nat → ℝ) (st : List ℝ) : Prop :=
  if p.enable then ∃ (warm : List ℝ), warm.length = (if p.frames ≤ 0 then 10 else 0) ∧
    Iir.run p.filter (p.states i) (List.replicate warm.length (acc data i 0) ++ (List.range W).map (acc data i)) = some (warm ++ (List.range W).map g, st)
  else (∀ f < W, g f = acc data i f) ∧ st = p.states i

theorem see_fold (ms : List ℝ) (lo hi : ℝ) (h : lo ≤ hi) : ∃ (lo' hi' : ℝ), ms.foldl Acc.see (some (lo, hi)) = some (lo', hi') ∧
    (lo' = lo ∨ lo' ∈ ms) ∧ (hi' = hi ∨ hi' ∈ ms) ∧ lo' ≤ lo ∧ hi ≤ hi' ∧ ∀ m ∈ ms, lo' ≤ m ∧ m ≤ hi' := by
  induction ms generalizing lo hi with
  | nil => exact ⟨lo, hi, rfl, Or.inl rfl, Or.inl rfl, le_rfl, le_rfl, by simp⟩
  | cons m ms ih =>
    simp only [List.foldl_cons, Acc.see]
    obtain ⟨lo', hi', e, h1, h2, h3, h4, h5⟩ := ih (if m < lo then m else lo) (if m > hi then m else hi) (by split <;> split <;> linarith)
    refine ⟨lo', hi', e, ?_, ?_, ?_, ?_, ?_⟩
    · rcases h1 with h1 | h1
      · split at h1
        · exact Or.inr (by simp [h1])
        · exact Or.inl h1
      · exact Or.inr (by simp [h1])
    · rcases h2 with h2 | h2
      · split at h2
        · exact Or.inr (by simp [h2])
        · exact Or.inl h2
      · exact Or.inr (by simp [h2])
    · refine le_trans h3 ?_; split <;> linarith
    · refine le_trans ?_ h4; split <;> linarith
    · intro x hx
      rcases List.mem_cons.mp hx with rfl | hx
      · refine ⟨le_trans h3 ?_, le_trans ?_ h4⟩
        · split <;> linarith
        · split <;> linarith
      · exact h5 x hx

/-- **C77.** For every window the preprocessor accepts (any sampling rate, any window length from 1 to the FFT length `2^L`, any contents, any history of earlier windows): `run` succeeds with
all accesses in bounds, and with `g` the low-pass gravity estimates and `mag` the magnitude of what remains of the acceleration:
the features are the last gravity estimate normalised, the RMS and the peak-to-peak of the magnitude, and the RMS of each axis; the FFT features are the absolute values of the real part of
the Fourier transform of the magnitudes, zero-padded to the FFT length. The state stays ready for the next window and the configuration is unchanged. -/
theorem C77_run (L : Nat) (hL : L < 32) (p : Pre) (hp : Ready (2 ^ L) p) (W : Nat) (hW : 1 ≤ W) (hWN : W ≤ 2 ^ L) (hw : p.windowLength = W) (hsr : 0 < p.samplerate)
    (data : List ℝ) (hd : data.length = W * 6) :
    ∃ (p' : Pre) (g : Fin 3 → Nat → ℝ) (lo hi : ℝ), runPre p data = some (0, p') ∧ Ready (2 ^ L) p' ∧ 0 < p'.frames ∧
      (p'.windowLength = p.windowLength ∧ p'.samplerate = p.samplerate ∧ p'.fftStart = p.fftStart ∧ p'.fftEnd = p.fftEnd ∧ p'.enable = p.enable ∧ p'.coef = p.coef) ∧
      (∀ i, Gravity p data W i (g i) (p'.states i)) ∧
      ((∃ f < W, lo = mag data g f) ∧ (∃ f < W, hi = mag data g f) ∧ ∀ f < W, lo ≤ mag data g f ∧ mag data g f ≤ hi) ∧
      p'.features =
        [g 0 (W - 1) / Real.sqrt (g 0 (W - 1) ^ 2 + g 1 (W - 1) ^ 2 + g 2 (W - 1) ^ 2),
         g 1 (W - 1) / Real.sqrt (g 0 (W - 1) ^ 2 + g 1 (W - 1) ^ 2 + g 2 (W - 1) ^ 2),
         g 2 (W - 1) / Real.sqrt (g 0 (W - 1) ^ 2 + g 1 (W - 1) ^ 2 + g 2 (W - 1) ^ 2),
         Real.sqrt ((∑ f ∈ range W, mag data g f ^ 2) / W), hi - lo,
         Real.sqrt ((∑ f ∈ range W, (acc data 0 f - g 0 f) ^ 2) / W), Real.sqrt ((∑ f ∈ range W, (acc data 1 f - g 1 f) ^ 2) / W),
         Real.sqrt ((∑ f ∈ range W, (acc data 2 f - g 2 f) ^ 2) / W)] ∧
      ∀ k < 2 ^ L, p'.fft.re k = |(Fft.dft (2 ^ L) (fun t => ((if t < W then mag data g t else 0 : ℝ) : ℂ)) k).re| := by
  obtain ⟨⟨h1, h2, h3, h4, h5⟩, ⟨t0, ht0, ht⟩, hc, hst⟩ := hp
  have hN : p.fftLength ≠ 0 := by rw [h2]; positivity
  -- the state the loop starts from
  set p0 : Pre := { p with
    frames := if p.frames ≤ 0 then 0 else p.frames
    fft := { p.fft with re := fun i => if i < p.fftLength then 0 else p.fft.re i, im := fun i => if i < p.fftLength then 0 else p.fft.im i } } with hp0
  set a0 : Acc := { x2 := 0, y2 := 0, z2 := 0, mag2 := 0, range := none } with ha0
  -- warmed-up copy with a positive counter
  have hwarm : ∀ i, ∃ (warm st : List ℝ), st.length = 8 ∧
      (p.enable = true → warm.length = (if p.frames ≤ 0 then 10 else 0) ∧ Iir.run p.filter (p.states i) (List.replicate warm.length (acc data i 0)) = some (warm, st)) ∧
      (p.enable = false → st = p.states i) ∧
      ∀ c : Int, 0 < c → axis p0 i (acc data i 0) = axis { p0 with states := fun _ => st, frames := c } i (acc data i 0) := by
    intro i
    by_cases he : p.enable
    · obtain ⟨warm, st, e1, e2, e3⟩ := run_total p hc (List.replicate (if p.frames ≤ 0 then 10 else 0) (acc data i 0)) (p.states i) (hst i)
      have e3' : warm.length = (if p.frames ≤ 0 then 10 else 0) := by simpa using e3
      refine ⟨warm, st, e2, fun _ => ⟨e3', by rw [e3']; exact e1⟩, fun h => by simp [he] at h, fun c hcp => ?_⟩
      unfold axis
      simp only [hp0, he, if_true]
      rw [if_neg (show ¬ c = 0 by omega)]
      by_cases hf : p.frames ≤ 0
      · rw [if_pos hf] at e1 ⊢
        rw [if_pos rfl, warmUp_run]
        simp only [Pre.filter] at e1 ⊢
        rw [e1]
        rfl
      · rw [if_neg hf] at e1 ⊢
        rw [if_neg (by omega)]
        simp only [List.replicate_zero, Iir.run, Option.some.injEq, Prod.mk.injEq] at e1
        rw [e1.2]
        rfl
    · refine ⟨[], p.states i, hst i, fun h => absurd h he, fun _ => rfl, fun c hcp => ?_⟩
      unfold axis
      simp only [hp0, he, if_false, Bool.false_eq_true]
  choose warm st hstl hwe hwd hwa using hwarm
  set pw : Pre := { p0 with states := st, frames := 1 } with hpw
  have hax : ∀ i, axis p0 i (acc data i 0) = axis pw i (acc data i 0) := by
    intro i
    rw [hwa i 1 (by omega)]
    rfl
  -- run the loop from the warmed copy
  obtain ⟨g, st', hl', hser, re, im, gravity, a', hloop, hre, him, hgr, hgr0, hx, hy, hz, hm, hrg⟩ :=
    frameLoop_spec data W 0 pw a0 (by simp [hpw]) (by omega) (by show 0 + W ≤ p.fft.len; omega) hN hc hstl
  -- the real loop gives the same, with its own counter
  have hfirst : frameStep data 0 (p0, a0) = (frameStep data 0 (pw, a0)).map (setF (p0.frames + 1)) := by
    have hget : ∀ i : Fin 3, data[6 * 0 + i.val]? = some (acc data i 0) := by
      intro i
      have : 6 * 0 + i.val < data.length := by have := i.isLt; omega
      rw [List.getElem?_eq_getElem this, acc, List.getD_eq_getElem?_getD, List.getElem?_eq_getElem this]; rfl
    have g0 := hget 0
    have g1 := hget 1
    have g2 := hget 2
    simp only [Fin.val_zero, Nat.add_zero] at g0
    rw [show ((1 : Fin 3).val) = 1 from rfl] at g1
    rw [show ((2 : Fin 3).val) = 2 from rfl] at g2
    unfold frameStep
    simp only [g0, g1, g2, Option.bind_some, hax]
    cases axis pw 0 (acc data 0 0) with
    | none => rfl
    | some rx =>
      cases axis pw 1 (acc data 1 0) with
      | none => rfl
      | some ry =>
        cases axis pw 2 (acc data 2 0) with
        | none => rfl
        | some rz =>
          simp only [Option.bind_some]
          show (if p0.fftLength ≠ 0 ∧ ¬0 < p0.fft.len then none else _) = Option.map _ (if p0.fftLength ≠ 0 ∧ ¬0 < p0.fft.len then none else _)
          split
          · rfl
          · rfl
  have hframes : 0 ≤ p0.frames := by simp only [hp0]; split <;> omega
  have hreal : frameLoop data W 0 (p0, a0) = some (setF (p0.frames + W) (afterFrames data g st' pw re im gravity W, a')) := by
    obtain ⟨k, rfl⟩ : ∃ k, W = k + 1 := ⟨W - 1, by omega⟩
    simp only [frameLoop] at hloop ⊢
    rw [hfirst]
    cases hs : frameStep data 0 (pw, a0) with
    | none => rw [hs] at hloop; simp at hloop
    | some r =>
      rw [hs] at hloop
      simp only [Option.bind_some] at hloop
      simp only [Option.map_some, Option.bind_some]
      rw [frameLoop_setF data k (0 + 1) r (p0.frames + 1) (by rw [frameStep_pos data 0 _ r hs]; simp [hpw]) (by omega), hloop]
      simp only [Option.map_some]
      congr 2
      push_cast; ring
  -- min and max
  obtain ⟨lo, hi, hrange, hlo, hhi, hbound⟩ : ∃ (lo hi : ℝ), a'.range = some (lo, hi) ∧ (∃ f < W, lo = mag data g f) ∧ (∃ f < W, hi = mag data g f) ∧
      ∀ f < W, lo ≤ mag data g f ∧ mag data g f ≤ hi := by
    rw [← List.range_eq_range'] at hrg
    obtain ⟨k, rfl⟩ : ∃ k, W = k + 1 := ⟨W - 1, by omega⟩
    rw [List.range_succ_eq_map, List.map_cons, List.foldl_cons] at hrg
    simp only [ha0, Acc.see] at hrg
    obtain ⟨lo, hi, e, b1, b2, b3, b4, b5⟩ := see_fold (((List.range k).map Nat.succ).map (mag data g)) (mag data g 0) (mag data g 0) le_rfl
    refine ⟨lo, hi, by rw [hrg, e], ?_, ?_, ?_⟩
    · rcases b1 with b1 | b1
      · exact ⟨0, by omega, b1⟩
      · rw [List.map_map] at b1
        obtain ⟨j, hj, e⟩ := List.mem_map.mp b1
        exact ⟨j + 1, by have := List.mem_range.mp hj; omega, e.symm⟩
    · rcases b2 with b2 | b2
      · exact ⟨0, by omega, b2⟩
      · rw [List.map_map] at b2
        obtain ⟨j, hj, e⟩ := List.mem_map.mp b2
        exact ⟨j + 1, by have := List.mem_range.mp hj; omega, e.symm⟩
    · intro f hf
      cases f with
      | zero => exact ⟨b3, b4⟩
      | succ f => exact b5 _ (by rw [List.map_map]; exact List.mem_map.mpr ⟨f, List.mem_range.mpr (by omega), rfl⟩)
  -- the FFT
  obtain ⟨_, b', hfwd, hbl, hdft⟩ := Fft.C48_fft_is_dft L hL t0 ht0 { len := p.fft.len, re := re, im := im } (by simpa using h3)
  have hn : data.length / 6 = W := by omega
  let pf : Pre := (setF (p0.frames + W) (afterFrames data g st' pw re im gravity W, a')).1
  refine ⟨{ pf with features := fixedFeatures gravity a' W, fft := { b' with re := fun i => if i < p.fftLength then |b'.re i| else b'.re i } }, g, lo, hi, ?_, ?_, ?_, ?_, ?_, ⟨hlo, hhi, hbound⟩, ?_, ?_⟩
  · unfold runPre
    rw [if_neg (by rw [hd, hw]; push_cast; omega), if_neg (by omega)]
    simp only []
    rw [hn]
    have : frameLoop data W 0 (p0, a0) = _ := hreal
    simp only [hp0, ha0] at this
    rw [this]
    simp only [Option.bind_some]
    rw [if_pos (by exact hN)]
    have hfw : Fft.forward (setF (p0.frames + W) (afterFrames data g st' pw re im gravity W, a')).1.table (setF (p0.frames + W) (afterFrames data g st' pw re im gravity W, a')).1.fft
        (setF (p0.frames + W) (afterFrames data g st' pw re im gravity W, a')).1.fftLength = some (.ok, b') := by
      simp only [setF, afterFrames, hpw, hp0]
      rw [ht, h2]
      exact hfwd
    simp only [hp0] at hfw
    rw [hfw]
    rfl
  · refine ⟨⟨by simp [fixedFeatures], h2, hbl, h4, h5⟩, ⟨t0, ht0, ht⟩, hc, hl'⟩
  · show 0 < p0.frames + W
    omega
  · exact ⟨rfl, rfl, rfl, rfl, rfl, rfl⟩
  · intro i
    have hs := hser i
    unfold Series at hs
    unfold Gravity
    rw [← List.range_eq_range'] at hs
    have hen : pw.enable = p.enable := rfl
    rw [hen] at hs
    by_cases he : p.enable
    · rw [if_pos he] at hs ⊢
      obtain ⟨w1, w2⟩ := hwe i he
      refine ⟨warm i, w1, ?_⟩
      rw [run_append, w2]
      simp only [Option.bind_some]
      rw [show Iir.run p.filter (st i) ((List.range W).map (acc data i)) = some ((List.range W).map (g i), st' i) from hs]
      rfl
    · rw [if_neg he] at hs ⊢
      refine ⟨fun f hf => ?_, ?_⟩
      · have := congrArg (fun l => l[f]?) hs.1
        simpa [hf] using this
      · show st' i = _
        rw [hs.2]
        exact hwd i (by simpa using he)
  · show fixedFeatures gravity a' W = _
    unfold fixedFeatures
    simp only [hrange, hgr (by omega), Nat.zero_add]
    rw [hx, hy, hz, hm]
    simp only [ha0, zero_add, Finset.range_eq_Ico, pow_two]
  · intro k hk
    show (if k < p.fftLength then |b'.re k| else b'.re k) = _
    rw [if_pos (by omega)]
    have hdk := congrArg Complex.re (hdft k hk)
    simp only [] at hdk
    rw [hdk]
    congr 2
    unfold Fft.dft
    apply Finset.sum_congr rfl
    intro t htr
    have htl : t < 2 ^ L := Finset.mem_range.mp htr
    congr 1
    apply Complex.ext
    · simp only [hre t, Complex.ofReal_re, Nat.zero_add]
      by_cases htw : t < W
      · rw [if_pos ⟨Nat.zero_le _, htw⟩, if_pos htw]
      · rw [if_neg (fun h => htw h.2), if_neg htw]
        show (if t < p.fftLength then (0 : ℝ) else _) = 0
        rw [if_pos (by omega)]
    · simp only [him t, Complex.ofReal_im, Nat.zero_add]
      by_cases htw : t < W
      · rw [if_pos ⟨Nat.zero_le _, htw⟩]
      · rw [if_neg (fun h => htw h.2)]
        show (if t < p.fftLength then (0 : ℝ) else _) = 0
        rw [if_pos (by omega)]

/-- **C77.** Windows of the wrong size and uninitialised sampling rates are refused, nothing changes. -/
theorem C77_rejects (p : Pre) (data : List ℝ) :
    ((data.length : Int) ≠ p.windowLength * 6 → runPre p data = some (-1, p)) ∧
    ((data.length : Int) = p.windowLength * 6 → p.samplerate ≤ 0 → runPre p data = some (-2, p)) := by
  unfold runPre
  exact ⟨fun h => by rw [if_pos h], fun h h2 => by rw [if_neg (by simpa using h), if_pos h2]⟩

/-- **C77.** `init` gives a state in which windows can be processed (the coefficient array has its 12 entries). -/
theorem C77_init_ready (N : Nat) (p : Pre) (hp : p.features.length = 8) (hc : p.coef.length = 12) (samplerate W : Int) (hW : W ≤ N) :
    Ready N (init N p samplerate W).2 := by
  have hok := ((C63_init N p hp samplerate W).1 hW).2.1
  have hck : Iir.check (Pre.filter { p with fftLength := N, samplerate := samplerate, windowLength := W, frames := 0, enable := false }) = .ok := rfl
  refine ⟨hok, ?_, ?_, ?_⟩
  all_goals
    unfold init
    rw [if_neg (by omega)]
    simp only []
    rw [if_neg (by rw [hck]; simp)]
  · refine ⟨{ p.table with length := N / 2 }, rfl, ?_⟩
    unfold Fft.fill Fft.fillWith
    rw [if_pos rfl]
  · unfold Fft.fill Fft.fillWith
    rw [if_pos rfl]
    exact hc
  · unfold Fft.fill Fft.fillWith
    rw [if_pos rfl]
    intro i; simp

/-- **C77.** Orientation features are a unit vector whenever the gravity estimate is not zero. -/
theorem C77_orientation_unit (a b c : ℝ) (h : ¬ (a = 0 ∧ b = 0 ∧ c = 0)) :
    (a / Real.sqrt (a ^ 2 + b ^ 2 + c ^ 2)) ^ 2 + (b / Real.sqrt (a ^ 2 + b ^ 2 + c ^ 2)) ^ 2 + (c / Real.sqrt (a ^ 2 + b ^ 2 + c ^ 2)) ^ 2 = 1 := by
  have hnn : 0 ≤ a ^ 2 + b ^ 2 + c ^ 2 := by positivity
  have hne : a ^ 2 + b ^ 2 + c ^ 2 ≠ 0 := by
    intro h0
    apply h
    refine ⟨?_, ?_, ?_⟩ <;> nlinarith [sq_nonneg a, sq_nonneg b, sq_nonneg c]
  rw [div_pow, div_pow, div_pow, Real.sq_sqrt hnn, ← add_div, ← add_div, div_self hne]

/-- **C77.** Without a configured gravity filter all motion features are zero and all FFT features too, whatever the data. -/
theorem C77_no_filter (L : Nat) (hL : L < 32) (p : Pre) (hp : Ready (2 ^ L) p) (he : p.enable = false) (W : Nat) (hW : 1 ≤ W) (hWN : W ≤ 2 ^ L) (hw : p.windowLength = W)
    (hsr : 0 < p.samplerate) (data : List ℝ) (hd : data.length = W * 6) :
    ∃ (p' : Pre), runPre p data = some (0, p') ∧ p'.features.drop 3 = [0, 0, 0, 0, 0] ∧ ∀ k < 2 ^ L, p'.fft.re k = 0 := by
  obtain ⟨p', g, lo, hi, h1, _, _, _, h4, ⟨⟨f1, hf1, e1⟩, ⟨f2, hf2, e2⟩, _⟩, h6, h7⟩ := C77_run L hL p hp W hW hWN hw hsr data hd
  have hg : ∀ i, ∀ f < W, g i f = acc data i f := by
    intro i
    have := h4 i
    unfold Gravity at this
    rw [if_neg (by simp [he])] at this
    exact this.1
  have hm : ∀ f < W, mag data g f = 0 := by
    intro f hf
    unfold mag
    rw [hg 0 f hf, hg 1 f hf, hg 2 f hf]
    simp
  refine ⟨p', h1, ?_, fun k hk => ?_⟩
  · rw [h6]
    have s0 : ∑ f ∈ range W, mag data g f ^ 2 = 0 := Finset.sum_eq_zero fun f hf => by rw [hm f (Finset.mem_range.mp hf)]; simp
    have s1 : ∀ i : Fin 3, ∑ f ∈ range W, (acc data i f - g i f) ^ 2 = 0 := fun i => Finset.sum_eq_zero fun f hf => by rw [hg i f (Finset.mem_range.mp hf)]; simp
    rw [s0, s1, s1, s1, e1, e2, hm f1 hf1, hm f2 hf2]
    simp
  · rw [h7 k hk]
    have : Fft.dft (2 ^ L) (fun t => ((if t < W then mag data g t else 0 : ℝ) : ℂ)) k = 0 := by
      unfold Fft.dft
      apply Finset.sum_eq_zero
      intro t _
      by_cases ht : t < W
      · simp only [if_pos ht, hm t ht]; simp
      · simp only [if_neg ht]; simp
    rw [this]; simp

/-- **C77, refuted as the FFT magnitude.** The code says "Convert to magnitude" but keeps only the real part: for magnitudes 0, 1 over 4 points, the transform at bin 1 has magnitude 1 while
the value the preprocessor gives (absolute real part, by `C77_run`) is 0. -/
theorem C77_magnitude_refuted : |(Fft.dft 4 (fun t => (((if t = 1 then 1 else 0 : ℝ)) : ℂ)) 1).re| = 0 ∧ ‖Fft.dft 4 (fun t => (((if t = 1 then 1 else 0 : ℝ)) : ℂ)) 1‖ = 1 := by
  have e : Fft.dft 4 (fun t => (((if t = 1 then 1 else 0 : ℝ)) : ℂ)) 1 = -Complex.I := by
    unfold Fft.dft
    rw [Finset.sum_eq_single 1]
    · have : -(2 * (Real.pi : ℂ) * Complex.I * (((1 : Nat) : ℂ) * ((1 : Nat) : ℂ)) / ((4 : Nat) : ℂ)) = -((Real.pi : ℂ) / 2 * Complex.I) := by push_cast; ring
      rw [this, Complex.exp_neg, Complex.exp_mul_I, Complex.cos_pi_div_two, Complex.sin_pi_div_two]
      simp
    · intro b _ hb; simp [hb]
    · simp
  rw [e]
  simp

/-- **C77.** Setting the gravity filter (12 coefficients) keeps the state ready, and every ready state stays ready over any sequence of windows of the right size: each run succeeds. -/
theorem C77_many_windows (L : Nat) (hL : L < 32) (W : Nat) (hW : 1 ≤ W) (hWN : W ≤ 2 ^ L) (windows : List (List ℝ)) (hd : ∀ d ∈ windows, d.length = W * 6) :
    ∀ (p : Pre), Ready (2 ^ L) p → p.windowLength = W → 0 < p.samplerate →
    ∃ (p' : Pre), windows.foldlM (fun q d => (runPre q d).bind fun r => if r.1 = 0 then some r.2 else none) p = some p' ∧ Ready (2 ^ L) p' := by
  induction windows with
  | nil => exact fun p hp _ _ => ⟨p, rfl, hp⟩
  | cons d ds ih =>
    intro p hp hw hsr
    obtain ⟨p1, g, lo, hi, h1, h2, _, ⟨h3, h4, _⟩, _⟩ := C77_run L hL p hp W hW hWN hw hsr d (hd d (by simp))
    obtain ⟨p', h5, h6⟩ := ih (fun x hx => hd x (by simp [hx])) p1 h2 (by rw [h3, hw]) (by rw [h4]; exact hsr)
    refine ⟨p', ?_, h6⟩
    rw [List.foldlM_cons, h1]
    simpa using h5

/-- **C77.** The gravity filter takes exactly 12 coefficients; any other number is refused and changes nothing. -/
theorem C77_set_gravity (N : Nat) (p : Pre) (hp : Ready N p) (coeff : List ℝ) :
    (coeff.length = 12 → setGravityLowpass p coeff = (0, { p with coef := coeff, enable := true }) ∧ Ready N (setGravityLowpass p coeff).2) ∧
    (coeff.length ≠ 12 → setGravityLowpass p coeff = (-1, p)) := by
  unfold setGravityLowpass
  refine ⟨fun h => ?_, fun h => by rw [if_pos h]⟩
  rw [if_neg (by simpa using h)]
  exact ⟨rfl, ⟨⟨hp.1.1, hp.1.2, hp.1.3, hp.1.4, hp.1.5⟩, hp.2, h, hp.4⟩⟩

/-- Non-vacuity: an uninitialised structure with its declared array sizes; after `init(64 Hz, 50 frames)` over 64 FFT points and a 12-coefficient filter, 50 frames of data run. -/
example (data : List ℝ) (hd : data.length = 300) (raw : Pre) (h1 : raw.features.length = 8) (h2 : raw.coef.length = 12) :
    ∃ (p' : Pre), runPre (setGravityLowpass (init (2 ^ 6) raw 64 50).2 (List.replicate 12 (1 / 2))).2 data = some (0, p') := by
  have hi := (C63_init (2 ^ 6) raw h1 64 50).1 (by norm_num)
  have hr := C77_init_ready (2 ^ 6) raw h1 h2 64 50 (by norm_num)
  have hg := (C77_set_gravity _ _ hr (List.replicate 12 (1 / 2))).1 (by simp)
  obtain ⟨p', _, _, _, h, _⟩ := C77_run 6 (by norm_num) _ hg.2 50 (by norm_num) (by norm_num) (by rw [hg.1]; exact hi.2.2.2.2.1)
    (by rw [hg.1]; show 0 < (init (2 ^ 6) raw 64 50).2.samplerate; rw [hi.2.2.2.2.2.2.1]; norm_num) data (by omega)
  exact ⟨p', h⟩

end Emlearn.Motion
