/- `motion_preprocessor_run` in any arithmetic, window after window: what is computed, as a function of all samples received so far. -/
import Verif.Motion.Float
namespace Emlearn.Motion.Flt
variable {F : Type} [Zero F] [Add F] [Sub F] [Mul F] [Neg F]

/-- What the filter of one axis sees: ten copies of the first sample, then the samples. -/
def fed (x : Nat → F) (n : Nat) : F := x (n - 10)

/-- The gravity estimate of one axis at frame `t`. -/
def gravityAt (cs : List (Iir.Sos F)) (x : Nat → F) (t : Nat) : F := Iir.stCascade cs (fed x) (10 + t)

/-- The motion of one axis at frame `t`. -/
def motionAt (cs : List (Iir.Sos F)) (x : Nat → F) (t : Nat) : F := x t - gravityAt cs x t

/-- The magnitude of the motion at frame `t`. -/
def magAt (ops : MOps F) (cs : List (Iir.Sos F)) (x : Fin 3 → Nat → F) (t : Nat) : F := norm3 ops (motionAt cs (x 0) t) (motionAt cs (x 1) t) (motionAt cs (x 2) t)

/-- Running sum of squares. -/
def sqSum (f : Nat → F) : Nat → F
  | 0 => 0
  | n + 1 => sqSum f n + f n * f n

/-- Running minimum and maximum. -/
def rangeOf (ops : MOps F) (f : Nat → F) : Nat → Option (F × F)
  | 0 => none
  | n + 1 => see ops (rangeOf ops f n) (f n)

/-- The sums after `j` frames of a window that starts at frame `t`. -/
def accAt (ops : MOps F) (cs : List (Iir.Sos F)) (x : Fin 3 → Nat → F) (t j : Nat) : Acc F :=
  { x2 := sqSum (fun i => motionAt cs (x 0) (t + i)) j, y2 := sqSum (fun i => motionAt cs (x 1) (t + i)) j, z2 := sqSum (fun i => motionAt cs (x 2) (t + i)) j,
    mag2 := sqSum (fun i => magAt ops cs x (t + i)) j, range := rangeOf ops (fun i => magAt ops cs x (t + i)) j }

/-- The preprocessor has received the frames before `t` of `x`. -/
structure At (cs : List (Iir.Sos F)) (x : Fin 3 → Nat → F) (W N : Nat) (table : Fft.Table F) (t : Nat) (p : Pre F) : Prop where
  rate : 0 < p.samplerate
  window : p.windowLength = W
  coef : p.coef = (cs.map Iir.Sos.toList).flatten
  enable : p.enable = true
  frames : p.frames = t
  states : ∀ i, p.states i = Iir.allWords cs (fed (x i)) (if t = 0 then 0 else 10 + t)
  table : p.table = table
  fftLength : p.fftLength = N
  len : p.fft.len = N

omit [Neg F] in
theorem filter_sections (cs : List (Iir.Sos F)) (hcs : cs.length = 2) (p : Pre F) (hp : p.coef = (cs.map Iir.Sos.toList).flatten) (x : Nat → F) (n : Nat) :
    Iir.filter p.filter (Iir.allWords cs x n) (x n) = some (Iir.stCascade cs x n, Iir.allWords cs x (n + 1)) := by
  have := Iir.stageLoop_eq cs x n [] [] 0 rfl rfl
  simp only [List.nil_append, hcs] at this
  unfold Iir.filter Pre.filter
  rw [hp]
  exact this

omit [Neg F] in
theorem warmUp_sections (cs : List (Iir.Sos F)) (hcs : cs.length = 2) (p : Pre F) (hp : p.coef = (cs.map Iir.Sos.toList).flatten) (x : Nat → F) (k n : Nat) (h : n + k ≤ 10) :
    warmUp p.filter (x 0) k (Iir.allWords cs (fed x) n) = some (Iir.allWords cs (fed x) (n + k)) := by
  induction k generalizing n with
  | zero => rfl
  | succ k ih =>
    have hx : x 0 = fed x n := by unfold fed; rw [show n - 10 = 0 by omega]
    rw [warmUp]
    conv_lhs => rw [show Iir.filter p.filter (Iir.allWords cs (fed x) n) (x 0) = Iir.filter p.filter (Iir.allWords cs (fed x) n) (fed x n) by rw [hx]]
    rw [filter_sections cs hcs p hp]
    simp only [Option.bind_some]
    rw [ih (n + 1) (by omega)]
    congr 2
    omega

omit [Neg F] in
theorem axis_sections (cs : List (Iir.Sos F)) (hcs : cs.length = 2) {x : Fin 3 → Nat → F} {W N : Nat} {table : Fft.Table F} {t : Nat} {p : Pre F} (h : At cs x W N table t p) (i : Fin 3) :
    axis p i (x i t) = some (gravityAt cs (x i) t, Iir.allWords cs (fed (x i)) (10 + (t + 1))) := by
  have hx : x i t = fed (x i) (10 + t) := by unfold fed; rw [show 10 + t - 10 = t by omega]
  unfold axis
  rw [if_pos h.enable, h.states i, h.frames]
  by_cases h0 : t = 0
  · subst h0
    rw [if_pos (by rfl), if_pos rfl, warmUp_sections cs hcs p h.coef (x i) 10 0 (by omega)]
    simp only [Option.bind_some]
    rw [hx]
    exact filter_sections cs hcs p h.coef (fed (x i)) 10
  · rw [if_neg (by omega), if_neg h0]
    simp only [Option.bind_some]
    rw [hx]
    exact filter_sections cs hcs p h.coef (fed (x i)) (10 + t)

/-- State inside a window that starts at frame `t`, after `j` of its frames. -/
structure Inside (ops : MOps F) (cs : List (Iir.Sos F)) (x : Fin 3 → Nat → F) (W N : Nat) (table : Fft.Table F) (t j : Nat) (s : Pre F × Acc F) : Prop where
  at_ : At cs x W N table (t + j) s.1
  acc : s.2 = accAt ops cs x t j
  re : ∀ i < N, s.1.fft.re i = if i < j then magAt ops cs x (t + i) else 0
  im : ∀ i < N, s.1.fft.im i = 0
  gravity : ∀ k i, j = k + 1 → s.1.gravity i = gravityAt cs (x i) (t + k)

omit [Neg F] in
theorem frameStep_inside {ops : MOps F} {cs : List (Iir.Sos F)} (hcs : cs.length = 2) {x : Fin 3 → Nat → F} {W N : Nat} (hN : N ≠ 0) (hW : W ≤ N) {table : Fft.Table F} {t j : Nat} {s : Pre F × Acc F}
    (h : Inside ops cs x W N table t j s) (hj : j < W) (data : List F) (hd : ∀ i : Fin 3, data[6 * j + i]? = some (x i (t + j))) :
    ∃ s', frameStep ops data j s = some s' ∧ Inside ops cs x W N table t (j + 1) s' := by
  obtain ⟨p, a⟩ := s
  have hat := h.at_
  have ha := h.acc
  have hre := h.re
  have him := h.im
  simp only at hat ha hre him
  have e0 := hd 0
  have e1 := hd 1
  have e2 := hd 2
  simp only [Fin.val_zero, Fin.val_one, Fin.val_two, Nat.add_zero] at e0 e1 e2
  have hk : ¬ (p.fftLength ≠ 0 ∧ ¬ j < p.fft.len) := by
    rw [hat.fftLength, hat.len]
    omega
  refine ⟨nextFrame ops j p a (x 0 (t + j)) (x 1 (t + j)) (x 2 (t + j)) (gravityAt cs (x 0) (t + j), Iir.allWords cs (fed (x 0)) (10 + (t + j + 1)))
    (gravityAt cs (x 1) (t + j), Iir.allWords cs (fed (x 1)) (10 + (t + j + 1))) (gravityAt cs (x 2) (t + j), Iir.allWords cs (fed (x 2)) (10 + (t + j + 1))), ?_, ?_⟩
  · unfold frameStep
    simp only [e0, e1, e2, Option.bind_some, axis_sections cs hcs hat]
    rw [if_neg hk]
  · unfold nextFrame
    have hf : p.fftLength ≠ 0 := by rw [hat.fftLength]; exact hN
    refine ⟨⟨hat.rate, hat.window, hat.coef, hat.enable, ?_, ?_, hat.table, hat.fftLength, ?_⟩, ?_, ?_, ?_, ?_⟩
    · simp only [hat.frames]; push_cast; ring
    · intro i
      match i with
      | 0 => simp [Nat.add_assoc]
      | 1 => simp [Nat.add_assoc]
      | 2 => simp [Nat.add_assoc]
    · simp only [if_pos hf]; exact hat.len
    · subst ha; rfl
    · intro i hi
      simp only [if_pos hf, Fft.put]
      by_cases hij : i = j
      · subst hij; rw [if_pos rfl, if_pos (by omega)]; rfl
      · rw [if_neg hij, hre i hi]
        by_cases h2 : i < j
        · rw [if_pos h2, if_pos (by omega)]
        · rw [if_neg h2, if_neg (by omega)]
    · intro i hi
      simp only [if_pos hf, Fft.put, him i hi, ite_self]
    · intro k i hk
      obtain rfl : j = k := by omega
      match i with
      | 0 => rfl
      | 1 => rfl
      | 2 => rfl

omit [Neg F] in
theorem frameLoop_inside {ops : MOps F} {cs : List (Iir.Sos F)} (hcs : cs.length = 2) {x : Fin 3 → Nat → F} {W N : Nat} (hN : N ≠ 0) (hW : W ≤ N) {table : Fft.Table F} {t : Nat} (data : List F)
    (hd : ∀ j < W, ∀ i : Fin 3, data[6 * j + i]? = some (x i (t + j))) : ∀ (k j : Nat) (s : Pre F × Acc F), j + k = W → Inside ops cs x W N table t j s →
      ∃ s', frameLoop ops data k j s = some s' ∧ Inside ops cs x W N table t W s'
  | 0, j, s, hj, h => ⟨s, rfl, by simpa using hj ▸ h⟩
  | k + 1, j, s, hj, h => by
    obtain ⟨s', e, h'⟩ := frameStep_inside hcs hN hW h (by omega) data (hd j (by omega))
    obtain ⟨r, er, hr⟩ := frameLoop_inside hcs hN hW data hd k (j + 1) s' (by omega) h'
    exact ⟨r, by rw [frameLoop, e]; exact er, hr⟩

/-- What a window's call leaves: the fixed features and the buffer given to the FFT. -/
theorem run_window {ops : MOps F} {cs : List (Iir.Sos F)} (hcs : cs.length = 2) {x : Fin 3 → Nat → F} {W N : Nat} (hN : N ≠ 0) (hW : W ≤ N) (hW0 : 0 < W) {table : Fft.Table F} {t : Nat} {p : Pre F}
    (hp : At cs x W N table t p) (data : List F) (hl : data.length = 6 * W) (hd : ∀ j < W, ∀ i : Fin 3, data[6 * j + i]? = some (x i (t + j)))
    (hfft : ∀ b : Fft.Buf F, b.len = N → (∀ i < N, b.re i = if i < W then magAt ops cs x (t + i) else 0) → (∀ i < N, b.im i = 0) → ∃ b', Fft.forward table b N = some (.ok, b') ∧ b'.len = N) :
    ∃ p', run ops p data = some (0, p') ∧ At cs x W N table (t + W) p' ∧ p'.features = fixedFeatures ops (fun i => gravityAt cs (x i) (t + W - 1)) (accAt ops cs x t W) W ∧
      ∃ b b' : Fft.Buf F, b.len = N ∧ (∀ i < N, b.re i = if i < W then magAt ops cs x (t + i) else 0) ∧ (∀ i < N, b.im i = 0) ∧ Fft.forward table b N = some (.ok, b') ∧
        ∀ i < N, p'.fft.re i = ops.abs (b'.re i) := by
  have hn : data.length / 6 = W := by omega
  have hstart : Inside ops cs x W N table t 0 (clear p, { x2 := 0, y2 := 0, z2 := 0, mag2 := 0, range := none }) := by
    refine ⟨⟨hp.rate, hp.window, hp.coef, hp.enable, ?_, ?_, hp.table, hp.fftLength, hp.len⟩, rfl, ?_, ?_, ?_⟩
    · unfold clear
      simp only [hp.frames]
      split <;> omega
    · exact hp.states
    · intro i hi
      unfold clear
      simp only [hp.fftLength, if_pos hi]
      simp
    · intro i hi
      unfold clear
      simp only [hp.fftLength, if_pos hi]
    · intro k i hk; omega
  obtain ⟨s', e, h⟩ := frameLoop_inside hcs hN hW data hd W 0 _ (by omega) hstart
  obtain ⟨b', hb', hlen⟩ := hfft s'.1.fft h.at_.len h.re h.im
  have hg : s'.1.gravity = fun i => gravityAt cs (x i) (t + W - 1) := by
    funext i
    rw [h.gravity (W - 1) i (by omega)]
    congr 1
    omega
  refine ⟨{ s'.1 with features := fixedFeatures ops s'.1.gravity s'.2 W, fft := { b' with re := fun i => if i < s'.1.fftLength then ops.abs (b'.re i) else b'.re i } }, ?_, ?_, ?_, s'.1.fft, b', h.at_.len, h.re, h.im, hb', ?_⟩
  · unfold run
    rw [if_neg (by rw [hp.window, hl]; push_cast; omega), if_neg (by have := hp.rate; omega), hn, e]
    simp only [Option.bind_some]
    unfold finish
    have hN' := hN
    rw [← h.at_.fftLength] at hN'
    rw [if_pos hN', h.at_.table, h.at_.fftLength, hb']
    simp only [Option.bind_some]
    rw [if_neg (by simp)]
  · exact ⟨h.at_.rate, h.at_.window, h.at_.coef, h.at_.enable, h.at_.frames, h.at_.states, h.at_.table, h.at_.fftLength, hlen⟩
  · simp only [hg, h.acc]
  · intro i hi
    simp only [h.at_.fftLength, if_pos hi]

omit [Neg F] in
theorem start_at (cs : List (Iir.Sos F)) (hcs : cs.length = 2) (x : Fin 3 → Nat → F) (samplerate W N : Nat) (hs : 0 < samplerate) (table : Fft.Table F) (features : List F) (gravity : Fin 3 → F) :
    At cs x W N table 0 (start samplerate W N table ((cs.map Iir.Sos.toList).flatten) features gravity) := by
  refine ⟨by unfold start; simpa using hs, rfl, rfl, rfl, rfl, ?_, rfl, rfl, rfl⟩
  intro i
  rw [if_pos rfl, Iir.allWords_zero, hcs]
  rfl

theorem runAll_append (ops : MOps F) (a b : List (List F)) (p : Pre F) : runAll ops (a ++ b) p = (runAll ops a p).bind (runAll ops b) := by
  induction a generalizing p with
  | nil => rfl
  | cons d ds ih =>
    rw [List.cons_append, runAll, runAll]
    cases h : run ops p d with
    | none => rfl
    | some r =>
      simp only [Option.bind_some]
      split
      · exact ih _
      · rfl

end Emlearn.Motion.Flt
