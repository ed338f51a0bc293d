/- C47: IIR filters (`emlearn/eml_iir.h`). -/
import Verif.Signal.IirRun
import Mathlib.Tactic.Ring
import Mathlib.Data.List.Basic
import Mathlib.Algebra.Ring.Rat
namespace Emlearn.Iir
variable {K : Type} [CommRing K]

/-- Specification of one section: the difference equation `y[n] = b0 x[n] + b1 x[n-1] + b2 x[n-2] - a1 y[n-1] - a2 y[n-2]` with zeros before time 0. -/
def section_ (c : Sos K) (x : Nat → K) : Nat → K
  | 0 => c.b0 * x 0
  | 1 => c.b0 * x 1 + c.b1 * x 0 - c.a1 * section_ c x 0
  | n + 2 => c.b0 * x (n + 2) + c.b1 * x (n + 1) + c.b2 * x n - c.a1 * section_ c x (n + 1) - c.a2 * section_ c x n

/-- Specification of a cascade: each section filters the output of the previous one. -/
def cascade (cs : List (Sos K)) (x : Nat → K) : Nat → K := cs.foldl (fun s c => section_ c s) x

/-- Contents of the state words `s1[1]`, `s2[1]` of a section before time `n`. -/
def w1 (c : Sos K) (x : Nat → K) : Nat → K
  | 0 => 0
  | 1 => c.b1 * x 0 - c.a1 * section_ c x 0
  | n + 2 => c.b1 * x (n + 1) + c.b2 * x n - c.a1 * section_ c x (n + 1) - c.a2 * section_ c x n

def w2 (c : Sos K) (x : Nat → K) : Nat → K
  | 0 => 0
  | n + 1 => c.b2 * x n - c.a2 * section_ c x n

theorem section_out (c : Sos K) (x : Nat → K) (n : Nat) : w1 c x n + c.b0 * x n = section_ c x n := by
  match n with
  | 0 => simp [w1, section_]
  | 1 => simp only [w1, section_]; ring
  | n + 2 => simp only [w1, section_]; ring

theorem w1_succ (c : Sos K) (x : Nat → K) (n : Nat) : w2 c x n + c.b1 * x n - c.a1 * section_ c x n = w1 c x (n + 1) := by
  match n with
  | 0 => simp [w1, w2]
  | n + 1 => simp only [w1, w2]; ring

theorem st_eq (c : Sos K) (x : Nat → K) : ∀ n, st c x n = (w1 c x n, w2 c x n)
  | 0 => rfl
  | n + 1 => by
    rw [st, st_eq c x n]
    simp only [section_out, w1_succ]
    rfl

theorem stOut_eq (c : Sos K) (x : Nat → K) : stOut c x = section_ c x := funext fun n => by rw [stOut, st_eq]; exact section_out c x n

theorem stCascade_eq (cs : List (Sos K)) (x : Nat → K) : stCascade cs x = cascade cs x := by
  unfold stCascade cascade
  simp only [stOut_eq]

/-- **C47.** For every cascade of second-order sections and every input sequence of any length: a filter started with zero states passes the check, never reads or writes out of bounds, and its outputs are exactly those of the difference equations applied one after the other. -/
theorem C47_difference_equation (cs : List (Sos K)) (x : Nat → K) (N : Nat) :
    (1 ≤ cs.length → check (ofSections cs) = .ok) ∧
    ∃ states, run (ofSections cs) (List.replicate (4 * cs.length) 0) ((List.range N).map x) = some ((List.range N).map (cascade cs x), states) ∧
      states.length = 4 * cs.length := by
  constructor
  · intro h; simp [check, ofSections, h]
  · have := run_sections cs x N
    rwa [stCascade_eq] at this

theorem biquad_safe (states coef : List K) (k : Nat) (h1 : 4 * k + 4 ≤ states.length) (h2 : 6 * k + 6 ≤ coef.length) (v : K) :
    ∃ y states', biquad states coef (4 * k) (4 * k + 2) (6 * k + 3) (6 * k) v = some (y, states') ∧ states'.length = states.length := by
  have g : ∀ {l : List K} {i : Nat} (_ : i < l.length), ∃ w, l[i]? = some w := fun h => ⟨_, List.getElem?_eq_getElem h⟩
  obtain ⟨_, e1⟩ := g (show 6 * k < coef.length by omega)
  obtain ⟨_, e2⟩ := g (show 6 * k + 1 < coef.length by omega)
  obtain ⟨_, e3⟩ := g (show 6 * k + 2 < coef.length by omega)
  obtain ⟨_, e4⟩ := g (show 6 * k + 3 + 1 < coef.length by omega)
  obtain ⟨_, e5⟩ := g (show 6 * k + 3 + 2 < coef.length by omega)
  obtain ⟨_, e6⟩ := g (show 4 * k + 1 < states.length by omega)
  obtain ⟨_, e7⟩ := g (show 4 * k + 2 + 1 < states.length by omega)
  unfold biquad
  simp only [e1, e2, e3, e4, e5, e6, e7, bind, Option.bind_some]
  exact ⟨_, _, rfl, by simp⟩

theorem stageLoop_safe (coef : List K) (n k : Nat) (states : List K) (h1 : 4 * (k + n) ≤ states.length) (h2 : 6 * (k + n) ≤ coef.length) (v : K) :
    ∃ y states', stageLoop coef n k states v = some (y, states') ∧ states'.length = states.length := by
  induction n generalizing k states v with
  | zero => exact ⟨_, _, rfl, rfl⟩
  | succ n ih =>
    obtain ⟨y, s', hb, hl⟩ := biquad_safe states coef k (by omega) (by omega) v
    obtain ⟨z, s'', hs, hl'⟩ := ih (k + 1) s' (by omega) (by omega) y
    refine ⟨z, s'', ?_, by omega⟩
    simp only [stageLoop, hb, bind, Option.bind_some]
    exact hs

/-- **C47 (check).** `eml_iir_check` accepts a filter exactly when it has at least one stage, four state words and six coefficients per stage; for every accepted filter whose arrays have the announced
lengths, filtering any sequence of any length from any states stays inside the arrays. -/
theorem C47_check (f : Filter K) :
    (check f = .ok ↔ 1 ≤ f.nStages ∧ f.statesLength = 4 * f.nStages ∧ f.coefLength = 6 * f.nStages) ∧
    (check f = .ok → f.coef.length = f.coefLength → ∀ states : List K, states.length = f.statesLength → ∀ xs : List K,
      ∃ ys states', run f states xs = some (ys, states') ∧ ys.length = xs.length ∧ states'.length = f.statesLength) := by
  have hiff : check f = .ok ↔ 1 ≤ f.nStages ∧ f.statesLength = 4 * f.nStages ∧ f.coefLength = 6 * f.nStages := by
    unfold check
    constructor
    · intro h
      split at h
      · split at h
        · split at h
          · refine ⟨?_, ?_, ?_⟩ <;> omega
          · cases h
        · cases h
      · cases h
    · rintro ⟨h1, h2, h3⟩
      rw [if_pos h1, if_pos (by omega), if_pos (by omega)]
  refine ⟨hiff, fun h hc states hs xs => ?_⟩
  obtain ⟨-, h2, h3⟩ := hiff.1 h
  induction xs generalizing states with
  | nil => exact ⟨[], states, rfl, rfl, hs⟩
  | cons x xs ih =>
    obtain ⟨y, s', e, hl⟩ := stageLoop_safe f.coef f.nStages 0 states (by omega) (by omega) x
    obtain ⟨ys, s'', e', hy, hl'⟩ := ih s' (by omega)
    refine ⟨y :: ys, s'', ?_, by simp [hy], hl'⟩
    rw [run]
    simp only [show filter f states x = some (y, s') from e, e', bind, Option.bind_some]

example : check (⟨1, 4, [1, 2, 3, 1, 0, 0], 6⟩ : Filter ℚ) = .ok ∧ check (⟨0, 0, [], 0⟩ : Filter ℚ) = .uninitialized := by decide

theorem section_linear (c : Sos K) (x y : Nat → K) (α β : K) (n : Nat) :
    section_ c (fun i => α * x i + β * y i) n = α * section_ c x n + β * section_ c y n := by
  induction n using Nat.strong_induction_on with
  | _ n ih =>
    match n with
    | 0 => simp only [section_]; ring
    | 1 => simp only [section_]; ring
    | n + 2 => simp only [section_]; rw [ih n (by omega), ih (n+1) (by omega)]; ring

theorem cascade_linear (cs : List (Sos K)) (x y : Nat → K) (α β : K) :
    cascade cs (fun i => α * x i + β * y i) = fun n => α * cascade cs x n + β * cascade cs y n := by
  induction cs generalizing x y with
  | nil => rfl
  | cons c cs ih =>
    simp only [cascade, List.foldl_cons] at ih ⊢
    rw [show section_ c (fun i => α * x i + β * y i) = fun n => α * section_ c x n + β * section_ c y n from funext (section_linear c x y α β)]
    exact ih _ _

/-- **C47 (linearity).** The output for `α·x + β·y` is `α·out(x) + β·out(y)`, value by value. -/
theorem C47_linear (cs : List (Sos K)) (x y : Nat → K) (α β : K) (N : Nat) :
    ∃ (ox oy o : List K) (sx sy s : List K),
      run (ofSections cs) (List.replicate (4 * cs.length) 0) ((List.range N).map x) = some (ox, sx) ∧
      run (ofSections cs) (List.replicate (4 * cs.length) 0) ((List.range N).map y) = some (oy, sy) ∧
      run (ofSections cs) (List.replicate (4 * cs.length) 0) ((List.range N).map (fun i => α * x i + β * y i)) = some (o, s) ∧
      o = List.zipWith (fun a b => α * a + β * b) ox oy := by
  obtain ⟨sx, hx, _⟩ := (C47_difference_equation cs x N).2
  obtain ⟨sy, hy, _⟩ := (C47_difference_equation cs y N).2
  obtain ⟨s, h, _⟩ := (C47_difference_equation cs (fun i => α * x i + β * y i) N).2
  refine ⟨_, _, _, _, _, _, hx, hy, h, ?_⟩
  rw [cascade_linear]
  apply List.ext_getElem <;> simp

/-- **C47 (causality).** An output depends only on inputs up to its own time. -/
theorem C47_causal (cs : List (Sos K)) (x y : Nat → K) (n : Nat) (h : ∀ i ≤ n, x i = y i) : cascade cs x n = cascade cs y n := by
  induction cs generalizing x y n with
  | nil => exact h n (le_refl _)
  | cons c cs ih =>
    simp only [cascade, List.foldl_cons] at ih ⊢
    refine ih _ _ n (fun i hi => ?_)
    have : ∀ m, m ≤ n → section_ c x m = section_ c y m := by
      intro m
      induction m using Nat.strong_induction_on with
      | _ m ihm =>
        intro hm
        match m with
        | 0 => simp only [section_]; rw [h 0 (by omega)]
        | 1 => simp only [section_]; rw [h 0 (by omega), h 1 (by omega)]
        | m + 2 => simp only [section_]; rw [ihm m (by omega) (by omega), ihm (m+1) (by omega) (by omega), h m (by omega), h (m+1) (by omega), h (m+2) (by omega)]
    exact this i hi

/-- A two-stage filter on an impulse. -/
example : (run (ofSections [⟨1, 2, 1, 1, (1/2 : ℚ), 0⟩, ⟨1, 0, 0, 1, 0, -1⟩]) (List.replicate 8 0) [1, 0, 0, 0]).map (·.1) = some [1, 3/2, 5/4, 11/8] := by decide +kernel

end Emlearn.Iir
