/- C118: the filter header that `gravity_lowpass.py` writes, and what becomes of it in the motion preprocessing. -/
import Verif.Tools.Gravity
import Verif.Props.Iir
import Verif.Props.ToolsText
import Verif.Props.MotionRun
import Mathlib.Analysis.SpecificLimits.Normed
namespace Emlearn.Tools
open Emlearn.Cgen Emlearn.MiniC Emlearn.Iir

/-- The section with real coefficients. -/
noncomputable def real (c : Sos ℚ) : Sos ℝ := ⟨c.b0, c.b1, c.b2, c.a0, c.a1, c.a2⟩

/-- The section with coefficients to six decimals. -/
noncomputable def coded (c : Sos ℚ) : Sos ℝ := ⟨round6 c.b0, round6 c.b1, round6 c.b2, round6 c.a0, round6 c.a1, round6 c.a2⟩

/-- The filter a program sets up from a header: `n` stages, with the values and the number of values it loads. -/
def loaded {F : Type} (n : Nat) (h : List F × Nat) : Iir.Filter F := ⟨n, n * 4, h.1, h.2⟩

theorem flatten_coded (cs : List (Sos ℚ)) : (flatten cs).map round6 = (ofSections (cs.map coded)).coef := by
  unfold flatten ofSections
  rw [List.map_flatten, List.map_map, List.map_map]
  rfl

theorem flatten_length (cs : List (Sos ℚ)) : (flatten cs).length = cs.length * 6 := by
  unfold flatten
  induction cs with
  | nil => rfl
  | cons c cs ih => rw [List.map_cons, List.flatten_cons, List.length_append, ih, List.length_cons]; simp [Sos.toList]; omega

theorem load_eq (ops : CFloat ℝ) (hops : ExactLits ops) (other : ℚ → List Char) (name : List Char) (hn : isName name = true) (cs : List (Sos ℚ)) (hne : cs ≠ []) :
    ∃ text h, gravityHeader other name (flatten cs) = some text ∧ loadHeader ops name text = some h ∧ loaded cs.length h = ofSections (cs.map coded) := by
  have hf : flatten cs ≠ [] := by
    intro h
    have := flatten_length cs
    rw [h] at this
    have hp := List.length_pos_of_ne_nil hne
    rw [List.length_nil] at this
    omega
  obtain ⟨text, h1, h2⟩ := header_load ops other name hn (flatten cs) hf
  refine ⟨text, _, h1, h2, ?_⟩
  have e : (flatten cs).map (floatLit ops) = (flatten cs).map round6 := List.map_congr_left fun v _ => floatLit_exact ops hops v
  unfold loaded
  rw [e, flatten_coded, flatten_length]
  unfold ofSections
  simp

/-- **C118.** For every list of sections and every name, the header is a C text; the array in it has six values per section, each within half a millionth of the coefficient it stands for, in order; the macro gives their number,
and the filter that is set up with them passes the check. -/
theorem C118_header (ops : CFloat ℝ) (hops : ExactLits ops) (other : ℚ → List Char) (name : List Char) (hn : isName name = true) (cs : List (Sos ℚ)) (hne : cs ≠ []) :
    ∃ text vals, gravityHeader other name (flatten cs) = some text ∧ loadHeader ops name text = some (vals, 6 * cs.length) ∧
      List.Forall₂ (fun (v : ℝ) (q : ℚ) => |v - (q : ℝ)| ≤ 1 / (2 * 10 ^ 6)) vals (flatten cs) ∧ check (loaded cs.length (vals, 6 * cs.length)) = .ok := by
  obtain ⟨text, h, h1, h2, h3⟩ := load_eq ops hops other name hn cs hne
  have e1 : h.1 = (ofSections (cs.map coded)).coef := by rw [← h3]; rfl
  have e2 : h.2 = 6 * cs.length := by
    have : h.2 = (ofSections (cs.map coded)).coefLength := by rw [← h3]; rfl
    rw [this]
    simp [ofSections]
    omega
  have e : h = (h.1, 6 * cs.length) := by rw [← e2]
  refine ⟨text, h.1, h1, by rw [h2, ← e], ?_, ?_⟩
  · rw [e1, ← flatten_coded, List.forall₂_map_left_iff]
    exact List.forall₂_same.2 fun v _ => round6_close v
  · rw [← e, h3]
    refine (C47_difference_equation _ (fun _ => 0) 0).1 ?_
    rw [List.length_map]
    exact List.length_pos_of_ne_nil hne

/-- What the filter set up from the header gives for the first `N` samples of `x`, starting from zero states. -/
noncomputable def outputs (ops : CFloat ℝ) (other : ℚ → List Char) (name : List Char) (cs : List (Sos ℚ)) (x : Nat → ℝ) (N : Nat) : Option (List ℝ) :=
  (gravityHeader other name (flatten cs)).bind fun text => (loadHeader ops name text).bind fun h =>
    (run (loaded cs.length h) (List.replicate (4 * cs.length) 0) ((List.range N).map x)).map Prod.fst

theorem outputs_eq (ops : CFloat ℝ) (hops : ExactLits ops) (other : ℚ → List Char) (name : List Char) (hn : isName name = true) (cs : List (Sos ℚ)) (hne : cs ≠ []) (x : Nat → ℝ) (N : Nat) :
    outputs ops other name cs x N = some ((List.range N).map (cascade (cs.map coded) x)) := by
  obtain ⟨text, h, h1, h2, h3⟩ := load_eq ops hops other name hn cs hne
  obtain ⟨states, e, -⟩ := (C47_difference_equation (cs.map coded) x N).2
  unfold outputs
  rw [List.length_map] at e
  rw [h1, Option.bind_some, h2, Option.bind_some, h3, e, Option.map_some]

/-- **C118 (partial: coefficients with at most six decimals).** Then the filter from the header is the designed one, for every input of every length. (In general it is not: the refutations below.) -/
theorem C118_exact_partial (ops : CFloat ℝ) (hops : ExactLits ops) (other : ℚ → List Char) (name : List Char) (hn : isName name = true) (cs : List (Sos ℚ)) (hne : cs ≠ [])
    (h6 : ∀ v ∈ flatten cs, ∃ k : Int, v = k / 10 ^ 6) (x : Nat → ℝ) (N : Nat) : outputs ops other name cs x N = some ((List.range N).map (cascade (cs.map real) x)) := by
  rw [outputs_eq ops hops other name hn cs hne x N]
  have e : ∀ c ∈ cs, coded c = real c := by
    intro c hc
    have hv : ∀ v ∈ c.toList, round6 v = (v : ℝ) := by
      intro v hv
      obtain ⟨k, rfl⟩ := h6 v (List.mem_flatten.2 ⟨_, List.mem_map_of_mem hc, hv⟩)
      unfold round6
      rw [fixedValue_exact]
    unfold coded real
    simp only [Sos.toList, List.mem_cons, List.not_mem_nil, or_false, forall_eq_or_imp, forall_eq] at hv
    rw [hv.1, hv.2.1, hv.2.2.1, hv.2.2.2.1, hv.2.2.2.2.1, hv.2.2.2.2.2]
  rw [List.map_congr_left e]

theorem section_zero {K : Type} [CommRing K] (c : Sos K) (x : Nat → K) (h : (c.b0 = 0 ∧ c.b1 = 0 ∧ c.b2 = 0) ∨ x = fun _ => 0) : section_ c x = fun _ => 0 := by
  funext n
  induction n using Nat.strong_induction_on with
  | _ n ih =>
    match n with
    | 0 => rcases h with h | h <;> simp [section_, h]
    | 1 => rw [section_, ih 0 (by omega)]; rcases h with h | h <;> simp [h]
    | n + 2 => rw [section_, ih n (by omega), ih (n + 1) (by omega)]; rcases h with h | h <;> simp [h]

theorem cascade_zero {K : Type} [CommRing K] (cs : List (Sos K)) : cascade cs (fun _ => 0) = fun _ => 0 := by
  induction cs with
  | nil => rfl
  | cons c cs ih =>
    have : cascade (c :: cs) (fun _ => 0) = cascade cs (section_ c fun _ => 0) := rfl
    rw [this, section_zero c _ (.inr rfl), ih]

/-- **C118 (silent filters).** Coefficients are printed with six decimals whatever their size. When the three numerator coefficients of the first section are below half a millionth, as scipy's are for low cutoffs, the filter from the
header gives zero for every input. -/
theorem C118_silent (ops : CFloat ℝ) (hops : ExactLits ops) (other : ℚ → List Char) (name : List Char) (hn : isName name = true) (c : Sos ℚ) (cs : List (Sos ℚ))
    (hb : |c.b0| < 1 / (2 * 10 ^ 6) ∧ |c.b1| < 1 / (2 * 10 ^ 6) ∧ |c.b2| < 1 / (2 * 10 ^ 6)) (x : Nat → ℝ) (N : Nat) :
    outputs ops other name (c :: cs) x N = some (List.replicate N 0) := by
  rw [outputs_eq ops hops other name hn (c :: cs) (by simp) x N]
  have e : cascade ((c :: cs).map coded) x = fun _ => 0 := by
    have : cascade ((c :: cs).map coded) x = cascade (cs.map coded) (section_ (coded c) x) := rfl
    rw [this, section_zero (coded c) x (.inl ⟨round6_small _ hb.1, round6_small _ hb.2.1, round6_small _ hb.2.2⟩), cascade_zero]
  rw [e]
  simp

/-! ### A lowpass filter -/

/-- A lowpass section: a double pole at 0.999 and gain `(3 + 4 + 3) / 10⁷ / (1 - 0.999)² = 1` for constant input. -/
def slow : Sos ℚ := ⟨3 / 10 ^ 7, 4 / 10 ^ 7, 3 / 10 ^ 7, 1, -1998 / 1000, 998001 / 10 ^ 6⟩

/-- The section that changes nothing (the preprocessor takes two sections). -/
def through : Sos ℚ := ⟨1, 0, 0, 1, 0, 0⟩

theorem section_through (x : Nat → ℝ) : section_ (real through) x = x := by
  funext n
  match n with
  | 0 => simp [section_, real, through]
  | 1 => simp [section_, real, through]
  | n + 2 => simp [section_, real, through]

theorem slow_step (n : Nat) : section_ (real slow) (fun _ => 1) n = 1 + ((3 / 10 ^ 7 - 1) + ((7 / 10 ^ 7 + 1998 / 1000 * (3 / 10 ^ 7) - 1) / (999 / 1000) - (3 / 10 ^ 7 - 1)) * n) * (999 / 1000 : ℝ) ^ n := by
  induction n using Nat.strong_induction_on with
  | _ n ih =>
    match n with
    | 0 => simp [section_, real, slow]
    | 1 => simp [section_, real, slow]; norm_num
    | n + 2 =>
      rw [section_, ih n (by omega), ih (n + 1) (by omega)]
      simp only [real, slow]
      push_cast
      ring

open Filter Topology in
/-- **C118 (refuted).** This filter follows a constant input: the designed output tends to 1 for the input 1. The filter from its header gives 0 for every input, for ever. -/
theorem C118_lowpass_refuted (ops : CFloat ℝ) (hops : ExactLits ops) (other : ℚ → List Char) (name : List Char) (hn : isName name = true) :
    Tendsto (cascade ([slow, through].map real) fun _ => 1) atTop (𝓝 1) ∧ ∀ x N, outputs ops other name [slow, through] x N = some (List.replicate N 0) := by
  constructor
  · have e : cascade ([slow, through].map real) (fun _ => 1) = section_ (real slow) fun _ => 1 := section_through _
    rw [e]
    have h1 := tendsto_pow_atTop_nhds_zero_of_lt_one (show (0 : ℝ) ≤ 999 / 1000 by norm_num) (by norm_num)
    have h2 := tendsto_self_mul_const_pow_of_lt_one (show (0 : ℝ) ≤ 999 / 1000 by norm_num) (by norm_num)
    have h3 := ((h1.const_mul (3 / 10 ^ 7 - 1)).add (h2.const_mul ((7 / 10 ^ 7 + 1998 / 1000 * (3 / 10 ^ 7) - 1) / (999 / 1000) - (3 / 10 ^ 7 - 1)))).const_add 1
    rw [mul_zero, mul_zero, add_zero, add_zero] at h3
    refine h3.congr fun n => ?_
    rw [slow_step]
    ring
  · intro x N
    exact C118_silent ops hops other name hn slow [through] (by unfold slow; norm_num [abs_of_pos]) x N

/-! ### The default filter -/

/-- The gain of a cascade for constant input: its transfer function at `z = 1`. -/
noncomputable def dcGain (cs : List (Sos ℝ)) : ℝ := (cs.map fun c => (c.b0 + c.b1 + c.b2) / (1 + c.a1 + c.a2)).prod

open Filter Topology in
/-- What a section settles at, if it does, is `(b0 + b1 + b2) / (1 + a1 + a2)` times what its input settles at. -/
theorem section_settles (c : Sos ℝ) (x : Nat → ℝ) (X L : ℝ) (hx : Tendsto x atTop (𝓝 X)) (hy : Tendsto (section_ c x) atTop (𝓝 L)) (h1 : 1 + c.a1 + c.a2 ≠ 0) : L = (c.b0 + c.b1 + c.b2) / (1 + c.a1 + c.a2) * X := by
  have x1 := (tendsto_add_atTop_iff_nat 1).2 hx
  have x2 := (tendsto_add_atTop_iff_nat 2).2 hx
  have y1 := (tendsto_add_atTop_iff_nat 1).2 hy
  have y2 := (tendsto_add_atTop_iff_nat 2).2 hy
  have := ((((x2.const_mul c.b0).add (x1.const_mul c.b1)).add (hx.const_mul c.b2)).sub (y1.const_mul c.a1)).sub (hy.const_mul c.a2)
  have e := tendsto_nhds_unique y2 this
  field_simp
  linarith

/-- The fourth-order Butterworth lowpass that the tool designs with its default arguments (50 Hz, cutoff 0.5 Hz), twelve decimals of the denominators. -/
def defaultSos : List (Sos ℚ) :=
  [⟨8984861464 / 10 ^ 16, 2 * 8984861464 / 10 ^ 16, 8984861464 / 10 ^ 16, 1, -1886609582622 / 10 ^ 12, 890339736284 / 10 ^ 12⟩, ⟨1, 2, 1, 1, -1949215958026 / 10 ^ 12, 953069895328 / 10 ^ 12⟩]

/-- **C118 (refuted, default arguments).** The designed filter has gain 1 for constant input (to a part in a thousand), as a gravity estimate needs; the filter from the header has more than 1.11. -/
theorem C118_default_refuted : |dcGain (defaultSos.map real) - 1| < 1 / 1000 ∧ 111 / 100 < dcGain (defaultSos.map coded) := by
  constructor
  · unfold dcGain defaultSos real
    norm_num [abs_lt]
  · have e : ∀ (v : ℚ) (k : Int), fixedValue 6 v = k / 10 ^ 6 → round6 v = (k : ℝ) / 10 ^ 6 := fun v k h => by unfold round6; rw [h]; push_cast; rfl
    unfold dcGain defaultSos coded
    simp only [List.map_cons, List.map_nil, List.prod_cons, List.prod_nil]
    rw [e _ 1 (by decide +kernel), e (2 * 8984861464 / 10 ^ 16) 2 (by decide +kernel), e (-1886609582622 / 10 ^ 12) (-1886610) (by decide +kernel), e (890339736284 / 10 ^ 12) 890340 (by decide +kernel),
      e 1 1000000 (by decide +kernel), e 2 2000000 (by decide +kernel), e (-1949215958026 / 10 ^ 12) (-1949216) (by decide +kernel), e (953069895328 / 10 ^ 12) 953070 (by decide +kernel)]
    norm_num

end Emlearn.Tools

namespace Emlearn.Motion
open Emlearn.Tools Emlearn.MiniC

/-- A preprocessor whose gravity filter is on and has no numerator in its first section. -/
structure Deaf (p : Pre) : Prop where
  on : p.enable = true
  coef : ∃ rest : List ℝ, p.coef = [0, 0, 0] ++ rest ∧ rest.length = 9
  states : ∀ i, p.states i = List.replicate 8 0

theorem deaf_filter {p : Pre} (h : Deaf p) (x : ℝ) : Iir.filter p.filter (List.replicate 8 0) x = some (0, List.replicate 8 0) := by
  obtain ⟨rest, hr, hl⟩ := h.coef
  match rest, hl with
  | [a, b, c, d, e, f, g, i, j], _ =>
    unfold Iir.filter Pre.filter
    rw [hr]
    simp [Iir.stageLoop, Iir.biquad]

theorem deaf_warm {p : Pre} (h : Deaf p) (x : ℝ) (k : Nat) : warmUp p.filter x k (List.replicate 8 0) = some (List.replicate 8 0) := by
  induction k with
  | zero => rfl
  | succ k ih => rw [warmUp, deaf_filter h, Option.bind_some, ih]

theorem deaf_axis {p : Pre} (h : Deaf p) (i : Fin 3) (x : ℝ) : axis p i x = some (0, List.replicate 8 0) := by
  unfold axis
  rw [if_pos h.on, h.states i]
  split
  · rw [deaf_warm h, Option.bind_some, deaf_filter h]
  · rw [Option.bind_some, deaf_filter h]

theorem vec3_all {α : Type} (a : α) (i : Fin 3) : ![a, a, a] i = a := by match i with | 0 => rfl | 1 => rfl | 2 => rfl

theorem deaf_step {data : List ℝ} {f : Nat} {s s' : Pre × Acc} (h : Deaf s.1) (e : frameStep data f s = some s') : Deaf s'.1 ∧ s'.1.gravity = ![0, 0, 0] := by
  unfold frameStep at e
  simp only [deaf_axis h, Option.bind_some, Option.bind_eq_some_iff] at e
  obtain ⟨x, -, y, -, z, -, e⟩ := e
  split at e
  · cases e
  · simp only [Option.some.injEq] at e
    subst e
    exact ⟨⟨h.on, h.coef, fun i => vec3_all _ i⟩, rfl⟩

theorem deaf_loop {data : List ℝ} {k f : Nat} {s s' : Pre × Acc} (h : Deaf s.1) (e : frameLoop data k f s = some s') : Deaf s'.1 ∧ (0 < k → s'.1.gravity = ![0, 0, 0]) := by
  induction k generalizing f s with
  | zero => simp only [frameLoop, Option.some.injEq] at e; subst e; exact ⟨h, by omega⟩
  | succ k ih =>
    rw [frameLoop, Option.bind_eq_some_iff] at e
    obtain ⟨t, e1, e2⟩ := e
    obtain ⟨h1, h2⟩ := deaf_step h e1
    obtain ⟨h3, h4⟩ := ih h1 e2
    refine ⟨h3, fun _ => ?_⟩
    by_cases hk : 0 < k
    · exact h4 hk
    · obtain rfl : k = 0 := by omega
      simp only [frameLoop, Option.some.injEq] at e2
      subst e2
      exact h2

theorem deaf_run {p p' : Pre} {data : List ℝ} {e : Int} (h : Deaf p) (hr : runPre p data = some (e, p')) : Deaf p' ∧ (e = 0 → 6 ≤ data.length → p'.gravity = ![0, 0, 0]) := by
  unfold runPre at hr
  split at hr
  · simp only [Option.some.injEq, Prod.mk.injEq] at hr
    obtain ⟨rfl, rfl⟩ := hr
    exact ⟨h, by omega⟩
  · split at hr
    · simp only [Option.some.injEq, Prod.mk.injEq] at hr
      obtain ⟨rfl, rfl⟩ := hr
      exact ⟨h, by omega⟩
    · rw [Option.bind_eq_some_iff] at hr
      obtain ⟨s, h1, h2⟩ := hr
      have key := fun hD => deaf_loop hD h1
      obtain ⟨d1, d2⟩ := key ⟨h.on, h.coef, h.states⟩
      have hk : 6 ≤ data.length → 0 < data.length / 6 := fun h => by omega
      simp only [] at h2
      split at h2
      · rw [Option.bind_eq_some_iff] at h2
        obtain ⟨r, -, h2⟩ := h2
        split at h2 <;>
        · simp only [Option.some.injEq, Prod.mk.injEq] at h2
          obtain ⟨-, rfl⟩ := h2
          exact ⟨⟨d1.on, d1.coef, d1.states⟩, fun _ hl => d2 (hk hl)⟩
      · simp only [Option.some.injEq, Prod.mk.injEq] at h2
        obtain ⟨-, rfl⟩ := h2
        exact ⟨⟨d1.on, d1.coef, d1.states⟩, fun _ hl => d2 (hk hl)⟩

/-- The windows of sensor data given to the preprocessor one after the other, as the programs do: the codes and the gravity vectors after each. -/
noncomputable def runAll (p : Pre) : List (List ℝ) → Option (List (Int × (Fin 3 → ℝ)))
  | [] => some []
  | d :: ds => (runPre p d).bind fun r => (runAll r.2 ds).map fun l => (r.1, r.2.gravity) :: l

theorem deaf_all (L : Nat) (hL : L < 32) (W : Nat) (hW : 1 ≤ W) (hWN : W ≤ 2 ^ L) (windows : List (List ℝ)) (hd : ∀ d ∈ windows, d.length = W * 6) :
    ∀ p : Pre, Deaf p → Ready (2 ^ L) p → p.windowLength = W → 0 < p.samplerate → runAll p windows = some (List.replicate windows.length (0, ![0, 0, 0])) := by
  induction windows with
  | nil => exact fun p _ _ _ _ => rfl
  | cons d ds ih =>
    intro p hD hp hw hsr
    obtain ⟨p1, g, lo, hi, h1, h2, _, ⟨h3, h4, _⟩, _⟩ := C77_run L hL p hp W hW hWN hw hsr d (hd d (by simp))
    obtain ⟨d1, d2⟩ := deaf_run hD h1
    have hl := hd d (by simp)
    rw [runAll, h1, Option.bind_some, ih (fun x hx => hd x (by simp [hx])) p1 d1 h2 (by rw [h3, hw]) (by rw [h4]; exact hsr), d2 rfl (by omega), Option.map_some]
    rfl

/-- **C118 (the motion preprocessor).** A filter is accepted from its header if it has two sections, and only then. When the three numerator coefficients of its first section are below half a millionth, the gravity vector that
the preprocessor estimates is zero after every window, whatever the sensor shows: orientation is 0/0, and "motion" contains all of gravity. -/
theorem C118_gravity_lost (ops : CFloat ℝ) (hops : ExactLits ops) (other : ℚ → List Char) (name : List Char) (hn : isName name = true) (c : Iir.Sos ℚ) (cs : List (Iir.Sos ℚ))
    (L : Nat) (hL : L < 32) (raw : Pre) (hf : raw.features.length = 8) (hc : raw.coef.length = 12) (samplerate : Int) (hsr : 0 < samplerate) (W : Nat) (hW : 1 ≤ W) (hWN : W ≤ 2 ^ L) :
    ∃ text vals n, gravityHeader other name (flatten (c :: cs)) = some text ∧ loadHeader ops name text = some (vals, n) ∧
      ((setGravityLowpass (init (2 ^ L) raw samplerate W).2 vals).1 = 0 ↔ cs.length = 1) ∧
      (cs.length = 1 → |c.b0| < 1 / (2 * 10 ^ 6) ∧ |c.b1| < 1 / (2 * 10 ^ 6) ∧ |c.b2| < 1 / (2 * 10 ^ 6) →
        ∀ windows : List (List ℝ), (∀ w ∈ windows, w.length = W * 6) →
          runAll (setGravityLowpass (init (2 ^ L) raw samplerate W).2 vals).2 windows = some (List.replicate windows.length (0, ![0, 0, 0]))) := by
  obtain ⟨text, h, h1, h2, h3⟩ := load_eq ops hops other name hn (c :: cs) (by simp)
  have e1 : h.1 = (flatten (c :: cs)).map round6 := by rw [flatten_coded, ← h3]; rfl
  have hlen : h.1.length = (cs.length + 1) * 6 := by rw [e1, List.length_map, flatten_length, List.length_cons]
  refine ⟨text, h.1, h.2, h1, h2, ?_, fun hc1 hb windows hw => ?_⟩
  · unfold setGravityLowpass
    split
    · exact ⟨fun h => by simp at h, fun h => by omega⟩
    · exact ⟨fun _ => by omega, fun _ => rfl⟩
  · have hi := (C63_init (2 ^ L) raw hf samplerate W).1 (by exact_mod_cast hWN)
    have hr := C77_init_ready (2 ^ L) raw hf hc samplerate W (by exact_mod_cast hWN)
    obtain ⟨hg, hready⟩ := (C77_set_gravity _ _ hr h.1).1 (by omega)
    refine deaf_all L hL W hW hWN windows hw _ ?_ hready (by rw [hg]; exact hi.2.2.2.2.1) (by rw [hg]; show 0 < (init (2 ^ L) raw samplerate W).2.samplerate; rw [hi.2.2.2.2.2.2.1]; exact hsr)
    rw [hg]
    refine ⟨rfl, ⟨h.1.drop 3, ?_, by rw [List.length_drop]; omega⟩, ?_⟩
    · show h.1 = _
      rw [e1]
      unfold flatten
      simp [Iir.Sos.toList, round6_small _ hb.1, round6_small _ hb.2.1, round6_small _ hb.2.2]
    · intro i
      show (init (2 ^ L) raw samplerate W).2.states i = _
      unfold init
      rw [if_neg (by push_cast; have : (W : Int) ≤ 2 ^ L := by exact_mod_cast hWN
                     omega)]
      simp only []
      rw [if_neg (by rw [show Iir.check (Pre.filter _) = .ok from rfl]; simp)]
      unfold Fft.fill Fft.fillWith
      rw [if_pos rfl]

end Emlearn.Motion
