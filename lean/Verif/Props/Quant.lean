/- Properties C28-C32 and C65: feature quantizer and fixed point numbers. -/
import Verif.Quant.Model
import Mathlib.Tactic.FieldSimp
import Mathlib.Tactic.Ring
import Mathlib.Algebra.Order.Field.Rat
import Mathlib.Data.Rat.Floor
namespace Emlearn.Quant
variable {K : Type} [Field K] [LinearOrder K] [IsStrictOrderedRing K] [FloorRing K]

/-- Specification: truncate toward zero and saturate to [-32767, 32767]. -/
def saturated (s : K) : Int := if s < -32767 then -32767 else if 32767 < s then 32767 else trunc s

theorem trunc_ofNat (n : Nat) : trunc ((n : Int) : K) = n := trunc_intCast _

theorem saturated_range (s : K) : -32767 ≤ saturated s ∧ saturated s ≤ 32767 := by
  unfold saturated
  split
  · omega
  · split
    · omega
    · rename_i h1 h2
      push Not at h1 h2
      have a := trunc_mono h1; have b := trunc_mono h2
      have e1 : trunc (-32767 : K) = -32767 := by have := trunc_intCast (K := K) (-32767); simpa using this
      have e2 : trunc (32767 : K) = 32767 := by have := trunc_intCast (K := K) (32767); simpa using this
      omega

theorem saturated_eq_trunc_clip (s : K) : saturated s = trunc (clip s (-32767) 32767) := by
  have e1 : trunc (-32767 : K) = -32767 := by have := trunc_intCast (K := K) (-32767); simpa using this
  have e2 : trunc (32767 : K) = 32767 := by have := trunc_intCast (K := K) (32767); simpa using this
  unfold saturated clip
  split
  · rename_i h
    rw [max_eq_right h.le, min_eq_left (by linarith), e1]
  · rename_i h
    push Not at h
    rw [max_eq_left h]
    split
    · rename_i h2; rw [min_eq_right h2.le, e2]
    · rename_i h2; rw [min_eq_left (not_lt.mp h2)]

theorem saturated_mono {s t : K} (h : s ≤ t) : saturated s ≤ saturated t := by
  rw [saturated_eq_trunc_clip, saturated_eq_trunc_clip]
  apply trunc_mono
  unfold clip
  exact min_le_min_right _ (max_le_max_right _ h)

theorem step_eq (scale : K) (acc : Acc) (v : K) :
    step scale acc v = some { out := acc.out ++ [saturated (v * scale)], nUnder := acc.nUnder + (if v * scale < -32767 then 1 else 0), nOver := acc.nOver + (if 32767 < v * scale then 1 else 0) } := by
  have hr := saturated_range (v * scale)
  have e1 : trunc (-32767 : K) = -32767 := by have := trunc_intCast (K := K) (-32767); simpa using this
  have e2 : trunc (32767 : K) = 32767 := by have := trunc_intCast (K := K) (32767); simpa using this
  unfold step
  by_cases h1 : v * scale < -32767
  · have h2 : ¬ (32767 < v * scale) := by intro h; linarith
    have h3 : ¬ ((-32767 : K) > 32767) := by norm_num
    simp only [h1, h2, if_true, if_false, h3, toInt16, e1, saturated]
    simp
  · by_cases h2 : 32767 < v * scale
    · simp only [h1, h2, if_true, if_false, gt_iff_lt, toInt16, e2, saturated]
      simp
    · simp only [h1, h2, if_false, gt_iff_lt, toInt16, saturated] at hr ⊢
      rw [if_pos (by omega)]; simp

theorem foldlM_eq (scale : K) (values : List K) (acc : Acc) :
    values.foldlM (step scale) acc = some { out := acc.out ++ values.map (fun v => saturated (v * scale)), nUnder := acc.nUnder + values.countP (fun v => decide (v * scale < -32767)), nOver := acc.nOver + values.countP (fun v => decide (32767 < v * scale)) } := by
  induction values generalizing acc with
  | nil => simp
  | cons v vs ih =>
    rw [List.foldlM_cons, step_eq]
    simp only [Option.bind_eq_bind, Option.bind_some]
    rw [ih]
    simp only [List.map_cons, List.countP_cons, List.append_assoc, List.singleton_append, decide_eq_true_eq]
    congr 2 <;> omega

/-- **C28** For every scale and every value array: with equal lengths the call succeeds (no undefined conversion), writes the saturated truncation of every scaled value and the exact numbers of values below and
above the range; with different lengths it reports `EmlSizeMismatch` and writes nothing. With a non-negative scale larger inputs never quantize to smaller outputs. -/
theorem C28_forward_saturates_counts_monotone (scale : K) (values : List K) (out : List Int) :
    (out.length = values.length → checkForward scale values out =
      some (.ok, values.map (fun v => saturated (v * scale)),
        some (values.countP (fun v => decide (v * scale < -32767)), values.countP (fun v => decide (32767 < v * scale))))) ∧
    (out.length ≠ values.length → checkForward scale values out = some (.sizeMismatch, out, none) ∧ forward scale values out = some (.sizeMismatch, out)) ∧
    (∀ s : K, -32767 ≤ saturated s ∧ saturated s ≤ 32767 ∧
      (s < -32767 → saturated s = -32767) ∧ (32767 < s → saturated s = 32767) ∧
      (-32767 ≤ s → s ≤ 32767 → |s - saturated s| < 1 ∧ |(saturated s : K)| ≤ |s|)) ∧
    (0 ≤ scale → ∀ v w : K, v ≤ w → saturated (v * scale) ≤ saturated (w * scale)) := by
  refine ⟨?_, ?_, ?_, ?_⟩
  · intro h
    unfold checkForward
    rw [if_pos h, foldlM_eq]
    simp
  · intro h; unfold forward checkForward; rw [if_neg h]; exact ⟨rfl, rfl⟩
  · intro s
    refine ⟨(saturated_range s).1, (saturated_range s).2, ?_, ?_, ?_⟩
    · intro h; unfold saturated; rw [if_pos h]
    · intro h; unfold saturated; rw [if_neg (by intro h2; linarith), if_pos h]
    · intro h1 h2
      have : saturated s = trunc s := by unfold saturated; rw [if_neg (not_lt.mpr h1), if_neg (not_lt.mpr h2)]
      rw [this]; exact trunc_spec s
  · intro hs v w h; exact saturated_mono (mul_le_mul_of_nonneg_right h hs)

example : checkForward (1000 : ℚ) [1/3, -33, 100, -1/3000] [0, 0, 0, 0] = some (.ok, [333, -32767, 32767, 0], some (1, 1)) := by decide +kernel

theorem saturated_id {s : K} (h1 : -32767 ≤ s) (h2 : s ≤ 32767) : saturated s = trunc s := by
  unfold saturated; rw [if_neg (not_lt.mpr h1), if_neg (not_lt.mpr h2)]

/-- **C29** For a positive scale: for any values that do not saturate, quantizing and dequantizing succeeds, and elementwise the result is less than one step `1/scale` away and never larger in magnitude;
dequantizing and quantizing any integers in [-32767, 32767] gives them back. -/
theorem C29_round_trip (scale : K) (hs : 0 < scale) :
    (∀ values : List K, (∀ v ∈ values, -32767 ≤ v * scale ∧ v * scale ≤ 32767) → ∀ (o1 : List Int) (o2 : List K), o1.length = values.length → o2.length = values.length →
      ∃ q r, forward scale values o1 = some (.ok, q) ∧ inverse scale q o2 = (.ok, r) ∧ r.length = values.length ∧
        ∀ p ∈ values.zip r, |p.2 - p.1| < 1 / scale ∧ |p.2| ≤ |p.1|) ∧
    (∀ q : List Int, (∀ n ∈ q, -32767 ≤ n ∧ n ≤ 32767) → ∀ (o1 : List Int) (o2 : List K), o1.length = q.length → o2.length = q.length →
      ∃ r, inverse scale q o2 = (.ok, r) ∧ forward scale r o1 = some (.ok, q)) := by
  constructor
  · intro values hv o1 o2 h1 h2
    refine ⟨values.map (fun v => saturated (v * scale)), (values.map (fun v => saturated (v * scale))).map (fun v : Int => (v : K) / scale), ?_, ?_, by simp, ?_⟩
    · unfold forward; rw [(C28_forward_saturates_counts_monotone scale values o1).1 h1]; rfl
    · unfold inverse; rw [if_pos (by simp [h2])]
    · intro p hp
      rw [List.map_map, List.zip_map_right, List.mem_map] at hp
      obtain ⟨⟨a, b⟩, hi, rfl⟩ := hp
      have hab : a ∈ values ∧ a = b := by
        have : ∀ l : List K, (a, b) ∈ l.zip l → a ∈ l ∧ a = b := by
          intro l; induction l with
          | nil => simp
          | cons x l ih =>
            intro h
            simp only [List.zip_cons_cons, List.mem_cons, Prod.mk.injEq] at h
            rcases h with ⟨rfl, rfl⟩ | h
            · simp
            · exact ⟨by simp [(ih h).1], (ih h).2⟩
        exact this values hi
      obtain ⟨hm, rfl⟩ := hab
      obtain ⟨b1, b2⟩ := hv a hm
      have := trunc_spec (a * scale)
      simp only [Prod.map_apply, id_eq, Function.comp_apply]
      rw [saturated_id b1 b2]
      have e : (trunc (a * scale) : K) / scale - a = ((trunc (a * scale) : K) - a * scale) / scale := by field_simp
      constructor
      · rw [e, abs_div, abs_of_pos hs]
        rw [abs_sub_comm] at this
        exact div_lt_div_of_pos_right this.1 hs
      · rw [abs_div, abs_of_pos hs, div_le_iff₀ hs]
        have h3 := this.2
        rw [abs_mul, abs_of_pos hs] at h3
        exact h3
  · intro q hq o1 o2 h1 h2
    refine ⟨q.map (fun v : Int => (v : K) / scale), ?_, ?_⟩
    · unfold inverse; rw [if_pos h2]
    · unfold forward
      rw [(C28_forward_saturates_counts_monotone scale _ o1).1 (by simpa using h1)]
      simp only [Option.map_some, Option.some.injEq, Prod.mk.injEq, true_and]
      rw [List.map_map]
      conv_rhs => rw [← List.map_id q]
      apply List.map_congr_left
      intro n hn
      have := hq n hn
      simp only [Function.comp_apply, id]
      rw [div_mul_cancel₀ _ hs.ne', saturated_id (by exact_mod_cast this.1) (by exact_mod_cast this.2), trunc_intCast]

example : forward (3 : ℚ) [7/2, -7/2] [0, 0] = some (.ok, [10, -10]) ∧ inverse (3 : ℚ) [10, -10] [0, 0] = (.ok, [10/3, -10/3]) := by decide +kernel

theorem mapM_some {α β : Type} (f : α → Option β) (g : α → β) (l : List α) (h : ∀ a ∈ l, f a = some (g a)) : l.mapM f = some (l.map g) := by
  induction l with
  | nil => rfl
  | cons a l ih =>
    rw [List.mapM_cons, h a (by simp)]
    simp only [Option.bind_eq_bind, Option.bind_some]
    rw [ih (fun x hx => h x (by simp [hx]))]
    rfl

/-- **C30** For dtype int16 and default `out_max`, `Quantizer.transform` and `eml_quantizer_forward_int16` produce the same integers for every scale and all values, and `inverse_transform` and
`eml_quantizer_inverse_int16` the same values for every code in [-32767, 32767]. -/
theorem C30_python_c_agree (scale : K) :
    (∀ (values : List K) (out : List Int), out.length = values.length →
      ∃ q, transform int16 none scale values = some q ∧ forward scale values out = some (.ok, q)) ∧
    (∀ (q : List Int) (out : List K), out.length = q.length → (∀ n ∈ q, -32767 ≤ n ∧ n ≤ 32767) →
      inverse scale q out = (.ok, inverseTransform int16 none scale q)) := by
  have hm : (getOutMax int16 none : Int) = 32767 := by decide
  constructor
  · intro values out h
    refine ⟨values.map (fun v => saturated (v * scale)), ?_, ?_⟩
    · unfold transform
      apply mapM_some
      intro v _
      have hr := saturated_range (v * scale)
      rw [saturated_eq_trunc_clip] at hr ⊢
      rw [hm]
      push_cast
      unfold astype
      rw [if_pos (by rw [show int16.min = -32768 by decide, show int16.max = 32767 by decide]; omega)]
    · unfold forward; rw [(C28_forward_saturates_counts_monotone scale values out).1 h]; rfl
  · intro q out h hq
    unfold inverse inverseTransform
    rw [if_pos h, hm]
    simp only [Prod.mk.injEq, true_and]
    apply List.map_congr_left
    intro n hn
    have := hq n hn
    have a1 : (-32767 : K) ≤ n := by exact_mod_cast this.1
    have a2 : (n : K) ≤ 32767 := by exact_mod_cast this.2
    unfold clip
    push_cast
    rw [max_eq_left a1, min_eq_left a2]

example : transform int16 none (100 : ℚ) [1/3, -5000, 1/1000] = some [33, -32767, 0] := by decide +kernel

/-- Python clips the code -32768 before dequantizing, C does not: the agreement of C30 does not extend to it. -/
example : inverse (1 : ℚ) [-32768] [0] ≠ (.ok, inverseTransform int16 none (1 : ℚ) [-32768]) := by decide +kernel

theorem foldl_max_ge (l : List K) (a : K) : a ≤ l.foldl max a ∧ ∀ x ∈ l, x ≤ l.foldl max a := by
  induction l generalizing a with
  | nil => simp
  | cons b l ih =>
    have := ih (max a b)
    simp only [List.foldl_cons, List.mem_cons, forall_eq_or_imp]
    exact ⟨le_trans (le_max_left _ _) this.1, le_trans (le_max_right _ _) this.1, this.2⟩

theorem foldl_min_le (l : List K) (a : K) : l.foldl min a ≤ a ∧ ∀ x ∈ l, l.foldl min a ≤ x := by
  induction l generalizing a with
  | nil => simp
  | cons b l ih =>
    have := ih (min a b)
    simp only [List.foldl_cons, List.mem_cons, forall_eq_or_imp]
    exact ⟨le_trans this.1 (min_le_left _ _), le_trans this.1 (min_le_right _ _), this.2⟩

theorem clip_id {x lo hi : K} (h1 : lo ≤ x) (h2 : x ≤ hi) : clip x lo hi = x := by
  unfold clip; rw [max_eq_left h1, min_eq_left h2]

/-- C65 in terms of the clipped value (helper). After `fit` with an explicit positive `max_value`, or on data whose largest magnitude is positive with `max_quantile=None`, no value of magnitude at most that maximum (in particular no training value)
is clipped by `transform`, the maximum itself maps to `out_max` and its negation to `-out_max`. Stated for every integer dtype and positive `out_max`. -/
theorem fit_covers_range (t : IntType) (outMax : Option Int) (ho : 0 < getOutMax t outMax) :
    (∀ (m : K) (x : List K), 0 < m → ∃ s, fit t outMax (some m) x = some s ∧ 0 < s ∧ m * s = getOutMax t outMax ∧
      ∀ v : K, |v| ≤ m → clip (v * s) (-(getOutMax t outMax : K)) (getOutMax t outMax) = v * s) ∧
    (∀ x : List K, (∃ v ∈ x, v ≠ 0) → ∃ s g, fit t outMax none x = some s ∧ 0 < s ∧ (g ∈ x ∨ -g ∈ x) ∧ g * s = getOutMax t outMax ∧
      ∀ v ∈ x, |v| ≤ g ∧ clip (v * s) (-(getOutMax t outMax : K)) (getOutMax t outMax) = v * s) := by
  have ho' : (0 : K) < (getOutMax t outMax : K) := by exact_mod_cast ho
  have key : ∀ (g : K), 0 < g → ∀ v : K, |v| ≤ g → clip (v * ((getOutMax t outMax : K) / g)) (-(getOutMax t outMax : K)) (getOutMax t outMax) = v * ((getOutMax t outMax : K) / g) := by
    intro g hg v hv
    have hv' := abs_le.mp hv
    have hs : 0 < (getOutMax t outMax : K) / g := div_pos ho' hg
    have e : g * ((getOutMax t outMax : K) / g) = getOutMax t outMax := by field_simp
    apply clip_id
    · calc -(getOutMax t outMax : K) = (-g) * ((getOutMax t outMax : K) / g) := by rw [neg_mul, e]
        _ ≤ _ := mul_le_mul_of_nonneg_right hv'.1 hs.le
    · calc v * ((getOutMax t outMax : K) / g) ≤ g * ((getOutMax t outMax : K) / g) := mul_le_mul_of_nonneg_right hv'.2 hs.le
        _ = _ := e
  constructor
  · intro m x hm
    refine ⟨(getOutMax t outMax : K) / m, ?_, div_pos ho' hm, by field_simp, key m hm⟩
    unfold fit; simp [hm.ne']
  · rintro x ⟨v, hv, hv0⟩
    cases x with
    | nil => simp at hv
    | cons a l =>
      have h1 := foldl_max_ge l a
      have h2 := foldl_min_le l a
      have hb : ∀ w ∈ a :: l, |w| ≤ max (l.foldl max a) (-(l.foldl min a)) := by
        intro w hw
        have hw1 : w ≤ l.foldl max a := by
          rcases List.mem_cons.mp hw with rfl | hw
          · exact h1.1
          · exact h1.2 w hw
        have hw2 : l.foldl min a ≤ w := by
          rcases List.mem_cons.mp hw with rfl | hw
          · exact h2.1
          · exact h2.2 w hw
        rw [abs_le]
        have a1 := le_max_left (l.foldl max a) (-(l.foldl min a))
        have a2 := le_max_right (l.foldl max a) (-(l.foldl min a))
        constructor <;> linarith
      have hg : 0 < max (l.foldl max a) (-(l.foldl min a)) := lt_of_lt_of_le (abs_pos.mpr hv0) (hb v hv)
      have mem1 : ∀ (l : List K) (a : K), l.foldl max a ∈ a :: l := by
        intro l
        induction l with
        | nil => simp
        | cons b l ih =>
          intro a
          rw [List.foldl_cons]
          have := ih (max a b)
          rcases List.mem_cons.mp this with h | h
          · rw [h]; rcases max_choice a b with h | h <;> rw [h] <;> simp
          · simp [h]
      have mem2 : ∀ (l : List K) (a : K), l.foldl min a ∈ a :: l := by
        intro l
        induction l with
        | nil => simp
        | cons b l ih =>
          intro a
          rw [List.foldl_cons]
          have := ih (min a b)
          rcases List.mem_cons.mp this with h | h
          · rw [h]; rcases min_choice a b with h | h <;> rw [h] <;> simp
          · simp [h]
      refine ⟨(getOutMax t outMax : K) / max (l.foldl max a) (-(l.foldl min a)), max (l.foldl max a) (-(l.foldl min a)), ?_, div_pos ho' hg, ?_, by field_simp, fun w hw => ⟨hb w hw, key _ hg w (hb w hw)⟩⟩
      · unfold fit; simp only [Option.bind_some]; rw [if_neg hg.ne']
      · rcases max_choice (l.foldl max a) (-(l.foldl min a)) with h | h
        · left; rw [h]; exact mem1 l a
        · right; rw [h, neg_neg]; exact mem2 l a

/-- **C65** For every signed integer dtype and every positive `out_max` it can hold (default: the largest value of the dtype): after `fit` with an explicit positive `max_value`, or on data whose largest magnitude is
positive with `max_quantile=None`, `transform` clips no value of magnitude at most that maximum (in particular no training value): each becomes the truncation of the value times the scale. The maximum itself maps to
`out_max` and its negation to `-out_max`. -/
theorem C65_fit_covers_range (bits : Nat) (outMax : Option Int) (O : Int) (hO : O = outMax.getD (2 ^ (bits - 1) - 1)) (ho : 0 < O) (hfit : O ≤ 2 ^ (bits - 1) - 1) :
    (∀ (m : K) (x : List K), 0 < m → ∃ (s : K), fit { bits := bits, signed := true } outMax (some m) x = some s ∧ 0 < s ∧
      transform { bits := bits, signed := true } outMax s [m, -m] = some [O, -O] ∧
      ∀ vs : List K, (∀ v ∈ vs, |v| ≤ m) → transform { bits := bits, signed := true } outMax s vs = some (vs.map (fun v => trunc (v * s)))) ∧
    (∀ x : List K, (∃ v ∈ x, v ≠ 0) → ∃ (s g : K), fit { bits := bits, signed := true } outMax none x = some s ∧ 0 < s ∧ (g ∈ x ∨ -g ∈ x) ∧ (∀ v ∈ x, |v| ≤ g) ∧
      transform { bits := bits, signed := true } outMax s [g, -g] = some [O, -O] ∧
      transform { bits := bits, signed := true } outMax s x = some (x.map (fun v => trunc (v * s)))) := by
  set t : IntType := { bits := bits, signed := true } with ht
  have hg : getOutMax t outMax = O := by rw [hO]; rfl
  have ho' : (0 : K) < (O : K) := by exact_mod_cast ho
  have core : ∀ (g s : K), 0 < g → 0 < s → g * s = (O : K) → ∀ vs : List K, (∀ v ∈ vs, |v| ≤ g) → transform t outMax s vs = some (vs.map (fun v => trunc (v * s))) := by
    intro g s hg0 hs he vs hvs
    unfold transform
    rw [hg]
    induction vs with
    | nil => rfl
    | cons v vs ih =>
      have hv := abs_le.mp (hvs v (by simp))
      have b1 : -(O : K) ≤ v * s := by rw [← he, ← neg_mul]; exact mul_le_mul_of_nonneg_right hv.1 hs.le
      have b2 : v * s ≤ (O : K) := by rw [← he]; exact mul_le_mul_of_nonneg_right hv.2 hs.le
      have c1 : -O ≤ trunc (v * s) := by
        have := trunc_mono b1
        rwa [show -(O : K) = ((-O : Int) : K) by push_cast; ring, trunc_intCast] at this
      have c2 : trunc (v * s) ≤ O := by
        have := trunc_mono b2
        rwa [trunc_intCast] at this
      rw [List.mapM_cons, ih (fun w hw => hvs w (by simp [hw])), clip_id b1 b2]
      have ha : astype t (v * s) = some (trunc (v * s)) := by
        unfold astype IntType.min IntType.max
        simp only [ht, if_true]
        rw [if_pos ⟨by omega, by omega⟩]
      rw [ha]
      rfl
  have ends : ∀ (g s : K), 0 < g → 0 < s → g * s = (O : K) → transform t outMax s [g, -g] = some [O, -O] := by
    intro g s hg0 hs he
    rw [core g s hg0 hs he [g, -g] (by intro v hv; simp at hv; rcases hv with rfl | rfl <;> simp [abs_of_pos hg0])]
    simp only [List.map_cons, List.map_nil, neg_mul, he, trunc_neg, trunc_intCast]
  obtain ⟨h1, h2⟩ := fit_covers_range (K := K) t outMax (by rw [hg]; exact ho)
  rw [hg] at h1 h2
  constructor
  · intro m x hm
    obtain ⟨s, e1, e2, e3, _⟩ := h1 m x hm
    exact ⟨s, e1, e2, ends m s hm e2 e3, core m s hm e2 e3⟩
  · intro x hx
    obtain ⟨s, g, e1, e2, e3, e4, e5⟩ := h2 x hx
    have hg0 : 0 < g := by
      by_contra hc
      have : g * s ≤ 0 := mul_nonpos_of_nonpos_of_nonneg (not_lt.mp hc) e2.le
      rw [e4] at this
      linarith
    exact ⟨s, g, e1, e2, e3, fun v hv => (e5 v hv).1, ends g s hg0 e2 e4, core g s hg0 e2 e4 x (fun v hv => (e5 v hv).1)⟩

/-- **C65, refuted for unsigned dtypes.** `uint8` is accepted, but the clipping limit `-out_max` lets negative values through to a cast that has no defined result. -/
theorem C65_unsigned_refuted : fit { bits := 8, signed := false } none none [(1 : ℚ), -1] = some 255 ∧ transform { bits := 8, signed := false } none (255 : ℚ) [1, -1] = none := by decide +kernel

example : fit int16 none none [(1/2 : ℚ), -4, 3] = some (32767/4) ∧ transform int16 none (32767/4 : ℚ) [1/2, -4, 3] = some [4095, -32767, 24575] := by decide +kernel

/-- **C31** For every number of fraction bits, every real `x` and every integer `n`: the conversion truncates (error below one unit `2^-bits`, never larger in magnitude), and converting back and forth is exact
on integers; integers convert to and from Q16 exactly; the integer part of a Q16 number is its floor. -/
theorem C31_fixed_point_conversion (bits : Nat) (x : K) (n : Int) :
    |toFloat bits (fromFloat bits x) - x| < 1 / 2 ^ bits ∧ |(toFloat bits (fromFloat bits x) : K)| ≤ |x| ∧
    fromFloat bits (toFloat bits n : K) = n ∧ q16ToInt (q16FromInt n) = n ∧ (toFloat 16 (q16FromInt n) : K) = n ∧
    q16ToInt n = ⌊(toFloat 16 n : K)⌋ ∧ (toFloat bits n : K) * 2 ^ bits = n := by
  have hp : (0 : K) < 2 ^ bits := pow_pos (by norm_num) _
  have h := trunc_spec (x * 2 ^ bits)
  refine ⟨?_, ?_, ?_, ?_, ?_, ?_, ?_⟩
  · unfold toFloat fromFloat
    have e : (trunc (x * 2 ^ bits) : K) / 2 ^ bits - x = ((trunc (x * 2 ^ bits) : K) - x * 2 ^ bits) / 2 ^ bits := by field_simp
    rw [e, abs_div, abs_of_pos hp]
    rw [abs_sub_comm] at h
    exact div_lt_div_of_pos_right h.1 hp
  · unfold toFloat fromFloat
    rw [abs_div, abs_of_pos hp, div_le_iff₀ hp]
    have h3 := h.2
    rw [abs_mul, abs_of_pos hp] at h3
    exact h3
  · unfold toFloat fromFloat
    rw [div_mul_cancel₀ _ hp.ne', trunc_intCast]
  · unfold q16ToInt q16FromInt; omega
  · unfold toFloat q16FromInt; push_cast; norm_num
  · unfold q16ToInt toFloat
    symm
    rw [Int.floor_eq_iff]
    have h1 := Int.mul_ediv_add_emod n 65536
    have h2 := Int.emod_nonneg n (show (65536 : Int) ≠ 0 by norm_num)
    have h3 := Int.emod_lt_of_pos n (show (0 : Int) < 65536 by norm_num)
    have c1 : (65536 : K) * ((n / 65536 : Int) : K) ≤ n := by exact_mod_cast (show 65536 * (n / 65536) ≤ n by omega)
    have c2 : (n : K) < 65536 * ((n / 65536 : Int) : K) + 65536 := by exact_mod_cast (show n < 65536 * (n / 65536) + 65536 by omega)
    rw [show (2 : K) ^ 16 = 65536 by norm_num, le_div_iff₀ (by norm_num), div_lt_iff₀ (by norm_num)]
    constructor <;> linarith
  · unfold toFloat
    exact div_mul_cancel₀ _ hp.ne'

example : fromFloat 16 (-7213475204444817/10000000000000000 : ℚ) = -47274 ∧ fromFloat 16 (-13257480647361592/10000000000000000 : ℚ) = -86884 := by decide +kernel

theorem nearest_pos (t b : Int) (hb : 0 < b) : 2 * |(t + b / 2) / b * b - t| ≤ b := by
  have h1 := Int.ediv_mul_add_emod (t + b / 2) b
  have h2 := Int.emod_nonneg (t + b / 2) hb.ne'
  have h3 := Int.emod_lt_of_pos (t + b / 2) hb
  have h4 : |(t + b / 2) / b * b - t| ≤ b / 2 := by
    rw [abs_le]; constructor <;> omega
  omega

theorem tdiv_nearest (t b : Int) (hb : b ≠ 0) :
    2 * |(if (t ≥ 0 ∧ b ≥ 0) ∨ (t < 0 ∧ b < 0) then t + b.tdiv 2 else t - b.tdiv 2).tdiv b * b - t| ≤ |b| := by
  rcases lt_or_gt_of_ne hb with hneg | hpos
  · obtain ⟨c, rfl⟩ : ∃ c, b = -c := ⟨-b, by omega⟩
    have hc : 0 < c := by omega
    rw [Int.neg_tdiv, Int.tdiv_eq_ediv_of_nonneg hc.le, abs_neg, abs_of_pos hc, Int.tdiv_neg]
    by_cases ht : t < 0
    · rw [if_pos (by omega), show t + -(c / 2) = -(-t + c / 2) by ring, Int.neg_tdiv, Int.tdiv_eq_ediv_of_nonneg (by omega)]
      have := nearest_pos (-t) c hc
      rw [show - -((-t + c / 2) / c) * -c - t = -((-t + c / 2) / c * c - -t) by ring, abs_neg]
      exact this
    · rw [if_neg (by omega), sub_neg_eq_add, Int.tdiv_eq_ediv_of_nonneg (by omega)]
      have := nearest_pos t c hc
      rw [show -((t + c / 2) / c) * -c - t = (t + c / 2) / c * c - t by ring]
      exact this
  · rw [Int.tdiv_eq_ediv_of_nonneg (a := b) hpos.le, abs_of_pos hpos]
    by_cases ht : t < 0
    · rw [if_neg (by omega), show t - b / 2 = -(-t + b / 2) by ring, Int.neg_tdiv, Int.tdiv_eq_ediv_of_nonneg (by omega)]
      have := nearest_pos (-t) b hpos
      rw [show -((-t + b / 2) / b) * b - t = -((-t + b / 2) / b * b - -t) by ring, abs_neg]
      exact this
    · rw [if_pos (by omega), Int.tdiv_eq_ediv_of_nonneg (by omega)]
      exact nearest_pos t b hpos

theorem wrap32_id {x : Int} (h : InI32 x) : wrap32 x = x := by unfold wrap32; unfold InI32 at h; omega

/-- **C32** (division) For every `a` and `b ≠ 0` whose exact quotient fits 32 bits (`|a|·65536 ≤ (2^31 - 1)·|b|`), the result is an integer nearest to the exact quotient:
twice the residual is at most `|b|`. Division by zero is undefined. -/
theorem C32_div_nearest (a b : Int) (hb : b ≠ 0) (hfit : 65536 * |a| ≤ 2147483647 * |b|) :
    ∃ q, q16Div a b = some q ∧ 2 * |q * b - a * 65536| ≤ |b| := by
  have h := tdiv_nearest (a * 65536) b hb
  unfold q16Div
  rw [if_neg hb]
  refine ⟨_, rfl, ?_⟩
  generalize (if (a * 65536 ≥ 0 ∧ b ≥ 0) ∨ (a * 65536 < 0 ∧ b < 0) then a * 65536 + b.tdiv 2 else a * 65536 - b.tdiv 2).tdiv b = q at *
  have hfits : InI32 q := by
    have hb' : 0 < |b| := abs_pos.mpr hb
    have h1 : |q| * |b| ≤ 65536 * |a| + |q * b - a * 65536| := by
      rw [← abs_mul]
      have := abs_add_le (q * b - a * 65536) (a * 65536)
      rw [sub_add_cancel, abs_mul a, abs_of_pos (show (0:Int) < 65536 by norm_num)] at this
      linarith
    have h2 : 2 * (|q| * |b|) ≤ (2 * 2147483647 + 1) * |b| := by linarith
    have h3 : 2 * |q| ≤ 2 * 2147483647 + 1 := by
      have : (2 * |q|) * |b| ≤ (2 * 2147483647 + 1) * |b| := by linarith
      exact le_of_mul_le_mul_right this hb'
    have := abs_le.mp (show |q| ≤ 2147483647 by omega)
    unfold InI32; omega
  rw [wrap32_id hfits]
  exact h

example : q16Div (3 * 65536) (2 * 65536) = some 98304 ∧ q16Div (-1) 3 = some (-21845) ∧ q16Div 2 (-3) = some (-43691) ∧ q16Div 65536 (-131072) = some (-32768) := by decide +kernel

/-- Without the range condition the 32-bit result is unrelated to the quotient: the condition of C32 is needed. -/
example : q16Div 65536 1 = some 0 := by decide +kernel

/-- **C32** (multiplication) Operands of magnitude below 128 (Q16 `2^23`) always multiply without overflow. -/
theorem C32_mul_defined (x y : Int) (hx : |x| ≤ 2 ^ 23) (hy : |y| ≤ 2 ^ 23) : ∃ p, q16Mul x y = some p := by
  have hx' := abs_le.mp hx
  have hy' := abs_le.mp hy
  have a1 : |x / 256| ≤ 2 ^ 15 := by rw [abs_le]; constructor <;> omega
  have a2 : |y / 256| ≤ 2 ^ 15 := by rw [abs_le]; constructor <;> omega
  have h : |x / 256 * (y / 256)| ≤ 2 ^ 15 * 2 ^ 15 := by
    rw [abs_mul]
    exact mul_le_mul a1 a2 (abs_nonneg _) (by norm_num)
  have h' := abs_le.mp h
  refine ⟨x / 256 * (y / 256), ?_⟩
  norm_num at h'
  have hi : InI32 (x / 256 * (y / 256)) := ⟨by linarith [h'.1], by linarith [h'.2]⟩
  unfold q16Mul
  simp only
  rw [if_pos hi]

/-- **C32** Division by zero is undefined. -/
theorem C32_div_zero (a : Int) : q16Div a 0 = none := rfl

/-- **C32** (multiplication) Whenever the product of the halves fits `int` (otherwise the expression overflows), the result differs from `x·y/65536` by less than `(|x|+|y|)/256 + 1`
(stated multiplied by 65536). -/
theorem C32_mul_error (x y p : Int) (h : q16Mul x y = some p) :
    |65536 * p - x * y| < 256 * (|x| + |y|) + 65536 := by
  unfold q16Mul at h
  simp only at h
  split at h
  · cases h
    have hx := Int.mul_ediv_add_emod x 256
    have hy := Int.mul_ediv_add_emod y 256
    have hx0 := Int.emod_nonneg x (show (256:Int) ≠ 0 by norm_num)
    have hy0 := Int.emod_nonneg y (show (256:Int) ≠ 0 by norm_num)
    have hx1 := Int.emod_lt_of_pos x (show (0:Int) < 256 by norm_num)
    have hy1 := Int.emod_lt_of_pos y (show (0:Int) < 256 by norm_num)
    generalize x / 256 = xq at *
    generalize y / 256 = yq at *
    generalize x % 256 = xr at *
    generalize y % 256 = yr at *
    have e : 65536 * (xq * yq) - x * y = -((x - xr) * yr + y * xr) := by
      rw [← hx, ← hy]; ring
    rw [e, abs_neg]
    have t1 : |(x - xr) * yr + y * xr| ≤ |x - xr| * yr + |y| * xr := by
      have := abs_add_le ((x - xr) * yr) (y * xr)
      rwa [abs_mul, abs_mul, abs_of_nonneg hy0, abs_of_nonneg hx0] at this
    have t2 : |x - xr| ≤ |x| + 255 := by
      have := abs_sub x xr
      rw [abs_of_nonneg hx0] at this; omega
    have t3 : |x - xr| * yr ≤ (|x| + 255) * 255 := mul_le_mul t2 (by omega) hy0 (by have := abs_nonneg x; omega)
    have t4 : |y| * xr ≤ |y| * 255 := mul_le_mul_of_nonneg_left (by omega) (abs_nonneg y)
    have := abs_nonneg x
    have := abs_nonneg y
    nlinarith
  · cases h

example : q16Mul (3 * 65536 / 2) (-5 * 65536 / 2) = some (-15 * 65536 / 4) := by decide +kernel

end Emlearn.Quant
