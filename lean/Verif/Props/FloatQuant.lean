/- Property C121: the feature quantizer in floating point, on the device (`float`) and in Python (`float64`). -/
import Verif.Quant.Float
import Verif.Props.Quant
import Verif.Float.Nearest
namespace Emlearn.Quant.Flt
open Emlearn.Flt Emlearn.Quant

/-- `float` with some rounding to nearest. -/
abbrev Single (rd : ℝ → ℝ) : Prop := Nearest 24 (-149) rd
/-- `float64` with some rounding to nearest. -/
abbrev Double (rd : ℝ → ℝ) : Prop := Nearest 53 (-1074) rd

/-- Specification: limited to the range of the outputs. -/
noncomputable def limited (x : ℝ) : ℝ := max (-32767) (min 32767 x)

/-! ### The loop -/

theorem step_rounded (rd : ℝ → ℝ) (scale : ℝ) (acc : Acc) (v : ℝ) : step rd scale acc v = Quant.step 1 acc (rd (v * scale)) := by
  unfold step Quant.step
  rw [mul_one]

theorem foldlM_rounded (rd : ℝ → ℝ) (scale : ℝ) (values : List ℝ) (acc : Acc) : values.foldlM (step rd scale) acc = (values.map fun v => rd (v * scale)).foldlM (Quant.step 1) acc := by
  induction values generalizing acc with
  | nil => rfl
  | cons v l ih =>
    rw [List.map_cons, List.foldlM_cons, List.foldlM_cons, step_rounded]
    cases Quant.step 1 acc (rd (v * scale)) with
    | none => rfl
    | some a => exact ih a

theorem checkForward_eq (rd : ℝ → ℝ) (scale : ℝ) (values : List ℝ) (out : List Int) (h : out.length = values.length) : checkForward rd scale values out =
    some (.ok, values.map (fun v => saturated (rd (v * scale))), some (values.countP (fun v => decide (rd (v * scale) < -32767)), values.countP (fun v => decide (32767 < rd (v * scale))))) := by
  unfold checkForward
  rw [if_pos h, foldlM_rounded, foldlM_eq, Option.map_some, List.map_map, List.countP_map, List.countP_map]
  simp only [mul_one, List.nil_append, Nat.zero_add, Function.comp_def]

theorem forward_eq (rd : ℝ → ℝ) (scale : ℝ) (values : List ℝ) (out : List Int) (h : out.length = values.length) : forward rd scale values out = some (.ok, values.map (fun v => saturated (rd (v * scale)))) := by
  unfold forward
  rw [checkForward_eq rd scale values out h]
  rfl

/-! ### Saturation -/

theorem limited_eq_clip (x : ℝ) : limited x = clip x (-32767) 32767 := by
  unfold limited clip
  rcases le_total x 32767 with h | h
  · rw [min_eq_right h, max_comm, min_eq_left]
    exact max_le h (by norm_num)
  · rw [min_eq_left h, max_eq_right (by norm_num), min_eq_right]
    exact h.trans (le_max_left _ _)

theorem saturated_eq (x : ℝ) : saturated x = trunc (limited x) := by rw [saturated_eq_trunc_clip, limited_eq_clip]

theorem limited_range (x : ℝ) : -32767 ≤ limited x ∧ limited x ≤ 32767 := ⟨le_max_left _ _, max_le (by norm_num) (min_le_left _ _)⟩

theorem limited_id {x : ℝ} (h1 : -32767 ≤ x) (h2 : x ≤ 32767) : limited x = x := by unfold limited; rw [min_eq_right h2, max_eq_right h1]
theorem limited_high {x : ℝ} (h : 32767 ≤ x) : limited x = 32767 := by unfold limited; rw [min_eq_left h, max_eq_right (by norm_num)]
theorem limited_low {x : ℝ} (h : x ≤ -32767) : limited x = -32767 := by unfold limited; rw [min_eq_right (by linarith), max_eq_left h]

theorem rep_max : Rep 24 (-149) (32767 : ℝ) := ⟨32767, 0, by norm_num, by norm_num, by norm_num⟩
theorem rep_max64 : Rep 53 (-1074) (32767 : ℝ) := ⟨32767, 0, by norm_num, by norm_num, by norm_num⟩

section
variable {p : Nat} {emin : ℤ} {rd : ℝ → ℝ} (h : Nearest p emin rd) (hm : Rep p emin (32767 : ℝ))
include h hm

/-- Rounding does not move a number into or out of the range, except onto its bounds. -/
theorem limited_rounded (hp : 1 ≤ p) {e : ℤ} (he : emin ≤ e) (hpe : 32767 ≤ 2 ^ p * (2 : ℝ) ^ e) (x : ℝ) : |limited (rd x) - limited x| ≤ 2 ^ e / 2 := by
  have hu : (0 : ℝ) < 2 ^ e := zpow_pos (by norm_num) _
  rcases le_or_gt 32767 x with h1 | h1
  · have := h.mono h1
    rw [h.exact hm] at this
    rw [limited_high this, limited_high h1, sub_self, abs_zero]
    positivity
  rcases le_or_gt x (-32767) with h2 | h2
  · have := h.mono h2
    rw [h.exact hm.neg] at this
    rw [limited_low this, limited_low h2, sub_self, abs_zero]
    positivity
  · have a1 := h.mono h1.le
    have a2 := h.mono h2.le
    rw [h.exact hm] at a1
    rw [h.exact hm.neg] at a2
    rw [limited_id a2 a1, limited_id h2.le h1.le]
    exact h.grid hp he ((abs_le.2 ⟨by linarith, by linarith⟩ : |x| ≤ 32767).trans hpe)

end

theorem limited_single {rd : ℝ → ℝ} (h : Single rd) (x : ℝ) : |limited (rd x) - limited x| ≤ 1 / 2 ^ 10 := by
  refine (limited_rounded h rep_max (by norm_num) (e := -9) (by norm_num) (by norm_num) x).trans (le_of_eq ?_)
  norm_num

theorem limited_double {rd : ℝ → ℝ} (h : Double rd) (x : ℝ) : |limited (rd x) - limited x| ≤ 1 / 2 ^ 39 := by
  refine (limited_rounded h rep_max64 (by norm_num) (e := -38) (by norm_num) (by norm_num) x).trans (le_of_eq ?_)
  norm_num

theorem limited_lip (x y : ℝ) : |limited x - limited y| ≤ |x - y| := by
  unfold limited
  refine (abs_max_sub_max_le_max _ _ _ _).trans ?_
  rw [sub_self, abs_zero]
  refine max_le (abs_nonneg _) ((abs_min_sub_min_le_max _ _ _ _).trans ?_)
  rw [sub_self, abs_zero]
  exact max_le (abs_nonneg _) (le_refl _)

/-- **C121** (quantizing on the device) for every `float` rounding to nearest, every scale and all values: with equal lengths the call succeeds; every output is in range and differs from the scaled value, limited to the range, by less than
`1 + 2^-10`; every value that is more than `2^-9` out of range is counted, and no value in range is. -/
theorem C121_forward (rd : ℝ → ℝ) (h : Single rd) (scale : ℝ) (values : List ℝ) (out : List Int) (hl : out.length = values.length) :
    ∃ (q : List Int) (u o : Nat), checkForward rd scale values out = some (.ok, q, some (u, o)) ∧ forward rd scale values out = some (.ok, q) ∧
      List.Forall₂ (fun v (n : Int) => -32767 ≤ n ∧ n ≤ 32767 ∧ |(n : ℝ) - limited (v * scale)| < 1 + 1 / 2 ^ 10) values q ∧
      values.countP (fun v => decide (v * scale ≤ -32767 - 1 / 2 ^ 9)) ≤ u ∧ u ≤ values.countP (fun v => decide (v * scale < -32767)) ∧
      values.countP (fun v => decide (32767 + 1 / 2 ^ 9 ≤ v * scale)) ≤ o ∧ o ≤ values.countP (fun v => decide (32767 < v * scale)) := by
  have r9 : Rep 24 (-149) (32767 + 1 / 2 ^ 9 : ℝ) := ⟨32767 * 2 ^ 9 + 1, -9, by norm_num, by norm_num, by norm_num⟩
  refine ⟨_, _, _, checkForward_eq rd scale values out hl, forward_eq rd scale values out hl, ?_, ?_, ?_, ?_, ?_⟩
  · rw [List.forall₂_map_right_iff]
    apply List.forall₂_same.2
    intro v _
    refine ⟨(saturated_range _).1, (saturated_range _).2, ?_⟩
    rw [saturated_eq]
    have h1 := (trunc_spec (limited (rd (v * scale)))).1
    have h2 := limited_single h (v * scale)
    rw [abs_sub_comm] at h1
    have := abs_add_le ((trunc (limited (rd (v * scale))) : ℝ) - limited (rd (v * scale))) (limited (rd (v * scale)) - limited (v * scale))
    rw [sub_add_sub_cancel] at this
    linarith
  · refine List.countP_mono_left ?_
    intro v _ hv
    rw [decide_eq_true_eq] at hv ⊢
    have := h.mono hv
    rw [show (-32767 - 1 / 2 ^ 9 : ℝ) = -(32767 + 1 / 2 ^ 9) by ring, h.exact r9.neg] at this
    have h9 : (0 : ℝ) < 1 / 2 ^ 9 := by norm_num
    linarith
  · refine List.countP_mono_left ?_
    intro v _ hv
    rw [decide_eq_true_eq] at hv ⊢
    by_contra hc
    push Not at hc
    have := h.mono hc
    rw [h.exact rep_max.neg] at this
    linarith
  · refine List.countP_mono_left ?_
    intro v _ hv
    rw [decide_eq_true_eq] at hv ⊢
    have := h.mono hv
    rw [h.exact r9] at this
    have h9 : (0 : ℝ) < 1 / 2 ^ 9 := by norm_num
    linarith
  · refine List.countP_mono_left ?_
    intro v _ hv
    rw [decide_eq_true_eq] at hv ⊢
    by_contra hc
    push Not at hc
    have := h.mono hc
    rw [h.exact rep_max] at this
    linarith

/-- **C121** (order) quantizing on the device keeps the order of the values, for every rounding and every non-negative scale. -/
theorem C121_order (rd : ℝ → ℝ) (h : Single rd) (scale : ℝ) (hs : 0 ≤ scale) (v w : ℝ) (hvw : v ≤ w) (out : List Int) (hl : out.length = 2) :
    ∃ a b, forward rd scale [v, w] out = some (.ok, [a, b]) ∧ a ≤ b :=
  ⟨_, _, forward_eq rd scale [v, w] out hl, saturated_mono (h.mono (mul_le_mul_of_nonneg_right hvw hs))⟩

/-! ### Round trips -/

theorem tiny {s : ℝ} (h1 : 0 < s) (h2 : s ≤ 2 ^ 100) : (2 : ℝ) ^ (-149 : ℤ) / 2 ≤ 1 / 2 ^ 50 / s := by
  rw [le_div_iff₀ h1]
  have := mul_le_mul_of_nonneg_left h2 (show (0 : ℝ) ≤ 2 ^ (-149 : ℤ) / 2 by positivity)
  refine this.trans ?_
  norm_num

/-- **C121** (round trip of values) a value whose scaled value is in range is read back with an error of less than one step and a 128th, for every rounding to nearest and every scale between `2^-100` and `2^100`. -/
theorem C121_round_trip (rd : ℝ → ℝ) (h : Single rd) (s : ℝ) (h1 : 2 ^ (-100 : ℤ) ≤ s) (h2 : s ≤ 2 ^ 100) (values : List ℝ) (hv : ∀ v ∈ values, |v * s| ≤ 32767) (o1 : List Int) (o2 : List ℝ)
    (hl1 : o1.length = values.length) (hl2 : o2.length = values.length) :
    ∃ q r, forward rd s values o1 = some (.ok, q) ∧ inverse rd s q o2 = (.ok, r) ∧ List.Forall₂ (fun v x => |x - v| < (1 + 1 / 2 ^ 7) / s) values r := by
  have hs : (0 : ℝ) < s := lt_of_lt_of_le (by positivity) h1
  refine ⟨_, values.map fun v => rd ((saturated (rd (v * s)) : ℝ) / s), forward_eq rd s values o1 hl1, ?_, ?_⟩
  · unfold inverse
    rw [if_pos (by simpa using hl2), List.map_map]
    rfl
  · rw [List.forall₂_map_right_iff]
    apply List.forall₂_same.2
    intro v hm
    have hb := abs_le.1 (hv v hm)
    have e1 := h.error (by norm_num) ((saturated (rd (v * s)) : ℝ) / s)
    have e2 : |(saturated (rd (v * s)) : ℝ) - v * s| < 1 + 1 / 2 ^ 10 := by
      have t1 := (trunc_spec (limited (rd (v * s)))).1
      have t2 := limited_single h (v * s)
      rw [limited_id hb.1 hb.2] at t2
      rw [saturated_eq]
      rw [abs_sub_comm] at t1
      have := abs_add_le ((trunc (limited (rd (v * s))) : ℝ) - limited (rd (v * s))) (limited (rd (v * s)) - v * s)
      rw [sub_add_sub_cancel] at this
      linarith
    have e3 : |(saturated (rd (v * s)) : ℝ) / s| ≤ 32767 / s := by
      rw [abs_div, abs_of_pos hs]
      refine div_le_div_of_nonneg_right ?_ hs.le
      have := saturated_range (rd (v * s))
      rw [abs_le]
      exact ⟨by exact_mod_cast this.1, by exact_mod_cast this.2⟩
    have e4 : |(saturated (rd (v * s)) : ℝ) / s - v| < (1 + 1 / 2 ^ 10) / s := by
      rw [show (saturated (rd (v * s)) : ℝ) / s - v = (saturated (rd (v * s)) - v * s) / s by field_simp, abs_div, abs_of_pos hs]
      exact div_lt_div_of_pos_right e2 hs
    have e5 := tiny hs h2
    have := abs_add_le (rd ((saturated (rd (v * s)) : ℝ) / s) - (saturated (rd (v * s)) : ℝ) / s) ((saturated (rd (v * s)) : ℝ) / s - v)
    rw [sub_add_sub_cancel] at this
    have e6 : (1 : ℝ) / 2 ^ 24 * |(saturated (rd (v * s)) : ℝ) / s| ≤ 1 / 2 ^ 9 / s := by
      refine (mul_le_mul_of_nonneg_left e3 (by positivity)).trans ?_
      rw [mul_div_assoc']
      refine div_le_div_of_nonneg_right ?_ hs.le
      norm_num
    have e7 : (1 + 1 / 2 ^ 10) / s + 1 / 2 ^ 9 / s + 1 / 2 ^ 50 / s ≤ (1 + 1 / 2 ^ 7) / s := by
      rw [← add_div, ← add_div]
      refine div_le_div_of_nonneg_right ?_ hs.le
      norm_num
    linarith

theorem trunc_near {x : ℝ} {n : Int} (h : |x - n| < 1 / 2) : trunc x = n ∨ (0 < n ∧ trunc x = n - 1) ∨ (n < 0 ∧ trunc x = n + 1) := by
  have ha := abs_lt.1 h
  rcases lt_trichotomy n 0 with hn | hn | hn
  · have hn' : (n : ℝ) ≤ -1 := by exact_mod_cast (by omega : n ≤ -1)
    rw [trunc_of_neg (by linarith)]
    have c1 := Int.ceil_lt_add_one x
    have c2 := Int.le_ceil x
    have d1 : ⌈x⌉ < n + 2 := by
      have : (⌈x⌉ : ℝ) < n + 2 := by linarith
      exact_mod_cast this
    have d2 : n - 1 < ⌈x⌉ := by
      have : (n : ℝ) - 1 < ⌈x⌉ := by linarith
      exact_mod_cast this
    omega
  · subst hn
    left
    rw [Int.cast_zero, sub_zero] at ha
    rcases le_or_gt 0 x with h0 | h0
    · rw [trunc_of_nonneg h0, Int.floor_eq_zero_iff]
      exact ⟨h0, by linarith⟩
    · rw [trunc_of_neg h0, Int.ceil_eq_zero_iff]
      exact ⟨by linarith, h0.le⟩
  · have hn' : (1 : ℝ) ≤ n := by exact_mod_cast (by omega : 1 ≤ n)
    rw [trunc_of_nonneg (by linarith)]
    have c1 := Int.sub_one_lt_floor x
    have c2 := Int.floor_le x
    have d1 : n - 2 < ⌊x⌋ := by
      have : (n : ℝ) - 2 < ⌊x⌋ := by linarith
      exact_mod_cast this
    have d2 : ⌊x⌋ < n + 1 := by
      have : (⌊x⌋ : ℝ) < n + 1 := by linarith
      exact_mod_cast this
    omega

/-- **C121** (round trip of stored numbers, what holds) a number from -32767 to 32767 that is converted to `float` and back is the same number or the next one towards zero. -/
theorem C121_integers_partial (rd : ℝ → ℝ) (h : Single rd) (s : ℝ) (h1 : 2 ^ (-100 : ℤ) ≤ s) (h2 : s ≤ 2 ^ 100) (n : Int) (hn : |n| ≤ 32767) (o1 : List Int) (o2 : List ℝ) (hl1 : o1.length = 1) (hl2 : o2.length = 1) :
    ∃ r m, inverse rd s [n] o2 = (.ok, [r]) ∧ forward rd s [r] o1 = some (.ok, [m]) ∧ (m = n ∨ (0 < n ∧ m = n - 1) ∨ (n < 0 ∧ m = n + 1)) := by
  have hs : (0 : ℝ) < s := lt_of_lt_of_le (by positivity) h1
  refine ⟨rd (n / s), saturated (rd (rd (n / s) * s)), ?_, forward_eq rd s [_] o1 hl1, ?_⟩
  · unfold inverse
    rw [if_pos (by simpa using hl2)]
    rfl
  · rw [saturated_eq]
    refine trunc_near ?_
    have hnR : |(n : ℝ)| ≤ 32767 := by exact_mod_cast hn
    have e1 := h.error (by norm_num) ((n : ℝ) / s)
    have e2 := limited_single h (rd ((n : ℝ) / s) * s)
    have e3 : |rd ((n : ℝ) / s) * s - n| ≤ 1 / 2 ^ 9 + 1 / 2 ^ 50 := by
      rw [show rd ((n : ℝ) / s) * s - n = (rd ((n : ℝ) / s) - n / s) * s by field_simp, abs_mul, abs_of_pos hs]
      refine (mul_le_mul_of_nonneg_right (e1.trans (add_le_add (le_refl _) (tiny hs h2))) hs.le).trans ?_
      rw [abs_div, abs_of_pos hs]
      have : (1 / 2 ^ 24 * (|(n : ℝ)| / s) + 1 / 2 ^ 50 / s) * s = 1 / 2 ^ 24 * |(n : ℝ)| + 1 / 2 ^ 50 := by field_simp
      rw [this]
      have := mul_le_mul_of_nonneg_left hnR (show (0 : ℝ) ≤ 1 / 2 ^ 24 by positivity)
      norm_num at this ⊢
      linarith
    have hb := abs_le.1 hnR
    have e4 := limited_lip (rd ((n : ℝ) / s) * s) n
    rw [limited_id hb.1 hb.2] at e4
    have := abs_add_le (limited (rd (rd ((n : ℝ) / s) * s)) - limited (rd ((n : ℝ) / s) * s)) (limited (rd ((n : ℝ) / s) * s) - n)
    rw [sub_add_sub_cancel] at this
    refine lt_of_le_of_lt (this.trans (add_le_add e2 (e4.trans e3))) ?_
    norm_num

/-- **C121** (powers of two) with a scale that is a power of two every stored number is kept. -/
theorem C121_integers_power (rd : ℝ → ℝ) (h : Single rd) (k : ℤ) (hk : -100 ≤ k) (hk2 : k ≤ 100) (n : Int) (hn : |n| ≤ 32767) (o1 : List Int) (o2 : List ℝ) (hl1 : o1.length = 1) (hl2 : o2.length = 1) :
    ∃ r, inverse rd (2 ^ k) [n] o2 = (.ok, [r]) ∧ forward rd (2 ^ k) [r] o1 = some (.ok, [n]) := by
  have hp : (2 : ℝ) ^ k ≠ 0 := (zpow_pos (by norm_num) _).ne'
  have hn24 : |n| < 2 ^ 24 := by norm_num; omega
  have e1 : rd ((n : ℝ) / 2 ^ k) = n / 2 ^ k := by
    refine h.exact ⟨n, -k, hn24, by omega, ?_⟩
    rw [zpow_neg, div_eq_mul_inv]
  have e2 : rd (n : ℝ) = n := h.exact ⟨n, 0, hn24, by norm_num, by norm_num⟩
  have hnR : |(n : ℝ)| ≤ 32767 := by exact_mod_cast hn
  have hb := abs_le.1 hnR
  refine ⟨n / 2 ^ k, ?_, ?_⟩
  · unfold inverse
    rw [if_pos (by simpa using hl2)]
    simp only [List.map_cons, List.map_nil, e1]
  · rw [forward_eq rd _ [_] o1 hl1]
    simp only [List.map_cons, List.map_nil]
    rw [div_mul_cancel₀ _ hp, e2, saturated_eq, limited_id hb.1 hb.2, trunc_intCast]

/-- **C121, refuted: stored numbers are not kept.** With the scale 7 the number 31 is converted to a `float` that is converted back to 30, whatever the rule for ties. -/
theorem C121_integers_refuted (rd : ℝ → ℝ) (h : Single rd) : ∃ r, inverse rd 7 [31] [0] = (.ok, [r]) ∧ forward rd 7 [r] [0] = some (.ok, [30]) := by
  have e1 : rd ((31 : ℤ) / 7) = ((9287387 : ℤ) : ℝ) * 2 ^ (-21 : ℤ) := h.eq_of_near (by norm_num) (by norm_num) (by norm_num) (by norm_num) (by norm_num [abs_lt])
  have e2 : rd (((9287387 : ℤ) : ℝ) * 2 ^ (-21 : ℤ) * 7) = ((16252927 : ℤ) : ℝ) * 2 ^ (-19 : ℤ) := h.eq_of_near (by norm_num) (by norm_num) (by norm_num) (by norm_num) (by norm_num [abs_lt])
  refine ⟨_, rfl, ?_⟩
  rw [forward_eq rd 7 [_] [0] rfl]
  simp only [List.map_cons, List.map_nil]
  rw [e1, e2, saturated_eq, limited_id (by norm_num) (by norm_num), trunc_of_nonneg (by norm_num), show ⌊((16252927 : ℤ) : ℝ) * 2 ^ (-19 : ℤ)⌋ = 30 by rw [Int.floor_eq_iff]; norm_num]

/-! ### Python -/

theorem getMax : (getOutMax int16 none : Int) = 32767 := by decide

theorem transform_eq (rd : ℝ → ℝ) (scale : ℝ) (x : List ℝ) : transform rd int16 none scale x = some (x.map fun v => trunc (limited (rd (v * scale)))) := by
  unfold transform
  rw [getMax]
  have key : ∀ v : ℝ, astype int16 (clip (rd (v * scale)) (-((32767 : Int) : ℝ)) ((32767 : Int) : ℝ)) = some (trunc (limited (rd (v * scale)))) := by
    intro v
    have hr := saturated_range (rd (v * scale))
    rw [saturated_eq] at hr
    push_cast
    rw [← limited_eq_clip]
    unfold astype
    rw [if_pos]
    have : int16.min = -32768 ∧ int16.max = 32767 := by decide
    rw [this.1, this.2]
    omega
  simp only [key]
  induction x with
  | nil => rfl
  | cons a l ih => rw [List.mapM_cons, ih]; rfl

theorem diff_one {x y : ℝ} (h : |x - y| < 1) : |trunc x - trunc y| ≤ 1 := by
  have h1 := abs_lt.1 h
  have a := trunc_mono (show x ≤ y + 1 by linarith)
  have b := trunc_mono (show y ≤ x + 1 by linarith)
  have key : ∀ z : ℝ, trunc (z + 1) ≤ trunc z + 1 := by
    intro z
    rcases le_or_gt 0 z with h0 | h0
    · rw [trunc_of_nonneg h0, trunc_of_nonneg (by linarith), Int.floor_add_one]
    · rw [trunc_of_neg h0]
      rcases le_or_gt 0 (z + 1) with h2 | h2
      · rw [trunc_of_nonneg h2, Int.floor_add_one]
        have := Int.floor_le_ceil z
        omega
      · rw [trunc_of_neg h2, Int.ceil_add_one]
  have ka := key y
  have kb := key x
  rw [abs_le]
  omega

/-- **C121** (Python and C, what holds) for every scale between `2^-100` and `2^100` and every value, in `float64`: what the C code computes from the value and the scale as `float` numbers differs by at most one from what `transform` computes. -/
theorem C121_agree_partial (rd32 rd64 : ℝ → ℝ) (h32 : Single rd32) (h64 : Double rd64) (s : ℝ) (h1 : 2 ^ (-100 : ℤ) ≤ s) (h2 : s ≤ 2 ^ 100) (x : List ℝ) (out : List Int) (hl : out.length = x.length) :
    ∃ py c, transform rd64 int16 none s x = some py ∧ forward rd32 (rd32 s) (x.map rd32) out = some (.ok, c) ∧ List.Forall₂ (fun a b : Int => |a - b| ≤ 1) py c := by
  have hs : (0 : ℝ) < s := lt_of_lt_of_le (by positivity) h1
  refine ⟨_, _, transform_eq rd64 s x, forward_eq rd32 _ _ out (by simpa using hl), ?_⟩
  rw [List.map_map, List.forall₂_map_left_iff, List.forall₂_map_right_iff]
  apply List.forall₂_same.2
  intro v _
  show |trunc (limited (rd64 (v * s))) - saturated (rd32 (rd32 v * rd32 s))| ≤ 1
  rw [saturated_eq]
  -- the relative error of the scale
  have es : |rd32 s - s| ≤ 1 / 2 ^ 23 * s := by
    refine (h32.error (by norm_num) s).trans ?_
    rw [abs_of_pos hs]
    have : (2 : ℝ) ^ (-149 : ℤ) / 2 ≤ 1 / 2 ^ 24 * s := by
      refine le_trans ?_ (mul_le_mul_of_nonneg_left h1 (by positivity))
      norm_num
    linarith
  have ev := h32.error (by norm_num) v
  have hsb : |rd32 s| ≤ (1 + 1 / 2 ^ 23) * s := by
    have := abs_add_le s (rd32 s - s)
    rw [add_sub_cancel, abs_of_pos hs] at this
    linarith
  -- the product
  have hprod : |rd32 v * rd32 s - v * s| ≤ 1 / 2 ^ 22 * |v * s| + 1 / 2 ^ 49 := by
    have e1 : rd32 v * rd32 s - v * s = (rd32 v - v) * rd32 s + v * (rd32 s - s) := by ring
    rw [e1]
    refine (abs_add_le _ _).trans ?_
    rw [abs_mul, abs_mul, abs_mul, abs_of_pos hs]
    have t1 := mul_le_mul ev hsb (abs_nonneg _) (by positivity)
    have t2 := mul_le_mul_of_nonneg_left es (abs_nonneg v)
    have t3 : (2 : ℝ) ^ (-149 : ℤ) / 2 * ((1 + 1 / 2 ^ 23) * s) ≤ 1 / 2 ^ 49 := by
      have := mul_le_mul_of_nonneg_left h2 (show (0 : ℝ) ≤ 2 ^ (-149 : ℤ) / 2 * (1 + 1 / 2 ^ 23) by positivity)
      rw [mul_assoc] at this
      refine this.trans ?_
      norm_num
    have t4 : (1 : ℝ) / 2 ^ 24 * |v| * ((1 + 1 / 2 ^ 23) * s) + |v| * (1 / 2 ^ 23 * s) ≤ 1 / 2 ^ 22 * (|v| * s) := by
      have : 0 ≤ |v| * s := mul_nonneg (abs_nonneg _) hs.le
      norm_num at this ⊢
      linarith
    rw [add_mul] at t1
    linarith
  refine diff_one ?_
  have a1 := limited_double h64 (v * s)
  have a2 := limited_single h32 (rd32 v * rd32 s)
  have a3 : |limited (rd32 v * rd32 s) - limited (v * s)| ≤ 1 / 2 ^ 5 := by
    by_cases hc : |v * s| ≤ 65536
    · refine (limited_lip _ _).trans (hprod.trans ?_)
      have := mul_le_mul_of_nonneg_left hc (show (0 : ℝ) ≤ 1 / 2 ^ 22 by positivity)
      refine (add_le_add this (le_refl _)).trans ?_
      norm_num
    · push Not at hc
      have h0 : (0 : ℝ) ≤ 1 / 2 ^ 5 := by positivity
      have hp' := abs_le.1 hprod
      rcases le_total 0 (v * s) with hp | hn
      · rw [abs_of_nonneg hp] at hc hp'
        norm_num at hp'
        rw [limited_high (x := v * s) (by linarith), limited_high (by linarith [hp'.1]), sub_self, abs_zero]
        exact h0
      · rw [abs_of_nonpos hn] at hc hp'
        norm_num at hp'
        rw [limited_low (x := v * s) (by linarith), limited_low (by linarith [hp'.2]), sub_self, abs_zero]
        exact h0
  have b1 := abs_le.1 a1
  have b2 := abs_le.1 a2
  have b3 := abs_le.1 a3
  norm_num at b1 b2 b3
  rw [abs_lt]
  constructor <;> linarith [b1.1, b1.2, b2.1, b2.2, b3.1, b3.2]

/-- **C121, refuted: Python and C differ.** A quantizer fitted with `max_value = 15` maps 15 to 32767 in Python; the C code with the same scale as a `float` maps it to 32766. -/
theorem C121_agree_refuted (rd32 rd64 : ℝ → ℝ) (h32 : Single rd32) (h64 : Double rd64) :
    transform rd64 int16 none (fitMax rd64 int16 none 15) [15] = some [32767] ∧ forward rd32 (rd32 (fitMax rd64 int16 none 15)) [rd32 15] [0] = some (.ok, [32766]) := by
  have e0 : fitMax rd64 int16 none 15 = ((4803693000978159 : ℤ) : ℝ) * 2 ^ (-41 : ℤ) := by
    unfold fitMax
    rw [getMax]
    exact h64.eq_of_near (by norm_num) (by norm_num) (by norm_num) (by norm_num) (by norm_num [abs_lt])
  have e1 : rd64 (15 * (((4803693000978159 : ℤ) : ℝ) * 2 ^ (-41 : ℤ))) = ((9006924376834048 : ℤ) : ℝ) * 2 ^ (-38 : ℤ) := h64.eq_of_near (by norm_num) (by norm_num) (by norm_num) (by norm_num) (by norm_num [abs_lt])
  have e2 : rd32 (((4803693000978159 : ℤ) : ℝ) * 2 ^ (-41 : ℤ)) = ((8947575 : ℤ) : ℝ) * 2 ^ (-12 : ℤ) := h32.eq_of_near (by norm_num) (by norm_num) (by norm_num) (by norm_num) (by norm_num [abs_lt])
  have e3 : rd32 15 = 15 := h32.exact ⟨15, 0, by norm_num, by norm_num, by norm_num⟩
  have e4 : rd32 (15 * (((8947575 : ℤ) : ℝ) * 2 ^ (-12 : ℤ))) = ((16776703 : ℤ) : ℝ) * 2 ^ (-9 : ℤ) := h32.eq_of_near (by norm_num) (by norm_num) (by norm_num) (by norm_num) (by norm_num [abs_lt])
  rw [e0, transform_eq, forward_eq _ _ _ _ rfl]
  simp only [List.map_cons, List.map_nil]
  rw [e1, e2, e3, e4, saturated_eq, limited_id (by norm_num) (by norm_num), limited_id (by norm_num) (by norm_num), trunc_of_nonneg (by norm_num), trunc_of_nonneg (by norm_num),
    show ⌊((16776703 : ℤ) : ℝ) * 2 ^ (-9 : ℤ)⌋ = 32766 by rw [Int.floor_eq_iff]; norm_num, show ⌊((9006924376834048 : ℤ) : ℝ) * 2 ^ (-38 : ℤ)⌋ = 32767 by rw [Int.floor_eq_iff]; norm_num]
  exact ⟨rfl, rfl⟩

/-- **C121, refuted: values in the fitted range overflow on the device.** A quantizer fitted with `max_value = 13`: the C code with the same scale as a `float` reports one overflow for the value 13. -/
theorem C121_overflow_refuted (rd32 rd64 : ℝ → ℝ) (h32 : Single rd32) (h64 : Double rd64) : checkForward rd32 (rd32 (fitMax rd64 int16 none 13)) [rd32 13] [0] = some (.ok, [32767], some (0, 1)) := by
  have e0 : fitMax rd64 int16 none 13 = ((5542722693436337 : ℤ) : ℝ) * 2 ^ (-41 : ℤ) := by
    unfold fitMax
    rw [getMax]
    exact h64.eq_of_near (by norm_num) (by norm_num) (by norm_num) (by norm_num) (by norm_num [abs_lt])
  have e2 : rd32 (((5542722693436337 : ℤ) : ℝ) * 2 ^ (-41 : ℤ)) = ((10324126 : ℤ) : ℝ) * 2 ^ (-12 : ℤ) := h32.eq_of_near (by norm_num) (by norm_num) (by norm_num) (by norm_num) (by norm_num [abs_lt])
  have e3 : rd32 13 = 13 := h32.exact ⟨13, 0, by norm_num, by norm_num, by norm_num⟩
  have e4 : rd32 (13 * (((10324126 : ℤ) : ℝ) * 2 ^ (-12 : ℤ))) = ((16776705 : ℤ) : ℝ) * 2 ^ (-9 : ℤ) := h32.eq_of_near (by norm_num) (by norm_num) (by norm_num) (by norm_num) (by norm_num [abs_lt])
  rw [e0, checkForward_eq _ _ _ _ rfl]
  simp only [List.map_cons, List.map_nil, List.countP_cons, List.countP_nil]
  rw [e2, e3, e4, saturated_eq, limited_high (by norm_num), show trunc (32767 : ℝ) = 32767 by have := trunc_intCast (K := ℝ) 32767; simpa using this]
  norm_num

/-- **C121** (fitting) in `float64`, for every largest value between `2^-100` and `2^100`: `transform` maps every value up to it to a number that differs from `value · 32767 / largest` by less than `1 + 2^-36`, so nothing is clipped by more. -/
theorem C121_fit (rd : ℝ → ℝ) (h : Double rd) (g : ℝ) (h1 : 2 ^ (-100 : ℤ) ≤ g) (h2 : g ≤ 2 ^ 100) (x : List ℝ) (hx : ∀ v ∈ x, |v| ≤ g) :
    ∃ q, transform rd int16 none (fitMax rd int16 none g) x = some q ∧ List.Forall₂ (fun v (n : Int) => |(n : ℝ) - v * 32767 / g| < 1 + 1 / 2 ^ 36) x q := by
  have hg : (0 : ℝ) < g := lt_of_lt_of_le (by positivity) h1
  refine ⟨_, transform_eq rd _ x, ?_⟩
  rw [List.forall₂_map_right_iff]
  apply List.forall₂_same.2
  intro v hv
  have e1 : |fitMax rd int16 none g - 32767 / g| ≤ 1 / 2 ^ 37 / g := by
    unfold fitMax
    rw [getMax]
    push_cast
    refine (h.error (by norm_num) _).trans ?_
    rw [abs_of_pos (by positivity)]
    have : (2 : ℝ) ^ (-1074 : ℤ) / 2 ≤ 1 / 2 ^ 40 / g := by
      rw [le_div_iff₀ hg]
      have := mul_le_mul_of_nonneg_left h2 (show (0 : ℝ) ≤ 2 ^ (-1074 : ℤ) / 2 by positivity)
      refine this.trans ?_
      rw [show (2 : ℝ) ^ (-1074 : ℤ) = 1 / 2 ^ 1074 by rw [zpow_neg]; norm_cast; rw [one_div], div_div, div_mul_eq_mul_div, one_mul, div_le_div_iff₀ (by positivity) (by positivity), one_mul]
      calc (2 : ℝ) ^ 100 * 2 ^ 40 = 2 ^ 140 := by rw [← pow_add]
        _ ≤ 2 ^ 1074 := pow_le_pow_right₀ (by norm_num) (by norm_num)
        _ ≤ 2 ^ 1074 * 2 := le_mul_of_one_le_right (by positivity) (by norm_num)
    have e2 : (1 : ℝ) / 2 ^ 53 * (32767 / g) + 1 / 2 ^ 40 / g ≤ 1 / 2 ^ 37 / g := by
      rw [mul_div_assoc', ← add_div]
      refine div_le_div_of_nonneg_right ?_ hg.le
      norm_num
    linarith
  have e3 : |v * fitMax rd int16 none g - v * 32767 / g| ≤ 1 / 2 ^ 37 := by
    rw [show v * fitMax rd int16 none g - v * 32767 / g = v * (fitMax rd int16 none g - 32767 / g) by ring, abs_mul]
    refine (mul_le_mul (hx v hv) e1 (abs_nonneg _) hg.le).trans (le_of_eq ?_)
    field_simp
  have hr : |v * 32767 / g| ≤ 32767 := by
    rw [abs_div, abs_mul, abs_of_pos hg, div_le_iff₀ hg, abs_of_pos (by norm_num : (0 : ℝ) < 32767)]
    have := mul_le_mul_of_nonneg_right (hx v hv) (by norm_num : (0 : ℝ) ≤ 32767)
    linarith
  have hb := abs_le.1 hr
  have a1 := limited_double h (v * fitMax rd int16 none g)
  have a2 := (limited_lip (v * fitMax rd int16 none g) (v * 32767 / g)).trans e3
  rw [limited_id hb.1 hb.2] at a2
  have a3 := (trunc_spec (limited (rd (v * fitMax rd int16 none g)))).1
  have b1 := abs_le.1 a1
  have b2 := abs_le.1 a2
  have b3 := abs_lt.1 a3
  have c : (1 : ℝ) / 2 ^ 39 + 1 / 2 ^ 37 < 1 / 2 ^ 36 := by norm_num
  rw [abs_lt]
  constructor <;> linarith [b1.1, b1.2, b2.1, b2.2, b3.1, b3.2]

/-- **C121, refuted: the fitted maximum.** A quantizer fitted with `max_value = 49` maps 49 to 32766 in Python, whatever the rule for ties; in exact arithmetic it is 32767 (C65). -/
theorem C121_fit_refuted (rd : ℝ → ℝ) (h : Double rd) : transform rd int16 none (fitMax rd int16 none 49) [49] = some [32766] := by
  have e0 : fitMax rd int16 none 49 = ((5882073062422235 : ℤ) : ℝ) * 2 ^ (-43 : ℤ) := by
    unfold fitMax
    rw [getMax]
    exact h.eq_of_near (by norm_num) (by norm_num) (by norm_num) (by norm_num) (by norm_num [abs_lt])
  have e1 : rd (49 * (((5882073062422235 : ℤ) : ℝ) * 2 ^ (-43 : ℤ))) = ((9006924376834047 : ℤ) : ℝ) * 2 ^ (-38 : ℤ) := h.eq_of_near (by norm_num) (by norm_num) (by norm_num) (by norm_num) (by norm_num [abs_lt])
  rw [e0, transform_eq]
  simp only [List.map_cons, List.map_nil]
  rw [e1, limited_id (by norm_num) (by norm_num), trunc_of_nonneg (by norm_num), show ⌊((9006924376834047 : ℤ) : ℝ) * 2 ^ (-38 : ℤ)⌋ = 32766 by rw [Int.floor_eq_iff]; norm_num]

theorem inverseTransform_eq (rd : ℝ → ℝ) (s : ℝ) (q : List Int) (hq : ∀ n ∈ q, |n| ≤ 32767) : inverseTransform rd int16 none s q = q.map fun n : Int => rd ((n : ℝ) / s) := by
  unfold inverseTransform
  rw [getMax]
  apply List.map_congr_left
  intro n hn
  have h := abs_le.1 (hq n hn)
  have a : (-32767 : ℝ) ≤ n := by exact_mod_cast h.1
  have b : (n : ℝ) ≤ 32767 := by exact_mod_cast h.2
  push_cast
  rw [← limited_eq_clip, limited_id a b]

/-- **C121** (round trip in Python) a value whose scaled value is in range is read back by `inverse_transform` with an error of less than one step and a 128th, for every rounding of `float64` to nearest and every scale between `2^-100` and `2^100`. -/
theorem C121_python_round_trip (rd : ℝ → ℝ) (h : Double rd) (s : ℝ) (h1 : 2 ^ (-100 : ℤ) ≤ s) (h2 : s ≤ 2 ^ 100) (values : List ℝ) (hv : ∀ v ∈ values, |v * s| ≤ 32767) :
    ∃ q, transform rd int16 none s values = some q ∧ List.Forall₂ (fun v x => |x - v| < (1 + 1 / 2 ^ 7) / s) values (inverseTransform rd int16 none s q) := by
  have hs : (0 : ℝ) < s := lt_of_lt_of_le (by positivity) h1
  have hr : ∀ x : ℝ, -32767 ≤ trunc (limited x) ∧ trunc (limited x) ≤ 32767 := fun x => by
    rw [← saturated_eq]
    exact saturated_range x
  refine ⟨_, transform_eq rd s values, ?_⟩
  rw [inverseTransform_eq rd s _ (by
    intro n hn
    obtain ⟨v, -, rfl⟩ := List.mem_map.1 hn
    exact abs_le.2 (hr _)), List.map_map, List.forall₂_map_right_iff]
  apply List.forall₂_same.2
  intro v hm
  show |rd (((trunc (limited (rd (v * s))) : Int) : ℝ) / s) - v| < (1 + 1 / 2 ^ 7) / s
  have hb := abs_le.1 (hv v hm)
  have hn := hr (rd (v * s))
  have t1 := (trunc_spec (limited (rd (v * s)))).1
  generalize trunc (limited (rd (v * s))) = n at hn t1 ⊢
  have e1 := h.error (by norm_num) ((n : ℝ) / s)
  have e2 : |(n : ℝ) - v * s| < 1 + 1 / 2 ^ 39 := by
    have t2 := limited_double h (v * s)
    rw [limited_id hb.1 hb.2] at t2
    rw [abs_sub_comm] at t1
    have := abs_add_le ((n : ℝ) - limited (rd (v * s))) (limited (rd (v * s)) - v * s)
    rw [sub_add_sub_cancel] at this
    linarith
  have e3 : |(n : ℝ) / s| ≤ 32767 / s := by
    rw [abs_div, abs_of_pos hs]
    refine div_le_div_of_nonneg_right ?_ hs.le
    rw [abs_le]
    exact ⟨by exact_mod_cast hn.1, by exact_mod_cast hn.2⟩
  have e4 : |(n : ℝ) / s - v| < (1 + 1 / 2 ^ 39) / s := by
    rw [show (n : ℝ) / s - v = (n - v * s) / s by field_simp, abs_div, abs_of_pos hs]
    exact div_lt_div_of_pos_right e2 hs
  have e5 : (2 : ℝ) ^ (-1074 : ℤ) / 2 ≤ 1 / 2 ^ 50 / s := by
    refine le_trans ?_ (tiny hs h2)
    have : (2 : ℝ) ^ (-1074 : ℤ) ≤ 2 ^ (-149 : ℤ) := zpow_le_zpow_right₀ (by norm_num) (by norm_num)
    exact div_le_div_of_nonneg_right this (by norm_num)
  have e6 := abs_add_le (rd ((n : ℝ) / s) - n / s) ((n : ℝ) / s - v)
  rw [sub_add_sub_cancel] at e6
  have e7 : (1 : ℝ) / 2 ^ 53 * |(n : ℝ) / s| ≤ 1 / 2 ^ 38 / s := by
    refine (mul_le_mul_of_nonneg_left e3 (by positivity)).trans ?_
    rw [← mul_div_assoc]
    exact div_le_div_of_nonneg_right (by norm_num) hs.le
  have e8 : (1 : ℝ) / 2 ^ 38 / s + 1 / 2 ^ 50 / s + (1 + 1 / 2 ^ 39) / s ≤ (1 + 1 / 2 ^ 7) / s := by
    rw [← add_div, ← add_div]
    exact div_le_div_of_nonneg_right (by norm_num) hs.le
  linarith

/-- **C121** (reading back, Python and C) stored numbers from -32767 to 32767 are read back by the C code, with the scale as a `float`, within a 64th of a step of what `inverse_transform` computes. -/
theorem C121_inverse_agree (rd32 rd64 : ℝ → ℝ) (h32 : Single rd32) (h64 : Double rd64) (s : ℝ) (h1 : 2 ^ (-100 : ℤ) ≤ s) (h2 : s ≤ 2 ^ 100) (q : List Int) (hq : ∀ n ∈ q, |n| ≤ 32767) (out : List ℝ) (hl : out.length = q.length) :
    ∃ c, inverse rd32 (rd32 s) q out = (.ok, c) ∧ List.Forall₂ (fun a b : ℝ => |a - b| ≤ 1 / 2 ^ 6 / s) (inverseTransform rd64 int16 none s q) c := by
  have hs : (0 : ℝ) < s := lt_of_lt_of_le (by positivity) h1
  refine ⟨q.map fun n : Int => rd32 ((n : ℝ) / rd32 s), by unfold inverse; rw [if_pos hl], ?_⟩
  rw [inverseTransform_eq rd64 s q hq, List.forall₂_map_left_iff, List.forall₂_map_right_iff]
  apply List.forall₂_same.2
  intro n hn
  have es : |rd32 s - s| ≤ 1 / 2 ^ 23 * s := by
    refine (h32.error (by norm_num) s).trans ?_
    rw [abs_of_pos hs]
    have : (2 : ℝ) ^ (-149 : ℤ) / 2 ≤ 1 / 2 ^ 24 * s := by
      refine le_trans ?_ (mul_le_mul_of_nonneg_left h1 (by positivity))
      norm_num
    linarith
  have es' := abs_le.1 es
  have hs2 : s / 2 ≤ rd32 s := by
    have := es'.1
    have : (1 : ℝ) / 2 ^ 23 * s ≤ 1 / 2 * s := mul_le_mul_of_nonneg_right (by norm_num) hs.le
    linarith
  have hp : (0 : ℝ) < rd32 s := lt_of_lt_of_le (by positivity) hs2
  have hnR : |(n : ℝ)| ≤ 32767 := by exact_mod_cast hq n hn
  have e3 : |(n : ℝ) / s| ≤ 32767 / s := by
    rw [abs_div, abs_of_pos hs]
    exact div_le_div_of_nonneg_right hnR hs.le
  have e3' : |(n : ℝ) / rd32 s| ≤ 65534 / s := by
    rw [abs_div, abs_of_pos hp, div_le_div_iff₀ hp hs]
    have := mul_le_mul hnR (show s ≤ 2 * rd32 s by linarith) hs.le (by norm_num)
    linarith
  have d : |(n : ℝ) / s - n / rd32 s| ≤ 1 / 2 ^ 7 / s := by
    rw [show (n : ℝ) / s - n / rd32 s = (n / rd32 s) * ((rd32 s - s) / s) by field_simp, abs_mul, abs_div (rd32 s - s), abs_of_pos hs]
    have t : |rd32 s - s| / s ≤ 1 / 2 ^ 23 := by
      rw [div_le_iff₀ hs]
      exact es
    refine (mul_le_mul e3' t (by positivity) (by positivity)).trans ?_
    rw [div_mul_eq_mul_div]
    exact div_le_div_of_nonneg_right (by norm_num) hs.le
  have a1 := h64.error (by norm_num) ((n : ℝ) / s)
  have a2 := h32.error (by norm_num) ((n : ℝ) / rd32 s)
  have e5 := tiny hs h2
  have e5' : (2 : ℝ) ^ (-1074 : ℤ) / 2 ≤ 1 / 2 ^ 50 / s := by
    refine le_trans ?_ e5
    have : (2 : ℝ) ^ (-1074 : ℤ) ≤ 2 ^ (-149 : ℤ) := zpow_le_zpow_right₀ (by norm_num) (by norm_num)
    exact div_le_div_of_nonneg_right this (by norm_num)
  have b1 : (1 : ℝ) / 2 ^ 53 * |(n : ℝ) / s| ≤ 1 / 2 ^ 38 / s := by
    refine (mul_le_mul_of_nonneg_left e3 (by positivity)).trans ?_
    rw [← mul_div_assoc]
    exact div_le_div_of_nonneg_right (by norm_num) hs.le
  have b2 : (1 : ℝ) / 2 ^ 24 * |(n : ℝ) / rd32 s| ≤ 1 / 2 ^ 8 / s := by
    refine (mul_le_mul_of_nonneg_left e3' (by positivity)).trans ?_
    rw [← mul_div_assoc]
    exact div_le_div_of_nonneg_right (by norm_num) hs.le
  have e6 := abs_add_le (rd64 ((n : ℝ) / s) - n / s) ((n : ℝ) / s - n / rd32 s)
  rw [sub_add_sub_cancel] at e6
  have e7 := abs_add_le (rd64 ((n : ℝ) / s) - n / rd32 s) ((n : ℝ) / rd32 s - rd32 ((n : ℝ) / rd32 s))
  rw [sub_add_sub_cancel, abs_sub_comm ((n : ℝ) / rd32 s)] at e7
  have e8 : (1 : ℝ) / 2 ^ 38 / s + 1 / 2 ^ 50 / s + 1 / 2 ^ 7 / s + (1 / 2 ^ 8 / s + 1 / 2 ^ 50 / s) ≤ 1 / 2 ^ 6 / s := by
    rw [← add_div, ← add_div, ← add_div, ← add_div]
    exact div_le_div_of_nonneg_right (by norm_num) hs.le
  linarith

/-- With the scale 1024 (values up to 31.99) the number 1.5 is read back within a thousandth. -/
example (rd : ℝ → ℝ) (h : Double rd) : ∃ q, transform rd int16 none 1024 [3 / 2, -7 / 3] = some q ∧ List.Forall₂ (fun v x => |x - v| < (1 + 1 / 2 ^ 7) / 1024) [3 / 2, -7 / 3] (inverseTransform rd int16 none 1024 q) :=
  C121_python_round_trip rd h 1024 (le_trans (zpow_le_one_of_nonpos₀ (by norm_num) (by norm_num)) (by norm_num)) (by norm_num) _ (by
    intro v hv
    simp only [List.mem_cons, List.not_mem_nil, or_false] at hv
    rcases hv with rfl | rfl <;> norm_num [abs_le])

example (rd32 rd64 : ℝ → ℝ) (h32 : Single rd32) (h64 : Double rd64) : ∃ c, inverse rd32 (rd32 7) [31, -32767] [0, 0] = (.ok, c) ∧ List.Forall₂ (fun a b : ℝ => |a - b| ≤ 1 / 2 ^ 6 / 7) (inverseTransform rd64 int16 none 7 [31, -32767]) c :=
  C121_inverse_agree rd32 rd64 h32 h64 7 (le_trans (zpow_le_one_of_nonpos₀ (by norm_num) (by norm_num)) (by norm_num)) (by norm_num) _ (by decide) _ rfl

/-- Both roundings exist, and the theorems apply to them. -/
example : (∃ rd, Single rd) ∧ ∃ rd, Double rd := ⟨⟨_, fl_nearest⟩, ⟨_, roundTo_nearest (by norm_num) _⟩⟩

example : ∃ q u o, checkForward Binary32.fl 1000 [1, -40, 33] [0, 0, 0] = some (.ok, q, some (u, o)) ∧ u = 1 ∧ o = 1 := by
  obtain ⟨q, u, o, h1, -, -, h2, h3, h4, h5⟩ := C121_forward Binary32.fl fl_nearest 1000 [1, -40, 33] [0, 0, 0] rfl
  refine ⟨q, u, o, h1, ?_, ?_⟩
  · norm_num [List.countP_cons] at h2 h3; omega
  · norm_num [List.countP_cons] at h4 h5; omega

end Emlearn.Quant.Flt
