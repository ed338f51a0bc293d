/- Lemmas about the fixed point logarithm. -/
import Verif.Bayes.Model
import Mathlib.Analysis.SpecialFunctions.Log.Base
import Mathlib.Analysis.Complex.ExponentialBounds
import Mathlib.Tactic.IntervalCases
namespace Emlearn.Bayes
open Emlearn.Quant

theorem wrap32_id' {x : Int} (h1 : -2147483648 ≤ x) (h2 : x ≤ 2147483647) : wrap32 x = x := by unfold wrap32; omega

theorem pow_mod32 {p : Nat} (h : p ≤ 31) : 2 ^ p % 2 ^ 32 = 2 ^ p := Nat.mod_eq_of_lt (Nat.pow_lt_pow_right (by norm_num) (by omega))

theorem headroom (p : Nat) (h : p ≤ 30) : (31 - p) * 2 ^ p ≤ 2 ^ 30 := by
  interval_cases p <;> norm_num

theorem normUp_spec (p : Nat) (hp : p ≤ 30) (f x : Nat) (y : Int) (hx : 2 ^ p ≤ x * 2 ^ f) (hx32 : x < 2 ^ 32)
    (hy0 : y ≤ 0) (hy : ∀ k : Nat, x * 2 ^ k < 2 ^ p → -2147483648 ≤ y - ((k + 1 : Nat) : Int) * 2 ^ p) :
    ∃ k : Nat, (∀ g, normUp p (f + 1 + g) x y = some (x * 2 ^ k, y - (k : Int) * 2 ^ p)) ∧ 2 ^ p ≤ x * 2 ^ k ∧ (k = 0 ∨ x * 2 ^ k < 2 ^ (p + 1)) ∧ x * 2 ^ k < 2 ^ 32 := by
  induction f generalizing x y with
  | zero =>
    refine ⟨0, ?_, by simpa using hx, Or.inl rfl, by simpa using hx32⟩
    intro g
    rw [show 0 + 1 + g = g + 1 by omega, normUp, pow_mod32 (by omega), if_neg (by simp at hx; omega)]
    simp
  | succ f ih =>
    by_cases h : x < 2 ^ p
    · have hp32 : 2 ^ p ≤ 2 ^ 30 := Nat.pow_le_pow_right (by norm_num) hp
      have hxx : x * 2 < 2 ^ 32 := by
        have : (2:Nat) ^ 30 * 2 < 2 ^ 32 := by norm_num
        omega
      have h0 := hy 0 (by simpa using h)
      have hP : (0 : Int) < 2 ^ p := by positivity
      have hP' : (2 : Int) ^ p ≤ 2 ^ 30 := by exact_mod_cast hp32
      have hw : wrap32 (y - 2 ^ p) = y - 2 ^ p := by
        apply wrap32_id'
        · push_cast at h0; simpa using h0
        · omega
      obtain ⟨k, e1, e2, e3, e4⟩ := ih (x * 2) (y - 2 ^ p) (by rw [mul_assoc, ← pow_succ']; exact hx) hxx (by omega)
        (by intro k hk
            have := hy (k + 1) (by rw [pow_succ', ← mul_assoc]; exact hk)
            push_cast at this ⊢
            linarith)
      have e : x * 2 ^ (k + 1) = x * 2 * 2 ^ k := by rw [pow_succ', mul_assoc]
      refine ⟨k + 1, ?_, by rw [e]; exact e2, ?_, by rw [e]; exact e4⟩
      · intro g
        rw [show f + 1 + 1 + g = (f + 1 + g) + 1 by omega, normUp, pow_mod32 (by omega), if_pos h, Nat.mod_eq_of_lt hxx, hw, e1, e]
        congr 2
        push_cast; ring
      · right
        rw [e]
        rcases e3 with rfl | e3
        · simp only [pow_zero, mul_one, pow_succ]; omega
        · exact e3
    · refine ⟨0, ?_, by simpa using h, Or.inl rfl, by simpa using hx32⟩
      intro g
      rw [show f + 1 + 1 + g = (f + 1 + g) + 1 by omega, normUp, pow_mod32 (by omega), if_neg h]
      simp

theorem normDown_spec (p : Nat) (hp : p ≤ 30) (f x : Nat) (y : Int) (hx : 2 ^ p ≤ x) (hxf : x < 2 ^ (p + 1 + f)) (j : Nat) (hxj : x * 2 ^ j < 2 ^ 32) (hy : y ≤ (j : Int) * 2 ^ p) (hy0 : -2147483648 ≤ y) :
    ∃ k : Nat, (∀ g, normDown p (f + 1 + g) x y = some (x / 2 ^ k, y + (k : Int) * 2 ^ p)) ∧ 2 ^ p ≤ x / 2 ^ k ∧ x / 2 ^ k < 2 ^ (p + 1) ∧ y + (k : Int) * 2 ^ p ≤ 2 ^ 30 := by
  have hcap : ∀ j : Nat, 2 ^ p * 2 ^ j < 2 ^ 32 → (j : Int) * 2 ^ p ≤ 2 ^ 30 := by
    intro j hj
    rw [← pow_add] at hj
    have h1 : p + j < 32 := (Nat.pow_lt_pow_iff_right (by norm_num)).mp hj
    have h2 : j * 2 ^ p ≤ (31 - p) * 2 ^ p := Nat.mul_le_mul_right _ (by omega)
    have h3 := headroom p hp
    exact_mod_cast le_trans h2 h3
  induction f generalizing x y j with
  | zero =>
    refine ⟨0, ?_, by simpa using hx, by simpa using hxf, ?_⟩
    · intro g
      rw [show 0 + 1 + g = g + 1 by omega, normDown, pow_mod32 (by omega), if_neg (by simp at hxf; omega)]
      simp
    · simp only [Nat.cast_zero, zero_mul, add_zero]
      exact le_trans hy (hcap j (lt_of_le_of_lt (Nat.mul_le_mul_right _ hx) hxj))
  | succ f ih =>
    by_cases h : x ≥ 2 ^ (p + 1)
    · have hx2 : 2 ^ p ≤ x / 2 := by rw [pow_succ] at h; omega
      have hj2 : x / 2 * 2 ^ (j + 1) < 2 ^ 32 := by
        rw [pow_succ', ← mul_assoc]
        exact lt_of_le_of_lt (Nat.mul_le_mul_right _ (by omega)) hxj
      have hc := hcap (j + 1) (lt_of_le_of_lt (Nat.mul_le_mul_right _ hx2) hj2)
      have hP : (0 : Int) < 2 ^ p := by positivity
      push_cast at hc
      have hw : wrap32 (y + 2 ^ p) = y + 2 ^ p := by
        apply wrap32_id'
        · omega
        · have : y + 2 ^ p ≤ ((j : Int) + 1) * 2 ^ p := by linarith
          norm_num at hc
          linarith
      have hxf' : x / 2 < 2 ^ (p + 1 + f) := by
        rw [show p + 1 + (f + 1) = (p + 1 + f) + 1 by omega, pow_succ] at hxf; omega
      obtain ⟨k, e1, e2, e3, e4⟩ := ih (x / 2) (y + 2 ^ p) hx2 hxf' (j + 1) hj2 (by push_cast; linarith) (by omega)
      have e : x / 2 ^ (k + 1) = x / 2 / 2 ^ k := by rw [pow_succ', Nat.div_div_eq_div_mul]
      refine ⟨k + 1, ?_, by rw [e]; exact e2, by rw [e]; exact e3, ?_⟩
      · intro g
        rw [show f + 1 + 1 + g = (f + 1 + g) + 1 by omega, normDown, pow_mod32 (by omega), if_pos h, hw, e1, e]
        congr 2
        push_cast; ring
      · have : y + ((k + 1 : Nat) : Int) * 2 ^ p = y + 2 ^ p + (k : Int) * 2 ^ p := by push_cast; ring
        rw [this]; exact e4
    · refine ⟨0, ?_, by simpa using hx, by simpa using h, ?_⟩
      · intro g
        rw [show f + 1 + 1 + g = (f + 1 + g) + 1 by omega, normDown, pow_mod32 (by omega), if_neg h]
        simp
      · simp only [Nat.cast_zero, zero_mul, add_zero]
        exact le_trans hy (hcap j (lt_of_le_of_lt (Nat.mul_le_mul_right _ hx) hxj))

/-- Scaled binary logarithm `2^p·log2(z/2^p)`. -/
noncomputable def L (p : Nat) (z : ℝ) : ℝ := 2 ^ p * Real.logb 2 (z / 2 ^ p)

/-- Loss of one truncation. -/
noncomputable def loss (p : Nat) : ℝ := 2 ^ p * Real.logb 2 (1 + 1 / 2 ^ p)

theorem loss_lt (p : Nat) : loss p < 3 / 2 := by
  unfold loss Real.logb
  have hp : (0:ℝ) < 2 ^ p := by positivity
  have h1 : Real.log (1 + 1 / 2 ^ p) ≤ 1 / 2 ^ p := by
    have := Real.log_le_sub_one_of_pos (show (0:ℝ) < 1 + 1 / 2 ^ p by positivity)
    linarith
  have h2 := Real.log_two_gt_d9
  have h3 : (0:ℝ) < Real.log 2 := by linarith
  rw [← mul_div_assoc, div_lt_iff₀ h3]
  have h4 : 2 ^ p * Real.log (1 + 1 / 2 ^ p) ≤ 2 ^ p * (1 / 2 ^ p) := mul_le_mul_of_nonneg_left h1 hp.le
  rw [mul_one_div_cancel hp.ne'] at h4
  linarith

theorem loss_nonneg (p : Nat) : 0 ≤ loss p := by
  unfold loss
  have : (0:ℝ) ≤ Real.logb 2 (1 + 1 / 2 ^ p) := Real.logb_nonneg (by norm_num) (by have : (0:ℝ) ≤ 1 / 2 ^ p := by positivity
                                                                                   linarith)
  positivity

theorem L_mono (p : Nat) {a b : ℝ} (ha : 0 < a) (h : a ≤ b) : L p a ≤ L p b := by
  unfold L
  have hp : (0:ℝ) < 2 ^ p := by positivity
  apply mul_le_mul_of_nonneg_left _ hp.le
  exact Real.logb_le_logb_of_le (by norm_num) (by positivity) (by gcongr)

/-- Truncating `w` to the integer `r ≥ 2^p` loses at most `loss p`. -/
theorem L_trunc (p r : Nat) (w : ℝ) (hr : 2 ^ p ≤ r) (h1 : (r : ℝ) ≤ w) (h2 : w < r + 1) : L p r ≤ L p w ∧ L p w ≤ L p r + loss p := by
  have hp : (0:ℝ) < 2 ^ p := by positivity
  have hr' : (2:ℝ) ^ p ≤ r := by exact_mod_cast hr
  have hrpos : (0:ℝ) < r := lt_of_lt_of_le hp hr'
  refine ⟨L_mono p hrpos h1, ?_⟩
  have hw : w ≤ r * (1 + 1 / 2 ^ p) := by
    have : (1:ℝ) ≤ r * (1 / 2 ^ p) := by rw [mul_one_div, le_div_iff₀ hp]; linarith
    linarith
  refine le_trans (L_mono p (lt_of_lt_of_le hrpos h1) hw) ?_
  unfold L loss
  rw [show (r : ℝ) * (1 + 1 / 2 ^ p) / 2 ^ p = r / 2 ^ p * (1 + 1 / 2 ^ p) by ring, Real.logb_mul (by positivity) (by positivity)]
  linarith

theorem L_halve (p k : Nat) (x : ℝ) (hx : 0 < x) : L p (x / 2 ^ k) = L p x - k * 2 ^ p := by
  unfold L
  rw [show x / 2 ^ k / 2 ^ p = x / 2 ^ p / 2 ^ k by ring, Real.logb_div (by positivity) (by positivity), Real.logb_pow, Real.logb_self_eq_one (by norm_num)]
  ring

theorem L_double (p k : Nat) (x : ℝ) (hx : 0 < x) : L p (x * 2 ^ k) = L p x + k * 2 ^ p := by
  unfold L
  rw [show x * 2 ^ k / 2 ^ p = x / 2 ^ p * 2 ^ k by ring, Real.logb_mul (by positivity) (by positivity), Real.logb_pow, Real.logb_self_eq_one (by norm_num)]
  ring

theorem L_square (p : Nat) (z : ℝ) (hz : 0 < z) : L p (z * z / 2 ^ p) = 2 * L p z := by
  unfold L
  rw [show z * z / 2 ^ p / 2 ^ p = z / 2 ^ p * (z / 2 ^ p) by ring, Real.logb_mul (by positivity) (by positivity)]
  ring

theorem L_range (p z : Nat) (h1 : 2 ^ p ≤ z) (h2 : z < 2 ^ (p + 1)) : 0 ≤ L p z ∧ L p z < 2 ^ p := by
  have hp : (0:ℝ) < 2 ^ p := by positivity
  have h1' : (2:ℝ) ^ p ≤ z := by exact_mod_cast h1
  have h2' : (z:ℝ) < 2 ^ (p + 1) := by exact_mod_cast h2
  have hz : (0:ℝ) < z := lt_of_lt_of_le hp h1'
  unfold L
  constructor
  · apply mul_nonneg hp.le
    exact Real.logb_nonneg (by norm_num) (by rw [le_div_iff₀ hp]; linarith)
  · have : Real.logb 2 ((z:ℝ) / 2 ^ p) < 1 := by
      rw [Real.logb_lt_iff_lt_rpow (by norm_num) (by positivity), Real.rpow_one, div_lt_iff₀ hp]
      rw [pow_succ] at h2'; linarith
    calc (2:ℝ) ^ p * Real.logb 2 (z / 2 ^ p) < 2 ^ p * 1 := mul_lt_mul_of_pos_left this hp
      _ = 2 ^ p := mul_one _

theorem floor_div_bounds (a b : Nat) (hb : 0 < b) : ((a / b : Nat) : ℝ) ≤ (a:ℝ) / b ∧ (a:ℝ) / b < ((a / b : Nat) : ℝ) + 1 := by
  have hb' : (0:ℝ) < b := by exact_mod_cast hb
  have h1 := Nat.div_mul_le_self a b
  have h2 := Nat.lt_div_mul_add (a := a) hb
  constructor
  · rw [le_div_iff₀ hb']; exact_mod_cast h1
  · rw [div_lt_iff₀ hb', add_mul, one_mul]; exact_mod_cast h2

theorem fracLoop_spec (p : Nat) (hp : p ≤ 30) (n z : Nat) (y : Int) (h1 : 2 ^ p ≤ z) (h2 : z < 2 ^ (p + 1)) (hy1 : -2147483648 ≤ y) (hy2 : y + 2 ^ n ≤ 2147483648) :
    L p z * 2 ^ n / 2 ^ p - 1 - loss p * (2 ^ n - 1) / 2 ^ p < ((fracLoop p n z y : Int) : ℝ) - y ∧ ((fracLoop p n z y : Int) : ℝ) - y ≤ L p z * 2 ^ n / 2 ^ p := by
  have hP : (0:ℝ) < 2 ^ p := by positivity
  induction n generalizing z y with
  | zero =>
    obtain ⟨a, b⟩ := L_range p z h1 h2
    simp only [fracLoop, sub_self, pow_zero, mul_one, mul_zero, zero_div, sub_zero]
    constructor
    · rw [sub_lt_zero, div_lt_one hP]; exact b
    · positivity
  | succ n ih =>
    have hPn : (0:Int) < 2 ^ n := by positivity
    have hzz : z * z < 2 ^ 64 := by
      have hp31 : 2 ^ (p + 1) ≤ 2 ^ 31 := Nat.pow_le_pow_right (by norm_num) (by omega)
      calc z * z < 2 ^ 31 * 2 ^ 31 := Nat.mul_lt_mul'' (by omega) (by omega)
        _ ≤ 2 ^ 64 := by norm_num
    have hz : (0:ℝ) < z := lt_of_lt_of_le hP (by exact_mod_cast h1)
    have hLl := loss_nonneg p
    rw [fracLoop]
    rw [Nat.mod_eq_of_lt hzz, pow_mod32 (by omega)]
    have hq0 : 2 ^ p ≤ z * z / 2 ^ p := by
      rw [Nat.le_div_iff_mul_le (by positivity)]; exact Nat.mul_le_mul h1 h1
    have hqm : z * z / 2 ^ p < 2 ^ (p + 2) := by
      rw [Nat.div_lt_iff_lt_mul (by positivity), ← pow_add]
      calc z * z < 2 ^ (p+1) * 2 ^ (p+1) := Nat.mul_lt_mul'' h2 h2
        _ = 2 ^ (p + 2 + p) := by rw [← pow_add]; congr 1; omega
    have hsq := L_square p z hz
    -- common closing step
    have close : ∀ (z' : Nat) (d : ℝ) (y' : Int), 2 ^ p ≤ z' → z' < 2 ^ (p + 1) → -2147483648 ≤ y' → y' + 2 ^ n ≤ 2147483648 →
        (y' : ℝ) - y = d * 2 ^ n → L p z' ≤ 2 * L p z - d * 2 ^ p → 2 * L p z - d * 2 ^ p ≤ L p z' + loss p →
        L p z * 2 ^ (n + 1) / 2 ^ p - 1 - loss p * (2 ^ (n + 1) - 1) / 2 ^ p < ((fracLoop p n z' y' : Int) : ℝ) - y ∧
          ((fracLoop p n z' y' : Int) : ℝ) - y ≤ L p z * 2 ^ (n + 1) / 2 ^ p := by
      intro z' d y' a1 a2 a3 a4 a5 a6 a7
      obtain ⟨b1, b2⟩ := ih z' y' a1 a2 a3 a4
      have hn : (0:ℝ) < 2 ^ n := by positivity
      have c1 : L p z' * 2 ^ n / 2 ^ p ≤ L p z * 2 ^ (n+1) / 2 ^ p - d * 2 ^ n := by
        have := mul_le_mul_of_nonneg_right a6 hn.le
        have h3 := div_le_div_of_nonneg_right this hP.le
        have e : (2 * L p z - d * 2 ^ p) * 2 ^ n / 2 ^ p = L p z * 2 ^ (n+1) / 2 ^ p - d * 2 ^ n := by field_simp; ring
        rw [e] at h3; exact h3
      have c2 : L p z * 2 ^ (n+1) / 2 ^ p - d * 2 ^ n ≤ L p z' * 2 ^ n / 2 ^ p + loss p * 2 ^ n / 2 ^ p := by
        have := mul_le_mul_of_nonneg_right a7 hn.le
        have h3 := div_le_div_of_nonneg_right this hP.le
        have e : (2 * L p z - d * 2 ^ p) * 2 ^ n / 2 ^ p = L p z * 2 ^ (n+1) / 2 ^ p - d * 2 ^ n := by field_simp; ring
        have e2 : (L p z' + loss p) * 2 ^ n / 2 ^ p = L p z' * 2 ^ n / 2 ^ p + loss p * 2 ^ n / 2 ^ p := by ring
        rw [e, e2] at h3; exact h3
      have c3 : loss p * (2 ^ (n+1) - 1) / 2 ^ p = loss p * (2 ^ n - 1) / 2 ^ p + loss p * 2 ^ n / 2 ^ p := by rw [pow_succ]; ring
      rw [c3]
      constructor <;> linarith
    by_cases h : z * z / 2 ^ p ≥ 2 ^ (p + 1)
    · rw [if_pos h]
      have hw : wrap32 (y + 2 ^ n) = y + 2 ^ n := by
        apply wrap32_id'
        · omega
        · rw [pow_succ] at hy2; omega
      rw [hw]
      have hdd : z * z / 2 ^ p / 2 = z * z / (2 ^ p * 2) := Nat.div_div_eq_div_mul _ _ _
      obtain ⟨f1, f2⟩ := floor_div_bounds (z * z) (2 ^ p * 2) (by positivity)
      rw [← hdd] at f1 f2
      have hr : 2 ^ p ≤ z * z / 2 ^ p / 2 := by rw [pow_succ] at h; omega
      obtain ⟨t1, t2⟩ := L_trunc p _ _ hr f1 f2
      have eL : L p (((z * z : Nat) : ℝ) / ((2 ^ p * 2 : Nat) : ℝ)) = 2 * L p z - 1 * 2 ^ p := by
        push_cast
        rw [← hsq]
        have := L_halve p 1 ((z:ℝ) * z / 2 ^ p) (by positivity)
        simp only [pow_one, Nat.cast_one] at this
        rw [← this]; congr 1; field_simp
      rw [eL] at t1 t2
      refine close _ 1 _ hr (by rw [pow_succ] at hqm; omega) (by omega) (by rw [pow_succ] at hy2; omega) (by push_cast; ring) t1 t2
    · rw [if_neg h]
      obtain ⟨f1, f2⟩ := floor_div_bounds (z * z) (2 ^ p) (by positivity)
      obtain ⟨t1, t2⟩ := L_trunc p _ _ hq0 f1 f2
      have eL : L p (((z * z : Nat) : ℝ) / ((2 ^ p : Nat) : ℝ)) = 2 * L p z - 0 * 2 ^ p := by
        push_cast; rw [hsq]; ring
      rw [eL] at t1 t2
      refine close _ 0 _ hq0 (by omega) hy1 (by rw [pow_succ] at hy2; omega) (by ring) t1 t2

theorem fracLoop_one (p n : Nat) (hp : p ≤ 30) (y : Int) : fracLoop p n (2 ^ p) y = y := by
  induction n generalizing y with
  | zero => rfl
  | succ n ih =>
    rw [fracLoop]
    have : 2 ^ p * 2 ^ p % 2 ^ 64 / 2 ^ p = 2 ^ p := by
      rw [Nat.mod_eq_of_lt, Nat.mul_div_cancel _ (by positivity)]
      rw [← pow_add]; exact Nat.pow_lt_pow_right (by norm_num) (by omega)
    rw [this, pow_mod32 (by omega), if_neg (by rw [pow_succ]; have : 0 < 2 ^ p := by positivity
                                               omega), ih]

end Emlearn.Bayes
