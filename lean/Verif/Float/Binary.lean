/- An instance of the standard model: the finite numbers of IEEE 754 binary32 with rounding to nearest. A number is what `fl` (24 significant bits, exponents from -149) can return; `fin` says that it is not above the
largest finite number. Overflow to infinity is not represented: a result above the largest number is a number that is not `fin`. -/
import Verif.Float.Model
import Mathlib.Data.Int.Log
import Mathlib.Algebra.Order.Round
namespace Emlearn.Flt.Binary32

/-- The exponent of the unit in the last place of a real number. -/
noncomputable def ulpExp (x : ℝ) : ℤ := max (-149) (Int.log 2 |x| - 23)

/-- Rounding to the nearest number with 24 significant bits, exponents from -149. -/
noncomputable def fl (x : ℝ) : ℝ := round (x / 2 ^ ulpExp x) * 2 ^ ulpExp x

/-- The largest finite number. -/
noncomputable def maxFinite : ℝ := (2 ^ 24 - 1) * 2 ^ (104 : ℤ)

theorem ulp_pos (x : ℝ) : (0 : ℝ) < 2 ^ ulpExp x := zpow_pos (by norm_num) _

theorem fl_error (x : ℝ) : |fl x - x| ≤ 2 ^ ulpExp x / 2 := by
  have h := abs_sub_round (x / 2 ^ ulpExp x)
  have hp := ulp_pos x
  have e : fl x - x = -((x / 2 ^ ulpExp x - round (x / 2 ^ ulpExp x)) * 2 ^ ulpExp x) := by
    unfold fl
    rw [sub_mul, div_mul_cancel₀ _ hp.ne']
    ring
  rw [e, abs_neg, abs_mul, abs_of_pos hp]
  have := mul_le_mul_of_nonneg_right h hp.le
  linarith

/-- Numbers in the normal range have a relative error of at most `2^-24`. -/
theorem fl_error_normal (x : ℝ) (hx : x ≠ 0) (h : -149 ≤ Int.log 2 |x| - 23) : |fl x - x| ≤ 1 / 2 ^ 24 * |x| := by
  refine (fl_error x).trans ?_
  have hu : ulpExp x = Int.log 2 |x| - 23 := max_eq_right h
  rw [hu, zpow_sub₀ (by norm_num)]
  have := Int.zpow_log_le_self (R := ℝ) (b := 2) (by norm_num) (abs_pos.2 hx)
  norm_num at this ⊢
  linarith

theorem fl_error_any (x : ℝ) : |fl x - x| ≤ 1 / 2 ^ 24 * |x| + 1 / 2 ^ 150 := by
  by_cases hx : x = 0
  · subst hx
    have : fl 0 = 0 := by unfold fl; simp
    rw [this]
    norm_num
  by_cases h : -149 ≤ Int.log 2 |x| - 23
  · have := fl_error_normal x hx h
    have : (0 : ℝ) < 1 / 2 ^ 150 := by positivity
    linarith
  · refine (fl_error x).trans ?_
    have hu : ulpExp x = -149 := max_eq_left (by omega)
    rw [hu]
    have := abs_nonneg x
    have e : (2 : ℝ) ^ (-149 : ℤ) / 2 = 1 / 2 ^ 150 := by
      rw [zpow_neg, show (149 : ℤ) = ((149 : Nat) : ℤ) from rfl, zpow_natCast, pow_succ (2 : ℝ) 149]
      rw [one_div, mul_inv]
      ring
    rw [e]
    have : 0 ≤ 1 / 2 ^ 24 * |x| := by positivity
    linarith

/-- Numbers are multiples of `2^-149`. -/
theorem fl_grid (x : ℝ) : ∃ k : ℤ, fl x = k * 2 ^ (-149 : ℤ) := by
  obtain ⟨n, hn⟩ : ∃ n : Nat, ulpExp x = -149 + n := ⟨(ulpExp x + 149).toNat, by have : -149 ≤ ulpExp x := le_max_left _ _; omega⟩
  refine ⟨round (x / 2 ^ ulpExp x) * 2 ^ n, ?_⟩
  unfold fl
  conv_lhs => rw [show (2 : ℝ) ^ ulpExp x = 2 ^ n * 2 ^ (-149 : ℤ) by rw [hn, zpow_add₀ (by norm_num), zpow_natCast]; ring]
  rw [hn]
  push_cast
  rw [zpow_add₀ (by norm_num : (2 : ℝ) ≠ 0), zpow_natCast]
  rw [mul_comm ((2 : ℝ) ^ (-149 : ℤ)) (2 ^ n)]
  ring

/-- A multiple of `2^-149` is rounded with a relative error only. -/
theorem fl_error_grid (x : ℝ) (h : ∃ k : ℤ, x = k * 2 ^ (-149 : ℤ)) : |fl x - x| ≤ 1 / 2 ^ 24 * |x| := by
  by_cases hx : x = 0
  · subst hx
    have : fl 0 = 0 := by unfold fl; simp
    rw [this]
    norm_num
  by_cases hn : -149 ≤ Int.log 2 |x| - 23
  · exact fl_error_normal x hx hn
  · have hu : ulpExp x = -149 := max_eq_left (by omega)
    obtain ⟨k, hk⟩ := h
    have hp : (0 : ℝ) < 2 ^ (-149 : ℤ) := zpow_pos (by norm_num) _
    have : fl x = x := by
      unfold fl
      rw [hu]
      have : x / 2 ^ (-149 : ℤ) = (k : ℝ) := by rw [hk, mul_div_assoc, div_self hp.ne', mul_one]
      rw [this, round_intCast, hk]
    rw [this, sub_self, abs_zero]
    positivity

theorem maxFinite_lt : maxFinite < 2 ^ (128 : ℤ) := by
  unfold maxFinite
  have : (2 : ℝ) ^ (128 : ℤ) = 2 ^ 24 * 2 ^ (104 : ℤ) := by rw [show (128 : ℤ) = (24 : Nat) + 104 by norm_num, zpow_add₀ (by norm_num), zpow_natCast]
  rw [this]
  have : (0 : ℝ) < 2 ^ (104 : ℤ) := zpow_pos (by norm_num) _
  linarith

theorem maxFinite_pos : 0 < maxFinite := by
  unfold maxFinite
  have : (0 : ℝ) < 2 ^ (104 : ℤ) := zpow_pos (by norm_num) _
  norm_num at this ⊢

/-- Rounding does not go above the largest finite number. -/
theorem fl_fin (x : ℝ) (h : |x| ≤ maxFinite) : |fl x| ≤ maxFinite := by
  have hp := ulp_pos x
  have hle : ulpExp x ≤ 104 := by
    refine max_le (by norm_num) ?_
    by_cases hx : x = 0
    · subst hx
      simp
    · have h1 := Int.zpow_log_le_self (R := ℝ) (b := 2) (by norm_num) (abs_pos.2 hx)
      have h2 : (2 : ℝ) ^ Int.log 2 |x| < 2 ^ (128 : ℤ) := by
        refine lt_of_le_of_lt ?_ maxFinite_lt
        refine le_trans ?_ h
        exact_mod_cast h1
      have := (zpow_lt_zpow_iff_right₀ (by norm_num : (1 : ℝ) < 2)).1 h2
      omega
  obtain ⟨n, hn⟩ : ∃ n : Nat, (104 : ℤ) = ulpExp x + n := ⟨(104 - ulpExp x).toNat, by omega⟩
  have hm : maxFinite = (((2 ^ 24 - 1) * 2 ^ n : ℤ) : ℝ) * 2 ^ ulpExp x := by
    unfold maxFinite
    rw [hn, zpow_add₀ (by norm_num), zpow_natCast]
    push_cast
    ring
  rw [abs_le] at h ⊢
  have hd : maxFinite / 2 ^ ulpExp x = (((2 ^ 24 - 1) * 2 ^ n : ℤ) : ℝ) := by rw [hm, mul_div_assoc, div_self hp.ne', mul_one]
  have up : round (x / 2 ^ ulpExp x) ≤ (2 ^ 24 - 1) * 2 ^ n := by
    have h1 : x / 2 ^ ulpExp x ≤ (((2 ^ 24 - 1) * 2 ^ n : ℤ) : ℝ) := by rw [← hd]; exact div_le_div_of_nonneg_right h.2 hp.le
    rw [round_eq]
    refine Int.floor_le_iff.2 ?_
    linarith
  have lo : -((2 ^ 24 - 1) * 2 ^ n) ≤ round (x / 2 ^ ulpExp x) := by
    have h1 : -(((2 ^ 24 - 1) * 2 ^ n : ℤ) : ℝ) ≤ x / 2 ^ ulpExp x := by rw [← hd, ← neg_div]; exact div_le_div_of_nonneg_right h.1 hp.le
    rw [round_eq]
    refine Int.le_floor.2 ?_
    push_cast at h1 ⊢
    linarith
  unfold fl
  rw [hm]
  constructor
  · rw [← neg_mul]
    refine mul_le_mul_of_nonneg_right ?_ hp.le
    exact_mod_cast lo
  · refine mul_le_mul_of_nonneg_right ?_ hp.le
    exact_mod_cast up

/-- The numbers: what rounding can return. -/
structure F32 where
  val : ℝ
  rounded : ∃ y, fl y = val

noncomputable def rnd (x : ℝ) : F32 := ⟨fl x, x, rfl⟩

def fmt : Format F32 where
  fin a := |a.val| ≤ maxFinite
  val a := a.val

/-- `u = 2^-24`, `η = 2^-150`. -/
noncomputable def acc : Accuracy where
  u := 1 / 2 ^ 24
  η := 1 / 2 ^ 150
  M := maxFinite
  hu := by positivity
  hη := by positivity

noncomputable def add (a b : F32) : F32 := rnd (a.val + b.val)
noncomputable def sub (a b : F32) : F32 := rnd (a.val - b.val)
noncomputable def mul (a b : F32) : F32 := rnd (a.val * b.val)
noncomputable def div (a b : F32) : F32 := rnd (a.val / b.val)

theorem addOk : AddOk fmt acc add := by
  intro a b _ _ h
  refine ⟨fl_fin _ h, fl_error_grid _ ?_⟩
  obtain ⟨y, hy⟩ := a.rounded
  obtain ⟨y', hy'⟩ := b.rounded
  obtain ⟨k, hk⟩ := fl_grid y
  obtain ⟨k', hk'⟩ := fl_grid y'
  exact ⟨k + k', by show a.val + b.val = _; rw [← hy, ← hy', hk, hk']; push_cast; ring⟩

theorem subOk : SubOk fmt acc sub := by
  intro a b _ _ h
  refine ⟨fl_fin _ h, fl_error_grid _ ?_⟩
  obtain ⟨y, hy⟩ := a.rounded
  obtain ⟨y', hy'⟩ := b.rounded
  obtain ⟨k, hk⟩ := fl_grid y
  obtain ⟨k', hk'⟩ := fl_grid y'
  exact ⟨k - k', by show a.val - b.val = _; rw [← hy, ← hy', hk, hk']; push_cast; ring⟩

theorem mulOk : MulOk fmt acc mul := fun a b _ _ h => ⟨fl_fin _ h, fl_error_any (a.val * b.val)⟩

theorem divOk : DivOk fmt acc div := fun a b _ _ _ h => ⟨fl_fin _ h, fl_error_any (a.val / b.val)⟩

end Emlearn.Flt.Binary32
