/- The four bytes of an IEEE 754 binary32 number, as numpy writes them and as a little-endian processor reads them. -/
import Verif.Float.Binary
import Mathlib.Tactic.Linarith
import Mathlib.Tactic.Positivity
namespace Emlearn.Flt.Binary32

/-- The number that a 32-bit pattern stands for (IEEE 754, 3.4): sign bit 31, biased exponent in bits 23-30, fraction in bits 0-22; infinities and NaN are not numbers. -/
noncomputable def ofBits (w : Nat) : Option ℝ :=
  let s : ℝ := if w / 2 ^ 31 % 2 = 1 then -1 else 1
  let e : Nat := w / 2 ^ 23 % 256
  let f : Nat := w % 2 ^ 23
  if e = 255 then none
  else if e = 0 then some (s * f * 2 ^ (-149 : ℤ))
  else some (s * (2 ^ 23 + f) * 2 ^ ((e : ℤ) - 150))

/-- The pattern of a number: the distance of the exponent from the smallest one, times `2^23`, plus the significand (whose leading bit adds one to the exponent field), plus the sign. Zero is all zeros (the model has no negative zero). -/
noncomputable def toBits (a : F32) : Nat :=
  if a.val = 0 then 0
  else (if a.val < 0 then 2 ^ 31 else 0) + (ulpExp a.val + 149).toNat * 2 ^ 23 + (⌊|a.val| / 2 ^ ulpExp a.val⌋).toNat

/-- Four bytes, least significant first. -/
def le4 (w : Nat) : List Nat := [w % 256, w / 2 ^ 8 % 256, w / 2 ^ 16 % 256, w / 2 ^ 24 % 256]

/-- The word that four bytes are on a little-endian processor. -/
def ofLe4 : List Nat → Option Nat
  | [a, b, c, d] => some (a + 2 ^ 8 * b + 2 ^ 16 * c + 2 ^ 24 * d)
  | _ => none

theorem ofLe4_le4 (w : Nat) (h : w < 2 ^ 32) : ofLe4 (le4 w) = some w := by
  unfold le4 ofLe4
  simp only [Option.some.injEq]
  omega

theorem le4_length (w : Nat) : (le4 w).length = 4 := rfl
theorem le4_byte (w : Nat) : ∀ b ∈ le4 w, b < 256 := by
  intro b hb
  simp only [le4, List.mem_cons, List.not_mem_nil, or_false] at hb
  omega

/-- A number with at most 24 significant bits is not changed by rounding. -/
theorem fl_exact24 (k e : ℤ) (hk : |k| ≤ 2 ^ 24) (he : -149 ≤ e) : fl ((k : ℝ) * 2 ^ e) = k * 2 ^ e := by
  have key : ∀ (k e : ℤ), |k| < 2 ^ 24 → -149 ≤ e → fl ((k : ℝ) * 2 ^ e) = k * 2 ^ e := by
    intro k e hk he
    by_cases h0 : k = 0
    · subst h0; unfold fl; simp
    have hp : (0 : ℝ) < 2 ^ e := zpow_pos (by norm_num) _
    have hx : ((k : ℝ) * 2 ^ e) ≠ 0 := mul_ne_zero (by exact_mod_cast h0) hp.ne'
    have habs : |((k : ℝ) * 2 ^ e)| = |(k : ℝ)| * 2 ^ e := by rw [abs_mul, abs_of_pos hp]
    have hlt : |((k : ℝ) * 2 ^ e)| < 2 ^ (e + 24) := by
      rw [habs, zpow_add₀ (by norm_num), mul_comm]
      refine mul_lt_mul_of_pos_left ?_ hp
      have : (|k| : ℝ) < 2 ^ 24 := by exact_mod_cast hk
      exact_mod_cast this
    have hlog : Int.log 2 |((k : ℝ) * 2 ^ e)| < e + 24 := (Int.lt_zpow_iff_log_lt (by norm_num) (abs_pos.2 hx)).1 (by exact_mod_cast hlt)
    have hu : ulpExp ((k : ℝ) * 2 ^ e) ≤ e := by unfold ulpExp; omega
    obtain ⟨n, hn⟩ : ∃ n : Nat, e = ulpExp ((k : ℝ) * 2 ^ e) + n := ⟨(e - ulpExp ((k : ℝ) * 2 ^ e)).toNat, by omega⟩
    obtain ⟨U, hU⟩ : ∃ U, ulpExp ((k : ℝ) * 2 ^ e) = U := ⟨_, rfl⟩
    unfold fl
    rw [hU] at hn ⊢
    have hUp : (0 : ℝ) < 2 ^ U := zpow_pos (by norm_num) _
    have e1 : (k : ℝ) * 2 ^ e / 2 ^ U = ((k * 2 ^ n : ℤ) : ℝ) := by
      rw [hn, zpow_add₀ (by norm_num), zpow_natCast]
      push_cast
      field_simp
    rw [e1, round_intCast, ← e1, div_mul_cancel₀ _ hUp.ne']
  rcases lt_or_eq_of_le hk with h | h
  · exact key k e h he
  · have e2 : (k : ℝ) * 2 ^ e = ((k / 2 : ℤ) : ℝ) * 2 ^ (e + 1) := by
      rw [zpow_add₀ (by norm_num), zpow_one]
      have : k = 2 * (k / 2) := by rcases abs_eq (by norm_num : (0 : ℤ) ≤ 2 ^ 24) |>.1 h with h | h <;> omega
      have : (k : ℝ) = 2 * ((k / 2 : ℤ) : ℝ) := by exact_mod_cast this
      rw [this]; ring
    rw [e2]
    refine key _ _ ?_ (by omega)
    rcases abs_eq (by norm_num : (0 : ℤ) ≤ 2 ^ 24) |>.1 h with h | h <;> rw [h] <;> norm_num

/-- What rounding returns has at most 24 significant bits. -/
theorem fl_form24 (x : ℝ) : ∃ k : ℤ, |k| ≤ 2 ^ 24 ∧ fl x = k * 2 ^ ulpExp x := by
  refine ⟨round (x / 2 ^ ulpExp x), ?_, rfl⟩
  have hp := ulp_pos x
  have hlt : |x / 2 ^ ulpExp x| ≤ 2 ^ 24 := by
    rw [abs_div, abs_of_pos hp, div_le_iff₀ hp]
    by_cases hx : x = 0
    · subst hx; simp; positivity
    have h1 : |x| < 2 ^ (Int.log 2 |x| + 1) := by exact_mod_cast Int.lt_zpow_succ_log_self (R := ℝ) (b := 2) (by norm_num) |x|
    have h2 : (2 : ℝ) ^ (Int.log 2 |x| + 1) ≤ 2 ^ (24 + ulpExp x) := zpow_le_zpow_right₀ (by norm_num) (by unfold ulpExp; omega)
    rw [zpow_add₀ (by norm_num : (2 : ℝ) ≠ 0) 24] at h2
    have h3 := h1.le.trans h2
    norm_num at h3 ⊢
    exact h3
  have h3 : |round (x / 2 ^ ulpExp x)| ≤ (2 ^ 24 : ℤ) := by
    rw [abs_le] at hlt ⊢
    constructor
    · rw [round_eq, Int.le_floor]
      push_cast
      linarith [hlt.1]
    · rw [round_eq, ← Int.lt_add_one_iff, Int.floor_lt]
      push_cast
      linarith [hlt.2]
  exact h3

theorem fl_fl (x : ℝ) : fl (fl x) = fl x := by
  obtain ⟨k, hk, h⟩ := fl_form24 x
  rw [h]
  exact fl_exact24 k _ hk (le_max_left _ _)

theorem rnd_val (a : F32) : rnd a.val = a := by
  obtain ⟨v, y, h⟩ := a
  subst h
  unfold rnd
  congr 1
  exact fl_fl y

/-- A number is a whole number of its units in the last place, fewer than `2^24`, and at least `2^23` unless the unit is the smallest. -/
theorem significand (a : F32) (h0 : a.val ≠ 0) : ∃ k : ℤ, 0 ≤ k ∧ k < 2 ^ 24 ∧ |a.val| = k * 2 ^ ulpExp a.val ∧ (-149 < ulpExp a.val → 2 ^ 23 ≤ k) := by
  have hp := ulp_pos a.val
  have hfix : fl a.val = a.val := congrArg F32.val (rnd_val a)
  have hpos : 0 < |a.val| := abs_pos.2 h0
  have hk : |a.val| = (|round (a.val / 2 ^ ulpExp a.val)| : ℤ) * 2 ^ ulpExp a.val := by
    conv_lhs => rw [← hfix]
    unfold fl
    rw [abs_mul, abs_of_pos hp, Int.cast_abs]
  refine ⟨_, abs_nonneg _, ?_, hk, ?_⟩
  · have h1 : |a.val| < 2 ^ (Int.log 2 |a.val| + 1) := by exact_mod_cast Int.lt_zpow_succ_log_self (R := ℝ) (b := 2) (by norm_num) |a.val|
    have h2 : (2 : ℝ) ^ (Int.log 2 |a.val| + 1) ≤ 2 ^ (24 + ulpExp a.val) := zpow_le_zpow_right₀ (by norm_num) (by unfold ulpExp; omega)
    have h3 := h1.trans_le h2
    rw [zpow_add₀ (by norm_num : (2 : ℝ) ≠ 0) 24] at h3
    conv at h3 => lhs; rw [hk]
    have h4 := lt_of_mul_lt_mul_right h3 hp.le
    exact_mod_cast h4
  · intro h
    have hu : ulpExp a.val = Int.log 2 |a.val| - 23 := by unfold ulpExp at h ⊢; omega
    have h1 : (2 : ℝ) ^ Int.log 2 |a.val| ≤ |a.val| := by exact_mod_cast Int.zpow_log_le_self (R := ℝ) (b := 2) (by norm_num) hpos
    have h2 : Int.log 2 |a.val| = 23 + ulpExp a.val := by omega
    rw [h2, zpow_add₀ (by norm_num : (2 : ℝ) ≠ 0) 23] at h1
    conv at h1 => rhs; rw [hk]
    have h3 := le_of_mul_le_mul_right h1 hp
    exact_mod_cast h3

theorem ulpExp_fin (a : F32) (h : |a.val| ≤ maxFinite) : ulpExp a.val ≤ 104 := by
  by_cases h0 : a.val = 0
  · rw [h0]; simp [ulpExp]
  have h1 : |a.val| < ((2 : ℕ) : ℝ) ^ (128 : ℤ) := by
    have := h.trans_lt maxFinite_lt
    norm_num at this ⊢
    exact this
  have h2 := (Int.lt_zpow_iff_log_lt (R := ℝ) (b := 2) (by norm_num) (abs_pos.2 h0)).1 h1
  unfold ulpExp
  omega

theorem toBits_lt (a : F32) (h : |a.val| ≤ maxFinite) : toBits a < 2 ^ 32 := by
  by_cases h0 : a.val = 0
  · unfold toBits; rw [if_pos h0]; norm_num
  obtain ⟨k, k0, k1, hk, -⟩ := significand a h0
  have hu := ulpExp_fin a h
  have hl : -149 ≤ ulpExp a.val := le_max_left _ _
  have hp := ulp_pos a.val
  have hf : ⌊|a.val| / 2 ^ ulpExp a.val⌋ = k := by rw [hk, mul_div_cancel_right₀ _ hp.ne', Int.floor_intCast]
  unfold toBits
  rw [if_neg h0, hf]
  split <;> omega

/-- **Reading the pattern of a finite number gives the number.** -/
theorem ofBits_toBits (a : F32) (h : |a.val| ≤ maxFinite) : ofBits (toBits a) = some a.val := by
  by_cases h0 : a.val = 0
  · unfold toBits; rw [if_pos h0, h0]; norm_num [ofBits]
  obtain ⟨k, k0, k1, hk, kn⟩ := significand a h0
  have hu := ulpExp_fin a h
  have hl : -149 ≤ ulpExp a.val := le_max_left _ _
  have hp := ulp_pos a.val
  have hf : ⌊|a.val| / 2 ^ ulpExp a.val⌋ = k := by rw [hk, mul_div_cancel_right₀ _ hp.ne', Int.floor_intCast]
  obtain ⟨K, rfl⟩ : ∃ K : Nat, k = K := ⟨k.toNat, by omega⟩
  obtain ⟨E, hE⟩ : ∃ E : Nat, ulpExp a.val = E - 149 := ⟨(ulpExp a.val + 149).toNat, by omega⟩
  obtain ⟨S, hS, hS'⟩ : ∃ S : Nat, S ≤ 1 ∧ (if a.val < 0 then 2 ^ 31 else 0) = S * 2 ^ 31 ∧ (if S = 1 then (-1 : ℝ) else 1) * |a.val| = a.val := by
    by_cases hn : a.val < 0
    · exact ⟨1, le_refl _, by simp [hn], by simp [abs_of_neg hn]⟩
    · exact ⟨0, by omega, by simp [hn], by simp [abs_of_nonneg (not_lt.1 hn)]⟩
  have hw : toBits a = S * 2 ^ 31 + E * 2 ^ 23 + K := by
    unfold toBits
    rw [if_neg h0, hf, hS'.1, hE, show (((E : ℤ) - 149 + 149).toNat) = E by omega, Int.toNat_natCast]
  have hs : toBits a / 2 ^ 31 % 2 = S := by rw [hw]; omega
  unfold ofBits
  simp only [hs]
  have hK : K < 2 ^ 24 := by exact_mod_cast k1
  by_cases hsub : K < 2 ^ 23
  · have hE0 : E = 0 := by
      by_contra hne
      have := kn (by omega)
      omega
    subst hE0
    have he : toBits a / 2 ^ 23 % 256 = 0 := by rw [hw]; omega
    have hff : toBits a % 2 ^ 23 = K := by rw [hw]; omega
    rw [he, hff, if_neg (by norm_num), if_pos rfl]
    congr 1
    rw [← hS'.2, mul_assoc]
    congr 1
    rw [hk, hE]
    norm_num
  · have he : toBits a / 2 ^ 23 % 256 = E + 1 := by rw [hw]; omega
    have hff : toBits a % 2 ^ 23 = K - 2 ^ 23 := by rw [hw]; omega
    rw [he, hff, if_neg (by omega), if_neg (by omega)]
    congr 1
    rw [← hS'.2, mul_assoc]
    congr 1
    rw [hk, hE]
    have hKK : ((K - 2 ^ 23 : Nat) : ℝ) = (K : ℝ) - 2 ^ 23 := by rw [Nat.cast_sub (not_lt.1 hsub)]; norm_num
    rw [hKK]
    push_cast
    congr 1
    · ring
    · congr 1; ring

/-- Every pattern that is a number is one of the numbers. -/
theorem ofBits_fl (w : Nat) (x : ℝ) (h : ofBits w = some x) : fl x = x := by
  unfold ofBits at h
  obtain ⟨s, hs, hs1⟩ : ∃ s : ℤ, (if w / 2 ^ 31 % 2 = 1 then (-1 : ℝ) else 1) = (s : ℝ) ∧ |s| = 1 := by
    split
    · exact ⟨-1, by norm_num, by norm_num⟩
    · exact ⟨1, by norm_num, by norm_num⟩
  simp only [hs] at h
  have hf : w % 2 ^ 23 < 2 ^ 23 := Nat.mod_lt _ (by norm_num)
  generalize w % 2 ^ 23 = f at h hf
  generalize w / 2 ^ 23 % 256 = e at h
  split at h
  · cases h
  · split at h
    · cases h
      have := fl_exact24 (s * (f : Nat)) (-149) (by rw [abs_mul, hs1, one_mul, abs_of_nonneg (by positivity)]; omega) (le_refl _)
      push_cast at this ⊢
      exact this
    · cases h
      have := fl_exact24 (s * (2 ^ 23 + (f : Nat))) ((e : Nat) - 150) (by rw [abs_mul, hs1, one_mul, abs_of_nonneg (by positivity)]; omega) (by omega)
      push_cast at this ⊢
      norm_num at this ⊢
      exact this

end Emlearn.Flt.Binary32
