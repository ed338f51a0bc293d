/- Property C12: quantization of leaf probabilities. -/
import Verif.Trees.Wrapper
import Mathlib.Data.Rat.Floor
import Mathlib.Tactic.FieldSimp
import Mathlib.Tactic.Ring
import Mathlib.Tactic.IntervalCases
namespace Emlearn.Trees
variable {K : Type} [Field K] [LinearOrder K] [IsStrictOrderedRing K] [FloorRing K]

theorem rhe_bounds (x : K) : ⌊x⌋ ≤ roundHalfEven x ∧ roundHalfEven x ≤ ⌊x⌋ + 1 := by
  unfold roundHalfEven; split_ifs <;> omega

theorem rhe_int (n : Int) : roundHalfEven (n : K) = n := by
  unfold roundHalfEven; simp

theorem rhe_near (x : K) : |(roundHalfEven x : K) - x| ≤ 1/2 := by
  have h1 := Int.floor_le x
  have h2 := Int.lt_floor_add_one x
  unfold roundHalfEven
  split_ifs <;> push_cast <;> rw [abs_le] <;> constructor <;> linarith

theorem rhe_mono {x y : K} (h : x ≤ y) : roundHalfEven x ≤ roundHalfEven y := by
  have hf := Int.floor_le_floor h
  rcases lt_or_eq_of_le hf with hlt | heq
  · have := (rhe_bounds x).2
    have := (rhe_bounds y).1
    omega
  · unfold roundHalfEven
    rw [heq]
    split_ifs <;> first | omega | (exfalso; linarith)

theorem quantizeByte_spec (m : Nat) (hm : 0 < m) (p : K) (h0 : 0 ≤ p) (h1 : p ≤ 1) :
    0 ≤ roundHalfEven (p * m) ∧ roundHalfEven (p * m) ≤ m ∧
    quantizeByte m p = ⌊(roundHalfEven (p * m) : K) / m * 255⌋ ∧ 0 ≤ quantizeByte m p ∧ quantizeByte m p ≤ 255 := by
  have hmK : (0 : K) < (m : K) := by exact_mod_cast hm
  have a0 : 0 ≤ roundHalfEven (p * m) := by
    have := rhe_mono (x := ((0:Int) : K)) (y := p * m) (by push_cast; positivity)
    rw [rhe_int] at this; exact this
  have a1 : roundHalfEven (p * m) ≤ m := by
    have := rhe_mono (x := p * m) (y := ((m : Int) : K)) (by push_cast; nlinarith)
    rw [rhe_int] at this; exact this
  have b0 : (0 : K) ≤ (roundHalfEven (p * m) : K) / m * 255 := by
    have : (0 : K) ≤ (roundHalfEven (p * m) : K) := by exact_mod_cast a0
    positivity
  have b1 : (roundHalfEven (p * m) : K) / m * 255 ≤ 255 := by
    have h2 : (roundHalfEven (p * m) : K) / m ≤ 1 := by
      rw [div_le_one hmK]; exact_mod_cast a1
    linarith
  have c0 : 0 ≤ ⌊(roundHalfEven (p * m) : K) / m * 255⌋ := Int.floor_nonneg.mpr b0
  have c1 : ⌊(roundHalfEven (p * m) : K) / m * 255⌋ ≤ 255 := by
    have : ((⌊(roundHalfEven (p * m) : K) / m * 255⌋ : Int) : K) ≤ ((255 : Int) : K) := by
      push_cast; exact le_trans (Int.floor_le _) b1
    exact_mod_cast this
  have e : quantizeByte m p = ⌊(roundHalfEven (p * m) : K) / m * 255⌋ := by
    unfold quantizeByte
    rw [trunc_of_nonneg b0]
    omega
  exact ⟨a0, a1, e, by rw [e]; exact c0, by rw [e]; exact c1⟩

theorem quantizeProbabilities_eq (bits : Int) (hb1 : 2 ≤ bits) (hb2 : bits ≤ 8) (ps : List K) (hne : ps ≠ [])
    (h0 : ∀ p ∈ ps, 0 ≤ p) (h1 : ∀ p ∈ ps, p ≤ 1) :
    quantizeProbabilities bits ps = some (ps.map (quantizeByte (2 ^ bits.toNat - 2))) ∧ 2 ≤ 2 ^ bits.toNat - 2 := by
  have hm : 2 ≤ 2 ^ bits.toNat - 2 := by
    have : 2 ^ 2 ≤ 2 ^ bits.toNat := Nat.pow_le_pow_right (by omega) (by omega)
    omega
  have hsub : 2 ^ bits.toNat - 1 - 1 = 2 ^ bits.toNat - 2 := by omega
  refine ⟨?_, hm⟩
  unfold quantizeProbabilities
  rw [if_neg (by omega), if_neg (by omega), if_neg hne, if_neg, if_neg]
  · simp only [hsub]
    rw [if_neg, if_neg (by omega)]
    simp only [List.any_map, List.any_eq_true, Function.comp_apply, decide_eq_true_eq, not_exists, not_and, not_lt]
    intro p hp
    obtain ⟨_, h2, _⟩ := quantizeByte_spec (2 ^ bits.toNat - 2) (by omega) p (h0 p hp) (h1 p hp)
    have h3 : ((2 ^ bits.toNat - 2 : Nat) : Int) ≤ (2 : Int) ^ bits.toNat - 1 := by
      have : 2 ^ 2 ≤ 2 ^ bits.toNat := Nat.pow_le_pow_right (by omega) (by omega)
      push_cast [Nat.cast_sub (show 2 ≤ 2 ^ bits.toNat by omega)]
      omega
    omega
  · simp only [List.any_eq_true, decide_eq_true_eq, not_exists, not_and, not_lt]; exact h0
  · simp only [List.any_eq_true, decide_eq_true_eq, not_exists, not_and, not_lt]; exact h1

/-- **C12** For every bit width 2..8 and every non-empty list of probabilities in `[0,1]` the quantization succeeds; every output is a byte;
0 becomes 0 and 1 becomes 255; the error against `255*p` is less than half a quantization step (`255/(2^bits-2)/2`) plus 1. -/
theorem C12_quantize_bounded_endpoints (bits : Int) (hb1 : 2 ≤ bits) (hb2 : bits ≤ 8) (ps : List K) (hne : ps ≠ [])
    (h0 : ∀ p ∈ ps, 0 ≤ p) (h1 : ∀ p ∈ ps, p ≤ 1) :
    ∃ out, quantizeProbabilities bits ps = some out ∧ out.length = ps.length ∧
      ∀ (i : Nat) (p : K) (b : Int), ps[i]? = some p → out[i]? = some b →
        0 ≤ b ∧ b ≤ 255 ∧ (p = 0 → b = 0) ∧ (p = 1 → b = 255) ∧
        |(b : K) - 255 * p| < 255 / (2 ^ bits.toNat - 2) / 2 + 1 := by
  obtain ⟨he, hm⟩ := quantizeProbabilities_eq bits hb1 hb2 ps hne h0 h1
  refine ⟨_, he, by simp, ?_⟩
  intro i p b hp hb
  rw [List.getElem?_map, hp] at hb
  simp only [Option.map_some, Option.some.injEq] at hb
  subst hb
  have hpm := List.mem_of_getElem? hp
  obtain ⟨a0, a1, e, c0, c1⟩ := quantizeByte_spec (2 ^ bits.toNat - 2) (by omega) p (h0 p hpm) (h1 p hpm)
  have h4 : 2 ^ 2 ≤ 2 ^ bits.toNat := Nat.pow_le_pow_right (by omega) (by omega)
  have hcast : ((2 ^ bits.toNat - 2 : Nat) : K) = 2 ^ bits.toNat - 2 := by
    rw [Nat.cast_sub (by omega)]; push_cast; ring
  have hmK : (0 : K) < ((2 ^ bits.toNat - 2 : Nat) : K) := by
    have : 0 < 2 ^ bits.toNat - 2 := by omega
    exact_mod_cast this
  refine ⟨c0, c1, ?_, ?_, ?_⟩
  · rintro rfl
    rw [e]
    have : roundHalfEven ((0 : K) * ((2 ^ bits.toNat - 2 : Nat) : K)) = 0 := by
      rw [zero_mul]; have := rhe_int (K := K) 0; simpa using this
    rw [this]; simp
  · rintro rfl
    rw [e]
    have : roundHalfEven ((1 : K) * ((2 ^ bits.toNat - 2 : Nat) : K)) = ((2 ^ bits.toNat - 2 : Nat) : Int) := by
      rw [one_mul]; have := rhe_int (K := K) ((2 ^ bits.toNat - 2 : Nat) : Int); simpa using this
    rw [this, Int.cast_natCast, div_self (ne_of_gt hmK), one_mul, Int.floor_eq_iff]
    norm_num
  · rw [e, ← hcast]
    set m : K := ((2 ^ bits.toNat - 2 : Nat) : K) with hmdef
    have f1 := Int.floor_le ((roundHalfEven (p * m) : K) / m * 255)
    have f2 := Int.lt_floor_add_one ((roundHalfEven (p * m) : K) / m * 255)
    have f3 := abs_le.mp (rhe_near (p * m))
    have g : (roundHalfEven (p * m) : K) / m * 255 - 255 * p = ((roundHalfEven (p * m) : K) - p * m) * (255 / m) := by
      field_simp
    have hpos : (0 : K) < 255 / m := by positivity
    have u1 : ((roundHalfEven (p * m) : K) - p * m) * (255 / m) ≤ 255 / m / 2 := by nlinarith [f3.2]
    have u2 : -(255 / m / 2) ≤ ((roundHalfEven (p * m) : K) - p * m) * (255 / m) := by nlinarith [f3.1]
    rw [abs_lt]
    constructor <;> linarith

/-- **C12** (order) Quantization never orders two probabilities the wrong way round, also across different leaves. -/
theorem C12_quantize_monotone (bits : Int) (hb1 : 2 ≤ bits) (hb2 : bits ≤ 8) (ps qs : List K) (out outq : List Int)
    (ho : quantizeProbabilities bits ps = some out) (hq : quantizeProbabilities bits qs = some outq)
    (h0 : ∀ p ∈ ps ++ qs, 0 ≤ p ∧ p ≤ 1) (i j : Nat) (p q : K) (b c : Int) (hi : ps[i]? = some p) (hj : qs[j]? = some q)
    (hb : out[i]? = some b) (hc : outq[j]? = some c) (hpq : p ≤ q) : b ≤ c := by
  have hp := h0 p (by simp [List.mem_of_getElem? hi])
  have hqq := h0 q (by simp [List.mem_of_getElem? hj])
  obtain ⟨e1, hm⟩ := quantizeProbabilities_eq bits hb1 hb2 ps (by rintro rfl; simp at hi) (fun p hp => (h0 p (by simp [hp])).1) (fun p hp => (h0 p (by simp [hp])).2)
  obtain ⟨e2, _⟩ := quantizeProbabilities_eq bits hb1 hb2 qs (by rintro rfl; simp at hj) (fun p hp => (h0 p (by simp [hp])).1) (fun p hp => (h0 p (by simp [hp])).2)
  rw [ho] at e1; rw [hq] at e2
  cases e1; cases e2
  rw [List.getElem?_map, hi] at hb
  rw [List.getElem?_map, hj] at hc
  simp only [Option.map_some, Option.some.injEq] at hb hc
  subst hb; subst hc
  have hmK : (0 : K) < ((2 ^ bits.toNat - 2 : Nat) : K) := by
    have : 0 < 2 ^ bits.toNat - 2 := by omega
    exact_mod_cast this
  obtain ⟨_, _, e, _⟩ := quantizeByte_spec (2 ^ bits.toNat - 2) (by omega) p hp.1 hp.2
  obtain ⟨_, _, e', _⟩ := quantizeByte_spec (2 ^ bits.toNat - 2) (by omega) q hqq.1 hqq.2
  rw [e, e']
  apply Int.floor_le_floor
  have h1 : p * ((2 ^ bits.toNat - 2 : Nat) : K) ≤ q * ((2 ^ bits.toNat - 2 : Nat) : K) := by nlinarith
  have h2 : (roundHalfEven (p * ((2 ^ bits.toNat - 2 : Nat) : K)) : K) ≤ (roundHalfEven (q * ((2 ^ bits.toNat - 2 : Nat) : K)) : K) := by
    exact_mod_cast rhe_mono h1
  have h3 := div_le_div_of_nonneg_right h2 hmK.le
  linarith

/-- Non-vacuity: a three-class leaf with 3 bits. -/
example : quantizeProbabilities (K := Rat) 3 [1/2, 0, 1] = some [127, 0, 255] := by
  decide +kernel

end Emlearn.Trees
