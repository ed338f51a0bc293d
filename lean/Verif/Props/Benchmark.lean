/- C52: the benchmark data generator is the Park-Miller (MINSTD) sequence. -/
import Verif.Evaluate.Benchmark
import Mathlib.NumberTheory.LucasPrimality
import Mathlib.GroupTheory.OrderOfElement
import Mathlib.Data.ZMod.Basic
import Mathlib.Tactic.NormNum.Prime
import Mathlib.Tactic.Ring
namespace Emlearn.Benchmark

theorem u32sub_le (x y : Nat) (h1 : y ≤ x) (h2 : x < 4294967296) : u32sub x y = x - y := by
  show (x + (4294967296 - y)) % 4294967296 = x - y
  omega

theorem u32_lt (x : Nat) (h : x < 4294967296) : u32 x = x := Nat.mod_eq_of_lt h

theorem schrage_abs (q A B G N : Nat) (hN : N = 2147483647) (ha0 : A ≤ 2147431977) (hb0 : B ≤ 328146258) (hG : G + B = A + N * q) :
    let p := if u32 A > u32 B then u32sub (u32 A) (u32 B) else u32 (u32 A + u32sub N (u32 B))
    1 ≤ p ∧ p ≤ N ∧ p % N = G % N := by
  rw [u32_lt A (by omega), u32_lt B (by omega)]
  by_cases h : A > B
  · rw [if_pos h, u32sub_le _ _ (by omega) (by omega)]
    refine ⟨by omega, by omega, ?_⟩
    have : G = (A - B) + N * q := by omega
    rw [this, Nat.add_mul_mod_self_left]
  · rw [if_neg h, u32sub_le _ _ (by omega) (by omega), u32_lt _ (by omega)]
    refine ⟨by omega, by omega, ?_⟩
    have : G + N * 1 = (A + (N - B)) + N * q := by omega
    rw [← Nat.add_mul_mod_self_left (A + (N - B)) N q, ← this, Nat.add_mul_mod_self_left]

theorem schrage (q r : Nat) (hr : r < 44488) (hs : 44488 * q + r < 4294967296) (N : Nat) (hN : N = 2147483647) :
    r * 48271 < 4294967296 ∧ q * 3399 < N ∧
    let p := if u32 (r * 48271) > u32 (q * 3399) then u32sub (u32 (r * 48271)) (u32 (q * 3399)) else u32 (u32 (r * 48271) + u32sub N (u32 (q * 3399)))
    1 ≤ p ∧ p ≤ N ∧ p % N = 48271 * (44488 * q + r) % N := by
  have ha0 : r * 48271 ≤ 44487 * 48271 := Nat.mul_le_mul_right _ (by omega)
  have hq : q ≤ 96542 := by omega
  have hb0 : q * 3399 ≤ 96542 * 3399 := Nat.mul_le_mul_right _ hq
  have hG : 48271 * (44488 * q + r) + q * 3399 = r * 48271 + N * q := by subst hN; ring
  norm_num only at ha0 hb0
  exact ⟨lt_of_le_of_lt ha0 (by norm_num), by rw [hN]; exact lt_of_le_of_lt hb0 (by norm_num), schrage_abs q _ _ _ N hN ha0 hb0 hG⟩

/-- **C52 (one step, every 32-bit state).** No intermediate result exceeds 32 bits or goes below zero, the new state lies in `1 .. 2^31-1`
and is congruent to `48271 * state` modulo `2^31 - 1`. -/
theorem C52_step_every_state (s : Nat) (hs : s < 2 ^ 32) :
    s % 44488 * 48271 < 2 ^ 32 ∧ s / 44488 * 3399 < 2 ^ 31 - 1 ∧
    1 ≤ parkmiller s ∧ parkmiller s ≤ 2 ^ 31 - 1 ∧ parkmiller s % (2 ^ 31 - 1) = 48271 * s % (2 ^ 31 - 1) := by
  have hs' : 44488 * (s / 44488) + s % 44488 = s := Nat.div_add_mod s 44488
  have := schrage (s / 44488) (s % 44488) (Nat.mod_lt _ (by norm_num)) (by rw [hs']; exact hs) (2 ^ 31 - 1) (by norm_num)
  rw [hs'] at this
  exact this

/-- **C52.** Every state of the generator's range is mapped to `48271 * s mod (2^31 - 1)` and the range is never left. -/
theorem C52_parkmiller (s : Nat) (h1 : 1 ≤ s) (h2 : s ≤ 2 ^ 31 - 2) :
    parkmiller s = 48271 * s % (2 ^ 31 - 1) ∧ 1 ≤ parkmiller s ∧ parkmiller s ≤ 2 ^ 31 - 2 := by
  obtain ⟨_, _, h3, h4, h5⟩ := C52_step_every_state s (by omega)
  have h6 : 48271 * s % (2 ^ 31 - 1) ≠ 0 := by
    intro h0
    have hd : (2 ^ 31 - 1) ∣ 48271 * s := Nat.dvd_of_mod_eq_zero h0
    have hc : Nat.Coprime (2 ^ 31 - 1) 48271 := by decide +kernel
    have := Nat.le_of_dvd (by omega) (hc.dvd_of_dvd_mul_left hd)
    omega
  generalize parkmiller s = p at *
  generalize 48271 * s = g at *
  have e1 : (2 : Nat) ^ 31 - 1 = 2147483647 := by norm_num
  have e2 : (2 : Nat) ^ 31 - 2 = 2147483646 := by norm_num
  rw [e1] at *
  rw [e2] at *
  clear e1 e2
  refine ⟨by omega, h3, by omega⟩

/-- State after `k` steps from seed 1. -/
def stateAfter : Nat → Nat
  | 0 => 1
  | k + 1 => parkmiller (stateAfter k)

theorem stateAfter_eq (k : Nat) : stateAfter k = 48271 ^ k % (2 ^ 31 - 1) ∧ 1 ≤ stateAfter k ∧ stateAfter k ≤ 2 ^ 31 - 2 := by
  induction k with
  | zero => simp [stateAfter]
  | succ k ih =>
    obtain ⟨a, b, c⟩ := ih
    obtain ⟨d, e, f⟩ := C52_parkmiller (stateAfter k) b c
    refine ⟨?_, e, f⟩
    rw [stateAfter, d, a, pow_succ 48271 k, mul_comm (48271 ^ k)]
    exact Nat.mul_mod_mod _ _ _

theorem fillLoop_get (k j i : Nat) (h : i < k) : (fillLoop k (stateAfter j))[i]? = some (stateAfter (j + i + 1)) := by
  induction k generalizing j i with
  | zero => omega
  | succ k ih =>
    rw [fillLoop]
    cases i with
    | zero => rfl
    | succ i =>
      rw [List.getElem?_cons_succ]
      have := ih (j + 1) i (by omega)
      rw [stateAfter] at this
      rw [this]
      congr 2; omega

theorem fillLoop_length (k s : Nat) : (fillLoop k s).length = k := by
  induction k generalizing s with
  | zero => rfl
  | succ k ih => simp [fillLoop, ih]

/-- **C52 (benchmark data).** `eml_benchmark_fill` writes `features` values, the `i`-th being `48271^(i+1) mod (2^31 - 1)`. -/
theorem C52_fill (features : Nat) : (fill features).length = features ∧
    ∀ i < features, (fill features)[i]? = some (48271 ^ (i + 1) % (2 ^ 31 - 1)) := by
  refine ⟨fillLoop_length _ _, fun i hi => ?_⟩
  have := fillLoop_get features 0 i hi
  rw [show stateAfter 0 = 1 from rfl] at this
  rw [fill, this, (stateAfter_eq _).1, Nat.zero_add]

/-! ### Full period -/

/-- Square-and-multiply with a bound on the number of bits, used to evaluate powers inside the kernel. -/
def powMod (m : Nat) : Nat → Nat → Nat → Nat
  | 0, _, _ => 1 % m
  | f + 1, b, e => if e = 0 then 1 % m else (if e % 2 = 1 then b else 1) * powMod m f (b * b % m) (e / 2) % m

theorem powMod_eq (m f b e : Nat) (he : e < 2 ^ f) : powMod m f b e = b ^ e % m := by
  induction f generalizing b e with
  | zero => have : e = 0 := by simpa using he
            subst this; simp [powMod]
  | succ f ih =>
    rw [powMod]
    by_cases h0 : e = 0
    · subst h0; simp
    · rw [if_neg h0, ih _ _ (by rw [Nat.pow_succ] at he; omega)]
      have hp : (b * b % m) ^ (e / 2) % m = (b * b) ^ (e / 2) % m := (Nat.pow_mod _ _ _).symm
      have : (if e % 2 = 1 then b else 1) = b ^ (e % 2) := by
        rcases Nat.mod_two_eq_zero_or_one e with h | h <;> simp [h]
      rw [this, hp, ← Nat.pow_two, ← Nat.pow_mul, Nat.mul_mod_mod, ← Nat.pow_add]
      congr 2; omega

theorem zmod_pow (e r : Nat) (he : e < 2 ^ 31) (hr : powMod 2147483647 31 48271 e = r) : ((48271 : ZMod 2147483647)) ^ e = (r : ZMod 2147483647) := by
  rw [powMod_eq _ _ _ _ he] at hr
  rw [← hr, ZMod.natCast_mod]
  push_cast
  rfl

theorem prime_factors (q : Nat) (hq : q.Prime) (hd : q ∣ 2147483646) : q = 2 ∨ q = 3 ∨ q = 7 ∨ q = 11 ∨ q = 31 ∨ q = 151 ∨ q = 331 := by
  have e : 2147483646 = 2 * 3 ^ 2 * 7 * 11 * 31 * 151 * 331 := by norm_num
  rw [e] at hd
  simp only [hq.dvd_mul] at hd
  have hpr : ∀ p : Nat, p.Prime → q ∣ p → q = p := fun p hp h => (Nat.prime_dvd_prime_iff_eq hq hp).mp h
  rcases hd with (((((h | h) | h) | h) | h) | h) | h
  · exact Or.inl (hpr 2 (by norm_num) h)
  · exact Or.inr (Or.inl (hpr 3 (by norm_num) (hq.dvd_of_dvd_pow h)))
  · exact Or.inr (Or.inr (Or.inl (hpr 7 (by norm_num) h)))
  · exact Or.inr (Or.inr (Or.inr (Or.inl (hpr 11 (by norm_num) h))))
  · exact Or.inr (Or.inr (Or.inr (Or.inr (Or.inl (hpr 31 (by norm_num) h)))))
  · exact Or.inr (Or.inr (Or.inr (Or.inr (Or.inr (Or.inl (hpr 151 (by norm_num) h))))))
  · exact Or.inr (Or.inr (Or.inr (Or.inr (Or.inr (Or.inr (hpr 331 (by norm_num) h))))))

theorem ne_one_of (r : Nat) (h1 : 1 < r) (h2 : r < 2147483647) : (r : ZMod 2147483647) ≠ 1 := by
  intro h
  have h' : ((r : Nat) : ZMod 2147483647) = ((1 : Nat) : ZMod 2147483647) := by simpa using h
  rw [ZMod.natCast_eq_natCast_iff'] at h'
  omega

theorem order_48271 : orderOf (48271 : ZMod 2147483647) = 2147483646 := by
  apply orderOf_eq_of_pow_and_pow_div_prime (by norm_num)
  · have := zmod_pow 2147483646 1 (by norm_num) (by decide +kernel)
    simpa using this
  · intro q hq hd
    rcases prime_factors q hq hd with rfl | rfl | rfl | rfl | rfl | rfl | rfl
    all_goals
      rw [zmod_pow _ _ (by norm_num) rfl]
      exact ne_one_of _ (by decide +kernel) (by decide +kernel)

/-- **C52 (full period).** The sequence does not repeat before `2^31 - 2` steps: all states in between are different, and then it starts over. -/
theorem C52_full_period : (∀ i j, i < j → j < 2 ^ 31 - 2 → stateAfter i ≠ stateAfter j) ∧ stateAfter (2 ^ 31 - 2) = 1 := by
  have cast : ∀ k, ((stateAfter k : Nat) : ZMod 2147483647) = (48271 : ZMod 2147483647) ^ k := by
    intro k
    rw [(stateAfter_eq k).1, show (2 ^ 31 - 1 : Nat) = 2147483647 by norm_num, ZMod.natCast_mod]
    push_cast; rfl
  constructor
  · intro i j hij hj he
    have h := cast i
    rw [he, cast j] at h
    have := pow_injOn_Iio_orderOf (x := (48271 : ZMod 2147483647)) (by rw [order_48271]; simp; omega) (by rw [order_48271]; simp; omega) h
    omega
  · have := (stateAfter_eq (2 ^ 31 - 2)).1
    rw [this, show (2 ^ 31 - 2 : Nat) = 2147483646 by norm_num, show (2 ^ 31 - 1 : Nat) = 2147483647 by norm_num, ← powMod_eq _ 31 _ _ (by norm_num)]
    decide +kernel

/-- The state 0 is outside the range: the generator moves to `2^31 - 1` and stays there forever. -/
theorem C52_zero_state : parkmiller 0 = 2 ^ 31 - 1 ∧ parkmiller (2 ^ 31 - 1) = 2 ^ 31 - 1 := by decide +kernel

example : fill 4 = [48271, 182605794, 1291394886, 1914720637] := by decide +kernel

end Emlearn.Benchmark
