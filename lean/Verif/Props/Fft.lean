/- C48: the FFT (`emlearn/eml_fft.h`) computes the discrete Fourier transform. -/
import Verif.Signal.FftLemmas
namespace Emlearn.Fft

/-- Specification: the discrete Fourier transform `X[k] = Σ_{t<n} x[t] e^{-2πi k t / n}`. -/
noncomputable def dft (n : Nat) (x : Nat → ℂ) (k : Nat) : ℂ := ∑ t ∈ Finset.range n, x t * Complex.exp (-(2 * Real.pi * Complex.I * (k * t) / n))

theorem fill_filled (t : Table ℝ) (n : Nat) (h : t.length = n / 2) : (fill t n).1 = .ok ∧ Filled (fill t n).2 n := by
  unfold fill fillWith
  rw [if_pos h]
  refine ⟨rfl, h, fun i hi => ?_⟩
  simp [hi]

/-- **C48.** For every size `n = 2^L` (below 2^32), every table of the right length filled by `eml_fft_fill` and every input: `eml_fft_forward` succeeds, all array accesses are in bounds, and the arrays then hold the discrete Fourier transform of the input. -/
theorem C48_fft_is_dft (L : Nat) (hL : L < 32) (t0 : Table ℝ) (ht : t0.length = 2 ^ L / 2) (b : Buf ℝ) (hb : b.len = 2 ^ L) :
    (fill t0 (2 ^ L)).1 = .ok ∧
    ∃ b', forward (fill t0 (2 ^ L)).2 b (2 ^ L) = some (.ok, b') ∧ b'.len = 2 ^ L ∧
      ∀ k < 2 ^ L, (⟨b'.re k, b'.im k⟩ : ℂ) = dft (2 ^ L) (fun i => ⟨b.re i, b.im i⟩) k := by
  obtain ⟨hok, hfill⟩ := fill_filled t0 (2 ^ L) ht
  refine ⟨hok, ?_⟩
  obtain ⟨b', h1, h2, h3⟩ := forward_inv (fill t0 (2 ^ L)).2 L hL hfill.1 b hb (fun m a => ∀ r, m + r = L → ∀ i < 2 ^ L, cx (a i) = G (fun i => cx (pt b i)) m r i)
    (fun m a a' h he r hr i hi => by rw [he i hi]; exact h r hr i hi)
    (fun m r a hr h r' hr' i hi => by
      obtain rfl : r' = r := by omega
      rw [bfG_real hr hfill, ← G_step]
      exact bf_congr hr _ _ (fun j hj => h (r' + 1) (by omega) j hj) i hi)
    (fun r hr i hi => by
      obtain rfl : r = L := by omega
      simp [G, e, Nat.mod_one])
  refine ⟨b', h1, h2, fun k hk => ?_⟩
  refine (h3 0 rfl k hk).trans ?_
  unfold G dft
  apply Finset.sum_congr rfl
  intro s _
  rw [Nat.mod_eq_of_lt hk]
  congr 1
  · simp [reverseBits, revLoop, cx, pt]
  · unfold e; congr 1; push_cast; ring

/-- **C48 (rejection).** Lengths below 2^32 that are not a power of two (0 among them), and tables of another length, are refused and the data are left as they were. -/
theorem C48_rejects (t : Table ℝ) (b : Buf ℝ) (n : Nat) (hn : n < 2 ^ 32) (h : (∀ L, n ≠ 2 ^ L) ∨ t.length ≠ n / 2) :
    forward t b n = some (.sizeMismatch, b) := by
  have hlv : levelsOf n < 32 := by
    by_cases h0 : n = 0
    · subst h0; rw [levelsOf]; simp
    · have := pow_levelsOf_le n (by omega)
      exact (Nat.pow_lt_pow_iff_right (by omega)).1 (lt_of_le_of_lt this hn)
  unfold forward
  simp only
  rw [if_pos hlv]
  by_cases hp : 2 ^ levelsOf n = n
  · rw [if_pos hp]
    rcases h with h | h
    · exact absurd hp.symm (h _)
    · rw [if_neg h]
  · rw [if_neg hp]

/-- **C48.** The table filler refuses a table of another length and leaves it as it was. -/
theorem C48_fill_rejects (t : Table ℝ) (n : Nat) (h : t.length ≠ n / 2) : fill t n = (.sizeMismatch, t) := by
  unfold fill fillWith; rw [if_neg h]

/-- The hypotheses are met: size 8, a table of length 4, arbitrary data. -/
example (b : Buf ℝ) (hb : b.len = 8) (s c : Nat → ℝ) : ∃ b', forward (fill ⟨4, s, c⟩ 8).2 b 8 = some (.ok, b') :=
  let ⟨_, b', h, _⟩ := C48_fft_is_dft 3 (by omega) ⟨4, s, c⟩ (by norm_num) b (by simpa using hb)
  ⟨b', h⟩

example : (List.range 8).map (fun i => reverseBits i 3) = [0, 4, 2, 6, 1, 5, 3, 7] := by decide
example : forward (α := ℝ) ⟨1, fun _ => 0, fun _ => 0⟩ ⟨3, fun _ => 0, fun _ => 0⟩ 3 = some (.sizeMismatch, ⟨3, fun _ => 0, fun _ => 0⟩) :=
  C48_rejects _ _ 3 (by norm_num) (Or.inl (fun L h => by
    rcases L with _ | L
    · simp at h
    · rw [Nat.pow_succ] at h; omega))

end Emlearn.Fft
