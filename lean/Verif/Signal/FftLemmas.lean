/- Lemmas for the FFT. -/
import Verif.Signal.Fft
import Mathlib.Algebra.BigOperators.Group.Finset.Basic
import Mathlib.Algebra.BigOperators.Intervals
import Mathlib.Tactic.Ring
import Mathlib.Tactic.Linarith
import Mathlib.Tactic.FieldSimp
namespace Emlearn.Fft

theorem forLoop_inv {σ : Type} (P : Nat → σ → Prop) (body : Nat → σ → Option σ) (k i : Nat) (s : σ) (h0 : P i s)
    (hstep : ∀ j s, i ≤ j → j < i + k → P j s → ∃ s', body j s = some s' ∧ P (j + 1) s') :
    ∃ s', forLoop body k i s = some s' ∧ P (i + k) s' := by
  induction k generalizing i s with
  | zero => exact ⟨s, rfl, h0⟩
  | succ k ih =>
    obtain ⟨s1, h1, hp⟩ := hstep i s (le_refl _) (by omega) h0
    obtain ⟨s', h2, hp'⟩ := ih (i+1) s1 hp (fun j s hj hj' hP => hstep j s (by omega) (by omega) hP)
    exact ⟨s', by simp [forLoop, h1, h2], by rwa [show i + (k+1) = i + 1 + k by omega]⟩

theorem revLoop_acc (k x r : Nat) : revLoop k x r = r * 2 ^ k + revLoop k x 0 := by
  induction k generalizing x r with
  | zero => simp [revLoop]
  | succ k ih =>
    rw [revLoop, revLoop, ih, ih (x/2) (0 * 2 + x % 2), Nat.pow_succ]; ring

theorem rev_succ (k x : Nat) : reverseBits x (k + 1) = x % 2 * 2 ^ k + reverseBits (x / 2) k := by
  rw [reverseBits, revLoop, revLoop_acc]; simp [reverseBits]

theorem rev_lt (k x : Nat) : reverseBits x k < 2 ^ k := by
  induction k generalizing x with
  | zero => simp [reverseBits, revLoop]
  | succ k ih =>
    rw [rev_succ, Nat.pow_succ]
    have h1 := ih (x/2)
    have h2 : x % 2 * 2 ^ k ≤ 1 * 2 ^ k := Nat.mul_le_mul_right _ (by omega)
    omega

theorem rev_snoc (n e r : Nat) (he : e < 2) (hr : r < 2 ^ n) : reverseBits (e * 2 ^ n + r) (n + 1) = 2 * reverseBits r n + e := by
  induction n generalizing r with
  | zero =>
    have : r = 0 := by simpa using hr
    subst this
    simp [reverseBits, revLoop]; omega
  | succ n ih =>
    have hm : (e * 2 ^ (n + 1) + r) % 2 = r % 2 := by rw [Nat.pow_succ, ← Nat.mul_assoc]; omega
    have hd : (e * 2 ^ (n + 1) + r) / 2 = e * 2 ^ n + r / 2 := by rw [Nat.pow_succ, ← Nat.mul_assoc]; omega
    rw [rev_succ, hm, hd, ih (r / 2) (by rw [Nat.pow_succ] at hr; omega), rev_succ n r, Nat.pow_succ]; ring

theorem rev_rev (n x : Nat) (hx : x < 2 ^ n) : reverseBits (reverseBits x n) n = x := by
  induction n generalizing x with
  | zero => simp at hx; subst hx; rfl
  | succ n ih =>
    rw [rev_succ n x, rev_snoc n _ _ (by omega) (rev_lt n _), ih (x/2) (by rw [Nat.pow_succ] at hx; omega)]
    omega

theorem levelsOf_pow (L : Nat) : levelsOf (2 ^ L) = L := by
  induction L with
  | zero => rw [levelsOf]; simp
  | succ L ih =>
    rw [levelsOf, dif_pos (Nat.one_lt_two_pow (by omega)), Nat.pow_succ, Nat.mul_div_cancel _ (by omega), ih]

theorem pow_levelsOf_le (n : Nat) (hn : 1 ≤ n) : 2 ^ levelsOf n ≤ n := by
  induction n using Nat.strong_induction_on with
  | _ n ih =>
    rw [levelsOf]
    split
    · have := ih (n/2) (by omega) (by omega)
      rw [Nat.pow_succ]; omega
    · simpa using hn

/-- The pair of values at an index. -/
def pt {α : Type} (b : Buf α) (i : Nat) : α × α := (b.re i, b.im i)

theorem swapLoop {α : Type} (L : Nat) (b : Buf α) (hb : 2 ^ L ≤ b.len) :
    ∃ b', forLoop (swapStep L) (2 ^ L) 0 b = some b' ∧ b'.len = b.len ∧ ∀ i < 2 ^ L, pt b' i = pt b (reverseBits i L) := by
  obtain ⟨b', h, hlen, hz⟩ := forLoop_inv (fun m c => c.len = b.len ∧ ∀ i < 2 ^ L, pt c i = if i < m ∨ reverseBits i L < m then pt b (reverseBits i L) else pt b i)
    (swapStep L) (2 ^ L) 0 b ⟨rfl, fun i _ => by simp⟩ (by
      intro m c _ hm ⟨hlen, hz⟩
      rw [Nat.zero_add] at hm
      have hrm := rev_lt L m
      have hrr := rev_rev L m hm
      unfold swapStep
      simp only
      by_cases hj : reverseBits m L > m
      · rw [if_pos hj, if_pos ⟨by omega, by omega⟩]
        refine ⟨_, rfl, hlen, fun i hi => ?_⟩
        have zm : pt c m = pt b m := by rw [hz m hm, if_neg]; omega
        have zj : pt c (reverseBits m L) = pt b (reverseBits m L) := by rw [hz _ hrm, if_neg]; rw [hrr]; omega
        by_cases h1 : i = reverseBits m L
        · subst h1
          rw [hrr, if_pos (Or.inr (by omega)), ← zm]
          simp [pt, put]
        · by_cases h2 : i = m
          · subst h2
            rw [if_pos (Or.inl (by omega)), ← zj]
            simp [pt, put, h1]
          · have h3 : reverseBits i L ≠ m := by
              intro h; rw [← h, rev_rev L i hi] at h1; exact h1 rfl
            have : pt { c with re := put (put c.re m (c.re (reverseBits m L))) (reverseBits m L) (c.re m), im := put (put c.im m (c.im (reverseBits m L))) (reverseBits m L) (c.im m) } i = pt c i := by
              simp [pt, put, h1, h2]
            rw [this, hz i hi]
            congr 1
            simp only [eq_iff_iff]; omega
      · rw [if_neg hj]
        refine ⟨c, rfl, hlen, fun i hi => ?_⟩
        rw [hz i hi]
        by_cases h1 : i < m ∨ reverseBits i L < m
        · rw [if_pos h1, if_pos (by omega)]
        · rw [if_neg h1]
          by_cases h2 : i < m + 1 ∨ reverseBits i L < m + 1
          · rw [if_pos h2]
            have : i = m ∨ reverseBits i L = m := by omega
            rcases this with h | h
            · subst h
              have : reverseBits i L = i := by omega
              rw [this]
            · have h5 := rev_rev L i hi
              rw [h] at h5
              have : i = m := by omega
              subst this
              rw [h]
          · rw [if_neg h2])
  refine ⟨b', h, hlen, fun i hi => ?_⟩
  rw [hz i hi, if_pos (Or.inl (by omega))]

section
variable {α : Type} [Add α] [Sub α] [Mul α] [Neg α]

/-- The rotated value: `tpre`, `tpim`. -/
def rot (t : Table α) (k : Nat) (q : α × α) : α × α := (q.1 * t.cos k + q.2 * t.sin k, -q.1 * t.sin k + q.2 * t.cos k)

/-- One level of butterflies as a function, in any arithmetic. -/
def bfG (t : Table α) (q h : Nat) (a : Nat → α × α) (i : Nat) : α × α :=
  if i % (2 * h) < h then ((a i).1 + (rot t (i % (2 * h) * q) (a (i + h))).1, (a i).2 + (rot t (i % (2 * h) * q) (a (i + h))).2)
  else ((a (i - h)).1 - (rot t ((i % (2 * h) - h) * q) (a i)).1, (a (i - h)).2 - (rot t ((i % (2 * h) - h) * q) (a i)).2)

theorem butterfly_eq (t : Table α) (h k j : Nat) (b : Buf α) (hh : 1 ≤ h) (hl : j + h < b.len) (hk : k < t.length) :
    ∃ b', butterfly t h k j b = some b' ∧ b'.len = b.len ∧
      ∀ i, pt b' i = if i = j then ((pt b j).1 + (rot t k (pt b (j + h))).1, (pt b j).2 + (rot t k (pt b (j + h))).2)
        else if i = j + h then ((pt b j).1 - (rot t k (pt b (j + h))).1, (pt b j).2 - (rot t k (pt b (j + h))).2) else pt b i := by
  unfold butterfly
  simp only
  rw [if_pos ⟨hl, by omega, hk⟩]
  refine ⟨_, rfl, rfl, fun i => ?_⟩
  by_cases h1 : i = j
  · subst h1
    rw [if_pos rfl]
    have : ¬ h = 0 := by omega
    simp [pt, rot, put, this]
  · rw [if_neg h1]
    by_cases h2 : i = j + h
    · rw [if_pos h2]
      subst h2
      have : ¬ h = 0 := by omega
      simp [pt, rot, put, this]
    · rw [if_neg h2]
      simp [pt, put, h1, h2]

theorem stage_gen (t : Table α) (n h q : Nat) (hh : 1 ≤ h) (hn : n = 2 * h * q) (ht : t.length = n / 2) (b : Buf α) (hb : n ≤ b.len) :
    ∃ b', stage t n (2 * h) b = some b' ∧ b'.len = b.len ∧ ∀ i < n, pt b' i = bfG t q h (pt b) i := by
  have hq : n / (2 * h) = q := by rw [hn]; exact Nat.mul_div_cancel_left _ (by omega)
  have hcnt : (n + 2 * h - 1) / (2 * h) = q := by
    rw [hn, show 2 * h * q + 2 * h - 1 = (2 * h - 1) + 2 * h * q by omega, Nat.add_mul_div_left _ _ (by omega), Nat.div_eq_of_lt (by omega)]; omega
  have hhalf : 2 * h / 2 = h := by omega
  have hsplit : ∀ i, i = 2 * h * (i / (2 * h)) + i % (2 * h) := fun i => (Nat.div_add_mod i (2*h)).symm
  have hmod : ∀ i, i % (2 * h) < 2 * h := fun i => Nat.mod_lt _ (by omega)
  unfold stage
  rw [hcnt, hhalf, hq]
  obtain ⟨b', h1, h2, h3⟩ := forLoop_inv
    (fun blk c => c.len = b.len ∧ ∀ i, pt c i = if i / (2 * h) < blk then bfG t q h (pt b) i else pt b i)
    (fun blk => forLoop (fun d => butterfly t h (d * q) (blk * (2 * h) + d)) h 0) q 0 b ⟨rfl, fun i => by simp⟩ (by
      intro blk c _ hblk ⟨hlen, hz⟩
      rw [Nat.zero_add] at hblk
      obtain ⟨c', hc', hlen', hz'⟩ := forLoop_inv
        (fun d s => s.len = b.len ∧ ∀ i, pt s i = if i / (2 * h) < blk ∨ (i / (2 * h) = blk ∧ (i % (2 * h) < d ∨ (h ≤ i % (2 * h) ∧ i % (2 * h) < h + d))) then bfG t q h (pt b) i else pt b i)
        (fun d => butterfly t h (d * q) (blk * (2 * h) + d)) h 0 c ⟨hlen, fun i => by
          rw [hz i]
          have := hmod i
          congr 1
          simp only [eq_iff_iff]; omega⟩ (by
          intro d s _ hd ⟨hls, hzs⟩
          rw [Nat.zero_add] at hd
          set j := blk * (2 * h) + d with hjdef
          have hjm : j % (2 * h) = d := by rw [hjdef, Nat.mul_add_mod_self_right, Nat.mod_eq_of_lt (by omega)]
          have hjd : j / (2 * h) = blk := by rw [hjdef, Nat.mul_comm, Nat.mul_add_div (by omega), Nat.div_eq_of_lt (by omega)]; rfl
          have hlm : (j + h) % (2 * h) = d + h := by rw [hjdef, Nat.add_assoc, Nat.mul_add_mod_self_right, Nat.mod_eq_of_lt (by omega)]
          have hld : (j + h) / (2 * h) = blk := by rw [hjdef, Nat.add_assoc, Nat.mul_comm, Nat.mul_add_div (by omega), Nat.div_eq_of_lt (by omega)]; rfl
          have hjn : j + h < n := by
            rw [hn, hjdef]
            have : (blk + 1) * (2 * h) ≤ q * (2 * h) := Nat.mul_le_mul_right _ (by omega)
            rw [Nat.add_mul, Nat.mul_comm q] at this
            omega
          have hn2 : n / 2 = h * q := by rw [hn, Nat.mul_assoc]; exact Nat.mul_div_cancel_left _ (by omega)
          have hkt : d * q < n / 2 := by
            rw [hn2]
            exact Nat.mul_lt_mul_of_pos_right hd (by omega)
          obtain ⟨s', hs', hl', hz''⟩ := butterfly_eq t h (d * q) j s hh (by omega) (by rw [ht]; exact hkt)
          refine ⟨s', hs', by rw [hl', hls], fun i => ?_⟩
          have zj : pt s j = pt b j := by rw [hzs, if_neg]; rw [hjm, hjd]; omega
          have zl : pt s (j + h) = pt b (j + h) := by rw [hzs, if_neg]; rw [hlm, hld]; omega
          rw [hz'' i, zj, zl]
          by_cases hij : i = j
          · subst hij
            rw [if_pos rfl, if_pos (Or.inr ⟨hjd, by omega⟩), bfG, hjm, if_pos hd]
          · rw [if_neg hij]
            by_cases hil : i = j + h
            · subst hil
              rw [if_pos rfl, if_pos (Or.inr ⟨hld, by omega⟩), bfG, hlm, if_neg (by omega), Nat.add_sub_cancel, Nat.add_sub_cancel]
            · rw [if_neg hil, hzs i]
              congr 1
              simp only [eq_iff_iff]
              have hi := hsplit i
              constructor
              · rintro (h | ⟨h1, h2⟩)
                · exact Or.inl h
                · exact Or.inr ⟨h1, by omega⟩
              · rintro (h | ⟨h1, h2⟩)
                · exact Or.inl h
                · refine Or.inr ⟨h1, ?_⟩
                  rw [h1, Nat.mul_comm] at hi
                  omega)
      refine ⟨c', hc', hlen', fun i => ?_⟩
      rw [hz' i]
      have := hmod i
      congr 1
      simp only [eq_iff_iff]; omega)
  refine ⟨b', h1, h2, fun i hi => ?_⟩
  rw [h3 i, if_pos]
  rw [Nat.zero_add, ← hq]
  exact Nat.div_lt_of_lt_mul (by rw [hq]; omega)

/-- All levels: an invariant of the values at the first `2^L` indices, true after `m` levels, becomes true after `L`. -/
theorem stages_inv (t : Table α) (L : Nat) (ht : t.length = 2 ^ L / 2) (Q : Nat → (Nat → α × α) → Prop)
    (hcongr : ∀ m a a', Q m a → (∀ i < 2 ^ L, a' i = a i) → Q m a')
    (hstep : ∀ m r a, m + 1 + r = L → Q m a → Q (m + 1) (bfG t (2 ^ r) (2 ^ m) a)) (fuel m r : Nat) (hL : m + 1 + r = L) (hf : r + 1 ≤ fuel) (b : Buf α) (hb : 2 ^ L ≤ b.len) (hz : Q m (pt b)) :
    ∃ b', stages t (2 ^ L) fuel (2 ^ (m + 1)) b = some b' ∧ b'.len = b.len ∧ Q L (pt b') := by
  induction r generalizing fuel m b with
  | zero =>
    obtain ⟨fuel, rfl⟩ : ∃ f, fuel = f + 1 := ⟨fuel - 1, by omega⟩
    have hL' : L = m + 1 := by omega
    subst hL'
    obtain ⟨b', h1, h2, h3⟩ := stage_gen t (2 ^ (m+1)) (2 ^ m) (2 ^ 0) (Nat.two_pow_pos m) (by rw [Nat.pow_succ]; ring) ht b hb
    rw [show 2 * 2 ^ m = 2 ^ (m+1) by rw [Nat.pow_succ]; ring] at h1
    refine ⟨b', ?_, h2, hcongr _ _ _ (hstep m 0 _ rfl hz) h3⟩
    rw [stages, if_pos (le_refl _), h1]; simp
  | succ r ih =>
    obtain ⟨fuel, rfl⟩ : ∃ f, fuel = f + 1 := ⟨fuel - 1, by omega⟩
    have hdec : 2 ^ L = 2 * 2 ^ m * 2 ^ (r + 1) := by rw [← hL, show m + 1 + (r + 1) = (m + 1) + (r + 1) by omega, Nat.pow_add, Nat.pow_succ 2 m]; ring
    obtain ⟨b', h1, h2, h3⟩ := stage_gen t (2 ^ L) (2 ^ m) (2 ^ (r+1)) (Nat.two_pow_pos m) hdec ht b hb
    rw [show 2 * 2 ^ m = 2 ^ (m+1) by rw [Nat.pow_succ]; ring] at h1
    have hlt : 2 ^ (m + 1) < 2 ^ L := Nat.pow_lt_pow_right (by omega) (by omega)
    obtain ⟨b'', h4, h5, h6⟩ := ih fuel (m+1) (by omega) (by omega) b' (by omega) (hcongr _ _ _ (hstep m (r + 1) _ hL hz) h3)
    refine ⟨b'', ?_, by omega, h6⟩
    rw [stages, if_pos (le_of_lt hlt), h1, Option.bind_some, if_neg (by omega), ← Nat.pow_succ]
    exact h4

/-- The whole transform. -/
theorem forward_inv (t : Table α) (L : Nat) (hL : L < 32) (ht : t.length = 2 ^ L / 2) (b : Buf α) (hb : b.len = 2 ^ L) (Q : Nat → (Nat → α × α) → Prop)
    (hcongr : ∀ m a a', Q m a → (∀ i < 2 ^ L, a' i = a i) → Q m a')
    (hstep : ∀ m r a, m + 1 + r = L → Q m a → Q (m + 1) (bfG t (2 ^ r) (2 ^ m) a))
    (h0 : Q 0 fun i => pt b (reverseBits i L)) :
    ∃ b', forward t b (2 ^ L) = some (.ok, b') ∧ b'.len = 2 ^ L ∧ Q L (pt b') := by
  obtain ⟨b1, h1, hl1, hz1⟩ := swapLoop L b (by omega)
  have hQ : Q 0 (pt b1) := hcongr _ _ _ h0 hz1
  have hmain : ∃ b', stages t (2 ^ L) (2 ^ L) 2 b1 = some b' ∧ b'.len = b1.len ∧ Q L (pt b') := by
    match L, ht, hcongr, hstep, hQ with
    | 0, _, _, _, hQ => exact ⟨b1, by simp [stages], rfl, hQ⟩
    | L + 1, ht, hcongr, hstep, hQ =>
      exact stages_inv t (L + 1) ht Q hcongr hstep (2 ^ (L + 1)) 0 L (by omega) (Nat.lt_two_pow_self).le b1 (by omega) hQ
  obtain ⟨b', h2, hl2, hz2⟩ := hmain
  refine ⟨b', ?_, by omega, hz2⟩
  unfold forward
  simp only [levelsOf_pow]
  rw [if_pos hL, if_pos trivial, if_pos ht, h1, Option.bind_some, h2]
  rfl

end

/-- `e^{-2πi r}` -/
noncomputable def e (r : ℂ) : ℂ := Complex.exp (-(2 * Real.pi * Complex.I * r))

theorem e_add (a b : ℂ) : e (a + b) = e a * e b := by
  unfold e; rw [← Complex.exp_add]; congr 1; ring

theorem e_nat (n : Nat) : e n = 1 := by
  unfold e
  rw [Complex.exp_neg, show 2 * (Real.pi : ℂ) * Complex.I * n = n * (2 * Real.pi * Complex.I) by ring, Complex.exp_nat_mul_two_pi_mul_I, inv_one]

theorem e_half : e (1/2) = -1 := by
  unfold e
  rw [Complex.exp_neg, show 2 * (Real.pi : ℂ) * Complex.I * (1/2) = Real.pi * Complex.I by ring, Complex.exp_pi_mul_I]
  norm_num

theorem e_real (θ : ℝ) : e (θ : ℂ) = ⟨Real.cos (2 * Real.pi * θ), -Real.sin (2 * Real.pi * θ)⟩ := by
  unfold e
  rw [show -(2 * (Real.pi : ℂ) * Complex.I * θ) = ((-(2 * Real.pi * θ) : ℝ) : ℂ) * Complex.I by push_cast; ring, Complex.exp_mul_I,
    ← Complex.ofReal_cos, ← Complex.ofReal_sin, Real.cos_neg, Real.sin_neg]
  apply Complex.ext
  · rw [Complex.add_re, Complex.ofReal_re, Complex.re_ofReal_mul, Complex.I_re]; ring
  · rw [Complex.add_im, Complex.ofReal_im, Complex.im_ofReal_mul, Complex.I_im]; ring

/-- The table holds the roots of unity of order `n`. -/
def Filled (t : Table ℝ) (n : Nat) : Prop :=
  t.length = n / 2 ∧ ∀ i < n / 2, t.cos i = Real.cos (2 * Real.pi * i / n) ∧ t.sin i = Real.sin (2 * Real.pi * i / n)

/-- One level of butterflies as a function. -/
noncomputable def bf (h : Nat) (a : Nat → ℂ) (i : Nat) : ℂ :=
  if i % (2 * h) < h then a i + e ((i % (2 * h) : Nat) / (2 * h : Nat)) * a (i + h)
  else a (i - h) - e ((i % (2 * h) - h : Nat) / (2 * h : Nat)) * a i

theorem sum_even_odd {M : Type} [CommRing M] (f : Nat → M) (s : Nat) : ∑ t ∈ Finset.range (2 * s), f t = ∑ t ∈ Finset.range s, f (2 * t) + ∑ t ∈ Finset.range s, f (2 * t + 1) := by
  induction s with
  | zero => simp
  | succ s ih =>
    rw [show 2 * (s + 1) = 2 * s + 1 + 1 by omega, Finset.sum_range_succ, Finset.sum_range_succ, ih, Finset.sum_range_succ, Finset.sum_range_succ]
    ring

/-- Transform of the sub-sequence that block `i / 2^m` holds after `m` levels, out of `m + r` levels. -/
noncomputable def G (x : Nat → ℂ) (m r i : Nat) : ℂ :=
  ∑ t ∈ Finset.range (2 ^ m), x (reverseBits (i / 2 ^ m) r + 2 ^ r * t) * e (((i % 2 ^ m : Nat) * t : ℂ) / (2 ^ m : Nat))

theorem G_step (x : Nat → ℂ) (m r i : Nat) : bf (2 ^ m) (G x m (r + 1)) i = G x (m + 1) r i := by
  have hs : 0 < 2 ^ m := Nat.two_pow_pos m
  have hsC : ((2 ^ m : Nat) : ℂ) ≠ 0 := by exact_mod_cast hs.ne'
  set s := 2 ^ m with hsdef
  have hpow : 2 ^ (m + 1) = 2 * s := by rw [Nat.pow_succ]; omega
  set b := i / (2 * s) with hb
  set o := i % (2 * s) with ho
  have hi : i = 2 * s * b + o := (Nat.div_add_mod i (2*s)).symm
  have hol : o < 2 * s := Nat.mod_lt _ (by omega)
  have key : ∀ (j c p : Nat), j = s * c + p → p < s → G x m (r+1) j = ∑ t ∈ Finset.range s, x (reverseBits c (r+1) + 2 ^ (r+1) * t) * e ((p * t : ℂ) / (s : Nat)) := by
    intro j c p hj hp
    unfold G
    have h1 : j / 2 ^ m = c := by rw [← hsdef, hj, Nat.mul_add_div hs, Nat.div_eq_of_lt hp]; rfl
    have h2 : j % 2 ^ m = p := by rw [← hsdef, hj, Nat.mul_add_mod, Nat.mod_eq_of_lt hp]
    rw [h1, h2]
  have r0 : reverseBits (2 * b) (r + 1) = reverseBits b r := by rw [rev_succ]; simp
  have r1 : reverseBits (2 * b + 1) (r + 1) = 2 ^ r + reverseBits b r := by
    rw [rev_succ, show (2 * b + 1) / 2 = b by omega, show (2 * b + 1) % 2 = 1 by omega]; ring
  have goalR : G x (m + 1) r i = ∑ t ∈ Finset.range s, x (reverseBits b r + 2 ^ r * (2 * t)) * e ((o * (2 * t : Nat) : ℂ) / (2 * s : Nat))
      + ∑ t ∈ Finset.range s, x (reverseBits b r + 2 ^ r * (2 * t + 1)) * e ((o * (2 * t + 1 : Nat) : ℂ) / (2 * s : Nat)) := by
    unfold G
    rw [hpow, sum_even_odd]
  rw [goalR, bf]
  by_cases hlt : o < s
  · rw [if_pos hlt, key i (2 * b) o (by rw [hi]; ring) hlt, key (i + s) (2 * b + 1) o (by rw [hi]; ring) hlt, r0, r1, Finset.mul_sum]
    congr 1
    · apply Finset.sum_congr rfl
      intro t _
      congr 2
      · rw [Nat.pow_succ]; ring
      · push_cast; field_simp
    · apply Finset.sum_congr rfl
      intro t _
      rw [mul_left_comm, ← e_add]
      congr 2
      · rw [Nat.pow_succ]; ring
      · push_cast; field_simp; ring
  · have hge : s ≤ o := by omega
    obtain ⟨p, hp⟩ : ∃ p, o = s + p := ⟨o - s, by omega⟩
    have hps : p < s := by omega
    have hsub : o - s = p := by omega
    rw [if_neg hlt, key (i - s) (2 * b) p (by rw [hi, hp, show 2 * s * b + (s + p) - s = 2 * s * b + p by omega]; ring) hps,
      key i (2 * b + 1) p (by rw [hi, hp]; ring) hps, r0, r1, hsub, sub_eq_add_neg, Finset.mul_sum, ← Finset.sum_neg_distrib]
    congr 1
    · apply Finset.sum_congr rfl
      intro t _
      congr 1
      · congr 1
        rw [Nat.pow_succ]; ring
      · rw [hp, show (((s + p : Nat) : ℂ) * (2 * t : Nat) : ℂ) / (2 * s : Nat) = (t : Nat) + (p * t : ℂ) / (s : Nat) by push_cast; field_simp, e_add, e_nat, one_mul]
    · apply Finset.sum_congr rfl
      intro t _
      rw [hp, show (((s + p : Nat) : ℂ) * (2 * t + 1 : Nat) : ℂ) / (2 * s : Nat) = ((t : Nat) + (p * t : ℂ) / (s : Nat)) + (1/2 + (p : ℂ) / (2 * s : Nat)) by push_cast; field_simp,
        e_add, e_add, e_nat, e_add, e_half, one_mul]
      rw [show reverseBits b r + 2 ^ r * (2 * t + 1) = 2 ^ r + reverseBits b r + 2 ^ (r+1) * t by rw [Nat.pow_succ]; ring]
      ring

/-- The complex value of a pair of real numbers. -/
def cx (p : ℝ × ℝ) : ℂ := ⟨p.1, p.2⟩

/-- The rotation factor of a level is in the table. -/
theorem filled_twiddle {t : Table ℝ} {L m r : Nat} (hL : m + 1 + r = L) (ht : Filled t (2 ^ L)) (d : Nat) (hd : d < 2 ^ m) :
    e ((d : Nat) / (2 * 2 ^ m : Nat)) = ⟨t.cos (d * 2 ^ r), -t.sin (d * 2 ^ r)⟩ ∧ d * 2 ^ r < 2 ^ L / 2 := by
  have hdec : 2 ^ L = 2 * 2 ^ m * 2 ^ r := by rw [← hL, Nat.pow_add, Nat.pow_succ 2 m]; ring
  have hhalf : 2 ^ L / 2 = 2 ^ m * 2 ^ r := by rw [hdec, Nat.mul_assoc]; exact Nat.mul_div_cancel_left _ (by omega)
  have hk : d * 2 ^ r < 2 ^ L / 2 := by rw [hhalf]; exact Nat.mul_lt_mul_of_pos_right hd (Nat.two_pow_pos r)
  refine ⟨?_, hk⟩
  have hcs := ht.2 _ hk
  have : ((d : Nat) : ℂ) / ((2 * 2 ^ m : Nat) : ℂ) = (((d : ℝ) / ((2 * 2 ^ m : Nat) : ℝ) : ℝ) : ℂ) := by push_cast; rfl
  rw [this, e_real, hcs.1, hcs.2, hdec]
  have : 2 * Real.pi * ((d : ℝ) / ((2 * 2 ^ m : Nat) : ℝ)) = 2 * Real.pi * ((d * 2 ^ r : Nat) : ℝ) / ((2 * 2 ^ m * 2 ^ r : Nat) : ℝ) := by
    push_cast; field_simp
  rw [this]

/-- In exact arithmetic a level of butterflies is the exact one. -/
theorem bfG_real {t : Table ℝ} {L m r : Nat} (hL : m + 1 + r = L) (ht : Filled t (2 ^ L)) (a : Nat → ℝ × ℝ) (i : Nat) : cx (bfG t (2 ^ r) (2 ^ m) a i) = bf (2 ^ m) (fun j => cx (a j)) i := by
  have hmod : i % (2 * 2 ^ m) < 2 * 2 ^ m := Nat.mod_lt _ (by positivity)
  unfold bfG bf
  split
  · rename_i h
    rw [(filled_twiddle hL ht _ h).1]
    apply Complex.ext
    · simp [cx, rot, mul_comm]
    · simp [cx, rot]; ring
  · rename_i h
    rw [(filled_twiddle hL ht (i % (2 * 2 ^ m) - 2 ^ m) (by omega)).1]
    apply Complex.ext
    · simp [cx, rot, mul_comm]
    · simp [cx, rot]; ring

/-- A level depends on the values at the first `2^L` indices only. -/
theorem bf_index {L m r i : Nat} (hL : m + 1 + r = L) (hi : i < 2 ^ L) : (i % (2 * 2 ^ m) < 2 ^ m → i + 2 ^ m < 2 ^ L) ∧ (¬ i % (2 * 2 ^ m) < 2 ^ m → i - 2 ^ m < 2 ^ L) := by
  have hdec : 2 ^ L = 2 * 2 ^ m * 2 ^ r := by rw [← hL, Nat.pow_add, Nat.pow_succ 2 m]; ring
  have hsp := Nat.div_add_mod i (2 * 2 ^ m)
  have hdv : i / (2 * 2 ^ m) < 2 ^ r := Nat.div_lt_of_lt_mul (by rw [← hdec]; exact hi)
  have hle : 2 * 2 ^ m * (i / (2 * 2 ^ m) + 1) ≤ 2 * 2 ^ m * 2 ^ r := Nat.mul_le_mul_left _ hdv
  rw [← hdec, Nat.mul_add, Nat.mul_one] at hle
  exact ⟨fun h => by omega, fun _ => by omega⟩

theorem bf_congr {L m r : Nat} (hL : m + 1 + r = L) (a a' : Nat → ℂ) (h : ∀ i < 2 ^ L, a i = a' i) (i : Nat) (hi : i < 2 ^ L) : bf (2 ^ m) a i = bf (2 ^ m) a' i := by
  obtain ⟨h1, h2⟩ := bf_index hL hi
  unfold bf
  split
  · rename_i hlt
    rw [h i hi, h _ (h1 hlt)]
  · rename_i hlt
    rw [h i hi, h _ (h2 hlt)]

end Emlearn.Fft
