/- C125: the mel spectrogram of `eml_audio.h` in `float` arithmetic. -/
import Verif.Signal.AudioError
import Verif.Props.FloatMotion
namespace Emlearn.Audio.Flt
open Emlearn.Flt Finset

variable {F : Type} {R : Format F} {P : Accuracy} {v : ℝ} [Zero F] [Add F] [Sub F] [Mul F] [Neg F] {ops : AOps F}

/-- The terms a filter adds. -/
theorem weight_sum (A : Mel) (m l c r N : Nat) (el : melBin A (m - 1) = l) (ec : melBin A m = c) (er : melBin A (m + 1) = r) (hlc : l ≤ c) (hcr : c ≤ r) (hr : r < N) (p : Nat → ℝ) :
    ∑ i ∈ range (c + 1 - l), weight A m (l + i) * p (l + i) + ∑ i ∈ range (r - c), weight A m (c + 1 + i) * p (c + 1 + i) = ∑ k ∈ range N, weight A m k * p k := by
  rw [show r - c = r + 1 - (c + 1) by omega, ← sum_Ico_eq_sum_range (fun k => weight A m k * p k) l (c + 1), ← sum_Ico_eq_sum_range (fun k => weight A m k * p k) (c + 1) (r + 1),
    sum_Ico_consecutive _ (by omega) (by omega)]
  apply sum_subset
  · intro k hk; rw [mem_Ico] at hk; rw [mem_range]; omega
  · intro k _ hk
    rw [mem_Ico] at hk
    rw [weight, if_neg (by rw [el, ec]; omega), if_neg (by rw [ec, er]; omega), zero_mul]

/-- What the machine's mel filters stand for: the edges and bin frequencies up to `dc` and `df`, at most `C` in magnitude, edges at least `g` apart, and the same bins. -/
structure MelClose (R : Format F) (ops : AOps F) (A : Mel) (B : FMel F) (C g dc df : ℝ) : Prop where
  nMels : B.nMels = A.nMels
  nFft : B.nFft = A.nFft
  center : ∀ m ≤ A.nMels + 1, Close R dc (center ops B m) (melCenter A m) ∧ |melCenter A m| ≤ C
  freq : ∀ k : Nat, k ≤ A.nFft / 2 → Close R df (freq ops B k) (fftFreq A k) ∧ |fftFreq A k| ≤ C
  bins : ∀ m ≤ A.nMels + 1, bin ops B m = melBin A m
  gap : ∀ m ≤ A.nMels, g ≤ melCenter A (m + 1) - melCenter A m

/-- Error of one term of a filter, from a power at most `Q` known up to `pe`. -/
noncomputable def termErr (P : Accuracy) (Q pe C g dc df : ℝ) : ℝ := mulErr P Q 1 pe (weightErr P C g dc df)

/-- Error of one filter over at most `K` bins. -/
noncomputable def filterErr (P : Accuracy) (K : Nat) (Q pe C g dc df : ℝ) : ℝ := ((1 + P.u) ^ K - 1) * (K * Q) + (1 + P.u) ^ K * (K * termErr P Q pe C g dc df)

/-- The range needed for a filter. -/
structure FilterRoom (P : Accuracy) (K : Nat) (Q pe C g dc df : ℝ) : Prop where
  weight : WeightRoom P C g dc df
  term : (Q + pe) * (1 + weightErr P C g dc df) ≤ P.M
  sum : (1 + P.u) ^ K * (K * Q) + (1 + P.u) ^ K * (K * termErr P Q pe C g dc df) ≤ P.M

theorem value_close (h : AudioArith R P v ops) {A : Mel} {B : FMel F} {C g dc df : ℝ} (hB : MelClose R ops A B C g dc df) {K : Nat} {Q pe : ℝ} (hQ : 0 ≤ Q) (hpe : 0 ≤ pe) (room : FilterRoom P K Q pe C g dc df)
    (spec : FVec F) (p : Nat → ℝ) (hspec : ∀ k ≤ A.nFft / 2, k < spec.len ∧ Close R pe (spec.data k) (p k) ∧ |p k| ≤ Q) (m l c r : Nat) (h1 : 1 ≤ m) (hm : m ≤ A.nMels)
    (el : melBin A (m - 1) = l) (ec : melBin A m = c) (er : melBin A (m + 1) = r) (hlc : l ≤ c) (hcr : c ≤ r) (hr : r ≤ A.nFft / 2) (hK : r - l + 1 ≤ K) :
    ∃ a, melValue ops B spec m l c r = some a ∧ Close R (filterErr P K Q pe C g dc df) a (∑ k ∈ range (1 + A.nFft / 2), weight A m k * p k) := by
  obtain ⟨⟨cl, bl⟩, ⟨cc, bc⟩, ⟨cr, br⟩⟩ := And.intro (hB.center (m - 1) (by omega)) (And.intro (hB.center m (by omega)) (hB.center (m + 1) (by omega)))
  have g1 := hB.gap (m - 1) (by omega)
  have g2 := hB.gap m hm
  rw [Nat.sub_add_cancel h1] at g1
  have hw : 0 ≤ weightErr P C g dc df := (abs_nonneg _).trans (weight_close h room.weight cl cc cl (hB.freq 0 (by omega)).1 bl bc bl (hB.freq 0 (by omega)).2 g1).1.2
  have hterm : ∀ (k : Nat) (w : F) (w' : ℝ), k ≤ A.nFft / 2 → Close R (weightErr P C g dc df) w (clampR w') → Close R (termErr P Q pe C g dc df) (spec.data k * w) (clampR w' * p k) ∧ |clampR w' * p k| ≤ Q := by
    intro k w w' hk hc
    obtain ⟨-, q1, q2⟩ := hspec k hk
    have hcl : |clampR w'| ≤ 1 := by rw [abs_of_nonneg (clampR_range w').1]; exact (clampR_range w').2
    refine ⟨?_, ?_⟩
    · rw [mul_comm (clampR w')]
      exact mul_close h.basic.mul q1 hc q2 hcl room.term
    · rw [abs_mul]
      calc |clampR w'| * |p k| ≤ 1 * Q := mul_le_mul hcl q2 (abs_nonneg _) zero_le_one
        _ = Q := one_mul Q
  have hα : 0 ≤ termErr P Q pe C g dc df := by
    unfold termErr mulErr
    have := P.hu
    have := P.hη
    positivity
  have low : ∀ i, 0 ≤ i → i < 0 + (c + 1 - l) → ∃ a, lowTerm ops B spec m ((l : Int) + i) = some a ∧ Close R (termErr P Q pe C g dc df) a (weight A m (l + i) * p (l + i)) ∧ |weight A m (l + i) * p (l + i)| ≤ Q := by
    intro i _ hi
    have hk : l + i ≤ A.nFft / 2 := by omega
    have hcast : ((l : Int) + i) = ((l + i : Nat) : Int) := by push_cast; rfl
    unfold lowTerm FVec.get
    rw [hcast, if_pos ⟨by omega, by have := (hspec _ hk).1; omega⟩]
    simp only [Option.map_some, Option.some.injEq, Int.toNat_natCast, exists_eq_left']
    rw [weight, if_pos (by rw [el, ec]; omega)]
    exact hterm _ _ _ hk (weight_close h room.weight cl cc cl (hB.freq _ hk).1 bl bc bl (hB.freq _ hk).2 g1).1
  have high : ∀ i, 0 ≤ i → i < 0 + (r - c) → ∃ a, highTerm ops B spec m ((c : Int) + i) = some a ∧ Close R (termErr P Q pe C g dc df) a (weight A m (c + 1 + i) * p (c + 1 + i)) ∧ |weight A m (c + 1 + i) * p (c + 1 + i)| ≤ Q := by
    intro i _ hi
    have hk : c + 1 + i ≤ A.nFft / 2 := by omega
    have hcast : ((c : Int) + i + 1) = ((c + 1 + i : Nat) : Int) := by push_cast; ring
    unfold highTerm FVec.get
    rw [hcast, if_pos ⟨by omega, by have := (hspec _ hk).1; omega⟩]
    simp only [Option.map_some, Option.some.injEq, Int.toNat_natCast, exists_eq_left']
    rw [weight, if_neg (by rw [el, ec]; omega), if_pos (by rw [ec, er]; omega)]
    exact hterm _ _ _ hk (weight_close h room.weight cc cr cr (hB.freq _ hk).1 bc br br (hB.freq _ hk).2 g2).2
  have start : Apx R P 0 ((0 : Nat) * Q) ((1 + P.u) ^ 0 * ((0 : Nat) * termErr P Q pe C g dc df)) (0 : F) 0 := by simpa using Apx.zero (R := R) (P := P) h.basic
  obtain ⟨a, e1, ha⟩ := loop_apx h.basic hQ hα room.sum (fun i => lowTerm ops B spec m ((l : Int) + i)) (fun i => weight A m (l + i) * p (l + i)) (c + 1 - l) 0 0 0 0 (by omega) low start
  obtain ⟨b, e2, hb⟩ := loop_apx h.basic hQ hα room.sum (fun i => highTerm ops B spec m ((c : Int) + i)) (fun i => weight A m (c + 1 + i) * p (c + 1 + i)) (r - c) 0 _ a _ (by omega) high ha
  refine ⟨b, ?_, ?_⟩
  · unfold melValue
    rw [show ((c : Int) + 1 - l).toNat = c + 1 - l by omega, show ((r : Int) - c).toNat = r - c by omega, e1, Option.bind_some, e2]
  · simp only [zero_add] at hb
    rw [weight_sum A m l c r (1 + A.nFft / 2) el ec er hlc hcr (by omega) p] at hb
    have hn : ((c + 1 - l + (r - c) : Nat) : ℝ) ≤ K := by exact_mod_cast (by omega : c + 1 - l + (r - c) ≤ K)
    have hp := pow_u_mono (P := P) (show c + 1 - l + (r - c) ≤ K by omega)
    have hp1 := one_le_pow_u (P := P) (c + 1 - l + (r - c))
    refine hb.close.mono ?_
    unfold filterErr
    refine add_le_add ?_ ?_
    · exact mul_le_mul (by linarith) (mul_le_mul_of_nonneg_right hn hQ) (by positivity) (by linarith)
    · exact mul_le_mul hp (mul_le_mul_of_nonneg_right hn hα) (by positivity) (by linarith)

theorem loop_close (h : AudioArith R P v ops) {A : Mel} {B : FMel F} {C g dc df : ℝ} (hB : MelClose R ops A B C g dc df) {K : Nat} {Q pe : ℝ} (hQ : 0 ≤ Q) (hpe : 0 ≤ pe) (room : FilterRoom P K Q pe C g dc df)
    (hmono : Monotone (melBin A)) (h0 : 0 ≤ melBin A 0) (hr : melBin A (A.nMels + 1) ≤ (A.nFft / 2 : Nat)) (hK : ∀ m, 1 ≤ m → m ≤ A.nMels → melBin A (m + 1) - melBin A (m - 1) + 1 ≤ K)
    (spec : FVec F) (p : Nat → ℝ) (hspec : ∀ k ≤ A.nFft / 2, k < spec.len ∧ Close R pe (spec.data k) (p k) ∧ |p k| ≤ Q) :
    ∀ (k m : Nat) (mels : FVec F), 1 ≤ m → m - 1 + k = A.nMels → mels.len = A.nMels →
      (∀ i < m - 1, Close R (filterErr P K Q pe C g dc df) (mels.data i) (∑ j ∈ range (1 + A.nFft / 2), weight A (i + 1) j * p j)) →
      ∃ out, melLoop ops B spec k m mels = some (.ok, out) ∧ out.len = A.nMels ∧
        ∀ i < A.nMels, Close R (filterErr P K Q pe C g dc df) (out.data i) (∑ j ∈ range (1 + A.nFft / 2), weight A (i + 1) j * p j)
  | 0, m, mels, _, hk, hl, hd => ⟨mels, rfl, hl, fun i hi => hd i (by omega)⟩
  | k + 1, m, mels, hm, hk, hl, hd => by
    have b0 := hmono (show 0 ≤ m - 1 by omega)
    have b1 := hmono (show m - 1 ≤ m by omega)
    have b2 := hmono (show m ≤ m + 1 by omega)
    have b3 := hmono (show m + 1 ≤ A.nMels + 1 by omega)
    obtain ⟨l, el⟩ := Int.eq_ofNat_of_zero_le (h0.trans b0)
    obtain ⟨c, ec⟩ := Int.eq_ofNat_of_zero_le ((h0.trans b0).trans b1)
    obtain ⟨r, er⟩ := Int.eq_ofNat_of_zero_le (((h0.trans b0).trans b1).trans b2)
    have hK' := hK m hm (by omega)
    rw [el, er] at hK'
    obtain ⟨a, e, ha⟩ := value_close h hB hQ hpe room spec p hspec m l c r hm (by omega) el ec er (by omega) (by omega) (by omega) (by omega)
    rw [melLoop]
    rw [hB.bins _ (by omega), hB.bins _ (by omega), hB.bins _ (by omega), hB.nFft, if_neg (by omega), if_neg (by omega), el, ec, er, e, Option.bind_some, if_pos (by omega)]
    refine loop_close h hB hQ hpe room hmono h0 hr hK spec p hspec k (m + 1) _ (by omega) (by omega) hl fun i hi => ?_
    simp only [Fft.put]
    split
    · rename_i hi2
      rw [show i + 1 = m by omega]
      exact ha
    · exact hd i (by omega)


/-! ### The spectrum -/

/-- Error of a windowed sample at most `V`, the window known up to `dw`. -/
def windowErr (P : Accuracy) (dw V : ℝ) : ℝ := prodErr P dw 1 V

/-- Error of the real part of the spectrum. -/
noncomputable def dftErr (P : Accuracy) (τ : ℝ) (L : Nat) (dw V : ℝ) : ℝ := Motion.Flt.spectrumErr P τ L (2 ^ L) V (windowErr P dw V)

/-- Error of the square of a number at most `S` known up to `E`. -/
def squareErr (P : Accuracy) (v S E : ℝ) : ℝ := v * (S + E) ^ 2 + P.η + E * (2 * S + E)

/-- Error of the power: the square, divided by the length `W`. -/
noncomputable def powerErr (P : Accuracy) (v W S E : ℝ) : ℝ := mulErr P (1 / W) (S ^ 2) (P.u * (1 / W) + P.η) (squareErr P v S E)

/-- The range needed for the spectrum of samples at most `V`. -/
structure SpecRoom (P : Accuracy) (v τ : ℝ) (L : Nat) (dw V : ℝ) : Prop where
  window : (1 + dw) * V ≤ P.M
  fft : fftGrowth P τ ^ L * (2 ^ L * (V + windowErr P dw V)) + fftAbs P * fftGrowth P τ ^ L * 2 ^ L ≤ P.M
  square : (1 + v) * (2 ^ L * V + dftErr P τ L dw V) ^ 2 + P.η ≤ P.M
  power : (1 / 2 ^ L + (P.u * (1 / 2 ^ L) + P.η)) * ((2 ^ L * V) ^ 2 + squareErr P v (2 ^ L * V) (dftErr P τ L dw V)) ≤ P.M

theorem power_close (h : AudioArith R P v ops) {L : Nat} (hL : L ≤ 24) {S E X : ℝ} {a : F} (ha : Close R E a X) (hX : |X| ≤ S) (hM : (1 + v) * (S + E) ^ 2 + P.η ≤ P.M)
    (hM2 : (1 / 2 ^ L + (P.u * (1 / 2 ^ L) + P.η)) * (S ^ 2 + squareErr P v S E) ≤ P.M) :
    Close R (powerErr P v (2 ^ L) S E) (ops.div (ops.ofInt 1) (ops.ofInt (2 ^ L : Nat)) * ops.sq (ops.abs a)) (X ^ 2 / 2 ^ L) ∧ |X ^ 2 / 2 ^ L| ≤ S ^ 2 / 2 ^ L := by
  have hE : 0 ≤ E := (abs_nonneg _).trans ha.2
  have hS : 0 ≤ S := (abs_nonneg _).trans hX
  have hpos : (0 : ℝ) < 2 ^ L := by positivity
  have h1 : (1 : ℝ) ≤ 2 ^ L := one_le_pow₀ (by norm_num)
  obtain ⟨f1, e1⟩ := h.ofInt 1 (by norm_num) (by norm_num)
  obtain ⟨f2, e2⟩ := h.ofInt (2 ^ L : Nat) (by positivity) (by exact_mod_cast Nat.pow_le_pow_right (by norm_num) hL)
  have e2' : R.val (ops.ofInt (2 ^ L : Nat)) = 2 ^ L := by rw [e2]; push_cast; rfl
  rw [Int.cast_one] at e1
  have hq : |(1 : ℝ) / 2 ^ L| = 1 / 2 ^ L := abs_of_pos (by positivity)
  obtain ⟨f3, e3⟩ := h.div _ _ f1 f2 (by rw [e2']; exact hpos.ne') (by
    rw [e1, e2', hq]
    have := h.room
    have : (1 : ℝ) / 2 ^ L ≤ 1 := (div_le_one hpos).2 h1
    linarith)
  rw [e1, e2', hq] at e3
  obtain ⟨f4, e4⟩ := h.abs a ha.1
  have ha1 : |R.val a| ≤ S + E := ha.abs_le.trans (by linarith)
  have hsq : R.val a ^ 2 ≤ (S + E) ^ 2 := by rw [← sq_abs]; exact pow_le_pow_left₀ (abs_nonneg _) ha1 2
  have hv := h.v0
  obtain ⟨f5, e5⟩ := h.sq (ops.abs a) f4 (by
    rw [e4, sq_abs]
    refine le_trans ?_ hM
    have := mul_le_mul_of_nonneg_left hsq (by linarith : 0 ≤ 1 + v)
    linarith)
  rw [e4, sq_abs] at e5
  have hs : Close R (squareErr P v S E) (ops.sq (ops.abs a)) (X ^ 2) := by
    refine ⟨f5, ?_⟩
    have k1 : |R.val a ^ 2 - X ^ 2| ≤ E * (2 * S + E) := by
      rw [show R.val a ^ 2 - X ^ 2 = (R.val a - X) * (R.val a + X) by ring, abs_mul]
      refine mul_le_mul ha.2 ((abs_add_le _ _).trans (by linarith)) (abs_nonneg _) hE
    rw [show R.val (ops.sq (ops.abs a)) - X ^ 2 = (R.val (ops.sq (ops.abs a)) - R.val a ^ 2) + (R.val a ^ 2 - X ^ 2) by ring]
    refine (abs_add_le _ _).trans ?_
    have := mul_le_mul_of_nonneg_left hsq hv
    unfold squareErr
    linarith
  have hX2 : |X ^ 2| ≤ S ^ 2 := by rw [abs_pow]; exact pow_le_pow_left₀ (abs_nonneg _) hX 2
  have := mul_close h.basic.mul (⟨f3, e3⟩ : Close R (P.u * (1 / 2 ^ L) + P.η) _ (1 / 2 ^ L)) hs hq.le hX2 hM2
  refine ⟨?_, ?_⟩
  · rw [show X ^ 2 / 2 ^ L = 1 / 2 ^ L * X ^ 2 by ring]
    exact this
  · rw [abs_div, abs_of_pos hpos]
    exact div_le_div_of_nonneg_right hX2 hpos.le

theorem hann_range (n i : Nat) : 0 ≤ hann n i ∧ hann n i ≤ 1 := by
  unfold hann
  have h1 := Real.cos_le_one (2 * Real.pi * i / ((n : ℝ) - 1))
  have h2 := Real.neg_one_le_cos (2 * Real.pi * i / ((n : ℝ) - 1))
  constructor <;> linarith

/-- The spectrum is at most the sum of the magnitudes. -/
theorem dft_bound (N : Nat) (a : Nat → ℂ) (D : ℝ) (h : ∀ j < N, ‖a j‖ ≤ D) (k : Nat) : ‖Fft.dft N a k‖ ≤ N * D := by
  have := Motion.Flt.dft_sub_le N N le_rfl a (fun _ => 0) D (fun j hj => by simpa using h j hj) (fun j hj hj2 => by omega) k
  have e : Fft.dft N (fun _ => 0) k = 0 := by simp [Fft.dft]
  rwa [e, sub_zero] at this

/-- The spectrum of the windowed samples, by the machine. -/
theorem spectrum_close (h : AudioArith R P v ops) (L : Nat) (hL : L ≤ 24) {τ dw V : ℝ} (hτ : 0 ≤ τ) {t : Fft.Table F} (ht : TableOk R τ t (2 ^ L)) (x : FVec F) (hx : x.len = 2 ^ L)
    (hV : ∀ i < 2 ^ L, R.fin (x.data i) ∧ |R.val (x.data i)| ≤ V) (hw : ∀ i < 2 ^ L, Close R dw (ops.hann (2 ^ L) i) (hann (2 ^ L) i)) (room : SpecRoom P v τ L dw V) (im : Nat → F) (him : ∀ i < 2 ^ L, im i = 0) (n : Nat) (hn : n = 2 ^ L) :
    ∃ b, Fft.forward t { len := n, re := (hannApply ops x).data, im := im } (2 ^ L) = some (.ok, b) ∧ ∀ k < 2 ^ L,
      Close R (dftErr P τ L dw V) (b.re k) (windowedDft (2 ^ L) (fun i => R.val (x.data i)) k).re ∧ |(windowedDft (2 ^ L) (fun i => R.val (x.data i)) k).re| ≤ 2 ^ L * V := by
  have hp : 0 < 2 ^ L := by positivity
  have hV0 : 0 ≤ V := (abs_nonneg _).trans (hV 0 hp).2
  have hdw : 0 ≤ dw := (abs_nonneg _).trans (hw 0 hp).2
  have hu := P.hu
  have hη := P.hη
  have hD0 : 0 ≤ windowErr P dw V := by unfold windowErr prodErr; positivity
  have hre : ∀ i < 2 ^ L, (hannApply ops x).data i = ops.hann (2 ^ L) i * x.data i := by
    intro i hi
    simp only [hannApply, hx]
    rw [if_pos hi]
  have hwin : ∀ i < 2 ^ L, Close R (windowErr P dw V) ((hannApply ops x).data i) (hann (2 ^ L) i * R.val (x.data i)) ∧ |hann (2 ^ L) i * R.val (x.data i)| ≤ V := by
    intro i hi
    obtain ⟨r0, r1⟩ := hann_range (2 ^ L) i
    have ha : |hann (2 ^ L) i| ≤ 1 := by rw [abs_of_nonneg r0]; exact r1
    refine ⟨?_, ?_⟩
    · rw [hre i hi]
      refine (prod_error h.basic.mul (hw i hi) (hV i hi).1 (hV i hi).2 ?_).mono ?_
      · exact (mul_le_mul_of_nonneg_right (by linarith) hV0).trans room.window
      · unfold windowErr prodErr
        rw [abs_one]
        have : P.u * (|hann (2 ^ L) i| + dw) ≤ P.u * (1 + dw) := mul_le_mul_of_nonneg_left (by linarith) hu
        have := mul_le_mul_of_nonneg_right (by linarith : P.u * (|hann (2 ^ L) i| + dw) + dw ≤ P.u * (1 + dw) + dw) hV0
        linarith
    · rw [abs_mul]
      calc |hann (2 ^ L) i| * |R.val (x.data i)| ≤ 1 * V := mul_le_mul ha (hV i hi).2 (abs_nonneg _) zero_le_one
        _ = V := one_mul V
  have hval : ∀ i < 2 ^ L, cval R ((hannApply ops x).data i) (im i) = ((R.val ((hannApply ops x).data i) : ℝ) : ℂ) := by
    intro i hi
    rw [him i hi]
    unfold cval
    rw [h.basic.zero.2]
    rfl
  have hnorm : ∀ i < 2 ^ L, ‖cval R ((hannApply ops x).data i) (im i)‖ ≤ V + windowErr P dw V := by
    intro i hi
    rw [hval i hi, Complex.norm_real, Real.norm_eq_abs]
    exact (hwin i hi).1.abs_le.trans (by have := (hwin i hi).2; linarith)
  have hsum : ∑ i ∈ range (2 ^ L), ‖cval R ((hannApply ops x).data i) (im i)‖ ≤ 2 ^ L * (V + windowErr P dw V) :=
    (sum_le_card_nsmul _ _ _ fun i hi => hnorm i (mem_range.1 hi)).trans (by rw [card_range, nsmul_eq_mul]; push_cast; exact le_rfl)
  have hg : 1 ≤ fftGrowth P τ ^ L := one_le_pow₀ (one_le_growth hτ)
  obtain ⟨b, e1, -, e3⟩ := C102_fft h.basic h.neg L (by omega) τ hτ t ht { len := n, re := (hannApply ops x).data, im := im } hn (fun i hi => ⟨(hwin i hi).1.1, by show R.fin (im i); rw [him i hi]; exact h.basic.zero.1⟩) (by
    refine le_trans ?_ room.fft
    have := mul_le_mul_of_nonneg_left hsum (by linarith : 0 ≤ fftGrowth P τ ^ L)
    linarith)
  refine ⟨b, e1, fun k hk => ⟨⟨(e3 k hk).1, ?_⟩, ?_⟩⟩
  · have e : R.val (b.re k) = (cval R (b.re k) (b.im k)).re := rfl
    rw [e, ← Complex.sub_re]
    refine (Complex.abs_re_le_norm _).trans ?_
    refine (norm_sub_le_norm_sub_add_norm_sub _ (Fft.dft (2 ^ L) (fun i => cval R ((hannApply ops x).data i) (im i)) k) _).trans ?_
    have hd := Motion.Flt.dft_sub_le (2 ^ L) (2 ^ L) le_rfl (fun i => cval R ((hannApply ops x).data i) (im i)) (fun i => ((hann (2 ^ L) i * R.val (x.data i) : ℝ) : ℂ)) (windowErr P dw V) (fun j hj => by
      rw [hval j hj, ← Complex.ofReal_sub, Complex.norm_real, Real.norm_eq_abs]
      exact (hwin j hj).1.2) (fun j hj hj2 => by omega) k
    have k3 := (e3 k hk).2.2
    have k4 := mul_le_mul_of_nonneg_left hsum (by linarith : 0 ≤ fftGrowth P τ ^ L - 1)
    unfold dftErr Motion.Flt.spectrumErr windowedDft
    push_cast at hd ⊢
    linarith
  · refine (Complex.abs_re_le_norm _).trans ?_
    have := dft_bound (2 ^ L) (fun i => ((hann (2 ^ L) i * R.val (x.data i) : ℝ) : ℂ)) V (fun j hj => by
      rw [Complex.norm_real, Real.norm_eq_abs]
      exact (hwin j hj).2) k
    unfold windowedDft
    push_cast at this ⊢
    exact this

/-! ### The mel spectrogram -/

/-- **C125.** The mel spectrogram in rounded arithmetic: with a table and window computed to the given accuracy and filter edges that fall in the same bins as the exact ones, the function succeeds within its buffers and every output is
within an explicit error of the exact value, the mel-weighted sum of `(Re X[k])² / n_fft` for the windowed samples. -/
theorem C125_melspectrogram (h : AudioArith R P v ops) (L : Nat) (hL : 2 ≤ L) (hL2 : L ≤ 24) (A : Mel) (hA : A.nFft = 2 ^ L) (h1 : 0 ≤ A.fmin) (h2 : A.fmin < A.fmax) (hsr : 0 < A.samplerate) (h3 : A.fmax ≤ A.samplerate / 2)
    (hm : A.nMels ≤ 2 ^ L) (B : FMel F) {C g dc df : ℝ} (hB : MelClose R ops A B C g dc df) {K : Nat} (hK : ∀ m, 1 ≤ m → m ≤ A.nMels → melBin A (m + 1) - melBin A (m - 1) + 1 ≤ K)
    {τ dw V : ℝ} (hτ : 0 ≤ τ) (t : Fft.Table F) (ht : TableOk R τ t (2 ^ L)) (hw : ∀ i < 2 ^ L, Close R dw (ops.hann (2 ^ L) i) (hann (2 ^ L) i))
    (x temp : FVec F) (hx : x.len = 2 ^ L) (htemp : temp.len = 2 ^ L) (hV : ∀ i < 2 ^ L, R.fin (x.data i) ∧ |R.val (x.data i)| ≤ V) (room : SpecRoom P v τ L dw V)
    (froom : FilterRoom P K ((2 ^ L * V) ^ 2 / 2 ^ L) (powerErr P v (2 ^ L) (2 ^ L * V) (dftErr P τ L dw V)) C g dc df) :
    ∃ out temp', melspectrogram ops B t x temp = some (.ok, out, temp') ∧ out.len = 2 ^ L ∧
      ∀ m < A.nMels, Close R (filterErr P K ((2 ^ L * V) ^ 2 / 2 ^ L) (powerErr P v (2 ^ L) (2 ^ L * V) (dftErr P τ L dw V)) C g dc df) (out.data m)
        (∑ k ∈ range (1 + A.nFft / 2), weight A (m + 1) k * ((windowedDft (2 ^ L) (fun i => R.val (x.data i)) k).re ^ 2 / 2 ^ L)) := by
  have hev : A.nFft % 2 = 0 := by
    rw [hA]; obtain ⟨q, rfl⟩ : ∃ q, L = q + 1 := ⟨L - 1, by omega⟩
    rw [pow_succ]; omega
  have h4 : 4 ≤ 2 ^ L := by
    calc 4 = 2 ^ 2 := by norm_num
      _ ≤ 2 ^ L := Nat.pow_le_pow_right (by norm_num) hL
  have hmono := bin_mono A (by linarith) h2.le
  obtain ⟨b0, b1⟩ := bins_ok A h1 h2 hsr h3
  have b1' := b1 hev
  unfold maxBin at b1'
  obtain ⟨b, hb, hbd⟩ := spectrum_close h L hL2 hτ ht x hx hV hw room (fun i => if i < temp.len then 0 else temp.data i) (fun i hi => by rw [htemp, if_pos hi]) (min (hannApply ops x).len temp.len) (by
    show min x.len temp.len = _
    omega)
  have hspec : ∀ k < 2 ^ L, Close R (powerErr P v (2 ^ L) (2 ^ L * V) (dftErr P τ L dw V)) (ops.div (ops.ofInt 1) (ops.ofInt (2 ^ L : Nat)) * ops.sq (ops.abs (b.re k)))
      ((windowedDft (2 ^ L) (fun i => R.val (x.data i)) k).re ^ 2 / 2 ^ L) ∧ |(windowedDft (2 ^ L) (fun i => R.val (x.data i)) k).re ^ 2 / 2 ^ L| ≤ (2 ^ L * V) ^ 2 / 2 ^ L := fun k hk =>
    power_close h hL2 (hbd k hk).1 (hbd k hk).2 room.square room.power
  have hpe : 0 ≤ powerErr P v (2 ^ L) (2 ^ L * V) (dftErr P τ L dw V) := (abs_nonneg _).trans (hspec 0 (by omega)).1.2
  obtain ⟨out, e, ol, od⟩ := loop_close h hB (by positivity) hpe froom hmono b0 (by omega) hK
    { len := temp.len, data := fun i => if i < 1 + A.nFft / 2 then ops.div (ops.ofInt 1) (ops.ofInt (2 ^ L : Nat)) * ops.sq (ops.abs (b.re i)) else b.im i }
    (fun k => (windowedDft (2 ^ L) (fun i => R.val (x.data i)) k).re ^ 2 / 2 ^ L) (fun k hk => by
      have hk2 : k < 2 ^ L := by rw [hA] at hk; omega
      refine ⟨by show k < temp.len; omega, ?_⟩
      simp only []
      rw [if_pos (by omega)]
      exact hspec k hk2)
    A.nMels 1 { len := A.nMels, data := b.re } le_rfl (by omega) rfl (fun i hi => by omega)
  refine ⟨{ len := x.len, data := out.data }, { len := temp.len, data := fun i => if i < 1 + A.nFft / 2 then ops.div (ops.ofInt 1) (ops.ofInt (2 ^ L : Nat)) * ops.sq (ops.abs (b.re i)) else b.im i }, ?_, hx, od⟩
  unfold melspectrogram
  simp only []
  have hxl : (hannApply ops x).len = 2 ^ L := hx
  rw [hxl] at hb ⊢
  rw [hb, Option.bind_some]
  simp only [ne_eq, not_true_eq_false, if_false]
  unfold powerSpectrogram
  simp only []
  rw [hB.nFft, hB.nMels, if_pos (by rw [hA]; omega), if_pos trivial, if_pos (by rw [htemp, hA]; omega), Option.bind_some]
  simp only [not_true_eq_false, if_false]
  rw [if_pos hm]
  unfold melspec
  simp only []
  rw [hB.nFft, hB.nMels, if_pos (by rw [htemp, hA]; omega), if_pos rfl]
  rw [hA] at e ⊢
  rw [e]
  simp only [Option.map_some, hx]

end Emlearn.Audio.Flt
