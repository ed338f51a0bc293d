/- C107: Gaussian mixture models in `float` arithmetic. -/
import Verif.Float.Calc
import Verif.Float.Softmax
import Verif.Float.BinaryOps
import Verif.Props.FloatNetText
import Verif.Props.Mixture
import Verif.Props.MixtureText
import Mathlib.Analysis.Complex.ExponentialBounds
namespace Emlearn.Flt
open Emlearn.Mixture Emlearn.MiniC Matrix

variable {F : Type} {R : Format F} {P : Accuracy}

/-! ### The error bound -/

/-- `out[c] = -0.5 * (n_features * EML_LOG_2PI + log_prob) + log_dets[c]` is computed in `double` and stored in a `float`: an error of `uc` relative to the absolute values of the terms. -/
def CombOk (R : Format F) (P : Accuracy) (uc log2pi : ℝ) (comb : Nat → F → F → F) : Prop := ∀ (n : Nat) (q d : F), R.fin q → R.fin d → (1 + uc) * ((n * log2pi + |R.val q|) / 2 + |R.val d|) + P.η ≤ P.M →
  R.fin (comb n q d) ∧ |R.val (comb n q d) - (-(1 / 2) * (n * log2pi + R.val q) + R.val d)| ≤ uc * ((n * log2pi + |R.val q|) / 2 + |R.val d|) + P.η

section
variable {n : Nat} (P) (uc log2pi dx dm dp dd dw : ℝ) (x mu : Fin n → ℝ) (L : Matrix (Fin n) (Fin n) ℝ) (ld lw : ℝ)

/-- Magnitude and absolute error of `Σ_p v[p] L[p][f]`, for a vector known up to `dv` and a factor known up to `dp`. -/
noncomputable def dotMag (v : Fin n → ℝ) (f : Fin n) : ℝ := ∑ p, |v p| * |L p f|
noncomputable def dotAbs (dv : ℝ) (v : Fin n → ℝ) (f : Fin n) : ℝ := (1 + P.u) ^ n * ∑ p, ((1 + P.u) * mulAbs P 0 0 |v p| |L p f| dv dp + P.η)

/-- Magnitude and absolute error of `y = dot_x - dot_m`. -/
noncomputable def whiteMag (f : Fin n) : ℝ := dotMag L x f + dotMag L mu f
noncomputable def whiteAbs (f : Fin n) : ℝ := (1 + P.u) * (dotAbs P dp L dx x f + dotAbs P dp L dm mu f)

/-- Absolute error of `y * y`. -/
noncomputable def sqAbs (f : Fin n) : ℝ :=
  (1 + P.u) * mulAbs P (n + 2) (n + 2) (whiteMag x mu L f) (whiteMag x mu L f) (whiteAbs P dx dm dp x mu L f) (whiteAbs P dx dm dp x mu L f) + P.η

/-- Magnitude and error of the sum of the squares: `3n + 5` roundings relative to the absolute values, and what the errors of the inputs and constants contribute. -/
noncomputable def quadMag : ℝ := ∑ f, whiteMag x mu L f * whiteMag x mu L f
noncomputable def quadErr : ℝ := ((1 + P.u) ^ (n + 2 + (n + 2) + 1 + n) - 1) * quadMag x mu L + (1 + P.u) ^ n * ∑ f, sqAbs P dx dm dp x mu L f

/-- Error of `-1/2 (n log 2π + q) + log_det`. -/
noncomputable def combErr : ℝ :=
  quadErr P dx dm dp x mu L / 2 + dd + (uc * ((n * log2pi + (quadMag x mu L + quadErr P dx dm dp x mu L)) / 2 + (|ld| + dd)) + P.η)

/-- Error of the value of a component. -/
noncomputable def compErr : ℝ := (1 + P.u) * (combErr P uc log2pi dx dm dp dd x mu L ld + dw) + P.u * ((n * log2pi + quadMag x mu L) / 2 + |ld| + |lw|)

/-- Nothing overflows. -/
structure MixRange : Prop where
  dotx : ∀ f p, (|x p| + dx) * (|L p f| + dp) ≤ P.M
  dotm : ∀ f p, (|mu p| + dm) * (|L p f| + dp) ≤ P.M
  white : ∀ f, (1 + P.u) ^ (1 + n) * dotMag L x f + dotAbs P dp L dx x f + ((1 + P.u) ^ (1 + n) * dotMag L mu f + dotAbs P dp L dm mu f) ≤ P.M
  square : ∀ f, ((1 + P.u) ^ (n + 2) * whiteMag x mu L f + whiteAbs P dx dm dp x mu L f) * ((1 + P.u) ^ (n + 2) * whiteMag x mu L f + whiteAbs P dx dm dp x mu L f) ≤ P.M
  quad : (1 + P.u) ^ (n + 2 + (n + 2) + 1 + n) * quadMag x mu L + (1 + P.u) ^ n * ∑ f, sqAbs P dx dm dp x mu L f ≤ P.M
  comb : (1 + uc) * ((n * log2pi + (quadMag x mu L + quadErr P dx dm dp x mu L)) / 2 + (|ld| + dd)) + P.η ≤ P.M
  total : (n * log2pi + quadMag x mu L) / 2 + |ld| + |lw| + combErr P uc log2pi dx dm dp dd x mu L ld + dw ≤ P.M
end

section
variable [Zero F] [Add F] [Sub F] [Mul F]

theorem quad_error (h : BasicArith (F := F) R P) {C n : Nat} {dx dm dp : ℝ} (mu : Fin C → Fin n → F) (L : Fin C → Matrix (Fin n) (Fin n) F) (ld lw : Fin C → F) (x : Fin n → F) (c : Fin C) (x' mu' : Fin n → ℝ)
    (L' : Matrix (Fin n) (Fin n) ℝ) (hx : ∀ i, Close R dx (x i) (x' i)) (hm : ∀ i, Close R dm (mu c i) (mu' i)) (hL : ∀ i j, Close R dp (L c i j) (L' i j))
    (r1 : ∀ f p, (|x' p| + dx) * (|L' p f| + dp) ≤ P.M) (r2 : ∀ f p, (|mu' p| + dm) * (|L' p f| + dp) ≤ P.M)
    (r3 : ∀ f, (1 + P.u) ^ (1 + n) * dotMag L' x' f + dotAbs P dp L' dx x' f + ((1 + P.u) ^ (1 + n) * dotMag L' mu' f + dotAbs P dp L' dm mu' f) ≤ P.M)
    (r4 : ∀ f, ((1 + P.u) ^ (n + 2) * whiteMag x' mu' L' f + whiteAbs P dx dm dp x' mu' L' f) * ((1 + P.u) ^ (n + 2) * whiteMag x' mu' L' f + whiteAbs P dx dm dp x' mu' L' f) ≤ P.M)
    (r5 : (1 + P.u) ^ (n + 2 + (n + 2) + 1 + n) * quadMag x' mu' L' + (1 + P.u) ^ n * ∑ f, sqAbs P dx dm dp x' mu' L' f ≤ P.M) :
    ∃ q, quad (gmm mu L ld lw) (List.ofFn x) c = some q ∧ Apx R P (n + 2 + (n + 2) + 1 + n) (quadMag x' mu' L') ((1 + P.u) ^ n * ∑ f, sqAbs P dx dm dp x' mu' L' f) q (whitened x' mu' L') := by
  have hdot : ∀ (dv : ℝ) (l : List F) (off : Nat) (v : Fin n → F) (v' : Fin n → ℝ), (∀ p : Fin n, l[off + p.1]? = some (v p)) → (∀ i, Close R dv (v i) (v' i)) → (∀ f p, (|v' p| + dv) * (|L' p f| + dp) ≤ P.M) →
      (∀ f, (1 + P.u) ^ (1 + n) * dotMag L' v' f + dotAbs P dp L' dv v' f ≤ P.M) → ∀ f : Fin n, ∃ a, dot (gmm mu L ld lw) l off c f = some a ∧
        Apx R P (1 + n) (dotMag L' v' f) (dotAbs P dp L' dv v' f) a (∑ p, v' p * L' p f) := by
    intro dv l off v v' hl hv hr hr' f
    unfold dot
    refine Apx.sumLoop_fin h 1 n _ (fun p => v' p * L' p f) (fun p => |v' p| * |L' p f|) (fun p => (1 + P.u) * mulAbs P 0 0 |v' p| |L' p f| dv dp + P.η) (fun p => ⟨v p * L c p f, ?_, ?_⟩) (hr' f)
    · have h1 := prec_entry L c p f
      have h2 := hl p
      simp only [gmm, generate, h1, h2]
      rfl
    · exact Apx.mul h.mul (Apx.of_close (P := P) (hv p)) (Apx.of_close (P := P) (hL p f)) (by simpa using hr f p)
  have absn : ∀ (dv : ℝ) (v : Fin n → F) (v' : Fin n → ℝ), (∀ i, Close R dv (v i) (v' i)) → ∀ f, 0 ≤ (1 + P.u) ^ (1 + n) * dotMag L' v' f + dotAbs P dp L' dv v' f := by
    intro dv v v' hv f
    have hu := P.hu
    have hη := P.hη
    unfold dotMag dotAbs mulAbs
    have : ∀ p : Fin n, 0 ≤ dv := fun p => (abs_nonneg _).trans (hv p).2
    have hp : ∀ p : Fin n, 0 ≤ dp := fun p => (abs_nonneg _).trans (hL p f).2
    refine add_nonneg (mul_nonneg (pow_u_pos _).le (Finset.sum_nonneg fun p _ => by positivity)) (mul_nonneg (pow_u_pos _).le (Finset.sum_nonneg fun p _ => ?_))
    have := this p
    have := hp p
    positivity
  have hmean : ∀ p : Fin n, (gmm mu L ld lw).means[c.1 * n + p.1]? = some (mu c p) := fun p => rows_flatten mu c p
  have hdx := hdot dx (List.ofFn x) 0 x x' (by intro p; simp) hx r1 (fun f => by have := r3 f; have := absn dm (mu c) mu' hm f; linarith)
  have hdm := hdot dm (gmm mu L ld lw).means (c.1 * n) (mu c) mu' hmean hm r2 (fun f => by have := r3 f; have := absn dx x x' hx f; linarith)
  unfold quad
  obtain ⟨q, e, hq⟩ := Apx.sumLoop_fin h (n + 2 + (n + 2) + 1) n (fun f => do
      let dx ← dot (gmm mu L ld lw) (List.ofFn x) 0 c f
      let dm ← dot (gmm mu L ld lw) (gmm mu L ld lw).means (c * (gmm mu L ld lw).nFeatures) c f
      some ((dx - dm) * (dx - dm))) (fun f => (∑ p, x' p * L' p f - ∑ p, mu' p * L' p f) * (∑ p, x' p * L' p f - ∑ p, mu' p * L' p f)) (fun f => whiteMag x' mu' L' f * whiteMag x' mu' L' f)
      (fun f => sqAbs P dx dm dp x' mu' L' f) (fun f => by
        obtain ⟨a, ea, ha⟩ := hdx f
        obtain ⟨b, eb, hb⟩ := hdm f
        have hs := Apx.sub h.sub ha hb (r3 f)
        rw [max_self, show 1 + n + 1 = n + 2 by omega] at hs
        refine ⟨(a - b) * (a - b), ?_, Apx.mul h.mul hs hs (r4 f)⟩
        rw [show (gmm mu L ld lw).nFeatures = n from rfl, ea, eb]
        rfl) r5
  refine ⟨q, e, ?_⟩
  have hs : ∑ f, (∑ p, x' p * L' p f - ∑ p, mu' p * L' p f) * (∑ p, x' p * L' p f - ∑ p, mu' p * L' p f) = whitened x' mu' L' := by
    simp only [whitened, dotProduct, vecMul, Pi.sub_apply, sub_mul, Finset.sum_sub_distrib]
  rw [← hs]
  exact hq

/-- **C107 (log densities).** `eml_mixture_predict_log_proba` in rounded arithmetic, on values, means, factors, log determinants and log weights that are known up to `dx`, `dm`, `dp`, `dd` and `dw`: the call succeeds, and every
component value is finite and within `compErr` of the exact weighted log density of that component. -/
theorem C107_log_proba (h : BasicArith (F := F) R P) {uc log2pi : ℝ} {comb : Nat → F → F → F} (hcomb : CombOk R P uc log2pi comb) (huc : 0 ≤ uc) (h2pi : 0 ≤ log2pi) {C n : Nat} (hC : 0 < C) {dx dm dp dd dw : ℝ}
    (mu : Fin C → Fin n → F) (L : Fin C → Matrix (Fin n) (Fin n) F) (ld lw : Fin C → F) (x : Fin n → F) (mu' : Fin C → Fin n → ℝ) (L' : Fin C → Matrix (Fin n) (Fin n) ℝ) (ld' lw' : Fin C → ℝ) (x' : Fin n → ℝ)
    (hx : ∀ i, Close R dx (x i) (x' i)) (hm : ∀ c i, Close R dm (mu c i) (mu' c i)) (hL : ∀ c i j, Close R dp (L c i j) (L' c i j)) (hd : ∀ c, Close R dd (ld c) (ld' c)) (hw : ∀ c, Close R dw (lw c) (lw' c))
    (hr : ∀ c, MixRange P uc log2pi dx dm dp dd dw x' (mu' c) (L' c) (ld' c) (lw' c)) (out : List F) (hout : out.length = C) :
    ∃ y : Fin C → F, predictLogProba comb (gmm mu L ld lw) (List.ofFn x) out = some (0, List.ofFn y) ∧
      ∀ c, Close R (compErr P uc log2pi dx dm dp dd dw x' (mu' c) (L' c) (ld' c) (lw' c)) (y c)
        (-(1 / 2) * (n * log2pi + ((x' - mu' c) ᵥ* L' c) ⬝ᵥ ((x' - mu' c) ᵥ* L' c)) + ld' c + lw' c) := by
  have hcomp : ∀ c : Fin C, ∃ v, component comb (gmm mu L ld lw) (List.ofFn x) c = some v ∧ Close R (compErr P uc log2pi dx dm dp dd dw x' (mu' c) (L' c) (ld' c) (lw' c)) v
      (-(1 / 2) * (n * log2pi + whitened x' (mu' c) (L' c)) + ld' c + lw' c) := by
    intro c
    obtain ⟨q, e, hq⟩ := quad_error h mu L ld lw x c x' (mu' c) (L' c) hx (hm c) (hL c) (hr c).dotx (hr c).dotm (hr c).white (hr c).square (hr c).quad
    refine ⟨comb n q (ld c) + lw c, ?_, ?_⟩
    · unfold component
      rw [e]
      simp [gmm, generate]
    have hQ := hq.mag
    have hqc := hq.close.2
    have hqE : |R.val q - whitened x' (mu' c) (L' c)| ≤ quadErr P dx dm dp x' (mu' c) (L' c) := hqc
    obtain ⟨hdf, hdc⟩ := hd c
    have hqa : |R.val q| ≤ quadMag x' (mu' c) (L' c) + quadErr P dx dm dp x' (mu' c) (L' c) := by
      have := hq.close.abs_le
      have h2 : |R.val q| ≤ |whitened x' (mu' c) (L' c)| + quadErr P dx dm dp x' (mu' c) (L' c) := this
      linarith
    have hda : |R.val (ld c)| ≤ |ld' c| + dd := (hd c).abs_le
    have hn : (0 : ℝ) ≤ n * log2pi := by positivity
    have hT : (n * log2pi + |R.val q|) / 2 + |R.val (ld c)| ≤ (n * log2pi + (quadMag x' (mu' c) (L' c) + quadErr P dx dm dp x' (mu' c) (L' c))) / 2 + (|ld' c| + dd) := by linarith
    have hr6 := (hr c).comb
    have hr7 := (hr c).total
    obtain ⟨f1, v1⟩ := hcomb n q (ld c) hq.close.1 hdf (by
      have := mul_le_mul_of_nonneg_left hT (show 0 ≤ 1 + uc by linarith)
      linarith)
    have hc1 : Close R (combErr P uc log2pi dx dm dp dd x' (mu' c) (L' c) (ld' c)) (comb n q (ld c)) (-(1 / 2) * (n * log2pi + whitened x' (mu' c) (L' c)) + ld' c) := by
      refine ⟨f1, ?_⟩
      have e1 : ∀ v q q' d d' : ℝ, v - (-(1 / 2) * (n * log2pi + q') + d') = (v - (-(1 / 2) * (n * log2pi + q) + d)) + ((-(1 / 2)) * (q - q') + (d - d')) := fun v q q' d d' => by ring
      rw [e1 _ (R.val q) _ (R.val (ld c))]
      refine (abs_add_le _ _).trans ?_
      have e2 := abs_add_le (-(1 / 2) * (R.val q - whitened x' (mu' c) (L' c))) (R.val (ld c) - ld' c)
      rw [abs_mul, abs_neg, abs_of_pos (by norm_num : (0 : ℝ) < 1 / 2)] at e2
      have e3 := mul_le_mul_of_nonneg_left hT huc
      unfold combErr
      linarith
    have hmag : |(-(1 / 2) * (n * log2pi + whitened x' (mu' c) (L' c)) + ld' c)| ≤ (n * log2pi + quadMag x' (mu' c) (L' c)) / 2 + |ld' c| := by
      refine (abs_add_le _ _).trans ?_
      rw [abs_mul, abs_neg, abs_of_pos (by norm_num : (0 : ℝ) < 1 / 2)]
      have := abs_add_le (n * log2pi) (whitened x' (mu' c) (L' c))
      rw [abs_of_nonneg hn] at this
      linarith
    exact add_error h.add hc1 (hw c) hmag le_rfl hr7
  choose y hy1 hy2 using hcomp
  refine ⟨y, ?_, hy2⟩
  have hn : (gmm mu L ld lw).nComponents = C := by simp [gmm, generate, rows]
  unfold predictLogProba
  rw [hn, if_pos hC, if_pos (show (gmm mu L ld lw).cov = Cov.full from rfl),
    compLoop_eq comb _ _ (fun j => if hj : j < C then y ⟨j, hj⟩ else 0) C 0 out (by omega) (fun j _ hj => by rw [dif_pos (by omega)]; exact hy1 ⟨j, by omega⟩)]
  simp only [List.take_zero, List.nil_append, Option.map_some, Option.some.injEq, Prod.mk.injEq, true_and]
  rw [List.drop_eq_nil_of_le (by omega), List.append_nil]
  apply List.ext_getElem
  · simp
  · intro j h1 h2
    have hj : j < C := by simpa using h2
    simp [hj]

omit [Mul F] in
/-- **C107 (score and responsibilities).** If the component values are within `e` of numbers `v c` of magnitude at most `Y - e` (`C107_log_proba`), the score is within `omg + e` of the logarithm of the summed densities `Σ exp (v c)`,
and each responsibility within `softErr` of `exp (v c) / Σ exp (v c)`. -/
theorem C107_lse [LT F] [DecidableLT F] {uf : ℝ} {exp log : F → F} {lo hi : F} (h : LseArith R P uf 0 hi (· + ·) (· - ·) exp log (fun a b => decide (a < b))) {C : Nat} (hC : 0 < C) {e Y : ℝ} (y : Fin C → F) (v : Fin C → ℝ)
    (hy : ∀ c, Close R e (y c) (v c)) (hY : ∀ c, |v c| + e ≤ Y) (hr : SoftRange P uf C Y) :
    Close R (omg P uf C Y + e) (logsumexpG exp log lo hi (List.ofFn y)) (Real.log (∑ c, Real.exp (v c))) ∧
    ∀ c, Close R (softErr P uf C Y e) (exp (y c - logsumexpG exp log lo hi (List.ofFn y))) (Real.exp (v c) / ∑ c', Real.exp (v c')) := by
  have hz : List.Forall₂ (Close R e) (List.ofFn y) (List.ofFn v) := by
    rw [List.forall₂_iff_get]
    refine ⟨by simp, fun i h1 h2 => by simpa using hy ⟨i, by simpa using h1⟩⟩
  have hYz : ∀ a ∈ List.ofFn y, |R.val a| ≤ Y := by
    intro a ha
    obtain ⟨c, rfl⟩ := List.mem_ofFn.1 ha
    exact ((hy c).abs_le).trans (hY c)
  have hne : List.ofFn y ≠ [] := by intro h0; have := congrArg List.length h0; simp at this; omega
  have hlen : (List.ofFn y).length = C := by simp
  obtain ⟨top, t, htop, -, hoff, ht, hSr, hall⟩ := lse_error h hz hYz hne (by rw [hlen]; exact hr)
  rw [hlen] at hoff hall
  have hsum : Net.expSum (List.ofFn v) = ∑ c, Real.exp (v c) := by
    unfold Net.expSum
    rw [List.map_ofFn, List.sum_ofFn]
    rfl
  have hmax : ∀ (l : List F) (a b : F), (l.foldl (fun s v => (if v < s.1 then v else s.1, if v > s.2 then v else s.2)) (a, b)).2 = l.foldl (fun m x => if decide (m < x) = true then x else m) b := by
    intro l
    induction l with
    | nil => intro a b; rfl
    | cons w l ih =>
      intro a b
      rw [List.foldl_cons, List.foldl_cons, ih]
      congr 1
      by_cases hc : b < w
      · rw [if_pos hc, if_pos (decide_eq_true hc)]
      · rw [if_neg hc, if_neg (by simpa using hc)]
  have hlse : logsumexpG exp log lo hi (List.ofFn y) = log (((List.ofFn y).map fun a => exp (a - top)).foldl (· + ·) 0) + top := by
    unfold logsumexpG minmax
    simp only [hmax, htop, List.foldl_map]
  rw [hlse]
  refine ⟨⟨hoff.1, ?_⟩, fun c => ?_⟩
  · rw [hsum] at ht
    have e1 : ∀ a b c : ℝ, a - c = (a - b) + (b - c) := fun a b c => by ring
    rw [e1 _ t]
    exact (abs_add_le _ _).trans (add_le_add hoff.2 ht)
  · have hk : (1 : ℝ) ≤ C := by exact_mod_cast hC
    have hY0 : 0 ≤ Y := (abs_nonneg _).trans (hYz (y c) (List.mem_ofFn.2 ⟨c, rfl⟩))
    have := resp_error h hr (lam_nonneg h.hf hY0 (Real.log_nonneg hk)) hoff ht hSr (hy c) (List.mem_ofFn.2 ⟨c, rfl⟩) (hall _ (List.mem_ofFn.2 ⟨c, rfl⟩)).1 (hall _ (List.mem_ofFn.2 ⟨c, rfl⟩)).2
    rw [hsum] at this
    exact this

/-- **C107 (predict_proba).** The whole call in rounded arithmetic: it succeeds, the score is near the log likelihood and the responsibilities near the exact ones. -/
theorem C107_predict_proba [LT F] [DecidableLT F] (h : BasicArith (F := F) R P) {uc log2pi uf : ℝ} {comb : Nat → F → F → F} (hcomb : CombOk R P uc log2pi comb) (huc : 0 ≤ uc) (h2pi : 0 ≤ log2pi) {exp log : F → F} {lo hi : F}
    (hl : LseArith R P uf 0 hi (· + ·) (· - ·) exp log (fun a b => decide (a < b))) {C n : Nat} (hC : 0 < C) {dx dm dp dd dw e Y : ℝ}
    (mu : Fin C → Fin n → F) (L : Fin C → Matrix (Fin n) (Fin n) F) (ld lw : Fin C → F) (x : Fin n → F) (mu' : Fin C → Fin n → ℝ) (L' : Fin C → Matrix (Fin n) (Fin n) ℝ) (ld' lw' : Fin C → ℝ) (x' : Fin n → ℝ) (v : Fin C → ℝ)
    (hv : ∀ c, v c = -(1 / 2) * (n * log2pi + ((x' - mu' c) ᵥ* L' c) ⬝ᵥ ((x' - mu' c) ᵥ* L' c)) + ld' c + lw' c)
    (hx : ∀ i, Close R dx (x i) (x' i)) (hm : ∀ c i, Close R dm (mu c i) (mu' c i)) (hL : ∀ c i j, Close R dp (L c i j) (L' c i j)) (hd : ∀ c, Close R dd (ld c) (ld' c)) (hw : ∀ c, Close R dw (lw c) (lw' c))
    (hr : ∀ c, MixRange P uc log2pi dx dm dp dd dw x' (mu' c) (L' c) (ld' c) (lw' c)) (he : ∀ c, compErr P uc log2pi dx dm dp dd dw x' (mu' c) (L' c) (ld' c) (lw' c) ≤ e) (hY : ∀ c, |v c| + e ≤ Y) (hs : SoftRange P uf C Y)
    (out : List F) (hout : out.length = C) :
    ∃ (s : F) (r : Fin C → F), predictProbaG exp log lo hi comb (gmm mu L ld lw) (List.ofFn x) out = some (0, some s, List.ofFn r) ∧
      Close R (omg P uf C Y + e) s (Real.log (∑ c, Real.exp (v c))) ∧ ∀ c, Close R (softErr P uf C Y e) (r c) (Real.exp (v c) / ∑ c', Real.exp (v c')) := by
  obtain ⟨y, e1, hy⟩ := C107_log_proba h hcomb huc h2pi hC mu L ld lw x mu' L' ld' lw' x' hx hm hL hd hw hr out hout
  obtain ⟨h1, h2⟩ := C107_lse (lo := lo) hl hC y v (fun c => by rw [hv c]; exact (hy c).mono (he c)) hY hs
  refine ⟨_, _, ?_, h1, h2⟩
  have hn : (gmm mu L ld lw).nComponents = C := by simp [gmm, generate, rows]
  unfold predictProbaG scoreG
  rw [e1, Option.bind_some, hn, if_pos rfl, if_pos (by simp), Option.bind_some]
  simp only
  rw [List.take_of_length_le (by simp), List.map_ofFn]
  rfl

/-! ### From the generated text -/

/-- **C107** (from the text). The text generated for a mixture whose numbers are at most `B` in magnitude, read as C and run in `float` arithmetic on values that are known up to `dx`: `<name>_predict_proba` returns 0, and stores
component values within `e` of the weighted log densities of the trained mixture, a score within `omg + e` of its log likelihood and responsibilities within `softErr` of the exact ones; the stored numbers are off by at most `constErr`. -/
theorem C107_text [LT F] [DecidableLT F] (h : BasicArith (F := F) R P) (ops : CFloat F) (hlit : LitOk R P ops) {uc log2pi uf : ℝ} {comb : Nat → F → F → F} (hcomb : CombOk R P uc log2pi comb) (huc : 0 ≤ uc) (h2pi : 0 ≤ log2pi)
    {exp log : F → F} {lo hi : F} (hl : LseArith R P uf 0 hi (· + ·) (· - ·) exp log (fun a b => decide (a < b))) (other : ℚ → List Char) (pre : List Char) {C n : Nat} (mu : Fin C → Fin n → ℚ) (L : Fin C → Matrix (Fin n) (Fin n) ℚ)
    (ld lw : Fin C → ℚ) (ha : CText.MixtureArgs pre (rows mu) (List.ofFn fun c => rows (L c)) (List.ofFn ld) (List.ofFn lw) n) (fuel depth : Nat) {B : ℝ} (hM : B + 1 / (2 * 10 ^ 6) ≤ P.M) (hmu : ∀ c i, |(mu c i : ℝ)| ≤ B)
    (hL : ∀ c i j, |(L c i j : ℝ)| ≤ B) (hld : ∀ c, |(ld c : ℝ)| ≤ B) (hlw : ∀ c, |(lw c : ℝ)| ≤ B) :
    ∃ text prog, CText.generateText other pre (rows mu) (List.ofFn fun c => rows (L c)) (List.ofFn ld) (List.ofFn lw) n .full = some text ∧ parse text = some prog ∧
      ∀ (dx e Y : ℝ) (x : Fin n → F) (x' : Fin n → ℝ) (v : Fin C → ℝ), (∀ i, Close R dx (x i) (x' i)) →
        (∀ c, v c = -(1 / 2) * (n * log2pi + ((x' - fun i => (mu c i : ℝ)) ᵥ* Matrix.of fun i j => (L c i j : ℝ)) ⬝ᵥ ((x' - fun i => (mu c i : ℝ)) ᵥ* Matrix.of fun i j => (L c i j : ℝ))) + ld c + lw c) →
        (∀ c, MixRange P uc log2pi dx (constErr P B) (constErr P B) (constErr P B) (constErr P B) x' (fun i => (mu c i : ℝ)) (Matrix.of fun i j => (L c i j : ℝ)) (ld c) (lw c)) →
        (∀ c, compErr P uc log2pi dx (constErr P B) (constErr P B) (constErr P B) (constErr P B) x' (fun i => (mu c i : ℝ)) (Matrix.of fun i j => (L c i j : ℝ)) (ld c) (lw c) ≤ e) →
        (∀ c, |v c| + e ≤ Y) → SoftRange P uf C Y →
        ∀ (outs s resp : List (Option (Val F))), outs.length = C → s.length = 1 → resp.length = C →
        ∃ (y : Fin C → F) (sc : F) (r : Fin C → F),
          callFunc ops (CText.mixtureLib ops comb (logsumexpG exp log lo hi) exp prog) prog fuel (depth + 2) (pre ++ "_predict_proba".toList)
              [.arr "float".toList (List.ofFn fun i => some (.flt (x i))), .num (.int n), .arr "float".toList outs, .arr "float".toList s, .arr "float".toList resp] =
            some (.int 0, [(2, List.ofFn fun c => some (.flt (y c))), (3, [some (.flt sc)]), (4, List.ofFn fun c => some (.flt (r c)))]) ∧
          (∀ c, Close R e (y c) (v c)) ∧ Close R (omg P uf C Y + e) sc (Real.log (∑ c, Real.exp (v c))) ∧ ∀ c, Close R (softErr P uf C Y e) (r c) (Real.exp (v c) / ∑ c', Real.exp (v c')) := by
  obtain ⟨text, prog, h1, h2, h3⟩ := CText.C92_predict_proba ops other pre _ _ _ _ n comb (logsumexpG exp log lo hi) exp fuel depth ha
  refine ⟨text, prog, h1, h2, ?_⟩
  intro dx e Y x x' v hx hv hr he hY hs outs s resp ho hs1 hre
  have hrows : (rows mu).length = C := by simp [rows]
  have hC : 0 < C := by have := ha.components.1; rw [hrows] at this; omega
  have hn : (n : Int) ≤ 2147483647 := by have := ha.features.2; omega
  have hw : CText.writtenModel ops (rows mu) (List.ofFn fun c => rows (L c)) (List.ofFn ld) (List.ofFn lw) n =
      gmm (fun c f => floatLit ops (mu c f)) (fun c => Matrix.of fun i j => floatLit ops (L c i j)) (fun c => floatLit ops (ld c)) (fun c => floatLit ops (lw c)) := by
    unfold CText.writtenModel gmm rows
    simp only [List.map_ofFn, Function.comp_def]
    rfl
  obtain ⟨y, ey, hy⟩ := C107_log_proba h hcomb huc h2pi hC (fun c f => floatLit ops (mu c f)) (fun c => Matrix.of fun i j => floatLit ops (L c i j)) (fun c => floatLit ops (ld c)) (fun c => floatLit ops (lw c)) x
    (fun c i => (mu c i : ℝ)) (fun c => Matrix.of fun i j => (L c i j : ℝ)) (fun c => (ld c : ℝ)) (fun c => (lw c : ℝ)) x' hx (fun c i => floatLit_close hlit hM _ (hmu c i)) (fun c i j => floatLit_close hlit hM _ (hL c i j))
    (fun c => floatLit_close hlit hM _ (hld c)) (fun c => floatLit_close hlit hM _ (hlw c)) hr (List.replicate outs.length 0) (by simp [ho])
  have hy' : ∀ c, Close R e (y c) (v c) := fun c => by rw [hv c]; exact (hy c).mono (he c)
  obtain ⟨l1, l2⟩ := C107_lse (lo := lo) hl hC y v hy' hY hs
  refine ⟨y, _, _, ?_, hy', l1, l2⟩
  have key := h3 (List.ofFn x) n outs s resp (by omega) hn (by omega) (by rw [hrows, hre])
  rw [hw, ey, hrows, Option.map_some, List.take_of_length_le (by simp), List.drop_of_length_le (show s.length ≤ 1 by omega), List.map_ofFn, List.map_ofFn] at key
  simp only [if_true] at key
  have hover : ∀ (f : Fin C → F) (vs : List (Option (Val F))), vs.length = C → CText.overwrite (List.ofFn f) vs = List.ofFn fun c => some (.flt (f c)) := by
    intro f vs hvs
    unfold CText.overwrite
    rw [List.drop_of_length_le (by simp [hvs]), List.append_nil, List.map_ofFn]
    rfl
  rw [hover _ _ ho, hover _ _ hre] at key
  exact key

end

/-! ### Binary32 -/

section
open Binary32

/-- The constant `EML_LOG_2PI` is `log 2π` to eight decimals. -/
theorem log2pi_close : |(18378770664093453 / 10 ^ 16 : ℝ) - Real.log (2 * Real.pi)| ≤ 1 / 10 ^ 8 := by
  have p1 := Real.pi_gt_d20
  have p2 := Real.pi_lt_d20
  have hpos : 0 < 2 * Real.pi := by linarith
  have e1 := Real.exp_one_gt_d9
  have e2 := Real.exp_one_lt_d9
  have key : ∀ x : ℝ, 0 ≤ x → x ≤ 1 → |Real.exp x - ∑ m ∈ Finset.range 13, x ^ m / m.factorial| ≤ x ^ 13 * ((Nat.succ 13 : ℕ) / ((Nat.factorial 13 : ℕ) * (13 : ℕ) : ℝ)) := by
    intro x h0 h1
    have := Real.exp_bound (x := x) (by rw [abs_of_nonneg h0]; exact h1) (n := 13) (by norm_num)
    rwa [abs_of_nonneg h0] at this
  rw [abs_le]
  constructor
  · have h' := (abs_le.1 (key (8378770664093453 / 10 ^ 16 + 1 / 10 ^ 8) (by norm_num) (by norm_num))).1
    have : 2 * Real.pi ≤ Real.exp (18378770664093453 / 10 ^ 16 + 1 / 10 ^ 8) := by
      rw [show (18378770664093453 / 10 ^ 16 + 1 / 10 ^ 8 : ℝ) = 1 + (8378770664093453 / 10 ^ 16 + 1 / 10 ^ 8) by norm_num, Real.exp_add]
      have hl : (2.31145472 : ℝ) ≤ Real.exp (8378770664093453 / 10 ^ 16 + 1 / 10 ^ 8) := by
        simp only [Finset.sum_range_succ, Finset.sum_range_zero, Nat.factorial] at h'
        norm_num at h' ⊢
        linarith
      have := mul_le_mul e1.le hl (by norm_num) (Real.exp_pos 1).le
      norm_num at this p2 ⊢
      linarith
    have := Real.log_le_log hpos this
    rw [Real.log_exp] at this
    linarith
  · have h' := (abs_le.1 (key (8378770664093453 / 10 ^ 16 - 1 / 10 ^ 8) (by norm_num) (by norm_num))).2
    have : Real.exp (18378770664093453 / 10 ^ 16 - 1 / 10 ^ 8) ≤ 2 * Real.pi := by
      rw [show (18378770664093453 / 10 ^ 16 - 1 / 10 ^ 8 : ℝ) = 1 + (8378770664093453 / 10 ^ 16 - 1 / 10 ^ 8) by norm_num, Real.exp_add]
      have hl : Real.exp (8378770664093453 / 10 ^ 16 - 1 / 10 ^ 8) ≤ (2.31145468 : ℝ) := by
        simp only [Finset.sum_range_succ, Finset.sum_range_zero, Nat.factorial] at h'
        norm_num at h' ⊢
        linarith
      have := mul_le_mul e2.le hl (Real.exp_pos _).le (by norm_num)
      norm_num at this p1 ⊢
      linarith
    have := Real.log_le_log (Real.exp_pos _) this
    rw [Real.log_exp] at this
    linarith

/-- Line 234 of `eml_mixture.h`, with the constant `EML_LOG_2PI`, rounded to binary32. -/
noncomputable def comb32 (n : Nat) (q d : F32) : F32 := rnd (-(1 / 2) * (n * (18378770664093453 / 10 ^ 16) + q.val) + d.val)

theorem log2pi_bounds : 1.83 ≤ Real.log (2 * Real.pi) ∧ Real.log (2 * Real.pi) ≤ 1.84 := by
  obtain ⟨h1, h2⟩ := abs_le.1 log2pi_close
  norm_num at h1 h2 ⊢
  constructor <;> linarith

/-- The combination is accurate for the true `log 2π`. -/
theorem comb32_ok : CombOk fmt acc (1 / 2 ^ 23) (Real.log (2 * Real.pi)) comb32 := by
  intro n q d hq hd hM
  obtain ⟨b1, b2⟩ := log2pi_bounds
  have hc := log2pi_close
  generalize Real.log (2 * Real.pi) = c at *
  have hη : acc.η = 1 / 2 ^ 150 := rfl
  show (|fl _| ≤ maxFinite) ∧ |fl _ - (-(1 / 2) * (n * c + q.val) + d.val)| ≤ _
  have hM' : (1 + 1 / 2 ^ 23) * ((n * c + |q.val|) / 2 + |d.val|) + acc.η ≤ maxFinite := hM
  show _ ∧ _ ≤ 1 / 2 ^ 23 * ((n * c + |q.val|) / 2 + |d.val|) + acc.η
  have hn : (0 : ℝ) ≤ n := Nat.cast_nonneg n
  obtain ⟨T, hT⟩ : ∃ T, T = (n * c + |q.val|) / 2 + |d.val| := ⟨_, rfl⟩
  rw [← hT] at hM' ⊢
  obtain ⟨w, hw⟩ : ∃ w, w = -(1 / 2) * (n * c + q.val) + d.val := ⟨_, rfl⟩
  obtain ⟨w', hw'⟩ : ∃ w', w' = -(1 / 2) * (n * (18378770664093453 / 10 ^ 16) + q.val) + d.val := ⟨_, rfl⟩
  rw [← hw, ← hw']
  have hnT : n * c / 2 ≤ T := by have := abs_nonneg q.val; have := abs_nonneg d.val; rw [hT]; linarith
  have hnT' : (n : ℝ) * (1.83 / 2) ≤ T := by
    have := mul_le_mul_of_nonneg_left b1 hn
    linarith
  have hdiff : |w' - w| ≤ 1 / 10 ^ 8 * T := by
    have e : w' - w = -(1 / 2) * (n * ((18378770664093453 / 10 ^ 16) - c)) := by rw [hw, hw']; ring
    rw [e, abs_mul, abs_mul, abs_of_nonneg hn, abs_neg, abs_of_pos (by norm_num : (0 : ℝ) < 1 / 2)]
    have := mul_le_mul_of_nonneg_left hc hn
    norm_num at hnT' this ⊢
    linarith
  have hwT : |w| ≤ T := by
    rw [hw]
    refine (abs_add_le _ _).trans ?_
    rw [abs_mul, abs_neg, abs_of_pos (by norm_num : (0 : ℝ) < 1 / 2)]
    have := abs_add_le (n * c) q.val
    rw [abs_of_nonneg (show 0 ≤ n * c by nlinarith)] at this
    rw [hT]
    linarith
  have hw'T : |w'| ≤ (1 + 1 / 10 ^ 8) * T := by
    have := abs_sub_abs_le_abs_sub w' w
    linarith
  have hT0 : 0 ≤ T := (abs_nonneg _).trans hwT
  refine ⟨fl_fin _ (hw'T.trans ?_), ?_⟩
  · refine le_trans ?_ hM'
    rw [hη]
    norm_num
    linarith
  · have e : fl w' - w = (fl w' - w') + (w' - w) := by ring
    rw [e]
    refine (abs_add_le _ _).trans ?_
    have h1 := fl_error_any w'
    have h2 := mul_le_mul_of_nonneg_left hw'T (show (0 : ℝ) ≤ 1 / 2 ^ 24 by norm_num)
    rw [hη]
    norm_num at h1 h2 hdiff ⊢
    linarith

theorem lse32 : LseArith fmt acc (1 / 2 ^ 23) (0 : F32) Binary32.negInf (· + ·) (· - ·) ops32.exp ops32.log (fun a b => decide (a < b)) where
  hf := netArith.hf
  zero := netArith.zero
  negInf a ha := by
    have := netArith.negInf a ha
    have h2 : Binary32.negInf.val < a.val := of_decide_eq_true this
    exact decide_eq_true h2
  lt a b _ _ := by
    rw [decide_eq_true_iff]
    exact Iff.rfl
  add := addOk
  sub := subOk
  exp := netArith.exp
  log := netArith.log

/-- A mixture of three components over one feature. -/
def exMu : Fin 3 → Fin 1 → ℚ := ![![0], ![2], ![-1]]
def exL : Fin 3 → Matrix (Fin 1) (Fin 1) ℚ := ![!![1], !![1], !![1 / 2]]
def exLd : Fin 3 → ℚ := ![0, 1 / 10, -7 / 10]
def exLw : Fin 3 → ℚ := ![-1, -1, -3 / 2]

theorem ex_mix_args : CText.MixtureArgs "gmm".toList (rows exMu) (List.ofFn fun c => rows (exL c)) (List.ofFn exLd) (List.ofFn exLw) 1 := by
  refine ⟨by decide +kernel, by decide +kernel, by decide +kernel, by decide +kernel, by decide, by decide +kernel, by decide +kernel, by decide +kernel, by decide +kernel⟩

/-- Its exact component values at `x = 1`. -/
noncomputable def exV : Fin 3 → ℝ := ![-(1 / 2) * (Real.log (2 * Real.pi) + 1) - 1, -(1 / 2) * (Real.log (2 * Real.pi) + 1) + 1 / 10 - 1, -(1 / 2) * (Real.log (2 * Real.pi) + 1) - 7 / 10 - 3 / 2]

theorem ex_mix_range (c : Fin 3) : MixRange acc (1 / 2 ^ 23) (Real.log (2 * Real.pi)) (1 / 10 ^ 6) (constErr acc 3) (constErr acc 3) (constErr acc 3) (constErr acc 3) (fun _ => 1) (fun i => (exMu c i : ℝ))
      (Matrix.of fun i j => (exL c i j : ℝ)) (exLd c) (exLw c) ∧
    compErr acc (1 / 2 ^ 23) (Real.log (2 * Real.pi)) (1 / 10 ^ 6) (constErr acc 3) (constErr acc 3) (constErr acc 3) (constErr acc 3) (fun _ => 1) (fun i => (exMu c i : ℝ)) (Matrix.of fun i j => (exL c i j : ℝ)) (exLd c) (exLw c)
      ≤ 1 / 10 ^ 4 := by
  obtain ⟨b1, b2⟩ := log2pi_bounds
  have hb := big
  have hM : acc.M = maxFinite := rfl
  have hu : acc.u = 1 / 2 ^ 24 := rfl
  have hη : acc.η = 1 / 2 ^ 150 := rfl
  generalize Real.log (2 * Real.pi) = g at *
  norm_num at hb b1 b2
  revert c
  simp only [Fin.forall_fin_succ, Fin.forall_fin_zero, exMu, exL, exLd, exLw]
  refine ⟨⟨⟨?_, ?_, ?_, ?_, ?_, ?_, ?_⟩, ?_⟩, ⟨⟨?_, ?_, ?_, ?_, ?_, ?_, ?_⟩, ?_⟩, ⟨⟨?_, ?_, ?_, ?_, ?_, ?_, ?_⟩, ?_⟩, trivial⟩ <;>
  · simp [dotMag, dotAbs, whiteMag, whiteAbs, sqAbs, quadMag, quadErr, combErr, compErr, mulAbs, constErr, hu, hη, hM]
    try norm_num
    try linarith
/-- The generated text of this mixture, run in binary32 at `x = 1`: component values, score and responsibilities are right to better than three decimals. -/
example : ∃ text prog, CText.generateText (fun _ => []) "gmm".toList (rows exMu) (List.ofFn fun c => rows (exL c)) (List.ofFn exLd) (List.ofFn exLw) 1 .full = some text ∧ parse text = some prog ∧
    ∃ (y : Fin 3 → F32) (sc : F32) (r : Fin 3 → F32),
      callFunc c32 (CText.mixtureLib c32 comb32 (logsumexpG ops32.exp ops32.log 0 Binary32.negInf) ops32.exp prog) prog 0 2 ("gmm".toList ++ "_predict_proba".toList)
          [.arr "float".toList (List.ofFn fun _ : Fin 1 => some (.flt (rnd 1))), .num (.int 1), .arr "float".toList [none, none, none], .arr "float".toList [none], .arr "float".toList [none, none, none]] =
        some (.int 0, [(2, List.ofFn fun c => some (.flt (y c))), (3, [some (.flt sc)]), (4, List.ofFn fun c => some (.flt (r c)))]) ∧
      (∀ c, Close fmt (1 / 10 ^ 4) (y c) (exV c)) ∧ Close fmt (1 / 10 ^ 3) sc (Real.log (∑ c, Real.exp (exV c))) ∧ ∀ c, Close fmt (1 / 10 ^ 3) (r c) (Real.exp (exV c) / ∑ c', Real.exp (exV c')) := by
  obtain ⟨b1, b2⟩ := log2pi_bounds
  have hb := big
  have hM : acc.M = maxFinite := rfl
  have hu : acc.u = 1 / 2 ^ 24 := rfl
  have hη : acc.η = 1 / 2 ^ 150 := rfl
  norm_num at hb b1 b2
  obtain ⟨text, prog, h1, h2, h3⟩ := C107_text basic32 c32 lit32 comb32_ok (by norm_num) (by linarith) (lo := 0) lse32 (fun _ => []) "gmm".toList exMu exL exLd exLw ex_mix_args 0 0 (B := 3)
    (by rw [hM]; norm_num; linarith)
    (by simp only [Fin.forall_fin_succ, Fin.forall_fin_zero, exMu]; simp; norm_num) (by simp only [Fin.forall_fin_succ, Fin.forall_fin_zero, exL]; simp; norm_num)
    (by simp only [Fin.forall_fin_succ, Fin.forall_fin_zero, exLd]; simp [abs_le]; norm_num) (by simp only [Fin.forall_fin_succ, Fin.forall_fin_zero, exLw]; simp [abs_le]; norm_num)
  refine ⟨text, prog, h1, h2, ?_⟩
  have hx : Close fmt (1 / 10 ^ 6) (rnd 1) 1 := by
    refine ⟨fl_fin 1 (by norm_num; linarith), (fl_error_any 1).trans ?_⟩
    norm_num
  obtain ⟨s1, -, -, -, s2, s3, s4⟩ := ex_softmax
  obtain ⟨y, sc, r, e, c1, c2, c3⟩ := h3 (1 / 10 ^ 6) (1 / 10 ^ 4) 10 (fun _ => rnd 1) (fun _ => 1) exV (fun _ => hx)
    (by
      simp only [Fin.forall_fin_succ, Fin.forall_fin_zero, exMu, exL, exLd, exLw, exV, dotProduct, vecMul, Fin.sum_univ_one]
      simp
      generalize Real.log (2 * Real.pi) = g
      refine ⟨?_, ?_, ?_⟩ <;> ring)
    (fun c => (ex_mix_range c).1) (fun c => (ex_mix_range c).2)
    (by
      simp only [Fin.forall_fin_succ, Fin.forall_fin_zero, exV]
      generalize Real.log (2 * Real.pi) = g at *
      simp
      refine ⟨?_, ?_, ?_⟩ <;> rw [← le_sub_iff_add_le, abs_le] <;> constructor <;> linarith)
    s1 [none, none, none] [none] [none, none, none] rfl rfl rfl
  refine ⟨y, sc, r, e, c1, c2.mono ?_, fun c => (c3 c).mono ?_⟩
  · norm_num at s2 ⊢
    linarith
  · unfold softErr
    have := exp_small (x := alp acc (1 / 2 ^ 23) 3 10 + 2 * (1 / 10 ^ 4)) (by positivity) (by norm_num at s4 ⊢; linarith)
    rw [hη]
    norm_num at this s4 ⊢
    linarith
end

end Emlearn.Flt
