/- Properties C80 and C81: the fixed point naive Bayes classifier against the exact Gaussian densities. -/
import Verif.Bayes.Accuracy
namespace Emlearn.Bayes
open Emlearn.Quant

/-! ### C80: one density -/

/-- Exact binary log-density of the normal distribution with mean `mean/2^16` and standard deviation `std/2^16` at `x/2^16` (Mathlib's density). -/
noncomputable def exactLog2 (x mean std : Int) : ℝ :=
  Real.logb 2 (ProbabilityTheory.gaussianPDFReal ((mean : ℝ) / 65536) (Real.toNNReal (((std : ℝ) / 65536) ^ 2)) ((x : ℝ) / 65536))

/-- Distance from the mean in standard deviations. -/
noncomputable def zscore (x mean std : Int) : ℝ := |((x - mean : Int) : ℝ)| / std

/-- **C80** For every Q16 mean, positive Q16 standard deviation and Q16 input within 181 standard deviations of the mean, and every stored `log2(std)` of magnitude at most 1024: the log-density is computed (no overflow, no division by
zero), it differs from the exact binary logarithm of the normal density by at most `z²/760 + z/170 + 1/256` plus the error of the stored `log2(std)`, where `z` is the distance from the mean in standard deviations, and its magnitude is at most
`3/4 z² + 2 + |log2(std)|`. -/
theorem C80_logpdf_accurate (x mean std l : Int) (hs : 0 < std) (hd : InI32 (x - mean)) (hz : |x - mean| ≤ 181 * std) (hl : |l| ≤ 1024 * 65536) :
    ∃ p : Int, logpdf x mean std l = .ok p ∧
      |(p : ℝ) / 65536 - exactLog2 x mean std| ≤
        zscore x mean std ^ 2 / 760 + zscore x mean std / 170 + 1 / 256 + |(l : ℝ) / 65536 - Real.logb 2 ((std : ℝ) / 65536)| ∧
      |(p : ℝ)| / 65536 ≤ 3 / 4 * zscore x mean std ^ 2 + 2 + |(l : ℝ)| / 65536 := by
  have hs' : (0:ℝ) < std := by exact_mod_cast hs
  have hq0 : 0 ≤ zq (x - mean) std := Int.ediv_nonneg (by have := abs_nonneg (x - mean); omega) hs.le
  have hq1 : zq (x - mean) std ≤ 181 * 65536 := by
    unfold zq
    apply Int.le_of_lt_add_one
    rw [Int.ediv_lt_iff_lt_mul hs]
    have : std / 2 < std := by omega
    nlinarith
  have hfit : InI32 (-(185 * (zq (x - mean) std / 256 * (zq (x - mean) std / 256) / 256)) - 86884 - l) := by
    have hu0 : 0 ≤ zq (x - mean) std / 256 := by omega
    have hu1 : zq (x - mean) std / 256 ≤ 46336 := by omega
    generalize zq (x - mean) std / 256 = u at *
    have hw0 : 0 ≤ u * u := by nlinarith
    have hw1 : u * u ≤ 46336 * 46336 := by nlinarith
    have := abs_le.1 hl
    constructor <;> omega
  refine ⟨_, logpdf_value x mean std l hs hd hz hfit, ?_, ?_⟩
  all_goals
    have hc := half_log2_e
    have hp := logb_pi
    have hq := quad_error (x - mean) std hs _ hc.1 hc.2
    simp only at hq
    change _ - _ * zscore x mean std ^ 2 ≤ zscore x mean std ^ 2 / 760 + zscore x mean std / 170 + _ ∧ _ * zscore x mean std ^ 2 - _ ≤ zscore x mean std ^ 2 / 760 + zscore x mean std / 170 + _ at hq
    have hz0 : 0 ≤ zscore x mean std := by unfold zscore; positivity
    generalize hT : ((185 * (zq (x - mean) std / 256 * (zq (x - mean) std / 256) / 256) : Int) : ℝ) / 65536 = T at hq
    have hval : (((-(185 * (zq (x - mean) std / 256 * (zq (x - mean) std / 256) / 256)) - 86884 - l : Int)) : ℝ) / 65536 = -T - 86884 / 65536 - (l:ℝ) / 65536 := by
      rw [← hT]; push_cast; ring
  · rw [hval]
    unfold exactLog2
    rw [logb_gauss _ ((std:ℝ) / 65536) _ (by positivity) _ (Real.coe_toNNReal _ (by positivity))]
    have ez : (((x:ℝ) / 65536 - (mean:ℝ) / 65536) / ((std:ℝ) / 65536)) ^ 2 = zscore x mean std ^ 2 := by
      unfold zscore
      rw [div_pow, div_pow (abs _), sq_abs]
      push_cast
      field_simp
    rw [ez]
    have e : -T - 86884 / 65536 - (l:ℝ) / 65536 - (-(1 / (2 * Real.log 2)) * zscore x mean std ^ 2 - (1 + Real.logb 2 Real.pi) / 2 - Real.logb 2 ((std:ℝ) / 65536))
        = (1 / (2 * Real.log 2) * zscore x mean std ^ 2 - T + ((1 + Real.logb 2 Real.pi) / 2 - 86884 / 65536)) + -((l:ℝ) / 65536 - Real.logb 2 ((std:ℝ) / 65536)) := by ring
    rw [e]
    refine le_trans (abs_add_le _ _) ?_
    rw [abs_neg]
    apply add_le_add_left
    rw [abs_le]
    obtain ⟨hp1, hp2⟩ := hp
    generalize 1 / (2 * Real.log 2) = c at *
    norm_num at hp1 hp2 ⊢
    constructor
    · linarith [hq.1]
    · linarith [hq.2]
  · have hT0 : 0 ≤ T := by
      rw [← hT]
      have hu0 : 0 ≤ zq (x - mean) std / 256 := by omega
      have : (0:Int) ≤ 185 * (zq (x - mean) std / 256 * (zq (x - mean) std / 256) / 256) := by
        have hw0 : 0 ≤ zq (x - mean) std / 256 * (zq (x - mean) std / 256) := mul_nonneg hu0 hu0
        omega
      have : (0:ℝ) ≤ ((185 * (zq (x - mean) std / 256 * (zq (x - mean) std / 256) / 256) : Int) : ℝ) := by exact_mod_cast this
      positivity
    rw [show |(((-(185 * (zq (x - mean) std / 256 * (zq (x - mean) std / 256) / 256)) - 86884 - l : Int)) : ℝ)| / 65536 = |-T - 86884 / 65536 - (l:ℝ) / 65536| by
      rw [← hval, abs_div]; norm_num]
    have h1 : |-T - 86884 / 65536 - (l:ℝ) / 65536| ≤ |-T - 86884 / 65536| + |(l:ℝ)| / 65536 := by
      refine le_trans (abs_sub _ _) ?_
      rw [abs_div]; norm_num
    refine le_trans h1 ?_
    apply add_le_add_left
    rw [abs_le]
    have hcz : 1 / (2 * Real.log 2) * zscore x mean std ^ 2 ≤ 0.7213476 * zscore x mean std ^ 2 := mul_le_mul_of_nonneg_right hc.2 (sq_nonneg _)
    have hzz := sq_nonneg (zscore x mean std)
    have hz1 := sq_nonneg (zscore x mean std - 1)
    generalize 1 / (2 * Real.log 2) = c at *
    norm_num at hcz ⊢
    constructor
    · nlinarith [hq.1]
    · nlinarith

/-- The hypotheses of C80 hold for a value two standard deviations from the mean. -/
example : (0:Int) < 32768 ∧ InI32 (131072 - 65536) ∧ |(131072 - 65536 : Int)| ≤ 181 * 32768 ∧ |(-65536 : Int)| ≤ 1024 * 65536 ∧ logpdf 131072 65536 32768 (-65536) = .ok (-210788) := by decide +kernel

/-- Beyond 181 standard deviations the squaring overflows. -/
theorem C80_domain_sharp : logpdf (182 * 65536) 0 65536 0 = .error .overflow := by decide +kernel

/-! ### C81: the classifier -/

/-- Exact score of a class: the sum over the features of the exact binary log-densities of the stored normal distributions at the Q16 inputs. -/
noncomputable def exactScore (nf : Nat) (tab : Nat → Nat → Summary) (x : Nat → Int) (c : Nat) : ℝ :=
  ∑ f ∈ Finset.range nf, exactLog2 (x f) (tab c f).mean (tab c f).std

/-- Error allowance of a class: the sum of the allowances of C80. -/
noncomputable def allowance (nf : Nat) (tab : Nat → Nat → Summary) (x : Nat → Int) (c : Nat) : ℝ :=
  ∑ f ∈ Finset.range nf, (zscore (x f) (tab c f).mean (tab c f).std ^ 2 / 760 + zscore (x f) (tab c f).mean (tab c f).std / 170 + 1 / 256 +
    |((tab c f).stdlog2 : ℝ) / 65536 - Real.logb 2 (((tab c f).std : ℝ) / 65536)|)

theorem classLoop_value (m : Model) (hm : WF m) (c : Nat) (hc : c < m.nClasses.toNat) (values : List ℝ) (hv : values.length = m.nFeatures.toNat)
    (d : Nat → Int)
    (hx : ∀ (f : Nat) (v : ℝ), values[f]? = some v → InI32 (fromFloat 16 v))
    (hd : ∀ (f : Nat) (v : ℝ) (s : Summary), values[f]? = some v → m.summaries[c * m.nFeatures.toNat + f]? = some s → logpdf (fromFloat 16 v) s.mean s.std s.stdlog2 = .ok (d f))
    (rest : List ℝ) (idx : Nat) (hrest : rest = values.drop idx) (p : Int)
    (hfit : |p| + ∑ f ∈ Finset.Ico idx values.length, |d f| ≤ 2147483647) :
    classLoop m c idx rest p = .ok (p + ∑ f ∈ Finset.Ico idx values.length, d f) := by
  induction rest generalizing idx p with
  | nil =>
    have : values.length ≤ idx := by
      by_contra hlt
      have := congrArg List.length hrest
      simp at this; omega
    rw [classLoop, Finset.Ico_eq_empty_of_le this]; simp
  | cons v vs ih =>
    have hlt : idx < values.length := by
      by_contra hcon
      rw [List.drop_eq_nil_of_le (by omega)] at hrest
      simp at hrest
    have hvi : values[idx]? = some v := by
      have := congrArg (fun l => l[0]?) hrest
      simp only [List.getElem?_cons_zero, List.getElem?_drop, Nat.add_zero] at this
      exact this.symm
    have hvs : vs = values.drop (idx + 1) := by
      have := congrArg List.tail hrest
      simpa using this
    obtain ⟨s, e1, e2⟩ := readAt_ok m hm c idx hc (by omega)
    rw [Finset.sum_eq_sum_Ico_succ_bot hlt] at hfit ⊢
    have hrestsum : 0 ≤ ∑ f ∈ Finset.Ico (idx + 1) values.length, |d f| := Finset.sum_nonneg (fun _ _ => abs_nonneg _)
    have hp := abs_le.1 (le_refl |p|)
    have hdi := abs_le.1 (le_refl |d idx|)
    have hpd : InI32 (p + d idx) := ⟨by omega, by omega⟩
    have hchk : ∀ {y : Int}, InI32 y → chk32 y = .ok y := by intro y hy; unfold chk32; rw [if_pos hy]
    have hih := ih (idx + 1) hvs (p + d idx) (by have := abs_add_le p (d idx); omega)
    rw [classLoop, e1]
    simp only [bind, Except.bind, hchk (hx idx v hvi), hd idx v s hvi e2, hchk hpd]
    rw [hih, add_assoc]

theorem scoresLoop_value (m : Model) (hm : WF m) (values : List ℝ) (score : Nat → Int)
    (hcl : ∀ c < m.nClasses.toNat, classLoop m c 0 values 0 = .ok (score c)) (n c : Nat) (hn : c + n = m.nClasses.toNat) (acc : List Int) :
    ∃ r, scoresLoop m values n c acc = .ok r := by
  induction n generalizing c acc with
  | zero => exact ⟨_, rfl⟩
  | succ n ih =>
    have hc10 : c < 10 := by have := hm.classes.2; omega
    rw [scoresLoop, hcl c (by omega)]
    simp only [bind, Except.bind]
    rw [if_pos hc10]
    exact ih (c + 1) (by omega) _

/-- Preconditions of C81 on one class: every feature is inside the domain of C80 and the sum of the magnitudes stays inside Q16. -/
structure InDomain (nf : Nat) (tab : Nat → Nat → Summary) (x : Nat → Int) (c : Nat) : Prop where
  std : ∀ f < nf, 0 < (tab c f).std
  diff : ∀ f < nf, InI32 (x f - (tab c f).mean)
  near : ∀ f < nf, |x f - (tab c f).mean| ≤ 181 * (tab c f).std
  log : ∀ f < nf, |(tab c f).stdlog2| ≤ 1024 * 65536
  sum : ∑ f ∈ Finset.range nf, (3 / 4 * zscore (x f) (tab c f).mean (tab c f).std ^ 2 + 2 + |((tab c f).stdlog2 : ℝ)| / 65536) ≤ 32767

/-- **C81** For every well-formed model (2 to 10 classes, any number of features) and every input inside the domain: the call returns a class (no fault), and the exact score of the returned class is at least the exact score of every other
class minus the two error allowances. Hence a class whose exact score leads every other by more than the allowances is the one returned. -/
theorem C81_predict_gaussian (m : Model) (hm : WF m) (values : List ℝ) (hv : values.length = m.nFeatures.toNat) (tab : Nat → Nat → Summary)
    (htab : ∀ c < m.nClasses.toNat, ∀ f < m.nFeatures.toNat, m.summaries[c * m.nFeatures.toNat + f]? = some (tab c f))
    (x : Nat → Int) (hx : ∀ (f : Nat) (v : ℝ), values[f]? = some v → x f = fromFloat 16 v ∧ InI32 (x f))
    (hdom : ∀ c < m.nClasses.toNat, InDomain m.nFeatures.toNat tab x c) :
    ∃ k : Nat, predict m values = .ok (k : Int) ∧ k < m.nClasses.toNat ∧
      (∀ c < m.nClasses.toNat, exactScore m.nFeatures.toNat tab x c ≤
        exactScore m.nFeatures.toNat tab x k + allowance m.nFeatures.toNat tab x c + allowance m.nFeatures.toNat tab x k) ∧
      ∀ c < m.nClasses.toNat, (∀ c' < m.nClasses.toNat, c' ≠ c → exactScore m.nFeatures.toNat tab x c' +
        allowance m.nFeatures.toNat tab x c' + allowance m.nFeatures.toNat tab x c < exactScore m.nFeatures.toNat tab x c) → k = c := by
  have hterm : ∀ c < m.nClasses.toNat, ∀ f < m.nFeatures.toNat, ∃ p : Int, logpdf (x f) (tab c f).mean (tab c f).std (tab c f).stdlog2 = .ok p ∧
      |(p : ℝ) / 65536 - exactLog2 (x f) (tab c f).mean (tab c f).std| ≤
        zscore (x f) (tab c f).mean (tab c f).std ^ 2 / 760 + zscore (x f) (tab c f).mean (tab c f).std / 170 + 1 / 256 + |((tab c f).stdlog2 : ℝ) / 65536 - Real.logb 2 (((tab c f).std : ℝ) / 65536)| ∧
      |(p : ℝ)| / 65536 ≤ 3 / 4 * zscore (x f) (tab c f).mean (tab c f).std ^ 2 + 2 + |((tab c f).stdlog2 : ℝ)| / 65536 := by
    intro c hc f hf
    have hD := hdom c hc
    exact C80_logpdf_accurate _ _ _ _ (hD.std f hf) (hD.diff f hf) (hD.near f hf) (hD.log f hf)
  choose! d hd1 hd2 hd3 using hterm
  have hlen : ∀ f v, values[f]? = some v → f < m.nFeatures.toNat := by
    intro f v h; rw [← hv]; exact (List.getElem?_eq_some_iff.1 h).1
  have hsum : ∀ c < m.nClasses.toNat, ∑ f ∈ Finset.Ico 0 values.length, |d c f| ≤ 2147483647 := by
    intro c hc
    have h1 : ∑ f ∈ Finset.range m.nFeatures.toNat, (|(d c f : ℝ)| / 65536) ≤ 32767 :=
      le_trans (Finset.sum_le_sum (fun f hf => hd3 c hc f (Finset.mem_range.1 hf))) (hdom c hc).sum
    rw [← Finset.sum_div, div_le_iff₀ (by norm_num)] at h1
    rw [hv, ← Finset.range_eq_Ico]
    have h2 : ((∑ f ∈ Finset.range m.nFeatures.toNat, |d c f| : Int) : ℝ) ≤ 32767 * 65536 := by push_cast; exact h1
    have h3 : (∑ f ∈ Finset.range m.nFeatures.toNat, |d c f| : Int) ≤ 32767 * 65536 := by exact_mod_cast h2
    omega
  have hcl : ∀ c < m.nClasses.toNat, classLoop m c 0 values 0 = .ok (∑ f ∈ Finset.Ico 0 values.length, d c f) := by
    intro c hc
    have := classLoop_value m hm c hc values hv (d c) (fun f v h => by rw [← (hx f v h).1]; exact (hx f v h).2) (by
      intro f v s h1 h2
      have hf := hlen f v h1
      rw [htab c hc f hf] at h2
      cases h2
      rw [← (hx f v h1).1]
      exact hd1 c hc f hf) values 0 (by simp) 0 (by simpa using hsum c hc)
    simpa using this
  obtain ⟨hne, hres⟩ := (C33_predict_argmax_partial m values).1 hm hv
  have hdef : ∃ r, predict m values = .ok r := by
    obtain ⟨r, hr⟩ := scoresLoop_value m hm values _ hcl m.nClasses.toNat 0 (by omega) []
    unfold predict
    rw [if_pos hm.classes.1, hr]
    obtain ⟨ss, s1, s2, _⟩ := (scoresLoop_spec m hm values hv m.nClasses.toNat 0 (by omega) []).2 r hr
    have := hm.classes.1
    cases r with
    | nil => simp at s2; rw [s2] at s1; simp at s1; omega
    | cons a b => exact ⟨_, rfl⟩
  obtain ⟨r, hr⟩ := hdef
  obtain ⟨k, score, rfl, hk, hs1, hs2, _⟩ := hres r hr
  have hscore : ∀ c < m.nClasses.toNat, score c = ∑ f ∈ Finset.range m.nFeatures.toNat, d c f := by
    intro c hc
    obtain ⟨ds, l1, l2, l3⟩ := hs1 c hc
    rw [l3, ← l1, Finset.sum_range, ← List.sum_ofFn]
    congr 1
    apply List.ext_getElem (by simp)
    intro i h1 h2
    obtain ⟨s, v, t1, t2, t3⟩ := l2 i ds[i] (List.getElem?_eq_getElem h1)
    rw [List.getElem_ofFn]
    have hf : i < m.nFeatures.toNat := by omega
    rw [htab c hc i hf] at t1
    cases t1
    rw [← (hx i v t2).1, hd1 c hc i hf] at t3
    simpa using t3.symm
  have herr : ∀ c < m.nClasses.toNat, |(score c : ℝ) / 65536 - exactScore m.nFeatures.toNat tab x c| ≤ allowance m.nFeatures.toNat tab x c := by
    intro c hc
    rw [hscore c hc]
    unfold exactScore allowance
    push_cast
    rw [Finset.sum_div, ← Finset.sum_sub_distrib]
    refine le_trans (Finset.abs_sum_le_sum_abs _ _) (Finset.sum_le_sum (fun f hf => hd2 c hc f (Finset.mem_range.1 hf)))
  have hmain : ∀ c < m.nClasses.toNat, exactScore m.nFeatures.toNat tab x c ≤
        exactScore m.nFeatures.toNat tab x k + allowance m.nFeatures.toNat tab x c + allowance m.nFeatures.toNat tab x k := by
    intro c hc
    have h1 := abs_le.1 (herr c hc)
    have h2 := abs_le.1 (herr k hk)
    have h3 : (score c : ℝ) ≤ score k := by exact_mod_cast hs2 c hc
    have h4 : (score c : ℝ) / 65536 ≤ (score k : ℝ) / 65536 := by gcongr
    linarith [h1.1, h2.2]
  refine ⟨k, hr, hk, hmain, fun c hc hlead => ?_⟩
  by_contra hkc
  have h1 := hlead k hk hkc
  have h2 := hmain c hc
  linarith

/-- **C81 (generated tables)** For every fitted standard deviation of at least 2^-16: the `log2(std)` that the code generator stores is within `1/65536 + 2/S` of the exact logarithm of the stored standard deviation `S/65536`. -/
theorem C81_generated_log (σ : ℝ) (hσ : 1 / 65536 ≤ σ) :
    0 < fromFloat 16 σ ∧
    |((fromFloat 16 (Real.logb 2 σ) : Int) : ℝ) / 65536 - Real.logb 2 (((fromFloat 16 σ : Int) : ℝ) / 65536)| ≤ 1 / 65536 + 2 / ((fromFloat 16 σ : Int) : ℝ) := by
  have hσ0 : 0 < σ := by linarith
  have h1 : 1 ≤ σ * 2 ^ 16 := by norm_num at hσ ⊢; linarith
  have hS : fromFloat 16 σ = ⌊σ * 2 ^ 16⌋ := by unfold fromFloat; exact trunc_of_nonneg (by positivity)
  have hS1 : 1 ≤ fromFloat 16 σ := by rw [hS]; exact Int.le_floor.2 (by push_cast; exact h1)
  have hf1 := Int.floor_le (σ * 2 ^ 16)
  have hf2 := Int.lt_floor_add_one (σ * 2 ^ 16)
  rw [← hS] at hf1 hf2
  have ht := (trunc_spec (Real.logb 2 σ * 2 ^ 16)).1
  change |_ - ((fromFloat 16 (Real.logb 2 σ) : Int) : ℝ)| < 1 at ht
  generalize fromFloat 16 σ = S at *
  generalize fromFloat 16 (Real.logb 2 σ) = l at *
  have hSr : (1:ℝ) ≤ S := by exact_mod_cast hS1
  have hS0 : (0:ℝ) < S := by linarith
  refine ⟨by omega, ?_⟩
  have e : Real.logb 2 σ - Real.logb 2 ((S:ℝ) / 65536) = Real.logb 2 (σ * 65536 / S) := by
    rw [← Real.logb_div hσ0.ne' (by positivity)]
    congr 1; field_simp
  have hr1 : 1 ≤ σ * 65536 / S := by rw [le_div_iff₀ hS0]; norm_num at hf1; linarith
  have hr2 : σ * 65536 / S ≤ 1 + 1 / S := by
    rw [div_le_iff₀ hS0, add_mul, one_div_mul_cancel hS0.ne']; norm_num at hf2; linarith
  have hlog0 : 0 ≤ Real.logb 2 (σ * 65536 / S) := Real.logb_nonneg (by norm_num) hr1
  have hlog1 : Real.logb 2 (σ * 65536 / S) ≤ 2 / S := by
    unfold Real.logb
    have hl2 := Real.log_two_gt_d9
    rw [div_le_iff₀ (by linarith)]
    have := Real.log_le_sub_one_of_pos (show 0 < σ * 65536 / S by linarith)
    have h3 : Real.log (σ * 65536 / S) ≤ 1 / S := by linarith
    have h4 : (0:ℝ) < 1 / S := by positivity
    have : 2 / (S:ℝ) * Real.log 2 = 1 / S * (2 * Real.log 2) := by ring
    rw [this]
    nlinarith
  have ha := abs_lt.1 ht
  have hl : |(l:ℝ) / 65536 - Real.logb 2 σ| ≤ 1 / 65536 := by
    rw [abs_le]
    norm_num at ha ⊢
    constructor <;> linarith [ha.1, ha.2]
  have : (l:ℝ) / 65536 - Real.logb 2 ((S:ℝ) / 65536) = ((l:ℝ) / 65536 - Real.logb 2 σ) + Real.logb 2 (σ * 65536 / S) := by rw [← e]; ring
  rw [this]
  refine le_trans (abs_add_le _ _) (add_le_add hl ?_)
  rw [abs_of_nonneg hlog0]; exact hlog1

/-- The table built by `bayes.Wrapper.__init__`, `bayes.py` 88-109: (mean, sqrt of the variance, log2 of that) per class and feature. (`numpy.seterr(all='raise')`: a zero variance raises in `log2`; the theorem below only uses positive ones.) -/
noncomputable def wrapperModel (nf : Nat) (theta var : List (List ℝ)) : Model :=
  generate nf ((theta.zip var).map (fun tv => (tv.1.zip tv.2).map (fun e => (e.1, Real.sqrt e.2, Real.logb 2 (Real.sqrt e.2)))))

/-- **C81 (converted estimators)** For every fitted Gaussian naive Bayes estimator with 2 to 10 classes and variances of at least 2^-32: the converted model is well-formed, and the table entry of (class, feature) holds mean and standard
deviation truncated to Q16 (each within one unit, 2^-16, of the fitted value), a positive standard deviation, and a logarithm within `1/65536 + 2/S` of the exact one. -/
theorem C81_converted (nf : Nat) (theta var : List (List ℝ)) (hl : theta.length = var.length) (ht : ∀ r ∈ theta, r.length = nf) (hv : ∀ r ∈ var, r.length = nf)
    (h2 : 2 ≤ theta.length) (h10 : theta.length ≤ 10) (hpos : ∀ r ∈ var, ∀ v ∈ r, (1:ℝ) / 2 ^ 32 ≤ v) :
    WF (wrapperModel nf theta var) ∧ (wrapperModel nf theta var).nClasses = theta.length ∧ (wrapperModel nf theta var).nFeatures = nf ∧
    ∀ (c f : Nat) (tr vr : List ℝ) (μ v : ℝ), theta[c]? = some tr → var[c]? = some vr → tr[f]? = some μ → vr[f]? = some v →
      ∃ s, (wrapperModel nf theta var).summaries[c * nf + f]? = some s ∧ 0 < s.std ∧
        |(s.mean : ℝ) / 65536 - μ| < 1 / 65536 ∧ (s.std : ℝ) / 65536 ≤ √v ∧ √v < (s.std : ℝ) / 65536 + 1 / 65536 ∧
        |(s.stdlog2 : ℝ) / 65536 - Real.logb 2 ((s.std : ℝ) / 65536)| ≤ 1 / 65536 + 2 / (s.std : ℝ) := by
  have hrows : ∀ r ∈ (theta.zip var).map (fun tv => (tv.1.zip tv.2).map (fun e => (e.1, Real.sqrt e.2, Real.logb 2 (Real.sqrt e.2)))), r.length = nf := by
    intro r hr
    obtain ⟨⟨a, b⟩, hab, rfl⟩ := List.mem_map.1 hr
    have h1 := ht a (List.of_mem_zip hab).1
    have h2 := hv b (List.of_mem_zip hab).2
    simp [h1, h2]
  have hlen : ((theta.zip var).map (fun tv => (tv.1.zip tv.2).map (fun e => (e.1, Real.sqrt e.2, Real.logb 2 (Real.sqrt e.2))))).length = theta.length := by simp [hl]
  obtain ⟨hwf, htab⟩ := C33_generated_table nf _ hrows (by rw [hlen]; exact h2) (by rw [hlen]; exact h10)
  refine ⟨hwf, ?_, rfl, ?_⟩
  · show ((_ : Nat) : Int) = _
    rw [hlen]
  · intro c f tr vr μ v e1 e2 e3 e4
    have hv0 := hpos vr (List.mem_of_getElem? e2) v (List.mem_of_getElem? e4)
    have hσ : 1 / 65536 ≤ √v := by
      apply Real.le_sqrt_of_sq_le
      norm_num at hv0 ⊢; exact hv0
    have hg := C81_generated_log (√v) hσ
    refine ⟨_, htab c f ((tr.zip vr).map (fun e => (e.1, Real.sqrt e.2, Real.logb 2 (Real.sqrt e.2)))) (μ, √v, Real.logb 2 √v) ?_ ?_, hg.1, ?_, ?_, ?_, hg.2⟩
    · rw [List.getElem?_map]
      have : (theta.zip var)[c]? = some (tr, vr) := by simp [List.getElem?_zip_eq_some, e1, e2]
      rw [this]; rfl
    · rw [List.getElem?_map]
      have : (tr.zip vr)[f]? = some (μ, v) := by simp [List.getElem?_zip_eq_some, e3, e4]
      rw [this]; rfl
    · have := abs_lt.1 (trunc_spec (μ * 2 ^ 16)).1
      change -1 < _ - ((fromFloat 16 μ : Int) : ℝ) ∧ _ - ((fromFloat 16 μ : Int) : ℝ) < 1 at this
      rw [abs_lt]
      norm_num at this ⊢
      constructor <;> linarith [this.1, this.2]
    all_goals
      have hS : fromFloat 16 √v = ⌊√v * 2 ^ 16⌋ := by unfold fromFloat; exact trunc_of_nonneg (by positivity)
      have hf1 := Int.floor_le (√v * 2 ^ 16)
      have hf2 := Int.lt_floor_add_one (√v * 2 ^ 16)
      rw [← hS] at hf1 hf2
      norm_num at hf1 hf2
      simp only
      linarith

/-- A two-class, one-feature instance meets all hypotheses of C81, and class 1 has the required lead. -/
example :
    let m : Model := { nClasses := 2, nFeatures := 1, summaries := [{ mean := 0, std := 65536, stdlog2 := 0 }, { mean := 655360, std := 65536, stdlog2 := 0 }] }
    let tab : Nat → Nat → Summary := fun c _ => { mean := (c : Int) * 655360, std := 65536, stdlog2 := 0 }
    let x : Nat → Int := fun _ => 524288
    WF m ∧ (∀ c < m.nClasses.toNat, ∀ f < m.nFeatures.toNat, m.summaries[c * m.nFeatures.toNat + f]? = some (tab c f)) ∧
    (∀ (f : Nat) (v : ℝ), [(8:ℝ)][f]? = some v → x f = fromFloat 16 v ∧ InI32 (x f)) ∧
    (∀ c < m.nClasses.toNat, InDomain m.nFeatures.toNat tab x c) ∧ exactScore 1 tab x 0 + allowance 1 tab x 0 + allowance 1 tab x 1 < exactScore 1 tab x 1 := by
  intro m tab x
  have hcases : ∀ c < m.nClasses.toNat, c = 0 ∨ c = 1 := by intro c hc; have : m.nClasses.toNat = 2 := rfl; omega
  have hfeat : ∀ f < m.nFeatures.toNat, f = 0 := by intro f hf; have : m.nFeatures.toNat = 1 := rfl; omega
  refine ⟨⟨by decide, by decide, by decide⟩, ?_, ?_, ?_, ?_⟩
  · intro c hc f hf
    rcases hcases c hc with rfl | rfl <;> rw [hfeat f hf] <;> rfl
  · intro f v h
    cases f with
    | zero =>
      simp only [List.getElem?_cons_zero, Option.some.injEq] at h
      subst h
      refine ⟨?_, by decide⟩
      unfold fromFloat
      have := trunc_intCast (K := ℝ) 524288
      norm_num at this ⊢
      exact this.symm
    | succ f => simp at h
  · intro c hc
    refine ⟨fun f hf => by simp [tab], fun f hf => ?_, fun f hf => ?_, fun f hf => by simp [tab], ?_⟩
    · rcases hcases c hc with rfl | rfl <;> simp [tab, x, InI32]
    · rcases hcases c hc with rfl | rfl <;> simp [tab, x]
    · show ∑ f ∈ Finset.range 1, _ ≤ _
      rcases hcases c hc with rfl | rfl <;> simp [tab, x, zscore] <;> norm_num
  · have hc := half_log2_e
    have hp : (0:ℝ) < 65536 / 65536 := by norm_num
    simp only [exactScore, allowance, Finset.sum_range_one, exactLog2, tab, x]
    rw [logb_gauss _ (((65536 : Int) : ℝ) / 65536) _ (by norm_num) _ (Real.coe_toNNReal _ (by positivity)),
      logb_gauss _ (((65536 : Int) : ℝ) / 65536) _ (by norm_num) _ (Real.coe_toNNReal _ (by positivity))]
    simp only [zscore]
    generalize 1 / (2 * Real.log 2) = k at *
    norm_num at hc ⊢
    linarith [hc.1, hc.2]

end Emlearn.Bayes
