/- C104: the Python bindings of the signal functions (`bindings/*.cpp`). -/
import Verif.Bindings.Model
import Verif.Props.Iir
import Verif.Props.Fft
import Verif.Props.Filterbank
import Verif.Props.Audio
namespace Emlearn.Bindings
open Emlearn.Iir (Sos cascade)

section iir
variable {K : Type} [CommRing K]

omit [CommRing K] in
theorem flatten_sos (cs : List (Sos K)) : ((cs.map Sos.toList).flatten).length = 6 * cs.length := by
  induction cs with
  | nil => rfl
  | cons c cs ih => simp [ih, Sos.toList]; omega

theorem iirfilter_eq (n k : Nat) (data x : List K) : iirfilter ⟨[n, k], data⟩ (vec x) =
    if 6 * n ≤ data.length then
      if Iir.check { nStages := n, statesLength := 4 * n, coef := data.take (6 * n), coefLength := 6 * n } ≠ .ok then some (.raised none)
      else (Iir.run { nStages := n, statesLength := 4 * n, coef := data.take (6 * n), coefLength := 6 * n } (List.replicate (4 * n) 0) x).map fun r => .ret r.1
    else none := by
  rw [iirfilter, if_neg (by simp), if_neg (by simp [vec])]
  rfl

/-- **C104.** `iirfilter(sos, data)` for coefficients of shape `(n, 6)`, `n ≥ 1`, and any data returns the output of the cascade of difference equations (second-order sections with `a0 = 1`, see C47), one value per input value. -/
theorem C104_iirfilter (cs : List (Sos K)) (hne : cs ≠ []) (x : List K) :
    iirfilter ⟨[cs.length, 6], (cs.map Sos.toList).flatten⟩ (vec x) = some (.ret ((List.range x.length).map (cascade cs fun i => x.getD i 0))) := by
  have hl := flatten_sos cs
  have hpos : 1 ≤ cs.length := List.length_pos_iff.2 hne
  obtain ⟨states, hr, _⟩ := (Iir.C47_difference_equation cs (fun i => x.getD i 0) x.length).2
  have hx : (List.range x.length).map (fun i => x.getD i 0) = x := by
    apply List.ext_getElem
    · simp
    · intro i h1 h2
      rw [List.getElem_map, List.getElem_range, List.getD_eq_getElem?_getD, List.getElem?_eq_getElem h2]
      rfl
  rw [hx] at hr
  have ht : (cs.map Sos.toList).flatten.take (6 * cs.length) = (cs.map Sos.toList).flatten := by rw [List.take_of_length_le hl.le]
  rw [iirfilter_eq, if_pos hl.ge, ht]
  have e : ({ nStages := cs.length, statesLength := 4 * cs.length, coef := (cs.map Sos.toList).flatten, coefLength := 6 * cs.length } : Iir.Filter K) = Iir.ofSections cs := by
    unfold Iir.ofSections
    rw [Nat.mul_comm 4, Nat.mul_comm 6]
  rw [e, if_neg (by rw [(Iir.C47_difference_equation cs (fun i => x.getD i 0) 0).1 hpos]; simp), hr]
  rfl

/-- **C104, exact behaviour for other shapes.** No section: an exception without message. Fewer than six columns: memory outside the array is read. More than six: the first `6n` values are used, whatever rows they belong to. -/
theorem C104_iirfilter_columns (n k : Nat) (data : List K) (hlen : data.length = n * k) (x : List K) :
    (n = 0 → iirfilter ⟨[n, k], data⟩ (vec x) = some (.raised none)) ∧
    (1 ≤ n → k < 6 → iirfilter ⟨[n, k], data⟩ (vec x) = none) ∧
    (1 ≤ n → 6 ≤ k → iirfilter ⟨[n, k], data⟩ (vec x) = iirfilter ⟨[n, 6], data.take (6 * n)⟩ (vec x) ∧ ∃ y, iirfilter ⟨[n, k], data⟩ (vec x) = some (.ret y) ∧ y.length = x.length) := by
  refine ⟨?_, ?_, ?_⟩
  · rintro rfl
    rw [iirfilter_eq, if_pos (by simp), if_pos (by simp [Iir.check])]
  · intro h1 h2
    have : ¬ (6 * n ≤ data.length) := by rw [hlen, Nat.mul_comm]; exact fun h => absurd (Nat.le_of_mul_le_mul_left h h1) (by omega)
    rw [iirfilter_eq, if_neg this]
  · intro h1 h2
    have h6 : 6 * n ≤ data.length := by rw [hlen, Nat.mul_comm]; exact Nat.mul_le_mul_left n h2
    have e : iirfilter ⟨[n, k], data⟩ (vec x) = iirfilter ⟨[n, 6], data.take (6 * n)⟩ (vec x) := by
      rw [iirfilter_eq, iirfilter_eq, if_pos h6, if_pos (show 6 * n ≤ (data.take (6 * n)).length by simp [h6]), List.take_take, min_self]
    refine ⟨e, ?_⟩
    obtain ⟨ys, st, hr, hyl, _⟩ := (Iir.C47_check (K := K) { nStages := n, statesLength := 4 * n, coef := data.take (6 * n), coefLength := 6 * n }).2
      ((Iir.C47_check _).1.2 ⟨h1, rfl, rfl⟩) (by simp [h6]) (List.replicate (4 * n) 0) (by simp) x
    refine ⟨ys, ?_, hyl⟩
    have hc : Iir.check (K := K) { nStages := n, statesLength := 4 * n, coef := data.take (6 * n), coefLength := 6 * n } = .ok := (Iir.C47_check _).1.2 ⟨h1, rfl, rfl⟩
    rw [iirfilter_eq, if_pos h6, if_neg (by rw [hc]; simp), hr]
    rfl

end iir

/-- **C104 refuted** in general: coefficients of a wrong shape are not rejected. With five columns the binding reads outside the array; with seven it filters with shifted coefficients. -/
theorem C104_iirfilter_columns_refuted : iirfilter ⟨[1, 5], [1, 0, 0, 1, 0]⟩ (vec [(1 : ℚ)]) = none ∧
    iirfilter ⟨[2, 7], [1, 0, 0, 1, 0, 0, 9, 1, 0, 0, 1, 0, 0, 9]⟩ (vec [(1 : ℚ), 0]) = some (.ret [9, -8]) := by
  constructor
  · decide +kernel
  · decide +kernel

theorem rfft_eq (x : List ℝ) : rfft (vec x) = (Fft.forward (Fft.fill ⟨x.length / 2, fun _ => 0, fun _ => 0⟩ x.length).2 ⟨x.length, fun i => x.getD i 0, fun _ => 0⟩ x.length).map fun r =>
    if r.1 ≠ .ok then .raised (some "eml_fft error") else .ret ((List.range x.length).map r.2.re) := by
  rw [rfft, if_neg (by simp [vec])]
  exact if_pos (le_refl x.length)

theorem melfilter_eq (junk : Nat → ℝ) (x : List ℝ) (P : Audio.Mel) (h : x.length = 1 + P.nFft / 2) : melfilter junk (vec x) P =
    (Audio.melspec P ⟨x.length, fun i => x.getD i 0⟩ ⟨P.nMels, junk⟩).map fun r =>
      if r.1 ≠ .ok then .raised (some ("melspec() returned error: " ++ (ErrorStr.errorStr (ErrorStr.code r.1)).getD "")) else .ret ((List.range P.nMels).map r.2.data) := by
  rw [melfilter, if_neg (by simp [vec]), if_neg (by simp [vec, h])]
  rfl

theorem melspectrogram_eq (x : List ℝ) (P : Audio.Mel) (h : x.length = P.nFft) : melspectrogram (vec x) P =
    (Audio.melspectrogram P (Fft.fill ⟨P.nFft / 2, fun _ => 0, fun _ => 0⟩ P.nFft).2 ⟨x.length, fun i => x.getD i 0⟩ ⟨x.length, fun _ => 0⟩).map fun r =>
      if r.1 ≠ .ok then .raised (some ("melspectrogram returned error: " ++ (ErrorStr.errorStr (ErrorStr.code r.1)).getD "")) else .ret ((List.range P.nMels).map r.2.1.data) := by
  rw [melspectrogram, if_neg (by simp [vec]), if_neg (by simp [vec, h])]
  exact if_pos (le_refl x.length)

/-- **C104.** `rfft(x)` of a signal of length `2^L` returns the real part of its discrete Fourier transform; other lengths and other dimensions raise an exception with a message. -/
theorem C104_rfft (x : List ℝ) :
    (∀ L, L < 32 → x.length = 2 ^ L → ∃ out, rfft (vec x) = some (.ret out) ∧ out.length = x.length ∧
      ∀ k, k < x.length → out[k]? = some (∑ t ∈ Finset.range x.length, x.getD t 0 * Real.cos (2 * Real.pi * (k * t) / x.length))) ∧
    (x.length < 2 ^ 32 → (∀ L, x.length ≠ 2 ^ L) → rfft (vec x) = some (.raised (some "eml_fft error"))) ∧
    (∀ a : NdArray ℝ, a.shape.length ≠ 1 → rfft a = some (.raised (some "SFT input must have dimensions 1"))) := by
  refine ⟨?_, ?_, ?_⟩
  · intro L hL hx
    obtain ⟨_, b', hb, _, hd⟩ := Fft.C48_fft_is_dft L hL ⟨2 ^ L / 2, fun _ => 0, fun _ => 0⟩ rfl ⟨2 ^ L, fun i => x.getD i 0, fun _ => 0⟩ rfl
    refine ⟨(List.range x.length).map b'.re, ?_, by simp, ?_⟩
    · rw [rfft_eq, hx, hb]
      rfl
    · intro k hk
      rw [List.getElem?_map, List.getElem?_range hk, Option.map_some]
      congr 1
      have := congrArg Complex.re (hd k (hx ▸ hk))
      simp only at this
      rw [this, Fft.dft, Complex.re_sum, hx]
      refine Finset.sum_congr rfl fun t _ => ?_
      have e1 : (⟨x.getD t 0, 0⟩ : ℂ) = ((x.getD t 0 : ℝ) : ℂ) := rfl
      have e2 : -(2 * (Real.pi : ℂ) * Complex.I * ((k : ℂ) * (t : ℂ)) / ((2 ^ L : Nat) : ℂ)) = ((-(2 * Real.pi * (k * t) / (2 ^ L : Nat)) : ℝ) : ℂ) * Complex.I := by
        push_cast
        ring
      rw [e1, e2, Complex.re_ofReal_mul, Complex.exp_ofReal_mul_I_re, Real.cos_neg]
  · intro h32 hx
    rw [rfft_eq, Fft.C48_rejects _ _ _ h32 (Or.inl hx)]
    rfl
  · intro a ha
    unfold rfft
    rw [if_pos ha]

/-- **C104 (partial).** `melfilter()` of a spectrum of `1 + n_fft/2` values, `n_fft` even and `0 ≤ fmin < fmax ≤ samplerate/2`, returns the `n_mels` weighted sums of C73, whatever the output array held before. A spectrum of another length, or an array of other dimensions, raises an exception.
Missing: odd `n_fft` (`C104_melfilter_refuted`). -/
theorem C104_melfilter_partial (junk : Nat → ℝ) (P : Audio.Mel) (h1 : 0 ≤ P.fmin) (h2 : P.fmin < P.fmax) (hsr : 0 < P.samplerate) (h3 : P.fmax ≤ P.samplerate / 2)
    (he : P.nFft % 2 = 0) (hn : 0 < P.nFft) (x : List ℝ) :
    (x.length = 1 + P.nFft / 2 → ∃ w : Nat → Nat → ℝ, melfilter junk (vec x) P = some (.ret ((List.range P.nMels).map fun m => ∑ k ∈ Finset.range (1 + P.nFft / 2), w m k * x.getD k 0)) ∧
      ∀ m < P.nMels, ∀ k, w m k = if (k : Int) = ⌊((P.nFft : ℝ) + 1) * (Audio.melCenter P (m + 1) / P.samplerate)⌋ ∧ (k : ℝ) * P.samplerate / P.nFft > Audio.melCenter P (m + 1)
        then 1 else Audio.triangle (Audio.melCenter P m) (Audio.melCenter P (m + 1)) (Audio.melCenter P (m + 2)) (k * P.samplerate / P.nFft)) ∧
    (x.length ≠ 1 + P.nFft / 2 → melfilter junk (vec x) P = some (.raised (some "framing not implented"))) := by
  constructor
  · intro hx
    obtain ⟨out, w, ho, _, hs, hw⟩ := Audio.C73_triangular_filters_partial P h1 h2 hsr h3 he hn ⟨x.length, fun i => x.getD i 0⟩ ⟨P.nMels, junk⟩ (by simp [hx]) rfl
    refine ⟨w, ?_, hw⟩
    rw [melfilter_eq _ _ _ hx, ho]
    simp only [Option.map_some, ne_eq, not_true_eq_false, if_false]
    refine congrArg some (congrArg Outcome.ret (List.map_congr_left fun m hm => hs m (List.mem_range.1 hm)))
  · intro hx
    unfold melfilter vec
    simp [hx]

/-- **C104 refuted** for odd `n_fft`: an input of the required length, `fmin = 0` and `fmax = samplerate/2` make the binding read outside the array. -/
theorem C104_melfilter_refuted (junk : Nat → ℝ) (nMels nFft sr : Nat) (hm : 1 ≤ nMels) (ho : nFft % 2 = 1) (hsr : 0 < sr) (x : List ℝ) (hx : x.length = 1 + nFft / 2) :
    melfilter junk (vec x) { nMels := nMels, fmin := 0, fmax := sr / 2, nFft := nFft, samplerate := sr } = none := by
  rw [melfilter_eq _ _ _ hx, Audio.C50_refuted nMels nFft sr hm ho hsr _ _ hx rfl]
  rfl

/-- **C104 (partial).** `melspectrogram()` of `n_fft = 2^L ≥ 4` samples returns the `n_mels ≤ n_fft` mel-weighted sums of C72. Missing: `n_mels > n_fft` (`C104_melspectrogram_refuted`), and the squared magnitude instead of the squared real part (`C72_refuted`). -/
theorem C104_melspectrogram_partial (L : Nat) (hL : 2 ≤ L) (hL2 : L < 32) (P : Audio.Mel) (hP : P.nFft = 2 ^ L) (h1 : 0 ≤ P.fmin) (h2 : P.fmin < P.fmax)
    (hsr : 0 < P.samplerate) (h3 : P.fmax ≤ P.samplerate / 2) (hm : P.nMels ≤ 2 ^ L) (x : List ℝ) :
    (x.length = 2 ^ L → melspectrogram (vec x) P = some (.ret ((List.range P.nMels).map fun m =>
      ∑ k ∈ Finset.range (1 + P.nFft / 2), Audio.weight P (m + 1) k * ((Audio.windowedDft (2 ^ L) (fun i => x.getD i 0) k).re ^ 2 / 2 ^ L)))) ∧
    (x.length ≠ 2 ^ L → melspectrogram (vec x) P = some (.raised (some "melspectrogram framing not implented"))) := by
  constructor
  · intro hx
    obtain ⟨out, temp', ho, hs⟩ := Audio.C72_melspectrogram_partial L hL hL2 P hP h1 h2 hsr h3 hm ⟨2 ^ L / 2, fun _ => 0, fun _ => 0⟩ rfl ⟨2 ^ L, fun i => x.getD i 0⟩ ⟨2 ^ L, fun _ => 0⟩ rfl rfl
    rw [melspectrogram_eq _ _ (hx.trans hP.symm), hP, hx, ho]
    simp only [Option.map_some, ne_eq, not_true_eq_false, if_false]
    refine congrArg some (congrArg Outcome.ret (List.map_congr_left fun m hm' => ?_))
    rw [hs m (List.mem_range.1 hm'), hP]
  · intro hx
    unfold melspectrogram vec
    simp [hx, hP]

/-- **C104 refuted** for more mel bands than samples: the bands are written outside the working buffer, without an error. -/
theorem C104_melspectrogram_refuted (L : Nat) (hL : 2 ≤ L) (hL2 : L < 32) (P : Audio.Mel) (hP : P.nFft = 2 ^ L) (hm : 2 ^ L < P.nMels) (x : List ℝ) (hx : x.length = 2 ^ L) :
    melspectrogram (vec x) P = none := by
  obtain ⟨_, b', hb, _, _⟩ := Fft.C48_fft_is_dft L hL2 ⟨2 ^ L / 2, fun _ => 0, fun _ => 0⟩ rfl
    ⟨2 ^ L, (Audio.hannApply ⟨2 ^ L, fun i => x.getD i 0⟩).data, fun _ => 0⟩ rfl
  have h4 : 4 ≤ 2 ^ L := by
    calc 4 = 2 ^ 2 := by norm_num
      _ ≤ 2 ^ L := Nat.pow_le_pow_right (by norm_num) hL
  rw [melspectrogram_eq _ _ (hx.trans hP.symm), hP, hx]
  unfold Audio.melspectrogram
  simp only [Audio.hannApply, min_self, ite_self, hP] at hb ⊢
  rw [hb]
  simp only [Option.bind_some, ne_eq, not_true_eq_false, if_false, Audio.powerSpectrogram]
  rw [if_pos (show 2 ^ L > 1 + 2 ^ L / 2 by omega), if_pos trivial, if_pos (show 1 + 2 ^ L / 2 ≤ 2 ^ L by omega)]
  simp only [Option.bind_some, not_true_eq_false, if_false]
  rw [if_neg (by omega)]
  rfl

/-- **C104.** `sparse_filterbank()` with the parts that `emlearn.signal.sparse_filterbank` computes for a matrix of band filters returns the matrix-vector product. -/
theorem C104_sparse_filterbank {K : Type} [CommRing K] [DecidableEq K] (junk : Nat → K) {m n : Nat} (M : Matrix (Fin m) (Fin n) K) (hM : ∀ i, Filterbank.BandRow (M i)) :
    ∃ s, Filterbank.sparseFilterbank (Filterbank.rows M) = some s ∧
      ∀ v : Fin n → K, sparseFilterbank junk (vec (List.ofFn v)) (vec s.starts) (vec s.ends) (vec s.coeffs) = some (.ret (List.ofFn (M.mulVec v))) := by
  obtain ⟨s, h1, h2, h3⟩ := Filterbank.C49_sparse_equals_dense M hM
  refine ⟨s, h1, fun v => ?_⟩
  have hst : s.starts.length = s.ends.length := by
    by_contra hne
    have := h2 v
    rw [Filterbank.reduce, if_neg hne] at this
    cases this
  have hlen : s.starts.length = m := by
    have hcount : ∀ (rs : List (List K)) (s0 s1 : Filterbank.Sparse K), Filterbank.sparseLoop rs s0 = some s1 → s1.starts.length = s0.starts.length + rs.length := by
      intro rs
      induction rs with
      | nil => intro s0 s1 h; cases h; simp
      | cons r rs ih =>
        intro s0 s1 h
        rw [Filterbank.sparseLoop] at h
        obtain ⟨a, _, h⟩ := Option.bind_eq_some_iff.1 h
        obtain ⟨b, _, h⟩ := Option.bind_eq_some_iff.1 h
        rw [ih _ _ h]
        simp
        omega
    rw [hcount _ _ _ h1]
    simp [Filterbank.rows]
  rw [sparseFilterbank, if_neg (by simp [vec]), if_neg (by simp [vec, hst])]
  have e := h3 v ((List.range ((vec s.starts).shape.headD 0)).map junk) (by simp [vec, hlen])
  show (Filterbank.cFilterbank (List.ofFn v) _ s.starts s.ends s.coeffs).map Outcome.ret = _
  rw [e]
  rfl

/-- **C104 refuted** in general: band limits are not checked against the input, nor the number of coefficients against the limits; the binding then reads outside the arrays. -/
theorem C104_sparse_filterbank_refuted (junk : Nat → ℚ) :
    sparseFilterbank junk (vec [1, 2, 3]) (vec [1]) (vec [3]) (vec [1, 1, 1]) = none ∧ sparseFilterbank junk (vec [1, 2, 3]) (vec [0]) (vec [2]) (vec [1, 1]) = none := by
  constructor <;> simp [sparseFilterbank, vec, Filterbank.cFilterbank, Filterbank.cLoop, Filterbank.bandLoop]

/-- Non-vacuity: a filter of two sections, an impulse. -/
example : iirfilter ⟨[2, 6], [1, 1, 0, 1, 0, 0, 2, 0, 0, 1, -1, 0]⟩ (vec [(1 : ℚ), 0, 0]) = some (.ret [2, 4, 4]) := by decide +kernel

/-- Non-vacuity: a matrix of two band filters. -/
example (junk : Nat → ℚ) : sparseFilterbank junk (vec [1, 2, 3]) (vec [0, 1]) (vec [1, 2]) (vec [1, 1, 2, 2]) = some (.ret [3, 10]) := by
  norm_num [sparseFilterbank, vec, Filterbank.cFilterbank, Filterbank.cLoop, Filterbank.bandLoop, List.range_succ]

/-- Non-vacuity: mel parameters that meet the hypotheses of both mel theorems. -/
example : ∃ P : Audio.Mel, P.nFft = 2 ^ 9 ∧ 0 ≤ P.fmin ∧ P.fmin < P.fmax ∧ 0 < P.samplerate ∧ P.fmax ≤ P.samplerate / 2 ∧ P.nMels ≤ 2 ^ 9 :=
  ⟨{ nMels := 32, fmin := 20, fmax := 8000, nFft := 512, samplerate := 16000 }, by norm_num⟩

end Emlearn.Bindings
