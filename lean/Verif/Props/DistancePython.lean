/- C114: elliptic envelopes called from Python, from the fitted numbers to the answers for a matrix of data. -/
import Verif.Props.FloatDistance
import Verif.Harness.Read32
namespace Emlearn.Distance.CText
open Emlearn.MiniC Emlearn.Harness Emlearn.Flt Matrix
variable {F : Type}

/-- `Wrapper.mahalanobis(X)`, `distance.py` 97-118 with `common.py` 161-187: the Python distance of each row is computed first (lines 113-115; its result is dropped, its assertions are not), then the compiled program is run.
`none` is an exception, or no defined result. -/
def pyMahalanobis [Zero F] [Add F] [Sub F] [Mul F] [Neg F] [LT F] [DecidableLT F] (ops : CFloat F) (fuel depth : Nat) (read : ℚ → F) (val : F → ℚ) (other : ℚ → List Char) (means : List ℚ) (precision : List (List ℚ)) (offset : PyFloat)
    (X : List (List ℚ)) : Option (List ℚ) :=
  match (generateText other "my_inline_elliptic".toList means precision offset).bind parse with
  | none => none
  | some prog =>
    if X.all (fun x => (mahaPy x means precision).isSome) then
      predictU (callFlt read val fun vs => callFunc ops (envelopeLib ops prog) prog fuel depth "my_inline_elliptic_predict".toList (rowArgs vs)) X
    else none

/-- `Wrapper.predict(X)`, `distance.py` 124-133. `off` is the number `offset_`, `offset` the way Python prints it. The sign of the difference of two doubles is exact. -/
def pyPredict [Zero F] [Add F] [Sub F] [Mul F] [Neg F] [LT F] [DecidableLT F] (ops : CFloat F) (fuel depth : Nat) (read : ℚ → F) (val : F → ℚ) (other : ℚ → List Char) (means : List ℚ) (precision : List (List ℚ)) (offset : PyFloat)
    (off : ℚ) (X : List (List ℚ)) : Option (List Int) :=
  (pyMahalanobis ops fuel depth read val other means precision offset X).map fun ds => ds.map fun d => if -d - off > 0 then 1 else -1

/-- `Wrapper.score_samples(X)`, `distance.py` 120-122. -/
def pyScores [Zero F] [Add F] [Sub F] [Mul F] [Neg F] [LT F] [DecidableLT F] (ops : CFloat F) (fuel depth : Nat) (read : ℚ → F) (val : F → ℚ) (other : ℚ → List Char) (means : List ℚ) (precision : List (List ℚ)) (offset : PyFloat)
    (X : List (List ℚ)) : Option (List ℚ) :=
  (pyMahalanobis ops fuel depth read val other means precision offset X).map fun ds => ds.map fun d => -d

section
variable [Zero F] [Add F] [Sub F] [Mul F] [Neg F] [LT F] [DecidableLT F] {n : Nat}

theorem wrapper_args (m : Fin n → ℚ) (W : Matrix (Fin n) (Fin n) ℚ) (h1 : 1 ≤ n) (h2 : n ≤ 2147483647) : EnvelopeArgs "my_inline_elliptic".toList (List.ofFn m) (rows W) :=
  ⟨by decide +kernel, by decide +kernel, by decide +kernel, by simpa using ⟨h1, h2⟩, by unfold rows; simp⟩

theorem inline_predict : "my_inline_elliptic".toList ++ "_predict".toList = "my_inline_elliptic_predict".toList := by decide +kernel

theorem shape_ok (m : Fin n → ℚ) (W : Matrix (Fin n) (Fin n) ℚ) (X : List (Fin n → ℚ)) : (X.map List.ofFn).all (fun x => (mahaPy x (List.ofFn m) (rows W)).isSome) = true := by
  rw [List.all_eq_true]
  intro x hx
  obtain ⟨v, -, rfl⟩ := List.mem_map.1 hx
  rw [C43_py_quadratic_form]
  rfl

theorem ofFn_ne (h1 : 1 ≤ n) (X : List (Fin n → ℚ)) : ∀ r ∈ X.map List.ofFn, r ≠ [] := by
  intro r hr
  obtain ⟨v, -, rfl⟩ := List.mem_map.1 hr
  intro e
  have := congrArg List.length e
  simp at this
  omega

variable {R : Format F} {P : Accuracy}

/-- The squared Mahalanobis distance of a row for the fitted mean and precision matrix. -/
noncomputable def exactDistance (m : Fin n → ℚ) (W : Matrix (Fin n) (Fin n) ℚ) (x : Fin n → ℚ) : ℝ :=
  ((x - m) ⬝ᵥ (W *ᵥ (x - m)) : ℚ)

theorem exactDistance_eq (m : Fin n → ℚ) (W : Matrix (Fin n) (Fin n) ℚ) (x : Fin n → ℚ) :
    ((fun i => (x i : ℝ)) - fun i => (m i : ℝ)) ⬝ᵥ ((Matrix.of fun i j => (W i j : ℝ)) *ᵥ ((fun i => (x i : ℝ)) - fun i => (m i : ℝ))) = exactDistance m W x := by
  unfold exactDistance
  simp only [dotProduct, mulVec, Pi.sub_apply, Matrix.of_apply]
  push_cast
  rfl

/-- The allowance for a row: the error of the `float` arithmetic (C97) and the six decimals printed. -/
noncomputable def pyErr (P : Accuracy) (dx B : ℝ) (m : Fin n → ℚ) (W : Matrix (Fin n) (Fin n) ℚ) (x : Fin n → ℚ) : ℝ :=
  distErr P dx (constErr P B) (constErr P B) (fun i => (x i : ℝ)) (fun i => (m i : ℝ)) (Matrix.of fun i j => (W i j : ℝ)) + 1 / (2 * 10 ^ 6)

/-- **C114.** `mahalanobis(X)` gives one number per row, in order: the squared Mahalanobis distance of the fitted envelope up to the allowance. -/
theorem C114_distances (h : BasicArith (F := F) R P) (ops : CFloat F) (hlit : LitOk R P ops) (read : ℚ → F) (val : F → ℚ) (hval : ∀ y, R.fin y → (val y : ℝ) = R.val y) (other : ℚ → List Char) (offset : PyFloat)
    (m : Fin n → ℚ) (W : Matrix (Fin n) (Fin n) ℚ) (h1 : 1 ≤ n) (h2 : n ≤ 2147483647) (fuel depth : Nat) {B : ℝ} (hM : B + 1 / (2 * 10 ^ 6) ≤ P.M) (hm : ∀ i, |(m i : ℝ)| ≤ B) (hW : ∀ i j, |(W i j : ℝ)| ≤ B)
    (dx : ℝ) (X : List (Fin n → ℚ)) (hf : Harness.Fits (X.map List.ofFn)) (hX : ∀ x ∈ X, (∀ i, Close R dx (seen read (x i)) (x i)) ∧
      DistRange P dx (constErr P B) (constErr P B) (fun i => (x i : ℝ)) (fun i => (m i : ℝ)) (Matrix.of fun i j => (W i j : ℝ))) :
    ∃ ds, pyMahalanobis ops fuel (depth + 2) read val other (List.ofFn m) (rows W) offset (X.map List.ofFn) = some ds ∧
      List.Forall₂ (fun x (d : ℚ) => |(d : ℝ) - exactDistance m W x| ≤ pyErr P dx B m W x) X ds := by
  obtain ⟨text, prog, t1, t2, t3⟩ := C97_text h ops hlit other offset "my_inline_elliptic".toList m W (wrapper_args m W h1 h2) fuel depth hM hm hW
  rw [inline_predict] at t3
  have hrows := predictFlt_rows read val (fun vs => callFunc ops (envelopeLib ops prog) prog fuel (depth + 2) "my_inline_elliptic_predict".toList (rowArgs vs)) (X.map List.ofFn) (ofFn_ne h1 X) hf
    (fun row y => ∀ x : Fin n → ℚ, row = List.ofFn x → x ∈ X → Close R (distErr P dx (constErr P B) (constErr P B) (fun i => (x i : ℝ)) (fun i => (m i : ℝ)) (Matrix.of fun i j => (W i j : ℝ))) y (exactDistance m W x))
    (fun row hr => by
      obtain ⟨x, hx, rfl⟩ := List.mem_map.1 hr
      obtain ⟨hc, hrange⟩ := hX x hx
      obtain ⟨d, e1, e2⟩ := t3 dx (fun i => seen read (x i)) (fun i => (x i : ℝ)) hc hrange
      refine ⟨d, [], ?_, fun x' e _ => ?_⟩
      · rw [← e1]
        unfold rowArgs
        rw [List.map_ofFn, List.map_ofFn, List.length_ofFn]
        rfl
      · obtain rfl := List.ofFn_injective e
        rwa [exactDistance_eq] at e2)
  obtain ⟨ds, d1, d2⟩ := hrows
  refine ⟨ds, ?_, ?_⟩
  · unfold pyMahalanobis
    rw [t1, Option.bind_some, t2]
    simp only []
    rw [if_pos (shape_ok m W X), d1]
  · rw [List.forall₂_map_left_iff] at d2
    have d3 : List.Forall₂ (fun x d => x ∈ X ∧ ∃ y, (∀ x' : Fin n → ℚ, List.ofFn x = List.ofFn x' → x' ∈ X → Close R (distErr P dx (constErr P B) (constErr P B) (fun i => (x' i : ℝ)) (fun i => (m i : ℝ)) (Matrix.of fun i j => (W i j : ℝ))) y (exactDistance m W x')) ∧ d = fixedValue 6 (val y)) X ds := by
      rw [List.forall₂_iff_get] at d2 ⊢
      exact ⟨d2.1, fun i h h' => ⟨List.get_mem _ _, d2.2 i h h'⟩⟩
    refine d3.imp fun x d => ?_
    rintro ⟨hx, y, hy, rfl⟩
    have hc := hy x rfl hx
    have hq : |((fixedValue 6 (val y) : ℚ) : ℝ) - (val y : ℝ)| ≤ 1 / (2 * 10 ^ 6) := by
      have := fixedValue_close 6 (val y)
      have h' : ((|fixedValue 6 (val y) - val y| : ℚ) : ℝ) ≤ ((1 / (2 * 10 ^ 6) : ℚ) : ℝ) := by exact_mod_cast this
      push_cast at h'
      exact h'
    rw [hval y hc.1] at hq
    unfold pyErr
    have h3 := abs_le.1 hq
    have h4 := abs_le.1 hc.2
    rw [abs_le]
    constructor <;> linarith [h3.1, h3.2, h4.1, h4.2]

/-- **C114** `score_samples(X)` returns, for every row, minus the distance, within the same error. -/
theorem C114_scores (h : BasicArith (F := F) R P) (ops : CFloat F) (hlit : LitOk R P ops) (read : ℚ → F) (val : F → ℚ) (hval : ∀ y, R.fin y → (val y : ℝ) = R.val y) (other : ℚ → List Char) (offset : PyFloat)
    (m : Fin n → ℚ) (W : Matrix (Fin n) (Fin n) ℚ) (h1 : 1 ≤ n) (h2 : n ≤ 2147483647) (fuel depth : Nat) {B : ℝ} (hM : B + 1 / (2 * 10 ^ 6) ≤ P.M) (hm : ∀ i, |(m i : ℝ)| ≤ B) (hW : ∀ i j, |(W i j : ℝ)| ≤ B)
    (dx : ℝ) (X : List (Fin n → ℚ)) (hf : Harness.Fits (X.map List.ofFn)) (hX : ∀ x ∈ X, (∀ i, Close R dx (seen read (x i)) (x i)) ∧
      DistRange P dx (constErr P B) (constErr P B) (fun i => (x i : ℝ)) (fun i => (m i : ℝ)) (Matrix.of fun i j => (W i j : ℝ))) :
    ∃ ss, pyScores ops fuel (depth + 2) read val other (List.ofFn m) (rows W) offset (X.map List.ofFn) = some ss ∧
      List.Forall₂ (fun x (s : ℚ) => |(s : ℝ) - -exactDistance m W x| ≤ pyErr P dx B m W x) X ss := by
  obtain ⟨ds, d1, d2⟩ := C114_distances h ops hlit read val hval other offset m W h1 h2 fuel depth hM hm hW dx X hf hX
  refine ⟨ds.map fun d => -d, by unfold pyScores; rw [d1]; rfl, ?_⟩
  rw [List.forall₂_map_right_iff]
  refine d2.imp fun x d hd => ?_
  push_cast
  rw [show -(d : ℝ) - -exactDistance m W x = -((d : ℝ) - exactDistance m W x) by ring, abs_neg]
  exact hd

/-- **C114** away from the boundary: `predict(X)` is 1 for the rows inside the fitted boundary and -1 for those outside. -/
theorem C114_predict_partial (h : BasicArith (F := F) R P) (ops : CFloat F) (hlit : LitOk R P ops) (read : ℚ → F) (val : F → ℚ) (hval : ∀ y, R.fin y → (val y : ℝ) = R.val y) (other : ℚ → List Char) (offset : PyFloat)
    (off : ℚ) (m : Fin n → ℚ) (W : Matrix (Fin n) (Fin n) ℚ) (h1 : 1 ≤ n) (h2 : n ≤ 2147483647) (fuel depth : Nat) {B : ℝ} (hM : B + 1 / (2 * 10 ^ 6) ≤ P.M) (hm : ∀ i, |(m i : ℝ)| ≤ B) (hW : ∀ i j, |(W i j : ℝ)| ≤ B)
    (dx : ℝ) (X : List (Fin n → ℚ)) (hf : Harness.Fits (X.map List.ofFn)) (hX : ∀ x ∈ X, (∀ i, Close R dx (seen read (x i)) (x i)) ∧
      DistRange P dx (constErr P B) (constErr P B) (fun i => (x i : ℝ)) (fun i => (m i : ℝ)) (Matrix.of fun i j => (W i j : ℝ)))
    (hfar : ∀ x ∈ X, pyErr P dx B m W x < |exactDistance m W x - -(off : ℝ)|) :
    ∃ ps, pyPredict ops fuel (depth + 2) read val other (List.ofFn m) (rows W) offset off (X.map List.ofFn) = some ps ∧
      List.Forall₂ (fun x (p : Int) => (exactDistance m W x < -(off : ℝ) ∧ p = 1) ∨ (-(off : ℝ) < exactDistance m W x ∧ p = -1)) X ps := by
  obtain ⟨ds, d1, d2⟩ := C114_distances h ops hlit read val hval other offset m W h1 h2 fuel depth hM hm hW dx X hf hX
  refine ⟨ds.map fun d => if -d - off > 0 then 1 else -1, by unfold pyPredict; rw [d1]; rfl, ?_⟩
  rw [List.forall₂_map_right_iff]
  rw [List.forall₂_iff_get] at d2 ⊢
  refine ⟨d2.1, fun i hi hi' => ?_⟩
  have hd := abs_le.1 (d2.2 i hi hi')
  have hfar := hfar _ (List.get_mem X ⟨i, hi⟩)
  generalize exactDistance m W (X.get ⟨i, hi⟩) = D at *
  generalize pyErr P dx B m W (X.get ⟨i, hi⟩) = E at *
  generalize ds.get ⟨i, hi'⟩ = d at *
  rcases lt_or_ge D (-(off : ℝ)) with hlt | hge
  · left
    rw [abs_of_neg (by linarith)] at hfar
    refine ⟨hlt, if_pos ?_⟩
    have : (0 : ℝ) < -(d : ℝ) - off := by linarith [hd.2]
    exact_mod_cast this
  · right
    rw [abs_of_nonneg (by linarith)] at hfar
    have h0 : (0 : ℝ) < D - -(off : ℝ) := by
      rcases eq_or_lt_of_le hge with e | e
      · have : E < 0 := by rw [← e] at hfar; simpa using hfar
        linarith [hd.1, hd.2]
      · linarith
    refine ⟨by linarith, if_neg ?_⟩
    have : (-(d : ℝ) - off) ≤ 0 := by linarith [hd.1]
    have : (-d - off : ℚ) ≤ 0 := by exact_mod_cast this
    exact not_lt.2 this
end

/-- **C114.** Data with another number of columns is refused: the Python distance that is computed first (and not used) raises. -/
theorem C114_shape [Zero F] [Add F] [Sub F] [Mul F] [Neg F] [LT F] [DecidableLT F] (ops : CFloat F) (fuel depth : Nat) (read : ℚ → F) (val : F → ℚ) (other : ℚ → List Char) (means : List ℚ) (precision : List (List ℚ)) (offset : PyFloat)
    (off : ℚ) (X : List (List ℚ)) (hX : ∃ x ∈ X, x.length ≠ means.length) :
    pyMahalanobis ops fuel depth read val other means precision offset X = none ∧ pyPredict ops fuel depth read val other means precision offset off X = none := by
  have h : pyMahalanobis ops fuel depth read val other means precision offset X = none := by
    unfold pyMahalanobis
    cases (generateText other "my_inline_elliptic".toList means precision offset).bind parse with
    | none => rfl
    | some prog =>
      simp only []
      refine if_neg fun h => ?_
      rw [List.all_eq_true] at h
      obtain ⟨x, hx, hl⟩ := hX
      have := h x hx
      unfold mahaPy at this
      rw [if_neg (fun c => hl c.1)] at this
      cases this
  exact ⟨h, by unfold pyPredict; rw [h]; rfl⟩

/-- **C114** (negation) an envelope whose precisions are all below 1/2000000 (features with large variances) reports distance 0 for every row, so that no row is ever an outlier (the fitted offset is negative). -/
theorem C114_all_inliers_refuted {n : Nat} (ops : CFloat ℝ) (hops : ExactLits ops) (read : ℚ → ℝ) (val : ℝ → ℚ) (hval : val 0 = 0) (other : ℚ → List Char) (offset : PyFloat) (off : ℚ) (hoff : off < 0)
    (m : Fin n → ℚ) (W : Matrix (Fin n) (Fin n) ℚ) (h1 : 1 ≤ n) (h2 : n ≤ 2147483647) (fuel depth : Nat) (hW : ∀ i j, |W i j| < 1 / (2 * 10 ^ 6)) (X : List (Fin n → ℚ)) (hf : Harness.Fits (X.map List.ofFn)) :
    pyMahalanobis ops fuel (depth + 2) read val other (List.ofFn m) (rows W) offset (X.map List.ofFn) = some (X.map fun _ => 0) ∧
    pyPredict ops fuel (depth + 2) read val other (List.ofFn m) (rows W) offset off (X.map List.ofFn) = some (X.map fun _ => 1) := by
  obtain ⟨text, prog, t1, t2, t3⟩ := C93_small_precision_refuted m W hW ops hops other offset "my_inline_elliptic".toList (wrapper_args m W h1 h2) fuel depth
  rw [inline_predict] at t3
  obtain ⟨ds, d1, d2⟩ := predictFlt_rows read val (fun vs => callFunc ops (envelopeLib ops prog) prog fuel (depth + 2) "my_inline_elliptic_predict".toList (rowArgs vs)) (X.map List.ofFn) (ofFn_ne h1 X) hf
    (fun _ y => y = 0) (fun row hr => by
      obtain ⟨x, hx, rfl⟩ := List.mem_map.1 hr
      refine ⟨0, [], ?_, rfl⟩
      rw [← t3 fun i => seen read (x i)]
      unfold rowArgs
      rw [List.map_ofFn, List.map_ofFn, List.length_ofFn]
      rfl)
  have hds : ds = X.map fun _ => 0 := by
    rw [List.forall₂_map_left_iff] at d2
    clear d1 hf
    induction d2 with
    | nil => rfl
    | cons h _ ih =>
      obtain ⟨y, rfl, rfl⟩ := h
      rw [List.map_cons, ih, hval]
      congr 1
      decide +kernel
  have e : pyMahalanobis ops fuel (depth + 2) read val other (List.ofFn m) (rows W) offset (X.map List.ofFn) = some (X.map fun _ => 0) := by
    unfold pyMahalanobis
    rw [t1, Option.bind_some, t2]
    simp only []
    rw [if_pos (shape_ok m W X), d1, hds]
  refine ⟨e, ?_⟩
  unfold pyPredict
  rw [e, Option.map_some, List.map_map]
  congr 1
  apply List.map_congr_left
  intro x _
  show (if -(0 : ℚ) - off > 0 then (1 : Int) else -1) = 1
  rw [if_pos (by linarith)]

/-! ### Concrete runs -/

set_option synthInstance.maxSize 1024 in
/-- Squared distances 14 and 0, on text; a row of the wrong length is refused. -/
example : pyMahalanobis exC 0 9 id id (fun _ => []) [1, -1/2] [[2, 5/4], [0, 1]] ⟨true, 8, 0⟩ [[3, 1], [1, -1/2]] = some [14, 0] ∧
    pyPredict exC 0 9 id id (fun _ => []) [1, -1/2] [[2, 5/4], [0, 1]] ⟨true, 8, 0⟩ (-8) [[3, 1], [1, -1/2]] = some [-1, 1] ∧
    pyScores exC 0 9 id id (fun _ => []) [1, -1/2] [[2, 5/4], [0, 1]] ⟨true, 8, 0⟩ [[3, 1], [1, -1/2]] = some [-14, 0] ∧
    pyMahalanobis exC 0 9 id id (fun _ => []) [1, -1/2] [[2, 5/4], [0, 1]] ⟨true, 8, 0⟩ [[3, 1], [1]] = none := by
  decide +kernel

set_option synthInstance.maxSize 1024 in
/-- **C114** (negation) a point on the boundary, which scikit-learn and the C function count as an inlier, is reported as an outlier (exact arithmetic; squared distance 14, offset -14). So is a point strictly inside whose
distance 0.9999998… is printed as 1.000000 (offset -1). -/
theorem C114_boundary_refuted : pyPredict exC 0 9 id id (fun _ => []) [1, -1/2] [[2, 5/4], [0, 1]] ⟨true, 14, 0⟩ (-14) [[3, 1]] = some [-1] ∧
    pyPredict exC 0 9 id id (fun _ => []) [0] [[1]] ⟨true, 1, 0⟩ (-1) [[9999999/10000000]] = some [-1] ∧ mahaPy [9999999/10000000] [0] [[(1 : ℚ)]] = some (99999980000001/100000000000000) := by
  decide +kernel

/-! ### binary32 -/

section
open Binary32

/-- One feature, mean 1, precision 2: the rows 3 and 1 have squared distances 8 and 0. For the offset -7 they are an outlier and an inlier, also in binary32 and with the printing and reading of the data. -/
example (other : ℚ → List Char) (offset : PyFloat) (fuel depth : Nat) : pyPredict c32 fuel (depth + 2) f32Read f32Val other [1] [[2]] offset (-7) [[3], [1]] = some [-1, 1] := by
  have hb := big
  norm_num at hb
  have hM : acc.M = maxFinite := rfl
  have hu : acc.u = 1 / 2 ^ 24 := rfl
  have hη : acc.η = 1 / 2 ^ 150 := rfl
  have hD : ∀ v : ℚ, exactDistance (fun _ : Fin 1 => 1) (fun _ _ => 2) (fun _ => v) = 2 * ((v : ℝ) - 1) ^ 2 := by
    intro v
    unfold exactDistance
    simp only [dotProduct, mulVec, Fin.sum_univ_one, Pi.sub_apply]
    push_cast
    ring
  have hR : ∀ v : ℚ, v = 3 ∨ v = 1 → DistRange acc (1 / 10 ^ 6) (constErr acc 2) (constErr acc 2) (fun _ : Fin 1 => (v : ℝ)) (fun _ => ((1 : ℚ) : ℝ)) (Matrix.of fun _ _ => ((2 : ℚ) : ℝ)) ∧
      pyErr acc (1 / 10 ^ 6) 2 (fun _ : Fin 1 => 1) (fun _ _ => 2) (fun _ => v) < 1 := by
    intro v hv
    have hd : |(v : ℝ) - ((1 : ℚ) : ℝ)| = v - 1 := by
      rw [abs_of_nonneg] <;> rcases hv with rfl | rfl <;> norm_num
    have hw : |((2 : ℚ) : ℝ)| = 2 := by norm_num
    have h02 : (0 : ℝ) ≤ v - 1 ∧ (v : ℝ) - 1 ≤ 2 := by rcases hv with rfl | rfl <;> norm_num
    refine ⟨⟨?_, ?_, ?_, ?_, ?_⟩, ?_⟩
    all_goals
      simp only [pyErr, distErr, termAbs, colMag, colAbs, prodAbs, mulAbs, Fin.sum_univ_one, Fin.forall_fin_one, hd, hw, diffAbs, constErr, hu, hη, hM, Matrix.of_apply]
      rcases hv with rfl | rfl <;> norm_num <;> linarith
  obtain ⟨ps, p1, p2⟩ := C114_predict_partial basic32 c32 lit32 f32Read f32Val f32Val_eq other offset (-7) (fun _ : Fin 1 => (1 : ℚ)) (fun _ _ => (2 : ℚ)) le_rfl (by norm_num) fuel depth (B := 2) (by rw [hM]; linarith)
    (fun _ => by norm_num) (fun _ _ => by norm_num) (1 / 10 ^ 6) [fun _ => 3, fun _ => 1]
    (by
      intro i row h
      match i, h with
      | 0, h => cases h; decide +kernel
      | 1, h => cases h; decide +kernel)
    (by
      intro x hx
      simp only [List.mem_cons, List.not_mem_nil, or_false] at hx
      rcases hx with rfl | rfl
      · exact ⟨fun _ => f32Read_close 3 (by norm_num), (hR 3 (Or.inl rfl)).1⟩
      · exact ⟨fun _ => f32Read_close 1 (by norm_num), (hR 1 (Or.inr rfl)).1⟩)
    (by
      intro x hx
      simp only [List.mem_cons, List.not_mem_nil, or_false] at hx
      rcases hx with rfl | rfl
      · refine (hR 3 (Or.inl rfl)).2.trans_le ?_
        rw [hD]; norm_num
      · refine (hR 1 (Or.inr rfl)).2.trans_le ?_
        rw [hD]; norm_num)
  have e : [fun _ : Fin 1 => (3 : ℚ), fun _ => 1].map List.ofFn = [[3], [1]] := by simp
  have e1 : List.ofFn (fun _ : Fin 1 => (1 : ℚ)) = [1] := by simp
  have e2 : rows (fun _ _ : Fin 1 => (2 : ℚ)) = [[2]] := by simp [rows]
  rw [e, e1, e2] at p1
  rw [p1]
  rcases p2 with _ | ⟨a, p2⟩
  rcases p2 with _ | ⟨b, p2⟩
  cases p2
  rw [hD] at a b
  norm_num at a b
  rw [a, b]
end

end Emlearn.Distance.CText
