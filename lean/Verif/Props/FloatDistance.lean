/- C97: the Mahalanobis distance of an elliptic envelope in `float` arithmetic. -/
import Verif.Float.Calc
import Verif.Float.BinaryOps
import Verif.Props.FloatNetText
import Verif.Props.DistanceText
namespace Emlearn.Flt
open Emlearn.Distance Emlearn.MiniC Matrix

variable {F : Type} {R : Format F} {P : Accuracy}

/-! ### The error bound -/

section
variable {n : Nat} (P) (dx dm dp : ℝ) (x m : Fin n → ℝ) (W : Matrix (Fin n) (Fin n) ℝ)

/-- Absolute error of a difference `x[j] - m[j]`, for inputs known up to `dx` and means known up to `dm`. -/
noncomputable def diffAbs : ℝ := (1 + P.u) * (dx + dm)

/-- Absolute error of a product `W[j][i] * (x[j] - m[j])`. -/
noncomputable def prodAbs (i j : Fin n) : ℝ := (1 + P.u) * mulAbs P 0 1 |W j i| |x j - m j| dp (diffAbs P dx dm) + P.η

/-- Magnitude and absolute error of the inner sum of column `i`. -/
noncomputable def colMag (i : Fin n) : ℝ := ∑ j, |W j i| * |x j - m j|
noncomputable def colAbs (i : Fin n) : ℝ := (1 + P.u) ^ n * ∑ j, prodAbs P dx dm dp x m W i j

/-- Absolute error of column `i` times its difference. -/
noncomputable def termAbs (i : Fin n) : ℝ := (1 + P.u) * mulAbs P (2 + n) 1 (colMag x m W i) |x i - m i| (colAbs P dx dm dp x m W i) (diffAbs P dx dm) + P.η

/-- The error of the distance: `2n + 4` roundings relative to the sum of the absolute values, and what the errors of the inputs and constants contribute. -/
noncomputable def distErr : ℝ := ((1 + P.u) ^ (2 + n + 1 + 1 + n) - 1) * ∑ i, colMag x m W i * |x i - m i| + (1 + P.u) ^ n * ∑ i, termAbs P dx dm dp x m W i

/-- Nothing overflows. -/
structure DistRange : Prop where
  diff : ∀ i, |x i - m i| + (dx + dm) ≤ P.M
  prod : ∀ i j, ((1 + P.u) ^ 0 * |W j i| + dp) * ((1 + P.u) ^ 1 * |x j - m j| + diffAbs P dx dm) ≤ P.M
  col : ∀ i, (1 + P.u) ^ (2 + n) * colMag x m W i + colAbs P dx dm dp x m W i ≤ P.M
  term : ∀ i, ((1 + P.u) ^ (2 + n) * colMag x m W i + colAbs P dx dm dp x m W i) * ((1 + P.u) ^ 1 * |x i - m i| + diffAbs P dx dm) ≤ P.M
  total : (1 + P.u) ^ (2 + n + 1 + 1 + n) * ∑ i, colMag x m W i * |x i - m i| + (1 + P.u) ^ n * ∑ i, termAbs P dx dm dp x m W i ≤ P.M
end

/-- **C97.** `eml_mahalanobis_distance_squared` in rounded arithmetic: on values, means and a precision matrix that are known up to `dx`, `dm` and `dp`, the result is finite and within `distErr` of the exact squared
Mahalanobis distance `(x - m)ᵀ W (x - m)`. -/
theorem C97_distance [Zero F] [Add F] [Sub F] [Mul F] (h : BasicArith (F := F) R P) {n : Nat} {dx dm dp : ℝ} (x m : Fin n → F) (W : Matrix (Fin n) (Fin n) F) (x' m' : Fin n → ℝ) (W' : Matrix (Fin n) (Fin n) ℝ)
    (hx : ∀ i, Close R dx (x i) (x' i)) (hm : ∀ i, Close R dm (m i) (m' i)) (hW : ∀ i j, Close R dp (W i j) (W' i j)) (hr : DistRange P dx dm dp x' m' W') :
    ∃ d, mahaC (List.ofFn x) (List.ofFn m) (rows W).flatten n = some d ∧ Close R (distErr P dx dm dp x' m' W') d ((x' - m') ⬝ᵥ (W' *ᵥ (x' - m'))) := by
  have hd : ∀ j : Fin n, diffAt (List.ofFn x) (List.ofFn m) j = some (x j - m j) ∧ Apx R P 1 |x' j - m' j| (diffAbs P dx dm) (x j - m j) (x' j - m' j) :=
    fun j => ⟨by simp [diffAt], Apx.diff h.sub (hx j) (hm j) (hr.diff j)⟩
  have hcol : ∀ i : Fin n, ∃ a, sumLoop (fun j => do let p ← (rows W).flatten[j * n + i]?; let d ← diffAt (List.ofFn x) (List.ofFn m) j; some (p * d)) n 0 0 = some a ∧
      Apx R P (2 + n) (colMag x' m' W' i) (colAbs P dx dm dp x' m' W' i) a (∑ j, W' j i * (x' j - m' j)) := by
    intro i
    refine Apx.sumLoop_fin h 2 n _ (fun j => W' j i * (x' j - m' j)) (fun j => |W' j i| * |x' j - m' j|) (fun j => prodAbs P dx dm dp x' m' W' i j) (fun j => ⟨W j i * (x j - m j), ?_, ?_⟩) (hr.col i)
    · have := ofFn_flatten_getElem? n n W j i
      simp only [rows, this, (hd j).1]
      rfl
    · exact Apx.mul h.mul (Apx.of_close (P := P) (hW j i)) (hd j).2 (hr.prod i j)
  unfold mahaC
  obtain ⟨d, e, hapx⟩ := Apx.sumLoop_fin h (2 + n + 1 + 1) n (fun i => do
      let acc ← sumLoop (fun j => do let p ← (rows W).flatten[j * n + i]?; let d ← diffAt (List.ofFn x) (List.ofFn m) j; some (p * d)) n 0 0
      let d ← diffAt (List.ofFn x) (List.ofFn m) i
      some (acc * d)) (fun i => (∑ j, W' j i * (x' j - m' j)) * (x' i - m' i)) (fun i => colMag x' m' W' i * |x' i - m' i|) (fun i => termAbs P dx dm dp x' m' W' i) (fun i => by
        obtain ⟨a, ea, ha⟩ := hcol i
        refine ⟨a * (x i - m i), ?_, Apx.mul h.mul ha (hd i).2 (hr.term i)⟩
        simp only [ea, (hd i).1]
        rfl) hr.total
  refine ⟨d, e, ?_⟩
  have hs : ∑ i, (∑ j, W' j i * (x' j - m' j)) * (x' i - m' i) = (x' - m') ⬝ᵥ (W' *ᵥ (x' - m')) := by
    simp only [dotProduct, mulVec, Pi.sub_apply, Finset.sum_mul, Finset.mul_sum]
    rw [Finset.sum_comm]
    exact Finset.sum_congr rfl (fun i _ => Finset.sum_congr rfl (fun j _ => by ring))
  rw [← hs]
  exact hapx.close

/-! ### The decision -/

/-- Rounded subtraction has the sign of the exact one. -/
theorem sub_neg_iff {sub : F → F → F} (h : SubOk R P sub) (hu : P.u < 1) {a b : F} (ha : R.fin a) (hb : R.fin b) (hM : |R.val a - R.val b| ≤ P.M) : R.val (sub a b) < 0 ↔ R.val a - R.val b < 0 := by
  obtain ⟨-, e⟩ := h a b ha hb hM
  generalize R.val (sub a b) = c at *
  generalize R.val a - R.val b = y at *
  have hu0 := P.hu
  constructor
  · intro hc
    by_contra hy
    rw [not_lt] at hy
    rw [abs_of_nonneg hy] at e
    have := (abs_le.1 e).1
    nlinarith
  · intro hy
    rw [abs_of_neg hy] at e
    have := (abs_le.1 e).2
    nlinarith

/-- The operations that the decision uses besides. -/
structure CompareOk (R : Format F) [Zero F] [Neg F] [LT F] : Prop where
  neg : ∀ a : F, R.fin a → R.fin (-a) ∧ R.val (-a) = -R.val a
  lt : ∀ a b : F, R.fin a → R.fin b → (a < b ↔ R.val a < R.val b)

/-- **C97.** `eml_elliptic_envelope_predict` in rounded arithmetic stores a distance within `distErr`, and its decision is the exact one for every point that is further from the boundary than the errors of the distance
and of the stored boundary. -/
theorem C97_outlier [Zero F] [Add F] [Sub F] [Mul F] [Neg F] [LT F] [DecidableLT F] (h : BasicArith (F := F) R P) (hc : CompareOk R (F := F)) (hu : P.u < 1) {n : Nat} {dx dm dp db : ℝ} (x m : Fin n → F)
    (W : Matrix (Fin n) (Fin n) F) (b : F) (x' m' : Fin n → ℝ) (W' : Matrix (Fin n) (Fin n) ℝ) (b' : ℝ) (hx : ∀ i, Close R dx (x i) (x' i)) (hm : ∀ i, Close R dm (m i) (m' i)) (hW : ∀ i j, Close R dp (W i j) (W' i j))
    (hb : Close R db b b') (hr : DistRange P dx dm dp x' m' W') (hM : |(x' - m') ⬝ᵥ (W' *ᵥ (x' - m'))| + distErr P dx dm dp x' m' W' + (|b'| + db) ≤ P.M)
    (hfar : distErr P dx dm dp x' m' W' + db < |(-((x' - m') ⬝ᵥ (W' *ᵥ (x' - m')))) - b'|) :
    ∃ d, predict ⟨n, b, List.ofFn m, (rows W).flatten⟩ (List.ofFn x) = some (if (-((x' - m') ⬝ᵥ (W' *ᵥ (x' - m')))) - b' < 0 then 1 else 0, some d) ∧
      Close R (distErr P dx dm dp x' m' W') d ((x' - m') ⬝ᵥ (W' *ᵥ (x' - m'))) := by
  obtain ⟨d, e, hd⟩ := C97_distance h x m W x' m' W' hx hm hW hr
  refine ⟨d, ?_, hd⟩
  generalize (x' - m') ⬝ᵥ (W' *ᵥ (x' - m')) = D at *
  generalize distErr P dx dm dp x' m' W' = E at *
  unfold predict predictN
  rw [if_pos (by simp), List.length_ofFn, Int.toNat_natCast]
  dsimp only
  rw [e, Option.bind_eq_bind, Option.bind_some]
  obtain ⟨n1, n2⟩ := hc.neg d hd.1
  have hrange : |R.val (-d) - R.val b| ≤ P.M := by
    refine (abs_sub _ _).trans ?_
    rw [n2, abs_neg]
    have := hd.abs_le
    have := hb.abs_le
    linarith
  have hsub := sub_neg_iff h.sub hu n1 hb.1 hrange
  have hlt := hc.lt (-d - b) 0 (h.sub (-d) b n1 hb.1 hrange).1 h.zero.1
  rw [h.zero.2, hsub, n2] at hlt
  have h1 := abs_le.1 hd.2
  have h2 := abs_le.1 hb.2
  congr 2
  by_cases hD : -D - b' < 0
  · rw [if_pos hD, if_pos]
    rw [abs_of_neg hD] at hfar
    rw [hlt]
    linarith [h1.1, h2.1]
  · rw [if_neg hD, if_neg]
    rw [abs_of_nonneg (not_lt.1 hD)] at hfar
    rw [hlt]
    linarith [h1.2, h2.2]

/-! ### From the generated text -/

/-- **C97** (from the text). The text generated for an envelope with means and precisions up to `B` in magnitude, read as C and run in `float` arithmetic on values that are known up to `dx`: `<name>_predict` returns
a finite number within `distErr` of the squared Mahalanobis distance of the trained envelope, where means and precisions are off by at most `constErr`. -/
theorem C97_text [Zero F] [Add F] [Sub F] [Mul F] [Neg F] [LT F] [DecidableLT F] (h : BasicArith (F := F) R P) (ops : CFloat F) (hlit : LitOk R P ops) (other : ℚ → List Char) (offset : PyFloat) (pre : List Char) {n : Nat}
    (m : Fin n → ℚ) (W : Matrix (Fin n) (Fin n) ℚ) (ha : CText.EnvelopeArgs pre (List.ofFn m) (rows W)) (fuel depth : Nat) {B : ℝ} (hM : B + 1 / (2 * 10 ^ 6) ≤ P.M) (hm : ∀ i, |(m i : ℝ)| ≤ B) (hW : ∀ i j, |(W i j : ℝ)| ≤ B) :
    ∃ text prog, CText.generateText other pre (List.ofFn m) (rows W) offset = some text ∧ parse text = some prog ∧
      ∀ (dx : ℝ) (x : Fin n → F) (x' : Fin n → ℝ), (∀ i, Close R dx (x i) (x' i)) →
        DistRange P dx (constErr P B) (constErr P B) x' (fun i => (m i : ℝ)) (Matrix.of fun i j => (W i j : ℝ)) →
        ∃ d, callFunc ops (CText.envelopeLib ops prog) prog fuel (depth + 2) (pre ++ "_predict".toList) [.arr "float".toList (List.ofFn fun i => some (.flt (x i))), .num (.int n)] = some (.flt d, []) ∧
          Close R (distErr P dx (constErr P B) (constErr P B) x' (fun i => (m i : ℝ)) (Matrix.of fun i j => (W i j : ℝ))) d
            ((x' - fun i => (m i : ℝ)) ⬝ᵥ ((Matrix.of fun i j => (W i j : ℝ)) *ᵥ (x' - fun i => (m i : ℝ)))) := by
  obtain ⟨text, prog, h1, h2, h3⟩ := CText.C93_predict offset ops other fuel depth ha
  refine ⟨text, prog, h1, h2, fun dx x x' hx hr => ?_⟩
  have hl := ha.features.2
  rw [List.length_ofFn] at hl
  have := h3 (List.ofFn x) n (by omega) (by omega)
  rw [List.map_ofFn, if_pos (by rw [List.length_ofFn]), List.map_ofFn, List.length_ofFn] at this
  obtain ⟨d, e, hd⟩ := C97_distance h x (fun i => floatLit ops (m i)) (Matrix.of fun i j => floatLit ops (W i j)) x' (fun i => (m i : ℝ)) (Matrix.of fun i j => (W i j : ℝ)) hx
    (fun i => floatLit_close hlit hM _ (hm i)) (fun i j => floatLit_close hlit hM _ (hW i j)) hr
  refine ⟨d, ?_, hd⟩
  have hP : (rows W).flatten.map (floatLit ops) = (rows (Matrix.of fun i j => floatLit ops (W i j))).flatten := by
    unfold rows
    rw [List.map_flatten, List.map_ofFn]
    simp only [Function.comp_def, List.map_ofFn]
    rfl
  rw [hP] at this
  have hmm : List.ofFn (floatLit ops ∘ m) = List.ofFn fun i => floatLit ops (m i) := rfl
  rw [hmm, e] at this
  exact this

/-! ### A concrete case: binary32, two features -/

section
open Binary32

theorem compare32 : CompareOk (F := F32) fmt := ⟨netArith.neg, fun _ _ _ _ => Iff.rfl⟩

noncomputable def exX : Fin 2 → ℝ := ![3, 1]
noncomputable def exM : Fin 2 → ℝ := ![1, 1 / 3]
noncomputable def exW : Matrix (Fin 2) (Fin 2) ℝ := !![2, 1 / 10; 1 / 10, 1]

theorem ex_dist_range : DistRange acc (1 / 10 ^ 6) (1 / 10 ^ 6) (1 / 10 ^ 6) exX exM exW ∧ distErr acc (1 / 10 ^ 6) (1 / 10 ^ 6) (1 / 10 ^ 6) exX exM exW ≤ 1 / 10 ^ 4 ∧ (exX - exM) ⬝ᵥ (exW *ᵥ (exX - exM)) = 392 / 45 := by
  have hb := big
  have hM : acc.M = maxFinite := rfl
  have hu : acc.u = 1 / 2 ^ 24 := rfl
  have hη : acc.η = 1 / 2 ^ 150 := rfl
  have d0 : |exX 0 - exM 0| = 2 := by norm_num [exX, exM]
  have d1 : |exX 1 - exM 1| = 2 / 3 := by norm_num [exX, exM, abs_of_pos]
  have w00 : |exW 0 0| = 2 := by norm_num [exW]
  have w01 : |exW 0 1| = 1 / 10 := by norm_num [exW, abs_of_pos]
  have w10 : |exW 1 0| = 1 / 10 := by norm_num [exW, abs_of_pos]
  have w11 : |exW 1 1| = 1 := by norm_num [exW]
  norm_num at hb
  refine ⟨⟨?_, ?_, ?_, ?_, ?_⟩, ?_, ?_⟩
  · simp only [Fin.forall_fin_two, d0, d1, hM]
    constructor <;> norm_num <;> linarith
  · simp only [Fin.forall_fin_two, d0, d1, w00, w01, w10, w11, diffAbs, hu, hM]
    refine ⟨⟨?_, ?_⟩, ?_, ?_⟩ <;> norm_num <;> linarith
  · simp only [Fin.forall_fin_two, colMag, colAbs, prodAbs, mulAbs, Fin.sum_univ_two, d0, d1, w00, w01, w10, w11, diffAbs, hu, hη, hM]
    constructor <;> norm_num <;> linarith
  · simp only [Fin.forall_fin_two, colMag, colAbs, prodAbs, mulAbs, Fin.sum_univ_two, d0, d1, w00, w01, w10, w11, diffAbs, hu, hη, hM]
    constructor <;> norm_num <;> linarith
  · simp only [termAbs, colMag, colAbs, prodAbs, mulAbs, Fin.sum_univ_two, d0, d1, w00, w01, w10, w11, diffAbs, hu, hη, hM]
    norm_num
    linarith
  · simp only [distErr, termAbs, colMag, colAbs, prodAbs, mulAbs, Fin.sum_univ_two, d0, d1, w00, w01, w10, w11, diffAbs, hu, hη]
    norm_num
  · simp only [dotProduct, mulVec, Fin.sum_univ_two, exX, exM, exW, Pi.sub_apply]
    norm_num [Matrix.of_apply, Matrix.cons_val_zero, Matrix.cons_val_one]

/-- A point whose squared distance is 392/45 ≈ 8.7 is an outlier for the boundary -8 and an inlier for -9, also in binary32. -/
example : (∃ d, predict (K := F32) ⟨2, rnd (-8), List.ofFn fun i => rnd (exM i), (rows (Matrix.of fun i j => rnd (exW i j))).flatten⟩ (List.ofFn fun i => rnd (exX i)) = some (1, some d) ∧ Close fmt (1 / 10 ^ 4) d (392 / 45)) ∧
    ∃ d, predict (K := F32) ⟨2, rnd (-9), List.ofFn fun i => rnd (exM i), (rows (Matrix.of fun i j => rnd (exW i j))).flatten⟩ (List.ofFn fun i => rnd (exX i)) = some (0, some d) ∧ Close fmt (1 / 10 ^ 4) d (392 / 45) := by
  obtain ⟨r1, r2, r3⟩ := ex_dist_range
  have hb := big
  norm_num at hb
  have hM : acc.M = maxFinite := rfl
  have close : ∀ v : ℝ, |v| ≤ 9 → Close fmt (1 / 10 ^ 6) (rnd v) v := by
    intro x h
    refine ⟨fl_fin x (h.trans (by linarith)), (fl_error_any x).trans ?_⟩
    have := mul_le_mul_of_nonneg_left h (show (0 : ℝ) ≤ 1 / 2 ^ 24 by positivity)
    norm_num at this ⊢
    linarith
  have cx : ∀ i, Close fmt (1 / 10 ^ 6) (rnd (exX i)) (exX i) := fun i => close _ (by revert i; simp only [Fin.forall_fin_two]; constructor <;> norm_num [exX])
  have cm : ∀ i, Close fmt (1 / 10 ^ 6) (rnd (exM i)) (exM i) := fun i => close _ (by revert i; simp only [Fin.forall_fin_two]; constructor <;> norm_num [exM, abs_of_pos])
  have cw : ∀ i j, Close fmt (1 / 10 ^ 6) (rnd (exW i j)) (exW i j) := fun i j => close _ (by
    revert i j; simp only [Fin.forall_fin_two]; refine ⟨⟨?_, ?_⟩, ?_, ?_⟩ <;> norm_num [exW, abs_of_pos])
  constructor
  · obtain ⟨d, h1, h2⟩ := C97_outlier basic32 compare32 (by show (1 : ℝ) / 2 ^ 24 < 1; norm_num) (fun i => rnd (exX i)) (fun i => rnd (exM i)) (Matrix.of fun i j => rnd (exW i j)) (rnd (-8)) exX exM exW (-8) cx cm cw
      (close (-8) (by norm_num)) r1 (by rw [r3, hM]; norm_num [abs_of_pos] at r2 ⊢; linarith) (by rw [r3]; norm_num [abs_of_pos, abs_of_neg] at r2 ⊢; linarith)
    rw [r3] at h1 h2
    rw [if_pos (by norm_num)] at h1
    exact ⟨d, h1, h2.mono r2⟩
  · obtain ⟨d, h1, h2⟩ := C97_outlier basic32 compare32 (by show (1 : ℝ) / 2 ^ 24 < 1; norm_num) (fun i => rnd (exX i)) (fun i => rnd (exM i)) (Matrix.of fun i j => rnd (exW i j)) (rnd (-9)) exX exM exW (-9) cx cm cw
      (close (-9) (by norm_num)) r1 (by rw [r3, hM]; norm_num [abs_of_pos] at r2 ⊢; linarith) (by rw [r3]; norm_num [abs_of_pos, abs_of_neg] at r2 ⊢; linarith)
    rw [r3] at h1 h2
    rw [if_neg (by norm_num)] at h1
    exact ⟨d, h1, h2.mono r2⟩
end

end Emlearn.Flt
