/- A calculus of rounding errors in the standard model (`Float/Model.lean`): a machine number stands for a real number of magnitude at most `T` with relative error `(1+u)^q - 1` of `T` and absolute error `α`.
Every operation gives new `q`, `T`, `α`; so does a loop that adds terms. -/
import Verif.Float.Model
import Verif.Loops
namespace Emlearn.Flt
open Finset

/-- `a` stands for `r`, which is at most `T` in magnitude, up to `((1+u)^q - 1) T + α`. -/
structure Apx {F : Type} (R : Format F) (P : Accuracy) (q : Nat) (T α : ℝ) (a : F) (r : ℝ) : Prop where
  mag : |r| ≤ T
  abs : 0 ≤ α
  close : Close R (((1 + P.u) ^ q - 1) * T + α) a r

/-- The basic operations of the machine, as C's `float`. -/
structure BasicArith {F : Type} (R : Format F) (P : Accuracy) [Zero F] [Add F] [Sub F] [Mul F] : Prop where
  zero : R.fin 0 ∧ R.val 0 = 0
  add : AddOk R P (· + · : F → F → F)
  sub : SubOk R P (· - · : F → F → F)
  mul : MulOk R P (· * · : F → F → F)

variable {F : Type} {R : Format F} {P : Accuracy}

theorem Apx.pos {q : Nat} {T α : ℝ} {a : F} {r : ℝ} (h : Apx R P q T α a r) : 0 ≤ T := (abs_nonneg _).trans h.mag

/-- A bound for the machine number itself. -/
theorem Apx.abs_le {q : Nat} {T α : ℝ} {a : F} {r : ℝ} (h : Apx R P q T α a r) : |R.val a| ≤ (1 + P.u) ^ q * T + α := by
  have h1 := h.close.abs_le
  have h2 := h.mag
  nlinarith

theorem Apx.mono {q q' : Nat} {T T' α α' : ℝ} {a : F} {r : ℝ} (h : Apx R P q T α a r) (hq : q ≤ q') (hT : T ≤ T') (hα : α ≤ α') : Apx R P q' T' α' a r := by
  refine ⟨h.mag.trans hT, h.abs.trans hα, h.close.mono ?_⟩
  have h0 := h.pos
  have h1 := one_le_pow_u (P := P) q
  have h2 := pow_u_mono (P := P) hq
  nlinarith

/-- A finite machine number stands for itself. -/
theorem Apx.self {a : F} (h : R.fin a) : Apx R P 0 |R.val a| 0 a (R.val a) := ⟨le_rfl, le_rfl, h, by simp⟩

theorem Apx.of_close {δ : ℝ} {a : F} {r : ℝ} (h : Close R δ a r) : Apx R P 0 |r| δ a r := ⟨le_rfl, (abs_nonneg _).trans h.2, by simpa using h⟩

theorem Apx.zero [Zero F] [Add F] [Sub F] [Mul F] (h : BasicArith (F := F) R P) : Apx R P 0 0 0 (0 : F) 0 := ⟨by simp, le_rfl, h.zero.1, by simp [h.zero.2]⟩

/-- The error after a rounded operation whose exact value on machine numbers is `x`. -/
theorem apx_round {q : Nat} {T α : ℝ} {c : F} {x r η : ℝ} (hT : |r| ≤ T) (hα : 0 ≤ α) (hη : 0 ≤ η) (hx : |x - r| ≤ ((1 + P.u) ^ q - 1) * T + α) (hc : R.fin c) (he : |R.val c - x| ≤ P.u * |x| + η) :
    Apx R P (q + 1) T ((1 + P.u) * α + η) c r := by
  have hu := P.hu
  have h0 : 0 ≤ T := (abs_nonneg _).trans hT
  refine ⟨hT, by positivity, hc, ?_⟩
  have e : R.val c - r = (R.val c - x) + (x - r) := by ring
  rw [e]
  refine (abs_add_le _ _).trans ?_
  have h1 : |x| ≤ (1 + P.u) ^ q * T + α := by
    have := abs_sub_abs_le_abs_sub x r
    nlinarith
  have h2 := mul_le_mul_of_nonneg_left h1 hu
  rw [pow_succ]
  nlinarith

theorem Apx.add {add : F → F → F} (h : AddOk R P add) {q q' : Nat} {T T' α α' : ℝ} {a b : F} {r s : ℝ} (ha : Apx R P q T α a r) (hb : Apx R P q' T' α' b s)
    (hM : (1 + P.u) ^ q * T + α + ((1 + P.u) ^ q' * T' + α') ≤ P.M) : Apx R P (max q q' + 1) (T + T') ((1 + P.u) * (α + α')) (add a b) (r + s) := by
  obtain ⟨f, e⟩ := h a b ha.close.1 hb.close.1 ((abs_add_le _ _).trans ((add_le_add ha.abs_le hb.abs_le).trans hM))
  have hm : |r + s| ≤ T + T' := (abs_add_le _ _).trans (add_le_add ha.mag hb.mag)
  have := apx_round (P := P) (q := max q q') (α := α + α') (η := 0) (x := R.val a + R.val b) hm (add_nonneg ha.abs hb.abs) le_rfl ?_ f (by simpa using e)
  · simpa using this
  · have e1 : R.val a + R.val b - (r + s) = (R.val a - r) + (R.val b - s) := by ring
    rw [e1]
    refine (abs_add_le _ _).trans ((add_le_add ha.close.2 hb.close.2).trans ?_)
    have h1 := mul_le_mul_of_nonneg_right (pow_u_mono (P := P) (le_max_left q q')) ha.pos
    have h2 := mul_le_mul_of_nonneg_right (pow_u_mono (P := P) (le_max_right q q')) hb.pos
    nlinarith

theorem Apx.sub {sub : F → F → F} (h : SubOk R P sub) {q q' : Nat} {T T' α α' : ℝ} {a b : F} {r s : ℝ} (ha : Apx R P q T α a r) (hb : Apx R P q' T' α' b s)
    (hM : (1 + P.u) ^ q * T + α + ((1 + P.u) ^ q' * T' + α') ≤ P.M) : Apx R P (max q q' + 1) (T + T') ((1 + P.u) * (α + α')) (sub a b) (r - s) := by
  obtain ⟨f, e⟩ := h a b ha.close.1 hb.close.1 ((abs_sub _ _).trans ((add_le_add ha.abs_le hb.abs_le).trans hM))
  have hm : |r - s| ≤ T + T' := (abs_sub _ _).trans (add_le_add ha.mag hb.mag)
  have := apx_round (P := P) (q := max q q') (α := α + α') (η := 0) (x := R.val a - R.val b) hm (add_nonneg ha.abs hb.abs) le_rfl ?_ f (by simpa using e)
  · simpa using this
  · have e1 : R.val a - R.val b - (r - s) = (R.val a - r) - (R.val b - s) := by ring
    rw [e1]
    refine (abs_sub _ _).trans ((add_le_add ha.close.2 hb.close.2).trans ?_)
    have h1 := mul_le_mul_of_nonneg_right (pow_u_mono (P := P) (le_max_left q q')) ha.pos
    have h2 := mul_le_mul_of_nonneg_right (pow_u_mono (P := P) (le_max_right q q')) hb.pos
    nlinarith

/-- The difference of numbers known up to an absolute error: the rounding error is relative to the difference. -/
theorem Apx.diff {sub : F → F → F} (h : SubOk R P sub) {e d : ℝ} {a b : F} {r s : ℝ} (ha : Close R e a r) (hb : Close R d b s) (hM : |r - s| + (e + d) ≤ P.M) :
    Apx R P 1 |r - s| ((1 + P.u) * (e + d)) (sub a b) (r - s) := by
  have he : 0 ≤ e := (abs_nonneg _).trans ha.2
  have hd : 0 ≤ d := (abs_nonneg _).trans hb.2
  have h1 : |R.val a - R.val b - (r - s)| ≤ e + d := by
    have e1 : R.val a - R.val b - (r - s) = (R.val a - r) - (R.val b - s) := by ring
    rw [e1]
    exact (abs_sub _ _).trans (add_le_add ha.2 hb.2)
  have h2 : |R.val a - R.val b| ≤ |r - s| + (e + d) := by
    have := abs_sub_abs_le_abs_sub (R.val a - R.val b) (r - s)
    linarith
  obtain ⟨f, g⟩ := h a b ha.1 hb.1 (h2.trans hM)
  have := apx_round (P := P) (q := 0) (T := |r - s|) (α := e + d) (η := 0) (x := R.val a - R.val b) le_rfl (add_nonneg he hd) le_rfl (by simpa using h1) f (by simpa using g)
  simpa using this

/-- The absolute error of a product before rounding. -/
def mulAbs (P : Accuracy) (q q' : Nat) (T T' α α' : ℝ) : ℝ := (1 + P.u) ^ q * T * α' + (1 + P.u) ^ q' * T' * α + α * α'

theorem Apx.mul {mul : F → F → F} (h : MulOk R P mul) {q q' : Nat} {T T' α α' : ℝ} {a b : F} {r s : ℝ} (ha : Apx R P q T α a r) (hb : Apx R P q' T' α' b s)
    (hM : ((1 + P.u) ^ q * T + α) * ((1 + P.u) ^ q' * T' + α') ≤ P.M) : Apx R P (q + q' + 1) (T * T') ((1 + P.u) * mulAbs P q q' T T' α α' + P.η) (mul a b) (r * s) := by
  have hT := ha.pos
  have hT' := hb.pos
  have ha1 := ha.abs_le
  have hb1 := hb.abs_le
  have hα := ha.abs
  have hα' := hb.abs
  have p1 := pow_u_pos (P := P) q
  have p2 := pow_u_pos (P := P) q'
  obtain ⟨f, e⟩ := h a b ha.close.1 hb.close.1 (by rw [abs_mul]; exact (mul_le_mul ha1 hb1 (abs_nonneg _) (by positivity)).trans hM)
  have hm : |r * s| ≤ T * T' := by rw [abs_mul]; exact mul_le_mul ha.mag hb.mag (abs_nonneg _) hT
  refine apx_round (P := P) (q := q + q') (η := P.η) (x := R.val a * R.val b) hm (by unfold mulAbs; positivity) P.hη ?_ f e
  have e1 : R.val a * R.val b - r * s = r * (R.val b - s) + (R.val a - r) * R.val b := by ring
  rw [e1]
  refine (abs_add_le _ _).trans ?_
  rw [abs_mul, abs_mul]
  have h1 : |r| * |R.val b - s| ≤ T * (((1 + P.u) ^ q' - 1) * T' + α') := mul_le_mul ha.mag hb.close.2 (abs_nonneg _) hT
  have h2 : |R.val a - r| * |R.val b| ≤ (((1 + P.u) ^ q - 1) * T + α) * ((1 + P.u) ^ q' * T' + α') :=
    mul_le_mul ha.close.2 hb1 (abs_nonneg _) ((abs_nonneg _).trans ha.close.2)
  rw [pow_add]
  unfold mulAbs
  generalize (1 + P.u) ^ q = U at *
  generalize (1 + P.u) ^ q' = V at *
  nlinarith

/-- **Loops.** `acc += term(j)` for `k` terms, each with relative error `q` of its own magnitude `T j` and absolute error `A j`. -/
theorem Apx.sumLoop [Add F] (h : AddOk R P (· + · : F → F → F)) (q : Nat) (f : Nat → Option F) (r T A : Nat → ℝ) (n : Nat)
    (hf : ∀ j, j < n → ∃ a, f j = some a ∧ Apx R P q (T j) (A j) a (r j))
    (hM : (1 + P.u) ^ (q + n) * ∑ j ∈ range n, T j + (1 + P.u) ^ n * ∑ j ∈ range n, A j ≤ P.M) :
    ∀ (k i : Nat) (acc : F), i + k = n → Apx R P (q + i) (∑ j ∈ range i, T j) ((1 + P.u) ^ i * ∑ j ∈ range i, A j) acc (∑ j ∈ range i, r j) →
      ∃ a, Emlearn.sumLoop f k i acc = some a ∧ Apx R P (q + n) (∑ j ∈ range n, T j) ((1 + P.u) ^ n * ∑ j ∈ range n, A j) a (∑ j ∈ range n, r j)
  | 0, i, acc, hi, hacc => by
    rw [Nat.add_zero] at hi
    subst hi
    exact ⟨acc, rfl, hacc⟩
  | k + 1, i, acc, hi, hacc => by
    obtain ⟨a, e, ha⟩ := hf i (by omega)
    have hTn : ∀ j, j < n → 0 ≤ T j := fun j hj => (hf j hj).elim fun _ h => h.2.pos
    have hAn : ∀ j, j < n → 0 ≤ A j := fun j hj => (hf j hj).elim fun _ h => h.2.abs
    have hle : ∀ (g : Nat → ℝ), (∀ j, j < n → 0 ≤ g j) → ∑ j ∈ range i, g j + g i ≤ ∑ j ∈ range n, g j := by
      intro g hg
      rw [← sum_range_succ]
      exact sum_le_sum_of_subset_of_nonneg (range_subset_range.2 (by omega)) fun j hj _ => hg j (mem_range.1 hj)
    have t1 := hle T hTn
    have t2 := hle A hAn
    have n1 : 0 ≤ ∑ j ∈ range i, T j := sum_nonneg fun j hj => hTn j (by have := mem_range.1 hj; omega)
    have n2 : 0 ≤ ∑ j ∈ range i, A j := sum_nonneg fun j hj => hAn j (by have := mem_range.1 hj; omega)
    have n3 := ha.pos
    have n4 := ha.abs
    rw [Emlearn.sumLoop, e, Option.bind_some]
    have p1 := pow_u_mono (P := P) (show q + i ≤ q + n by omega)
    have p2 := pow_u_mono (P := P) (show q ≤ q + n by omega)
    have p3 := pow_u_mono (P := P) (show i ≤ n by omega)
    have p4 := one_le_pow_u (P := P) n
    have hstep := Apx.add h hacc ha (by
      refine le_trans ?_ hM
      have c1 := mul_le_mul_of_nonneg_right p1 n1
      have c2 := mul_le_mul_of_nonneg_right p2 n3
      have c3 := mul_le_mul_of_nonneg_right p3 n2
      have c4 := mul_le_mul_of_nonneg_right p4 n4
      have c5 := mul_le_mul_of_nonneg_left t1 (pow_u_pos (P := P) (q + n)).le
      have c6 := mul_le_mul_of_nonneg_left t2 (pow_u_pos (P := P) n).le
      linarith)
    refine Apx.sumLoop h q f r T A n hf hM k (i + 1) _ (by omega) ?_
    rw [sum_range_succ, sum_range_succ, sum_range_succ]
    refine hstep.mono ?_ le_rfl ?_
    · rw [max_eq_left (by omega)]
      omega
    · have c1 := mul_le_mul_of_nonneg_right (one_le_pow_u (P := P) i) n4
      have := P.hu
      rw [pow_succ]
      nlinarith

/-- A loop that starts from zero. -/
theorem Apx.sumLoop_zero [Zero F] [Add F] [Sub F] [Mul F] (h : BasicArith (F := F) R P) (q : Nat) (f : Nat → Option F) (r T A : Nat → ℝ) (n : Nat)
    (hf : ∀ j, j < n → ∃ a, f j = some a ∧ Apx R P q (T j) (A j) a (r j))
    (hM : (1 + P.u) ^ (q + n) * ∑ j ∈ range n, T j + (1 + P.u) ^ n * ∑ j ∈ range n, A j ≤ P.M) :
    ∃ a, Emlearn.sumLoop f n 0 0 = some a ∧ Apx R P (q + n) (∑ j ∈ range n, T j) ((1 + P.u) ^ n * ∑ j ∈ range n, A j) a (∑ j ∈ range n, r j) :=
  Apx.sumLoop h.add q f r T A n hf hM n 0 0 (by omega) (by simpa using (Apx.zero (R := R) (P := P) h).mono (Nat.zero_le q) le_rfl le_rfl)

/-- The same, with terms indexed by `Fin n`. -/
theorem Apx.sumLoop_fin [Zero F] [Add F] [Sub F] [Mul F] (h : BasicArith (F := F) R P) (q n : Nat) (f : Nat → Option F) (r T A : Fin n → ℝ)
    (hf : ∀ j : Fin n, ∃ a, f j = some a ∧ Apx R P q (T j) (A j) a (r j))
    (hM : (1 + P.u) ^ (q + n) * ∑ j, T j + (1 + P.u) ^ n * ∑ j, A j ≤ P.M) :
    ∃ a, Emlearn.sumLoop f n 0 0 = some a ∧ Apx R P (q + n) (∑ j, T j) ((1 + P.u) ^ n * ∑ j, A j) a (∑ j, r j) := by
  have e : ∀ g : Fin n → ℝ, ∑ j ∈ range n, (if hj : j < n then g ⟨j, hj⟩ else 0) = ∑ j, g j := by
    intro g
    rw [Finset.sum_range]
    simp
  have := Apx.sumLoop_zero (R := R) (P := P) h q f (fun j => if hj : j < n then r ⟨j, hj⟩ else 0) (fun j => if hj : j < n then T ⟨j, hj⟩ else 0) (fun j => if hj : j < n then A ⟨j, hj⟩ else 0) n
    (fun j hj => by simpa only [dif_pos hj] using hf ⟨j, hj⟩) (by rw [e, e]; exact hM)
  rw [e, e, e] at this
  exact this

end Emlearn.Flt
