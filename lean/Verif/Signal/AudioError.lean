/- Rounding errors of the steps of `eml_audio_melspectrogram` in `float` arithmetic (C125). -/
import Verif.Signal.AudioFloat
import Verif.Props.Audio
import Verif.Props.FloatFft
import Verif.Props.FloatIir
namespace Emlearn.Audio.Flt
open Emlearn.Flt Finset

/-- The operations of the machine, as C's `float`: rounded `+ - * /`, exact sign, `fabs`, comparisons and small integers, and `powf(a, 2)` with relative error `v`. -/
structure AudioArith {F : Type} (R : Format F) (P : Accuracy) (v : ℝ) [Zero F] [Add F] [Sub F] [Mul F] [Neg F] (ops : AOps F) : Prop where
  basic : BasicArith (F := F) R P
  neg : NegOk (F := F) R
  div : DivOk R P ops.div
  abs : ∀ a, R.fin a → R.fin (ops.abs a) ∧ R.val (ops.abs a) = |R.val a|
  sq : ∀ a, R.fin a → (1 + v) * R.val a ^ 2 + P.η ≤ P.M → R.fin (ops.sq a) ∧ |R.val (ops.sq a) - R.val a ^ 2| ≤ v * R.val a ^ 2 + P.η
  lt : ∀ a b, R.fin a → R.fin b → (ops.lt a b = true ↔ R.val a < R.val b)
  ofInt : ∀ i : Int, 0 ≤ i → i ≤ 2 ^ 24 → R.fin (ops.ofInt i) ∧ R.val (ops.ofInt i) = i
  unit : P.u ≤ 1 / 2
  v0 : 0 ≤ v
  tiny : P.η ≤ 1 / 2
  room : 2 ≤ P.M

variable {F : Type} {R : Format F} {P : Accuracy} {v : ℝ} [Zero F] [Add F] [Sub F] [Mul F] [Neg F] {ops : AOps F}

/-- Error of a product of two numbers of magnitude `A` and `B` known up to `e` and `d`. -/
def mulErr (P : Accuracy) (A B e d : ℝ) : ℝ := A * d + B * e + e * d + P.u * ((A + e) * (B + d)) + P.η

omit [Zero F] [Add F] [Sub F] [Neg F] in
theorem mul_close (h : MulOk R P (· * · : F → F → F)) {a b : F} {r s A B e d : ℝ} (ha : Close R e a r) (hb : Close R d b s) (hA : |r| ≤ A) (hB : |s| ≤ B) (hM : (A + e) * (B + d) ≤ P.M) :
    Close R (mulErr P A B e d) (a * b) (r * s) := by
  have he : 0 ≤ e := (abs_nonneg _).trans ha.2
  have hd : 0 ≤ d := (abs_nonneg _).trans hb.2
  have hA0 : 0 ≤ A := (abs_nonneg _).trans hA
  have hB0 : 0 ≤ B := (abs_nonneg _).trans hB
  have h1 : |R.val a| ≤ A + e := ha.abs_le.trans (by linarith)
  have h2 : |R.val b| ≤ B + d := hb.abs_le.trans (by linarith)
  have h3 : |R.val a * R.val b| ≤ (A + e) * (B + d) := by rw [abs_mul]; exact mul_le_mul h1 h2 (abs_nonneg _) (by linarith)
  obtain ⟨f, g⟩ := h a b ha.1 hb.1 (h3.trans hM)
  refine ⟨f, ?_⟩
  have e1 : R.val (a * b) - r * s = (R.val (a * b) - R.val a * R.val b) + (r * (R.val b - s) + (R.val a - r) * R.val b) := by ring
  rw [e1]
  refine (abs_add_le _ _).trans ?_
  have k1 : |r * (R.val b - s)| ≤ A * d := by rw [abs_mul]; exact mul_le_mul hA hb.2 (abs_nonneg _) hA0
  have k2 : |(R.val a - r) * R.val b| ≤ e * (B + d) := by rw [abs_mul]; exact mul_le_mul ha.2 h2 (abs_nonneg _) he
  have k3 := abs_add_le (r * (R.val b - s)) ((R.val a - r) * R.val b)
  have k4 := mul_le_mul_of_nonneg_left h3 P.hu
  unfold mulErr
  linarith

/-! ### Weights -/

/-- The quotient of a weight, clamped. -/
def clampR (x : ℝ) : ℝ := max (min x 1) 0

theorem clampR_range (x : ℝ) : 0 ≤ clampR x ∧ clampR x ≤ 1 := ⟨le_max_right _ _, max_le (min_le_right _ _) zero_le_one⟩

theorem clampR_lipschitz (x y : ℝ) : |clampR x - clampR y| ≤ |x - y| := by
  unfold clampR
  refine (abs_max_sub_max_le_max _ _ _ _).trans ?_
  rw [sub_self, abs_zero]
  refine max_le ?_ (abs_nonneg _)
  refine (abs_min_sub_min_le_max _ _ _ _).trans ?_
  rw [sub_self, abs_zero]
  exact max_le le_rfl (abs_nonneg _)

/-- A relative error of a clamped number is an absolute one. -/
theorem clampR_round {u η x y : ℝ} (hu : 0 ≤ u) (hu2 : u ≤ 1 / 2) (hη : 0 ≤ η) (h : |y - x| ≤ u * |x| + η) : |clampR y - clampR x| ≤ 2 * u + η := by
  have hl := clampR_lipschitz y x
  rw [abs_le] at h
  rcases le_or_gt x (-2) with h1 | h1
  · have hx : clampR x = 0 := by unfold clampR; exact max_eq_right ((min_le_left _ _).trans (by linarith))
    rw [abs_of_nonpos (by linarith : x ≤ 0)] at h
    rw [hx, sub_zero, abs_of_nonneg (clampR_range y).1]
    unfold clampR
    refine max_le ((min_le_left _ _).trans ?_) (by linarith)
    nlinarith
  · rcases le_or_gt x 2 with h2 | h2
    · have h3 : |x| ≤ 2 := abs_le.2 ⟨h1.le, h2⟩
      have h4 : |y - x| ≤ u * |x| + η := abs_le.2 h
      have := mul_le_mul_of_nonneg_left h3 hu
      linarith
    · have hx : clampR x = 1 := by unfold clampR; rw [min_eq_right (by linarith), max_eq_left zero_le_one]
      rw [abs_of_nonneg (by linarith : 0 ≤ x)] at h
      rw [hx, abs_sub_comm, abs_of_nonneg (by have := (clampR_range y).2; linarith)]
      have : 1 - η ≤ clampR y := by
        unfold clampR
        refine le_max_of_le_left (le_min ?_ (by linarith))
        nlinarith
      linarith

/-- The clamped quotient, given the errors of its parts. -/
theorem clampR_quot {a b r s g er ed : ℝ} (hg : 0 < g) (hs : g ≤ s) (hb : |b - s| ≤ ed) (hed : ed ≤ g / 2) (ha : |a - r| ≤ er) : |clampR (a / b) - clampR (r / s)| ≤ 2 * (er + ed) / g := by
  have hb2 : g / 2 ≤ b := by rw [abs_le] at hb; linarith
  have hb0 : 0 < b := by linarith
  have hs0 : 0 < s := by linarith
  have her : 0 ≤ er := (abs_nonneg _).trans ha
  have hed0 : 0 ≤ ed := (abs_nonneg _).trans hb
  have h1 : |clampR (a / b) - clampR (r / b)| ≤ er / (g / 2) := by
    refine (clampR_lipschitz _ _).trans ?_
    rw [← sub_div, abs_div, abs_of_pos hb0]
    exact div_le_div₀ her ha (by linarith) hb2
  have h2 : |clampR (r / b) - clampR (r / s)| ≤ ed / (g / 2) := by
    have hz : 0 ≤ ed / (g / 2) := by positivity
    rcases le_or_gt r 0 with hr | hr
    · have e1 : ∀ c : ℝ, 0 < c → clampR (r / c) = 0 := fun c hc => by
        unfold clampR
        exact max_eq_right ((min_le_left _ _).trans (div_nonpos_of_nonpos_of_nonneg hr hc.le))
      rw [e1 b hb0, e1 s hs0, sub_zero, abs_zero]
      exact hz
    · rcases le_or_gt (max b s) r with hm | hm
      · have e1 : ∀ c : ℝ, 0 < c → c ≤ r → clampR (r / c) = 1 := fun c hc hcr => by
          unfold clampR
          rw [min_eq_right ((one_le_div hc).2 hcr), max_eq_left zero_le_one]
        rw [e1 b hb0 ((le_max_left _ _).trans hm), e1 s hs0 ((le_max_right _ _).trans hm), sub_self, abs_zero]
        exact hz
      · refine (clampR_lipschitz _ _).trans ?_
        have e1 : r / b - r / s = r / max b s * ((s - b) / min b s) := by
          rw [div_mul_div_comm, max_mul_min, div_sub_div _ _ hb0.ne' hs0.ne']
          congr 1; ring
        have hmin : g / 2 ≤ min b s := le_min hb2 (by linarith)
        have hmax : 0 < max b s := lt_max_of_lt_left hb0
        rw [e1, abs_mul, abs_div (s - b), abs_of_nonneg (div_nonneg hr.le hmax.le), abs_of_pos (by linarith : 0 < min b s)]
        have k1 : r / max b s ≤ 1 := (div_le_one hmax).2 hm.le
        have k2 : |s - b| / min b s ≤ ed / (g / 2) := div_le_div₀ hed0 (by rw [abs_sub_comm]; exact hb) (by linarith) hmin
        calc r / max b s * (|s - b| / min b s) ≤ 1 * (ed / (g / 2)) := mul_le_mul k1 k2 (div_nonneg (abs_nonneg _) (by linarith)) zero_le_one
          _ = ed / (g / 2) := one_mul _
  have e : clampR (a / b) - clampR (r / s) = (clampR (a / b) - clampR (r / b)) + (clampR (r / b) - clampR (r / s)) := by ring
  rw [e]
  refine (abs_add_le _ _).trans ?_
  refine (add_le_add h1 h2).trans (le_of_eq ?_)
  field_simp

theorem clamp_val (h : AudioArith R P v ops) {q : F} (hq : R.fin q) : R.fin (clamp ops q) ∧ R.val (clamp ops q) = clampR (R.val q) := by
  obtain ⟨f1, e1⟩ := h.ofInt 1 (by norm_num) (by norm_num)
  obtain ⟨f0, e0⟩ := h.basic.zero
  rw [Int.cast_one] at e1
  have hm : R.fin (minF ops q (ops.ofInt 1)) ∧ R.val (minF ops q (ops.ofInt 1)) = min (R.val q) 1 := by
    unfold minF
    split
    · rename_i hl
      rw [h.lt _ _ hq f1, e1] at hl
      exact ⟨hq, (min_eq_left hl.le).symm⟩
    · rename_i hl
      rw [h.lt _ _ hq f1, e1, not_lt] at hl
      exact ⟨f1, by rw [e1, min_eq_right hl]⟩
  unfold clamp maxF clampR
  split
  · rename_i hl
    rw [h.lt _ _ f0 hm.1, e0, hm.2] at hl
    exact ⟨hm.1, by rw [hm.2, max_eq_left hl.le]⟩
  · rename_i hl
    rw [h.lt _ _ f0 hm.1, e0, hm.2, not_lt] at hl
    exact ⟨f0, by rw [e0, max_eq_right hl]⟩

/-- Error of a weight: the edges are known up to `dc`, the frequency of the bin up to `df`, all at most `C` in magnitude, and the edges are at least `g` apart. -/
noncomputable def weightErr (P : Accuracy) (C g dc df : ℝ) : ℝ := 2 * (((1 + P.u) * (dc + df) + P.u * (C + C)) + ((1 + P.u) * (dc + dc) + P.u * (C + C))) / g + (2 * P.u + P.η)

/-- The range needed for a weight. -/
structure WeightRoom (P : Accuracy) (C g dc df : ℝ) : Prop where
  gap : 0 < g
  fine : (1 + P.u) * (dc + dc) + P.u * (C + C) ≤ g / 2
  diff : C + C + dc + df ≤ P.M
  edge : C + C + dc + dc ≤ P.M
  quot : (C + C + ((1 + P.u) * (dc + df) + P.u * (C + C))) / (g / 2) ≤ P.M

theorem quot_close (h : AudioArith R P v ops) {a b : F} {r s g er ed Q : ℝ} (hg : 0 < g) (hs : g ≤ s) (hed : ed ≤ g / 2) (ha : Close R er a r) (hb : Close R ed b s) (hr : |r| ≤ Q) (hM : (Q + er) / (g / 2) ≤ P.M) :
    Close R (2 * (er + ed) / g + (2 * P.u + P.η)) (clamp ops (ops.div a b)) (clampR (r / s)) := by
  have hb' := hb.2
  have hb2 : g / 2 ≤ R.val b := by rw [abs_le] at hb'; linarith
  have hq : |R.val a / R.val b| ≤ (Q + er) / (g / 2) := by
    rw [abs_div, abs_of_pos (by linarith : 0 < R.val b)]
    exact div_le_div₀ (by have := abs_nonneg r; have := (abs_nonneg _).trans ha.2; linarith) (ha.abs_le.trans (by linarith)) (by linarith) hb2
  obtain ⟨f, e⟩ := h.div a b ha.1 hb.1 (by linarith) (hq.trans hM)
  obtain ⟨f2, e2⟩ := clamp_val h f
  refine ⟨f2, ?_⟩
  rw [e2]
  have k1 := clampR_round P.hu h.unit P.hη e
  have k2 := clampR_quot hg hs hb.2 hed ha.2
  have e3 : clampR (R.val (ops.div a b)) - clampR (r / s) = (clampR (R.val (ops.div a b)) - clampR (R.val a / R.val b)) + (clampR (R.val a / R.val b) - clampR (r / s)) := by ring
  rw [e3]
  refine (abs_add_le _ _).trans ?_
  linarith

theorem weight_close (h : AudioArith R P v ops) {C g dc df : ℝ} (room : WeightRoom P C g dc df) {lo hi e f : F} {lo' hi' e' f' : ℝ} (hlo : Close R dc lo lo') (hhi : Close R dc hi hi') (he : Close R dc e e') (hf : Close R df f f')
    (blo : |lo'| ≤ C) (bhi : |hi'| ≤ C) (be : |e'| ≤ C) (bf : |f'| ≤ C) (hg : g ≤ hi' - lo') :
    Close R (weightErr P C g dc df) (clamp ops (ops.div (-(e - f)) (hi - lo))) (clampR ((f' - e') / (hi' - lo'))) ∧
    Close R (weightErr P C g dc df) (clamp ops (ops.div (e - f) (hi - lo))) (clampR ((e' - f') / (hi' - lo'))) := by
  have h1 := sub_error h.basic.sub he hf be bf room.diff
  have h2 := sub_error h.basic.sub hhi hlo bhi blo room.edge
  have h3 : Close R ((1 + P.u) * (dc + df) + P.u * (C + C)) (-(e - f)) (f' - e') := by
    obtain ⟨k1, k2⟩ := h.neg _ h1.1
    refine ⟨k1, ?_⟩
    rw [k2, ← abs_neg, show -(-R.val (e - f) - (f' - e')) = R.val (e - f) - (e' - f') by ring]
    exact h1.2
  have hr1 : |f' - e'| ≤ C + C := (abs_sub _ _).trans (by linarith)
  have hr2 : |e' - f'| ≤ C + C := (abs_sub _ _).trans (by linarith)
  exact ⟨quot_close h room.gap hg room.fine h3 h2 hr1 room.quot, quot_close h room.gap hg room.fine h1 h2 hr2 room.quot⟩

/-! ### Sums -/

omit [Neg F] in
/-- A loop that adds terms of the same magnitude and error. -/
theorem loop_apx (h : BasicArith (F := F) R P) {Q α : ℝ} (hQ : 0 ≤ Q) (hα : 0 ≤ α) {N : Nat} (hM : (1 + P.u) ^ N * (N * Q) + (1 + P.u) ^ N * (N * α) ≤ P.M) (f : Nat → Option F) (r : Nat → ℝ) :
    ∀ (k i j : Nat) (acc : F) (S : ℝ), j + k ≤ N → (∀ l, i ≤ l → l < i + k → ∃ a, f l = some a ∧ Close R α a (r l) ∧ |r l| ≤ Q) → Apx R P j (j * Q) ((1 + P.u) ^ j * (j * α)) acc S →
      ∃ a, sumLoop f k i acc = some a ∧ Apx R P (j + k) ((j + k : Nat) * Q) ((1 + P.u) ^ (j + k) * ((j + k : Nat) * α)) a (S + ∑ l ∈ range k, r (i + l))
  | 0, i, j, acc, S, _, _, hacc => ⟨acc, rfl, by simpa using hacc⟩
  | k + 1, i, j, acc, S, hN, hf, hacc => by
    obtain ⟨a, e, ha, hq⟩ := hf i le_rfl (by omega)
    have ha' : Apx R P 0 Q α a (r i) := ⟨hq, hα, by simpa using ha⟩
    have hu := P.hu
    have c1 : ((j : ℝ) + 1) ≤ N := by exact_mod_cast (by omega : j + 1 ≤ N)
    have p1 := pow_u_mono (P := P) (show j ≤ N by omega)
    have p2 := one_le_pow_u (P := P) N
    have p3 := one_le_pow_u (P := P) j
    have hj : (0 : ℝ) ≤ j := Nat.cast_nonneg j
    have hstep := Apx.add h.add hacc ha' (by
      refine le_trans ?_ hM
      have m1 : (1 + P.u) ^ j * (j * Q) ≤ (1 + P.u) ^ N * (j * Q) := mul_le_mul_of_nonneg_right p1 (by positivity)
      have m2 : (1 + P.u) ^ j * (j * α) ≤ (1 + P.u) ^ N * (j * α) := mul_le_mul_of_nonneg_right p1 (by positivity)
      have m3 : Q ≤ (1 + P.u) ^ N * Q := le_mul_of_one_le_left hQ p2
      have m4 : α ≤ (1 + P.u) ^ N * α := le_mul_of_one_le_left hα p2
      have m5 : (1 + P.u) ^ N * ((j + 1) * Q) ≤ (1 + P.u) ^ N * (N * Q) := mul_le_mul_of_nonneg_left (mul_le_mul_of_nonneg_right c1 hQ) (by positivity)
      have m6 : (1 + P.u) ^ N * ((j + 1) * α) ≤ (1 + P.u) ^ N * (N * α) := mul_le_mul_of_nonneg_left (mul_le_mul_of_nonneg_right c1 hα) (by positivity)
      rw [pow_zero, one_mul]
      linarith)
    obtain ⟨b, e2, hb⟩ := loop_apx h hQ hα hM f r k (i + 1) (j + 1) (acc + a) (S + r i) (by omega) (fun l h1 h2 => hf l (by omega) (by omega)) (hstep.mono (by simp) (by push_cast; linarith) (by
      push_cast
      rw [pow_succ]
      have m4 : α ≤ (1 + P.u) ^ j * α := le_mul_of_one_le_left hα p3
      have : (1 + P.u) * α ≤ (1 + P.u) * ((1 + P.u) ^ j * α) := mul_le_mul_of_nonneg_left m4 (by linarith)
      linarith))
    refine ⟨b, by rw [sumLoop, e, Option.bind_some, e2], ?_⟩
    rw [show j + 1 + k = j + (k + 1) by omega] at hb
    rw [sum_range_succ']
    have e3 : ∑ l ∈ range k, r (i + (l + 1)) = ∑ l ∈ range k, r (i + 1 + l) := sum_congr rfl fun l _ => by rw [show i + (l + 1) = i + 1 + l by omega]
    rw [e3, add_zero, show S + (∑ l ∈ range k, r (i + 1 + l) + r i) = S + r i + ∑ l ∈ range k, r (i + 1 + l) by ring]
    exact hb

end Emlearn.Audio.Flt
