/- Rounding errors of dense layers (`eml_net.h`) in the standard model of floating-point arithmetic. -/
import Verif.Float.Model
import Verif.Props.NetReal
import Mathlib.Analysis.SpecialFunctions.Log.Basic
namespace Emlearn.Flt
open Emlearn.Net

variable {F : Type} {R : Format F} {P : Accuracy}

/-- What is assumed of the arithmetic that the C code of a network uses: the standard model for the basic operations, exact comparisons and constants, and an accuracy `uf` for the library's `expf`, `logf` (relative) and
`tanhf` (absolute). -/
structure NetArith (R : Format F) (P : Accuracy) (uf : ℝ) (ops : NetOps F) : Prop where
  hf : 0 ≤ uf
  zero : R.fin ops.zero ∧ R.val ops.zero = 0
  one : R.fin ops.one ∧ R.val ops.one = 1
  half : R.fin ops.half ∧ R.val ops.half = 1 / 2
  negInf : ∀ a, R.fin a → ops.lt ops.negInf a = true
  lt : ∀ a b, R.fin a → R.fin b → (ops.lt a b = true ↔ R.val a < R.val b)
  le : ∀ a b, R.fin a → R.fin b → (ops.le a b = true ↔ R.val a ≤ R.val b)
  neg : ∀ a, R.fin a → R.fin (ops.neg a) ∧ R.val (ops.neg a) = -R.val a
  add : AddOk R P ops.add
  sub : SubOk R P ops.sub
  mul : MulOk R P ops.mul
  div : DivOk R P ops.div
  exp : ∀ a, R.fin a → Real.exp (R.val a) ≤ P.M → R.fin (ops.exp a) ∧ |R.val (ops.exp a) - Real.exp (R.val a)| ≤ uf * Real.exp (R.val a) + P.η
  log : ∀ a, R.fin a → 0 < R.val a → R.fin (ops.log a) ∧ |R.val (ops.log a) - Real.log (R.val a)| ≤ uf * |Real.log (R.val a)| + P.η
  tanh : ∀ a, R.fin a → R.fin (ops.tanh a) ∧ |R.val (ops.tanh a) - Real.tanh (R.val a)| ≤ uf

/-! ### Dot products -/

/-- The exact dot product of machine numbers. -/
def exactProds (R : Format F) (c x : List F) : List ℝ := List.zipWith (fun w v => R.val w * R.val v) c x

/-- A dot product of machine numbers, computed in order, against the exact one. -/
theorem dot_error {ops : NetOps F} {uf : ℝ} (h : NetArith R P uf ops) (c x : List F) (hl : c.length = x.length) (hc : ∀ w ∈ c, R.fin w) (hx : ∀ v ∈ x, R.fin v)
    (hM : (1 + P.u) ^ (c.length + 1) * absSum (exactProds R c x) + (1 + P.u) ^ c.length * (c.length * P.η) ≤ P.M) :
    Close R (((1 + P.u) ^ (c.length + 1) - 1) * absSum (exactProds R c x) + (1 + P.u) ^ c.length * (c.length * P.η)) ((List.zipWith ops.mul c x).foldl ops.add ops.zero) (exactProds R c x).sum := by
  obtain ⟨l, hld⟩ : ∃ l : List (F × ℝ), l = List.zipWith (fun w v => (ops.mul w v, R.val w * R.val v)) c x := ⟨_, rfl⟩
  have e1 : l.map Prod.fst = List.zipWith ops.mul c x := by rw [hld, List.map_zipWith]
  have e2 : l.map Prod.snd = exactProds R c x := by rw [hld, List.map_zipWith]; rfl
  have e3 : l.length = c.length := by rw [hld, List.length_zipWith, hl, min_self]
  have hterm : ∀ p ∈ l, Close R (((1 + P.u) ^ 1 - 1) * |p.2| + P.η) p.1 p.2 := by
    intro p hp
    have hle : |p.2| ≤ P.M := by
      have h1 : |p.2| ≤ absSum (exactProds R c x) := by
        rw [← e2]
        exact List.single_le_sum (by intro y hy; obtain ⟨z, -, rfl⟩ := List.mem_map.1 hy; exact abs_nonneg z) _ (by simp only [List.map_map, List.mem_map]; exact ⟨p, hp, rfl⟩)
      have h2 := absSum_nonneg (exactProds R c x)
      have h3 := mul_le_mul_of_nonneg_right (one_le_pow_u (P := P) (c.length + 1)) h2
      have h4 : 0 ≤ (1 + P.u) ^ c.length * (c.length * P.η) := mul_nonneg (pow_u_pos _).le (mul_nonneg (Nat.cast_nonneg _) P.hη)
      linarith
    rw [hld, List.zipWith_eq_zipWith_take_min, List.mem_iff_getElem] at hp
    obtain ⟨i, hi, rfl⟩ := hp
    rw [List.getElem_zipWith] at hle ⊢
    have := h.mul _ _ (hc _ (List.mem_of_mem_take (List.getElem_mem _))) (hx _ (List.mem_of_mem_take (List.getElem_mem _))) hle
    exact ⟨this.1, by simpa using this.2⟩
  have := foldl_add_error h.add 1 l ops.zero 0 0 0 (by simp) ⟨h.zero.1, by simp [h.zero.2]⟩ hterm (by rw [e2, e3]; simpa using hM)
  rw [e1, e2, e3] at this
  simpa using this

/-- Products of close vectors. -/
theorem prods_close {dw e X : ℝ} (hdw : 0 ≤ dw) (he : 0 ≤ e) (hX : 0 ≤ X) : ∀ {c : List F} {c' : List ℝ} {x : List F} {x' : List ℝ}, List.Forall₂ (Close R dw) c c' → List.Forall₂ (Close R e) x x' → c'.length = x'.length →
    (∀ v ∈ x', |v| ≤ X) →
    absSum (exactProds R c x) ≤ (absSum c' + c'.length * dw) * (X + e) ∧
    |(exactProds R c x).sum - (List.zipWith (· * ·) c' x').sum| ≤ absSum c' * e + c'.length * dw * (X + e) ∧ |(List.zipWith (· * ·) c' x').sum| ≤ absSum c' * X
  | _, _, _, _, .nil, _, _, _ => by simp [exactProds, absSum]
  | _, _, _, _, .cons _ _, .nil, hl, _ => by simp at hl
  | _, _, _, _, .cons (a := w) (b := w') (l₁ := c) (l₂ := c') hw hc, .cons (a := v) (b := v') (l₁ := x) (l₂ := x') hv hx, hl, hb => by
    obtain ⟨i1, i2, i3⟩ := prods_close hdw he hX hc hx (by simpa using hl) (fun v h => hb v (by simp [h]))
    have hv' := hb v' (by simp)
    have aw := hw.abs_le
    have av := hv.abs_le
    have n1 := abs_nonneg w'
    have n2 := abs_nonneg v'
    have n3 := abs_nonneg (R.val w)
    have n4 := abs_nonneg (R.val v)
    have k1 : |R.val w * R.val v| ≤ (|w'| + dw) * (X + e) := by
      rw [abs_mul]
      exact mul_le_mul aw (av.trans (by linarith)) n4 (by linarith)
    have k2 : |R.val w * R.val v - w' * v'| ≤ |w'| * e + dw * (X + e) := by
      have e1 : R.val w * R.val v - w' * v' = w' * (R.val v - v') + (R.val w - w') * R.val v := by ring
      rw [e1]
      refine (abs_add_le _ _).trans ?_
      rw [abs_mul, abs_mul]
      exact add_le_add (mul_le_mul_of_nonneg_left hv.2 n1) (mul_le_mul hw.2 (av.trans (by linarith)) n4 hdw)
    have k3 : |w' * v'| ≤ |w'| * X := by rw [abs_mul]; exact mul_le_mul_of_nonneg_left hv' n1
    simp only [exactProds, List.zipWith_cons_cons, absSum_cons, List.sum_cons, List.length_cons] at *
    push_cast
    refine ⟨?_, ?_, ?_⟩
    · have : (|w'| + absSum c' + (c'.length + 1) * dw) * (X + e) = (|w'| + dw) * (X + e) + (absSum c' + c'.length * dw) * (X + e) := by ring
      linarith
    · have e1 : ∀ a b c d : ℝ, a + b - (c + d) = (a - c) + (b - d) := fun a b c d => by ring
      rw [e1]
      refine (abs_add_le _ _).trans ?_
      have : (|w'| + absSum c') * e + (c'.length + 1) * dw * (X + e) = (|w'| * e + dw * (X + e)) + (absSum c' * e + c'.length * dw * (X + e)) := by ring
      linarith
    · refine (abs_add_le _ _).trans ?_
      have : (|w'| + absSum c') * X = |w'| * X + absSum c' * X := by ring
      linarith

/-! ### A neuron -/

/-- A layer of machine numbers stands for a layer of real numbers up to `dw` in every weight and bias. -/
structure CloseDense (R : Format F) (dw : ℝ) (d : Dense F) (r : Dense ℝ) : Prop where
  act : d.act = r.act
  w : List.Forall₂ (List.Forall₂ (Close R dw)) d.w r.w
  b : List.Forall₂ (Close R dw) d.b r.b

/-- Largest element of a list of nonnegative numbers. -/
noncomputable def maxL (l : List ℝ) : ℝ := l.foldr max 0

theorem maxL_nonneg : ∀ l, 0 ≤ maxL l
  | [] => le_rfl
  | _ :: l => le_max_of_le_right (maxL_nonneg l)

theorem le_maxL : ∀ {l : List ℝ} {a : ℝ}, a ∈ l → a ≤ maxL l
  | b :: l, a, h => by
    rcases List.mem_cons.1 h with rfl | h
    · exact le_max_left _ _
    · exact (le_maxL h).trans (le_max_right _ _)

/-- The largest sum of absolute weights that go into one output. -/
noncomputable def wNorm (r : Dense ℝ) : ℝ := maxL ((List.range r.b.length).map fun o => absSum (r.w.map (·.getD o 0)))

/-- The largest absolute bias. -/
noncomputable def bNorm (r : Dense ℝ) : ℝ := maxL (r.b.map abs)

/-- Bound for the sum of absolute values of the terms of a neuron with inputs up to `X`, known up to `e`. -/
noncomputable def linMag (dw : ℝ) (r : Dense ℝ) (X e : ℝ) : ℝ := (wNorm r + r.w.length * dw) * (X + e) + (bNorm r + dw)

/-- Bound for the error of a neuron before activation: from the inputs, from the weights, from rounding. -/
noncomputable def linErr (P : Accuracy) (dw : ℝ) (r : Dense ℝ) (X e : ℝ) : ℝ :=
  wNorm r * e + (r.w.length * dw * (X + e) + dw) + (((1 + P.u) ^ (r.w.length + 2) - 1) * linMag dw r X e + (1 + P.u) ^ (r.w.length + 1) * (r.w.length * P.η))

/-- No overflow in a neuron. -/
def LinRange (P : Accuracy) (dw : ℝ) (r : Dense ℝ) (X e : ℝ) : Prop := (1 + P.u) ^ (r.w.length + 2) * linMag dw r X e + (1 + P.u) ^ (r.w.length + 1) * (r.w.length * P.η) ≤ P.M

theorem getD_close {dw : ℝ} {z : F} (hz : Close R dw z 0) : ∀ {l : List F} {l' : List ℝ}, List.Forall₂ (Close R dw) l l' → ∀ o, Close R dw (l.getD o z) (l'.getD o 0)
  | _, _, .nil, o => by simpa using hz
  | _, _, .cons h _, 0 => by simpa using h
  | _, _, .cons _ h, o + 1 => by simpa using getD_close hz h o

theorem column_close {dw : ℝ} {z : F} (hz : Close R dw z 0) (o : Nat) {w : List (List F)} {w' : List (List ℝ)} (h : List.Forall₂ (List.Forall₂ (Close R dw)) w w') :
    List.Forall₂ (Close R dw) (w.map (·.getD o z)) (w'.map (·.getD o 0)) := by
  rw [List.forall₂_map_left_iff, List.forall₂_map_right_iff]
  exact h.imp fun _ _ h => getD_close hz h o

theorem forall₂_fin {δ : ℝ} {l : List F} {l' : List ℝ} (h : List.Forall₂ (Close R δ) l l') : ∀ a ∈ l, R.fin a := by
  induction h with
  | nil => simp
  | cons h _ ih => intro a ha; rcases List.mem_cons.1 ha with rfl | ha; exacts [h.1, ih a ha]

theorem neuron_real (m : ℝ) (r : Dense ℝ) (x : List ℝ) (o : Nat) : Spec.neuron (realOps m) r x o = (List.zipWith (· * ·) (r.w.map (·.getD o 0)) x).sum + r.b.getD o 0 := by
  show (List.zipWith _ r.w x).foldl (· + ·) 0 + _ = _
  rw [foldl_add_eq, zero_add, List.zipWith_map_left]
  rfl

theorem neuron_error {ops : NetOps F} {uf : ℝ} (h : NetArith R P uf ops) {dw e X : ℝ} (hdw : 0 ≤ dw) (he : 0 ≤ e) (hX : 0 ≤ X) {d : Dense F} {r : Dense ℝ} (hd : CloseDense R dw d r) {x : List F} {x' : List ℝ}
    (hx : List.Forall₂ (Close R e) x x') (hl : r.w.length = x'.length) (hb : ∀ v ∈ x', |v| ≤ X) (o : Nat) (ho : o < r.b.length) (hM : LinRange P dw r X e) (m : ℝ) :
    Close R (linErr P dw r X e) (Spec.neuron ops d x o) (Spec.neuron (realOps m) r x' o) ∧ |Spec.neuron (realOps m) r x' o| ≤ wNorm r * X + bNorm r := by
  have hz : Close R dw ops.zero 0 := ⟨h.zero.1, by rw [h.zero.2]; simpa using hdw⟩
  have hcol := column_close hz o hd.w
  have hbias := getD_close hz hd.b o
  rw [neuron_real]
  obtain ⟨c, hc⟩ : ∃ c, c = d.w.map (·.getD o ops.zero) := ⟨_, rfl⟩
  obtain ⟨c', hc'⟩ : ∃ c', c' = r.w.map (·.getD o 0) := ⟨_, rfl⟩
  rw [← hc, ← hc'] at hcol
  rw [← hc']
  have hn : c'.length = r.w.length := by rw [hc', List.length_map]
  have hn' : c.length = r.w.length := by rw [← hn]; exact hcol.length_eq
  obtain ⟨q1, q2, q3⟩ := prods_close hdw he hX hcol hx (by rw [hn, hl]) hb
  have hW : absSum c' ≤ wNorm r := by
    rw [hc']
    exact le_maxL (List.mem_map.2 ⟨o, List.mem_range.2 ho, rfl⟩)
  have hB : |r.b.getD o 0| ≤ bNorm r := by
    refine le_maxL (List.mem_map.2 ⟨r.b.getD o 0, ?_, rfl⟩)
    rw [List.getD_eq_getElem?_getD, List.getElem?_eq_getElem ho]
    exact List.getElem_mem _
  have hu := P.hu
  have hη := P.hη
  have n0 : (0 : ℝ) ≤ r.w.length := Nat.cast_nonneg _
  have hA := absSum_nonneg (exactProds R c x)
  have hc0 := absSum_nonneg c'
  obtain ⟨n, hnd⟩ : ∃ n, n = r.w.length := ⟨_, rfl⟩
  unfold LinRange at hM
  have hmag : absSum (exactProds R c x) + (bNorm r + dw) ≤ linMag dw r X e := by
    unfold linMag
    refine add_le_add (q1.trans (mul_le_mul_of_nonneg_right ?_ (by linarith))) le_rfl
    rw [hn]
    linarith
  have hbv : |R.val (d.b.getD o ops.zero)| ≤ bNorm r + dw := hbias.abs_le.trans (by linarith)
  have hb0 := abs_nonneg (R.val (d.b.getD o ops.zero))
  unfold linErr
  generalize linMag dw r X e = L at hM hmag ⊢
  rw [← hnd] at hM hn hn' n0 ⊢
  have p1 := pow_u_pos (P := P) (n + 1)
  have p2 : (1 + P.u) ^ (n + 2) = (1 + P.u) * (1 + P.u) ^ (n + 1) := by rw [pow_succ]; ring
  have p3 : (1 + P.u) ^ (n + 1) = (1 + P.u) * (1 + P.u) ^ n := by rw [pow_succ]; ring
  have p4 := one_le_pow_u (P := P) (n + 1)
  have p5 := one_le_pow_u (P := P) n
  have g0 : 0 ≤ (1 + P.u) ^ n * (n * P.η) := mul_nonneg (by linarith) (mul_nonneg n0 hη)
  have gA : (1 + P.u) ^ (n + 1) * absSum (exactProds R c x) + (1 + P.u) ^ (n + 1) * |R.val (d.b.getD o ops.zero)| ≤ (1 + P.u) ^ (n + 1) * L := by
    rw [← mul_add]
    exact mul_le_mul_of_nonneg_left (by linarith) p1.le
  have gL : (1 + P.u) ^ (n + 1) * L + (1 + P.u) ^ n * (n * P.η) ≤ P.M := by
    refine le_trans ?_ hM
    have hL : 0 ≤ L := by linarith
    have := mul_le_mul_of_nonneg_right (show (1 + P.u) ^ (n + 1) ≤ (1 + P.u) ^ (n + 2) from pow_u_mono (by omega)) hL
    have := mul_le_mul_of_nonneg_right (show (1 + P.u) ^ n ≤ (1 + P.u) ^ (n + 1) from pow_u_mono (by omega)) (mul_nonneg n0 hη)
    linarith
  have hb1 : |R.val (d.b.getD o ops.zero)| ≤ (1 + P.u) ^ (n + 1) * |R.val (d.b.getD o ops.zero)| := le_mul_of_one_le_left hb0 p4
  have hdot := dot_error h c x (by rw [hn', ← hx.length_eq.symm, ← hl, hnd]) (forall₂_fin hcol) (forall₂_fin hx) (by
    rw [hn']
    refine le_trans ?_ gL
    have : 0 ≤ (1 + P.u) ^ (n + 1) * |R.val (d.b.getD o ops.zero)| := mul_nonneg p1.le hb0
    linarith)
  rw [hn'] at hdot
  have hsum := add_error h.add (t := d.b.getD o ops.zero) (T := R.val (d.b.getD o ops.zero)) (d := 0) (B := |R.val (d.b.getD o ops.zero)|) hdot ⟨hbias.1, by simp⟩
    (show |(exactProds R c x).sum| ≤ absSum (exactProds R c x) from abs_sum_le _) le_rfl (by
      refine le_trans ?_ gL
      linarith)
  have e0 : Spec.neuron ops d x o = ops.add ((List.zipWith ops.mul c x).foldl ops.add ops.zero) (d.b.getD o ops.zero) := by
    rw [hc, List.zipWith_map_left]
    rfl
  rw [e0]
  refine ⟨⟨hsum.1, ?_⟩, ?_⟩
  · have e1 : ∀ a s b s' b' : ℝ, a - (s' + b') = (a - (s + b)) + ((s - s') + (b - b')) := fun a s b s' b' => by ring
    rw [e1 _ (exactProds R c x).sum (R.val (d.b.getD o ops.zero))]
    refine (abs_add_le _ _).trans ?_
    have h1 := hsum.2
    have h2 := abs_add_le ((exactProds R c x).sum - (List.zipWith (· * ·) c' x').sum) (R.val (d.b.getD o ops.zero) - r.b.getD o 0)
    have h3 := hbias.2
    rw [hn] at q2
    have h4 : absSum c' * e ≤ wNorm r * e := mul_le_mul_of_nonneg_right hW he
    have h5 : (1 + P.u) * (((1 + P.u) ^ (n + 1) - 1) * absSum (exactProds R c x) + (1 + P.u) ^ n * (n * P.η) + 0) + P.u * (absSum (exactProds R c x) + |R.val (d.b.getD o ops.zero)|) ≤
        ((1 + P.u) ^ (n + 2) - 1) * L + (1 + P.u) ^ (n + 1) * (n * P.η) := by
      rw [p2]
      have k1 : P.u * |R.val (d.b.getD o ops.zero)| ≤ ((1 + P.u) * (1 + P.u) ^ (n + 1) - 1) * |R.val (d.b.getD o ops.zero)| := by
        refine mul_le_mul_of_nonneg_right ?_ hb0
        have := mul_le_mul_of_nonneg_left p4 (show 0 ≤ 1 + P.u by linarith)
        linarith
      have k2 : ((1 + P.u) * (1 + P.u) ^ (n + 1) - 1) * (absSum (exactProds R c x) + |R.val (d.b.getD o ops.zero)|) ≤ ((1 + P.u) * (1 + P.u) ^ (n + 1) - 1) * L := by
        refine mul_le_mul_of_nonneg_left (by linarith) ?_
        have := mul_le_mul_of_nonneg_left p4 (show 0 ≤ 1 + P.u by linarith)
        linarith
      have k3 : (1 + P.u) * ((1 + P.u) ^ n * (n * P.η)) = (1 + P.u) ^ (n + 1) * (n * P.η) := by rw [p3]; ring
      generalize hpp : (1 + P.u) ^ (n + 1) = p at *
      generalize absSum (exactProds R c x) = A at *
      generalize |R.val (d.b.getD o ops.zero)| = B at *
      generalize (1 + P.u) ^ n * (n * P.η) = z at *
      have : (1 + P.u) * ((p - 1) * A + z + 0) + P.u * (A + B) = ((1 + P.u) * p - 1) * A + (1 + P.u) * z + P.u * B := by ring
      rw [this, k3]
      have : ((1 + P.u) * p - 1) * (A + B) = ((1 + P.u) * p - 1) * A + ((1 + P.u) * p - 1) * B := by ring
      linarith
    linarith
  · refine (abs_add_le _ _).trans ?_
    have : absSum c' * X ≤ wNorm r * X := mul_le_mul_of_nonneg_right hW hX
    linarith

end Emlearn.Flt
