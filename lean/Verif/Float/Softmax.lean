/- Rounding errors of `eml_net_softmax`. -/
import Verif.Float.Act
namespace Emlearn.Flt
open Emlearn.Net

variable {F : Type} {R : Format F} {P : Accuracy}

/-! ### Exponentials and logarithms of perturbed numbers -/

theorem exp_close {x y α : ℝ} (h : |x - y| ≤ α) : |Real.exp x - Real.exp y| ≤ (Real.exp α - 1) * Real.exp y := by
  have hy := Real.exp_pos y
  have e : Real.exp x - Real.exp y = (Real.exp (x - y) - 1) * Real.exp y := by
    rw [sub_mul, ← Real.exp_add]
    simp
  rw [e, abs_mul, abs_of_pos hy]
  refine mul_le_mul_of_nonneg_right ?_ hy.le
  obtain ⟨h1, h2⟩ := abs_le.1 h
  have ha := Real.exp_le_exp.2 h2
  have hb : 1 - (x - y) * (-1) ≤ Real.exp (x - y) := by have := Real.add_one_le_exp (x - y); linarith
  have hc := Real.add_one_le_exp α
  rw [abs_le]
  constructor <;> linarith

theorem exp_error {x y α uf η E : ℝ} (hf : 0 ≤ uf) (h : |x - y| ≤ α) (hE : |E - Real.exp x| ≤ uf * Real.exp x + η) : |E - Real.exp y| ≤ (Real.exp α * (1 + uf) - 1) * Real.exp y + η := by
  have h1 := exp_close h
  have h2 : Real.exp x ≤ Real.exp α * Real.exp y := by
    rw [← Real.exp_add]
    exact Real.exp_le_exp.2 (by have := (abs_le.1 h).2; linarith)
  have h3 := mul_le_mul_of_nonneg_left h2 hf
  have e : E - Real.exp y = (E - Real.exp x) + (Real.exp x - Real.exp y) := by ring
  rw [e]
  refine (abs_add_le _ _).trans ?_
  nlinarith

theorem log_close {s S τ : ℝ} (hS : 0 < S) (hτ : τ ≤ 1 / 2) (h : |s - S| ≤ τ * S) : 0 < s ∧ |Real.log s - Real.log S| ≤ 2 * τ := by
  obtain ⟨h1, h2⟩ := abs_le.1 h
  have ht0 : 0 ≤ τ := by
    by_contra hn
    have := mul_neg_of_neg_of_pos (not_le.1 hn) hS
    have := abs_nonneg (s - S)
    linarith
  have hs : 0 < s := by
    have := mul_le_mul_of_nonneg_right hτ hS.le
    linarith
  refine ⟨hs, ?_⟩
  rw [abs_le]
  constructor
  · have : Real.log S - Real.log s = Real.log (S / s) := (Real.log_div hS.ne' hs.ne').symm
    have h3 := Real.log_le_sub_one_of_pos (div_pos hS hs)
    have h4 : S / s - 1 ≤ 2 * τ := by
      rw [div_sub_one hs.ne', div_le_iff₀ hs]
      have : S / 2 ≤ s := by
        have := mul_le_mul_of_nonneg_right hτ hS.le
        linarith
      have := mul_le_mul_of_nonneg_left this ht0
      linarith
    linarith
  · have : Real.log s - Real.log S = Real.log (s / S) := (Real.log_div hs.ne' hS.ne').symm
    have h3 := Real.log_le_sub_one_of_pos (div_pos hs hS)
    have h4 : s / S - 1 ≤ τ := by
      rw [div_sub_one hS.ne', div_le_iff₀ hS]
      linarith
    linarith

/-! ### The largest value -/

/-- What the logarithm of a sum of exponentials needs of the arithmetic. -/
structure LseArith (R : Format F) (P : Accuracy) (uf : ℝ) (zero negInf : F) (add sub : F → F → F) (exp log : F → F) (lt : F → F → Bool) : Prop where
  hf : 0 ≤ uf
  zero : R.fin zero ∧ R.val zero = 0
  negInf : ∀ a, R.fin a → lt negInf a = true
  lt : ∀ a b, R.fin a → R.fin b → (lt a b = true ↔ R.val a < R.val b)
  add : AddOk R P add
  sub : SubOk R P sub
  exp : ∀ a, R.fin a → Real.exp (R.val a) ≤ P.M → R.fin (exp a) ∧ |R.val (exp a) - Real.exp (R.val a)| ≤ uf * Real.exp (R.val a) + P.η
  log : ∀ a, R.fin a → 0 < R.val a → R.fin (log a) ∧ |R.val (log a) - Real.log (R.val a)| ≤ uf * |Real.log (R.val a)| + P.η

theorem NetArith.lse {ops : NetOps F} {uf : ℝ} (h : NetArith R P uf ops) : LseArith R P uf ops.zero ops.negInf ops.add ops.sub ops.exp ops.log ops.lt :=
  ⟨h.hf, h.zero, h.negInf, h.lt, h.add, h.sub, h.exp, h.log⟩

variable {zero negInf : F} {add sub : F → F → F} {exp log : F → F} {lt : F → F → Bool}

theorem top_loop {uf : ℝ} (h : LseArith R P uf zero negInf add sub exp log lt) : ∀ (l : List F) (m : F), R.fin m → (∀ a ∈ l, R.fin a) →
    ∃ t, l.foldl (fun m x => if lt m x then x else m) m = t ∧ R.fin t ∧ (t = m ∨ t ∈ l) ∧ R.val m ≤ R.val t ∧ ∀ a ∈ l, R.val a ≤ R.val t
  | [], m, hm, _ => ⟨m, rfl, hm, .inl rfl, le_rfl, by simp⟩
  | a :: l, m, hm, hl => by
    have hlt := h.lt m a hm (hl a (by simp))
    rw [List.foldl_cons]
    by_cases hc : R.val m < R.val a
    · rw [if_pos (hlt.2 hc)]
      obtain ⟨t, e, ft, hmem, h1, h2⟩ := top_loop h l a (hl a (by simp)) (fun b hb => hl b (by simp [hb]))
      refine ⟨t, e, ft, .inr ?_, hc.le.trans h1, ?_⟩
      · rcases hmem with rfl | hmem
        · simp
        · simp [hmem]
      · intro b hb
        rcases List.mem_cons.1 hb with rfl | hb
        exacts [h1, h2 b hb]
    · rw [if_neg (fun hx => hc (hlt.1 hx))]
      obtain ⟨t, e, ft, hmem, h1, h2⟩ := top_loop h l m hm (fun b hb => hl b (by simp [hb]))
      refine ⟨t, e, ft, ?_, h1, ?_⟩
      · rcases hmem with rfl | hmem
        · exact .inl rfl
        · exact .inr (by simp [hmem])
      · intro b hb
        rcases List.mem_cons.1 hb with rfl | hb
        exacts [(not_lt.1 hc).trans h1, h2 b hb]

theorem top_spec {uf : ℝ} (h : LseArith R P uf zero negInf add sub exp log lt) (l : List F) (hne : l ≠ []) (hl : ∀ a ∈ l, R.fin a) :
    ∃ t ∈ l, l.foldl (fun m x => if lt m x then x else m) negInf = t ∧ ∀ a ∈ l, R.val a ≤ R.val t := by
  obtain ⟨a, l, rfl⟩ := List.exists_cons_of_ne_nil hne
  rw [List.foldl_cons, if_pos (h.negInf a (hl a (by simp)))]
  obtain ⟨t, e, -, hmem, h1, h2⟩ := top_loop h l a (hl a (by simp)) (fun b hb => hl b (by simp [hb]))
  refine ⟨t, ?_, e, ?_⟩
  · rcases hmem with rfl | hmem
    · simp
    · simp [hmem]
  · intro b hb
    rcases List.mem_cons.1 hb with rfl | hb
    exacts [h1, h2 b hb]

/-! ### Sums -/

theorem sum_close {α : Type} (f g : α → ℝ) (κ η : ℝ) : ∀ (l : List α), (∀ a ∈ l, 0 ≤ g a ∧ |f a - g a| ≤ κ * g a + η) →
    |(l.map f).sum - (l.map g).sum| ≤ κ * (l.map g).sum + l.length * η ∧ absSum (l.map f) ≤ (1 + κ) * (l.map g).sum + l.length * η
  | [], _ => by simp [absSum]
  | a :: l, h => by
    obtain ⟨i1, i2⟩ := sum_close f g κ η l (fun b hb => h b (by simp [hb]))
    obtain ⟨h0, h1⟩ := h a (by simp)
    simp only [List.map_cons, List.sum_cons, absSum_cons, List.length_cons]
    push_cast
    constructor
    · have e1 : ∀ a b c d : ℝ, a + b - (c + d) = (a - c) + (b - d) := fun a b c d => by ring
      rw [e1]
      refine (abs_add_le _ _).trans ?_
      linarith
    · have : |f a| ≤ g a + (κ * g a + η) := by
        have := abs_sub_abs_le_abs_sub (f a) (g a)
        rw [abs_of_nonneg h0] at this
        linarith
      linarith

theorem sum_le_length {α : Type} (g : α → ℝ) : ∀ (l : List α), (∀ a ∈ l, g a ≤ 1) → (l.map g).sum ≤ l.length
  | [], _ => by simp
  | a :: l, h => by
    have := sum_le_length g l (fun b hb => h b (by simp [hb]))
    have := h a (by simp)
    simp only [List.map_cons, List.sum_cons, List.length_cons]
    push_cast
    linarith

/-! ### Softmax -/

/-- Relative error of the exponentials of the differences to the largest value. -/
noncomputable def kap (P : Accuracy) (uf Y : ℝ) : ℝ := Real.exp (2 * P.u * Y) * (1 + uf) - 1

/-- Relative error of their sum. -/
noncomputable def tau (P : Accuracy) (uf : ℝ) (k : Nat) (Y : ℝ) : ℝ := ((1 + P.u) ^ k - 1) * (1 + kap P uf Y + k * P.η) + (1 + P.u) ^ k * (k * P.η) + (kap P uf Y + k * P.η)

/-- Error of its logarithm. -/
noncomputable def lam (P : Accuracy) (uf : ℝ) (k : Nat) (Y : ℝ) : ℝ := 2 * tau P uf k Y + (uf * (Real.log k + 1) + P.η)

/-- Error of the offset. -/
noncomputable def omg (P : Accuracy) (uf : ℝ) (k : Nat) (Y : ℝ) : ℝ := (1 + P.u) * lam P uf k Y + P.u * (Y + Real.log k)

/-- Error of the exponents. -/
noncomputable def alp (P : Accuracy) (uf : ℝ) (k : Nat) (Y : ℝ) : ℝ := (1 + P.u) * omg P uf k Y + P.u * (2 * Y + Real.log k)

/-- Error of softmax of `k` values up to `Y` in magnitude that are known up to `e`. -/
noncomputable def softErr (P : Accuracy) (uf : ℝ) (k : Nat) (Y e : ℝ) : ℝ := Real.exp (alp P uf k Y + 2 * e) * (1 + uf) - 1 + P.η

/-- No overflow, and a sum that is not lost. -/
structure SoftRange (P : Accuracy) (uf : ℝ) (k : Nat) (Y : ℝ) : Prop where
  tau : tau P uf k Y ≤ 1 / 2
  lin : 2 * Y + Real.log k + lam P uf k Y + omg P uf k Y ≤ P.M
  exp : Real.exp (2 * P.u * Y) ≤ P.M
  sum : (1 + P.u) ^ k * ((1 + kap P uf Y) * k + 2 * (k * P.η)) ≤ P.M
  out : Real.exp (alp P uf k Y) ≤ P.M

theorem expSum_close {e : ℝ} : ∀ {z : List F} {zr : List ℝ}, List.Forall₂ (Close R e) z zr → (z.map fun a => Real.exp (R.val a)).sum ≤ Real.exp e * expSum zr ∧ expSum zr ≤ Real.exp e * (z.map fun a => Real.exp (R.val a)).sum
  | _, _, .nil => by simp [expSum]
  | _, _, .cons (a := a) (b := b) (l₁ := z) (l₂ := zr) h hs => by
    obtain ⟨i1, i2⟩ := expSum_close hs
    obtain ⟨h1, h2⟩ := abs_le.1 h.2
    unfold expSum at *
    simp only [List.map_cons, List.sum_cons]
    have k1 : Real.exp (R.val a) ≤ Real.exp e * Real.exp b := by rw [← Real.exp_add]; exact Real.exp_le_exp.2 (by linarith)
    have k2 : Real.exp b ≤ Real.exp e * Real.exp (R.val a) := by rw [← Real.exp_add]; exact Real.exp_le_exp.2 (by linarith)
    constructor <;> linarith

theorem lam_nonneg {uf : ℝ} {k : Nat} {Y : ℝ} (hf : 0 ≤ uf) (hY0 : 0 ≤ Y) (hlogk : 0 ≤ Real.log k) : 0 ≤ lam P uf k Y := by
  have hu := P.hu
  have hη := P.hη
  have hkap : 0 ≤ kap P uf Y := by
    unfold kap
    have h1 : 1 ≤ Real.exp (2 * P.u * Y) := Real.one_le_exp (by positivity)
    nlinarith
  have ht0 : 0 ≤ tau P uf k Y := by
    unfold tau
    have := one_le_pow_u (P := P) k
    have : 0 ≤ ((1 + P.u) ^ k - 1) * (1 + kap P uf Y + k * P.η) := mul_nonneg (by linarith) (by positivity)
    positivity
  unfold lam
  positivity

/-- The logarithm of the sum of the exponentials of `k` numbers: the sum is added to the largest number, in either order. -/
theorem lse_error {uf : ℝ} (h : LseArith R P uf zero negInf add sub exp log lt) {z : List F} {zr : List ℝ} {e Y : ℝ} (hz : List.Forall₂ (Close R e) z zr) (hY : ∀ a ∈ z, |R.val a| ≤ Y) (hne : z ≠ []) (hr : SoftRange P uf z.length Y) :
    ∃ (top : F) (t : ℝ), z.foldl (fun m x => if lt m x then x else m) negInf = top ∧
      Close R (omg P uf z.length Y) (add top (log ((z.map fun a => exp (sub a top)).foldl add zero))) t ∧ Close R (omg P uf z.length Y) (add (log ((z.map fun a => exp (sub a top)).foldl add zero)) top) t ∧
      |t - Real.log (expSum zr)| ≤ e ∧ 0 < expSum zr ∧ ∀ a ∈ z, R.val a ≤ t ∧ |R.val a - t| ≤ 2 * Y + Real.log z.length := by
  have hu := P.hu
  have hη := P.hη
  have hf := h.hf
  have hfin := forall₂_fin hz
  obtain ⟨top, hmem, htop, hmax⟩ := top_spec h z hne hfin
  obtain ⟨k, hk⟩ : ∃ k, k = z.length := ⟨_, rfl⟩
  rw [← hk] at hr ⊢
  have hY0 : 0 ≤ Y := (abs_nonneg _).trans (hY top hmem)
  have htY := hY top hmem
  have hkpos : 1 ≤ k := by rw [hk]; exact List.length_pos_of_ne_nil hne
  have hlogk : 0 ≤ Real.log k := Real.log_nonneg (by exact_mod_cast hkpos)
  have k0 : (0 : ℝ) ≤ k := Nat.cast_nonneg k
  -- the exponentials
  have hkap : 0 ≤ kap P uf Y := by
    unfold kap
    have h1 : 1 ≤ Real.exp (2 * P.u * Y) := Real.one_le_exp (by positivity)
    nlinarith
  have hterm : ∀ a ∈ z, R.fin (exp (sub a top)) ∧ |R.val (exp (sub a top)) - Real.exp (R.val a - R.val top)| ≤ kap P uf Y * Real.exp (R.val a - R.val top) + P.η := by
    intro a ha
    have haY := hY a ha
    have hd : |R.val a - R.val top| ≤ 2 * Y := by
      have := abs_sub (R.val a) (R.val top)
      linarith
    have hlin := hr.lin
    have hlam : 0 ≤ lam P uf k Y + omg P uf k Y := by
      have ht0 : 0 ≤ tau P uf k Y := by
        unfold tau
        have := one_le_pow_u (P := P) k
        have : 0 ≤ ((1 + P.u) ^ k - 1) * (1 + kap P uf Y + k * P.η) := mul_nonneg (by linarith) (by positivity)
        positivity
      have hl0 : 0 ≤ lam P uf k Y := by unfold lam; positivity
      have : 0 ≤ omg P uf k Y := by unfold omg; positivity
      linarith
    obtain ⟨f1, v1⟩ := h.sub a top (hfin a ha) (hfin top hmem) (by linarith)
    have v1' : |R.val (sub a top) - (R.val a - R.val top)| ≤ 2 * P.u * Y := by
      have := mul_le_mul_of_nonneg_left hd hu
      linarith
    obtain ⟨f2, v2⟩ := h.exp _ f1 (by
      refine le_trans (Real.exp_le_exp.2 ?_) hr.exp
      have := (abs_le.1 v1').2
      have := hmax a ha
      linarith)
    exact ⟨f2, exp_error hf v1' v2⟩
  have ht1 : ∀ a ∈ z, Real.exp (R.val a - R.val top) ≤ 1 := fun a ha => Real.exp_le_one_iff.2 (by have := hmax a ha; linarith)
  obtain ⟨S, hS⟩ : ∃ S, S = (z.map fun a => Real.exp (R.val a - R.val top)).sum := ⟨_, rfl⟩
  have hS1 : 1 ≤ S := by
    have : Real.exp (R.val top - R.val top) ≤ S := by
      rw [hS]
      exact List.single_le_sum (by intro y hy; obtain ⟨b, -, rfl⟩ := List.mem_map.1 hy; exact (Real.exp_pos _).le) _ (List.mem_map.2 ⟨top, hmem, rfl⟩)
    simpa using this
  have hSk : S ≤ k := by rw [hS, hk]; exact sum_le_length _ z ht1
  obtain ⟨c1, c2⟩ := sum_close (fun a => R.val (exp (sub a top))) (fun a => Real.exp (R.val a - R.val top)) (kap P uf Y) P.η z (fun a ha => ⟨(Real.exp_pos _).le, (hterm a ha).2⟩)
  rw [← hS, ← hk] at c1 c2
  have c3 : (1 + kap P uf Y) * S ≤ (1 + kap P uf Y) * k := mul_le_mul_of_nonneg_left hSk (by linarith)
  have pk := one_le_pow_u (P := P) k
  -- the sum
  have hsum := foldl_add_error h.add 0 (z.map fun a => (exp (sub a top), R.val (exp (sub a top)))) zero 0 0 0 (by simp) ⟨h.zero.1, by simp [h.zero.2]⟩
    (by
      intro p hp
      obtain ⟨a, ha, rfl⟩ := List.mem_map.1 hp
      exact ⟨(hterm a ha).1, by simpa using hη⟩)
    (by
      rw [List.map_map, List.length_map, ← hk]
      have := mul_le_mul_of_nonneg_left (c2.trans (add_le_add_left c3 (k * P.η))) (pow_u_pos (P := P) k).le
      have := hr.sum
      simp only [zero_add, Nat.add_zero]
      have e : (1 + P.u) ^ k * ((1 + kap P uf Y) * k + 2 * (k * P.η)) = (1 + P.u) ^ k * ((1 + kap P uf Y) * k + k * P.η) + (1 + P.u) ^ k * (k * P.η) := by ring
      rw [e] at this
      refine le_trans ?_ this
      refine add_le_add ?_ le_rfl
      simpa [Function.comp_def] using ‹(1 + P.u) ^ k * _ ≤ (1 + P.u) ^ k * _›)
  rw [List.map_map, List.map_map, List.length_map, ← hk] at hsum
  simp only [zero_add, Nat.add_zero, Function.comp_def] at hsum
  obtain ⟨sm, hsm⟩ : ∃ sm, sm = (z.map fun a => exp (sub a top)).foldl add zero := ⟨_, rfl⟩
  rw [← hsm] at hsum
  have htau : |R.val sm - S| ≤ tau P uf k Y * S := by
    have e1 : ∀ a b c : ℝ, a - c = (a - b) + (b - c) := fun a b c => by ring
    rw [e1 _ (z.map fun a => R.val (exp (sub a top))).sum]
    refine (abs_add_le _ _).trans ?_
    have d1 := hsum.2
    have d2 := mul_le_mul_of_nonneg_left c2 (show 0 ≤ (1 + P.u) ^ k - 1 by linarith)
    unfold tau
    have g1 : k * P.η ≤ k * P.η * S := le_mul_of_one_le_right (mul_nonneg k0 hη) hS1
    have g2 := mul_le_mul_of_nonneg_left g1 (show 0 ≤ (1 + P.u) ^ k - 1 by linarith)
    have g3 := mul_le_mul_of_nonneg_left g1 (show 0 ≤ (1 + P.u) ^ k by linarith)
    generalize (1 + P.u) ^ k = p at *
    generalize kap P uf Y = κ at *
    generalize (k : ℝ) * P.η = w at *
    nlinarith
  obtain ⟨sp, hlog⟩ := log_close (by linarith) hr.tau htau
  -- its logarithm
  obtain ⟨f3, v3⟩ := h.log sm hsum.1 sp
  have hlS0 : 0 ≤ Real.log S := Real.log_nonneg hS1
  have hlSk : Real.log S ≤ Real.log k := Real.log_le_log (by linarith) hSk
  have hlam : |R.val (log sm) - Real.log S| ≤ lam P uf k Y := by
    have e1 : ∀ a b c : ℝ, a - c = (a - b) + (b - c) := fun a b c => by ring
    rw [e1 _ (Real.log (R.val sm))]
    refine (abs_add_le _ _).trans ?_
    have d1 : |Real.log (R.val sm)| ≤ Real.log k + 1 := by
      obtain ⟨l1, l2⟩ := abs_le.1 hlog
      have := hr.tau
      rw [abs_le]
      constructor <;> linarith
    have d2 := mul_le_mul_of_nonneg_left d1 hf
    unfold lam
    linarith
  have hlam0 : 0 ≤ lam P uf k Y := (abs_nonneg _).trans hlam
  -- the offset
  have homg0 : 0 ≤ omg P uf k Y := by unfold omg; positivity
  have hoff := add_error h.add (s := top) (S := R.val top) (A := Y) (e := 0) (t := log sm) (T := Real.log S) (B := Real.log k) (d := lam P uf k Y) ⟨hfin top hmem, by simp⟩ ⟨f3, hlam⟩ htY
    (by rw [abs_of_nonneg hlS0]; exact hlSk) (by have := hr.lin; linarith)
  rw [zero_add] at hoff
  have hoffd : |R.val (add top (log sm)) - (R.val top + Real.log S)| ≤ omg P uf k Y := hoff.2
  have hoff2 := add_error h.add (s := log sm) (S := Real.log S) (A := Real.log k) (e := lam P uf k Y) (t := top) (T := R.val top) (B := Y) (d := 0) ⟨f3, hlam⟩ ⟨hfin top hmem, by simp⟩
    (by rw [abs_of_nonneg hlS0]; exact hlSk) htY (by have := hr.lin; linarith)
  have hoffd2 : |R.val (add (log sm) top) - (R.val top + Real.log S)| ≤ omg P uf k Y := by
    have h2 := hoff2.2
    rw [add_comm (Real.log S), add_zero, add_comm (Real.log k)] at h2
    exact h2
  -- the exact value
  have hS' : (z.map fun a => Real.exp (R.val a)).sum = Real.exp (R.val top) * S := by
    rw [hS]
    have : ∀ l : List F, (l.map fun a => Real.exp (R.val a)).sum = Real.exp (R.val top) * (l.map fun a => Real.exp (R.val a - R.val top)).sum := by
      intro l
      induction l with
      | nil => simp
      | cons a l ih =>
        simp only [List.map_cons, List.sum_cons]
        rw [ih, mul_add, ← Real.exp_add]
        congr 2
        ring
    exact this z
  have hSr : 0 < expSum zr := expSum_pos zr (by rintro rfl; cases hz; exact hne rfl)
  have hSz : 0 < (z.map fun a => Real.exp (R.val a)).sum := by rw [hS']; positivity
  have hlogsum : |R.val top + Real.log S - Real.log (expSum zr)| ≤ e := by
    have e1 : R.val top + Real.log S = Real.log (z.map fun a => Real.exp (R.val a)).sum := by
      rw [hS', Real.log_mul (Real.exp_pos _).ne' (by linarith), Real.log_exp]
    rw [e1]
    obtain ⟨i1, i2⟩ := expSum_close hz
    have l1 := Real.log_le_log hSz i1
    have l2 := Real.log_le_log hSr i2
    rw [Real.log_mul (Real.exp_pos _).ne' hSr.ne', Real.log_exp] at l1
    rw [Real.log_mul (Real.exp_pos _).ne' hSz.ne', Real.log_exp] at l2
    rw [abs_le]
    constructor <;> linarith
  refine ⟨top, R.val top + Real.log S, htop, hsm ▸ ⟨hoff.1, hoffd⟩, hsm ▸ ⟨hoff2.1, hoffd2⟩, hlogsum, hSr, fun a ha => ?_⟩
  have haY := hY a ha
  have hm := hmax a ha
  refine ⟨by linarith, ?_⟩
  obtain ⟨a1, a2⟩ := abs_le.1 haY
  obtain ⟨t1, t2⟩ := abs_le.1 htY
  rw [abs_le]
  constructor <;> linarith

/-- The exponential of the difference to that logarithm. -/
theorem resp_error {uf : ℝ} (h : LseArith R P uf zero negInf add sub exp log lt) {e Y t : ℝ} {k : Nat} {zr : List ℝ} {a off : F} {b : ℝ} (hr : SoftRange P uf k Y) (hl : 0 ≤ lam P uf k Y)
    (hoff : Close R (omg P uf k Y) off t) (ht : |t - Real.log (expSum zr)| ≤ e) (hSr : 0 < expSum zr) (hab : Close R e a b) (hbm : b ∈ zr) (hat : R.val a ≤ t) (hd0 : |R.val a - t| ≤ 2 * Y + Real.log k) :
    Close R (softErr P uf k Y e) (exp (sub a off)) (Real.exp b / expSum zr) := by
  have hu := P.hu
  have hη := P.hη
  have hf := h.hf
  have hoffd := hoff.2
  have hd1 : |R.val a - R.val off| ≤ 2 * Y + Real.log k + omg P uf k Y := by
    have e1 : ∀ a b c : ℝ, a - b = (a - c) - (b - c) := fun a b c => by ring
    rw [e1 _ _ t]
    refine (abs_sub _ _).trans ?_
    linarith
  obtain ⟨f4, v4⟩ := h.sub a _ hab.1 hoff.1 (by have := hr.lin; linarith)
  have harg : |R.val (sub a off) - (R.val a - t)| ≤ alp P uf k Y := by
    have e1 : ∀ x a o c : ℝ, x - (a - c) = (x - (a - o)) - (o - c) := fun x a o c => by ring
    rw [e1 _ _ (R.val off)]
    refine (abs_sub _ _).trans ?_
    have := mul_le_mul_of_nonneg_left hd1 hu
    unfold alp
    linarith
  obtain ⟨f5, v5⟩ := h.exp _ f4 (by
    refine le_trans (Real.exp_le_exp.2 ?_) hr.out
    have := (abs_le.1 harg).2
    linarith)
  refine ⟨f5, ?_⟩
  have hargr : |R.val (sub a off) - (b - Real.log (expSum zr))| ≤ alp P uf k Y + 2 * e := by
    have e1 : ∀ x a o b l : ℝ, x - (b - l) = (x - (a - o)) + ((a - b) - (o - l)) := fun x a o b l => by ring
    rw [e1 _ (R.val a) t]
    refine (abs_add_le _ _).trans ?_
    have := abs_sub (R.val a - b) (t - Real.log (expSum zr))
    have := hab.2
    linarith
  have hfinal := exp_error hf hargr v5
  have e2 : Real.exp (b - Real.log (expSum zr)) = Real.exp b / expSum zr := by rw [Real.exp_sub, Real.exp_log hSr]
  rw [e2] at hfinal
  have hle1 : Real.exp b / expSum zr ≤ 1 := by
    rw [div_le_one hSr]
    exact List.single_le_sum (by intro y hy; obtain ⟨b, -, rfl⟩ := List.mem_map.1 hy; exact (Real.exp_pos _).le) _ (List.mem_map.2 ⟨b, hbm, rfl⟩)
  have hpos : 0 ≤ Real.exp b / expSum zr := (div_pos (Real.exp_pos _) hSr).le
  have hc : 0 ≤ Real.exp (alp P uf k Y + 2 * e) * (1 + uf) - 1 := by
    have he0 : 0 ≤ e := (abs_nonneg _).trans hab.2
    have ha0 : 0 ≤ alp P uf k Y := (abs_nonneg _).trans harg
    have : 1 ≤ Real.exp (alp P uf k Y + 2 * e) := Real.one_le_exp (by linarith)
    nlinarith
  unfold softErr
  have := mul_le_mul_of_nonneg_left hle1 hc
  linarith

theorem softmax_error {ops : NetOps F} {uf : ℝ} (h : NetArith R P uf ops) {z : List F} {zr : List ℝ} {e Y : ℝ} (hz : List.Forall₂ (Close R e) z zr) (hY : ∀ a ∈ z, |R.val a| ≤ Y) (hne : z ≠ []) (hr : SoftRange P uf z.length Y) :
    List.Forall₂ (Close R (softErr P uf z.length Y e)) (Spec.softmax ops z) (zr.map fun x => Real.exp x / expSum zr) := by
  obtain ⟨top, t, htop, hoff, -, ht, hSr, hall⟩ := lse_error h.lse hz hY hne hr
  have hsoft : Spec.softmax ops z = z.map (fun x => ops.exp (ops.sub x (ops.add top (ops.log ((z.map fun a => ops.exp (ops.sub a top)).foldl ops.add ops.zero))))) := by
    unfold Spec.softmax
    simp only [htop]
  rw [hsoft, List.forall₂_map_left_iff, List.forall₂_map_right_iff]
  have hlen : (1 : ℝ) ≤ z.length := by exact_mod_cast List.length_pos_of_ne_nil hne
  have hY0 : 0 ≤ Y := by
    obtain ⟨a, l, rfl⟩ := List.exists_cons_of_ne_nil hne
    exact (abs_nonneg _).trans (hY a (by simp))
  exact forall₂_of_mem hz fun a ha b hb hab => resp_error h.lse hr (lam_nonneg h.hf hY0 (Real.log_nonneg hlen)) hoff ht hSr hab hb (hall a ha).1 (hall a ha).2
where
  forall₂_of_mem {α β : Type} {r s : α → β → Prop} : ∀ {l : List α} {l' : List β}, List.Forall₂ r l l' → (∀ a ∈ l, ∀ b ∈ l', r a b → s a b) → List.Forall₂ s l l'
    | _, _, .nil, _ => .nil
    | _, _, .cons h hs, k => .cons (k _ (by simp) _ (by simp) h) (forall₂_of_mem hs fun a ha b hb => k a (by simp [ha]) b (by simp [hb]))

end Emlearn.Flt
