/- Property C96: neural networks computed with C's `float` arithmetic, against exact arithmetic. -/
import Verif.Float.Softmax
import Verif.Float.BinaryNet
import Verif.Props.NetApi
import Mathlib.Analysis.Complex.ExponentialBounds
namespace Emlearn.Flt
open Emlearn.Net

variable {F : Type} {R : Format F} {P : Accuracy}

/-! ### The error bound -/

/-- Magnitude of the exact outputs after the activation, if it is `Z` before. -/
noncomputable def actMag (Z : ℝ) : Act → ℝ
  | .identity => Z
  | .relu => Z
  | .other => Z
  | _ => 1

/-- Error after the activation of `k` values of magnitude `Y`, if it is `e` before. -/
noncomputable def actErr (P : Accuracy) (uf : ℝ) (k : Nat) (Y e : ℝ) : Act → ℝ
  | .identity => e
  | .relu => e
  | .other => e
  | .logistic => e / 4 + expitErr P uf
  | .tanh => e + uf
  | .softmax => softErr P uf k Y e

/-- No overflow in the activation. -/
def ActRange (P : Accuracy) (uf : ℝ) (k : Nat) (Y : ℝ) : Act → Prop
  | .logistic => rho P uf ≤ 1 / 2 ∧ 2 ≤ P.M ∧ 1 + (1 + uf) * Real.exp Y + P.η ≤ P.M
  | .softmax => k ≠ 0 → SoftRange P uf k Y
  | _ => True

/-- Magnitude of the values before activation, as computed. -/
noncomputable def preMag (P : Accuracy) (dw : ℝ) (r : Dense ℝ) (X e : ℝ) : ℝ := wNorm r * X + bNorm r + linErr P dw r X e

/-- Magnitude and error of the outputs of a layer, given those of the inputs. -/
noncomputable def layerErr (P : Accuracy) (uf dw : ℝ) (r : Dense ℝ) (s : ℝ × ℝ) : ℝ × ℝ :=
  (actMag (wNorm r * s.1 + bNorm r) r.act, actErr P uf r.b.length (preMag P dw r s.1 s.2) (linErr P dw r s.1 s.2) r.act)

/-- Magnitude and error of the outputs of a network. -/
noncomputable def netErr (P : Accuracy) (uf dw : ℝ) (rs : List (Dense ℝ)) (s : ℝ × ℝ) : ℝ × ℝ := rs.foldl (fun s r => layerErr P uf dw r s) s

/-- No overflow in any layer. -/
def NetRange (P : Accuracy) (uf dw : ℝ) : List (Dense ℝ) → ℝ × ℝ → Prop
  | [], _ => True
  | r :: rs, s => LinRange P dw r s.1 s.2 ∧ ActRange P uf r.b.length (preMag P dw r s.1 s.2) r.act ∧ NetRange P uf dw rs (layerErr P uf dw r s)

/-! ### Proof -/

theorem linErr_nonneg {dw e X : ℝ} (hdw : 0 ≤ dw) (he : 0 ≤ e) (hX : 0 ≤ X) (r : Dense ℝ) : 0 ≤ linErr P dw r X e := by
  have h1 : 0 ≤ wNorm r := maxL_nonneg _
  have h2 : 0 ≤ bNorm r := maxL_nonneg _
  have h3 := one_le_pow_u (P := P) (r.w.length + 2)
  have h4 := P.hη
  have h5 := pow_u_pos (P := P) (r.w.length + 1)
  have h6 : 0 ≤ linMag dw r X e := by unfold linMag; positivity
  have h7 : 0 ≤ ((1 + P.u) ^ (r.w.length + 2) - 1) * linMag dw r X e := mul_nonneg (by linarith) h6
  unfold linErr
  positivity

theorem rho_nonneg {uf : ℝ} (hf : 0 ≤ uf) : 0 ≤ rho P uf := by
  unfold rho
  have := P.hu
  have := P.hη
  nlinarith [mul_nonneg P.hu (add_nonneg hf P.hη)]

theorem softErr_nonneg {uf Y e : ℝ} (hf : 0 ≤ uf) (hY : 0 ≤ Y) (he : 0 ≤ e) (k : Nat) : 0 ≤ softErr P uf k Y e := by
  have hu := P.hu
  have hη := P.hη
  have hlog : 0 ≤ Real.log (k : ℝ) := Real.log_natCast_nonneg k
  have hkap : 0 ≤ kap P uf Y := by
    unfold kap
    have h1 : 1 ≤ Real.exp (2 * P.u * Y) := Real.one_le_exp (by positivity)
    nlinarith
  have ht0 : 0 ≤ tau P uf k Y := by
    unfold tau
    have := one_le_pow_u (P := P) k
    have : 0 ≤ ((1 + P.u) ^ k - 1) * (1 + kap P uf Y + k * P.η) := mul_nonneg (by linarith) (by positivity)
    positivity
  have hl0 : 0 ≤ lam P uf k Y := by unfold lam; positivity
  have ho0 : 0 ≤ omg P uf k Y := by unfold omg; positivity
  have ha0 : 0 ≤ alp P uf k Y := by unfold alp; positivity
  unfold softErr
  have : 1 ≤ Real.exp (alp P uf k Y + 2 * e) := Real.one_le_exp (by linarith)
  nlinarith

theorem act_relu_real (m : ℝ) (xs : List ℝ) : Spec.act (realOps m) .relu xs = xs.map fun x => if x ≤ 0 then 0 else x := by
  refine List.map_congr_left fun x _ => ?_
  show (if (realOps m).le x 0 = true then (0 : ℝ) else x) = _
  have : (realOps m).le x 0 = decide (x ≤ 0) := rfl
  rw [this]
  by_cases h : x ≤ 0
  · rw [if_pos h, if_pos (decide_eq_true h)]
  · rw [if_neg h, if_neg (fun hh => h (of_decide_eq_true hh))]

theorem forall₂_range {α β : Type} {p : α → β → Prop} (f : Nat → α) (g : Nat → β) (n : Nat) (h : ∀ i < n, p (f i) (g i)) : List.Forall₂ p ((List.range n).map f) ((List.range n).map g) := by
  rw [List.forall₂_map_left_iff, List.forall₂_map_right_iff, List.forall₂_same]
  intro i hi
  exact h i (List.mem_range.1 hi)

theorem layer_error {ops : NetOps F} {uf : ℝ} (h : NetArith R P uf ops) {dw e X : ℝ} (hdw : 0 ≤ dw) (he : 0 ≤ e) (hX : 0 ≤ X) {d : Dense F} {r : Dense ℝ} (hd : CloseDense R dw d r) {x : List F} {x' : List ℝ}
    (hx : List.Forall₂ (Close R e) x x') (hl : r.w.length = x'.length) (hb : ∀ v ∈ x', |v| ≤ X) (hM : LinRange P dw r X e) (hA : ActRange P uf r.b.length (preMag P dw r X e) r.act) (m : ℝ) :
    List.Forall₂ (Close R (layerErr P uf dw r (X, e)).2) (Spec.layer ops d x) (Spec.layer (realOps m) r x') ∧ (∀ v ∈ Spec.layer (realOps m) r x', |v| ≤ (layerErr P uf dw r (X, e)).1) ∧
    0 ≤ (layerErr P uf dw r (X, e)).2 ∧ 0 ≤ (layerErr P uf dw r (X, e)).1 := by
  have hlen : d.b.length = r.b.length := hd.b.length_eq
  unfold Spec.layer
  rw [hlen, hd.act]
  have hneu := fun o ho => neuron_error h hdw he hX hd hx hl hb o ho hM m
  have hpre := forall₂_range (p := Close R (linErr P dw r X e)) (Spec.neuron ops d x) (Spec.neuron (realOps m) r x') r.b.length fun o ho => (hneu o ho).1
  have hmag : ∀ v ∈ (List.range r.b.length).map (Spec.neuron (realOps m) r x'), |v| ≤ wNorm r * X + bNorm r := by
    intro v hv
    obtain ⟨o, ho, rfl⟩ := List.mem_map.1 hv
    exact (hneu o (List.mem_range.1 ho)).2
  have hY : ∀ a ∈ (List.range r.b.length).map (Spec.neuron ops d x), |R.val a| ≤ preMag P dw r X e := by
    intro a ha
    obtain ⟨o, ho, rfl⟩ := List.mem_map.1 ha
    obtain ⟨h1, h2⟩ := hneu o (List.mem_range.1 ho)
    have := h1.abs_le
    unfold preMag
    linarith
  have hz : ((List.range r.b.length).map (Spec.neuron ops d x)).length = r.b.length := by simp
  have he1 := linErr_nonneg (P := P) hdw he hX r
  have hZ : 0 ≤ wNorm r * X + bNorm r := add_nonneg (mul_nonneg (maxL_nonneg _) hX) (maxL_nonneg _)
  have hf := h.hf
  have hη := P.hη
  have hu := P.hu
  have hYn : 0 ≤ preMag P dw r X e := add_nonneg hZ he1
  unfold layerErr
  simp only
  generalize (List.range r.b.length).map (Spec.neuron ops d x) = z at *
  generalize (List.range r.b.length).map (Spec.neuron (realOps m) r x') = zr at *
  generalize linErr P dw r X e = e1 at *
  generalize preMag P dw r X e = Y at *
  generalize wNorm r * X + bNorm r = Z at *
  match hact : r.act with
  | .identity => exact ⟨hpre, hmag, he1, hZ⟩
  | .other => exact ⟨hpre, hmag, he1, hZ⟩
  | .relu =>
    rw [act_relu_real]
    refine ⟨?_, ?_, he1, hZ⟩
    · show List.Forall₂ _ (z.map _) _
      rw [List.forall₂_map_left_iff, List.forall₂_map_right_iff]
      exact hpre.imp fun a b hab => relu_error h he1 hab
    · intro v hv
      obtain ⟨w, hw, rfl⟩ := List.mem_map.1 hv
      have := hmag w hw
      show |if w ≤ 0 then 0 else w| ≤ Z
      split
      · simpa using hZ
      · exact this
  | .logistic =>
    rw [hact] at hA
    obtain ⟨h1, h2, h3⟩ := hA
    have hρ := rho_nonneg (P := P) hf
    have hee : 0 ≤ expitErr P uf := by unfold expitErr; positivity
    refine ⟨?_, ?_, by show 0 ≤ e1 / 4 + expitErr P uf; positivity, zero_le_one⟩
    · show List.Forall₂ _ (z.map _) (zr.map fun x => 1 / (1 + Real.exp (-x)))
      rw [List.forall₂_map_left_iff, List.forall₂_map_right_iff]
      exact softmax_error.forall₂_of_mem hpre fun a ha b _ hab => expit_error h hab (hY a ha) h1 h2 h3
    · intro v hv
      obtain ⟨w, hw, rfl⟩ := List.mem_map.1 hv
      exact expit_abs w
  | .tanh =>
    refine ⟨?_, ?_, by show 0 ≤ e1 + uf; positivity, zero_le_one⟩
    · show List.Forall₂ _ (z.map _) (zr.map Real.tanh)
      rw [List.forall₂_map_left_iff, List.forall₂_map_right_iff]
      refine hpre.imp fun a b hab => ?_
      obtain ⟨f1, v1⟩ := h.tanh a hab.1
      refine ⟨f1, ?_⟩
      have e0 : ∀ x y z : ℝ, x - z = (x - y) + (y - z) := fun x y z => by ring
      rw [e0 _ (Real.tanh (R.val a))]
      refine (abs_add_le _ _).trans ?_
      have := tanh_lipschitz (R.val a) b
      have := hab.2
      show _ ≤ e1 + uf
      linarith
    · intro v hv
      obtain ⟨w, hw, rfl⟩ := List.mem_map.1 hv
      exact tanh_abs w
  | .softmax =>
    rw [hact] at hA
    have hreal : Spec.act (realOps m) .softmax zr = zr.map fun x => Real.exp x / expSum zr := by
      have := activate_spec (realOps m) .softmax (by decide) zr
      rw [← softmax_real m zr]
      exact (Option.some.inj this).symm
    rw [hreal]
    by_cases hk : z = []
    · subst hk
      cases hpre
      exact ⟨List.Forall₂.nil, by simp, softErr_nonneg hf hYn he1 _, zero_le_one⟩
    · have hk0 : r.b.length ≠ 0 := by
        rw [← hz]
        exact fun hh => hk (List.length_eq_zero_iff.1 hh)
      have hs := softmax_error h hpre hY hk (by rw [hz]; exact hA hk0)
      rw [hz] at hs
      refine ⟨hs, ?_, ?_, zero_le_one⟩
      · intro v hv
        obtain ⟨w, hw, rfl⟩ := List.mem_map.1 hv
        have hpos : 0 < expSum zr := expSum_pos zr (by rintro rfl; cases hw)
        show _ ≤ (1 : ℝ)
        rw [abs_of_pos (div_pos (Real.exp_pos _) hpos), div_le_one hpos]
        exact List.single_le_sum (by intro y hy; obtain ⟨b, -, rfl⟩ := List.mem_map.1 hy; exact (Real.exp_pos _).le) _ (List.mem_map.2 ⟨w, hw, rfl⟩)
      · exact softErr_nonneg hf hYn he1 _

/-- **C96.** Every network of real numbers, every network of machine numbers that stands for it up to `dw` in each weight and bias, every input of magnitude `X` known up to `e`, and every arithmetic within the standard
model: unless a bound reaches the largest finite number, the outputs computed by rounded arithmetic are finite and differ from the exact outputs by at most `netErr`, which depends on the real network and the
accuracies only. -/
theorem C96_network {ops : NetOps F} {uf : ℝ} (h : NetArith R P uf ops) {dw : ℝ} (hdw : 0 ≤ dw) (m : ℝ) : ∀ (ds : List (Dense F)) (rs : List (Dense ℝ)) (x : List F) (x' : List ℝ) (X e : ℝ), 0 ≤ e → 0 ≤ X →
    List.Forall₂ (CloseDense R dw) ds rs → Spec.Chained x'.length rs → List.Forall₂ (Close R e) x x' → (∀ v ∈ x', |v| ≤ X) → NetRange P uf dw rs (X, e) →
    List.Forall₂ (Close R (netErr P uf dw rs (X, e)).2) (Spec.network ops ds x) (Spec.network (realOps m) rs x') ∧ 0 ≤ (netErr P uf dw rs (X, e)).2
  | _, _, x, x', X, e, he, hX, .nil, _, hx, _, _ => ⟨hx, he⟩
  | _, _, x, x', X, e, he, hX, .cons (a := d) (b := r) (l₁ := ds) (l₂ := rs) hd hds, hc, hx, hb, hr => by
    obtain ⟨c1, -, -, c4⟩ := hc
    obtain ⟨r1, r2, r3⟩ := hr
    obtain ⟨l1, l2, l3, l4⟩ := layer_error h hdw he hX hd hx c1 hb r1 r2 m
    have hlen : (Spec.layer (realOps m) r x').length = r.b.length := length_layer (realOps m) r x'
    exact C96_network h hdw m ds rs (Spec.layer ops d x) (Spec.layer (realOps m) r x') _ _ l3 l4 hds (by rw [hlen]; exact c4) l1 l2 r3

theorem chained_close {dw : ℝ} : ∀ {ds : List (Dense F)} {rs : List (Dense ℝ)} {n : Nat}, List.Forall₂ (CloseDense R dw) ds rs → Spec.Chained n rs → Spec.Chained n ds
  | _, _, _, .nil, _ => trivial
  | _, _, _, .cons hd hds, ⟨c1, c2, c3, c4⟩ => by
    refine ⟨hd.w.length_eq.trans c1, ?_, by rw [hd.act]; exact c3, ?_⟩
    · intro row hrow
      obtain ⟨i, hi, rfl⟩ := List.mem_iff_getElem.1 hrow
      have h1 := (List.forall₂_iff_get.1 hd.w).2 i hi (by rw [← hd.w.length_eq]; exact hi)
      rw [hd.b.length_eq, ← c2 _ (List.get_mem _ _)]
      exact h1.length_eq
    · rw [hd.b.length_eq]
      exact chained_close hds c4

/-- **C96.** `eml_net_regress` of generated code in rounded arithmetic returns the outputs of the exact network up to `netErr`. -/
theorem C96_regress {ops : NetOps F} {uf : ℝ} (h : NetArith R P uf ops) {dw : ℝ} (hdw : 0 ≤ dw) (m : ℝ) (ds : List (Dense F)) (rs : List (Dense ℝ)) (h2 : 2 ≤ rs.length) (x : List F) (x' : List ℝ) (X e : ℝ) (he : 0 ≤ e)
    (hX : 0 ≤ X) (hd : List.Forall₂ (CloseDense R dw) ds rs) (hc : Spec.Chained x'.length rs) (hx : List.Forall₂ (Close R e) x x') (hb : ∀ v ∈ x', |v| ≤ X) (hr : NetRange P uf dw rs (X, e)) (s : Bufs F) (hs : BufsOk ds s) :
    ∃ out s', regress ops (genLoadable ds) s x (Spec.nOut ds) = some ((.ok, out), s') ∧ List.Forall₂ (Close R (netErr P uf dw rs (X, e)).2) out (Spec.network (realOps m) rs x') := by
  obtain ⟨s', e1⟩ := C36_regress_values ops ds (by rw [hd.length_eq]; exact h2) x (by rw [hx.length_eq]; exact chained_close hd hc) s hs
  exact ⟨_, s', e1, (C96_network h hdw m ds rs x x' X e he hX hd hc hx hb hr).1⟩

/-! ### The class -/

theorem argmax_rest {ops : NetOps F} {uf : ℝ} (h : NetArith R P uf ops) : ∀ (l : List F) (i best : Int) (v : F), R.fin v → (∀ a ∈ l, R.fin a ∧ R.val a < R.val v) → argmaxLoop ops l i v best = best
  | [], _, _, _, _, _ => rfl
  | a :: l, i, best, v, hv, hl => by
    obtain ⟨f, hlt⟩ := hl a (by simp)
    rw [argmaxLoop, if_neg (fun hh => absurd ((h.lt v a hv f).1 hh) (by linarith))]
    exact argmax_rest h l (i + 1) best v hv (fun b hb => hl b (by simp [hb]))

theorem argmax_wins {ops : NetOps F} {uf : ℝ} (h : NetArith R P uf ops) (v : F) (hv : R.fin v) (post : List F) (hp : ∀ a ∈ post, R.fin a ∧ R.val a < R.val v) :
    ∀ (pre : List F) (i best : Int) (m : F), (m = ops.negInf ∨ R.fin m ∧ R.val m < R.val v) → (∀ a ∈ pre, R.fin a ∧ R.val a < R.val v) → argmaxLoop ops (pre ++ v :: post) i m best = i + pre.length
  | [], i, best, m, hm, _ => by
    have : ops.lt m v = true := by
      rcases hm with rfl | ⟨f, hlt⟩
      · exact h.negInf v hv
      · exact (h.lt m v f hv).2 hlt
    rw [List.nil_append, argmaxLoop, if_pos this, argmax_rest h post (i + 1) i v hv hp]
    simp
  | a :: pre, i, best, m, hm, hpre => by
    have ha := hpre a (by simp)
    rw [List.cons_append, argmaxLoop]
    have hrest : ∀ b ∈ pre, R.fin b ∧ R.val b < R.val v := fun b hb => hpre b (by simp [hb])
    split
    · rw [argmax_wins h v hv post hp pre (i + 1) i a (.inr ha) hrest]
      simp only [List.length_cons]
      push_cast
      ring
    · rw [argmax_wins h v hv post hp pre (i + 1) best m hm hrest]
      simp only [List.length_cons]
      push_cast
      ring

/-- **C96.** If one exact output exceeds all others by more than twice the error bound, `eml_net_predict` of generated code returns its class, whatever the rounding. With one output: if it is further from one half than
the bound, the decision is the exact one. -/
theorem C96_predict {ops : NetOps F} {uf : ℝ} (h : NetArith R P uf ops) {dw : ℝ} (hdw : 0 ≤ dw) (m : ℝ) (ds : List (Dense F)) (rs : List (Dense ℝ)) (h2 : 2 ≤ rs.length) (x : List F) (x' : List ℝ) (X e : ℝ) (he : 0 ≤ e)
    (hX : 0 ≤ X) (hd : List.Forall₂ (CloseDense R dw) ds rs) (hc : Spec.Chained x'.length rs) (hx : List.Forall₂ (Close R e) x x') (hb : ∀ v ∈ x', |v| ≤ X) (hr : NetRange P uf dw rs (X, e)) (s : Bufs F) (hs : BufsOk ds s) :
    (∀ (c : Nat) (y : ℝ), 2 ≤ Spec.nOut rs → (Spec.network (realOps m) rs x')[c]? = some y →
      (∀ (j : Nat) (w : ℝ), j ≠ c → (Spec.network (realOps m) rs x')[j]? = some w → w + 2 * (netErr P uf dw rs (X, e)).2 < y) → ∃ s', predict ops (genLoadable ds) s x = some ((c : Int), s')) ∧
    (∀ y : ℝ, Spec.network (realOps m) rs x' = [y] → (netErr P uf dw rs (X, e)).2 < |y - 1 / 2| → ∃ s', predict ops (genLoadable ds) s x = some (if 1 / 2 < y then 1 else 0, s')) := by
  obtain ⟨hn, hE⟩ := C96_network h hdw m ds rs x x' X e he hX hd hc hx hb hr
  obtain ⟨c, s', hdec, hpred, -⟩ := predict_spec ops ds (by rw [hd.length_eq]; exact h2) x (by rw [hx.length_eq]; exact chained_close hd hc) s hs
  have hne : ds ≠ [] := by rintro rfl; cases hd; simp at h2
  have hne' : rs ≠ [] := by rintro rfl; simp at h2
  have hlen := length_network ops ds hne x
  have hlen' := length_network (realOps m) rs hne' x'
  generalize hout : Spec.network ops ds x = out at *
  generalize hout' : Spec.network (realOps m) rs x' = out' at *
  generalize (netErr P uf dw rs (X, e)).2 = E at *
  have hll := hn.length_eq
  have hget := (List.forall₂_iff_get.1 hn).2
  refine ⟨fun k y hk hy hother => ?_, fun y hy hmarg => ?_⟩
  · have hko : 2 ≤ Spec.nOut ds := by omega
    unfold decideClass at hdec
    rw [if_neg (by omega), if_pos (by omega), if_pos (by omega), ← hlen, List.take_length] at hdec
    have hcE : c = argmax ops out := (Option.some.inj hdec).symm
    obtain ⟨hki, rfl⟩ := List.getElem?_eq_some_iff.1 hy
    have hkl : k < out.length := by omega
    have hcl := hget k hkl hki
    have hsplit : out = out.take k ++ out[k] :: out.drop (k + 1) := by
      rw [List.getElem_cons_drop, List.take_append_drop]
    have hlt : ∀ (j : Nat) (hj : j < out.length), j ≠ k → R.fin out[j] ∧ R.val out[j] < R.val out[k] := by
      intro j hj hjk
      have h1 := hget j hj (by omega)
      have h3 := hother j out'[j] hjk (List.getElem?_eq_getElem (by omega))
      refine ⟨h1.1, ?_⟩
      have a1 := abs_le.1 h1.2
      have a2 := abs_le.1 hcl.2
      simp only [List.get_eq_getElem] at a1 a2
      linarith [a1.2, a2.1]
    have hres : argmax ops out = 0 + ((out.take k).length : Int) := by
      unfold argmax
      conv_lhs => rw [hsplit]
      refine argmax_wins h _ hcl.1 _ ?_ _ 0 (-1) _ (.inl rfl) ?_
      · intro a ha
        obtain ⟨i, hi, rfl⟩ := List.mem_iff_getElem.1 ha
        rw [List.getElem_drop]
        exact hlt _ _ (by omega)
      · intro a ha
        obtain ⟨i, hi, rfl⟩ := List.mem_iff_getElem.1 ha
        rw [List.getElem_take]
        rw [List.length_take] at hi
        exact hlt _ _ (by omega)
    refine ⟨s', ?_⟩
    rw [hpred, hcE, hres, List.length_take, min_eq_left hkl.le, zero_add]
  · subst hy
    have hl1 : out.length = 1 := by rw [hll]; rfl
    obtain ⟨a, ha⟩ := List.length_eq_one_iff.1 hl1
    subst ha
    unfold decideClass at hdec
    rw [if_pos (by rw [← hlen]; rfl)] at hdec
    simp only [List.getElem?_cons_zero, Option.map_some, Option.some.injEq] at hdec
    cases hn with
    | cons hab _ =>
      refine ⟨s', ?_⟩
      rw [hpred, ← hdec]
      have hlt := h.lt ops.half a h.half.1 hab.1
      rw [h.half.2] at hlt
      have a1 := abs_le.1 hab.2
      by_cases hy : 1 / 2 < y
      · rw [if_pos hy, if_pos]
        rw [hlt]
        rw [abs_of_pos (by linarith)] at hmarg
        linarith [a1.1]
      · rw [if_neg hy, if_neg]
        rw [hlt]
        rw [abs_of_nonpos (by linarith)] at hmarg
        linarith [a1.2]

/-! ### A concrete case: binary32, a hidden ReLU layer and a linear output, inputs up to 1 -/

section
open Binary32

noncomputable def exReal : List (Dense ℝ) := [⟨.relu, [[1, 1 / 10], [-1 / 2, 3]], [1 / 4, 0]⟩, ⟨.identity, [[2], [-1]], [1 / 3]⟩]

noncomputable def exFlt : List (Dense F32) := exReal.map fun r => ⟨r.act, r.w.map (·.map rnd), r.b.map rnd⟩

theorem rnd_close (x : ℝ) (h : |x| ≤ 4) : Close fmt (1 / 10 ^ 6) (rnd x) x := by
  have hb := big
  refine ⟨fl_fin x (h.trans (by norm_num at hb; linarith)), (fl_error_any x).trans ?_⟩
  have := mul_le_mul_of_nonneg_left h (show (0 : ℝ) ≤ 1 / 2 ^ 24 by positivity)
  norm_num at this ⊢
  linarith

theorem ex_close : List.Forall₂ (CloseDense fmt (1 / 10 ^ 6)) exFlt exReal := by
  unfold exFlt
  rw [List.forall₂_map_left_iff, List.forall₂_same]
  intro r hr
  have key : (∀ row ∈ r.w, ∀ v ∈ row, |v| ≤ 4) ∧ ∀ v ∈ r.b, |v| ≤ 4 := by
    simp only [exReal, List.mem_cons, List.not_mem_nil, or_false] at hr
    rcases hr with rfl | rfl <;> simp only [List.mem_cons, List.not_mem_nil, or_false, forall_eq_or_imp, forall_eq] <;> norm_num [abs_le]
  refine ⟨rfl, ?_, ?_⟩
  · rw [List.forall₂_map_left_iff, List.forall₂_same]
    intro row hrow
    rw [List.forall₂_map_left_iff, List.forall₂_same]
    exact fun v hv => rnd_close v (key.1 row hrow v hv)
  · rw [List.forall₂_map_left_iff, List.forall₂_same]
    exact fun v hv => rnd_close v (key.2 v hv)

theorem ex_range : NetRange acc (1 / 2 ^ 23) (1 / 10 ^ 6) exReal (1, 1 / 10 ^ 6) ∧ (netErr acc (1 / 2 ^ 23) (1 / 10 ^ 6) exReal (1, 1 / 10 ^ 6)).2 ≤ 1 / 10 ^ 4 := by
  have hb := big
  have hM : acc.M = maxFinite := rfl
  have hu : acc.u = 1 / 2 ^ 24 := rfl
  have hη : acc.η = 1 / 2 ^ 150 := rfl
  have w1 : wNorm (⟨.relu, [[1, 1 / 10], [-1 / 2, 3]], [1 / 4, 0]⟩ : Dense ℝ) = 31 / 10 := by norm_num [wNorm, maxL, absSum, List.range_succ]
  have b1 : bNorm (⟨.relu, [[1, 1 / 10], [-1 / 2, 3]], [1 / 4, 0]⟩ : Dense ℝ) = 1 / 4 := by norm_num [bNorm, maxL]
  have w2 : wNorm (⟨.identity, [[2], [-1]], [1 / 3]⟩ : Dense ℝ) = 3 := by norm_num [wNorm, maxL, absSum, List.range_succ]
  have b2 : bNorm (⟨.identity, [[2], [-1]], [1 / 3]⟩ : Dense ℝ) = 1 / 3 := by norm_num [bNorm, maxL]
  norm_num at hb
  constructor
  · simp only [exReal, NetRange, LinRange, ActRange, layerErr, linErr, linMag, actMag, actErr, w1, b1, w2, b2, hu, hη, hM, List.length_cons, List.length_nil]
    norm_num
    constructor <;> linarith
  · simp only [exReal, netErr, List.foldl_cons, List.foldl_nil, layerErr, linErr, linMag, actMag, actErr, w1, b1, w2, b2, hu, hη, List.length_cons, List.length_nil]
    norm_num

example (x' : List ℝ) (hx : x'.length = 2) (hb : ∀ v ∈ x', |v| ≤ 1) (s : Bufs F32) (hs : BufsOk exFlt s) :
    ∃ out s', regress ops32 (genLoadable exFlt) s (x'.map rnd) 1 = some ((.ok, out), s') ∧ List.Forall₂ (Close fmt (1 / 10 ^ 4)) out (Spec.network (realOps 0) exReal x') := by
  have hc : Spec.Chained x'.length exReal := by
    rw [hx]
    simp only [exReal, Spec.Chained]
    refine ⟨rfl, by simp, by decide, rfl, by simp, by decide, trivial⟩
  obtain ⟨out, s', h1, h2⟩ := C96_regress netArith (dw := 1 / 10 ^ 6) (by norm_num) 0 exFlt exReal (by simp [exReal]) (x'.map rnd) x' 1 (1 / 10 ^ 6) (by norm_num) (by norm_num) ex_close hc
    (by rw [List.forall₂_map_left_iff, List.forall₂_same]; exact fun v hv => rnd_close v ((hb v hv).trans (by norm_num))) hb ex_range.1 s hs
  exact ⟨out, s', h1, h2.imp fun _ _ h => h.mono ex_range.2⟩

theorem exp_small {x : ℝ} (h0 : 0 ≤ x) (h1 : x ≤ 1 / 2) : Real.exp x ≤ 1 + 2 * x := by
  have h := Real.add_one_le_exp (-x)
  rw [Real.exp_neg] at h
  have hp := Real.exp_pos x
  have h2 : (-x + 1) * Real.exp x ≤ 1 := by
    have := mul_le_mul_of_nonneg_right h hp.le
    rwa [inv_mul_cancel₀ hp.ne'] at this
  nlinarith

/-- The bounds for softmax and the logistic function are not empty: three values up to 10, known up to 1e-5, and the error is below 1e-4. -/
theorem ex_softmax : SoftRange acc (1 / 2 ^ 23) 3 10 ∧ softErr acc (1 / 2 ^ 23) 3 10 (1 / 10 ^ 5) ≤ 1 / 10 ^ 4 ∧ ActRange acc (1 / 2 ^ 23) 3 10 .logistic ∧ expitErr acc (1 / 2 ^ 23) ≤ 1 / 10 ^ 6 ∧
    omg acc (1 / 2 ^ 23) 3 10 ≤ 25 / 10 ^ 6 ∧ 0 ≤ alp acc (1 / 2 ^ 23) 3 10 ∧ alp acc (1 / 2 ^ 23) 3 10 ≤ 27 / 10 ^ 6 := by
  have hb := big
  have hM : acc.M = maxFinite := rfl
  have hu : acc.u = 1 / 2 ^ 24 := rfl
  have hη : acc.η = 1 / 2 ^ 150 := rfl
  norm_num at hb
  have hl : Real.log (3 : Nat) ≤ 2 := by have := Real.log_le_sub_one_of_pos (show (0 : ℝ) < 3 by norm_num); push_cast; linarith
  have hl0 : 0 ≤ Real.log (3 : Nat) := Real.log_natCast_nonneg 3
  have k0 : kap acc (1 / 2 ^ 23) 10 ≤ 1 / 10 ^ 5 := by
    have := exp_small (x := 2 * (1 / 2 ^ 24) * 10) (by norm_num) (by norm_num)
    unfold kap
    rw [hu]
    norm_num at this ⊢
    linarith
  have k1 : 0 ≤ kap acc (1 / 2 ^ 23) 10 := by
    unfold kap
    have h1 : 1 ≤ Real.exp (2 * acc.u * 10) := Real.one_le_exp (by have := acc.hu; positivity)
    nlinarith
  have t0 : tau acc (1 / 2 ^ 23) 3 10 ≤ 11 / 10 ^ 6 := by
    unfold tau
    rw [hu, hη]
    norm_num at k0 k1 ⊢
    linarith
  have t1 : 0 ≤ tau acc (1 / 2 ^ 23) 3 10 := by
    unfold tau
    rw [hu, hη]
    norm_num at k0 k1 ⊢
    linarith
  have l0 : lam acc (1 / 2 ^ 23) 3 10 ≤ 23 / 10 ^ 6 := by
    unfold lam
    rw [hη]
    norm_num at t0 hl ⊢
    linarith
  have l1 : 0 ≤ lam acc (1 / 2 ^ 23) 3 10 := by
    unfold lam
    have := acc.hη
    positivity
  have o0 : omg acc (1 / 2 ^ 23) 3 10 ≤ 25 / 10 ^ 6 := by
    unfold omg
    rw [hu]
    norm_num at l0 hl ⊢
    linarith
  have o1 : 0 ≤ omg acc (1 / 2 ^ 23) 3 10 := by
    unfold omg
    have := acc.hu
    positivity
  have a0 : alp acc (1 / 2 ^ 23) 3 10 ≤ 27 / 10 ^ 6 := by
    unfold alp
    rw [hu]
    norm_num at o0 hl ⊢
    linarith
  have a1 : 0 ≤ alp acc (1 / 2 ^ 23) 3 10 := by
    unfold alp
    have := acc.hu
    positivity
  have e10 : Real.exp 10 ≤ 2 ^ 20 := by
    have h1 : Real.exp 10 = Real.exp 1 ^ 10 := by rw [← Real.exp_nat_mul]; norm_num
    have h2 : Real.exp 1 ≤ 3 := by have := Real.exp_one_lt_d9; linarith
    rw [h1]
    refine (pow_le_pow_left₀ (Real.exp_pos _).le h2 10).trans (by norm_num)
  refine ⟨⟨t0.trans (by norm_num), ?_, ?_, ?_, ?_⟩, ?_, ⟨?_, ?_, ?_⟩, ?_, o0, a1, a0⟩
  · rw [hM]
    norm_num at l0 o0 hl ⊢
    linarith
  · rw [hM]
    have := exp_small (x := 2 * (1 / 2 ^ 24) * 10) (by norm_num) (by norm_num)
    rw [hu]
    norm_num at this ⊢
    linarith
  · rw [hM, hu, hη]
    norm_num at k0 ⊢
    linarith
  · rw [hM]
    have := exp_small a1 (a0.trans (by norm_num))
    norm_num at this a0 ⊢
    linarith
  · unfold softErr
    have := exp_small (x := alp acc (1 / 2 ^ 23) 3 10 + 2 * (1 / 10 ^ 5)) (by positivity) (by norm_num at a0 ⊢; linarith)
    rw [hη]
    norm_num at this a0 ⊢
    linarith
  · unfold rho
    rw [hu, hη]
    norm_num
  · rw [hM]
    linarith
  · rw [hM, hη]
    norm_num at e10 ⊢
    linarith
  · unfold expitErr rho
    rw [hu, hη]
    norm_num
end

end Emlearn.Flt
