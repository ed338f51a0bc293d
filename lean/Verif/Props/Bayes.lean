/- Properties C33-C35 and C66: Gaussian naive Bayes in fixed point. -/
import Verif.Bayes.Log2
import Mathlib.Algebra.Order.Field.Rat
import Mathlib.Data.Rat.Floor
namespace Emlearn.Bayes
open Emlearn.Quant
variable {K : Type} [Field K] [LinearOrder K] [IsStrictOrderedRing K] [FloorRing K]

/-- The integer constants of the model are the Q16 conversions of the decimal literals in `eml_bayes.h` 77-79. -/
example : cA = fromFloat 16 (-7213475204444817/10^16 : ℚ) ∧ cB = fromFloat 16 (-10005845727355313/10^31 : ℚ) ∧ cC = fromFloat 16 (-13257480647361592/10^16 : ℚ) := by
  decide +kernel

theorem bind_ok {α β : Type} {x : Except Fault α} {f : α → Except Fault β} {b : β} (h : (x >>= f) = .ok b) : ∃ a, x = .ok a ∧ f a = .ok b := by
  cases x with
  | error e => simp [bind, Except.bind] at h
  | ok a => exact ⟨a, rfl, h⟩

theorem bind_err {α β : Type} {x : Except Fault α} {f : α → Except Fault β} {e : Fault} (h : (x >>= f) = .error e) : x = .error e ∨ ∃ a, x = .ok a ∧ f a = .error e := by
  cases x with
  | error e' => left; simpa [bind, Except.bind] using h
  | ok a => exact Or.inr ⟨a, rfl, h⟩

theorem chk32_ok {x y : Int} (h : chk32 x = .ok y) : y = x ∧ InI32 x := by
  unfold chk32 at h; split at h
  · cases h; exact ⟨rfl, by assumption⟩
  · cases h

theorem ofOpt_ok {e : Fault} {o : Option Int} {x : Int} (h : ofOpt e o = .ok x) : o = some x := by
  cases o with
  | none => simp [ofOpt] at h
  | some y => simp only [ofOpt, Except.ok.injEq] at h; rw [h]

theorem chk32_not_oob (x : Int) : chk32 x ≠ .error .outOfBounds := by unfold chk32; split <;> simp
theorem logpdfStd_not_oob (x : Int) : logpdfStd x ≠ .error .outOfBounds := by
  intro h
  unfold logpdfStd at h
  have hof : ∀ o : Option Int, ofOpt .overflow o ≠ .error .outOfBounds := by intro o; cases o <;> simp [ofOpt]
  rcases bind_err h with h | ⟨a, _, h⟩
  · exact hof _ h
  rcases bind_err h with h | ⟨a, _, h⟩
  · exact hof _ h
  rcases bind_err h with h | ⟨a, _, h⟩
  · exact hof _ h
  rcases bind_err h with h | ⟨a, _, h⟩
  · exact chk32_not_oob _ h
  exact chk32_not_oob _ h

theorem logpdf_not_oob (x m s l : Int) : logpdf x m s l ≠ .error .outOfBounds := by
  intro h
  unfold logpdf at h
  rcases bind_err h with h | ⟨a, _, h⟩
  · exact chk32_not_oob _ h
  rcases bind_err h with h | ⟨a, _, h⟩
  · cases hq : q16Div _ s <;> rw [hq] at h <;> simp [ofOpt] at h
  rcases bind_err h with h | ⟨a, _, h⟩
  · unfold absQ at h
    split at h
    · cases h
    · exact chk32_not_oob _ h
  rcases bind_err h with h | ⟨a, _, h⟩
  · exact logpdfStd_not_oob _ h
  exact chk32_not_oob _ h

/-! ### C33 -/

/-- A well-formed model: at least two and at most ten classes, one table entry per class and feature. -/
structure WF (m : Model) : Prop where
  classes : 2 ≤ m.nClasses ∧ m.nClasses ≤ 10
  features : 0 ≤ m.nFeatures
  table : m.summaries.length = m.nClasses.toNat * m.nFeatures.toNat

theorem readAt_ok (m : Model) (h : WF m) (c f : Nat) (hc : c < m.nClasses.toNat) (hf : f < m.nFeatures.toNat) :
    ∃ s, readAt m.summaries ((c : Int) * m.nFeatures + f) = .ok s ∧ m.summaries[c * m.nFeatures.toNat + f]? = some s := by
  have hlt : c * m.nFeatures.toNat + f < m.summaries.length := by
    rw [h.table]
    calc c * m.nFeatures.toNat + f < c * m.nFeatures.toNat + m.nFeatures.toNat := by omega
      _ = (c + 1) * m.nFeatures.toNat := by ring
      _ ≤ _ := Nat.mul_le_mul_right _ hc
  have e : ((c : Int) * m.nFeatures + f) = ((c * m.nFeatures.toNat + f : Nat) : Int) := by
    push_cast; rw [Int.toNat_of_nonneg h.features]
  refine ⟨m.summaries[c * m.nFeatures.toNat + f], ?_, List.getElem?_eq_getElem hlt⟩
  unfold readAt
  rw [e, if_pos (by omega), Int.toNat_natCast, List.getElem?_eq_getElem hlt]

/-- The density term of class `c`, feature `f` is defined and equals `d`. -/
def Term (m : Model) (values : List K) (c f : Nat) (d : Int) : Prop :=
  ∃ s v, m.summaries[c * m.nFeatures.toNat + f]? = some s ∧ values[f]? = some v ∧ logpdf (fromFloat 16 v) s.mean s.std s.stdlog2 = .ok d

theorem classLoop_spec (m : Model) (h : WF m) (values : List K) (hv : values.length = m.nFeatures.toNat) (c : Nat) (hc : c < m.nClasses.toNat)
    (rest : List K) (idx : Nat) (hrest : rest = values.drop idx) (p : Int) :
    classLoop m c idx rest p ≠ .error .outOfBounds ∧
    ∀ r, classLoop m c idx rest p = .ok r → ∃ ds : List Int, ds.length = rest.length ∧ r = p + ds.sum ∧ ∀ i d, ds[i]? = some d → Term m values c (idx + i) d := by
  induction rest generalizing idx p with
  | nil => exact ⟨by simp [classLoop], fun r hr => ⟨[], rfl, by simp only [classLoop, Except.ok.injEq] at hr; simp [hr], by simp⟩⟩
  | cons v vs ih =>
    have hidx : idx < m.nFeatures.toNat := by
      rw [← hv]
      by_contra hcon
      rw [List.drop_eq_nil_of_le (by omega)] at hrest
      simp at hrest
    have hvi : values[idx]? = some v := by
      have := congrArg (fun l => l[0]?) hrest
      simp only [List.getElem?_cons_zero, List.getElem?_drop, Nat.add_zero] at this
      exact this.symm
    have hvs : vs = values.drop (idx + 1) := by
      have := congrArg List.tail hrest
      simpa using this
    obtain ⟨s, e1, e2⟩ := readAt_ok m h c idx hc hidx
    rw [classLoop, e1]
    constructor
    · intro hb
      simp only [bind, Except.bind] at hb
      change (chk32 (fromFloat 16 v) >>= _) = _ at hb
      rcases bind_err hb with hb | ⟨a, ha, hb⟩
      · exact chk32_not_oob _ hb
      rcases bind_err hb with hb | ⟨a2, _, hb⟩
      · exact logpdf_not_oob _ _ _ _ hb
      rcases bind_err hb with hb | ⟨a3, _, hb⟩
      · exact chk32_not_oob _ hb
      exact (ih (idx + 1) hvs a3).1 hb
    · intro r hr
      obtain ⟨s', hs', hr⟩ := bind_ok hr
      cases hs'
      obtain ⟨val, hval, hr⟩ := bind_ok hr
      obtain ⟨pl, hpl, hr⟩ := bind_ok hr
      obtain ⟨p', hp', hr⟩ := bind_ok hr
      obtain ⟨ds, d1, d2, d3⟩ := (ih (idx + 1) hvs p').2 r hr
      refine ⟨pl :: ds, by simp [d1], ?_, ?_⟩
      · rw [d2, (chk32_ok hp').1]; simp [add_assoc]
      · intro i d hd
        cases i with
        | zero =>
          simp only [List.getElem?_cons_zero, Option.some.injEq] at hd
          subst hd
          exact ⟨s, v, e2, hvi, by rw [(chk32_ok hval).1] at hpl; exact hpl⟩
        | succ i =>
          simp only [List.getElem?_cons_succ] at hd
          have := d3 i d hd
          rwa [show idx + 1 + i = idx + (i + 1) by omega] at this

/-- Class score: sum of the density terms over all features. -/
def IsScore (m : Model) (values : List K) (c : Nat) (score : Int) : Prop :=
  ∃ ds : List Int, ds.length = m.nFeatures.toNat ∧ (∀ f d, ds[f]? = some d → Term m values c f d) ∧ score = ds.sum

theorem scoresLoop_spec (m : Model) (h : WF m) (values : List K) (hv : values.length = m.nFeatures.toNat) (n c : Nat) (hn : c + n = m.nClasses.toNat) (acc : List Int) :
    scoresLoop m values n c acc ≠ .error .outOfBounds ∧
    ∀ r, scoresLoop m values n c acc = .ok r → ∃ ss : List Int, ss.length = n ∧ r = acc ++ ss ∧ ∀ i s, ss[i]? = some s → IsScore m values (c + i) s := by
  induction n generalizing c acc with
  | zero => exact ⟨by simp [scoresLoop], fun r hr => ⟨[], rfl, by simp only [scoresLoop, Except.ok.injEq] at hr; simp [hr], by simp⟩⟩
  | succ n ih =>
    have hc10 : c < 10 := by have := h.classes.2; omega
    have hcl := classLoop_spec m h values hv c (by omega) values 0 (by simp) 0
    rw [scoresLoop]
    constructor
    · intro hb
      rcases bind_err hb with hb | ⟨a, _, hb⟩
      · exact hcl.1 hb
      rw [if_pos hc10] at hb
      exact (ih (c + 1) (by omega) _).1 hb
    · intro r hr
      obtain ⟨a, ha, hr⟩ := bind_ok hr
      rw [if_pos hc10] at hr
      obtain ⟨ss, s1, s2, s3⟩ := (ih (c + 1) (by omega) _).2 r hr
      obtain ⟨ds, d1, d2, d3⟩ := hcl.2 a ha
      refine ⟨a :: ss, by simp [s1], by rw [s2]; simp, ?_⟩
      intro i s hs
      cases i with
      | zero =>
        simp only [List.getElem?_cons_zero, Option.some.injEq] at hs
        subst hs
        exact ⟨ds, by omega, by simpa using d3, by simpa using d2⟩
      | succ i =>
        simp only [List.getElem?_cons_succ] at hs
        have := s3 i s hs
        rwa [show c + 1 + i = c + (i + 1) by omega] at this

theorem argmaxLoop_spec (rest : List Int) (pre : List Int) (hi : Int) (best : Nat) (hb : best < pre.length) (hbest : pre[best]? = some hi)
    (hmax : ∀ (j : Nat) (x : Int), pre[j]? = some x → x ≤ hi ∧ (j < best → x < hi)) :
    ∃ v, argmaxLoop rest pre.length hi best < (pre ++ rest).length ∧ (pre ++ rest)[argmaxLoop rest pre.length hi best]? = some v ∧
      ∀ (j : Nat) (x : Int), (pre ++ rest)[j]? = some x → x ≤ v ∧ (j < argmaxLoop rest pre.length hi best → x < v) := by
  induction rest generalizing pre hi best with
  | nil => exact ⟨hi, by simpa [argmaxLoop] using hb, by simpa [argmaxLoop] using hbest, by simpa [argmaxLoop] using hmax⟩
  | cons p ps ih =>
    have key : ∀ (hi' : Int) (best' : Nat), best' < (pre ++ [p]).length → (pre ++ [p])[best']? = some hi' →
        (∀ (j : Nat) (x : Int), (pre ++ [p])[j]? = some x → x ≤ hi' ∧ (j < best' → x < hi')) →
        ∃ v, argmaxLoop ps (pre.length + 1) hi' best' < (pre ++ p :: ps).length ∧ (pre ++ p :: ps)[argmaxLoop ps (pre.length + 1) hi' best']? = some v ∧
          ∀ (j : Nat) (x : Int), (pre ++ p :: ps)[j]? = some x → x ≤ v ∧ (j < argmaxLoop ps (pre.length + 1) hi' best' → x < v) := by
      intro hi' best' a b c
      have := ih (pre ++ [p]) hi' best' a b c
      simpa using this
    have hsplit : ∀ (j : Nat) (x : Int), (pre ++ [p])[j]? = some x → pre[j]? = some x ∨ (j = pre.length ∧ x = p) := by
      intro j x hj
      by_cases hjl : j < pre.length
      · left; rwa [List.getElem?_append_left hjl] at hj
      · right
        rw [List.getElem?_append_right (by omega)] at hj
        have : j - pre.length = 0 := by
          by_contra hne
          rw [List.getElem?_eq_none (by simp; omega)] at hj
          cases hj
        rw [this] at hj
        simp only [List.getElem?_cons_zero, Option.some.injEq] at hj
        exact ⟨by omega, hj.symm⟩
    rw [argmaxLoop]
    split
    · rename_i hgt
      apply key p pre.length (by simp) (by simp)
      intro j x hj
      rcases hsplit j x hj with h1 | ⟨h1, h2⟩
      · have := (hmax j x h1).1
        exact ⟨by omega, fun _ => by omega⟩
      · exact ⟨by omega, fun h3 => by omega⟩
    · rename_i hle
      apply key hi best (by simp; omega) (by rw [List.getElem?_append_left hb]; exact hbest)
      intro j x hj
      rcases hsplit j x hj with h1 | ⟨h1, h2⟩
      · exact hmax j x h1
      · exact ⟨by omega, fun h3 => by omega⟩

/-- **C33** For every well-formed model (2 to 10 classes, full table) and every input with one value per feature: no access leaves the summaries table or the class buffer; and whenever the call returns (no arithmetic
overflow or division by zero in the densities), the returned class is in range, its summed log-density is maximal, and every class with a smaller index has a strictly smaller sum. Fewer than two classes give -3. -/
theorem C33_predict_argmax_partial (m : Model) (values : List K) :
    (WF m → values.length = m.nFeatures.toNat →
      predict m values ≠ .error .outOfBounds ∧
      ∀ r, predict m values = .ok r → ∃ (k : Nat) (score : Nat → Int), r = k ∧ k < m.nClasses.toNat ∧
        (∀ c < m.nClasses.toNat, IsScore m values c (score c)) ∧
        (∀ c < m.nClasses.toNat, score c ≤ score k) ∧ (∀ c < k, score c < score k)) ∧
    (m.nClasses < 2 → predict m values = .ok (-3)) := by
  refine ⟨?_, fun h => by unfold predict; rw [if_neg (by omega)]⟩
  intro h hv
  have hs := scoresLoop_spec m h values hv m.nClasses.toNat 0 (by omega) []
  have h2 := h.classes.1
  unfold predict
  rw [if_pos h2]
  constructor
  · intro hb
    rcases bind_err hb with hb | ⟨a, ha, hb⟩
    · exact hs.1 hb
    · obtain ⟨ss, s1, s2, _⟩ := hs.2 a ha
      cases ss with
      | nil => simp at s1; omega
      | cons x xs => subst s2; simp at hb
  · intro r hr
    obtain ⟨a, ha, hr⟩ := bind_ok hr
    obtain ⟨ss, s1, s2, s3⟩ := hs.2 a ha
    simp only [List.nil_append] at s2
    subst s2
    cases a with
    | nil => simp at s1; omega
    | cons x xs =>
      simp only [Except.ok.injEq] at hr
      obtain ⟨v, b1, b2, b3⟩ := argmaxLoop_spec xs [x] x 0 (by simp) (by simp) (by
        intro j y hj
        cases j with
        | zero => simp only [List.getElem?_cons_zero, Option.some.injEq] at hj; exact ⟨by omega, fun h => by omega⟩
        | succ j => simp at hj)
      simp only [List.singleton_append, List.length_singleton] at b1 b2 b3
      refine ⟨argmaxLoop xs 1 x 0, fun c => (x :: xs).getD c 0, hr.symm, by omega, ?_, ?_, ?_⟩
      · intro c hc
        have := s3 c ((x :: xs).getD c 0) (by rw [List.getD_eq_getElem?_getD, List.getElem?_eq_getElem (by omega)]; rfl)
        simpa using this
      · intro c hc
        have hcv := b3 c ((x :: xs).getD c 0) (by rw [List.getD_eq_getElem?_getD, List.getElem?_eq_getElem (by omega)]; rfl)
        have : (x :: xs).getD (argmaxLoop xs 1 x 0) 0 = v := by rw [List.getD_eq_getElem?_getD, b2]; rfl
        simp only [this]; exact hcv.1
      · intro c hc
        have hcv := b3 c ((x :: xs).getD c 0) (by rw [List.getD_eq_getElem?_getD, List.getElem?_eq_getElem (by omega)]; rfl)
        have : (x :: xs).getD (argmaxLoop xs 1 x 0) 0 = v := by rw [List.getD_eq_getElem?_getD, b2]; rfl
        simp only [this]; exact hcv.2 hc

/-- Generated models are well-formed, and entry (class, feature) of the table is the converted row entry. -/
theorem C33_generated_table (nf : Nat) (rows : List (List (K × K × K))) (hr : ∀ r ∈ rows, r.length = nf) (h2 : 2 ≤ rows.length) (h10 : rows.length ≤ 10) :
    WF (generate nf rows) ∧ ∀ (c f : Nat) (row : List (K × K × K)) (e : K × K × K), rows[c]? = some row → row[f]? = some e →
      (generate nf rows).summaries[c * nf + f]? = some { mean := fromFloat 16 e.1, std := fromFloat 16 e.2.1, stdlog2 := fromFloat 16 e.2.2 } := by
  have hlen : rows.flatten.length = rows.length * nf := by
    clear h2 h10
    induction rows with
    | nil => simp
    | cons r rs ih => rw [List.flatten_cons, List.length_append, ih (fun x hx => hr x (by simp [hx])), hr r (by simp)]; simp; ring
  refine ⟨⟨by simp [generate]; omega, by simp [generate], by simp only [generate, List.length_map, Int.toNat_natCast]; exact hlen⟩, ?_⟩
  have key : ∀ (rows : List (List (K × K × K))), (∀ r ∈ rows, r.length = nf) → ∀ (c f : Nat) (row : List (K × K × K)) (e : K × K × K), rows[c]? = some row → row[f]? = some e →
      rows.flatten[c * nf + f]? = some e := by
    intro rows
    induction rows with
    | nil => intro _ c f row e h; simp at h
    | cons r rs ih =>
      intro hr c f row e h1 h2
      have hrl := hr r (by simp)
      cases c with
      | zero =>
        simp only [List.getElem?_cons_zero, Option.some.injEq] at h1
        subst h1
        have : f < r.length := by by_contra hc; rw [List.getElem?_eq_none (by omega)] at h2; cases h2
        rw [List.flatten_cons, Nat.zero_mul, Nat.zero_add, List.getElem?_append_left this]; exact h2
      | succ c =>
        simp only [List.getElem?_cons_succ] at h1
        rw [List.flatten_cons, List.getElem?_append_right (by rw [hrl, Nat.succ_mul]; omega), hrl, show (c + 1) * nf + f - nf = c * nf + f by rw [Nat.succ_mul]; omega]
        exact ih (fun x hx => hr x (by simp [hx])) c f row e h1 h2
  intro c f row e h1 h2
  simp only [generate, List.getElem?_map, key rows hr c f row e h1 h2, Option.map_some]

/-- Non-vacuity: three classes, two features; the model is well-formed and the prediction is class 1. -/
def exampleModel : Model := generate (K := ℚ) 2 [[(0, 1, 0), (0, 1, 0)], [(5, 2, 1), (4, 1, 0)], [(-5, 1/2, -1), (4, 1, 0)]]
example : WF exampleModel := (C33_generated_table (K := ℚ) 2 _ (by decide) (by decide) (by decide)).1
example : predict (K := ℚ) exampleModel [9/2, 4] = .ok 1 ∧ predict (K := ℚ) exampleModel [-4, 4] = .ok 2 ∧ predict (K := ℚ) exampleModel [1, 1/2] = .ok 0 := by decide +kernel

/-- **C33 is false as stated**: for the generated model of two well separated classes (means 0 and 200, standard deviation 1) and the input 200, the squared z-score of class 0 does not fit Q16: the
C program overflows a signed int (undefined behaviour) instead of answering class 1. -/
theorem C33_overflow_refuted :
    WF (generate (K := ℚ) 1 [[(0, 1, 0)], [(200, 1, 0)]]) ∧ predict (K := ℚ) (generate (K := ℚ) 1 [[(0, 1, 0)], [(200, 1, 0)]]) [200] = .error .overflow ∧
    predict (K := ℚ) (generate (K := ℚ) 1 [[(0, 1, 0)], [(180, 1, 0)]]) [180] = .ok 1 :=
  ⟨(C33_generated_table (K := ℚ) 1 _ (by decide) (by decide) (by decide)).1, by decide +kernel⟩

/-! ### C66: unchecked misuse -/

/-- **C66 is false as stated**: eml_bayes_predict() does not reject (a) models with more classes than its buffer, (b) inputs longer than the model, (c) standard deviations below the Q16 resolution, which the generator turns into 0:
the run writes / reads out of bounds or divides by zero. -/
theorem C66_refuted :
    (predict (K := ℚ) (generate (K := ℚ) 1 (List.replicate 11 [(0, 1, 0)])) [0] = .error .outOfBounds) ∧
    (predict (K := ℚ) (generate (K := ℚ) 1 [[(0, 1, 0)], [(0, 1, 0)]]) [0, 0] = .error .outOfBounds) ∧
    (predict (K := ℚ) (generate (K := ℚ) 1 [[(0, 1/100000, 0)], [(0, 1, 0)]]) [0] = .error .divZero) := by
  decide +kernel

theorem logpdf_divZero {x m s l : Int} (hs : s ≠ 0) : logpdf x m s l ≠ .error .divZero := by
  have hc : ∀ x, chk32 x ≠ .error .divZero := by intro x; unfold chk32; split <;> simp
  have hof : ∀ o : Option Int, ofOpt .overflow o ≠ .error .divZero := by intro o; cases o <;> simp [ofOpt]
  intro h
  unfold logpdf at h
  rcases bind_err h with h | ⟨a, _, h⟩
  · exact hc _ h
  rcases bind_err h with h | ⟨a, _, h⟩
  · unfold q16Div at h; rw [if_neg hs] at h; simp [ofOpt] at h
  rcases bind_err h with h | ⟨a, _, h⟩
  · unfold absQ at h
    split at h
    · cases h
    · exact hc _ h
  rcases bind_err h with h | ⟨a, _, h⟩
  · unfold logpdfStd at h
    rcases bind_err h with h | ⟨a, _, h⟩
    · exact hof _ h
    rcases bind_err h with h | ⟨a, _, h⟩
    · exact hof _ h
    rcases bind_err h with h | ⟨a, _, h⟩
    · exact hof _ h
    rcases bind_err h with h | ⟨a, _, h⟩
    · exact hc _ h
    exact hc _ h
  exact hc _ h

/-- **C66 (partial: class count below two, zero standard deviations)** Fewer than two classes are reported as a negative code for every input; a model without zero standard deviation never divides by zero, whatever the input;
and a generated model has none if every fitted standard deviation is at least 2^-16. -/
theorem C66_misuse_partial (m : Model) (values : List K) :
    (m.nClasses < 2 → ∃ r, predict m values = .ok r ∧ r < 0) ∧
    ((∀ s ∈ m.summaries, s.std ≠ 0) → predict m values ≠ .error .divZero) ∧
    (∀ (nf : Nat) (rows : List (List (K × K × K))), (∀ r ∈ rows, ∀ e ∈ r, (1 : K) / 65536 ≤ e.2.1) → ∀ s ∈ (generate nf rows).summaries, s.std ≠ 0) := by
  refine ⟨fun h => ⟨-3, (C33_predict_argmax_partial m values).2 h, by norm_num⟩, ?_, ?_⟩
  · intro hs
    have hc : ∀ x, chk32 x ≠ .error .divZero := by intro x; unfold chk32; split <;> simp
    have hr : ∀ i s, readAt m.summaries i = .ok s → s.std ≠ 0 := by
      intro i s h
      unfold readAt at h
      split at h
      · split at h
        · rename_i hg; cases h; exact hs _ (List.mem_of_getElem? hg)
        · cases h
      · cases h
    have hre : ∀ i, readAt m.summaries i ≠ .error .divZero := by
      intro i; unfold readAt; split
      · split <;> simp
      · simp
    have hcl : ∀ (vs : List K) c idx p, classLoop m c idx vs p ≠ .error .divZero := by
      intro vs
      induction vs with
      | nil => intro c idx p; simp [classLoop]
      | cons v vs ih =>
        intro c idx p h
        rw [classLoop] at h
        rcases bind_err h with h | ⟨a, ha, h⟩
        · exact hre _ h
        rcases bind_err h with h | ⟨b, _, h⟩
        · exact hc _ h
        rcases bind_err h with h | ⟨b, _, h⟩
        · exact logpdf_divZero (hr _ _ ha) h
        rcases bind_err h with h | ⟨b, _, h⟩
        · exact hc _ h
        exact ih _ _ _ h
    have hsl : ∀ n c acc, scoresLoop m values n c acc ≠ .error .divZero := by
      intro n
      induction n with
      | zero => intro c acc; simp [scoresLoop]
      | succ n ih =>
        intro c acc h
        rw [scoresLoop] at h
        rcases bind_err h with h | ⟨a, _, h⟩
        · exact hcl _ _ _ _ h
        split at h
        · exact ih _ _ h
        · cases h
    unfold predict
    split
    · intro h
      rcases bind_err h with h | ⟨a, _, h⟩
      · exact hsl _ _ _ h
      split at h <;> cases h
    · simp
  · intro nf rows h s hs0
    simp only [generate, List.mem_map, List.mem_flatten] at hs0
    obtain ⟨e, ⟨r, hr, he⟩, rfl⟩ := hs0
    have h1 := h r hr e he
    simp only [fromFloat]
    have h2 : (1 : K) ≤ e.2.1 * 2 ^ 16 := by
      have := mul_le_mul_of_nonneg_right h1 (show (0:K) ≤ 65536 by norm_num)
      norm_num at this ⊢; exact this
    have h3 := trunc_mono h2
    have h4 : trunc (1 : K) = 1 := by have := trunc_intCast (K := K) 1; simpa using this
    omega

example : ∀ s ∈ exampleModel.summaries, s.std ≠ 0 := by decide +kernel

/-! ### C34 -/

theorem q16Mul_self_mono {x y a b : Int} (hx : 0 ≤ x) (hxy : x ≤ y) (h1 : q16Mul x x = some a) (h2 : q16Mul y y = some b) : 0 ≤ a ∧ a ≤ b := by
  unfold q16Mul at h1 h2
  simp only at h1 h2
  split at h1
  · split at h2
    · cases h1; cases h2
      have e1 : 0 ≤ x / 256 := by omega
      have e2 : x / 256 ≤ y / 256 := by omega
      exact ⟨mul_nonneg e1 e1, mul_le_mul e2 e2 e1 (by omega)⟩
    · cases h2
  · cases h1

theorem logpdfStd_mono {x y p q : Int} (hx : 0 ≤ x) (hxy : x ≤ y) (h1 : logpdfStd x = .ok p) (h2 : logpdfStd y = .ok q) : q ≤ p := by
  unfold logpdfStd at h1 h2
  obtain ⟨a1, e1, h1⟩ := bind_ok h1
  obtain ⟨a2, e2, h1⟩ := bind_ok h1
  obtain ⟨a3, e3, h1⟩ := bind_ok h1
  obtain ⟨a4, e4, h1⟩ := bind_ok h1
  obtain ⟨b1, f1, h2⟩ := bind_ok h2
  obtain ⟨b2, f2, h2⟩ := bind_ok h2
  obtain ⟨b3, f3, h2⟩ := bind_ok h2
  obtain ⟨b4, f4, h2⟩ := bind_ok h2
  have m := q16Mul_self_mono hx hxy (ofOpt_ok e1) (ofOpt_ok f1)
  have z1 : a3 = 0 := by have := ofOpt_ok e3; simp [q16Mul, cB] at this; omega
  have z2 : b3 = 0 := by have := ofOpt_ok f3; simp [q16Mul, cB] at this; omega
  have m2 : b2 ≤ a2 := by
    have g1 := ofOpt_ok e2
    have g2 := ofOpt_ok f2
    unfold q16Mul cA at g1 g2
    simp only at g1 g2
    split at g1
    · split at g2
      · cases g1; cases g2
        omega
      · cases g2
    · cases g1
  have := (chk32_ok h1).1
  have := (chk32_ok h2).1
  have := (chk32_ok e4).1
  have := (chk32_ok f4).1
  omega

/-- Magnitude computed by the division step. -/
theorem q16Div_abs_mono {a b s qa qb : Int} (hs : 0 < s) (ha : 65536 * |a| ≤ 2147483647 * s) (hb : 65536 * |b| ≤ 2147483647 * s)
    (hab : |a| ≤ |b|) (h1 : q16Div a s = some qa) (h2 : q16Div b s = some qb) : |qa| ≤ |qb| := by
  have val : ∀ (a q : Int), 65536 * |a| ≤ 2147483647 * s → q16Div a s = some q → |q| = (65536 * |a| + s / 2) / s := by
    intro a q ha h
    have hnn : 0 ≤ |a| := abs_nonneg a
    have hbnd : (65536 * |a| + s / 2) / s ≤ 2147483647 := by
      apply Int.le_of_lt_add_one
      rw [Int.ediv_lt_iff_lt_mul hs]
      have : s / 2 < s := by omega
      linarith
    have hge : 0 ≤ (65536 * |a| + s / 2) / s := Int.ediv_nonneg (by omega) hs.le
    unfold q16Div at h
    rw [if_neg hs.ne'] at h
    simp only [Option.some.injEq] at h
    rw [Int.tdiv_eq_ediv_of_nonneg (a := s) hs.le] at h
    by_cases hneg : a < 0
    · rw [if_neg (by omega), show a * 65536 - s / 2 = -(65536 * |a| + s / 2) by rw [abs_of_neg hneg]; ring, Int.neg_tdiv, Int.tdiv_eq_ediv_of_nonneg (by omega),
        wrap32_id' (by omega) (by omega)] at h
      rw [← h, abs_neg, abs_of_nonneg hge]
    · rw [if_pos (by omega), show a * 65536 + s / 2 = 65536 * |a| + s / 2 by rw [abs_of_nonneg (by omega)]; ring, Int.tdiv_eq_ediv_of_nonneg (by omega),
        wrap32_id' (by omega) (by omega)] at h
      rw [← h, abs_of_nonneg hge]
  rw [val a qa ha h1, val b qb hb h2]
  exact Int.ediv_le_ediv hs (by omega)

/-- **C34** For every mean, positive std and log2-std, and any two inputs whose standardised distance fits Q16 (`|x - mean|·65536 ≤ (2^31-1)·std`) and whose log-density is computed without overflow: the input further
from (or equally far from) the mean never gets a higher log-density; inputs equally far on either side get the same one. -/
theorem C34_logpdf_decreases_with_distance (x y mean std stdlog2 p q : Int) (hs : 0 < std)
    (hx : 65536 * |x - mean| ≤ 2147483647 * std) (hy : 65536 * |y - mean| ≤ 2147483647 * std)
    (h1 : logpdf x mean std stdlog2 = .ok p) (h2 : logpdf y mean std stdlog2 = .ok q) :
    (|x - mean| ≤ |y - mean| → q ≤ p) ∧ (|x - mean| = |y - mean| → p = q) := by
  have key : ∀ {x y p q : Int}, 65536 * |x - mean| ≤ 2147483647 * std → 65536 * |y - mean| ≤ 2147483647 * std →
      logpdf x mean std stdlog2 = .ok p → logpdf y mean std stdlog2 = .ok q → |x - mean| ≤ |y - mean| → q ≤ p := by
    intro x y p q hx hy h1 h2 hab
    unfold logpdf at h1 h2
    obtain ⟨a1, e1, h1⟩ := bind_ok h1
    obtain ⟨a2, e2, h1⟩ := bind_ok h1
    obtain ⟨a3, e3, h1⟩ := bind_ok h1
    obtain ⟨a4, e4, g1⟩ := bind_ok h1
    obtain ⟨b1, f1, h2⟩ := bind_ok h2
    obtain ⟨b2, f2, h2⟩ := bind_ok h2
    obtain ⟨b3, f3, h2⟩ := bind_ok h2
    obtain ⟨b4, f4, g2⟩ := bind_ok h2
    obtain ⟨rfl, _⟩ := chk32_ok e1
    obtain ⟨rfl, _⟩ := chk32_ok f1
    have m := q16Div_abs_mono hs hx hy hab (ofOpt_ok e2) (ofOpt_ok f2)
    have habs : ∀ {a r : Int}, absQ a = .ok r → r = |a| := by
      intro a r h
      unfold absQ at h
      split at h
      · cases h; rw [abs_of_pos (by omega)]
      · rw [(chk32_ok h).1, abs_of_nonpos (by omega)]
    rw [habs e3] at e4
    rw [habs f3] at f4
    have := logpdfStd_mono (abs_nonneg a2) m e4 f4
    have := (chk32_ok g1).1
    have := (chk32_ok g2).1
    omega
  exact ⟨key hx hy h1 h2, fun he => le_antisymm (key hy hx h2 h1 he.ge) (key hx hy h1 h2 he.le)⟩

example : logpdf (3 * 65536) 65536 (2 * 65536) 65536 = .ok (-199780) ∧ logpdf (-65536) 65536 (2 * 65536) 65536 = .ok (-199780) ∧ logpdf (5 * 65536) 65536 (2 * 65536) 65536 = .ok (-341860) := by
  decide +kernel

/-! ### C35 -/

/-- **C35 is false as stated**: precision 31 is accepted but the second loop never ends; and for precisions 27 to 30 the accumulated exponent can wrap around 32 bits. -/
theorem C35_refuted :
    (∀ fuel x : Nat, 0 < x → x < 2 ^ 32 → log2fix fuel x 31 = none) ∧
    (∃ y : Int, log2fix 64 1 28 = some y ∧ (y : ℝ) ≠ 2 ^ 28 * Real.logb 2 (1 / 2 ^ 28)) := by
  constructor
  · intro fuel x h0 _
    have hd : ∀ f x y, normDown 31 f x y = none := by
      intro f; induction f with
      | zero => intros; rfl
      | succ f ih => intro x y; rw [normDown, if_pos (by norm_num)]; exact ih _ _
    unfold log2fix
    rw [if_neg (by norm_num), if_neg (by norm_num), if_neg (by omega)]
    cases normUp 31 fuel x 0 with
    | none => rfl
    | some a => obtain ⟨a, b⟩ := a; simp [hd]
  · refine ⟨1073741824, by decide +kernel, ?_⟩
    rw [one_div, Real.logb_inv, Real.logb_pow, Real.logb_self_eq_one (by norm_num)]
    norm_num

/-- **C35 (partial: precision up to 30, true value representable in 32 bits — always so for precision up to 26)** For every 32-bit `x ≥ 1`: the loops terminate (33 iterations suffice for each), the result never exceeds
`2^p·log2(x/2^p)` and is less than 4 units below it, and it is exact on powers of two. -/
theorem C35_log2fix_accurate_partial (p x : Nat) (hp1 : 1 ≤ p) (hp : p ≤ 30) (hx1 : 1 ≤ x) (hx : x < 2 ^ 32)
    (hfit : p ≤ 26 ∨ -(2:ℝ) ^ 31 ≤ 2 ^ p * Real.logb 2 ((x : ℝ) / 2 ^ p)) :
    ∃ y : Int, (∀ fuel, 33 ≤ fuel → log2fix fuel x p = some y) ∧
      (y : ℝ) ≤ 2 ^ p * Real.logb 2 ((x : ℝ) / 2 ^ p) ∧ 2 ^ p * Real.logb 2 ((x : ℝ) / 2 ^ p) - 4 < y ∧
      ∀ j : Nat, x = 2 ^ j → y = ((j : Int) - p) * 2 ^ p := by
  have hxpos : (0:ℝ) < x := by exact_mod_cast hx1
  have hP : (0:ℝ) < 2 ^ p := by positivity
  have hyUp : ∀ k : Nat, x * 2 ^ k < 2 ^ p → -2147483648 ≤ (0 : Int) - ((k + 1 : Nat) : Int) * 2 ^ p := by
    intro k hk
    rcases hfit with h26 | hT
    · have hkp : k < p := by
        have : 2 ^ k < 2 ^ p := lt_of_le_of_lt (Nat.le_mul_of_pos_left _ hx1) hk
        exact (Nat.pow_lt_pow_iff_right (by norm_num)).mp this
      have h1 : (k + 1) * 2 ^ p ≤ p * 2 ^ p := Nat.mul_le_mul_right _ hkp
      have h2 : p * 2 ^ p ≤ 2147483648 := by clear hkp h1 hk hP hp; interval_cases p <;> norm_num
      have : (((k + 1) * 2 ^ p : Nat) : Int) ≤ 2147483648 := by exact_mod_cast le_trans h1 h2
      push_cast at this ⊢
      linarith
    · have hk' : (x:ℝ) * 2 ^ k < 2 ^ p := by exact_mod_cast hk
      have h1 : Real.logb 2 ((x : ℝ) / 2 ^ p) < -k := by
        rw [Real.logb_lt_iff_lt_rpow (by norm_num) (by positivity), Real.rpow_neg (by norm_num), Real.rpow_natCast, div_lt_iff₀ hP, inv_mul_eq_div, lt_div_iff₀ (by positivity)]
        exact hk'
      have h2 : (2:ℝ) ^ p * Real.logb 2 ((x : ℝ) / 2 ^ p) < 2 ^ p * (-k) := mul_lt_mul_of_pos_left h1 hP
      have h3 : (2:ℝ) ^ p * k < 2 ^ 31 := by linarith
      have h4 : 2 ^ p * k < 2 ^ 31 := by exact_mod_cast h3
      have h5 : k + 1 ≤ 2 ^ (31 - p) := by
        have : 2 ^ p * k < 2 ^ p * 2 ^ (31 - p) := by rw [← pow_add, show p + (31 - p) = 31 by omega]; exact h4
        exact Nat.lt_of_mul_lt_mul_left this
      have h6 : (k + 1) * 2 ^ p ≤ 2 ^ 31 := by
        calc (k + 1) * 2 ^ p ≤ 2 ^ (31 - p) * 2 ^ p := Nat.mul_le_mul_right _ h5
          _ = 2 ^ 31 := by rw [← pow_add]; congr 1; omega
      have : (((k + 1) * 2 ^ p : Nat) : Int) ≤ 2147483648 := by exact_mod_cast h6
      push_cast at this ⊢
      linarith
  obtain ⟨k, u1, u2, u3, u4⟩ := normUp_spec p hp 32 x 0 (by
      calc 2 ^ p ≤ 2 ^ 32 := Nat.pow_le_pow_right (by norm_num) (by omega)
        _ ≤ x * 2 ^ 32 := Nat.le_mul_of_pos_left _ hx1) hx le_rfl hyUp
  have hyk : -2147483648 ≤ (0:Int) - (k : Int) * 2 ^ p := by
    cases k with
    | zero => simp
    | succ k =>
      apply hyUp k
      rcases u3 with h | h
      · omega
      · rw [pow_succ' 2 k, pow_succ 2 p] at h
        rw [show x * (2 * 2 ^ k) = x * 2 ^ k * 2 by ring] at h
        omega
  have hkn : (0:Int) ≤ (k : Int) * 2 ^ p := by positivity
  obtain ⟨k', d1, d2, d3, d4⟩ := normDown_spec p hp 31 (x * 2 ^ k) (0 - (k : Int) * 2 ^ p) u2 (lt_of_lt_of_le u4 (Nat.pow_le_pow_right (by norm_num) (by omega))) 0 (by simpa using u4) (by simp) hyk
  have hk'n : (0:Int) ≤ (k' : Int) * 2 ^ p := by positivity
  have hpp : (2:Int) ^ p ≤ 2 ^ 30 := by exact_mod_cast Nat.pow_le_pow_right (n := 2) (by norm_num) hp
  have hfr := fracLoop_spec p hp p (x * 2 ^ k / 2 ^ k') (0 - (k : Int) * 2 ^ p + (k' : Int) * 2 ^ p) d2 d3 (by omega) (by norm_num at hpp d4 ⊢; linarith)
  refine ⟨fracLoop p p (x * 2 ^ k / 2 ^ k') (0 - (k : Int) * 2 ^ p + (k' : Int) * 2 ^ p), ?_, ?_, ?_, ?_⟩
  · intro fuel hf
    unfold log2fix
    rw [if_neg (by omega), if_neg (by omega), if_neg (by omega)]
    have e1 := u1 (fuel - 33)
    have e2 := d1 (fuel - 32)
    rw [show 32 + 1 + (fuel - 33) = fuel by omega] at e1
    rw [show 31 + 1 + (fuel - 32) = fuel by omega] at e2
    rw [e1]
    simp only [Option.bind_eq_bind, Option.bind_some]
    rw [e2]
    rfl
  all_goals
    obtain ⟨g1, g2⟩ := floor_div_bounds (x * 2 ^ k) (2 ^ k') (by positivity)
    obtain ⟨t1, t2⟩ := L_trunc p _ _ d2 g1 g2
    have eL : L p (((x * 2 ^ k : Nat) : ℝ) / ((2 ^ k' : Nat) : ℝ)) = 2 ^ p * Real.logb 2 ((x : ℝ) / 2 ^ p) + k * 2 ^ p - k' * 2 ^ p := by
      push_cast
      rw [L_halve p k' _ (by positivity), L_double p k _ hxpos]; rfl
    rw [eL] at t1 t2
    rw [mul_div_cancel_right₀ _ hP.ne'] at hfr
    push_cast at hfr t1 t2 ⊢
    have hl0 := loss_nonneg p
    have hl1 := loss_lt p
    have hl2 : loss p * (2 ^ p - 1) / 2 ^ p ≤ loss p := by
      rw [div_le_iff₀ hP]; nlinarith
  · linarith [hfr.2]
  · linarith [hfr.1]
  · intro j hj
    subst hj
    rw [← pow_add] at u2 u3 d2 d3 ⊢
    have hpk : p ≤ j + k := (Nat.pow_le_pow_iff_right (by norm_num)).mp u2
    have hz : 2 ^ (j + k) / 2 ^ k' = 2 ^ p ∧ j + k = p + k' := by
      by_cases hkk : k' ≤ j + k
      · rw [Nat.pow_div hkk (by norm_num)] at d2 d3 ⊢
        have a1 := (Nat.pow_le_pow_iff_right (a := 2) (by norm_num)).mp d2
        have a2 := (Nat.pow_lt_pow_iff_right (a := 2) (by norm_num)).mp d3
        have : j + k - k' = p := by omega
        exact ⟨by rw [this], by omega⟩
      · exfalso
        rw [Nat.div_eq_of_lt (Nat.pow_lt_pow_right (by norm_num) (by omega))] at d2
        have : 0 < 2 ^ p := by positivity
        omega
    rw [hz.1, fracLoop_one p p hp]
    have : (j : Int) - p = k' - k := by omega
    rw [this]; ring

example : log2fix 33 (3 * 65536) 16 = some 103872 ∧ log2fix 33 16384 16 = some (-131072) := by decide +kernel

/-- **C35 (special values).** The logarithm of zero is reported as `INT32_MIN` for every accepted precision; precision 32 is refused with `INT32_MAX`; precision 0, which the function means to refuse, and more than 32
are undefined (the shift by `precision - 1` comes before the check). -/
theorem C35_special_values (fuel p x : Nat) :
    (1 ≤ p → p ≤ 31 → log2fix fuel 0 p = some (-2147483648)) ∧ log2fix fuel x 32 = some 2147483647 ∧ (p = 0 ∨ 32 < p → log2fix fuel x p = none) := by
  refine ⟨fun h1 h2 => ?_, ?_, fun h => ?_⟩
  · rw [log2fix, if_neg (by omega), if_neg (by omega), if_pos rfl]
  · rw [log2fix, if_neg (by omega), if_pos (by omega)]
  · rw [log2fix, if_pos (by omega)]

end Emlearn.Bayes
