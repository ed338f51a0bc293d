/- C51, C74: Pareto fronts (`emlearn/evaluate/pareto.py`). -/
import Verif.Evaluate.Pareto
import Mathlib.Order.Defs.LinearOrder
import Mathlib.Data.List.OfFn
import Mathlib.Data.List.FinRange
import Mathlib.Data.Fintype.Card
import Mathlib.Data.Finite.Prod
import Mathlib.Data.Fintype.Fin
import Mathlib.Tactic.NormNum
import Mathlib.Algebra.Order.Group.Defs
import Mathlib.Algebra.Order.Group.Unbundled.Basic
import Mathlib.Algebra.Order.Ring.Rat
namespace Emlearn.Pareto
variable {K : Type} [LinearOrder K]

/-- Specification: `p` is at least as good as `q` in every cost and better in one (smaller is better). -/
def Dominates {d : Nat} (p q : Fin d → K) : Prop := (∀ l, p l ≤ q l) ∧ ∃ l, p l < q l

/-- The cost table as the rows of the numpy array. -/
def table {n d : Nat} (costs : Fin n → Fin d → K) : List (List K) := List.ofFn fun i => List.ofFn (costs i)

theorem anyLt_iff {d : Nat} (a c : Fin d → K) : anyLt (List.ofFn a) (List.ofFn c) = true ↔ ∃ l, a l < c l := by
  unfold anyLt
  rw [List.any_eq_true]
  constructor
  · rintro ⟨p, hp, h⟩
    obtain ⟨i, hi, rfl⟩ := List.getElem_of_mem hp
    simp at hi h
    exact ⟨⟨i, hi⟩, h⟩
  · rintro ⟨l, h⟩
    refine ⟨(a l, c l), ?_, by simpa using h⟩
    rw [List.mem_iff_getElem]
    exact ⟨l, by simp, by simp⟩

/-- What the mask says about point `i` after the first `t` points have been processed. -/
def Keeps {n d : Nat} (costs : Fin n → Fin d → K) (t : Nat) (i : Fin n) : Prop :=
  ∀ j : Fin n, j.val < t → j ≠ i → (∀ l, costs j l ≤ costs i l) → (∀ l, costs i l ≤ costs j l) ∧ i < j

def Inv {n d : Nat} (costs : Fin n → Fin d → K) (t : Nat) (mask : List Bool) : Prop :=
  mask.length = n ∧ ∀ i : Fin n, mask[i.val]? = some true ↔ Keeps costs t i

theorem keeps_succ {n d : Nat} (costs : Fin n → Fin d → K) (t : Fin n) (i : Fin n) :
    Keeps costs (t + 1) i ↔ Keeps costs t i ∧ (t ≠ i → (∀ l, costs t l ≤ costs i l) → (∀ l, costs i l ≤ costs t l) ∧ i < t) := by
  unfold Keeps
  constructor
  · intro h
    exact ⟨fun j hj => h j (by omega), fun hne => h t (by omega) hne⟩
  · rintro ⟨h1, h2⟩ j hj hne
    by_cases hjt : j = t
    · subst hjt; exact h2 hne
    · exact h1 j (by have : j.val ≠ t.val := fun h => hjt (Fin.ext h); omega) hne

theorem step_inv {n d : Nat} (costs : Fin n → Fin d → K) (t : Fin n) (mask : List Bool) (h : Inv costs t mask) :
    Inv costs (t + 1) (step (table costs) mask t (List.ofFn (costs t))) := by
  obtain ⟨hlen, hm⟩ := h
  unfold step
  by_cases ht : mask[t.val]? = some true
  · rw [if_pos ht]
    have hkt := (hm t).mp ht
    refine ⟨by simp [table, hlen], fun i => ?_⟩
    rw [keeps_succ, ← hm i]
    have hi : i.val < mask.length := by omega
    by_cases hit : t = i
    · subst hit
      rw [List.getElem?_set_self (by simp [table, hlen])]
      simp [ht]
    · have hne : t.val ≠ i.val := fun h => hit (Fin.ext h)
      rw [List.getElem?_set_ne hne, List.getElem?_map, List.getElem?_eq_getElem (by simp [table, hlen]), List.getElem?_eq_getElem hi]
      simp only [Option.map_some, Option.some.injEq, List.getElem_zip, table, List.getElem_ofFn, Bool.and_eq_true, anyLt_iff, Fin.eta]
      constructor
      · rintro ⟨h1, l, hl⟩
        exact ⟨h1, fun _ hle => absurd (hle l) (not_le.mpr hl)⟩
      · rintro ⟨h1, h2⟩
        refine ⟨h1, ?_⟩
        by_contra hno
        have hle : ∀ l, costs t l ≤ costs i l := fun l => not_lt.mp (fun hl => hno ⟨l, hl⟩)
        obtain ⟨h3, h4⟩ := h2 hit hle
        obtain ⟨_, h5⟩ := hkt i h4 (Ne.symm hit) h3
        exact absurd h4 (lt_asymm h5)
  · rw [if_neg ht]
    refine ⟨hlen, fun i => ?_⟩
    rw [keeps_succ, ← hm i]
    constructor
    · intro hi
      refine ⟨hi, fun hne hle => ?_⟩
      have hk := (hm i).mp hi
      have hnk : ¬ Keeps costs t t := fun hc => ht ((hm t).mpr hc)
      unfold Keeps at hnk
      push Not at hnk
      obtain ⟨j, hjt, hjne, hjle, _⟩ := hnk
      by_cases hji : j = i
      · subst hji; exact ⟨hjle, hjt⟩
      · obtain ⟨h1, h2⟩ := hk j hjt hji (fun l => le_trans (hjle l) (hle l))
        exact ⟨fun l => le_trans (h1 l) (hjle l), lt_trans h2 hjt⟩
    · exact fun h => h.1

theorem loop_inv {n d : Nat} (costs : Fin n → Fin d → K) (rest : List (List K)) (t : Nat) (mask : List Bool)
    (hrest : rest = (table costs).drop t) (ht : t ≤ n) (h : Inv costs t mask) : Inv costs n (loop (table costs) rest t mask) := by
  induction rest generalizing t mask with
  | nil =>
    have : n ≤ t := by
      have := congrArg List.length hrest
      simp [table] at this; omega
    have : t = n := by omega
    subst this; exact h
  | cons c rest ih =>
    have hlt : t < n := by
      have := congrArg List.length hrest
      simp [table] at this; omega
    have hlt' : t < (table costs).length := by simp [table, hlt]
    rw [List.drop_eq_getElem_cons hlt'] at hrest
    injection hrest with e1 e2
    have hc : c = List.ofFn (costs ⟨t, hlt⟩) := by rw [e1]; simp [table]
    rw [loop, hc]
    exact ih (t + 1) _ e2 (by omega) (step_inv costs ⟨t, hlt⟩ mask h)

/-- **C51.** For every finite cost table, a point is marked efficient exactly when no point dominates it and no earlier point has exactly the
same costs (one representative, the first, of each group of duplicates is kept). -/
theorem C51_pareto_exact {n d : Nat} (costs : Fin n → Fin d → K) :
    (isEfficient (table costs)).length = n ∧
    ∀ i : Fin n, (isEfficient (table costs))[i.val]? = some true ↔ (∀ j, ¬ Dominates (costs j) (costs i)) ∧ (∀ j, j < i → costs j ≠ costs i) := by
  have h0 : Inv costs 0 ((table costs).map fun _ => true) := by
    refine ⟨by simp [table], fun i => ?_⟩
    constructor
    · intro _ j hj; omega
    · intro _; simp [table]
  obtain ⟨h1, h2⟩ := loop_inv costs (table costs) 0 _ (by simp) (by omega) h0
  refine ⟨h1, fun i => (h2 i).trans ?_⟩
  unfold Keeps Dominates
  constructor
  · intro h
    constructor
    · rintro j ⟨hle, l, hl⟩
      by_cases hji : j = i
      · subst hji; exact lt_irrefl _ hl
      · exact absurd hl (not_lt.mpr ((h j j.2 hji hle).1 l))
    · intro j hji he
      obtain ⟨_, h'⟩ := h j j.2 (ne_of_lt hji) (fun l => by rw [he])
      exact lt_asymm h' hji
  · rintro ⟨h3, h4⟩ j _ hne hle
    have hge : ∀ l, costs i l ≤ costs j l := fun l => not_lt.mp (fun hl => h3 j ⟨hle, l, hl⟩)
    refine ⟨hge, ?_⟩
    rcases lt_trichotomy i j with h | h | h
    · exact h
    · exact absurd h.symm hne
    · exact absurd (funext fun l => le_antisymm (hle l) (hge l)) (h4 j h)

/-- **C51.** Every point is dominated by, or equal to, a point that is marked: the front is complete. -/
theorem C51_front_covers {n d : Nat} (costs : Fin n → Fin d → K) (i : Fin n) :
    ∃ j, (isEfficient (table costs))[j.val]? = some true ∧ ∀ l, costs j l ≤ costs i l := by
  -- among the points at least as good as `i`, take a minimal one for (dominance, index)
  by_contra hno
  push Not at hno
  have hex : ∀ k : Fin n, (∀ l, costs k l ≤ costs i l) → ∃ j, (∀ l, costs j l ≤ costs i l) ∧ (Dominates (costs j) (costs k) ∨ (costs j = costs k ∧ j < k)) := by
    intro k hk
    by_contra hc
    push Not at hc
    have : (isEfficient (table costs))[k.val]? = some true := by
      rw [(C51_pareto_exact costs).2 k]
      refine ⟨fun j hd => (hc j (fun l => le_trans (hd.1 l) (hk l))).1 hd, fun j hj he => ?_⟩
      have := (hc j (fun l => by rw [he]; exact hk l)).2 he
      exact absurd hj (not_lt.mpr this)
    obtain ⟨l, hl⟩ := hno k this
    exact absurd (hk l) (not_le.mpr hl)
  let R : Fin n → Fin n → Prop := fun j k => Dominates (costs j) (costs k) ∨ (costs j = costs k ∧ j < k)
  have htrans : ∀ a b c, R a b → R b c → R a c := by
    rintro a b c (h1 | ⟨h1, h1'⟩) (h2 | ⟨h2, h2'⟩)
    · obtain ⟨l, hl⟩ := h1.2
      exact Or.inl ⟨fun l => le_trans (h1.1 l) (h2.1 l), l, lt_of_lt_of_le hl (h2.1 l)⟩
    · exact Or.inl (h2 ▸ h1)
    · exact Or.inl (h1 ▸ h2)
    · exact Or.inr ⟨h1.trans h2, lt_trans h1' h2'⟩
  have hirr : ∀ a, ¬ R a a := by
    rintro a (h | h)
    · obtain ⟨l, hl⟩ := h.2; exact lt_irrefl _ hl
    · exact lt_irrefl _ h.2
  haveI : IsTrans (Fin n) R := ⟨htrans⟩
  haveI : Std.Irrefl R := ⟨hirr⟩
  have hwf : WellFounded R := Finite.wellFounded_of_trans_of_irrefl R
  have : ∀ k : Fin n, ¬ (∀ l, costs k l ≤ costs i l) := by
    intro k
    induction k using hwf.induction with
    | _ k ih =>
      intro hk
      obtain ⟨j, hj1, hj2⟩ := hex k hk
      exact ih j hj2 hj1
  exact this i (fun l => le_refl _)

example : isEfficient ([[3, 1], [1, 3], [2, 2], [3, 3], [2, 2]] : List (List Nat)) = [true, true, true, false, false] := by decide


/-! ### find_pareto_front -/

/-- Specification: performance `a` is at least as good as `b`. -/
def AtLeast (higherIsBetter : Bool) (a b : K) : Prop := if higherIsBetter then b ≤ a else a ≤ b

/-- Specification: row `p` is at least as good as row `q` in performance and cost, and better in one of them. -/
def RowDominates (cost perf : String) (higherIsBetter : Bool) (p q : Row K) : Prop :=
  AtLeast higherIsBetter (p perf) (q perf) ∧ p cost ≤ q cost ∧ ¬ (p perf = q perf ∧ p cost = q cost)

/-- Specification: row `i` belongs in the answer. -/
def Front {n : Nat} (df : Fin n → Row K) (cost perf : String) (higherIsBetter : Bool) (minPerformance : Option K) (i : Fin n) : Prop :=
  (∀ j, ¬ RowDominates cost perf higherIsBetter (df j) (df i)) ∧
  (∀ j, j < i → ¬ (df j perf = df i perf ∧ df j cost = df i cost)) ∧
  (∀ m, minPerformance = some m → AtLeast higherIsBetter (df i perf) m)

omit [LinearOrder K] in
theorem select_rows {α : Type} {n : Nat} (mask : Fin n → Bool) (g : Fin n → α) :
    (((List.ofFn mask).zip (List.ofFn g)).filter fun (p : Bool × α) => p.1).map (fun (p : Bool × α) => p.2) = ((List.finRange n).filter mask).map g := by
  rw [List.ofFn_eq_map, List.ofFn_eq_map, List.zip_map', List.filter_map, List.map_map]
  rfl

open Classical in
/-- **C74 (partial).** When neither metric is the column `mean_test_score`, the result is the list, in input order, of exactly the rows that no
row dominates (first of duplicates) and that reach the minimum performance; they differ from the input rows only in the column `mean_test_score`.
Missing: tables whose performance metric is called `mean_test_score` (`C74_refuted`), and that column itself. -/
theorem C74_find_pareto_front_partial [AddCommGroup K] [IsOrderedAddMonoid K] {n : Nat} (df : Fin n → Row K) (cost perf : String)
    (higherIsBetter : Bool) (minPerformance : Option K) (hc : cost ≠ "mean_test_score") (hp : perf ≠ "mean_test_score") :
    ∃ out : Fin n → Row K, (∀ i c, c ≠ "mean_test_score" → out i c = df i c) ∧
      findParetoFront (List.ofFn df) cost perf higherIsBetter minPerformance =
        ((List.finRange n).filter fun i => decide (Front df cost perf higherIsBetter minPerformance i)).map out := by
  let out : Fin n → Row K := fun i => Row.set (df i) "mean_test_score" (if higherIsBetter then -(df i perf) else df i perf)
  refine ⟨out, fun i c h => by simp [out, Row.set, h], ?_⟩
  have hout : ∀ i c, c ≠ "mean_test_score" → out i c = df i c := fun i c h => by simp [out, Row.set, h]
  have hscore : ∀ i, out i "mean_test_score" = if higherIsBetter then -(df i perf) else df i perf := fun i => by simp [out, Row.set]
  have hdf : ((List.ofFn df).map fun r => Row.set r "mean_test_score" (if higherIsBetter then -(r perf) else r perf)) = List.ofFn out := by
    rw [List.map_ofFn]; rfl
  let costs : Fin n → Fin 2 → K := fun i l => if l = 0 then out i "mean_test_score" else out i cost
  have htab : ((List.ofFn out).map fun r => [r "mean_test_score", r cost]) = table costs := by
    rw [List.map_ofFn, table]
    congr 1
  obtain ⟨hlen, heff⟩ := C51_pareto_exact costs
  let E : Fin n → Bool := fun i => decide ((∀ j, ¬ Dominates (costs j) (costs i)) ∧ (∀ j, j < i → costs j ≠ costs i))
  have hE : isEfficient (table costs) = List.ofFn E := by
    apply List.ext_getElem (by simp [hlen])
    intro i h1 h2
    have hi : i < n := by omega
    have := heff ⟨i, hi⟩
    rw [List.getElem?_eq_getElem h1] at this
    simp only [Option.some.injEq] at this
    rw [List.getElem_ofFn, Bool.eq_iff_iff, this]
    simp [E]
  have hdom : ∀ i j, Dominates (costs j) (costs i) ↔ RowDominates cost perf higherIsBetter (df j) (df i) := by
    intro i j
    unfold Dominates RowDominates AtLeast
    simp only [Fin.forall_fin_two, Fin.exists_fin_two, costs, hscore, hout _ _ hc]
    cases higherIsBetter
    · simp only [Bool.false_eq_true, if_false, if_true, Fin.one_eq_zero_iff, Nat.reduceEqDiff]
      constructor
      · rintro ⟨⟨h1, h2⟩, h3⟩
        refine ⟨h1, h2, fun ⟨h4, h5⟩ => ?_⟩
        rw [h4, h5] at h3; simp at h3
      · rintro ⟨h1, h2, h3⟩
        refine ⟨⟨h1, h2⟩, ?_⟩
        by_contra hh
        push Not at hh
        exact h3 ⟨le_antisymm h1 hh.1, le_antisymm h2 hh.2⟩
    · simp only [if_true, Fin.one_eq_zero_iff, Nat.reduceEqDiff, if_false, neg_le_neg_iff, neg_lt_neg_iff]
      constructor
      · rintro ⟨⟨h1, h2⟩, h3⟩
        refine ⟨h1, h2, fun ⟨h4, h5⟩ => ?_⟩
        rw [h4, h5] at h3; simp at h3
      · rintro ⟨h1, h2, h3⟩
        refine ⟨⟨h1, h2⟩, ?_⟩
        by_contra hh
        push Not at hh
        exact h3 ⟨le_antisymm hh.1 h1, le_antisymm h2 hh.2⟩
  have heq : ∀ i j, costs j = costs i ↔ df j perf = df i perf ∧ df j cost = df i cost := by
    intro i j
    rw [funext_iff, Fin.forall_fin_two]
    simp only [costs, hscore, hout _ _ hc, if_true, Fin.one_eq_zero_iff, Nat.reduceEqDiff, if_false]
    cases higherIsBetter <;> simp
  unfold findParetoFront
  simp only []
  rw [hdf, htab, hE]
  cases minPerformance with
  | none =>
    simp only []
    rw [select_rows]
    congr 1
    apply List.filter_congr
    intro i _
    simp [E, Front, hdom, heq]
  | some m =>
    simp only []
    have : (((List.ofFn E).zip (List.ofFn out)).map fun (p : Bool × Row K) => p.1 && (if higherIsBetter then decide (m ≤ p.2 perf) else decide (p.2 perf ≤ m))) =
        List.ofFn fun i => E i && (if higherIsBetter then decide (m ≤ df i perf) else decide (df i perf ≤ m)) := by
      rw [List.ofFn_eq_map, List.ofFn_eq_map, List.zip_map', List.map_map, List.ofFn_eq_map]
      apply List.map_congr_left
      intro i _
      simp [hout _ _ hp]
    rw [this, select_rows]
    congr 1
    apply List.filter_congr
    intro i _
    rw [Bool.eq_iff_iff]
    cases higherIsBetter <;> simp [E, Front, hdom, heq, AtLeast, and_assoc]

/-- **C74 is false as stated**: when the performance column is called `mean_test_score` (scikit-learn's name for it) the column is overwritten with
the negated value before the minimum is applied, so a single row with score 0.9 is not returned for a minimum of 0.5. -/
theorem C74_refuted : ∃ (df : Fin 1 → Row ℚ), Front df "mean_test_compute" "mean_test_score" true (some (1 / 2)) 0 ∧
    findParetoFront (List.ofFn df) "mean_test_compute" "mean_test_score" true (some (1 / 2)) = [] := by
  refine ⟨fun _ c => if c = "mean_test_score" then 9 / 10 else 1, ⟨?_, ?_, ?_⟩, ?_⟩
  · rintro j ⟨_, _, h⟩; simp at h
  · intro j hj; omega
  · intro m hm
    injection hm with hm
    subst hm
    simp only [AtLeast, if_true]
    norm_num
  · decide +kernel

/-- A concrete case: two rows on the front, one dominated, one below the minimum. -/
example : ((findParetoFront ([(9/10, 10), (8/10, 5), (7/10, 7), (4/10, 1)].map fun (p : ℚ × ℚ) => fun c => if c = "acc" then p.1 else p.2) "cost" "acc" true (some (1/2))).map
    fun r => (r "acc", r "cost")) = [(9/10, 10), (8/10, 5)] := by decide +kernel

end Emlearn.Pareto
