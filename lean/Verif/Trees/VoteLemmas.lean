/- Helper lemmas: vote accumulation and arg-max. -/
import Verif.Trees.CLemmas
import Verif.Exact
import Mathlib.Algebra.BigOperators.Group.List.Basic
import Mathlib.Algebra.Order.BigOperators.Group.List
import Mathlib.Tactic.Ring
import Mathlib.Tactic.Linarith
import Mathlib.Tactic.FieldSimp
namespace Emlearn.Trees
variable {Θ L R F : Type}

/-- Position `c` holds the first maximum of `vs` and it exceeds `z`. -/
def FirstMax {α : Type} [LinearOrder α] (vs : List α) (z : α) (c : Nat) : Prop :=
  ∃ v, vs[c]? = some v ∧ z < v ∧ (∀ (j : Nat) (w : α), vs[j]? = some w → w ≤ v) ∧
    (∀ (j : Nat) (w : α), j < c → vs[j]? = some w → w < v)

theorem argmaxLoop_spec {α : Type} [LinearOrder α] : ∀ (vs : List α) (i : Nat) (best : Int) (bv : α),
    (argmaxLoop (fun a b => decide (a < b)) vs i best bv = best ∧ ∀ v ∈ vs, v ≤ bv) ∨
    (∃ c, argmaxLoop (fun a b => decide (a < b)) vs i best bv = ((i + c : Nat) : Int) ∧ FirstMax vs bv c)
  | [], i, best, bv => by left; simp [argmaxLoop]
  | v :: vs, i, best, bv => by
    unfold argmaxLoop
    by_cases h : bv < v
    · simp only [h, decide_true, if_true]
      right
      rcases argmaxLoop_spec vs (i+1) i v with ⟨e, hall⟩ | ⟨c, e, w, hc, hlt, hmax, hfirst⟩
      · refine ⟨0, by rw [e]; simp, v, by simp, h, ?_, by intro j w hj; omega⟩
        intro j w hw
        cases j with
        | zero => simp at hw; rw [hw]
        | succ j => simp at hw; exact hall w (List.mem_of_getElem? hw)
      · refine ⟨c + 1, by rw [e]; congr 1; omega, w, by simpa using hc, lt_trans h hlt, ?_, ?_⟩
        · intro j u hu
          cases j with
          | zero => simp at hu; rw [← hu]; exact le_of_lt hlt
          | succ j => simp at hu; exact hmax j u hu
        · intro j u hj hu
          cases j with
          | zero => simp at hu; rw [← hu]; exact hlt
          | succ j => simp at hu; exact hfirst j u (by omega) hu
    · simp only [h, decide_false]
      rcases argmaxLoop_spec vs (i+1) best bv with ⟨e, hall⟩ | ⟨c, e, w, hc, hlt, hmax, hfirst⟩
      · left
        refine ⟨by simpa using e, ?_⟩
        intro u hu
        rcases List.mem_cons.mp hu with rfl | hu
        · exact not_lt.mp h
        · exact hall u hu
      · right
        refine ⟨c + 1, ?_, w, by simpa using hc, hlt, ?_, ?_⟩
        · rw [if_neg (by simp), e]; congr 1; omega
        · intro j u hu
          cases j with
          | zero => simp at hu; rw [← hu]; exact le_trans (not_lt.mp h) (le_of_lt hlt)
          | succ j => simp at hu; exact hmax j u hu
        · intro j u hj hu
          cases j with
          | zero => simp at hu; rw [← hu]; exact lt_of_le_of_lt (not_lt.mp h) hlt
          | succ j => simp at hu; exact hfirst j u (by omega) hu

/-- Transfer of the arg-max loop along an order-reflecting map. -/
theorem argmaxLoop_map {α β : Type} (lt : α → α → Bool) (lt' : β → β → Bool) (φ : β → α) (P : β → Prop)
    (h : ∀ a b, P a → P b → lt (φ a) (φ b) = lt' a b) :
    ∀ (vs : List β) (i : Nat) (best : Int) (bv : β), (∀ v ∈ vs, P v) → P bv →
      argmaxLoop lt (vs.map φ) i best (φ bv) = argmaxLoop lt' vs i best bv
  | [], i, best, bv, _, _ => rfl
  | v :: vs, i, best, bv, hv, hb => by
    simp only [List.map_cons, argmaxLoop]
    rw [h bv v hb (hv v (by simp))]
    split
    · exact argmaxLoop_map lt lt' φ P h vs _ _ _ (fun u hu => hv u (by simp [hu])) (hv v (by simp))
    · exact argmaxLoop_map lt lt' φ P h vs _ _ _ (fun u hu => hv u (by simp [hu])) hb

/-- Vote counting: `out[c] += 1` for every class in the list. -/
def voteFold (ops : FOps F) (classes : List Nat) (out : List F) : Option (List F) :=
  classes.foldlM (fun o c => addAt ops o c ops.one) out

/-- What is required of the float arithmetic for hard voting with `N` trees: counting up to `N` by adding one and dividing a count
by `N` keeps counts distinguishable.  Exact arithmetic satisfies it (`exact_voteLaws`). -/
structure VoteLaws (ops : FOps F) (N : Nat) (cnt : Nat → F) : Prop where
  zero : cnt 0 = ops.zero
  succ : ∀ k, k < N → ops.add (cnt k) ops.one = cnt (k + 1)
  divZero : ops.div ops.zero (ops.ofInt N) = ops.zero
  mono : ∀ a b, a ≤ N → b ≤ N →
    ops.lt (ops.div (cnt a) (ops.ofInt N)) (ops.div (cnt b) (ops.ofInt N)) = decide (a < b)

theorem voteFold_spec (ops : FOps F) (cnt : Nat → F) (N n : Nat)
    (hsucc : ∀ k, k < N → ops.add (cnt k) ops.one = cnt (k + 1)) :
    ∀ (classes : List Nat) (w : Nat → Nat), (∀ c ∈ classes, c < n) → (∀ c, c < n → w c + classes.count c ≤ N) →
      voteFold ops classes ((List.range n).map (fun c => cnt (w c))) =
        some ((List.range n).map (fun c => cnt (w c + classes.count c)))
  | [], w, _, _ => by simp [voteFold]
  | a :: rest, w, hlt, hN => by
    have ha : a < n := hlt a (by simp)
    have hstep : addAt ops ((List.range n).map (fun c => cnt (w c))) a ops.one =
        some ((List.range n).map (fun c => cnt (if c = a then w c + 1 else w c))) := by
      unfold addAt
      rw [List.getElem?_map, List.getElem?_range ha]
      simp only [Option.map_some]
      congr 1
      apply List.ext_getElem?
      intro j
      rw [List.getElem?_set]
      by_cases hj : a = j
      · subst hj
        simp only [if_true, List.length_map, List.length_range, ha, List.getElem?_map, List.getElem?_range ha, Option.map_some]
        have := hN a ha
        rw [List.count_cons_self] at this
        rw [hsucc _ (by omega)]
      · simp only [hj, if_false, List.getElem?_map]
        by_cases hjn : j < n
        · simp only [List.getElem?_range hjn, Option.map_some, Ne.symm hj, if_false]
        · simp [hjn]
    simp only [voteFold, List.foldlM_cons, hstep, Option.bind_eq_bind, Option.bind_some]
    have ih := voteFold_spec ops cnt N n hsucc rest (fun c => if c = a then w c + 1 else w c)
      (fun c hc => hlt c (by simp [hc])) (by
        intro c hc
        have := hN c hc
        simp only [List.count_cons] at this
        by_cases h : c = a
        · simp [h] at this ⊢; omega
        · have h' : (a == c) = false := by simpa using Ne.symm h
          simp [h] at this ⊢; omega)
    simp only [voteFold] at ih
    rw [ih]
    congr 1
    apply List.map_congr_left
    intro c hc
    congr 1
    rw [List.count_cons]
    by_cases h : c = a
    · simp [h]; omega
    · have h' : (a == c) = false := by simpa using Ne.symm h
      simp [h, h']

theorem voteFold_zero (ops : FOps F) (cnt : Nat → F) (N n : Nat) (classes : List Nat) (h0 : cnt 0 = ops.zero)
    (hsucc : ∀ k, k < N → ops.add (cnt k) ops.one = cnt (k + 1)) (hlt : ∀ c ∈ classes, c < n) (hN : classes.length ≤ N) :
    voteFold ops classes (List.replicate n ops.zero) = some ((List.range n).map (fun c => cnt (classes.count c))) := by
  have := voteFold_spec ops cnt N n hsucc classes (fun _ => 0) hlt (by
    intro c _
    have := List.count_le_length (l := classes) (a := c)
    omega)
  simp only [Nat.zero_add] at this
  rw [← this]
  congr 1
  rw [h0]
  apply List.ext_getElem?
  intro j
  by_cases hj : j < n
  · simp [hj]
  · simp [hj]

theorem forall2_foldlM {α β γ : Type} (f : γ → α → Option γ) (g : γ → β → Option γ) (P : α → β → Prop)
    (h : ∀ s a b, P a b → f s a = g s b) :
    ∀ (l : List α) (l' : List β) (s : γ), List.Forall₂ P l l' → l.foldlM f s = l'.foldlM g s
  | [], [], s, _ => rfl
  | a :: l, b :: l', s, hp => by
    cases hp with
    | cons h1 h2 =>
      simp only [List.foldlM_cons, h s a b h1]
      congr 1
      funext s'
      exact forall2_foldlM f g P h l l' s' h2

/-- `root` evaluates to leaf number `i` -/
def TreeLeaf (m : CModel) (features : List Int) (root : Int) (i : Nat) : Prop := m.tree features root = some (i : Int)

theorem hard_fold (ops : FOps F) (m : CModel) (features : List Int) (idxs : List Nat)
    (h : List.Forall₂ (TreeLeaf m features) m.roots idxs) (out : List F) :
    m.roots.foldlM (hardStep ops m features) out =
      idxs.foldlM (fun o i => (m.leaves[i]?).bind (fun c => addAt ops o c ops.one)) out := by
  apply forall2_foldlM _ _ _ _ _ _ _ h
  intro s a b hab
  unfold TreeLeaf at hab
  simp [hardStep, hab]

theorem soft_fold (ops : FOps F) (m : CModel) (features : List Int) (idxs : List Nat)
    (h : List.Forall₂ (TreeLeaf m features) m.roots idxs) (out : List F) :
    m.roots.foldlM (softStep ops m features) out =
      idxs.foldlM (fun o i => (List.range m.nClasses.toNat).foldlM
        (fun o c => (m.leaves[i * m.nClasses.toNat + c]?).bind
          (fun b => addAt ops o c (ops.div (ops.ofInt b) (ops.ofInt 255)))) o) out := by
  apply forall2_foldlM _ _ _ _ _ _ _ h
  intro s a b hab
  unfold TreeLeaf at hab
  simp [softStep, hab]

theorem hard_fold_classes (ops : FOps F) (leaves : List Nat) (idxs classes : List Nat)
    (h : List.Forall₂ (fun i c => leaves[i]? = some c) idxs classes) (out : List F) :
    idxs.foldlM (fun o i => (leaves[i]?).bind (fun c => addAt ops o c ops.one)) out = voteFold ops classes out := by
  apply forall2_foldlM _ _ _ _ _ _ _ h
  intro s a b hab
  simp [hab]

/-- Adding a row of bytes: `out[c] += leaf[c]/255` for every class. -/
theorem softVote_row (ops : FOps F) (leaves : List Nat) (off n : Nat) (out : List F) (b : Nat → Nat)
    (hlen : out.length = n) (hb : ∀ c, c < n → leaves[off + c]? = some (b c)) (k : Nat) (hk : k ≤ n) :
    (List.range k).foldlM (fun o c => (leaves[off + c]?).bind
        (fun x => addAt ops o c (ops.div (ops.ofInt x) (ops.ofInt 255)))) out =
      some (out.mapIdx (fun c x => if c < k then ops.add x (ops.div (ops.ofInt (b c)) (ops.ofInt 255)) else x)) := by
  induction k with
  | zero =>
    simp only [List.range_zero, List.foldlM_nil, Nat.not_lt_zero, if_false]
    have : (out.mapIdx fun c x => x) = out := by
      apply List.ext_getElem?; intro j; simp
    rw [this]; rfl
  | succ k ih =>
    rw [List.range_succ, List.foldlM_append, ih (by omega)]
    simp only [Option.bind_eq_bind, Option.bind_some, List.foldlM_cons, List.foldlM_nil, hb k (by omega)]
    unfold addAt
    have hk' : k < out.length := by omega
    simp only [List.getElem?_mapIdx, List.getElem?_eq_getElem hk', Option.map_some, Nat.lt_irrefl, if_false]
    simp only [Option.bind_some]
    show some _ = some _
    congr 1
    apply List.ext_getElem?
    intro j
    rw [List.getElem?_set]
    by_cases hj : k = j
    · subst hj
      simp [hk']
    · simp only [hj, if_false, List.getElem?_mapIdx]
      by_cases hjn : j < out.length
      · simp only [List.getElem?_eq_getElem hjn, Option.map_some]
        congr 1
        have : (j < k + 1) ↔ (j < k) := by omega
        simp [this]
      · simp [hjn]

section field
variable {K : Type} [Field K] [LinearOrder K] [IsStrictOrderedRing K]

theorem exact_voteLaws (N : Nat) (hN : 0 < N) : VoteLaws (exactOps K) N (fun k => (k : K)) where
  zero := by simp [exactOps]
  succ := by intro k _; simp [exactOps]
  divZero := by simp [exactOps]
  mono := by
    intro a b _ _
    simp only [exactOps, decide_eq_decide]
    have hpos : (0 : K) < (N : K) := by exact_mod_cast hN
    have e : ((N : Int) : K) = (N : K) := by simp
    rw [e, div_lt_div_iff_of_pos_right hpos]
    exact_mod_cast Iff.rfl

omit [IsStrictOrderedRing K] in
/-- Soft-vote sums in exact arithmetic. -/
theorem soft_sum (leaves : List Nat) (n : Nat) (row : Nat → Nat → Nat) :
    ∀ (idxs : List Nat) (acc : Nat → K), (∀ i ∈ idxs, ∀ c, c < n → leaves[i * n + c]? = some (row i c)) →
      idxs.foldlM (fun o i => (List.range n).foldlM
        (fun o c => (leaves[i * n + c]?).bind
          (fun b => addAt (exactOps K) o c ((exactOps K).div ((exactOps K).ofInt b) ((exactOps K).ofInt 255)))) o)
        ((List.range n).map acc) =
      some ((List.range n).map (fun c => acc c + (idxs.map (fun i => ((row i c : Nat) : K) / 255)).sum))
  | [], acc, _ => by simp
  | i :: idxs, acc, h => by
    have hi := h i (by simp)
    rw [List.foldlM_cons, softVote_row (exactOps K) leaves (i * n) n _ (row i) (by simp) hi n (Nat.le_refl n)]
    simp only [Option.bind_eq_bind, Option.bind_some]
    have e : ((List.range n).map acc).mapIdx (fun c x => if c < n then (exactOps K).add x ((exactOps K).div ((exactOps K).ofInt (row i c)) ((exactOps K).ofInt 255)) else x)
        = (List.range n).map (fun c => acc c + ((row i c : Nat) : K) / 255) := by
      apply List.ext_getElem?
      intro j
      by_cases hj : j < n
      · simp [hj, exactOps]
      · simp [hj]
    rw [e, soft_sum leaves n row idxs _ (fun i' hi' => h i' (by simp [hi']))]
    congr 1
    apply List.map_congr_left
    intro c _
    simp [add_assoc]

end field

end Emlearn.Trees
