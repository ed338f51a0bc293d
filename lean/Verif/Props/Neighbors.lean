/- Properties C13-C18: sorting, integer square root, distances, nearest neighbours, on-device learning. -/
import Verif.Neighbors.QSortLemmas
import Verif.Neighbors.Model
import Verif.Trees.VoteLemmas
import Mathlib.Tactic.Ring
import Mathlib.Data.List.Nodup
import Mathlib.Tactic.Linarith
import Mathlib.Algebra.BigOperators.Group.List.Basic
namespace Emlearn

namespace QSort
variable {α : Type} {lt : α → α → Bool}

/-- **C13** For every strict weak order, every array of `N < 2^36` elements and a work stack of 32 frames, `QSORT` finishes (within `N` iterations of its main loop), never touches an index outside `0..N-1`, and leaves
a rearrangement of the input (`σ` permutes the positions `0..N-1`) in non-decreasing order. -/
theorem C13_qsort_sorts (h : StrictWeak lt) (N : Nat) (hN : N < 2 ^ 36) (A : Nat → α) :
    ∃ A', qsort lt 32 N A = some A' ∧
      (∃ σ : Equiv.Perm Nat, (∀ i, N ≤ i → σ i = i) ∧ ∀ i, A' i = A (σ i)) ∧
      (∀ i j, i < j → j < N → lt (A' j) (A' i) = false) := by
  obtain ⟨A', e, ⟨σ, h1, h2⟩, s⟩ := qsort_spec h 32 N (by omega) A
  refine ⟨A', e, ?_, fun i j hij hj => s i j (by omega) hij (by omega)⟩
  by_cases h0 : N = 0
  · refine ⟨Equiv.refl _, by simp, ?_⟩
    intro i
    subst h0
    simp only [qsort, Nat.not_lt_zero, gt_iff_lt, if_false] at e
    cases e
    rfl
  · exact ⟨σ, fun i hi => h1 i (by omega), h2⟩

/-- **C14** No run of `QSORT` on fewer than `2^32` elements needs more than 28 of the 32 stack frames (in the model a push onto a full stack array gives no result), and on fewer than
`2^48` elements at most 44 of the 48. -/
theorem C14_stack_never_overflows (h : StrictWeak lt) (N : Nat) (A : Nat → α) :
    (N < 2 ^ 32 → (qsort lt 28 N A).isSome) ∧ (N < 2 ^ 32 → (qsort lt 32 N A).isSome) ∧ (N < 2 ^ 48 → (qsort lt 48 N A).isSome) := by
  refine ⟨?_, ?_, ?_⟩ <;> intro hN
  · obtain ⟨A', e, _⟩ := qsort_spec h 28 N (by omega) A; rw [e]; rfl
  · obtain ⟨A', e, _⟩ := qsort_spec h 32 N (by omega) A; rw [e]; rfl
  · obtain ⟨A', e, _⟩ := qsort_spec h 48 N (by omega) A; rw [e]; rfl

/-- The order used by `eml_neighbors_sort_distances` (by distance; ties undecided) is a strict weak order. -/
theorem distance_strictWeak : StrictWeak (fun (a b : Nat × Int) => decide (a.2 < b.2)) where
  asymm := by intro a b h; simp only [decide_eq_true_eq, decide_eq_false_iff_not] at *; omega
  trans := by intro a b c h1 h2; simp only [decide_eq_false_iff_not] at *; omega

/-- Non-vacuity: a 20-element array (large enough to partition) is sorted. -/
example : ((qsort (fun (a b : Nat) => decide (a < b)) 32 20 (fun i => (i * 7) % 11)).map (fun A => (List.range 20).map A))
    = some [0, 0, 1, 1, 2, 2, 3, 3, 4, 5, 5, 6, 6, 7, 7, 8, 9, 9, 10, 10] := by decide +kernel

/-- The stack bound is not slack by accident: a stack of 0 frames overflows on a 32-element array. -/
example : qsort (fun (a b : Nat) => decide (a < b)) 0 32 (fun i => (i * 7) % 11) = none := by
  have h : ((qsort (fun (a b : Nat) => decide (a < b)) 0 32 (fun i => (i * 7) % 11)).map (fun A => (List.range 32).map A)) = none := by decide +kernel
  simpa using h

end QSort

namespace Neighbors

/-! ### C15, C16 -/

theorem isqrtGrow_spec (x : Int) (hx : x < 2 ^ 30) (fuel k : Nat) (hk : k ≤ 15) (hf : 16 ≤ fuel + k) (h4 : k = 0 ∨ (4 : Int) ^ (k - 1) ≤ x) :
    ∃ n, isqrtGrow x fuel (4 ^ k) = some (4 ^ n) ∧ n ≤ 15 ∧ x < 4 ^ n := by
  induction fuel generalizing k with
  | zero => omega
  | succ fuel ih =>
    unfold isqrtGrow
    by_cases h : (4 : Int) ^ k ≤ x
    · rw [if_pos h]
      have hk15 : k < 15 := by
        by_contra hc
        have : k = 15 := by omega
        subst this
        norm_num at h hx; omega
      have h1 : (4 : Int) ^ k * 4 = 4 ^ (k + 1) := (pow_succ 4 k).symm
      have h2 : (4 : Int) ^ (k + 1) ≤ 4 ^ 15 := pow_le_pow_right₀ (by norm_num) (by omega)
      rw [if_pos (by rw [h1]; norm_num at h2 ⊢; omega), h1]
      exact ih (k + 1) (by omega) (by omega) (Or.inr (by simpa using h))
    · rw [if_neg h]
      exact ⟨k, rfl, hk, by omega⟩

theorem isqrtLoop_spec (X : Int) (fuel k : Nat) (hf : k < fuel) (p : Int) (hp : 0 ≤ p) (hdvd : ∃ R, p = R * 2 ^ k)
    (h1 : p ^ 2 ≤ X) (h2 : X < (p + 2 ^ k) ^ 2) :
    ∃ r, isqrtLoop fuel (X - p ^ 2) (4 ^ k) (p * 2 ^ k) = some r ∧ 0 ≤ r ∧ r ^ 2 ≤ X ∧ X < (r + 1) ^ 2 := by
  induction k generalizing fuel p with
  | zero =>
    obtain ⟨f, rfl⟩ : ∃ f, fuel = f + 1 := ⟨fuel - 1, by omega⟩
    refine ⟨p, ?_, hp, h1, by simpa using h2⟩
    unfold isqrtLoop
    rw [if_neg (by norm_num)]
    norm_num
  | succ k ih =>
    obtain ⟨f, rfl⟩ : ∃ f, fuel = f + 1 := ⟨fuel - 1, by omega⟩
    unfold isqrtLoop
    have hb : (0 : Int) < 2 ^ k := by positivity
    have e4 : (4 : Int) ^ (k + 1) = 4 ^ k * 4 := pow_succ 4 k
    have e2 : (2 : Int) ^ (k + 1) = 2 ^ k * 2 := pow_succ 2 k
    have e42 : (4 : Int) ^ k = (2 ^ k) ^ 2 := by rw [← pow_mul, mul_comm, pow_mul]; norm_num
    have hq : (4 : Int) ^ (k + 1) > 1 := by rw [e4]; have : (1 : Int) ≤ 4 ^ k := one_le_pow₀ (by norm_num); omega
    rw [if_pos hq]
    have q1 : (4 : Int) ^ (k + 1) / 4 = 4 ^ k := by rw [e4]; exact Int.mul_ediv_cancel _ (by norm_num)
    have r1 : p * 2 ^ (k + 1) / 2 = p * 2 ^ k := by rw [e2, ← mul_assoc]; exact Int.mul_ediv_cancel _ (by norm_num)
    simp only [q1, r1]
    have ht : X - p ^ 2 - p * 2 ^ (k + 1) - 4 ^ k = X - (p + 2 ^ k) ^ 2 := by rw [e2, e42]; ring
    rw [ht]
    obtain ⟨R, hR⟩ := hdvd
    by_cases hge : X - (p + 2 ^ k) ^ 2 ≥ 0
    · rw [if_pos hge]
      have hr : p * 2 ^ k + 4 ^ k = (p + 2 ^ k) * 2 ^ k := by rw [e42]; ring
      rw [hr]
      exact ih f (by omega) (p + 2 ^ k) (by omega) ⟨2 * R + 1, by rw [hR, e2]; ring⟩ (by omega) (by rw [e2] at h2; calc X < _ := h2
                                                                                                                    _ = _ := by ring)
    · rw [if_neg hge]
      exact ih f (by omega) p hp ⟨2 * R, by rw [hR, e2]; ring⟩ h1 (by omega)

/-- **C15** For every `0 <= x < 2^30` the integer square root terminates without signed overflow and returns the largest `r` with `r*r <= x`. -/
theorem C15_isqrt_exact (x : Int) (h0 : 0 ≤ x) (hx : x < 2 ^ 30) :
    ∃ r, isqrt x = some r ∧ 0 ≤ r ∧ r ^ 2 ≤ x ∧ x < (r + 1) ^ 2 := by
  obtain ⟨n, e, hn, hlt⟩ := isqrtGrow_spec x hx 17 0 (by omega) (by omega) (Or.inl rfl)
  obtain ⟨r, e2, r0, r1, r2⟩ := isqrtLoop_spec x 17 n (by omega) 0 (le_refl 0) ⟨0, by ring⟩ (by simpa using h0) (by
    have : ((2 : Int) ^ n) ^ 2 = 4 ^ n := by rw [← pow_mul, mul_comm, pow_mul]; norm_num
    rw [zero_add, this]; exact hlt)
  refine ⟨r, ?_, r0, r1, r2⟩
  unfold isqrt
  have e' : isqrtGrow x 17 1 = some (4 ^ n) := by simpa using e
  rw [e']
  simp only [Option.bind_eq_bind, Option.bind_some]
  have e2' : isqrtLoop 17 x (4 ^ n) 0 = some r := by simpa using e2
  exact e2'

/-- The domain in **C15** is maximal: for every `x` from `2^30` to the largest `int32_t` the first loop overflows `int32_t`
(on the usual hardware `q` becomes 0 and the loop never ends). -/
theorem C15_isqrt_domain_sharp (x : Int) (hx : 2 ^ 30 ≤ x) : isqrt x = none := by
  have step : ∀ (k fuel : Nat), k ≤ 15 → isqrtGrow x fuel (4 ^ k) = none := by
    intro k fuel
    induction fuel generalizing k with
    | zero => intro _; rfl
    | succ fuel ih =>
      intro hk
      unfold isqrtGrow
      have h1 : (4 : Int) ^ k ≤ 4 ^ 15 := pow_le_pow_right₀ (by norm_num) hk
      have h2 : (4 : Int) ^ 15 = 2 ^ 30 := by norm_num
      rw [if_pos (by omega)]
      split
      · rename_i h
        have h3 : (4 : Int) ^ k * 4 = 4 ^ (k + 1) := (pow_succ 4 k).symm
        rw [h3]
        apply ih
        by_contra hc
        have : k = 15 := by omega
        subst this
        norm_num at h
      · rfl
  have := step 0 17 (by omega)
  unfold isqrt
  have e : isqrtGrow x 17 1 = none := by simpa using this
  rw [e]; rfl

/-- Sum of squared differences (specification). -/
def squaredDistance (a b : List Int) : Int := ((a.zip b).map (fun p => (p.1 - p.2) ^ 2)).sum

theorem squaredDistance_nonneg (a b : List Int) : 0 ≤ squaredDistance a b := by
  unfold squaredDistance
  apply List.sum_nonneg
  intro x hx
  simp only [List.mem_map] at hx
  obtain ⟨p, _, rfl⟩ := hx
  positivity

theorem sumSquares_spec (n : Nat) : ∀ (a b : List Int) (ret : Nat), n ≤ a.length → n ≤ b.length →
    (ret : Int) + squaredDistance (a.take n) (b.take n) < 1073741824 →
    sumSquares a b n ret = some (ret + (squaredDistance (a.take n) (b.take n)).toNat) := by
  induction n with
  | zero => intro a b ret _ _ _; simp [sumSquares, squaredDistance]
  | succ n ih =>
    intro a b ret ha hb hs
    rcases a with _ | ⟨a, as⟩
    · simp at ha
    rcases b with _ | ⟨b, bs⟩
    · simp at hb
    have e : squaredDistance ((a :: as).take (n + 1)) ((b :: bs).take (n + 1)) = (a - b) * (a - b) + squaredDistance (as.take n) (bs.take n) := by
      simp [squaredDistance, pow_two]
    rw [e] at hs ⊢
    have n1 := squaredDistance_nonneg (as.take n) (bs.take n)
    have n2 : 0 ≤ (a - b) * (a - b) := mul_self_nonneg _
    rw [sumSquares]
    generalize hd : (a - b) * (a - b) = d at *
    rw [if_pos (by omega)]
    have hmod : (ret + d.toNat) % 4294967296 = ret + d.toNat := Nat.mod_eq_of_lt (by omega)
    rw [hmod, ih as bs _ (by simpa using ha) (by simpa using hb) (by push_cast; omega)]
    generalize squaredDistance (as.take n) (bs.take n) = S at *
    have : ret + d.toNat + S.toNat = ret + (d + S).toNat := by omega
    rw [this]

theorem squaredDistance_comm : ∀ (a b : List Int), squaredDistance b a = squaredDistance a b
  | [], b => by cases b <;> simp [squaredDistance]
  | a :: as, [] => by simp [squaredDistance]
  | a :: as, b :: bs => by
    have e : ∀ (x y : Int) (xs ys : List Int), squaredDistance (x :: xs) (y :: ys) = (x - y) ^ 2 + squaredDistance xs ys := by
      intro x y xs ys; simp [squaredDistance]
    rw [e, e, squaredDistance_comm as bs]
    ring

/-- **C16** Whenever the sum of squared differences is below `2^30` the distance of two equally long vectors is computed without overflow, is the floor of
the Euclidean distance, does not depend on the order of the arguments, and is zero exactly when the vectors are equal. -/
theorem C16_distance_exact (a b : List Int) (hlen : a.length = b.length) (hs : squaredDistance a b < 2 ^ 30) :
    ∃ r, distance a b a.length = some r ∧ 0 ≤ r ∧ r ^ 2 ≤ squaredDistance a b ∧ squaredDistance a b < (r + 1) ^ 2 ∧
      distance b a b.length = some r ∧ (r = 0 ↔ a = b) := by
  have key : ∀ (a b : List Int), a.length = b.length → squaredDistance a b < 2 ^ 30 →
      distance a b a.length = isqrt (squaredDistance a b) := by
    intro a b hlen hs
    have h0 := squaredDistance_nonneg a b
    have := sumSquares_spec a.length a b 0 (le_refl _) (by omega) (by rw [List.take_length, hlen, List.take_length]; norm_num at hs ⊢; exact hs)
    unfold distance
    rw [this]
    simp only [Option.bind_eq_bind, Option.bind_some, Nat.zero_add]
    congr 1
    rw [List.take_length, hlen, List.take_length]
    unfold toInt32
    rw [if_pos (by omega)]
    omega
  have hsym := squaredDistance_comm a b
  have h0 := squaredDistance_nonneg a b
  obtain ⟨r, e, r0, r1, r2⟩ := C15_isqrt_exact (squaredDistance a b) h0 hs
  refine ⟨r, by rw [key a b hlen hs, e], r0, r1, r2, by rw [key b a hlen.symm (by rw [hsym]; exact hs), hsym, e], ?_⟩
  constructor
  · rintro rfl
    have hz : squaredDistance a b = 0 := by simp only [zero_add, one_pow] at r2; omega
    clear r1 r2 e r0 hsym hs h0 key
    induction a generalizing b with
    | nil => cases b with
      | nil => rfl
      | cons => simp at hlen
    | cons x xs ih =>
      cases b with
      | nil => simp at hlen
      | cons y ys =>
        have e : squaredDistance (x :: xs) (y :: ys) = (x - y) ^ 2 + squaredDistance xs ys := by simp [squaredDistance]
        rw [e] at hz
        have n1 := squaredDistance_nonneg xs ys
        have n2 : 0 ≤ (x - y) ^ 2 := sq_nonneg _
        have h1 : (x - y) ^ 2 = 0 := by omega
        have h2 : x - y = 0 := by simpa using h1
        rw [ih ys (by simpa using hlen) (by omega), show x = y by omega]
  · rintro rfl
    have hz : squaredDistance a a = 0 := by
      unfold squaredDistance
      apply List.sum_eq_zero
      intro x hx
      simp only [List.mem_map] at hx
      obtain ⟨p, hp, rfl⟩ := hx
      have := List.of_mem_zip hp
      have h3 : p.1 = p.2 := by
        have h4 : ∀ (l : List Int) (p : Int × Int), p ∈ l.zip l → p.1 = p.2 := by
          intro l
          induction l with
          | nil => intro p hp; simp at hp
          | cons x l ih =>
            intro p hp
            simp only [List.zip_cons_cons, List.mem_cons] at hp
            rcases hp with rfl | hp
            · rfl
            · exact ih p hp
        exact h4 a p hp
      rw [h3]; ring
    rw [hz] at r1
    nlinarith

/-- Outside the domain of **C16** the function does not return: two int16 values 32768 apart. -/
theorem C16_domain_sharp : distance [-16384] [16384] 1 = none := by
  have : sumSquares [-16384] [16384] 1 0 = some (2 ^ 30) := by decide
  unfold distance
  rw [this]
  simp only [Option.bind_eq_bind, Option.bind_some]
  have h : toInt32 (2 ^ 30) = 2 ^ 30 := by decide
  rw [h]
  exact C15_isqrt_domain_sharp _ (le_refl _)

example : squaredDistance [3, 0, -5] [0, 4, -5] = 25 ∧ distance [3, 0, -5] [0, 4, -5] 3 = some 5 := by decide

/-! ### C17 -/

theorem voteLoop_spec (labels : List Int) (idxs : List Nat) (votes : Nat → Nat) (hin : ∀ i ∈ idxs, i < labels.length) :
    (∃ i ∈ idxs, ∃ l, labels[i]? = some l ∧ (l < 0 ∨ 10 ≤ l)) ∧ voteLoop labels idxs votes = some (.error .unknownError) ∨
    (∀ i ∈ idxs, ∃ c : Nat, c < 10 ∧ labels[i]? = some (c : Int)) ∧
      voteLoop labels idxs votes = some (.ok (fun c => votes c + (idxs.map (fun i => labels[i]?)).count (some (c : Int)))) := by
  induction idxs generalizing votes with
  | nil => right; simp [voteLoop]
  | cons i rest ih =>
    have hi := hin i (by simp)
    have hget : labels[i]? = some labels[i] := List.getElem?_eq_getElem hi
    unfold voteLoop
    rw [hget]
    simp only
    by_cases hbad : labels[i] < 0 ∨ labels[i] ≥ 10
    · left
      rw [if_pos hbad]
      exact ⟨⟨i, by simp, _, hget, hbad⟩, rfl⟩
    · rw [if_neg hbad]
      rcases ih (fun c => if c = labels[i].toNat then votes c + 1 else votes c) (fun j hj => hin j (by simp [hj])) with ⟨⟨j, hj, l, h1, h2⟩, h3⟩ | ⟨h1, h2⟩
      · left; exact ⟨⟨j, by simp [hj], l, h1, h2⟩, h3⟩
      · right
        refine ⟨?_, ?_⟩
        · intro j hj
          simp only [List.mem_cons] at hj
          rcases hj with rfl | hj
          · exact ⟨labels[j].toNat, by omega, by rw [hget]; congr 1; omega⟩
          · exact h1 j hj
        · rw [h2]
          congr 2
          funext c
          rw [List.map_cons, List.count_cons, hget]
          by_cases hc : c = labels[i].toNat
          · have : some labels[i] = some (c : Int) := by congr 1; omega
            rw [if_pos hc, if_pos (by rw [this]; simp)]; omega
          · have : some labels[i] ≠ some (c : Int) := by
              intro h; simp only [Option.some.injEq] at h; omega
            rw [if_neg hc, if_neg (by simpa using this)]; omega

/-- Number of the listed items that carry label `c` (specification). -/
def labelVotes (labels : List Int) (items : List Nat) (c : Int) : Nat := (items.map (fun i => labels[i]?)).count (some c)

/-- **C17** For every model whose label array covers its items, with `1 <= k <= n_items`, a large enough distance buffer, a feature vector of the model's length, and
distances `dist 0, dist 1, ...` that are all computed without overflow: there is a choice of `k` distinct stored items such that no other item is strictly nearer than a chosen one, and
the prediction is an error exactly when one of those items has a label outside `0..9`, and otherwise the smallest label with the maximal number of votes among them. -/
theorem C17_predict_majority_of_k_nearest (m : Model) (features : List Int) (dist : Nat → Int) (bufLen : Int) (k : Nat)
    (hlab : m.nItems ≤ m.labels.length) (hsize : m.nItems < 2 ^ 32) (hk : m.k = k) (hk1 : 1 ≤ k) (hk2 : k ≤ m.nItems)
    (hbuf : (m.nItems : Int) ≤ bufLen) (hfeat : features.length = m.nFeatures)
    (hdist : ∀ i, i < m.nItems → distance features (m.item i) features.length = some (dist i)) :
    ∃ items : List Nat, items.length = k ∧ items.Nodup ∧ (∀ i ∈ items, i < m.nItems) ∧
      (∀ i ∈ items, ∀ j, j < m.nItems → j ∉ items → dist i ≤ dist j) ∧
      ((∃ i ∈ items, ∃ l, m.labels[i]? = some l ∧ (l < 0 ∨ 10 ≤ l)) ∧ predict m features bufLen = some (.error .unknownError) ∨
       (∀ i ∈ items, ∃ l, m.labels[i]? = some l ∧ 0 ≤ l ∧ l < 10) ∧
        ∃ c : Nat, predict m features bufLen = some (.ok (c : Int)) ∧ c < 10 ∧
          (∀ d : Nat, d < 10 → labelVotes m.labels items d ≤ labelVotes m.labels items c) ∧
          (∀ d : Nat, d < c → labelVotes m.labels items d < labelVotes m.labels items c)) := by
  have hds : inferDistances m features = some ((List.range m.nItems).map dist) := by
    unfold inferDistances
    have : ∀ l : List Nat, (∀ i ∈ l, i < m.nItems) → l.mapM (fun i => distance features (m.item i) features.length) = some (l.map dist) := by
      intro l
      induction l with
      | nil => intro _; rfl
      | cons i l ih =>
        intro hl
        rw [List.mapM_cons, hdist i (hl i (by simp)), ih (fun j hj => hl j (by simp [hj]))]
        rfl
    exact this _ (by simp)
  set D : Nat → Int := fun i => ((List.range m.nItems).map dist).getD i 0 with hD
  have hDi : ∀ i, i < m.nItems → D i = dist i := by
    intro i hi; simp [hD, hi]
  obtain ⟨A', e, ⟨σ, s1, s2⟩, sorted⟩ := QSort.C13_qsort_sorts QSort.distance_strictWeak m.nItems (by omega) (fun i => (i, D i))
  have hσ : ∀ i, i < m.nItems → σ i < m.nItems := by
    intro i hi
    by_contra hc
    have h1 := s1 (σ i) (by omega)
    have := σ.injective h1
    omega
  have hnear : (List.range k).map (fun i => (A' i).1) = (List.range k).map σ := by
    apply List.map_congr_left
    intro i _
    rw [s2]
  refine ⟨(List.range k).map σ, by simp, ?_, ?_, ?_, ?_⟩
  · exact List.Nodup.map σ.injective List.nodup_range
  · intro i hi
    simp only [List.mem_map, List.mem_range] at hi
    obtain ⟨j, hj, rfl⟩ := hi
    exact hσ j (by omega)
  · intro i hi j hj hnot
    simp only [List.mem_map, List.mem_range] at hi
    obtain ⟨a, ha, rfl⟩ := hi
    obtain ⟨b, rfl⟩ := σ.surjective j
    have hb : ¬ b < k := by
      intro hb; apply hnot; simp only [List.mem_map, List.mem_range]; exact ⟨b, hb, rfl⟩
    have hbN : b < m.nItems := by
      by_contra hc
      rw [s1 b (by omega)] at hj
      exact hc hj
    have := sorted a b (by omega) hbN
    rw [s2, s2] at this
    simp only [decide_eq_false_iff_not, not_lt] at this
    rw [hDi _ (hσ a (by omega)), hDi _ hj] at this
    exact this
  · have hpred : predict m features bufLen = findNearest m D m.nItems m.k := by
      unfold predict
      rw [if_neg (by omega), if_neg (by omega), hds]
      rfl
    have hfn : findNearest m D m.nItems m.k = (match voteLoop m.labels ((List.range k).map σ) (fun _ => 0) with
        | none => none
        | some (.error e) => some (.error e)
        | some (.ok votes) => some (.ok (Trees.argmaxLoop (fun a b => decide (a < b)) ((List.range 10).map votes) 0 (-1) 0))) := by
      unfold findNearest
      rw [if_neg (by omega), e, hk]
      simp only [Option.bind_eq_bind, Option.bind_some, Int.toNat_natCast]
      rw [hnear]
      rfl
    rw [hpred, hfn]
    rcases voteLoop_spec m.labels ((List.range k).map σ) (fun _ => 0) (by
      intro i hi
      simp only [List.mem_map, List.mem_range] at hi
      obtain ⟨j, hj, rfl⟩ := hi
      have := hσ j (by omega)
      omega) with ⟨h1, h2⟩ | ⟨h1, h2⟩
    · left
      rw [h2]
      exact ⟨h1, rfl⟩
    · right
      refine ⟨?_, ?_⟩
      · intro i hi
        obtain ⟨c, hc, hl⟩ := h1 i hi
        exact ⟨_, hl, by omega, by omega⟩
      rw [h2]
      simp only [Nat.zero_add]
      have hget : ∀ d : Nat, d < 10 → ((List.range 10).map (fun c : Nat => ((List.range k).map σ |>.map (fun i => m.labels[i]?)).count (some (c : Int))))[d]?
          = some (labelVotes m.labels ((List.range k).map σ) d) := by
        intro d hd; simp [hd, labelVotes]
      rcases Trees.argmaxLoop_spec ((List.range 10).map (fun c : Nat => ((List.range k).map σ |>.map (fun i => m.labels[i]?)).count (some (c : Int)))) 0 (-1) 0
        with ⟨_, hle⟩ | ⟨c, hc, v, hv, hpos, hmax, hfirst⟩
      · exfalso
        obtain ⟨c, hc, hl⟩ := h1 (σ 0) (by simp only [List.mem_map, List.mem_range]; exact ⟨0, by omega, rfl⟩)
        have := hle _ (List.mem_of_getElem? (hget c hc))
        have hpos : 0 < labelVotes m.labels ((List.range k).map σ) c := by
          unfold labelVotes
          apply List.count_pos_iff.mpr
          rw [← hl]
          apply List.mem_map.mpr
          exact ⟨σ 0, by simp only [List.mem_map, List.mem_range]; exact ⟨0, by omega, rfl⟩, rfl⟩
        omega
      · have hc10 : c < 10 := by
          have := (List.getElem?_eq_some_iff.mp hv).1
          simpa using this
        rw [hget c hc10] at hv
        cases hv
        refine ⟨c, ?_, hc10, ?_, ?_⟩
        · rw [hc, Nat.zero_add]
        · intro d hd; exact hmax d _ (hget d hd)
        · intro d hd; exact hfirst d _ hd (hget d (by omega))

/-- **C17** (errors) too many neighbours, a wrong feature count or a too small distance buffer are reported. -/
theorem C17_predict_reports_errors (m : Model) (features : List Int) (bufLen : Int) (ds : List Int)
    (hdist : inferDistances m features = some ds) :
    (bufLen < m.nItems → predict m features bufLen = some (.error .sizeMismatch)) ∧
    (features.length ≠ m.nFeatures → predict m features bufLen = some (.error .sizeMismatch)) ∧
    (m.k > m.nItems → predict m features bufLen = some (.error .sizeMismatch)) := by
  refine ⟨?_, ?_, ?_⟩
  · intro h; unfold predict; rw [if_pos (by omega)]
  · intro h; unfold predict
    split
    · rfl
    · rfl
  · intro h; unfold predict
    split
    · rfl
    · split
      · rfl
      · rw [hdist]
        simp only [Option.bind_eq_bind, Option.bind_some]
        unfold findNearest
        rw [if_pos (by omega)]

/-- Non-vacuity: five stored items, `k = 3`. -/
example : predict ⟨2, 5, 6, [0,0, 10,0, 0,1, 9,9, 1,0, 7,7], [1, 2, 1, 3, 2, 0], 3⟩ [0, 0] 5 = some (.ok 1) ∧
    predict ⟨2, 5, 6, [0,0, 10,0, 0,1, 9,9, 1,0, 7,7], [1, 2, 1, 3, 12, 0], 3⟩ [0, 0] 5 = some (.error .unknownError) := by decide +kernel

/-! ### C18 -/

/-- Specification: a bounded append-only list of labelled items. -/
def specAdd (nFeatures maxItems : Nat) (items : List (List Int × Int)) (call : List Int × Int) : List (List Int × Int) × EmlError :=
  if call.1.length = nFeatures ∧ items.length < maxItems then (items ++ [call], .ok) else (items, .sizeMismatch)

/-- Running a history of calls on the specification, collecting the return codes. -/
def specRun (nFeatures maxItems : Nat) : List (List Int × Int) → List (List Int × Int) → List (List Int × Int) × List EmlError
  | items, [] => (items, [])
  | items, c :: cs =>
    let (items, e) := specAdd nFeatures maxItems items c
    let (items, es) := specRun nFeatures maxItems items cs
    (items, e :: es)

/-- Running a history of `eml_neighbors_add_item` calls. -/
def addAll : Model → List (List Int × Int) → Option (Model × List EmlError)
  | m, [] => some (m, [])
  | m, c :: cs => do
    let (m, e) ← addItem m c.1 c.2
    let (m, es) ← addAll m cs
    some (m, e :: es)

/-- The model holds exactly `items`; the arrays keep their size, and everything behind the stored items is as in `m0`. -/
structure Holds (m0 m : Model) (items : List (List Int × Int)) : Prop where
  n : m.nItems = items.length
  le : items.length ≤ m.maxItems
  same : m.nFeatures = m0.nFeatures ∧ m.maxItems = m0.maxItems ∧ m.k = m0.k
  lens : ∀ it ∈ items, it.1.length = m.nFeatures
  data : m.data = (items.map Prod.fst).flatten ++ m0.data.drop (m0.nFeatures * items.length)
  labels : m.labels = items.map Prod.snd ++ m0.labels.drop items.length

theorem flatten_length (items : List (List Int × Int)) (n : Nat) (h : ∀ it ∈ items, it.1.length = n) :
    ((items.map Prod.fst).flatten).length = n * items.length := by
  induction items with
  | nil => simp
  | cons a l ih =>
    simp only [List.map_cons, List.flatten_cons, List.length_append, List.length_cons]
    rw [ih (fun it hit => h it (by simp [hit])), h a (by simp), Nat.mul_succ]
    omega

theorem writeSlice_after (pre rest vals : List Int) (h : vals.length ≤ rest.length) :
    writeSlice (pre ++ rest) pre.length vals = some (pre ++ vals ++ rest.drop vals.length) := by
  unfold writeSlice
  rw [if_pos (by simp; exact h)]
  simp

theorem addItem_refines (m0 m : Model) (items : List (List Int × Int)) (call : List Int × Int)
    (hd : m0.nFeatures * m0.maxItems ≤ m0.data.length) (hl : m0.maxItems ≤ m0.labels.length) (h : Holds m0 m items) :
    ∃ m', addItem m call.1 call.2 = some (m', (specAdd m0.nFeatures m0.maxItems items call).2) ∧
      Holds m0 m' (specAdd m0.nFeatures m0.maxItems items call).1 := by
  obtain ⟨hn, hle, ⟨hf, hmx, hk⟩, hlens, hdata, hlabels⟩ := h
  unfold addItem specAdd
  by_cases h1 : call.1.length = m0.nFeatures
  · by_cases h2 : items.length < m0.maxItems
    · rw [if_neg (by omega), if_neg (by omega), if_pos ⟨h1, h2⟩]
      have hmul : m0.nFeatures * items.length + m0.nFeatures ≤ m0.nFeatures * m0.maxItems := by
        rw [← Nat.mul_succ]; exact Nat.mul_le_mul_left _ h2
      have e1 : writeSlice m.data (m.nFeatures * m.nItems) call.1
          = some ((items.map Prod.fst).flatten ++ call.1 ++ (m0.data.drop (m0.nFeatures * items.length)).drop call.1.length) := by
        rw [hdata, hn, ← flatten_length items m.nFeatures hlens]
        apply writeSlice_after
        simp only [List.length_drop]
        omega
      have e2 : writeSlice m.labels m.nItems [call.2] = some (items.map Prod.snd ++ [call.2] ++ (m0.labels.drop items.length).drop 1) := by
        rw [hlabels, hn]
        have := writeSlice_after (items.map Prod.snd) (m0.labels.drop items.length) [call.2] (by simp; omega)
        simpa using this
      rw [e1]
      simp only [Option.bind_eq_bind, Option.bind_some]
      rw [e2]
      refine ⟨_, rfl, ?_⟩
      constructor
      · simp [hn]
      · simp only [List.length_append, List.length_singleton]; omega
      · exact ⟨hf, hmx, hk⟩
      · intro it hit
        simp only [List.mem_append, List.mem_singleton] at hit
        rcases hit with hit | rfl
        · exact hlens it hit
        · simp only; omega
      · simp only [List.map_append, List.map_cons, List.map_nil, List.flatten_append, List.flatten_cons, List.flatten_nil, List.append_nil,
          List.length_append, List.length_singleton, List.drop_drop, h1, Nat.mul_succ]
      · simp [List.drop_drop]
    · rw [if_neg (by omega), if_pos (by omega), if_neg (by omega)]
      exact ⟨m, rfl, ⟨hn, hle, ⟨hf, hmx, hk⟩, hlens, hdata, hlabels⟩⟩
  · rw [if_pos (by omega), if_neg (by omega)]
    exact ⟨m, rfl, ⟨hn, hle, ⟨hf, hmx, hk⟩, hlens, hdata, hlabels⟩⟩

/-- **C18** For every empty model with large enough arrays and every history of `add_item` calls: all calls return the codes of a bounded append-only list, no write leaves the arrays, and afterwards the model
holds exactly the accepted items with their labels, in order (`item i` starts with the values of the `i`-th accepted item, `labels[i]` is its label), and array cells behind the stored items are unchanged. -/
theorem C18_add_item_history (m0 : Model) (h0 : m0.nItems = 0) (hd : m0.nFeatures * m0.maxItems ≤ m0.data.length)
    (hl : m0.maxItems ≤ m0.labels.length) (calls : List (List Int × Int)) :
    ∃ m, addAll m0 calls = some (m, (specRun m0.nFeatures m0.maxItems [] calls).2) ∧
      let items := (specRun m0.nFeatures m0.maxItems [] calls).1
      m.nItems = items.length ∧ items.length ≤ m0.maxItems ∧ m.nFeatures = m0.nFeatures ∧ m.maxItems = m0.maxItems ∧ m.k = m0.k ∧
      (∀ (i : Nat) (it : List Int × Int), items[i]? = some it → (m.item i).take m0.nFeatures = it.1 ∧ m.labels[i]? = some it.2) ∧
      m.data.drop (m0.nFeatures * items.length) = m0.data.drop (m0.nFeatures * items.length) ∧
      m.labels.drop items.length = m0.labels.drop items.length ∧
      m.data.length = m0.data.length ∧ m.labels.length = m0.labels.length := by
  have run : ∀ (cs : List (List Int × Int)) (m : Model) (items : List (List Int × Int)), Holds m0 m items →
      ∃ m', addAll m cs = some (m', (specRun m0.nFeatures m0.maxItems items cs).2) ∧ Holds m0 m' (specRun m0.nFeatures m0.maxItems items cs).1 := by
    intro cs
    induction cs with
    | nil => intro m items h; exact ⟨m, rfl, h⟩
    | cons c cs ih =>
      intro m items h
      obtain ⟨m1, e1, h1⟩ := addItem_refines m0 m items c hd hl h
      obtain ⟨m2, e2, h2⟩ := ih m1 _ h1
      refine ⟨m2, ?_, h2⟩
      unfold addAll
      rw [e1]
      simp only [Option.bind_eq_bind, Option.bind_some]
      rw [e2]
      rfl
  obtain ⟨m, e, hm⟩ := run calls m0 [] ⟨by simp [h0], by simp, ⟨rfl, rfl, rfl⟩, by simp, by simp, by simp⟩
  refine ⟨m, e, ?_⟩
  generalize (specRun m0.nFeatures m0.maxItems [] calls).1 = items at hm
  obtain ⟨hn, hle, ⟨hf, hmx, hk⟩, hlens, hdata, hlabels⟩ := hm
  rw [hf] at hlens
  have hfl := flatten_length items m0.nFeatures hlens
  have hmul : m0.nFeatures * items.length ≤ m0.nFeatures * m0.maxItems := Nat.mul_le_mul_left _ (by omega)
  refine ⟨hn, by omega, hf, hmx, hk, ?_, ?_, ?_, ?_, ?_⟩
  · intro i it hi
    have hilt := (List.getElem?_eq_some_iff.mp hi).1
    constructor
    · unfold Model.item
      rw [hf, hdata]
      clear hdata hlabels hn hle hfl hmul run e
      induction items generalizing i with
      | nil => simp at hi
      | cons a l ih =>
        have ha := hlens a (by simp)
        simp only [List.map_cons, List.flatten_cons, List.append_assoc]
        cases i with
        | zero =>
          simp only [List.getElem?_cons_zero, Option.some.injEq] at hi
          subst hi
          rw [Nat.mul_zero, List.drop_zero, List.take_append_of_le_length (by omega), List.take_of_length_le (by omega)]
        | succ i =>
          rw [List.drop_append, List.drop_of_length_le (by rw [ha, Nat.mul_succ]; omega), List.nil_append,
            show m0.nFeatures * (i + 1) - a.1.length = m0.nFeatures * i by rw [ha, Nat.mul_succ]; omega]
          have := ih (fun it hit => hlens it (by simp [hit])) i (by simpa using hi) (by simpa using hilt)
          rw [List.drop_append, List.take_append_of_le_length] at this ⊢
          · exact this
          · rw [List.length_drop, flatten_length l m0.nFeatures (fun it hit => hlens it (by simp [hit]))]
            have : m0.nFeatures * i + m0.nFeatures ≤ m0.nFeatures * l.length := by
              rw [← Nat.mul_succ]; exact Nat.mul_le_mul_left _ (by simp only [List.length_cons] at hilt; omega)
            omega
          · rw [List.length_drop, flatten_length l m0.nFeatures (fun it hit => hlens it (by simp [hit]))]
            have : m0.nFeatures * i + m0.nFeatures ≤ m0.nFeatures * l.length := by
              rw [← Nat.mul_succ]; exact Nat.mul_le_mul_left _ (by simp only [List.length_cons] at hilt; omega)
            omega
    · rw [hlabels, List.getElem?_append_left (by simpa using hilt), List.getElem?_map, hi]
      rfl
  · rw [hdata, List.drop_append, List.drop_of_length_le (by omega), hfl]
    simp
  · rw [hlabels, List.drop_append]
    simp
  · rw [hdata, List.length_append, hfl, List.length_drop]; omega
  · rw [hlabels, List.length_append, List.length_map, List.length_drop]; omega

/-- Non-vacuity: three accepted items, one wrong length, one too many. -/
example : addAll ⟨2, 0, 3, [9,9,9,9,9,9,9], [8,8,8,8], 1⟩ [([1,2], 5), ([3], 6), ([3,4], 6), ([5,6], 7), ([7,8], 9)]
    = some (⟨2, 3, 3, [1,2,3,4,5,6,9], [5,6,7,8], 1⟩, [.ok, .sizeMismatch, .ok, .ok, .sizeMismatch]) := by decide +kernel

end Neighbors
end Emlearn
