/- Correctness of the Quicksort model: invariants of every loop. -/
import Verif.Neighbors.QSort
import Mathlib.Tactic.Push
namespace Emlearn.QSort
variable {α : Type}

/-- `lt` is a strict weak order (specification). -/
structure StrictWeak (lt : α → α → Bool) : Prop where
  asymm : ∀ a b, lt a b = true → lt b a = false
  trans : ∀ a b c, lt b a = false → lt c b = false → lt c a = false

variable {lt : α → α → Bool}

theorem StrictWeak.irrefl (h : StrictWeak lt) (a : α) : lt a a = false := by
  cases e : lt a a with
  | false => rfl
  | true => have := h.asymm a a e; rw [e] at this; exact this

/-- `A'` rearranges the elements of `A` inside `[l, r]` and keeps everything else. -/
def PermIn (l r : Nat) (A A' : Nat → α) : Prop :=
  ∃ σ : Equiv.Perm Nat, (∀ i, i < l ∨ r < i → σ i = i) ∧ ∀ i, A' i = A (σ i)

theorem PermIn.refl (l r : Nat) (A : Nat → α) : PermIn l r A A := ⟨Equiv.refl _, by simp, by simp⟩

theorem PermIn.trans {l r : Nat} {A B C : Nat → α} (h1 : PermIn l r A B) (h2 : PermIn l r B C) : PermIn l r A C := by
  obtain ⟨s, hs, es⟩ := h1
  obtain ⟨t, ht, et⟩ := h2
  refine ⟨t.trans s, ?_, ?_⟩
  · intro i hi; simp [ht i hi, hs i hi]
  · intro i; rw [et, es]; rfl

theorem PermIn.mono {l r l' r' : Nat} {A B : Nat → α} (h : PermIn l r A B) (hl : l' ≤ l) (hr : r ≤ r') : PermIn l' r' A B := by
  obtain ⟨s, hs, es⟩ := h
  exact ⟨s, fun i hi => hs i (by omega), es⟩

theorem PermIn.swap (l r : Nat) (A : Nat → α) (i j : Nat) (hi : l ≤ i ∧ i ≤ r) (hj : l ≤ j ∧ j ≤ r) : PermIn l r A (swap A i j) := by
  refine ⟨Equiv.swap i j, ?_, ?_⟩
  · intro k hk
    apply Equiv.swap_apply_of_ne_of_ne <;> omega
  · intro k
    unfold QSort.swap
    rw [Equiv.swap_apply_def]
    split
    · rfl
    · split <;> rfl

theorem PermIn.outside {l r : Nat} {A B : Nat → α} (h : PermIn l r A B) {i : Nat} (hi : i < l ∨ r < i) : B i = A i := by
  obtain ⟨s, hs, es⟩ := h
  rw [es, hs i hi]

theorem PermIn.inside {l r : Nat} {A B : Nat → α} (h : PermIn l r A B) {i : Nat} (hi : l ≤ i ∧ i ≤ r) : ∃ k, l ≤ k ∧ k ≤ r ∧ B i = A k := by
  obtain ⟨s, hs, es⟩ := h
  refine ⟨s i, ?_, ?_, es i⟩
  · by_contra hc
    have h1 := hs (s i) (by omega)
    have := s.injective h1
    omega
  · by_contra hc
    have h1 := hs (s i) (by omega)
    have := s.injective h1
    omega

/-- Elements `i..j` in order. -/
def SortedIn (lt : α → α → Bool) (l r : Nat) (A : Nat → α) : Prop :=
  ∀ i j, l ≤ i → i < j → j ≤ r → lt (A j) (A i) = false

theorem lessAt_eq {N : Nat} {A : Nat → α} {i j : Nat} (hi : i < N) (hj : j < N) : lessAt lt N A i j = some (lt (A i) (A j)) := if_pos ⟨hi, hj⟩
theorem swapAt_eq {N : Nat} {A : Nat → α} {i j : Nat} (hi : i < N) (hj : j < N) : swapAt N A i j = some (swap A i j) := if_pos ⟨hi, hj⟩

theorem swap_left (A : Nat → α) (i j : Nat) : swap A i j i = A j := by simp [swap]
theorem swap_right (A : Nat → α) (i j : Nat) : swap A i j j = A i := by
  unfold swap; split
  · rename_i h; rw [h]
  · simp
theorem swap_other (A : Nat → α) {i j k : Nat} (h1 : k ≠ i) (h2 : k ≠ j) : swap A i j k = A k := by simp [swap, h1, h2]

theorem sort3_spec (h : StrictWeak lt) {N : Nat} (A : Nat → α) {a b c : Nat} (hab : a < b) (hbc : b < c) (hc : c < N) :
    ∃ A', sort3 lt N A a b c = some A' ∧ PermIn a c A A' ∧ lt (A' b) (A' a) = false ∧ lt (A' c) (A' b) = false := by
  have ha : a < N := by omega
  have hb : b < N := by omega
  unfold sort3
  rw [lessAt_eq hb ha]
  simp only [Option.bind_eq_bind, Option.bind_some]
  cases h1 : lt (A b) (A a) with
  | true =>
    simp only [if_true]
    rw [lessAt_eq hc hb]
    simp only [Option.bind_some]
    cases h2 : lt (A c) (A b) with
    | true =>
      simp only [if_true]
      rw [swapAt_eq ha hc]
      refine ⟨_, rfl, PermIn.swap _ _ _ _ _ (by omega) (by omega), ?_, ?_⟩
      · rw [swap_left, swap_other A (by omega) (by omega)]; exact h.asymm _ _ h2
      · rw [swap_right, swap_other A (by omega) (by omega)]; exact h.asymm _ _ h1
    | false =>
      simp only [Bool.false_eq_true, if_false]
      rw [swapAt_eq ha hb]
      simp only [Option.bind_some]
      rw [lessAt_eq hc hb]
      simp only [Option.bind_some]
      have e1 : swap A a b b = A a := swap_right _ _ _
      have e2 : swap A a b c = A c := swap_other _ (by omega) (by omega)
      have e3 : swap A a b a = A b := swap_left _ _ _
      have p1 := PermIn.swap a c A a b (by omega) (by omega)
      cases h3 : lt (swap A a b c) (swap A a b b) with
      | true =>
        simp only [if_true]
        rw [swapAt_eq hb hc]
        refine ⟨_, rfl, p1.trans (PermIn.swap a c _ b c (by omega) (by omega)), ?_, ?_⟩
        · rw [swap_left, e2, swap_other _ (by omega) (by omega), e3]; exact h2
        · rw [swap_right, swap_left]; exact h.asymm _ _ h3
      | false =>
        simp only [Bool.false_eq_true, if_false]
        exact ⟨_, rfl, p1, by rw [e1, e3]; exact h.asymm _ _ h1, h3⟩
  | false =>
    simp only [Bool.false_eq_true, if_false]
    rw [lessAt_eq hc hb]
    simp only [Option.bind_some]
    cases h2 : lt (A c) (A b) with
    | true =>
      simp only [if_true]
      rw [swapAt_eq hb hc]
      simp only [Option.bind_some]
      rw [lessAt_eq hb ha]
      simp only [Option.bind_some]
      have e1 : swap A b c b = A c := swap_left _ _ _
      have e2 : swap A b c c = A b := swap_right _ _ _
      have e3 : swap A b c a = A a := swap_other _ (by omega) (by omega)
      have p1 := PermIn.swap a c A b c (by omega) (by omega)
      cases h3 : lt (swap A b c b) (swap A b c a) with
      | true =>
        simp only [if_true]
        rw [swapAt_eq ha hb]
        refine ⟨_, rfl, p1.trans (PermIn.swap a c _ a b (by omega) (by omega)), ?_, ?_⟩
        · rw [swap_right, swap_left]; exact h.asymm _ _ h3
        · rw [swap_right, swap_other _ (by omega) (by omega), e2, e3]; exact h1
      | false =>
        simp only [Bool.false_eq_true, if_false]
        exact ⟨_, rfl, p1, h3, by rw [e1, e2]; exact h.asymm _ _ h2⟩
    | false =>
      simp only [Bool.false_eq_true, if_false]
      exact ⟨_, rfl, PermIn.refl _ _ _, h1, h2⟩

theorem scanUp_spec {N : Nat} (A : Nat → α) (l : Nat) (hl : l < N) (fuel i j : Nat) (hij : i < j) (hj : j < N) (hf : j - i ≤ fuel)
    (hstop : lt (A j) (A l) = false) :
    ∃ i', scanUp lt N A l fuel i = some i' ∧ i < i' ∧ i' ≤ j ∧ lt (A i') (A l) = false ∧ ∀ k, i < k → k < i' → lt (A k) (A l) = true := by
  induction fuel generalizing i with
  | zero => omega
  | succ fuel ih =>
    unfold scanUp
    rw [lessAt_eq (by omega) hl]
    simp only [Option.bind_eq_bind, Option.bind_some]
    cases h1 : lt (A (i + 1)) (A l) with
    | false =>
      simp only [Bool.false_eq_true, if_false]
      exact ⟨i + 1, rfl, by omega, by omega, h1, by intro k _ _; omega⟩
    | true =>
      simp only [if_true]
      have hne : i + 1 ≠ j := by rintro rfl; rw [h1] at hstop; cases hstop
      obtain ⟨i', e, p1, p2, p3, p4⟩ := ih (i + 1) (by omega) (by omega)
      refine ⟨i', e, by omega, p2, p3, ?_⟩
      intro k hk1 hk2
      by_cases hk : k = i + 1
      · rw [hk]; exact h1
      · exact p4 k (by omega) hk2

theorem scanDown_spec {N : Nat} (A : Nat → α) (l : Nat) (hl : l < N) (i j : Nat) (hij : i < j) (hj : j ≤ N)
    (hstop : lt (A l) (A i) = false) :
    ∃ j', scanDown lt N A l j = some j' ∧ i ≤ j' ∧ j' < j ∧ lt (A l) (A j') = false ∧ ∀ k, j' < k → k < j → lt (A l) (A k) = true := by
  induction j with
  | zero => omega
  | succ j ih =>
    unfold scanDown
    rw [lessAt_eq hl (by omega)]
    simp only [Option.bind_eq_bind, Option.bind_some]
    cases h1 : lt (A l) (A j) with
    | false =>
      simp only [Bool.false_eq_true, if_false]
      exact ⟨j, rfl, by omega, by omega, h1, by intro k _ _; omega⟩
    | true =>
      simp only [if_true]
      have hne : i ≠ j := by rintro rfl; rw [h1] at hstop; cases hstop
      obtain ⟨j', e, p1, p2, p3, p4⟩ := ih (by omega) (by omega)
      refine ⟨j', e, p1, by omega, p3, ?_⟩
      intro k hk1 hk2
      by_cases hk : k = j
      · rw [hk]; exact h1
      · exact p4 k hk1 (by omega)

theorem partLoop_spec (h : StrictWeak lt) {N : Nat} (l r : Nat) (hr : r < N) (fuel : Nat) (A : Nat → α) (i j : Nat)
    (hli : l < i) (hij : i < j) (hjr : j ≤ r) (hf : j - i ≤ fuel)
    (hlow : ∀ k, l < k → k ≤ i → lt (A l) (A k) = false) (hhigh : ∀ k, j ≤ k → k ≤ r → lt (A k) (A l) = false) :
    ∃ A' q, partLoop lt N l fuel A i j = some (A', q) ∧ PermIn (l + 1) r A A' ∧ l < q ∧ q < r ∧
      (∀ k, l < k → k ≤ q → lt (A' l) (A' k) = false) ∧ (∀ k, q < k → k ≤ r → lt (A' k) (A' l) = false) := by
  induction fuel generalizing A i j with
  | zero => omega
  | succ fuel ih =>
    obtain ⟨i', e1, p1, p2, p3, p4⟩ := scanUp_spec (lt := lt) (N := N) A l (by omega) N i j hij (by omega) (by omega) (hhigh j (by omega) (by omega))
    obtain ⟨j', e2, q1, q2, q3, q4⟩ := scanDown_spec (lt := lt) (N := N) A l (by omega) i j hij (by omega) (hlow i hli (by omega))
    unfold partLoop
    rw [e1]
    simp only [Option.bind_eq_bind, Option.bind_some]
    rw [e2]
    simp only [Option.bind_some]
    by_cases hge : i' ≥ j'
    · rw [if_pos hge]
      refine ⟨A, j', rfl, PermIn.refl _ _ _, by omega, by omega, ?_, ?_⟩
      · intro k hk1 hk2
        by_cases hki : k ≤ i
        · exact hlow k hk1 hki
        · by_cases hkj : k = j'
          · rw [hkj]; exact q3
          · exact h.asymm _ _ (p4 k (by omega) (by omega))
      · intro k hk1 hk2
        by_cases hkj : j ≤ k
        · exact hhigh k hkj hk2
        · exact h.asymm _ _ (q4 k hk1 (by omega))
    · rw [if_neg hge]
      rw [swapAt_eq (show i' < N by omega) (show j' < N by omega)]
      simp only [Option.bind_some]
      have el : swap A i' j' l = A l := swap_other _ (by omega) (by omega)
      obtain ⟨A', q, r1, r2, r3, r4, r5, r6⟩ := ih (swap A i' j') i' j' (by omega) (by omega) (by omega) (by omega)
        (by
          intro k hk1 hk2
          rw [el]
          by_cases hki : k = i'
          · rw [hki, swap_left]; exact q3
          · rw [swap_other _ hki (by omega)]
            by_cases hk3 : k ≤ i
            · exact hlow k hk1 hk3
            · exact h.asymm _ _ (p4 k (by omega) (by omega)))
        (by
          intro k hk1 hk2
          rw [el]
          by_cases hkj : k = j'
          · rw [hkj, swap_right]; exact p3
          · rw [swap_other _ (by omega) hkj]
            by_cases hk3 : j ≤ k
            · exact hhigh k hk3 hk2
            · exact h.asymm _ _ (q4 k (by omega) (by omega)))
      exact ⟨A', q, r1, (PermIn.swap (l + 1) r A i' j' (by omega) (by omega)).trans r2, r3, r4, r5, r6⟩

theorem partition_spec (h : StrictWeak lt) {N : Nat} (A : Nat → α) (l r : Nat) (hr : r < N) (hsz : 16 ≤ r - l + 1) :
    ∃ A' q, partition lt N A l r = some (A', q + 1, q - 1) ∧ PermIn l r A A' ∧ l < q ∧ q < r ∧
      (∀ k, l ≤ k → k < q → lt (A' q) (A' k) = false) ∧ (∀ k, q < k → k ≤ r → lt (A' k) (A' q) = false) := by
  have hm1 : l + 1 < l + (r - l) / 2 := by omega
  have hm2 : l + (r - l) / 2 < r := by omega
  unfold partition
  simp only
  generalize l + (r - l) / 2 = m at hm1 hm2
  obtain ⟨A1, e1, p1, s1, s2⟩ := sort3_spec h A hm1 hm2 hr
  rw [e1]
  simp only [Option.bind_eq_bind, Option.bind_some]
  rw [swapAt_eq (show l < N by omega) (show m < N by omega)]
  simp only [Option.bind_some]
  have el : swap A1 l m l = A1 m := swap_left _ _ _
  obtain ⟨A2, q, e2, p2, q1, q2, l1, l2⟩ := partLoop_spec h l r hr N (swap A1 l m) (l + 1) r (by omega) (by omega) (by omega) (by omega)
    (by
      intro k hk1 hk2
      have : k = l + 1 := by omega
      subst this
      rw [el, swap_other _ (by omega) (by omega)]
      exact s1)
    (by
      intro k hk1 hk2
      have : k = r := by omega
      subst this
      rw [el, swap_other _ (by omega) (by omega)]
      exact s2)
  rw [e2]
  simp only [Option.bind_some]
  rw [swapAt_eq (show l < N by omega) (show q < N by omega)]
  refine ⟨_, q, rfl, ?_, q1, q2, ?_, ?_⟩
  · exact (p1.mono (by omega) (by omega)).trans ((PermIn.swap l r A1 l m (by omega) (by omega)).trans
      ((p2.mono (by omega) (by omega)).trans (PermIn.swap l r A2 l q (by omega) (by omega))))
  · intro k hk1 hk2
    rw [swap_right]
    by_cases hkl : k = l
    · rw [hkl, swap_left]; exact l1 q q1 (by omega)
    · rw [swap_other _ hkl (by omega)]
      exact l1 k (by omega) (by omega)
  · intro k hk1 hk2
    rw [swap_right, swap_other _ (by omega) (by omega)]
    exact l2 k hk1 hk2

theorem insertDown_spec (h : StrictWeak lt) {N : Nat} (l : Nat) (A : Nat → α) (j i : Nat) (hl : l ≤ j) (hji : j ≤ i) (hi : i < N)
    (hs : ∀ x y, l ≤ x → x < y → y ≤ i → y ≠ j → lt (A y) (A x) = false) :
    ∃ A', insertDown lt N l A j = some A' ∧ PermIn l i A A' ∧ SortedIn lt l i A' := by
  induction j generalizing A with
  | zero =>
    refine ⟨A, rfl, PermIn.refl _ _ _, ?_⟩
    intro x y hx hxy hy
    exact hs x y hx hxy hy (by omega)
  | succ j ih =>
    unfold insertDown
    by_cases hgt : j + 1 > l
    · rw [if_pos hgt, lessAt_eq (by omega) (by omega)]
      simp only [Option.bind_eq_bind, Option.bind_some]
      cases h1 : lt (A (j + 1)) (A j) with
      | true =>
        simp only [if_true]
        rw [swapAt_eq (by omega) (by omega)]
        simp only [Option.bind_some]
        obtain ⟨A', e, p, s⟩ := ih (swap A (j + 1) j) (by omega) (by omega) (by
          intro x y hx hxy hy hyj
          by_cases hy1 : y = j + 1
          · subst hy1
            rw [swap_left]
            by_cases hxj : x = j
            · rw [hxj, swap_right]; exact h.asymm _ _ h1
            · rw [swap_other _ (by omega) hxj]
              exact hs x j hx (by omega) (by omega) (by omega)
          · rw [swap_other _ hy1 hyj]
            by_cases hx1 : x = j + 1
            · rw [hx1, swap_left]
              exact hs j y (by omega) (by omega) hy hy1
            · by_cases hx2 : x = j
              · rw [hx2, swap_right]
                exact hs (j + 1) y (by omega) (by omega) hy hy1
              · rw [swap_other _ hx1 hx2]
                exact hs x y hx hxy hy hy1)
        exact ⟨A', e, (PermIn.swap l i A (j + 1) j (by omega) (by omega)).trans p, s⟩
      | false =>
        simp only [Bool.false_eq_true, if_false]
        refine ⟨A, rfl, PermIn.refl _ _ _, ?_⟩
        intro x y hx hxy hy
        by_cases hy1 : y = j + 1
        · subst hy1
          by_cases hxj : x = j
          · rw [hxj]; exact h1
          · exact h.trans _ _ _ (hs x j hx (by omega) (by omega) (by omega)) h1
        · exact hs x y hx hxy hy hy1
    · rw [if_neg hgt]
      refine ⟨A, rfl, PermIn.refl _ _ _, ?_⟩
      intro x y hx hxy hy
      exact hs x y hx hxy hy (by omega)

theorem insertLoop_spec (h : StrictWeak lt) {N : Nat} (l : Nat) (n i : Nat) (A : Nat → α) (hl : l < i) (hi : i + n ≤ N)
    (hs : SortedIn lt l (i - 1) A) :
    ∃ A', insertLoop lt N l n i A = some A' ∧ PermIn l (i + n - 1) A A' ∧ SortedIn lt l (i + n - 1) A' := by
  induction n generalizing i A with
  | zero => exact ⟨A, rfl, PermIn.refl _ _ _, hs⟩
  | succ n ih =>
    obtain ⟨A1, e1, p1, s1⟩ := insertDown_spec h (N := N) l A i i (by omega) (by omega) (by omega) (by
      intro x y hx hxy hy hyi
      exact hs x y hx hxy (by omega))
    unfold insertLoop
    rw [e1]
    simp only [Option.bind_eq_bind, Option.bind_some]
    obtain ⟨A2, e2, p2, s2⟩ := ih (i + 1) A1 (by omega) (by omega) s1
    refine ⟨A2, e2, ?_, ?_⟩
    · rw [show i + (n + 1) - 1 = i + 1 + n - 1 by omega]
      exact (p1.mono (by omega) (by omega)).trans p2
    · rw [show i + (n + 1) - 1 = i + 1 + n - 1 by omega]
      exact s2

theorem insertionSort_spec (h : StrictWeak lt) {N : Nat} (A : Nat → α) (l r : Nat) (hlr : l ≤ r) (hr : r < N) :
    ∃ A', insertionSort lt N A l r = some A' ∧ PermIn l r A A' ∧ SortedIn lt l r A' := by
  obtain ⟨A', e, p, s⟩ := insertLoop_spec h (N := N) l (r - l) (l + 1) A (by omega) (by omega) (by intro x y _ _ _; omega)
  rw [show l + 1 + (r - l) - 1 = r by omega] at p s
  exact ⟨A', e, p, s⟩

/-- What happens after the current range is finished. -/
def popStack (lt : α → α → Bool) (cap N fuel : Nat) (A : Nat → α) : List (Nat × Nat) → Option (Nat → α)
  | [] => some A
  | (l, r) :: st => loop lt cap N fuel A l r st

/-- Both halves sorted around a pivot. -/
theorem sorted_join (h : StrictWeak lt) {A : Nat → α} {l q r : Nat}
    (h1 : SortedIn lt l (q - 1) A) (h2 : SortedIn lt (q + 1) r A)
    (hlow : ∀ k, l ≤ k → k < q → lt (A q) (A k) = false) (hhigh : ∀ k, q < k → k ≤ r → lt (A k) (A q) = false) : SortedIn lt l r A := by
  intro i j hi hij hj
  rcases Nat.lt_trichotomy i q with h3 | h3 | h3
  · rcases Nat.lt_trichotomy j q with h4 | h4 | h4
    · exact h1 i j hi hij (by omega)
    · rw [h4]; exact hlow i hi h3
    · exact h.trans _ _ _ (hlow i hi h3) (hhigh j h4 hj)
  · rw [h3]; exact hhigh j (by omega) hj
  · exact h2 i j (by omega) hij hj

theorem loop_spec (h : StrictWeak lt) (cap N : Nat) (s : Nat) : ∀ (A : Nat → α) (l r : Nat) (st : List (Nat × Nat)), r - l + 1 = s → l ≤ r → r < N →
    s < 16 * 2 ^ (cap - st.length) → st.length ≤ cap →
    ∃ k A', 1 ≤ k ∧ k ≤ s ∧ PermIn l r A A' ∧ SortedIn lt l r A' ∧
      ∀ fuel, loop lt cap N (fuel + k) A l r st = popStack lt cap N fuel A' st := by
  induction s using Nat.strongRecOn with
  | _ s ih =>
    intro A l r st hs hlr hr hcap hst
    by_cases hbig : 16 ≤ s
    · obtain ⟨A1, q, e1, p1, q1, q2, low, high⟩ := partition_spec h A l r hr (by omega)
      -- room for one more frame
      have hroom : st.length < cap := by
        by_contra hc
        have : cap - st.length = 0 := by omega
        rw [this] at hcap; omega
      have hpow : 2 ^ (cap - st.length) = 2 * 2 ^ (cap - (st.length + 1)) := by
        rw [show cap - st.length = (cap - (st.length + 1)) + 1 by omega, Nat.pow_succ]; omega
      -- carry the pivot facts across a rearrangement of one side
      have keep : ∀ {B C : Nat → α}, PermIn l (q - 1) B C ∨ PermIn (q + 1) r B C →
          (∀ k, l ≤ k → k < q → lt (B q) (B k) = false) → (∀ k, q < k → k ≤ r → lt (B k) (B q) = false) →
          (∀ k, l ≤ k → k < q → lt (C q) (C k) = false) ∧ (∀ k, q < k → k ≤ r → lt (C k) (C q) = false) := by
        intro B C hp hl hh
        rcases hp with hp | hp
        · have eq : C q = B q := hp.outside (by omega)
          constructor
          · intro k hk1 hk2
            obtain ⟨k', a1, a2, a3⟩ := hp.inside (i := k) (by omega)
            rw [eq, a3]; exact hl k' a1 (by omega)
          · intro k hk1 hk2
            rw [eq, hp.outside (by omega)]; exact hh k hk1 hk2
        · have eq : C q = B q := hp.outside (by omega)
          constructor
          · intro k hk1 hk2
            rw [eq, hp.outside (by omega)]; exact hl k hk1 hk2
          · intro k hk1 hk2
            obtain ⟨k', a1, a2, a3⟩ := hp.inside (i := k) (by omega)
            rw [eq, a3]; exact hh k' (by omega) a2
      have sortedOut : ∀ {B C : Nat → α} {x y u v : Nat}, PermIn u v B C → SortedIn lt x y B → (∀ i, x ≤ i → i ≤ y → i < u ∨ v < i) → SortedIn lt x y C := by
        intro B C x y u v hp hsB hdis i j hi hij hj
        rw [hp.outside (hdis i hi (by omega)), hp.outside (hdis j (by omega) hj)]
        exact hsB i j hi hij hj
      have step : ∀ fuel, loop lt cap N (fuel + 1) A l r st =
          ((if (q - 1) - l ≥ r - (q + 1) then subfiles cap st l (q - 1) (q + 1) r else subfiles cap st (q + 1) r l (q - 1)).bind
            fun x => loop lt cap N fuel A1 x.1 x.2.1 x.2.2) := by
        intro fuel
        rw [loop, if_pos (by omega), e1]
        rfl
      by_cases hside : (q - 1) - l ≥ r - (q + 1)
      · simp only [if_pos hside] at step
        by_cases hone : q + 1 = r
        · -- right side is one element
          obtain ⟨k, A2, k1, k2, pA, sA, run⟩ := ih (q - 1 - l + 1) (by omega) A1 l (q - 1) st rfl (by omega) (by omega) (by omega) hst
          obtain ⟨low2, high2⟩ := keep (Or.inl pA) low high
          refine ⟨k + 1, A2, by omega, by omega, p1.trans (pA.mono (by omega) (by omega)), ?_, ?_⟩
          · exact sorted_join h sA (by intro x y _ _ _; omega) low2 high2
          · intro fuel
            rw [← Nat.add_assoc, step]
            simp only [subfiles, if_pos hone, Option.bind_some]
            exact run fuel
        · obtain ⟨k, A2, k1, k2, pA, sA, run⟩ := ih (r - (q + 1) + 1) (by omega) A1 (q + 1) r ((l, q - 1) :: st) rfl (by omega) (by omega)
            (by simp only [List.length_cons]; omega) (by simp only [List.length_cons]; omega)
          obtain ⟨low2, high2⟩ := keep (Or.inr pA) low high
          obtain ⟨k', A3, k1', k2', pB, sB, run'⟩ := ih (q - 1 - l + 1) (by omega) A2 l (q - 1) st rfl (by omega) (by omega) (by omega) hst
          obtain ⟨low3, high3⟩ := keep (Or.inl pB) low2 high2
          refine ⟨k' + k + 1, A3, by omega, by omega, (p1.trans (pA.mono (by omega) (by omega))).trans (pB.mono (by omega) (by omega)), ?_, ?_⟩
          · exact sorted_join h sB (sortedOut pB sA (by intro i _ _; omega)) low3 high3
          · intro fuel
            rw [show fuel + (k' + k + 1) = (fuel + k' + k) + 1 by omega, step]
            simp only [subfiles, if_neg hone, if_pos hroom, Option.bind_some]
            rw [run (fuel + k')]
            exact run' fuel
      · simp only [if_neg hside] at step
        by_cases hone : l = q - 1
        · obtain ⟨k, A2, k1, k2, pA, sA, run⟩ := ih (r - (q + 1) + 1) (by omega) A1 (q + 1) r st rfl (by omega) (by omega) (by omega) hst
          obtain ⟨low2, high2⟩ := keep (Or.inr pA) low high
          refine ⟨k + 1, A2, by omega, by omega, p1.trans (pA.mono (by omega) (by omega)), ?_, ?_⟩
          · exact sorted_join h (by intro x y _ _ _; omega) sA low2 high2
          · intro fuel
            rw [← Nat.add_assoc, step]
            simp only [subfiles, if_pos hone, Option.bind_some]
            exact run fuel
        · obtain ⟨k, A2, k1, k2, pA, sA, run⟩ := ih (q - 1 - l + 1) (by omega) A1 l (q - 1) ((q + 1, r) :: st) rfl (by omega) (by omega)
            (by simp only [List.length_cons]; omega) (by simp only [List.length_cons]; omega)
          obtain ⟨low2, high2⟩ := keep (Or.inl pA) low high
          obtain ⟨k', A3, k1', k2', pB, sB, run'⟩ := ih (r - (q + 1) + 1) (by omega) A2 (q + 1) r st rfl (by omega) (by omega) (by omega) hst
          obtain ⟨low3, high3⟩ := keep (Or.inr pB) low2 high2
          refine ⟨k' + k + 1, A3, by omega, by omega, (p1.trans (pA.mono (by omega) (by omega))).trans (pB.mono (by omega) (by omega)), ?_, ?_⟩
          · exact sorted_join h (sortedOut pB sA (by intro i _ _; omega)) sB low3 high3
          · intro fuel
            rw [show fuel + (k' + k + 1) = (fuel + k' + k) + 1 by omega, step]
            simp only [subfiles, if_neg hone, if_pos hroom, Option.bind_some]
            rw [run (fuel + k')]
            exact run' fuel
    · obtain ⟨A1, e1, p1, s1⟩ := insertionSort_spec h A l r hlr hr
      refine ⟨1, A1, by omega, by omega, p1, s1, ?_⟩
      intro fuel
      rw [loop, if_neg (by omega), e1]
      cases st <;> rfl

theorem loop_fuel_mono (cap N : Nat) (fuel : Nat) : ∀ (A : Nat → α) (l r : Nat) (st : List (Nat × Nat)) (A' : Nat → α),
    loop lt cap N fuel A l r st = some A' → loop lt cap N (fuel + 1) A l r st = some A' := by
  induction fuel with
  | zero => intro A l r st A' h; simp [loop] at h
  | succ fuel ih =>
    intro A l r st A' h
    rw [loop] at h ⊢
    split at h
    · rename_i hs
      rw [if_pos hs]
      cases hp : partition lt N A l r with
      | none => simp [hp] at h
      | some x =>
        obtain ⟨A1, i, j⟩ := x
        simp only [hp, Option.bind_eq_bind, Option.bind_some] at h ⊢
        cases hq : (if j - l ≥ r - i then subfiles cap st l j i r else subfiles cap st i r l j) with
        | none => rw [hq] at h; simp at h
        | some y =>
          simp only [hq, Option.bind_some] at h ⊢
          exact ih _ _ _ _ _ h
    · rename_i hs
      rw [if_neg hs]
      cases hp : insertionSort lt N A l r with
      | none => simp [hp] at h
      | some A1 =>
        simp only [hp, Option.bind_eq_bind, Option.bind_some] at h ⊢
        cases st with
        | nil => exact h
        | cons x st' => exact ih _ _ _ _ _ h

theorem qsort_spec (h : StrictWeak lt) (cap N : Nat) (hN : N < 16 * 2 ^ cap) (A : Nat → α) :
    ∃ A', qsort lt cap N A = some A' ∧ PermIn 0 (N - 1) A A' ∧ SortedIn lt 0 (N - 1) A' := by
  unfold qsort
  by_cases h1 : N > 1
  · rw [if_pos h1]
    obtain ⟨k, A', k1, k2, p, s, run⟩ := loop_spec h cap N N A 0 (N - 1) [] (by omega) (by omega) (by omega) (by simpa using hN) (by simp)
    refine ⟨A', ?_, p, s⟩
    have : ∀ d, loop lt cap N (k + d) A 0 (N - 1) [] = some A' := by
      intro d
      induction d with
      | zero => have := run 0; rw [Nat.zero_add] at this; exact this
      | succ d ih => exact loop_fuel_mono cap N _ _ _ _ _ _ ih
    have e := this (N - k)
    rw [show k + (N - k) = N by omega] at e
    exact e
  · rw [if_neg h1]
    exact ⟨A, rfl, PermIn.refl _ _ _, by intro i j _ _ _; omega⟩

end Emlearn.QSort
