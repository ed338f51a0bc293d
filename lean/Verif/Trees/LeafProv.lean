/- Helper lemmas: where the leaf data of a converted forest comes from. -/
import Verif.Trees.ForestLemmas
namespace Emlearn.Trees
variable {Θ V L : Type}

theorem pyGet_mem {α : Type} (l : List α) (i : Int) (x : α) (h : pyGet l i = some x) : x ∈ l := by
  unfold pyGet at h
  split at h
  · exact List.mem_of_getElem? h
  · split at h
    · exact List.mem_of_getElem? h
    · cases h

theorem processChild_leaves (src : List (SrcNode Θ V)) (leafVal : V → L) (leaves : List L) (idx c : Int) (leaves' : List L)
    (h : processChild src leafVal leaves idx = some (c, leaves')) :
    ∀ x ∈ leaves', x ∈ leaves ∨ ∃ row ∈ src, row.isLeaf = true ∧ x = leafVal row.value := by
  unfold processChild at h
  cases hg : pyGet src idx with
  | none => simp [hg] at h
  | some n =>
    simp only [hg, Option.bind_eq_bind, Option.bind_some] at h
    split at h
    · rename_i hl
      simp only [Option.some.injEq, Prod.mk.injEq] at h
      obtain ⟨_, rfl⟩ := h
      intro x hx
      simp only [List.mem_append, List.mem_singleton] at hx
      rcases hx with hx | rfl
      · exact Or.inl hx
      · exact Or.inr ⟨n, pyGet_mem _ _ _ hg, hl, rfl⟩
    · simp only [Option.some.injEq, Prod.mk.injEq] at h
      obtain ⟨_, rfl⟩ := h
      intro x hx; exact Or.inl hx

theorem flattenLoop_leaves (src : List (SrcNode Θ V)) (leafVal : V → L) :
    ∀ (rest : List (SrcNode Θ V)) (k : Nat) (s s' : FState Θ L), flattenLoop src leafVal rest k s = some s' →
      ∀ x ∈ s'.leaves, x ∈ s.leaves ∨ ∃ row ∈ src, row.isLeaf = true ∧ x = leafVal row.value
  | [], k, s, s', h => by
    simp only [flattenLoop, Option.some.injEq] at h
    subst h; intro x hx; exact Or.inl hx
  | nd :: rest, k, s, s', h => by
    unfold flattenLoop at h
    split at h
    · exact flattenLoop_leaves src leafVal rest _ s s' h
    · cases h1 : processChild src leafVal s.leaves nd.left with
      | none => simp [h1] at h
      | some p =>
        obtain ⟨l, lv⟩ := p
        cases h2 : processChild src leafVal lv nd.right with
        | none => simp [h1, h2] at h
        | some q =>
          obtain ⟨r, lv'⟩ := q
          simp only [h1, h2, Option.bind_eq_bind, Option.bind_some] at h
          intro x hx
          rcases flattenLoop_leaves src leafVal rest _ _ s' h x hx with h3 | h3
          · rcases processChild_leaves _ _ _ _ _ _ h2 x h3 with h4 | h4
            · exact processChild_leaves _ _ _ _ _ _ h1 x h4
            · exact Or.inr h4
          · exact Or.inr h3

theorem flattenTree_leaves (zero : Θ) (leafVal : V → L) (src : List (SrcNode Θ V)) (nodes : List (Node Θ)) (leaves : List L)
    (h : flattenTree zero leafVal src = some (nodes, leaves)) :
    ∀ x ∈ leaves, ∃ row ∈ src, row.isLeaf = true ∧ x = leafVal row.value := by
  unfold flattenTree at h
  split at h
  · rename_i nd
    split at h
    · rename_i hlr
      simp only at h
      split at h
      · simp only [Option.some.injEq, Prod.mk.injEq] at h
        obtain ⟨_, rfl⟩ := h
        intro x hx
        simp only [List.mem_singleton] at hx
        exact ⟨nd, by simp, by simp [SrcNode.isLeaf, hlr], hx⟩
      · cases h
    · cases h
  · cases h1 : flattenLoop src leafVal src 0 ⟨[], [], []⟩ with
    | none => simp [h1] at h
    | some s =>
      cases h2 : s.nodes.mapM (remapNode s.mapping) with
      | none => simp [h1, h2] at h
      | some ns =>
        simp only [h1, h2, Option.bind_eq_bind, Option.bind_some] at h
        split at h
        · cases h
        · split at h
          · simp only [Option.some.injEq, Prod.mk.injEq] at h
            obtain ⟨_, rfl⟩ := h
            intro x hx
            rcases flattenLoop_leaves src leafVal _ _ _ _ h1 x hx with h3 | h3
            · simp at h3
            · exact h3
          · cases h

theorem flattenForest_leaves (zero : Θ) (leafVal : V → L) (trees : List (List (SrcNode Θ V))) (f : Forest Θ L)
    (h : flattenForest zero leafVal trees = some f) :
    ∀ x ∈ f.leaves, ∃ src ∈ trees, ∃ row ∈ src, row.isLeaf = true ∧ x = leafVal row.value := by
  have key : ∀ (rest : List (List (SrcNode Θ V))) (g g' : Forest Θ L), rest.foldlM (addTree zero leafVal) g = some g' →
      ∀ x ∈ g'.leaves, x ∈ g.leaves ∨ ∃ src ∈ rest, ∃ row ∈ src, row.isLeaf = true ∧ x = leafVal row.value := by
    intro rest
    induction rest with
    | nil => intro g g' h x hx; simp at h; subst h; exact Or.inl hx
    | cons a rest ih =>
      intro g g' h x hx
      rw [List.foldlM_cons] at h
      cases h1 : addTree zero leafVal g a with
      | none => simp [h1] at h
      | some g1 =>
        simp only [h1, Option.bind_eq_bind, Option.bind_some] at h
        rcases ih g1 g' h x hx with h2 | ⟨s, hs, h2⟩
        · unfold addTree at h1
          cases h3 : flattenTree zero leafVal a with
          | none => simp [h3] at h1
          | some p =>
            obtain ⟨dn, ln⟩ := p
            simp only [h3, Option.bind_eq_bind, Option.bind_some] at h1
            split at h1
            · cases h1
              simp only [List.mem_append] at h2
              rcases h2 with h2 | h2
              · exact Or.inl h2
              · exact Or.inr ⟨a, by simp, flattenTree_leaves _ _ _ _ _ h3 x h2⟩
            · cases h1
        · exact Or.inr ⟨s, by simp [hs], h2⟩
  unfold flattenForest at h
  cases h1 : trees.foldlM (addTree zero leafVal) ⟨[], [], []⟩ with
  | none => simp [h1] at h
  | some g =>
    simp only [h1, Option.bind_eq_bind, Option.bind_some] at h
    split at h
    · cases h
      intro x hx
      rcases key _ _ _ h1 x hx with h2 | h2
      · simp at h2
      · exact h2
    · cases h

theorem uniqueLoop_mem [DecidableEq L] : ∀ (xs u : List L) (m : List Nat), ∀ x ∈ (uniqueLoop xs u m).1, x ∈ u ∨ x ∈ xs
  | [], u, m, x, h => Or.inl h
  | a :: xs, u, m, x, h => by
    unfold uniqueLoop at h
    split at h
    · rcases uniqueLoop_mem xs _ _ x h with h1 | h1
      · simp only [List.mem_append, List.mem_singleton] at h1
        rcases h1 with h1 | rfl
        · exact Or.inl h1
        · exact Or.inr (by simp)
      · exact Or.inr (by simp [h1])
    · rcases uniqueLoop_mem xs _ _ x h with h1 | h1
      · exact Or.inl h1
      · exact Or.inr (by simp [h1])

/-- Every leaf of a converted forest is the leaf data of a leaf row of one of the source trees. -/
theorem convertForest_leaves [DecidableEq L] (zero : Θ) (leafVal : V → L) (trees : List (List (SrcNode Θ V))) (f : Forest Θ L)
    (h : convertForest zero leafVal trees = some f) :
    ∀ x ∈ f.leaves, ∃ src ∈ trees, ∃ row ∈ src, row.isLeaf = true ∧ x = leafVal row.value := by
  unfold convertForest at h
  cases h1 : flattenForest zero leafVal trees with
  | none => simp [h1] at h
  | some g =>
    simp only [h1, Option.bind_eq_bind, Option.bind_some] at h
    unfold removeDuplicateLeaves at h
    have hu := uniqueLoop_mem g.leaves [] []
    generalize uniqueLoop g.leaves [] [] = um at h hu
    obtain ⟨u, m⟩ := um
    simp only at h hu
    split at h
    · cases h
    · split at h
      · cases h
        intro x hx
        rcases hu x hx with h2 | h2
        · simp at h2
        · exact flattenForest_leaves _ _ _ _ h1 x h2
      · cases h

end Emlearn.Trees
