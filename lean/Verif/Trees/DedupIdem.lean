/- Helper lemmas: removing duplicate leaves twice changes nothing. -/
import Verif.Trees.ForestLemmas
namespace Emlearn.Trees
variable {Θ L : Type}

theorem findIndex_of_not_mem [DecidableEq L] (u : List L) (x : L) (h : x ∉ u) : findIndex u x = none := by
  cases hf : findIndex u x with
  | none => rfl
  | some j => exact absurd (List.mem_of_getElem? (findIndex_some u x j hf)) h

theorem uniqueLoop_nodup [DecidableEq L] : ∀ (xs u : List L), (u ++ xs).Nodup →
    uniqueLoop xs u (List.range u.length) = (u ++ xs, List.range (u ++ xs).length)
  | [], u, _ => by simp [uniqueLoop]
  | x :: xs, u, h => by
    have hx : x ∉ u := by
      rw [List.nodup_append] at h
      intro hm
      exact h.2.2 x hm x (by simp) rfl
    unfold uniqueLoop
    rw [findIndex_of_not_mem u x hx]
    simp only
    have := uniqueLoop_nodup xs (u ++ [x]) (by simpa using h)
    rw [List.length_append, List.length_singleton, List.range_succ] at this
    rw [this]; simp

theorem dedup_nodup [DecidableEq L] (f : Forest Θ L) (h : ForestOK f) (hne : f.nodes ≠ []) (hn : f.leaves.Nodup) :
    removeDuplicateLeaves f = some f := by
  have e := uniqueLoop_nodup f.leaves [] (by simpa using hn)
  simp only [List.length_nil, List.range_zero, List.nil_append] at e
  have hid : ∀ c : Int, remapLeaf (List.range f.leaves.length) c = c := by
    intro c
    unfold remapLeaf
    split
    · rename_i hneg
      split
      · rename_i j hj
        have := List.getElem?_eq_some_iff.mp hj
        obtain ⟨h1, h2⟩ := this
        simp only [List.getElem_range] at h2
        omega
      · rfl
    · rfl
  have hmap : f.nodes.map (fun n => { n with left := remapLeaf (List.range f.leaves.length) n.left,
                                             right := remapLeaf (List.range f.leaves.length) n.right }) = f.nodes := by
    have : (fun n : Node Θ => { n with left := remapLeaf (List.range f.leaves.length) n.left,
                                       right := remapLeaf (List.range f.leaves.length) n.right }) = id := by
      funext n; simp [hid]
    rw [this]; simp
  have hv := refsValid_of_ok f h
  simp only [removeDuplicateLeaves, e]
  rw [if_neg (by simpa using hne), hmap, if_pos hv]

end Emlearn.Trees
