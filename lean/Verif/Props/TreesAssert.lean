/- Property C82: the consistency check of flattened forests (`assert_node_references_valid`). -/
import Verif.Trees.Spec
namespace Emlearn.Trees
variable {Θ L : Type}

/-- **C82 (partial: everything except leaf references of right children)** The check passes exactly for the forests in which every decision-node reference (left and right) is an existing node, every leaf reference of a *left* child
is an existing leaf, every node is a root or somebody's child, and every leaf is somebody's child. -/
theorem C82_self_check_partial (nodes : List (Node Θ)) (leaves : List L) (roots : List Nat) :
    refsValid nodes leaves roots = true ↔
      (∀ n ∈ nodes, (0 ≤ n.left → n.left < nodes.length) ∧ (0 ≤ n.right → n.right < nodes.length)) ∧
      (∀ n ∈ nodes, n.left < 0 → -n.left - 1 < leaves.length) ∧
      (∀ q < nodes.length, q ∈ roots ∨ ∃ n ∈ nodes, n.left = (q : Int) ∨ n.right = (q : Int)) ∧
      (∀ k < leaves.length, ∃ n ∈ nodes, n.left = -(k : Int) - 1 ∨ n.right = -(k : Int) - 1) := by
  have e : ∀ (k : Nat), (((nodes.map (·.left)).filter (· < 0)).map (fun c => -c - 1)).contains (k : Int) = true ↔ ∃ n ∈ nodes, n.left = -(k : Int) - 1 := by
    intro k
    simp only [List.contains_iff_mem, List.mem_map, List.mem_filter, decide_eq_true_eq]
    constructor
    · rintro ⟨c, ⟨⟨n, hn, rfl⟩, _⟩, h2⟩; exact ⟨n, hn, by omega⟩
    · rintro ⟨n, hn, h⟩; exact ⟨n.left, ⟨⟨n, hn, rfl⟩, by omega⟩, by omega⟩
  have e' : ∀ (k : Nat), (((nodes.map (·.right)).filter (· < 0)).map (fun c => -c - 1)).contains (k : Int) = true ↔ ∃ n ∈ nodes, n.right = -(k : Int) - 1 := by
    intro k
    simp only [List.contains_iff_mem, List.mem_map, List.mem_filter, decide_eq_true_eq]
    constructor
    · rintro ⟨c, ⟨⟨n, hn, rfl⟩, _⟩, h2⟩; exact ⟨n, hn, by omega⟩
    · rintro ⟨n, hn, h⟩; exact ⟨n.right, ⟨⟨n, hn, rfl⟩, by omega⟩, by omega⟩
  have g : ∀ (k : Nat), ((nodes.map (·.left)).filter (0 ≤ ·)).contains (k : Int) = true ↔ ∃ n ∈ nodes, n.left = (k : Int) := by
    intro k
    simp only [List.contains_iff_mem, List.mem_map, List.mem_filter, decide_eq_true_eq]
    constructor
    · rintro ⟨⟨n, hn, h⟩, _⟩; exact ⟨n, hn, h⟩
    · rintro ⟨n, hn, h⟩; exact ⟨⟨n, hn, h⟩, by omega⟩
  have g' : ∀ (k : Nat), ((nodes.map (·.right)).filter (0 ≤ ·)).contains (k : Int) = true ↔ ∃ n ∈ nodes, n.right = (k : Int) := by
    intro k
    simp only [List.contains_iff_mem, List.mem_map, List.mem_filter, decide_eq_true_eq]
    constructor
    · rintro ⟨⟨n, hn, h⟩, _⟩; exact ⟨n, hn, h⟩
    · rintro ⟨n, hn, h⟩; exact ⟨⟨n, hn, h⟩, by omega⟩
  have l : (((nodes.map (·.left)).filter (0 ≤ ·)).all (fun c => decide (c < (nodes.length : Int)))) = true ↔ ∀ n ∈ nodes, 0 ≤ n.left → n.left < nodes.length := by
    simp only [List.all_eq_true, List.mem_filter, List.mem_map, decide_eq_true_eq]
    constructor
    · intro h n hn h0; exact h n.left ⟨⟨n, hn, rfl⟩, h0⟩
    · rintro h x ⟨⟨n, hn, rfl⟩, h0⟩; exact h n hn h0
  have r : (((nodes.map (·.right)).filter (0 ≤ ·)).all (fun c => decide (c < (nodes.length : Int)))) = true ↔ ∀ n ∈ nodes, 0 ≤ n.right → n.right < nodes.length := by
    simp only [List.all_eq_true, List.mem_filter, List.mem_map, decide_eq_true_eq]
    constructor
    · intro h n hn h0; exact h n.right ⟨⟨n, hn, rfl⟩, h0⟩
    · rintro h x ⟨⟨n, hn, rfl⟩, h0⟩; exact h n hn h0
  have ll : ((((nodes.map (·.left)).filter (· < 0)).map (fun c => -c - 1)).all (fun c => decide (c < (leaves.length : Int)))) ↔ ∀ n ∈ nodes, n.left < 0 → -n.left - 1 < leaves.length := by
    simp only [List.all_eq_true, List.mem_map, List.mem_filter, decide_eq_true_eq]
    constructor
    · intro h n hn h0; exact h _ ⟨n.left, ⟨⟨n, hn, rfl⟩, h0⟩, rfl⟩
    · rintro h x ⟨c, ⟨⟨n, hn, rfl⟩, h0⟩, rfl⟩; exact h n hn h0
  unfold refsValid
  simp only [Bool.and_eq_true]
  rw [l, r, ll]
  simp only [List.all_eq_true, List.mem_range, Bool.or_eq_true, e, e', g, g', List.contains_iff_mem]
  constructor
  · rintro ⟨⟨⟨⟨⟨a, b⟩, c⟩, d⟩, _⟩, f⟩
    refine ⟨fun n hn => ⟨a n hn, b n hn⟩, d, ?_, ?_⟩
    · intro q hq
      rcases c q hq with (⟨n, hn, h⟩ | ⟨n, hn, h⟩) | h
      · exact .inr ⟨n, hn, .inl h⟩
      · exact .inr ⟨n, hn, .inr h⟩
      · exact .inl h
    · intro k hk
      rcases f k hk with ⟨n, hn, h⟩ | ⟨n, hn, h⟩
      · exact ⟨n, hn, .inl h⟩
      · exact ⟨n, hn, .inr h⟩
  · rintro ⟨a, d, c, f⟩
    refine ⟨⟨⟨⟨⟨fun n hn => (a n hn).1, fun n hn => (a n hn).2⟩, ?_⟩, d⟩, d⟩, ?_⟩
    · intro q hq
      rcases c q hq with h | ⟨n, hn, h | h⟩
      · exact .inr h
      · exact .inl (.inl ⟨n, hn, h⟩)
      · exact .inl (.inr ⟨n, hn, h⟩)
    · intro k hk
      rcases f k hk with ⟨n, hn, h | h⟩
      · exact .inl ⟨n, hn, h⟩
      · exact .inr ⟨n, hn, h⟩

/-- **C82 is false as stated**: a right child referring to a leaf that does not exist passes the check (the left references are asserted twice instead); following it finds no leaf. -/
theorem C82_refuted :
    ∃ (f : Forest Int Nat), refsValid f.nodes f.leaves f.roots = true ∧ f.roots = [0] ∧
      ∃ go, forestPredict go f 0 = none :=
  ⟨⟨[⟨0, 0, -1, -5⟩], [0], [7]⟩, by decide, rfl, fun _ _ => false, by decide⟩

/-- Forests that are well-formed pass the check. -/
theorem C82_accepts_valid (f : Forest Θ L) (h : ForestOK f) : refsValid f.nodes f.leaves f.roots = true := by
  rw [C82_self_check_partial]
  refine ⟨?_, ?_, h.nodesUsed, h.leavesUsed⟩
  · intro n hn
    obtain ⟨p, hp⟩ := List.mem_iff_getElem?.1 hn
    have := h.refs p n hp
    exact ⟨fun h0 => (this.1.1 h0).2, fun h0 => (this.2.1 h0).2⟩
  · intro n hn h0
    obtain ⟨p, hp⟩ := List.mem_iff_getElem?.1 hn
    exact (h.refs p n hp).1.2 h0

/-- Both outcomes occur. -/
example : refsValid [(⟨0, 5, -1, 1⟩ : Node Int), ⟨1, 3, -2, -3⟩] [10, 20, 30] [0] = true ∧ refsValid [(⟨0, 5, -1, 2⟩ : Node Int), ⟨1, 3, -2, -3⟩] [10, 20, 30] [0] = false ∧
    refsValid [(⟨0, 5, -1, 1⟩ : Node Int), ⟨1, 3, -2, -2⟩] [10, 20, 30] [0] = false := by decide

end Emlearn.Trees
