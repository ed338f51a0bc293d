/- Helper lemmas: `flatten_forest` and `remove_duplicate_leaves`. -/
import Verif.Trees.FlattenTree
namespace Emlearn.Trees
variable {Θ V L : Type}

/-- Walking only depends on node references staying valid: shifted copy inside a larger table. -/
theorem walk_offset (go : Int → Θ → Bool) (pre post dn : List (Node Θ)) (dl : Nat) :
    ∀ (fuel : Nat) (c : Int), c < dn.length →
      (∀ n ∈ dn, n.left < dn.length ∧ n.right < dn.length) →
      walk go (pre ++ dn.map (offsetNode pre.length dl) ++ post) fuel (offsetChild pre.length dl c)
        = (walk go dn fuel c).map (· + dl)
  | 0, c, hc, hr => by
    unfold walk offsetChild
    by_cases h : 0 ≤ c
    · simp only [h, if_true]
      rw [if_neg (by omega), if_neg (by omega)]; rfl
    · simp only [h, if_false]
      rw [if_pos (by omega), if_pos (by omega)]
      simp; omega
  | fuel+1, c, hc, hr => by
    unfold walk
    by_cases h : 0 ≤ c
    · have e : offsetChild pre.length dl c = c + pre.length := by simp [offsetChild, h]
      rw [e, if_neg (by omega), if_neg (by omega)]
      have hlt : c.toNat < dn.length := by omega
      have e2 : (pre ++ dn.map (offsetNode pre.length dl) ++ post)[(c + pre.length).toNat]?
          = some (offsetNode pre.length dl dn[c.toNat]) := by
        rw [List.append_assoc, List.getElem?_append_right (by omega)]
        rw [List.getElem?_append_left (by simp; omega)]
        have : (c + pre.length).toNat - pre.length = c.toNat := by omega
        simp [this, hlt]
      rw [e2, List.getElem?_eq_getElem hlt]
      simp only [offsetNode]
      have hmem := hr _ (List.getElem_mem hlt)
      by_cases hg : go (dn[c.toNat]).feature (dn[c.toNat]).threshold
      · simp only [hg, if_true]
        exact walk_offset go pre post dn dl fuel _ hmem.1 hr
      · simp only [hg]
        exact walk_offset go pre post dn dl fuel _ hmem.2 hr
    · have e : offsetChild pre.length dl c = c - dl := by simp [offsetChild, h]
      rw [e, if_pos (by omega), if_pos (by omega)]
      simp; omega

/-- Walking in a forward-referencing forest terminates within the number of remaining nodes. -/
theorem walk_total (go : Int → Θ → Bool) {f : Forest Θ L} (h : ForestOK f) :
    ∀ (fuel p : Nat), p < f.nodes.length → f.nodes.length - p ≤ fuel →
      ∃ m, walk go f.nodes fuel (p : Int) = some m ∧ m < f.leaves.length
  | 0, p, hp, hf => by omega
  | fuel+1, p, hp, hf => by
    unfold walk
    rw [if_neg (by omega)]
    simp only [Int.toNat_natCast, List.getElem?_eq_getElem hp]
    have href := h.refs p _ (List.getElem?_eq_getElem hp)
    have key : ∀ c, RefOK f.nodes.length f.leaves.length p c → ∃ m, walk go f.nodes fuel c = some m ∧ m < f.leaves.length := by
      intro c hc
      by_cases h0 : 0 ≤ c
      · have := hc.1 h0
        obtain ⟨m, hm⟩ := walk_total go h fuel c.toNat (by omega) (by omega)
        rw [show ((c.toNat : Nat) : Int) = c by omega] at hm
        exact ⟨m, hm⟩
      · have := hc.2 (by omega)
        refine ⟨(-c - 1).toNat, ?_, by omega⟩
        apply walk_mono go f.nodes 0 _ _ _ (by omega)
        simp [walk, show c < 0 by omega]
    split
    · exact key _ href.1
    · exact key _ href.2

/-- What the loop of `flatten_forest` maintains. -/
structure ForestInv (zero : Θ) (leafVal : V → L) (trees : List (List (SrcNode Θ V))) (f : Forest Θ L) : Prop where
  ok : ForestOK f
  rootsLen : f.roots.length = trees.length
  sim : ∀ (go : Int → Θ → Bool) (k : Nat) (src : List (SrcNode Θ V)), trees[k]? = some src →
    ∃ r m v, f.roots[k]? = some r ∧ walk go f.nodes f.nodes.length (r : Int) = some m ∧
      f.leaves[m]? = some (leafVal v) ∧ srcPredict go src = some v
  nodesLen : f.nodes.length = (trees.map (fun src => if src.length = 1 then 1 else src.countP (fun n => !n.isLeaf))).sum
  leavesLen : f.leaves.length = (trees.map (fun src => src.countP (fun n => n.isLeaf))).sum
  prov : ∀ nd ∈ f.nodes, (∃ src ∈ trees, ∃ row ∈ src, row.isLeaf = false ∧ nd.feature = row.feature ∧ nd.threshold = row.threshold) ∨
    (nd.feature = 0 ∧ nd.threshold = zero)

theorem addTree_spec (zero : Θ) (leafVal : V → L) (trees : List (List (SrcNode Θ V))) (f : Forest Θ L)
    (inv : ForestInv zero leafVal trees f) (src : List (SrcNode Θ V)) (h : SrcWF src) :
    ∃ f', addTree zero leafVal f src = some f' ∧ ForestInv zero leafVal (trees ++ [src]) f' := by
  obtain ⟨dn, ln, hft, tok⟩ := flattenTree_ok zero leafVal src h
  have hdn0 : 0 < dn.length := by
    have := tok.ok.roots 0 (by simp); simpa using this
  have hrefs : ∀ n ∈ dn, n.left < dn.length ∧ n.right < dn.length := by
    intro n hn
    obtain ⟨p, hp⟩ := List.mem_iff_getElem?.mp hn
    have ⟨a, b⟩ := tok.ok.refs p n hp
    simp only at a b
    unfold RefOK at a b
    omega
  let f' : Forest Θ L :=
    { nodes := f.nodes ++ dn.map (offsetNode f.nodes.length f.leaves.length)
      roots := f.roots ++ [f.nodes.length]
      leaves := f.leaves ++ ln }
  have hlen' : f'.nodes.length = f.nodes.length + dn.length := by simp [f']
  have hllen' : f'.leaves.length = f.leaves.length + ln.length := by simp [f']
  have hok : ForestOK f' := by
    constructor
    · intro p n hp
      rw [hlen', hllen']
      by_cases hlt : p < f.nodes.length
      · have : f.nodes[p]? = some n := by
          simp only [f'] at hp
          rwa [List.getElem?_append_left hlt] at hp
        have ⟨a, b⟩ := inv.ok.refs p n this
        unfold RefOK at a b ⊢
        omega
      · simp only [f'] at hp
        rw [List.getElem?_append_right (by omega), List.getElem?_map] at hp
        obtain ⟨n0, hn0, rfl⟩ := Option.map_eq_some_iff.mp hp
        have ⟨a, b⟩ := tok.ok.refs _ n0 hn0
        simp only at a b
        unfold RefOK at a b ⊢
        simp only [offsetNode, offsetChild]
        have hr := hrefs n0 (List.mem_of_getElem? hn0)
        constructor <;> split <;> omega
    · intro r hr
      simp only [f', List.mem_append, List.mem_singleton] at hr
      rw [hlen']
      rcases hr with hr | hr
      · have := inv.ok.roots r hr; omega
      · omega
    · intro q hq
      rw [hlen'] at hq
      by_cases hlt : q < f.nodes.length
      · rcases inv.ok.nodesUsed q hlt with hr | ⟨n, hn, hu⟩
        · left; simp [f', hr]
        · right; exact ⟨n, by simp [f', hn], hu⟩
      · rcases tok.ok.nodesUsed (q - f.nodes.length) (by simp only; omega) with hr | ⟨n, hn, hu⟩
        · left; simp at hr; simp [f']; right; omega
        · right
          refine ⟨offsetNode f.nodes.length f.leaves.length n, ?_, ?_⟩
          · simp only [f', List.mem_append, List.mem_map]; right; exact ⟨n, hn, rfl⟩
          · simp only [offsetNode, offsetChild]
            rcases hu with hu | hu
            · left; rw [if_pos (by omega)]; omega
            · right; rw [if_pos (by omega)]; omega
    · intro m hm
      rw [hllen'] at hm
      by_cases hlt : m < f.leaves.length
      · obtain ⟨n, hn, hu⟩ := inv.ok.leavesUsed m hlt
        exact ⟨n, by simp [f', hn], hu⟩
      · obtain ⟨n, hn, hu⟩ := tok.ok.leavesUsed (m - f.leaves.length) (by simp only; omega)
        refine ⟨offsetNode f.nodes.length f.leaves.length n, ?_, ?_⟩
        · simp only [f', List.mem_append, List.mem_map]; right; exact ⟨n, hn, rfl⟩
        · simp only [offsetNode, offsetChild]
          rcases hu with hu | hu
          · left; rw [if_neg (by omega)]; omega
          · right; rw [if_neg (by omega)]; omega
  refine ⟨f', ?_, ?_⟩
  · have := refsValid_of_ok f' hok
    simp only [f'] at this
    simp [addTree, hft, this, f']
  · refine ⟨hok, ?_, ?_, ?_, ?_, ?_⟩
    · simp [f', inv.rootsLen]
    · intro go k s hk
      by_cases hlt : k < trees.length
      · rw [List.getElem?_append_left hlt] at hk
        obtain ⟨r, m, v, h1, h2, h3, h4⟩ := inv.sim go k s hk
        refine ⟨r, m, v, ?_, ?_, ?_, h4⟩
        · simp only [f']; rw [List.getElem?_append_left (by rw [inv.rootsLen]; exact hlt)]; exact h1
        · -- old walk in extended table
          have hr := inv.ok.roots r (List.mem_of_getElem? h1)
          have ext := walk_offset go [] (dn.map (offsetNode f.nodes.length f.leaves.length)) f.nodes 0 f.nodes.length (r : Int) (by omega) (by
            intro n hn
            obtain ⟨p, hp⟩ := List.mem_iff_getElem?.mp hn
            have ⟨a, b⟩ := inv.ok.refs p n hp
            unfold RefOK at a b
            omega)
          have hid : f.nodes.map (offsetNode 0 0) = f.nodes := by
            have : (offsetNode 0 0 : Node Θ → Node Θ) = id := by
              funext n; simp [offsetNode, offsetChild]
            rw [this]; simp
          simp only [List.length_nil, List.nil_append] at ext
          rw [hid, h2] at ext
          simp [offsetChild] at ext
          exact walk_mono go _ f.nodes.length _ _ _ (by rw [hlen']; omega) ext
        · simp only [f']; rw [List.getElem?_append_left (List.getElem?_eq_some_iff.mp h3).1]; exact h3
      · have hk' : k = trees.length := by
          have := (List.getElem?_eq_some_iff.mp hk).1
          simp at this; omega
        subst hk'
        simp at hk
        subst hk
        obtain ⟨m, v, h2, h3, h4⟩ := tok.sim go
        refine ⟨f.nodes.length, m + f.leaves.length, v, ?_, ?_, ?_, h4⟩
        · simp only [f']; rw [← inv.rootsLen]; simp
        · have ext := walk_offset go f.nodes [] dn f.leaves.length dn.length 0 (by omega) hrefs
          rw [h2] at ext
          simp [offsetChild] at ext
          exact walk_mono go _ dn.length _ _ _ (by rw [hlen']; omega) ext
        · simp only [f']
          rw [List.getElem?_append_right (by omega)]
          simpa using h3
    · rw [hlen', inv.nodesLen, tok.nodesLen]; simp
    · rw [hllen', inv.leavesLen, tok.leavesLen]; simp
    · intro nd hnd
      simp only [f', List.mem_append, List.mem_map] at hnd
      rcases hnd with hnd | ⟨n0, hn0, rfl⟩
      · rcases inv.prov nd hnd with ⟨s, hs, h⟩ | h
        · left; exact ⟨s, by simp [hs], h⟩
        · right; exact h
      · rcases tok.prov n0 hn0 with ⟨row, hrow, h⟩ | ⟨_, h⟩
        · left; exact ⟨src, by simp, row, hrow, by simpa [offsetNode] using h⟩
        · right; simpa [offsetNode] using h

theorem flattenForest_spec (zero : Θ) (leafVal : V → L) (trees : List (List (SrcNode Θ V)))
    (h : ∀ src ∈ trees, SrcWF src) :
    ∃ f, flattenForest zero leafVal trees = some f ∧ ForestInv zero leafVal trees f := by
  have key : ∀ (rest done : List (List (SrcNode Θ V))) (f : Forest Θ L), (∀ src ∈ rest, SrcWF src) →
      ForestInv zero leafVal done f →
      ∃ f', rest.foldlM (addTree zero leafVal) f = some f' ∧ ForestInv zero leafVal (done ++ rest) f' := by
    intro rest
    induction rest with
    | nil => intro done f _ inv; exact ⟨f, by simp [List.foldlM], by simpa using inv⟩
    | cons a rest ih =>
      intro done f hr inv
      obtain ⟨f1, e1, inv1⟩ := addTree_spec zero leafVal done f inv a (hr a (by simp))
      obtain ⟨f2, e2, inv2⟩ := ih (done ++ [a]) f1 (fun s hs => hr s (by simp [hs])) inv1
      exact ⟨f2, by simp [List.foldlM_cons, e1, e2], by simpa using inv2⟩
  obtain ⟨f, e, inv⟩ := key trees [] ⟨[], [], []⟩ h (by
    constructor
    · constructor <;> simp
    all_goals simp)
  refine ⟨f, ?_, by simpa using inv⟩
  have := refsValid_of_ok f inv.ok
  simp [flattenForest, e, this]

/-! ### Leaf de-duplication -/

theorem findIndex_some [DecidableEq L] (u : List L) (x : L) (j : Nat) (h : findIndex u x = some j) : u[j]? = some x := by
  induction u generalizing j with
  | nil => simp [findIndex] at h
  | cons y ys ih =>
    unfold findIndex at h
    split at h
    · rename_i e
      cases h
      simp [e]
    · cases hf : findIndex ys x with
      | none => simp [hf] at h
      | some k =>
        simp [hf] at h
        subst h
        simpa using ih k hf

theorem findIndex_none [DecidableEq L] (u : List L) (x : L) (h : findIndex u x = none) : x ∉ u := by
  induction u with
  | nil => simp
  | cons y ys ih =>
    unfold findIndex at h
    split at h
    · cases h
    · rename_i hne
      have : findIndex ys x = none := by
        cases hf : findIndex ys x <;> simp_all
      simp only [List.mem_cons, not_or]
      exact ⟨hne, ih this⟩

/-- Invariant of the uniqueness loop. -/
theorem uniqueLoop_spec [DecidableEq L] : ∀ (xs u : List L) (m : List Nat) (done : List L),
    u.Nodup → m.length = done.length → (∀ (i : Nat) (x : L), done[i]? = some x → ∃ j : Nat, m[i]? = some j ∧ u[j]? = some x) →
    (∀ j, j < u.length → j ∈ m) →
    ∃ u' m', uniqueLoop xs u m = (u', m') ∧ u'.Nodup ∧ m'.length = (done ++ xs).length ∧
      (∀ (i : Nat) (x : L), (done ++ xs)[i]? = some x → ∃ j : Nat, m'[i]? = some j ∧ u'[j]? = some x) ∧
      (∀ j, j < u'.length → j ∈ m') ∧ u'.length ≤ u.length + xs.length ∧
      (∀ x ∈ u', x ∈ u ∨ x ∈ xs)
  | [], u, m, done, hu, hm, hd, hs => ⟨u, m, rfl, hu, by simpa using hm, by simpa using hd, hs, by simp, by simp⟩
  | x :: xs, u, m, done, hu, hm, hd, hs => by
    unfold uniqueLoop
    cases hf : findIndex u x with
    | none =>
      have hx := findIndex_none u x hf
      obtain ⟨u', m', a, b, c, d, e, g, k⟩ := uniqueLoop_spec xs (u ++ [x]) (m ++ [u.length]) (done ++ [x])
        (by
          rw [List.nodup_append]
          refine ⟨hu, by simp, ?_⟩
          intro a ha b hb
          simp at hb
          subst hb
          intro he; subst he; exact hx ha)
        (by simp [hm])
        (by
          intro i y hy
          by_cases hi : i < done.length
          · rw [List.getElem?_append_left hi] at hy
            obtain ⟨j, h1, h2⟩ := hd i y hy
            refine ⟨j, ?_, ?_⟩
            · rw [List.getElem?_append_left (by omega)]; exact h1
            · rw [List.getElem?_append_left (List.getElem?_eq_some_iff.mp h2).1]; exact h2
          · have hi' := (List.getElem?_eq_some_iff.mp hy).1
            simp at hi'
            have : i = done.length := by omega
            subst this
            simp at hy
            subst hy
            exact ⟨u.length, by rw [← hm]; simp, by simp⟩)
        (by
          intro j hj
          simp at hj
          by_cases h : j < u.length
          · simp [hs j h]
          · simp; right; omega)
      refine ⟨u', m', a, b, by simpa using c, by simpa using d, e, by simp at g ⊢; omega, ?_⟩
      intro y hy
      rcases k y hy with h | h
      · simp at h; rcases h with h | h
        · exact Or.inl h
        · right; simp [h]
      · right; simp [h]
    | some j =>
      have hx := findIndex_some u x j hf
      obtain ⟨u', m', a, b, c, d, e, g, k⟩ := uniqueLoop_spec xs u (m ++ [j]) (done ++ [x]) hu
        (by simp [hm])
        (by
          intro i y hy
          by_cases hi : i < done.length
          · rw [List.getElem?_append_left hi] at hy
            obtain ⟨j, h1, h2⟩ := hd i y hy
            refine ⟨j, ?_, h2⟩
            rw [List.getElem?_append_left (by omega)]; exact h1
          · have hi' := (List.getElem?_eq_some_iff.mp hy).1
            simp at hi'
            have : i = done.length := by omega
            subst this
            simp at hy
            subst hy
            exact ⟨j, by rw [← hm]; simp, hx⟩)
        (by intro q hq; simp [hs q hq])
      refine ⟨u', m', a, b, by simpa using c, by simpa using d, e, by simp at g ⊢; omega, ?_⟩
      intro y hy
      rcases k y hy with h | h
      · exact Or.inl h
      · right; simp [h]

theorem unique_spec [DecidableEq L] (leaves : List L) :
    ∃ u m, uniqueLoop leaves [] [] = (u, m) ∧ u.Nodup ∧ m.length = leaves.length ∧
      (∀ (i : Nat) (x : L), leaves[i]? = some x → ∃ j : Nat, m[i]? = some j ∧ u[j]? = some x) ∧
      (∀ j, j < u.length → j ∈ m) ∧ u.length ≤ leaves.length ∧ (∀ x ∈ u, x ∈ leaves) := by
  obtain ⟨u, m, a, b, c, d, e, g, k⟩ := uniqueLoop_spec leaves [] [] [] (by simp) rfl (by simp) (by simp)
  exact ⟨u, m, a, b, by simpa using c, by simpa using d, e, by simpa using g, by simpa using k⟩

theorem remapLeaf_neg {m : List Nat} {c : Int} {j : Nat} (h : c < 0) (hj : m[(-c - 1).toNat]? = some j) :
    remapLeaf m c = -(j : Int) - 1 := by
  unfold remapLeaf; rw [if_pos h, hj]

/-- Walking after remapping leaf codes. -/
theorem walk_remap (go : Int → Θ → Bool) (m : List Nat) (nodes : List (Node Θ)) :
    ∀ (fuel : Nat) (c : Int), (∀ n ∈ nodes, -n.left - 1 < (m.length : Int) ∧ -n.right - 1 < (m.length : Int)) →
      -c - 1 < (m.length : Int) →
      walk go (nodes.map (fun n => { n with left := remapLeaf m n.left, right := remapLeaf m n.right })) fuel (remapLeaf m c)
        = (walk go nodes fuel c).bind (fun i => m[i]?) := by
  have leafcase : ∀ (fuel : Nat) (c : Int) (ns ns' : List (Node Θ)), c < 0 → -c - 1 < (m.length : Int) →
      walk go ns' fuel (remapLeaf m c) = (walk go ns fuel c).bind (fun i => m[i]?) := by
    intro fuel c ns ns' hneg hc
    have hlt : (-c - 1).toNat < m.length := by omega
    have e1 : walk go ns fuel c = some (-c-1).toNat := by
      apply walk_mono go ns 0 _ _ _ (by omega); simp [walk, hneg]
    have e2 : remapLeaf m c = -(m[(-c - 1).toNat] : Int) - 1 := by
      exact remapLeaf_neg hneg (List.getElem?_eq_getElem hlt)
    have e3 : walk go ns' fuel (remapLeaf m c) = some (m[(-c - 1).toNat]) := by
      apply walk_mono go ns' 0 _ _ _ (by omega)
      rw [e2]
      simp only [walk]
      rw [if_pos (by omega)]
      congr 1; omega
    rw [e1, e3]
    simp only [Option.bind_some, List.getElem?_eq_getElem hlt]
  intro fuel
  induction fuel with
  | zero =>
    intro c hn hc
    by_cases hneg : c < 0
    · exact leafcase _ _ _ _ hneg hc
    · simp [walk, remapLeaf, hneg]
  | succ fuel ih =>
    intro c hn hc
    by_cases hneg : c < 0
    · exact leafcase _ _ _ _ hneg hc
    · have e : remapLeaf m c = c := by simp [remapLeaf, hneg]
      rw [e]
      unfold walk
      rw [if_neg hneg, if_neg hneg, List.getElem?_map]
      cases hg : nodes[c.toNat]? with
      | none => simp
      | some n =>
        simp only [Option.map_some]
        have hmem := hn n (List.mem_of_getElem? hg)
        by_cases hgo : go n.feature n.threshold
        · simp only [hgo, if_true]; exact ih _ hn hmem.1
        · simp only [hgo]; exact ih _ hn hmem.2

/-- What `remove_duplicate_leaves` guarantees. -/
structure DedupOK [DecidableEq L] (f f' : Forest Θ L) : Prop where
  ok : ForestOK f'
  roots : f'.roots = f.roots
  nodesLen : f'.nodes.length = f.nodes.length
  same : ∀ (p : Nat) (n : Node Θ), f'.nodes[p]? = some n →
    ∃ n0, f.nodes[p]? = some n0 ∧ n.feature = n0.feature ∧ n.threshold = n0.threshold
  nodup : f'.leaves.Nodup
  le : f'.leaves.length ≤ f.leaves.length
  mem : ∀ x, x ∈ f'.leaves ↔ x ∈ f.leaves
  pred : ∀ (go : Int → Θ → Bool) (r : Nat), r < f.nodes.length → ∃ x, forestPredict go f r = some x ∧ forestPredict go f' r = some x

theorem dedup_spec [DecidableEq L] (f : Forest Θ L) (h : ForestOK f) (hne : f.nodes ≠ []) :
    ∃ f', removeDuplicateLeaves f = some f' ∧ DedupOK f f' := by
  obtain ⟨u, m, e, hnd, hlen, hget, hsurj, hle, hmem⟩ := unique_spec f.leaves
  let nodes' := f.nodes.map (fun n => { n with left := remapLeaf m n.left, right := remapLeaf m n.right })
  let f' : Forest Θ L := ⟨nodes', f.roots, u⟩
  have hml : ∀ i, i < m.length → ∃ j : Nat, m[i]? = some j ∧ j < u.length := by
    intro i hi
    obtain ⟨j, h1, h2⟩ := hget i f.leaves[i] (List.getElem?_eq_getElem (by omega))
    exact ⟨j, h1, (List.getElem?_eq_some_iff.mp h2).1⟩
  have hrl : ∀ c : Int, c < 0 → -c - 1 < (f.leaves.length : Int) → ∃ j : Nat, m[(-c-1).toNat]? = some j ∧ remapLeaf m c = -(j : Int) - 1 ∧ j < u.length := by
    intro c h1 h2
    obtain ⟨j, h3, h4⟩ := hml (-c-1).toNat (by omega)
    exact ⟨j, h3, remapLeaf_neg h1 h3, h4⟩
  have hok : ForestOK f' := by
    constructor
    · intro p n hp
      simp only [f', nodes', List.getElem?_map] at hp
      obtain ⟨n0, h0, rfl⟩ := Option.map_eq_some_iff.mp hp
      have key : ∀ c, RefOK f.nodes.length f.leaves.length p c → RefOK f'.nodes.length f'.leaves.length p (remapLeaf m c) := by
        intro c hc
        simp only [f', nodes', List.length_map]
        by_cases hneg : c < 0
        · obtain ⟨j, h1, h2, h3⟩ := hrl c hneg (hc.2 hneg)
          rw [h2]
          constructor <;> omega
        · have e : remapLeaf m c = c := by simp [remapLeaf, hneg]
          rw [e]
          exact ⟨hc.1, fun h => absurd h hneg⟩
      have ⟨a, b⟩ := h.refs p n0 h0
      exact ⟨key _ a, key _ b⟩
    · intro r hr; simp only [f', nodes', List.length_map]; exact h.roots r hr
    · intro q hq
      simp only [f', nodes', List.length_map] at hq
      rcases h.nodesUsed q hq with hr | ⟨n, hn, hu⟩
      · left; exact hr
      · right
        refine ⟨_, List.mem_map.mpr ⟨n, hn, rfl⟩, ?_⟩
        simp only
        rcases hu with hu | hu
        · left; rw [hu]; simp [remapLeaf, show ¬ ((q:Int) < 0) by omega]
        · right; rw [hu]; simp [remapLeaf, show ¬ ((q:Int) < 0) by omega]
    · intro j hj
      simp only [f'] at hj
      have hjm := hsurj j hj
      obtain ⟨i, hi⟩ := List.mem_iff_getElem?.mp hjm
      have hilt := (List.getElem?_eq_some_iff.mp hi).1
      obtain ⟨n, hn, hu⟩ := h.leavesUsed i (by omega)
      refine ⟨_, List.mem_map.mpr ⟨n, hn, rfl⟩, ?_⟩
      simp only
      have conv : ∀ c : Int, c = -(i : Int) - 1 → remapLeaf m c = -(j : Int) - 1 := by
        intro c hc
        have : (-c - 1).toNat = i := by omega
        simp [remapLeaf, show c < 0 by omega, this, hi]
      rcases hu with hu | hu
      · left; exact conv _ hu
      · right; exact conv _ hu
  refine ⟨f', ?_, ?_⟩
  · have hv := refsValid_of_ok f' hok
    simp only [f', nodes'] at hv
    simp only [removeDuplicateLeaves, e]
    rw [if_neg (by simpa using hne), if_pos hv]
  · refine ⟨hok, rfl, by simp [f', nodes'], ?_, hnd, hle, ?_, ?_⟩
    · intro p n hp
      simp only [f', nodes', List.getElem?_map] at hp
      obtain ⟨n0, h0, rfl⟩ := Option.map_eq_some_iff.mp hp
      exact ⟨n0, h0, rfl, rfl⟩
    · intro x
      constructor
      · exact hmem x
      · intro hx
        obtain ⟨i, hi⟩ := List.mem_iff_getElem?.mp hx
        obtain ⟨j, _, h2⟩ := hget i x hi
        exact List.mem_of_getElem? h2
    · intro go r hr
      obtain ⟨i, hw, hi⟩ := walk_total go h f.nodes.length r hr (by omega)
      have hrem := walk_remap go m f.nodes f.nodes.length (r : Int) (by
        intro n hn
        obtain ⟨p, hp⟩ := List.mem_iff_getElem?.mp hn
        have ⟨a, b⟩ := h.refs p n hp
        unfold RefOK at a b
        omega) (by omega)
      have e0 : remapLeaf m (r : Int) = r := by simp [remapLeaf, show ¬ ((r:Int) < 0) by omega]
      rw [e0, hw] at hrem
      obtain ⟨j, h1, h2⟩ := hget i f.leaves[i] (List.getElem?_eq_getElem hi)
      refine ⟨f.leaves[i], ?_, ?_⟩
      · simp [forestPredict, hw, hi]
      · simp only [forestPredict, f', nodes', List.length_map]
        rw [hrem]
        simp [h1, h2]

end Emlearn.Trees
