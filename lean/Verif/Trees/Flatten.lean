/- Helper lemmas about `flatten_tree`. -/
import Verif.Trees.Spec
namespace Emlearn.Trees
variable {Θ V L : Type}

theorem walk_mono (go : Int → Θ → Bool) (nodes : List (Node Θ)) :
    ∀ (f f' : Nat) (c : Int) (m : Nat), f ≤ f' → walk go nodes f c = some m → walk go nodes f' c = some m
  | 0, f', c, m, _, h => by
    unfold walk at h ⊢
    split at h
    · cases f' <;> simp_all
    · cases h
  | f+1, 0, c, m, hle, _ => by omega
  | f+1, f'+1, c, m, hle, h => by
    unfold walk at h ⊢
    split
    · simp_all
    · rename_i hc
      simp only [hc, if_false] at h
      cases hn : nodes[c.toNat]? with
      | none => simp [hn] at h
      | some n =>
        simp only [hn] at h ⊢
        exact walk_mono go nodes f f' _ m (by omega) h

/-- number of decision rows before row `k` -/
def rank (src : List (SrcNode Θ V)) (k : Nat) : Nat := (src.take k).countP (fun n => !n.isLeaf)

theorem rank_succ_leaf (src : List (SrcNode Θ V)) (k : Nat) (n) (h : src[k]? = some n) (hl : n.isLeaf = true) :
    rank src (k+1) = rank src k := by
  unfold rank
  rw [List.take_add_one, h]
  simp [hl]

theorem rank_succ_node (src : List (SrcNode Θ V)) (k : Nat) (n) (h : src[k]? = some n) (hl : n.isLeaf = false) :
    rank src (k+1) = rank src k + 1 := by
  unfold rank
  rw [List.take_add_one, h]
  simp [hl]

theorem rank_mono (src : List (SrcNode Θ V)) {i j : Nat} (h : i ≤ j) : rank src i ≤ rank src j := by
  unfold rank
  exact List.Sublist.countP_le (List.take_sublist_take_left h)

theorem rank_lt (src : List (SrcNode Θ V)) {i j : Nat} (n) (hn : src[i]? = some n) (hl : n.isLeaf = false)
    (h : i < j) : rank src i < rank src j := by
  have := rank_succ_node src i n hn hl
  have := rank_mono src (show i + 1 ≤ j from h)
  omega

theorem rank_full (src : List (SrcNode Θ V)) : rank src src.length = src.countP (fun n => !n.isLeaf) := by
  simp [rank]

/-- How a processed child (before remapping) represents source reference `c`. -/
def ChildOK (src : List (SrcNode Θ V)) (leafVal : V → L) (leaves : List L) (c c' : Int) : Prop :=
  ∃ n, src[c.toNat]? = some n ∧ 0 ≤ c ∧
    ((n.isLeaf = true ∧ c' < 0 ∧ leaves[(-c' - 1).toNat]? = some (leafVal n.value)) ∨
     (n.isLeaf = false ∧ c' = c))

theorem ChildOK.append {src : List (SrcNode Θ V)} {leafVal : V → L} {leaves : List L} {c c' : Int}
    (h : ChildOK src leafVal leaves c c') (more : List L) : ChildOK src leafVal (leaves ++ more) c c' := by
  obtain ⟨n, h1, h2, h3⟩ := h
  refine ⟨n, h1, h2, ?_⟩
  rcases h3 with ⟨a, b, d⟩ | h3
  · left
    refine ⟨a, b, ?_⟩
    rw [List.getElem?_append_left]
    · exact d
    · exact (List.getElem?_eq_some_iff.mp d).1
  · right; exact h3

/-- is the referenced row a leaf? -/
def refIsLeaf (src : List (SrcNode Θ V)) (c : Int) : Bool := (src[c.toNat]?).any (·.isLeaf)

theorem processChild_spec (src : List (SrcNode Θ V)) (leafVal : V → L) (leaves : List L) (c : Int)
    (h0 : 0 ≤ c) (hlt : c.toNat < src.length) :
    ∃ c' more, processChild src leafVal leaves c = some (c', leaves ++ more) ∧
      ChildOK src leafVal (leaves ++ more) c c' ∧
      more.length = (if refIsLeaf src c then 1 else 0) ∧
      (∀ m, leaves.length ≤ m → m < (leaves ++ more).length → c' = -(m : Int) - 1) := by
  have hn : src[c.toNat]? = some src[c.toNat] := List.getElem?_eq_getElem hlt
  cases hleaf : (src[c.toNat]).isLeaf with
  | true =>
    refine ⟨-(leaves.length : Int) - 1, [leafVal src[c.toNat].value], ?_, ?_, ?_, ?_⟩
    · simp [processChild, pyGet, h0, hlt, hleaf]
    · refine ⟨_, hn, h0, Or.inl ⟨hleaf, by omega, ?_⟩⟩
      have : (-(-(leaves.length : Int) - 1) - 1).toNat = leaves.length := by omega
      rw [this]; simp
    · simp [refIsLeaf, hn, hleaf]
    · intro m h1 h2
      simp at h2
      omega
  | false =>
    refine ⟨c, [], ?_, ?_, ?_, ?_⟩
    · simp [processChild, pyGet, h0, hlt, hleaf]
    · exact ⟨_, hn, h0, Or.inr ⟨hleaf, rfl⟩⟩
    · simp [refIsLeaf, hn, hleaf]
    · intro m h1 h2
      simp at h2
      omega

/-- Loop invariant of `flattenLoop` after `k` rows. -/
structure LoopInv (src : List (SrcNode Θ V)) (leafVal : V → L) (k : Nat) (s : FState Θ L) : Prop where
  nlen : s.nodes.length = rank src k
  llen : s.leaves.length = (childRefs (src.take k)).countP (refIsLeaf src)
  keys : ∀ p ∈ s.mapping, p.1 < k
  map : ∀ (i : Nat) (n : SrcNode Θ V), i < k → src[i]? = some n → n.isLeaf = false → s.mapping.lookup i = some (rank src i)
  node : ∀ (i : Nat) (n : SrcNode Θ V), i < k → src[i]? = some n → n.isLeaf = false →
    ∃ l r, s.nodes[rank src i]? = some ⟨n.feature, n.threshold, l, r⟩ ∧
      ChildOK src leafVal s.leaves n.left l ∧ ChildOK src leafVal s.leaves n.right r
  leafUsed : ∀ m, m < s.leaves.length → ∃ n ∈ s.nodes, n.left = -(m : Int) - 1 ∨ n.right = -(m : Int) - 1
  onto : ∀ p, p < s.nodes.length → ∃ (i : Nat) (n : SrcNode Θ V), i < k ∧ src[i]? = some n ∧ n.isLeaf = false ∧ rank src i = p

theorem lookup_append_of_keys {m : List (Nat × Nat)} {k v i : Nat} (h : ∀ p ∈ m, p.1 < k) :
    (m ++ [(k, v)]).lookup i = if i = k then some v else m.lookup i := by
  induction m with
  | nil =>
    by_cases hk : i = k
    · simp [hk]
    · have : (i == k) = false := by simpa using hk
      simp [List.lookup, this, hk]
  | cons a m ih =>
    have ih' := ih (fun p hp => h p (List.mem_cons_of_mem _ hp))
    have ha : a.1 < k := h a (List.mem_cons_self)
    obtain ⟨a1, a2⟩ := a
    simp only [List.cons_append, List.lookup]
    by_cases hi : i = a1
    · have : i ≠ k := by simp at ha; omega
      simp [hi, show a1 ≠ k by simp at ha; omega]
    · have hb : (i == a1) = false := by simpa using hi
      simp only [hb]
      exact ih'

theorem childRefs_take_succ_leaf (src : List (SrcNode Θ V)) (k : Nat) (n) (h : src[k]? = some n)
    (hl : n.isLeaf = true) : childRefs (src.take (k+1)) = childRefs (src.take k) := by
  unfold childRefs
  rw [List.take_add_one, h]
  simp [hl]

theorem childRefs_take_succ_node (src : List (SrcNode Θ V)) (k : Nat) (n) (h : src[k]? = some n)
    (hl : n.isLeaf = false) :
    childRefs (src.take (k+1)) = childRefs (src.take k) ++ [n.left, n.right] := by
  unfold childRefs
  rw [List.take_add_one, h]
  simp [hl]

theorem flattenLoop_spec (src : List (SrcNode Θ V)) (leafVal : V → L)
    (hwf : ∀ (i : Nat) (n : SrcNode Θ V), src[i]? = some n → n.isLeaf = false →
      (0 ≤ n.left ∧ n.left < src.length) ∧ (0 ≤ n.right ∧ n.right < src.length)) :
    ∀ (rest : List (SrcNode Θ V)) (k : Nat) (s : FState Θ L), k ≤ src.length → src.drop k = rest →
      LoopInv src leafVal k s →
      ∃ s', flattenLoop src leafVal rest k s = some s' ∧ LoopInv src leafVal src.length s'
  | [], k, s, hk, hdrop, inv => by
    refine ⟨s, rfl, ?_⟩
    have hk : src.length ≤ k := by
      have := congrArg List.length hdrop
      simp at this; omega
    have : k = src.length := by omega
    rw [← this]; exact inv
  | nd :: rest, k, s, hk, hdrop, inv => by
    have hlen := congrArg List.length hdrop
    simp only [List.length_drop, List.length_cons] at hlen
    have hnd : src[k]? = some nd := by
      have : (src.drop k)[0]? = some nd := by rw [hdrop]; rfl
      simpa using this
    have hdrop' : src.drop (k+1) = rest := by
      have := congrArg List.tail hdrop
      simpa using this
    unfold flattenLoop
    cases hleaf : nd.isLeaf with
    | true =>
      simp only [if_true]
      apply flattenLoop_spec src leafVal hwf rest (k+1) s (by omega) hdrop'
      have hlt : ∀ {i : Nat} {n : SrcNode Θ V}, i < k + 1 → src[i]? = some n → n.isLeaf = false → i < k := by
        intro i n hi hn hl
        rcases Nat.lt_or_ge i k with h | h
        · exact h
        · have : i = k := by omega
          subst this
          rw [hn] at hnd; cases hnd; simp [hl] at hleaf
      constructor
      · rw [inv.nlen, rank_succ_leaf src k nd hnd hleaf]
      · rw [inv.llen, childRefs_take_succ_leaf src k nd hnd hleaf]
      · intro p hp; have := inv.keys p hp; omega
      · intro i n hi hn hl; exact inv.map i n (hlt hi hn hl) hn hl
      · intro i n hi hn hl; exact inv.node i n (hlt hi hn hl) hn hl
      · exact inv.leafUsed
      · intro p hp
        obtain ⟨i, n, h1, h2⟩ := inv.onto p hp
        exact ⟨i, n, by omega, h2⟩
    | false =>
      simp only [Bool.false_eq_true, if_false]
      obtain ⟨⟨hl0, hl1⟩, ⟨hr0, hr1⟩⟩ := hwf k nd hnd hleaf
      obtain ⟨l', ml, e1, ok1, len1, used1⟩ :=
        processChild_spec src leafVal s.leaves nd.left hl0 (by omega)
      obtain ⟨r', mr, e2, ok2, len2, used2⟩ :=
        processChild_spec src leafVal (s.leaves ++ ml) nd.right hr0 (by omega)
      simp only [e1, e2, Option.bind_eq_bind, Option.bind_some]
      apply flattenLoop_spec src leafVal hwf rest (k+1) _ (by omega) hdrop'
      have hcase : ∀ {i : Nat} {n : SrcNode Θ V}, i < k + 1 → src[i]? = some n → (i < k) ∨ (i = k ∧ n = nd) := by
        intro i n hi hn
        rcases Nat.lt_or_ge i k with h | h
        · exact Or.inl h
        · have : i = k := by omega
          subst this
          rw [hn] at hnd; cases hnd; exact Or.inr ⟨rfl, rfl⟩
      have hrk := rank_succ_node src k nd hnd hleaf
      constructor
      · simp [inv.nlen, hrk]
      · simp only [List.length_append, inv.llen, len1, len2,
          childRefs_take_succ_node src k nd hnd hleaf, List.countP_append]
        simp only [List.countP_cons, List.countP_nil]
        omega
      · intro p hp
        simp only [List.mem_append, List.mem_singleton] at hp
        rcases hp with hp | hp
        · have := inv.keys p hp; omega
        · subst hp; simp
      · intro i n hi hn hl
        simp only
        rw [lookup_append_of_keys inv.keys]
        rcases hcase hi hn with h | ⟨h, _⟩
        · rw [if_neg (by omega)]; exact inv.map i n h hn hl
        · rw [if_pos h, h, inv.nlen]
      · intro i n hi hn hl
        simp only
        rcases hcase hi hn with h | ⟨h, h'⟩
        · obtain ⟨l, r, a, b, c⟩ := inv.node i n h hn hl
          refine ⟨l, r, ?_, ?_, ?_⟩
          · rw [List.getElem?_append_left (List.getElem?_eq_some_iff.mp a).1]; exact a
          · rw [List.append_assoc]; exact b.append _
          · rw [List.append_assoc]; exact c.append _
        · subst h; subst h'
          refine ⟨l', r', ?_, ok1.append _, ok2⟩
          rw [← inv.nlen]; simp
      · intro m hm
        simp only at hm ⊢
        rcases Nat.lt_or_ge m s.leaves.length with h | h
        · obtain ⟨n, hn, hu⟩ := inv.leafUsed m h
          exact ⟨n, by simp [hn], hu⟩
        · refine ⟨⟨nd.feature, nd.threshold, l', r'⟩, by simp, ?_⟩
          rcases Nat.lt_or_ge m (s.leaves ++ ml).length with h2 | h2
          · left; exact used1 m h h2
          · right; exact used2 m h2 hm
      · intro p hp
        simp only [List.length_append, List.length_singleton] at hp
        rcases Nat.lt_or_ge p s.nodes.length with h | h
        · obtain ⟨i, n, h1, h2⟩ := inv.onto p h
          exact ⟨i, n, by omega, h2⟩
        · refine ⟨k, nd, by omega, hnd, hleaf, ?_⟩
          have := inv.nlen
          omega

end Emlearn.Trees
