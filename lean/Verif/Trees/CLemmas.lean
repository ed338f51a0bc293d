/- Helper lemmas: the C table interpreter and the inline code both walk the forest. -/
import Verif.Trees.CModel
import Verif.Trees.ForestLemmas
namespace Emlearn.Trees
variable {Θ L R F : Type}

theorem generateNodesFrom_length (quant : Θ → Int) : ∀ (nodes : List (Node Θ)) (i : Nat) (tbl : List CNode),
    generateNodesFrom quant i nodes = some tbl → tbl.length = nodes.length
  | [], i, tbl, h => by simp [generateNodesFrom] at h; subst h; rfl
  | n :: rest, i, tbl, h => by
    unfold generateNodesFrom at h
    cases h1 : makeNode quant i n with
    | none => simp [h1] at h
    | some c =>
      cases h2 : generateNodesFrom quant (i+1) rest with
      | none => simp [h1, h2] at h
      | some cs =>
        simp [h1, h2] at h
        subst h
        simp [generateNodesFrom_length quant rest (i+1) cs h2]

theorem generateNodesFrom_get (quant : Θ → Int) : ∀ (nodes : List (Node Θ)) (i : Nat) (tbl : List CNode),
    generateNodesFrom quant i nodes = some tbl →
    ∀ (p : Nat) (n : Node Θ), nodes[p]? = some n → ∃ c, tbl[p]? = some c ∧ makeNode quant (i + p) n = some c
  | [], i, tbl, h, p, n, hp => by simp at hp
  | a :: rest, i, tbl, h, p, n, hp => by
    unfold generateNodesFrom at h
    cases h1 : makeNode quant i a with
    | none => simp [h1] at h
    | some c =>
      cases h2 : generateNodesFrom quant (i+1) rest with
      | none => simp [h1, h2] at h
      | some cs =>
        simp [h1, h2] at h
        subst h
        cases p with
        | zero => simp at hp; subst hp; exact ⟨c, by simp, by simpa using h1⟩
        | succ p =>
          simp at hp
          obtain ⟨c', h3, h4⟩ := generateNodesFrom_get quant rest (i+1) cs h2 p n hp
          exact ⟨c', by simpa using h3, by rw [← h4]; congr 1; omega⟩

theorem generateNodesFrom_some (quant : Θ → Int) : ∀ (nodes : List (Node Θ)) (i : Nat),
    (∀ (p : Nat) (n : Node Θ), nodes[p]? = some n → ∃ c, makeNode quant (i + p) n = some c) →
    ∃ tbl, generateNodesFrom quant i nodes = some tbl
  | [], i, _ => ⟨[], rfl⟩
  | a :: rest, i, h => by
    obtain ⟨c, hc⟩ := h 0 a (by simp)
    obtain ⟨cs, hcs⟩ := generateNodesFrom_some quant rest (i+1) (by
      intro p n hp
      obtain ⟨c, hc⟩ := h (p+1) n (by simpa using hp)
      exact ⟨c, by rw [← hc]; congr 1; omega⟩)
    exact ⟨c :: cs, by simp [generateNodesFrom, show makeNode quant i a = some c by simpa using hc, hcs]⟩

theorem encodeChild_some {i : Nat} {c e : Int} (h : encodeChild i c = some e) :
    (0 ≤ c → (i : Int) ≤ c ∧ e = c - i ∧ e ≤ 32768) ∧ (c < 0 → e = c ∧ -32768 ≤ c) := by
  unfold encodeChild assertValidChild at h
  split at h
  · split at h
    · cases h
    · split at h
      · simp at h; omega
      · cases h
  · split at h
    · simp at h; omega
    · cases h

/-- The side conditions under which the packed node table represents the forest exactly. -/
structure Packs (quant : Θ → Int) (nFeatures : Nat) (nodes : List (Node Θ)) : Prop where
  feature : ∀ n ∈ nodes, 0 ≤ n.feature ∧ n.feature < nFeatures ∧ n.feature ≤ 127
  thresh : ∀ n ∈ nodes, -32768 ≤ quant n.threshold ∧ quant n.threshold ≤ 32767
  jump : ∀ (p : Nat) (n : Node Θ), nodes[p]? = some n → n.left - p ≤ 32767 ∧ n.right - p ≤ 32767

theorem makeNode_packed {quant : Θ → Int} {nf : Nat} {nodes : List (Node Θ)} (hp : Packs quant nf nodes)
    {p : Nat} {n : Node Θ} (hn : nodes[p]? = some n) {c : CNode} (h : makeNode quant p n = some c) :
    c.feature = n.feature ∧ c.value = quant n.threshold ∧
    (0 ≤ n.left → c.left = n.left - p ∧ 0 ≤ c.left) ∧ (n.left < 0 → c.left = n.left ∧ -32768 ≤ n.left) ∧
    (0 ≤ n.right → c.right = n.right - p ∧ 0 ≤ c.right) ∧ (n.right < 0 → c.right = n.right ∧ -32768 ≤ n.right) := by
  unfold makeNode at h
  cases h1 : encodeChild p n.left with
  | none => simp [h1] at h
  | some l =>
    cases h2 : encodeChild p n.right with
    | none => simp [h1, h2] at h
    | some r =>
      simp [h1, h2] at h
      subst h
      have ⟨a1, a2⟩ := encodeChild_some h1
      have ⟨b1, b2⟩ := encodeChild_some h2
      have hm := List.mem_of_getElem? hn
      have f := hp.feature n hm
      have t := hp.thresh n hm
      have j := hp.jump p n hn
      simp only
      refine ⟨wrap8_id (by omega) (by omega), wrap16_id (by omega) (by omega), ?_, ?_, ?_, ?_⟩
      · intro h0; have := a1 h0; rw [wrap16_id (by omega) (by omega)]; omega
      · intro h0; have := a2 h0; rw [wrap16_id (by omega) (by omega)]; omega
      · intro h0; have := b1 h0; rw [wrap16_id (by omega) (by omega)]; omega
      · intro h0; have := b2 h0; rw [wrap16_id (by omega) (by omega)]; omega

theorem predictTree_eq_walk (quant : Θ → Int) (features : List Int) (nodes : List (Node Θ)) (tbl : List CNode)
    (hgen : generateNodes quant nodes = some tbl) (hp : Packs quant features.length nodes) :
    ∀ (fuel : Nat) (c : Int), (c < 0 → -32768 ≤ c) →
      predictTree tbl features fuel c = (walk (cmpInt features quant) nodes fuel c).map Int.ofNat
  | 0, c, hc => by
    unfold predictTree walk
    by_cases h : c < 0
    · have := hc h
      simp only [h, if_true, Option.map_some]
      rw [wrap16_id (by omega) (by omega)]
      congr 1; simp only [Int.ofNat_eq_natCast]; omega
    · simp [h]
  | fuel+1, c, hc => by
    unfold predictTree walk
    by_cases h : c < 0
    · have := hc h
      simp only [h, if_true, Option.map_some]
      rw [wrap16_id (by omega) (by omega)]
      congr 1; simp only [Int.ofNat_eq_natCast]; omega
    · simp only [h, if_false]
      cases hn : nodes[c.toNat]? with
      | none =>
        have : tbl[c.toNat]? = none := by
          rw [List.getElem?_eq_none_iff] at hn ⊢
          rw [generateNodesFrom_length quant nodes 0 tbl hgen]; exact hn
        simp [this]
      | some n =>
        obtain ⟨cn, h1, h2⟩ := generateNodesFrom_get quant nodes 0 tbl hgen _ n hn
        rw [Nat.zero_add] at h2
        obtain ⟨e1, e2, l1, l2, r1, r2⟩ := makeNode_packed hp hn h2
        have hf := hp.feature n (List.mem_of_getElem? hn)
        have hflt : n.feature.toNat < features.length := by omega
        simp only [h1, e1, e2]
        rw [if_neg (by omega)]
        simp only [List.getElem?_eq_getElem hflt]
        have hgo : cmpInt features quant n.feature n.threshold = decide (features[n.feature.toNat] < quant n.threshold) := by
          simp [cmpInt, List.getD, hflt]
        rw [hgo]
        by_cases hlt : features[n.feature.toNat] < quant n.threshold
        · simp only [hlt, if_true, decide_true]
          by_cases hl : 0 ≤ n.left
          · have := l1 hl
            rw [if_pos this.2, show c + cn.left = n.left by omega]
            exact predictTree_eq_walk quant features nodes tbl hgen hp fuel _ (by omega)
          · have := l2 (by omega)
            rw [this.1, if_neg hl]
            exact predictTree_eq_walk quant features nodes tbl hgen hp fuel _ (by omega)
        · simp only [hlt, if_false, decide_false, Bool.false_eq_true]
          by_cases hl : 0 ≤ n.right
          · have := r1 hl
            rw [if_pos this.2, show c + cn.right = n.right by omega]
            exact predictTree_eq_walk quant features nodes tbl hgen hp fuel _ (by omega)
          · have := r2 (by omega)
            rw [this.1, if_neg hl]
            exact predictTree_eq_walk quant features nodes tbl hgen hp fuel _ (by omega)

/-- The inline code of a valid forest exists and evaluates to the leaf the walk reaches. -/
theorem inlineNode_spec {f : Forest Θ L} (h : ForestOK f) (leafOf : Nat → Option R)
    (hleaf : ∀ m, m < f.leaves.length → ∃ v, leafOf m = some v) :
    ∀ (fuel p : Nat), p < f.nodes.length → f.nodes.length - p ≤ fuel →
      ∃ st, inlineNode f.nodes leafOf fuel (p : Int) = some st ∧
        ∀ go : Int → Θ → Bool, ∃ m, walk go f.nodes fuel (p : Int) = some m ∧ leafOf m = some (st.eval go)
  | 0, p, hp, hf => by omega
  | fuel+1, p, hp, hf => by
    have hg := List.getElem?_eq_getElem hp
    have href := h.refs p _ hg
    have key : ∀ c, RefOK f.nodes.length f.leaves.length p c → ∃ st, inlineNode f.nodes leafOf fuel c = some st ∧
        ∀ go : Int → Θ → Bool, ∃ m, walk go f.nodes fuel c = some m ∧ leafOf m = some (st.eval go) := by
      intro c hc
      by_cases h0 : 0 ≤ c
      · have := hc.1 h0
        obtain ⟨st, hst, hgo⟩ := inlineNode_spec h leafOf hleaf fuel c.toNat (by omega) (by omega)
        rw [show ((c.toNat : Nat) : Int) = c by omega] at hst hgo
        exact ⟨st, hst, hgo⟩
      · have := hc.2 (by omega)
        obtain ⟨v, hv⟩ := hleaf (-c - 1).toNat (by omega)
        refine ⟨.ret v, ?_, ?_⟩
        · unfold inlineNode; rw [if_pos (by omega), hv]; rfl
        · intro go
          refine ⟨(-c - 1).toNat, ?_, hv⟩
          apply walk_mono go f.nodes 0 _ _ _ (by omega)
          simp [walk, show c < 0 by omega]
    obtain ⟨sl, hsl, gl⟩ := key _ href.1
    obtain ⟨sr, hsr, gr⟩ := key _ href.2
    refine ⟨.ite (f.nodes[p]).feature (f.nodes[p]).threshold sl sr, ?_, ?_⟩
    · unfold inlineNode
      rw [if_neg (by omega)]
      simp only [Int.toNat_natCast, hg, hsl, hsr, Option.bind_eq_bind, Option.bind_some]
    · intro go
      unfold walk
      rw [if_neg (by omega)]
      simp only [Int.toNat_natCast, hg, Stmt.eval]
      split
      · exact gl go
      · exact gr go

end Emlearn.Trees
