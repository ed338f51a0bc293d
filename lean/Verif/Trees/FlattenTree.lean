/- Helper lemmas: `flatten_tree` as a whole. -/
import Verif.Trees.Flatten
namespace Emlearn.Trees
variable {Θ V L : Type}

theorem refsValid_of_ok (f : Forest Θ L) (h : ForestOK f) : refsValid f.nodes f.leaves f.roots = true := by
  have href : ∀ n ∈ f.nodes, ∃ p, RefOK f.nodes.length f.leaves.length p n.left ∧
      RefOK f.nodes.length f.leaves.length p n.right := by
    intro n hn
    obtain ⟨p, hp⟩ := List.mem_iff_getElem?.mp hn
    exact ⟨p, h.refs p n hp⟩
  simp only [refsValid, Bool.and_eq_true, List.all_eq_true, decide_eq_true_eq, List.mem_filter,
    List.mem_map, List.mem_range, Bool.or_eq_true, List.contains_iff_mem]
  have hL : ∀ x : Int, (∃ a, ((∃ n ∈ f.nodes, n.left = a) ∧ a < 0) ∧ -a - 1 = x) → x < (f.leaves.length : Int) := by
    rintro x ⟨a, ⟨⟨n, hn, rfl⟩, hneg⟩, rfl⟩
    obtain ⟨p, h1, _⟩ := href n hn
    exact h1.2 hneg
  refine ⟨⟨⟨⟨⟨?_, ?_⟩, ?_⟩, hL⟩, hL⟩, ?_⟩
  · rintro x ⟨⟨n, hn, rfl⟩, hx⟩
    obtain ⟨p, h1, _⟩ := href n hn
    exact (h1.1 hx).2
  · rintro x ⟨⟨n, hn, rfl⟩, hx⟩
    obtain ⟨p, _, h1⟩ := href n hn
    exact (h1.1 hx).2
  · intro q hq
    rcases h.nodesUsed q hq with hr | ⟨n, hn, hl | hr⟩
    · right; exact hr
    · left; left; exact ⟨⟨n, hn, hl⟩, by omega⟩
    · left; right; exact ⟨⟨n, hn, hr⟩, by omega⟩
  · intro m hm
    obtain ⟨n, hn, hl | hr⟩ := h.leavesUsed m hm
    · left; exact ⟨_, ⟨⟨n, hn, hl⟩, by omega⟩, by omega⟩
    · right; exact ⟨_, ⟨⟨n, hn, hr⟩, by omega⟩, by omega⟩

theorem mapM_some {α β : Type} (f : α → Option β) (l : List α) (h : ∀ x ∈ l, ∃ y, f x = some y) :
    ∃ ys, l.mapM f = some ys ∧ ys.length = l.length ∧ ∀ (i : Nat) (x : α), l[i]? = some x → ∃ y, ys[i]? = some y ∧ f x = some y := by
  induction l with
  | nil => exact ⟨[], by simp, rfl, by simp⟩
  | cons a l ih =>
    obtain ⟨ys, h1, h2, h3⟩ := ih (fun x hx => h x (List.mem_cons_of_mem _ hx))
    obtain ⟨y, hy⟩ := h a (List.mem_cons_self)
    refine ⟨y :: ys, by simp [List.mapM_cons, hy, h1], by simp [h2], ?_⟩
    intro i x hx
    cases i with
    | zero => simp at hx; subst hx; exact ⟨y, by simp, hy⟩
    | succ i => simp at hx; simpa using h3 i x hx

/-- What `flatten_tree` guarantees. -/
structure TreeOK (zero : Θ) (leafVal : V → L) (src : List (SrcNode Θ V)) (nodes : List (Node Θ)) (leaves : List L) : Prop where
  ok : ForestOK ⟨nodes, [0], leaves⟩
  sim : ∀ go : Int → Θ → Bool, ∃ m v, walk go nodes nodes.length 0 = some m ∧ leaves[m]? = some (leafVal v) ∧
    srcPredict go src = some v
  nodesLen : nodes.length = if src.length = 1 then 1 else src.countP (fun n => !n.isLeaf)
  leavesLen : leaves.length = src.countP (fun n => n.isLeaf)
  prov : ∀ nd ∈ nodes, (∃ row ∈ src, row.isLeaf = false ∧ nd.feature = row.feature ∧ nd.threshold = row.threshold) ∨
    (src.length = 1 ∧ nd.feature = 0 ∧ nd.threshold = zero)

theorem SrcWF.child_range {src : List (SrcNode Θ V)} (h : SrcWF src) (c : Int) (hc : c ∈ childRefs src) :
    1 ≤ c ∧ c < src.length := by
  have := (h.refs.mem_iff (a := c)).mp hc
  simp only [List.mem_map, List.mem_range'_1] at this
  obtain ⟨a, ha, rfl⟩ := this
  simp only [Int.ofNat_eq_natCast]
  have := h.nonempty
  have : 0 < src.length := List.length_pos_iff.mpr this
  omega

theorem mem_childRefs {src : List (SrcNode Θ V)} {i : Nat} {n : SrcNode Θ V} (h : src[i]? = some n)
    (hl : n.isLeaf = false) : n.left ∈ childRefs src ∧ n.right ∈ childRefs src := by
  have hm := List.mem_of_getElem? h
  constructor <;> (simp only [childRefs, List.mem_flatMap]; exact ⟨n, hm, by simp [hl]⟩)

theorem SrcWF.count {src : List (SrcNode Θ V)} (h : SrcWF src) (h2 : 2 ≤ src.length) :
    (childRefs src).countP (refIsLeaf src) = src.countP (fun n => n.isLeaf) := by
  rw [h.refs.countP_eq, List.countP_map]
  obtain ⟨r, rest, rfl⟩ : ∃ r rest, src = r :: rest := by
    cases src with
    | nil => simp at h2
    | cons a l => exact ⟨a, l, rfl⟩
  have hroot : r.isLeaf = false := by
    -- otherwise row 1 .. have a parent; the root is not a leaf because row 1 needs an earlier parent
    cases hr : r.isLeaf with
    | false => rfl
    | true =>
      exfalso
      have h1 : (1 : Int) ∈ childRefs (r :: rest) := by
        rw [h.refs.mem_iff]
        simp only [List.mem_map, List.mem_range'_1]
        exact ⟨1, by simp at h2 ⊢; omega, rfl⟩
      simp only [childRefs, List.mem_flatMap] at h1
      obtain ⟨n, hn, hc⟩ := h1
      split at hc
      · simp at hc
      · rename_i hnl
        have hnl : n.isLeaf = false := by simpa using hnl
        obtain ⟨i, hi⟩ := List.mem_iff_getElem?.mp hn
        have ho := h.order i n hi hnl
        have : i = 0 := by
          simp at hc
          omega
        subst this
        simp at hi
        subst hi
        simp [hr] at hnl
  simp only [List.countP_cons, hroot, List.length_cons, Nat.add_sub_cancel]
  simp only [Bool.false_eq_true, if_false, Nat.add_zero]
  have : ∀ (l : List (SrcNode Θ V)) (pre : List (SrcNode Θ V)),
      (List.range' pre.length l.length).countP (refIsLeaf (pre ++ l) ∘ Int.ofNat) = l.countP (fun n => n.isLeaf) := by
    intro l
    induction l with
    | nil => intro pre; simp
    | cons a l ih =>
      intro pre
      have := ih (pre ++ [a])
      simp only [List.length_append, List.length_singleton, List.append_assoc, List.singleton_append] at this
      rw [List.length_cons, List.range'_succ, List.countP_cons, this, List.countP_cons]
      simp [refIsLeaf]
  have := this rest [r]
  simpa using this

theorem lookupNode_nat (m : List (Nat × Nat)) (c : Int) (h : 0 ≤ c) : lookupNode m c = m.lookup c.toNat := by
  simp [lookupNode, h]

theorem flattenTree_multi (zero : Θ) (leafVal : V → L) (src : List (SrcNode Θ V)) (h : SrcWF src) (h2 : 2 ≤ src.length) :
    ∃ nodes leaves, flattenTree zero leafVal src = some (nodes, leaves) ∧ TreeOK zero leafVal src nodes leaves := by
  have hwf : ∀ (i : Nat) (n : SrcNode Θ V), src[i]? = some n → n.isLeaf = false →
      (0 ≤ n.left ∧ n.left < src.length) ∧ (0 ≤ n.right ∧ n.right < src.length) := by
    intro i n hn hl
    have ⟨a, b⟩ := mem_childRefs hn hl
    have := h.child_range _ a
    have := h.child_range _ b
    omega
  obtain ⟨s, hs, inv⟩ := flattenLoop_spec src leafVal hwf src 0 ⟨[], [], []⟩ (by omega) (by simp) (by
    constructor
    · simp [rank]
    · simp [childRefs]
    all_goals simp)
  -- children of raw nodes
  have hchild : ∀ c c', ChildOK src leafVal s.leaves c c' → ∃ c'', remapChild s.mapping c' = some c'' ∧
      ∃ n, src[c.toNat]? = some n ∧ 0 ≤ c ∧
        ((n.isLeaf = true ∧ c'' < 0 ∧ c'' = c' ∧ s.leaves[(-c'' - 1).toNat]? = some (leafVal n.value)) ∨
         (n.isLeaf = false ∧ c'' = (rank src c.toNat : Int))) := by
    rintro c c' ⟨n, hn, hc, ⟨hl, hneg, hv⟩ | ⟨hl, rfl⟩⟩
    · refine ⟨c', ?_, n, hn, hc, Or.inl ⟨hl, hneg, rfl, hv⟩⟩
      simp [remapChild, show ¬ (0 ≤ c') by omega]
    · refine ⟨(rank src c'.toNat : Int), ?_, n, hn, hc, Or.inr ⟨hl, rfl⟩⟩
      have := inv.map c'.toNat n (List.getElem?_eq_some_iff.mp hn).1 hn hl
      simp [remapChild, hc, lookupNode_nat, this]
  have hraw : ∀ nd ∈ s.nodes, ∃ (i : Nat) (n : SrcNode Θ V), src[i]? = some n ∧ n.isLeaf = false ∧
      s.nodes[rank src i]? = some nd ∧ nd.feature = n.feature ∧ nd.threshold = n.threshold ∧
      ChildOK src leafVal s.leaves n.left nd.left ∧ ChildOK src leafVal s.leaves n.right nd.right := by
    intro nd hnd
    obtain ⟨p, hp⟩ := List.mem_iff_getElem?.mp hnd
    obtain ⟨i, n, hi, hn, hl, hr⟩ := inv.onto p (List.getElem?_eq_some_iff.mp hp).1
    obtain ⟨l, r, h1, h2, h3⟩ := inv.node i n hi hn hl
    rw [hr, hp] at h1
    cases h1
    exact ⟨i, n, hn, hl, by rw [hr]; exact hp, rfl, rfl, h2, h3⟩
  obtain ⟨nodes, hm, hlen, hget⟩ := mapM_some (remapNode s.mapping) s.nodes (by
    intro nd hnd
    obtain ⟨i, n, _, _, _, _, _, hL, hR⟩ := hraw nd hnd
    obtain ⟨l, hl, _⟩ := hchild _ _ hL
    obtain ⟨r, hr, _⟩ := hchild _ _ hR
    exact ⟨_, by simp [remapNode, hl, hr]; rfl⟩)
  -- final node for each decision row
  have hfin : ∀ (i : Nat) (n : SrcNode Θ V), src[i]? = some n → n.isLeaf = false →
      ∃ l r l0 r0, nodes[rank src i]? = some ⟨n.feature, n.threshold, l, r⟩ ∧
        s.nodes[rank src i]? = some ⟨n.feature, n.threshold, l0, r0⟩ ∧
        (∃ nl, src[n.left.toNat]? = some nl ∧ ((nl.isLeaf = true ∧ l < 0 ∧ l = l0 ∧ s.leaves[(-l - 1).toNat]? = some (leafVal nl.value)) ∨
         (nl.isLeaf = false ∧ l = (rank src n.left.toNat : Int)))) ∧
        (∃ nr, src[n.right.toNat]? = some nr ∧ ((nr.isLeaf = true ∧ r < 0 ∧ r = r0 ∧ s.leaves[(-r - 1).toNat]? = some (leafVal nr.value)) ∨
         (nr.isLeaf = false ∧ r = (rank src n.right.toNat : Int)))) := by
    intro i n hn hl
    obtain ⟨l', r', h1, hL, hR⟩ := inv.node i n (List.getElem?_eq_some_iff.mp hn).1 hn hl
    obtain ⟨y, hy, hy2⟩ := hget _ _ h1
    obtain ⟨l, hl1, nl, hnl, _, hl2⟩ := hchild _ _ hL
    obtain ⟨r, hr1, nr, hnr, _, hr2⟩ := hchild _ _ hR
    simp [remapNode, hl1, hr1] at hy2
    subst hy2
    exact ⟨l, r, l', r', hy, h1, ⟨nl, hnl, hl2⟩, ⟨nr, hnr, hr2⟩⟩
  have honto : ∀ (p : Nat) (nd : Node Θ), nodes[p]? = some nd → ∃ (i : Nat) (n : SrcNode Θ V), src[i]? = some n ∧ n.isLeaf = false ∧ rank src i = p := by
    intro p nd hp
    obtain ⟨i, n, hi, hn, hl, hr⟩ := inv.onto p (by have := (List.getElem?_eq_some_iff.mp hp).1; omega)
    exact ⟨i, n, hn, hl, hr⟩
  have hnlen : nodes.length = rank src src.length := by rw [hlen, inv.nlen]
  have hllen : s.leaves.length = src.countP (fun n => n.isLeaf) := by
    rw [inv.llen]; simp only [List.take_length]; exact h.count h2
  have htotal : nodes.length + s.leaves.length = src.length := by
    rw [hnlen, rank_full, hllen]
    have := List.length_eq_countP_add_countP (fun n : SrcNode Θ V => n.isLeaf) (l := src)
    have e : (src.countP fun n => !n.isLeaf) = src.countP (fun a => decide ¬(a.isLeaf = true)) := by
      congr 1; funext a; simp
    omega
  -- root is a decision node
  have hroot : ∃ n, src[0]? = some n ∧ n.isLeaf = false := by
    have h1 : (1 : Int) ∈ childRefs src := by
      rw [h.refs.mem_iff]
      simp only [List.mem_map, List.mem_range'_1]
      exact ⟨1, by omega, rfl⟩
    simp only [childRefs, List.mem_flatMap] at h1
    obtain ⟨n, hn, hc⟩ := h1
    split at hc
    · simp at hc
    · rename_i hnl
      have hnl : n.isLeaf = false := by simpa using hnl
      obtain ⟨i, hi⟩ := List.mem_iff_getElem?.mp hn
      have ho := h.order i n hi hnl
      have : i = 0 := by
        simp at hc
        omega
      subst this
      exact ⟨n, hi, hnl⟩
  have hrank0 : rank src 0 = 0 := by simp [rank]
  have hok : ForestOK (⟨nodes, [0], s.leaves⟩ : Forest Θ L) := by
    have key : ∀ (i : Nat) (c : Int) (x x0 : Int) (n : SrcNode Θ V), (∃ n0, src[i]? = some n0 ∧ n0.isLeaf = false) → (i : Int) < c → src[c.toNat]? = some n →
        ((n.isLeaf = true ∧ x < 0 ∧ x = x0 ∧ s.leaves[(-x - 1).toNat]? = some (leafVal n.value)) ∨ (n.isLeaf = false ∧ x = (rank src c.toNat : Int))) →
        RefOK nodes.length s.leaves.length (rank src i) x := by
      intro i c x x0 n ⟨n0, hn0, hl0⟩ hic hn hor
      rcases hor with ⟨a, b, e, d⟩ | ⟨a, b⟩
      · have := (List.getElem?_eq_some_iff.mp d).1
        constructor <;> omega
      · have h1 := rank_lt src n0 hn0 hl0 (show i < c.toNat by omega)
        have h2 := rank_lt src n hn a (List.getElem?_eq_some_iff.mp hn).1
        constructor <;> omega
    constructor
    · intro p nd hp
      simp only at hp ⊢
      obtain ⟨i, n, hn, hl, hr⟩ := honto p nd hp
      obtain ⟨l, r, l0, r0, h1, _, ⟨nl, hnl, hl2⟩, ⟨nr, hnr, hr2⟩⟩ := hfin i n hn hl
      rw [hr, hp] at h1
      cases h1
      subst hr
      have ho := h.order i n hn hl
      exact ⟨key i n.left l l0 nl ⟨n, hn, hl⟩ ho.1 hnl hl2, key i n.right r r0 nr ⟨n, hn, hl⟩ ho.2 hnr hr2⟩
    · intro r hr
      simp at hr
      subst hr
      obtain ⟨n, hn, hl⟩ := hroot
      have := rank_lt src n hn hl (show 0 < src.length by omega)
      simp only
      omega
    · intro q hq
      simp only at hq ⊢
      obtain ⟨i, n, hi, hn, hl, hr⟩ := inv.onto q (by omega)
      by_cases h0 : i = 0
      · subst h0; left; simp; omega
      · right
        have hc : (i : Int) ∈ childRefs src := by
          rw [h.refs.mem_iff]
          simp only [List.mem_map, List.mem_range'_1]
          exact ⟨i, by omega, rfl⟩
        simp only [childRefs, List.mem_flatMap] at hc
        obtain ⟨pn, hpn, hc⟩ := hc
        split at hc
        · simp at hc
        · rename_i hnl
          have hnl : pn.isLeaf = false := by simpa using hnl
          obtain ⟨j, hj⟩ := List.mem_iff_getElem?.mp hpn
          obtain ⟨l, r, l0, r0, h1, _, ⟨nl, hnl, hl2⟩, ⟨nr, hnr, hr2⟩⟩ := hfin j pn hj hnl
          refine ⟨_, List.mem_of_getElem? h1, ?_⟩
          simp only [List.mem_cons, List.not_mem_nil, or_false] at hc
          rcases hc with hc | hc
          · left
            rw [← hc] at hnl hl2
            simp only [Int.toNat_natCast] at hnl hl2
            rw [hn] at hnl; cases hnl
            simp only [hl] at hl2
            simp at hl2
            simp only
            rw [hl2, hr]
          · right
            rw [← hc] at hnr hr2
            simp only [Int.toNat_natCast] at hnr hr2
            rw [hn] at hnr; cases hnr
            simp only [hl] at hr2
            simp at hr2
            simp only
            rw [hr2, hr]
    · intro m hm
      simp only at hm ⊢
      obtain ⟨nd, hnd, hu⟩ := inv.leafUsed m hm
      obtain ⟨i, n, hn, hl, hget0, _, _, _⟩ := hraw nd hnd
      obtain ⟨l, r, l0, r0, h1, h0, ⟨nl, hnl, hl2⟩, ⟨nr, hnr, hr2⟩⟩ := hfin i n hn hl
      obtain ⟨l', r', h3, okl, okr⟩ := inv.node i n (List.getElem?_eq_some_iff.mp hn).1 hn hl
      rw [h0] at hget0 h3
      cases h3
      cases hget0
      refine ⟨_, List.mem_of_getElem? h1, ?_⟩
      simp only at hu ⊢
      have ho := h.order i n hn hl
      rcases hu with hu | hu
      · left
        obtain ⟨n1, hn1, _, ⟨a, b, d⟩ | ⟨a, b⟩⟩ := okl
        · rw [hn1] at hnl; cases hnl
          rcases hl2 with ⟨_, _, e, _⟩ | ⟨e, _⟩
          · rw [e, hu]
          · rw [e] at a; cases a
        · omega
      · right
        obtain ⟨n1, hn1, _, ⟨a, b, d⟩ | ⟨a, b⟩⟩ := okr
        · rw [hn1] at hnr; cases hnr
          rcases hr2 with ⟨_, _, e, _⟩ | ⟨e, _⟩
          · rw [e, hu]
          · rw [e] at a; cases a
        · omega
  refine ⟨nodes, s.leaves, ?_, ?_⟩
  · unfold flattenTree
    split
    · simp at h2
    · simp only [hs, hm, Option.bind_eq_bind, Option.bind_some]
      have := refsValid_of_ok _ hok
      simp only at this
      simp [htotal, this]
  · refine ⟨hok, ?_, ?_, hllen, ?_⟩
    · intro go
      have sim : ∀ (d i : Nat) (n : SrcNode Θ V), src.length - i ≤ d → src[i]? = some n → n.isLeaf = false →
          ∃ m v, walk go nodes (rank src src.length - rank src i) (rank src i : Int) = some m ∧
            s.leaves[m]? = some (leafVal v) ∧ ∀ fuel, src.length - i ≤ fuel → srcWalk go src fuel i = some v := by
        intro d
        induction d with
        | zero =>
          intro i n hd hn hl
          have := (List.getElem?_eq_some_iff.mp hn).1
          omega
        | succ d ih =>
          intro i n hd hn hl
          obtain ⟨l, r, l0, r0, h1, _, ⟨nl, hnl, hl2⟩, ⟨nr, hnr, hr2⟩⟩ := hfin i n hn hl
          have hi := (List.getElem?_eq_some_iff.mp hn).1
          have hrk := rank_lt src n hn hl hi
          have ho := h.order i n hn hl
          have step : ∀ (c x : Int) (x0 : Int) (nc : SrcNode Θ V), (i : Int) < c → src[c.toNat]? = some nc →
              ((nc.isLeaf = true ∧ x < 0 ∧ x = x0 ∧ s.leaves[(-x - 1).toNat]? = some (leafVal nc.value)) ∨
               (nc.isLeaf = false ∧ x = (rank src c.toNat : Int))) →
              ∃ m v, walk go nodes (rank src src.length - rank src i - 1) x = some m ∧ s.leaves[m]? = some (leafVal v) ∧
                ∀ fuel, src.length - i - 1 ≤ fuel → srcWalk go src fuel c.toNat = some v := by
            intro c x x0 nc hic hnc hor
            have hclt := (List.getElem?_eq_some_iff.mp hnc).1
            rcases hor with ⟨a, b, e, d'⟩ | ⟨a, b⟩
            · refine ⟨(-x - 1).toNat, nc.value, ?_, d', ?_⟩
              · apply walk_mono go nodes 0 _ _ _ (by omega)
                simp [walk, b]
              · intro fuel hf
                cases fuel with
                | zero => omega
                | succ fuel => simp [srcWalk, hnc, a]
            · obtain ⟨m, v, w1, w2, w3⟩ := ih c.toNat nc (by omega) hnc a
              refine ⟨m, v, ?_, w2, fun fuel hf => w3 fuel (by omega)⟩
              subst b
              apply walk_mono go nodes _ _ _ _ _ w1
              have := rank_lt src n hn hl (show i < c.toNat by omega)
              omega
          have hsel : ∃ m v, walk go nodes (rank src src.length - rank src i - 1) (if go n.feature n.threshold then l else r) = some m ∧ s.leaves[m]? = some (leafVal v) ∧
                ∀ fuel, src.length - i - 1 ≤ fuel → srcWalk go src fuel (if go n.feature n.threshold then n.left else n.right).toNat = some v := by
            split
            · exact step n.left l l0 nl ho.1 hnl hl2
            · exact step n.right r r0 nr ho.2 hnr hr2
          obtain ⟨m, v, w1, w2, w3⟩ := hsel
          refine ⟨m, v, ?_, w2, ?_⟩
          · obtain ⟨k, hk⟩ : ∃ k, rank src src.length - rank src i = k + 1 := ⟨rank src src.length - rank src i - 1, by omega⟩
            rw [hk] at w1 ⊢
            unfold walk
            rw [if_neg (by omega)]
            simp only [Int.toNat_natCast, h1]
            simpa using w1
          · intro fuel hf
            cases fuel with
            | zero => omega
            | succ fuel =>
              unfold srcWalk
              simp only [hn, hl]
              exact w3 fuel (by omega)
      obtain ⟨n, hn, hl⟩ := hroot
      obtain ⟨m, v, w1, w2, w3⟩ := sim src.length 0 n (by omega) hn hl
      refine ⟨m, v, ?_, w2, w3 src.length (by omega)⟩
      rw [hrank0] at w1
      rw [hnlen]
      exact w1
    · rw [hnlen, rank_full]; simp [show src.length ≠ 1 by omega]
    · intro nd hnd
      obtain ⟨p, hp⟩ := List.mem_iff_getElem?.mp hnd
      obtain ⟨i, n, hn, hl, hr⟩ := honto p nd hp
      obtain ⟨l, r, l0, r0, h1, _⟩ := hfin i n hn hl
      rw [hr, hp] at h1
      cases h1
      exact Or.inl ⟨n, List.mem_of_getElem? hn, hl, rfl, rfl⟩

theorem flattenTree_ok (zero : Θ) (leafVal : V → L) (src : List (SrcNode Θ V)) (h : SrcWF src) :
    ∃ nodes leaves, flattenTree zero leafVal src = some (nodes, leaves) ∧ TreeOK zero leafVal src nodes leaves := by
  by_cases h2 : 2 ≤ src.length
  · exact flattenTree_multi zero leafVal src h h2
  · obtain ⟨nd, rfl⟩ : ∃ nd, src = [nd] := by
      have := h.nonempty
      match src, this, h2 with
      | [a], _, _ => exact ⟨a, rfl⟩
      | a :: b :: l, _, h2 => simp at h2
    have hl : nd.isLeaf = true := by
      cases hl : nd.isLeaf with
      | true => rfl
      | false =>
        exfalso
        have := h.refs.length_eq
        simp [childRefs, hl] at this
    have hlr : nd.left = -1 ∧ nd.right = -1 := by
      simpa [SrcNode.isLeaf] using hl
    have hok : ForestOK (⟨[⟨0, zero, -1, -1⟩], [0], [leafVal nd.value]⟩ : Forest Θ L) := by
      constructor
      · intro p n hp
        cases p with
        | zero =>
          simp only [List.getElem?_cons_zero, Option.some.injEq] at hp
          subst hp
          constructor <;> constructor <;> simp
        | succ p => simp at hp
      · simp
      · intro q hq; left; simp at hq ⊢; omega
      · intro m hm; simp at hm; subst hm; exact ⟨_, List.mem_singleton.mpr rfl, Or.inl rfl⟩
    refine ⟨[⟨0, zero, -1, -1⟩], [leafVal nd.value], ?_, ?_⟩
    · have := refsValid_of_ok _ hok
      simp only at this
      simp [flattenTree, hlr, this]
    · refine ⟨hok, ?_, by simp, by simp [hl], ?_⟩
      · intro go
        refine ⟨0, nd.value, ?_, by simp, ?_⟩
        · simp [walk]
        · simp [srcPredict, srcWalk, hl]
      · intro n hn
        simp at hn
        subst hn
        right; simp

end Emlearn.Trees
