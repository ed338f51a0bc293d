/- Helper lemmas connecting converted forests, generated loadable models and generated inline code. -/
import Verif.Trees.VoteLemmas
namespace Emlearn.Trees
variable {Θ V L R F : Type}

/-- `m` is the loadable model generated for the valid forest `f`, used with feature vectors of the model's length, with node contents
that fit their C fields. -/
structure Deployed (quant : Θ → Int) (f : Forest Θ L) (bytes : List Nat) (leafBits nClasses : Int)
    (features : List Int) (m : CModel) : Prop where
  ok : ForestOK f
  gen : generateLoadable quant f bytes leafBits features.length nClasses = some m
  packs : Packs quant features.length f.nodes
  nf : features.length ≤ 127
  nc0 : 0 ≤ nClasses
  nc : nClasses ≤ 127

theorem Deployed.eqs {quant : Θ → Int} {f : Forest Θ L} {bytes : List Nat} {leafBits nClasses : Int}
    {features : List Int} {m : CModel} (h : Deployed quant f bytes leafBits nClasses features m) :
    generateNodes quant f.nodes = some m.nodes ∧ m.nodes.length = f.nodes.length ∧ m.roots = f.roots.map Int.ofNat ∧ m.leaves = bytes ∧
    m.leafBits = (if leafBits = 0 ∨ leafBits = 32 then leafBits else 8) ∧ m.nFeatures = features.length ∧
    m.nClasses = nClasses := by
  have hg := h.gen
  unfold generateLoadable at hg
  cases hn : generateNodes quant f.nodes with
  | none => simp [hn] at hg
  | some tbl =>
    simp [hn] at hg
    subst hg
    have := h.nf
    have := h.nc
    have := h.nc0
    refine ⟨rfl, generateNodesFrom_length quant f.nodes 0 tbl hn, rfl, rfl, rfl, ?_, ?_⟩
    · exact wrap8_id (by omega) (by omega)
    · exact wrap8_id (by omega) (by omega)

/-- The leaf index tree root `r` reaches. -/
def leafIndex (go : Int → Θ → Bool) (f : Forest Θ L) (r : Nat) : Nat :=
  (walk go f.nodes f.nodes.length (r : Int)).getD 0

theorem leafIndex_spec (go : Int → Θ → Bool) {f : Forest Θ L} (h : ForestOK f) {r : Nat} (hr : r ∈ f.roots) :
    walk go f.nodes f.nodes.length (r : Int) = some (leafIndex go f r) ∧ leafIndex go f r < f.leaves.length := by
  obtain ⟨m, h1, h2⟩ := walk_total go h f.nodes.length r (h.roots r hr) (by omega)
  simp [leafIndex, h1, h2]

theorem Deployed.trees {quant : Θ → Int} {f : Forest Θ L} {bytes : List Nat} {leafBits nClasses : Int}
    {features : List Int} {m : CModel} (h : Deployed quant f bytes leafBits nClasses features m) :
    List.Forall₂ (TreeLeaf m features) m.roots (f.roots.map (leafIndex (cmpInt features quant) f)) := by
  obtain ⟨h1, h2, h3, _⟩ := h.eqs
  rw [h3]
  rw [List.forall₂_map_left_iff, List.forall₂_map_right_iff]
  apply List.forall₂_same.mpr
  intro r hr
  unfold TreeLeaf CModel.tree
  rw [h2, predictTree_eq_walk quant features f.nodes m.nodes h1 h.packs _ _ (by simp only [Int.ofNat_eq_natCast]; omega)]
  have := (leafIndex_spec (cmpInt features quant) h.ok hr).1
  simp only [Int.ofNat_eq_natCast, this, Option.map_some]

/-- Inline tree functions of a valid forest. -/
theorem inlineTrees_spec {f : Forest Θ L} (h : ForestOK f) (leafOf : Nat → Option R)
    (hleaf : ∀ m, m < f.leaves.length → ∃ v, leafOf m = some v) :
    ∃ ts, inlineTrees f leafOf = some ts ∧ ts.length = f.roots.length ∧
      ∀ go : Int → Θ → Bool, List.Forall₂ (fun (t : Stmt Θ R) (i : Nat) => leafOf i = some (t.eval go)) ts (f.roots.map (leafIndex go f)) := by
  have key : ∀ (rs : List Nat), (∀ r ∈ rs, r ∈ f.roots) →
      ∃ ts, rs.mapM (fun (r : Nat) => inlineNode f.nodes leafOf f.nodes.length (r : Int)) = some ts ∧ ts.length = rs.length ∧
        ∀ go : Int → Θ → Bool, List.Forall₂ (fun (t : Stmt Θ R) (i : Nat) => leafOf i = some (t.eval go)) ts (rs.map (leafIndex go f)) := by
    intro rs
    induction rs with
    | nil => intro _; exact ⟨[], by simp, rfl, fun go => by simp⟩
    | cons r rs ih =>
      intro hr
      obtain ⟨ts, h1, h2, h3⟩ := ih (fun x hx => hr x (by simp [hx]))
      obtain ⟨st, s1, s2⟩ := inlineNode_spec h leafOf hleaf f.nodes.length r (h.roots r (hr r (by simp))) (by omega)
      refine ⟨st :: ts, by simp [List.mapM_cons, s1, h1], by simp [h2], ?_⟩
      intro go
      simp only [List.map_cons]
      refine List.Forall₂.cons ?_ (h3 go)
      obtain ⟨m, w1, w2⟩ := s2 go
      have := (leafIndex_spec go h (hr r (by simp))).1
      rw [w1] at this
      cases this
      exact w2
  exact key f.roots (fun r hr => hr)

/-- Source-level side conditions imply the table packs. -/
theorem packs_of_source (zero : Θ) (quant : Θ → Int) (trees : List (List (SrcNode Θ V))) (nf : Nat) (f : Forest Θ L)
    (hok : ForestOK f)
    (hprov : ∀ nd ∈ f.nodes, (∃ src ∈ trees, ∃ row ∈ src, row.isLeaf = false ∧ nd.feature = row.feature ∧
        nd.threshold = row.threshold) ∨ (nd.feature = 0 ∧ nd.threshold = zero))
    (hnf : 1 ≤ nf) (hnf2 : nf ≤ 127)
    (hfeat : ∀ src ∈ trees, ∀ row ∈ src, row.isLeaf = false → 0 ≤ row.feature ∧ row.feature < nf ∧
      -32768 ≤ quant row.threshold ∧ quant row.threshold ≤ 32767)
    (hz : quant zero = 0) (hsize : f.nodes.length ≤ 32768) : Packs quant nf f.nodes := by
  constructor
  · intro n hn
    rcases hprov n hn with ⟨src, hs, row, hr, hl, e1, e2⟩ | ⟨e1, e2⟩
    · have := hfeat src hs row hr hl; omega
    · omega
  · intro n hn
    rcases hprov n hn with ⟨src, hs, row, hr, hl, e1, e2⟩ | ⟨e1, e2⟩
    · have := hfeat src hs row hr hl; rw [e2]; omega
    · rw [e2]; omega
  · intro p n hp
    have ⟨a, b⟩ := hok.refs p n hp
    unfold RefOK at a b
    omega

end Emlearn.Trees
