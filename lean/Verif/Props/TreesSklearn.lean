/- Property C83: converted soft-voting forests against scikit-learn's averaged class probabilities. -/
import Verif.Props.TreesInline
import Verif.Props.TreesQuantize
import Verif.Trees.LeafProv
import Mathlib.Data.Rat.Floor
namespace Emlearn.Trees
variable {Θ : Type} {K : Type} [Field K] [LinearOrder K] [IsStrictOrderedRing K] [FloorRing K]

/-- A probability vector over `n` classes. -/
def ProbVector (n : Nat) (p : List K) : Prop := p.length = n ∧ (∀ x ∈ p, 0 ≤ x) ∧ p.sum = 1

/-- scikit-learn's forest probability of class `c`: the mean over the trees of the probability in the leaf each tree reaches. -/
def meanAt (ps : List (List K)) (c : Nat) : K := (ps.map (fun p => p.getD c 0)).sum / (ps.length : K)

/-- The allowed deviation of one class probability: half a quantization step plus the truncation to a byte. -/
def softTol (K : Type) [Field K] (bits : Int) : K := 1 / (2 * (2 ^ bits.toNat - 2)) + 1 / 255

/-- The byte of one probability: never off by more than the tolerance, and positive when the probability exceeds half a step. -/
theorem quantizeByte_close (bits : Int) (hb1 : 2 ≤ bits) (hb2 : bits ≤ 8) (p : K) (h0 : 0 ≤ p) (h1 : p ≤ 1) :
    0 ≤ quantizeByte (2 ^ bits.toNat - 2) p ∧ quantizeByte (2 ^ bits.toNat - 2) p ≤ 255 ∧
    |((quantizeByte (2 ^ bits.toNat - 2) p : Int) : K) / 255 - p| ≤ softTol K bits ∧
    (1 < 2 * (p * ((2 ^ bits.toNat - 2 : Nat) : K)) → 0 < quantizeByte (2 ^ bits.toNat - 2) p) := by
  have h4 : 2 ^ 2 ≤ 2 ^ bits.toNat := Nat.pow_le_pow_right (by omega) (by omega)
  have h8 : 2 ^ bits.toNat ≤ 2 ^ 8 := Nat.pow_le_pow_right (by omega) (by omega)
  have hm : 2 ≤ 2 ^ bits.toNat - 2 := by omega
  obtain ⟨a0, a1, e, c0, c1⟩ := quantizeByte_spec (2 ^ bits.toNat - 2) (by omega) p h0 h1
  refine ⟨c0, c1, ?_, ?_⟩
  · obtain ⟨out, ho, _, hall⟩ := C12_quantize_bounded_endpoints bits hb1 hb2 [p] (by simp) (by simpa using h0) (by simpa using h1)
    obtain ⟨he, _⟩ := quantizeProbabilities_eq bits hb1 hb2 [p] (by simp) (by simpa using h0) (by simpa using h1)
    rw [ho] at he
    cases he
    have := (hall 0 p (quantizeByte (2 ^ bits.toNat - 2) p) (by simp) (by simp)).2.2.2.2
    unfold softTol
    generalize hq : ((quantizeByte (2 ^ bits.toNat - 2) p : Int) : K) = q at *
    generalize hs : (2 : K) ^ bits.toNat - 2 = s at *
    have hsm : s = ((2 ^ bits.toNat - 2 : Nat) : K) := by
      rw [← hs, Nat.cast_sub (by omega)]; push_cast; ring
    have hs0 : 0 < s := by rw [hsm]; exact_mod_cast (show 0 < 2 ^ bits.toNat - 2 by omega)
    have e1 : q / 255 - p = (q - 255 * p) / 255 := by field_simp
    rw [e1, abs_div, abs_of_pos (by norm_num : (0 : K) < 255), div_le_iff₀ (by norm_num)]
    have e2 : (1 / (2 * s) + 1 / 255) * 255 = 255 / s / 2 + 1 := by field_simp
    rw [e2]
    exact this.le
  · intro hp
    have hm254 : 2 ^ bits.toNat - 2 ≤ 254 := by omega
    rw [e]
    have hr : 1 ≤ roundHalfEven (p * ((2 ^ bits.toNat - 2 : Nat) : K)) := by
      have h := abs_le.mp (rhe_near (p * ((2 ^ bits.toNat - 2 : Nat) : K)))
      have : (0 : K) < (roundHalfEven (p * ((2 ^ bits.toNat - 2 : Nat) : K)) : K) := by linarith [h.1]
      have : 0 < roundHalfEven (p * ((2 ^ bits.toNat - 2 : Nat) : K)) := by exact_mod_cast this
      omega
    have hmK : (0 : K) < ((2 ^ bits.toNat - 2 : Nat) : K) := by exact_mod_cast (show 0 < 2 ^ bits.toNat - 2 by omega)
    have hmK2 : ((2 ^ bits.toNat - 2 : Nat) : K) ≤ 254 := by exact_mod_cast hm254
    have hrK : (1 : K) ≤ (roundHalfEven (p * ((2 ^ bits.toNat - 2 : Nat) : K)) : K) := by exact_mod_cast hr
    have : ((1 : Int) : K) ≤ (roundHalfEven (p * ((2 ^ bits.toNat - 2 : Nat) : K)) : K) / ((2 ^ bits.toNat - 2 : Nat) : K) * 255 := by
      rw [Int.cast_one, div_mul_eq_mul_div, le_div_iff₀ hmK]
      linarith
    have := Int.le_floor.mpr this
    omega

omit [FloorRing K] in
theorem probVector_le_one {n : Nat} {p : List K} (h : ProbVector n p) : ∀ x ∈ p, x ≤ 1 := by
  intro x hx
  rw [← h.2.2]
  exact List.single_le_sum h.2.1 x hx

omit [FloorRing K] in
theorem probVector_big {n : Nat} {p : List K} (h : ProbVector n p) : ∃ x ∈ p, 1 ≤ x * (n : K) := by
  by_contra hc
  push Not at hc
  have hn : p ≠ [] := by rintro rfl; have := h.2.2; simp at this
  have hpos : (0 : K) < (n : K) := by
    rw [← h.1]; exact_mod_cast List.length_pos_iff.mpr hn
  have : ∀ l : List K, (∀ x ∈ l, x * (n : K) < 1) → l ≠ [] → l.sum * (n : K) < l.length := by
    intro l
    induction l with
    | nil => intro _ h; exact absurd rfl h
    | cons a l ih =>
      intro ha _
      have h1 := ha a (by simp)
      by_cases hl : l = []
      · subst hl; simpa using h1
      · have := ih (fun x hx => ha x (by simp [hx])) hl
        simp only [List.sum_cons, List.length_cons, Nat.cast_add, Nat.cast_one]
        linarith [add_mul a l.sum (n : K)]
  have := this p hc hn
  rw [h.2.2, h.1, one_mul] at this
  exact lt_irrefl _ this

theorem srcWalk_leaf {Θ V : Type} (go : Int → Θ → Bool) (src : List (SrcNode Θ V)) : ∀ (fuel i : Nat) (v : V),
    srcWalk go src fuel i = some v → ∃ row ∈ src, row.isLeaf = true ∧ row.value = v
  | 0, i, v, h => by simp [srcWalk] at h
  | fuel + 1, i, v, h => by
    unfold srcWalk at h
    cases hg : src[i]? with
    | none => simp [hg] at h
    | some n =>
      simp only [hg] at h
      split at h
      · rename_i hl
        simp at h; exact ⟨n, List.mem_of_getElem? hg, hl, h⟩
      · exact srcWalk_leaf go src fuel _ v h

omit [FloorRing K] in
theorem sum_close (bs ps : List K) (ε : K) (h : List.Forall₂ (fun b p => |b - p| ≤ ε) bs ps) :
    |bs.sum - ps.sum| ≤ (ps.length : K) * ε := by
  induction h with
  | nil => simp
  | @cons a b l l' h1 _ ih =>
    simp only [List.sum_cons, List.length_cons, Nat.cast_add, Nat.cast_one]
    have := abs_le.mp h1
    have := abs_le.mp ih
    rw [abs_le]
    constructor <;> linarith [add_mul (l'.length : K) 1 ε]

/-- **C83** A forest of well-formed trees with class-probability leaves over `1..30` classes, converted with `leaf_bits` 2 to 8 such that `n_classes < 2*(2^leaf_bits - 2)`: for every feature vector,
`predict_proba()` is within half a quantization step plus `1/255` of the mean of the class probabilities in the leaves the source trees reach, `predict()` returns an existing class, and that class
is within twice the tolerance of the class with the highest mean probability (exact arithmetic for the probabilities; the tree walk uses the generated integer comparison). -/
theorem C83_soft_vote_close (bits : Int) (hb1 : 2 ≤ bits) (hb2 : bits ≤ 8) (zero : Θ) (quant : Θ → Int) (nClasses : Nat)
    (hn30 : nClasses ≤ 30) (hn2 : nClasses < 2 * (2 ^ bits.toNat - 2))
    (leafVal : List K → List Nat) (hq : ∀ p b, quantizeProbabilities bits p = some b → leafVal p = b.map Int.toNat)
    (trees : List (List (SrcNode Θ (List K)))) (hne : trees ≠ []) (hwf : ∀ src ∈ trees, SrcWF src)
    (hdist : ∀ src ∈ trees, ∀ row ∈ src, row.isLeaf = true → ProbVector nClasses row.value) (features : List Int) :
    ∃ f, convertForest zero leafVal trees = some f ∧
      ∀ m, Deployed quant f (leafBytesSoft f.leaves) bits nClasses features m →
        ∃ (ps : List (List K)) (out : List K) (k : Nat),
          List.Forall₂ (fun src p => srcPredict (cmpInt features quant) src = some p) trees ps ∧
          predictProba (exactOps K) m features nClasses = some (.ok out) ∧ out.length = nClasses ∧
          (∀ (c : Nat) (y : K), out[c]? = some y → |y - meanAt ps c| ≤ softTol K bits) ∧
          predict (exactOps K) m features features.length = some (k : Int) ∧ k < nClasses ∧
          ∀ c, c < nClasses → meanAt ps c ≤ meanAt ps k + 2 * softTol K bits := by
  obtain ⟨f, hf, hrl, hsim⟩ := C01_convert_same_leaf zero leafVal trees hne hwf
  refine ⟨f, hf, ?_⟩
  intro m hd
  obtain ⟨_, _, e3, e4, e5, e6, e7⟩ := hd.eqs
  have hncN : m.nClasses.toNat = nClasses := by rw [e7]; simp
  have hlv : ∀ p : List K, ProbVector nClasses p → leafVal p = (p.map (quantizeByte (2 ^ bits.toNat - 2))).map Int.toNat := by
    intro p hp
    apply hq
    refine (quantizeProbabilities_eq bits hb1 hb2 p ?_ hp.2.1 (probVector_le_one hp)).1
    rintro rfl; have := hp.2.2; simp at this
  have hleaves := convertForest_leaves zero leafVal trees f hf
  have hlen : ∀ r ∈ f.leaves, r.length = nClasses := by
    intro r hr
    obtain ⟨src, hs, row, hrow, hl, rfl⟩ := hleaves r hr
    have := hdist src hs row hrow hl
    rw [hlv _ this]; simp [this.1]
  -- the probability vectors reached by the source trees
  have hsp : ∀ src ∈ trees, ∃ v, srcPredict (cmpInt features quant) src = some v ∧ ProbVector nClasses v := by
    intro src hs
    obtain ⟨i, hi⟩ := List.mem_iff_getElem?.mp hs
    obtain ⟨r, v, _, p2, _⟩ := hsim (cmpInt features quant) i src hi
    obtain ⟨row, hrow, hl, rfl⟩ := srcWalk_leaf _ _ _ _ _ p2
    exact ⟨_, p2, hdist src hs row hrow hl⟩
  let pOf : List (SrcNode Θ (List K)) → List K := fun src => (srcPredict (cmpInt features quant) src).getD []
  have hpOf : ∀ src ∈ trees, srcPredict (cmpInt features quant) src = some (pOf src) ∧ ProbVector nClasses (pOf src) := by
    intro src hs
    obtain ⟨v, h1, h2⟩ := hsp src hs
    simp only [pOf, h1, Option.getD_some]
    exact ⟨trivial, h2⟩
  let ps := trees.map pOf
  let idxs := f.roots.map (leafIndex (cmpInt features quant) f)
  have hidx : List.Forall₂ (fun (i : Nat) (p : List K) => f.leaves[i]? = some (leafVal p) ∧ ProbVector nClasses p) idxs ps := by
    rw [List.forall₂_iff_get]
    refine ⟨by simp [idxs, ps, hrl], ?_⟩
    intro i h1 h2
    have hi : i < trees.length := by simpa [ps] using h2
    have hi' : i < f.roots.length := by simpa [idxs] using h1
    obtain ⟨r, v, p1, p2, p3⟩ := hsim (cmpInt features quant) i trees[i] (List.getElem?_eq_getElem hi)
    have hr : f.roots[i] = r := by
      rw [List.getElem?_eq_getElem hi'] at p1; exact Option.some.inj p1
    have hleafI := leafIndex_spec (cmpInt features quant) hd.ok (List.mem_of_getElem? p1)
    simp only [List.get_eq_getElem, idxs, ps, List.getElem_map, hr]
    have hv : pOf trees[i] = v := by
      have := (hpOf _ (List.getElem_mem hi)).1
      rw [p2] at this; exact (Option.some.inj this).symm
    rw [hv]
    constructor
    · have := p3
      simp only [forestPredict, hleafI.1, Option.bind_some] at this
      exact this
    · have := (hpOf _ (List.getElem_mem hi)).2
      rw [hv] at this; exact this
  have hroots : m.roots ≠ [] := by
    rw [e3]
    intro h
    simp at h
    rw [h] at hrl
    simp at hrl
    exact hne (List.length_eq_zero_iff.mp hrl.symm)
  have hmlen : m.roots.length = trees.length := by rw [e3]; simp [hrl]
  have hpslen : ps.length = m.roots.length := by simp [ps, hmlen]
  have hposK : (0 : K) < (m.roots.length : K) := by exact_mod_cast List.length_pos_iff.mpr hroots
  let row : Nat → Nat → Nat := fun i c => ((((f.leaves[i]?).bind (fun r => r[c]?)).getD 0) % 256)
  have hlb : m.leafBits = 8 := by rw [e5]; split <;> omega
  have hrows : ∀ i ∈ idxs, ∀ c, c < m.nClasses.toNat → m.leaves[i * m.nClasses.toNat + c]? = some (row i c) := by
    intro i hi c hc
    rw [hncN] at hc ⊢
    have hilt : i < f.leaves.length := by
      simp only [idxs, List.mem_map] at hi
      obtain ⟨r, hr, rfl⟩ := hi
      exact (leafIndex_spec _ hd.ok hr).2
    rw [e4]
    unfold leafBytesSoft
    rw [List.getElem?_map, flatten_get f.leaves nClasses hlen i c hc]
    have hr := hlen _ (List.getElem_mem hilt)
    simp only [row, List.getElem?_eq_getElem hilt, Option.bind_some]
    rw [List.getElem?_eq_getElem (by omega)]
    rfl
  obtain ⟨out, ho1, ho2, _⟩ := C08_soft_proba_mean (K := K) m features idxs row hlb hroots hd.trees hrows
    (fun i c => by simp only [row]; omega)
  -- bytes of reached leaves
  have hrowq : ∀ (i : Nat) (p : List K), f.leaves[i]? = some (leafVal p) → ProbVector nClasses p → ∀ c, c < nClasses →
      0 ≤ quantizeByte (2 ^ bits.toNat - 2) (p.getD c 0) ∧
      ((row i c : Nat) : Int) = quantizeByte (2 ^ bits.toNat - 2) (p.getD c 0) ∧ p.getD c 0 ∈ p := by
    intro i p hi hp c hc
    have hcp : c < p.length := by rw [hp.1]; exact hc
    have hg : p.getD c 0 = p[c] := by simp [hcp]
    have hmem : p[c] ∈ p := List.getElem_mem hcp
    obtain ⟨q0, q1, _⟩ := quantizeByte_close bits hb1 hb2 p[c] (hp.2.1 _ hmem) (probVector_le_one hp _ hmem)
    rw [hg]
    refine ⟨q0, ?_, hmem⟩
    have : row i c = (quantizeByte (2 ^ bits.toNat - 2) p[c]).toNat % 256 := by
      simp only [row, hi, Option.bind_some, hlv p hp, List.map_map, List.getElem?_map, List.getElem?_eq_getElem hcp, Option.map_some,
        Option.getD_some, Function.comp]
    rw [this]
    omega
  have hclose : ∀ c, c < nClasses → |(idxs.map (fun i => ((row i c : Nat) : K) / 255)).sum / (m.roots.length : K) - meanAt ps c| ≤ softTol K bits := by
    intro c hc
    have h2 : List.Forall₂ (fun b p => |b - p| ≤ softTol K bits) (idxs.map (fun i => ((row i c : Nat) : K) / 255)) (ps.map (fun p => p.getD c 0)) := by
      rw [List.forall₂_map_left_iff, List.forall₂_map_right_iff]
      refine hidx.imp ?_
      rintro i p ⟨h1, h2⟩
      obtain ⟨q0, q1, q2⟩ := hrowq i p h1 h2 c hc
      have := (quantizeByte_close bits hb1 hb2 (p.getD c 0) (h2.2.1 _ q2) (probVector_le_one h2 _ q2)).2.2.1
      rw [← q1] at this
      simpa using this
    have h3 := sum_close _ _ _ h2
    unfold meanAt
    rw [hpslen, ← sub_div, abs_div, abs_of_pos hposK, div_le_iff₀ hposK]
    rw [List.length_map, hpslen] at h3
    linarith [mul_comm (m.roots.length : K) (softTol K bits)]
  have hget : ∀ (c : Nat) (y : K), out[c]? = some y → c < nClasses ∧ y = (idxs.map (fun i => ((row i c : Nat) : K) / 255)).sum / (m.roots.length : K) := by
    intro c y hy
    rw [ho2, List.getElem?_map] at hy
    obtain ⟨x, hx, rfl⟩ := Option.map_eq_some_iff.mp hy
    have hx' := List.getElem?_eq_some_iff.mp hx
    obtain ⟨hlt, hx'⟩ := hx'
    simp at hx' hlt
    subst hx'
    exact ⟨by omega, rfl⟩
  have hget' : ∀ c, c < nClasses → out[c]? = some ((idxs.map (fun i => ((row i c : Nat) : K) / 255)).sum / (m.roots.length : K)) := by
    intro c hc
    rw [ho2, List.getElem?_map, List.getElem?_range (by omega)]
    rfl
  have hproba : predictProba (exactOps K) m features nClasses = some (.ok out) := by
    rw [← e7]; exact ho1
  -- some class gets a positive vote
  have hposv : ∃ c, c < nClasses ∧ 0 < (idxs.map (fun i => ((row i c : Nat) : K) / 255)).sum / (m.roots.length : K) := by
    obtain ⟨i0, p0, it, pt, hI, hP⟩ : ∃ i0 p0 it pt, idxs = i0 :: it ∧ ps = p0 :: pt := by
      have h1 : idxs.length = ps.length := hidx.length_eq
      have h2 : 0 < ps.length := by rw [hpslen]; exact List.length_pos_iff.mpr hroots
      match idxs, ps, h1, h2 with
      | a :: b, c :: d, _, _ => exact ⟨a, c, b, d, rfl, rfl⟩
      | [], _ :: _, h, _ => simp at h
    rw [hI, hP] at hidx
    cases hidx with
    | cons h1 h2 =>
      obtain ⟨x, hx, hbig⟩ := probVector_big h1.2
      obtain ⟨c, hc⟩ := List.mem_iff_getElem?.mp hx
      have hcl := (List.getElem?_eq_some_iff.mp hc).1
      have hcn : c < nClasses := by rw [← h1.2.1]; exact hcl
      have hg : p0.getD c 0 = x := by simp [List.getD_eq_getElem?_getD, hc]
      obtain ⟨q0, q1, q2⟩ := hrowq i0 p0 h1.1 h1.2 c hcn
      have hpos := (quantizeByte_close bits hb1 hb2 (p0.getD c 0) (h1.2.2.1 _ q2) (probVector_le_one h1.2 _ q2)).2.2.2 (by
        rw [hg]
        have hx0 := h1.2.2.1 x hx
        have hx1 : 0 < x := by
          rcases lt_or_eq_of_le hx0 with h | h
          · exact h
          · rw [← h, zero_mul] at hbig; linarith
        have : (nClasses : K) < 2 * ((2 ^ bits.toNat - 2 : Nat) : K) := by exact_mod_cast hn2
        nlinarith)
      refine ⟨c, hcn, ?_⟩
      apply div_pos _ hposK
      rw [hI]
      simp only [List.map_cons, List.sum_cons]
      have hr0 : 0 < row i0 c := by omega
      have hr1 : (0 : K) < ((row i0 c : Nat) : K) / 255 := by
        have : (0 : K) < ((row i0 c : Nat) : K) := by exact_mod_cast hr0
        positivity
      have : (0 : K) ≤ (it.map (fun i => ((row i c : Nat) : K) / 255)).sum := by
        apply List.sum_nonneg
        intro y hy
        simp only [List.mem_map] at hy
        obtain ⟨_, _, rfl⟩ := hy
        positivity
      linarith
  have hpred : predict (exactOps K) m features features.length = some (argmaxLoop (fun a b => decide (a < b)) out 0 (-1) (0 : K)) := by
    unfold predict
    rw [if_neg (by rw [e6]; simp), if_neg (by rw [e7]; omega), ho1]
    rfl
  rcases argmaxLoop_spec out 0 (-1) (0 : K) with ⟨_, hall⟩ | ⟨k, ek, v, hv, hpos, hmax, _⟩
  · exfalso
    obtain ⟨c, hc, hc2⟩ := hposv
    have := hall _ (List.mem_of_getElem? (hget' c hc))
    linarith
  · obtain ⟨hk, hvk⟩ := hget k v hv
    refine ⟨ps, out, k, ?_, hproba, by rw [ho2]; simp [hncN], ?_, ?_, hk, ?_⟩
    · simp only [ps]
      rw [List.forall₂_map_right_iff]
      exact List.forall₂_same.mpr (fun src hs => (hpOf src hs).1)
    · intro c y hy
      obtain ⟨hc, rfl⟩ := hget c y hy
      exact hclose c hc
    · rw [hpred, ek]; simp
    · intro c hc
      have h1 := hmax c _ (hget' c hc)
      have h2 := abs_le.mp (hclose c hc)
      have h3 := abs_le.mp (hclose k hk)
      rw [← hvk] at h3
      linarith [h2.1, h3.2]

/-- **C83** (decided cases) a class whose mean probability leads every other class by more than twice the tolerance is the one `predict()` returns. -/
theorem C83_clear_winner (bits : Int) (hb1 : 2 ≤ bits) (hb2 : bits ≤ 8) (zero : Θ) (quant : Θ → Int) (nClasses : Nat)
    (hn30 : nClasses ≤ 30) (hn2 : nClasses < 2 * (2 ^ bits.toNat - 2))
    (leafVal : List K → List Nat) (hq : ∀ p b, quantizeProbabilities bits p = some b → leafVal p = b.map Int.toNat)
    (trees : List (List (SrcNode Θ (List K)))) (hne : trees ≠ []) (hwf : ∀ src ∈ trees, SrcWF src)
    (hdist : ∀ src ∈ trees, ∀ row ∈ src, row.isLeaf = true → ProbVector nClasses row.value) (features : List Int)
    (ps : List (List K)) (hps : List.Forall₂ (fun src p => srcPredict (cmpInt features quant) src = some p) trees ps)
    (k : Nat) (hk : k < nClasses) (hlead : ∀ c, c < nClasses → c ≠ k → meanAt ps c + 2 * softTol K bits < meanAt ps k) :
    ∃ f, convertForest zero leafVal trees = some f ∧
      ∀ m, Deployed quant f (leafBytesSoft f.leaves) bits nClasses features m →
        predict (exactOps K) m features features.length = some (k : Int) := by
  obtain ⟨f, hf, h⟩ := C83_soft_vote_close bits hb1 hb2 zero quant nClasses hn30 hn2 leafVal hq trees hne hwf hdist features
  refine ⟨f, hf, fun m hd => ?_⟩
  obtain ⟨ps', out, k', h1, _, _, hx, h5, h6, h7⟩ := h m hd
  clear hx
  have e : ps' = ps := by
    clear h7 hlead hne hwf hdist hf h
    induction hps generalizing ps' with
    | nil => cases h1; rfl
    | cons a _ ih =>
      cases h1 with
      | cons b h1 =>
        rw [a] at b
        cases b
        rw [ih _ h1]
  subst e
  by_cases hkk : k' = k
  · rw [← hkk]; exact h5
  · have := hlead k' h6 hkk
    have := h7 k hk
    linarith

/-- **C02** (leaf data) every leaf of a converted forest is the leaf data of a leaf row of one of the source trees. -/
theorem C02_leaf_data_from_source {V L : Type} [DecidableEq L] (zero : Θ) (leafVal : V → L) (trees : List (List (SrcNode Θ V))) (f : Forest Θ L)
    (h : convertForest zero leafVal trees = some f) (x : L) (hx : x ∈ f.leaves) :
    ∃ src ∈ trees, ∃ row ∈ src, row.isLeaf = true ∧ x = leafVal row.value :=
  convertForest_leaves zero leafVal trees f h x hx

/-- **C83** (single decision tree, hard voting) the converted model returns exactly the class of the leaf the source tree reaches, in every float arithmetic with faithful vote counting. -/
theorem C83_single_tree_exact {V F : Type} (ops : FOps F) (cnt : Nat → F) (laws : VoteLaws ops 1 cnt) (zero : Θ) (leafVal : V → Nat) (quant : Θ → Int)
    (src : List (SrcNode Θ V)) (hwf : SrcWF src) (features : List Int) (nClasses : Nat) (hnc : nClasses ≤ 30)
    (hleaf : ∀ row ∈ src, leafVal row.value < nClasses) :
    ∃ f, convertForest zero leafVal [src] = some f ∧
      ∀ m, Deployed quant f (leafBytesHard f.leaves) 0 nClasses features m →
        ∃ v, srcPredict (cmpInt features quant) src = some v ∧ predict ops m features features.length = some (leafVal v : Int) := by
  obtain ⟨f, hf, h⟩ := C07_converted_plurality ops cnt zero leafVal quant [src] (by simp) (by simpa using hwf) laws features nClasses hnc
    (by simpa using hleaf)
  refine ⟨f, hf, fun m hd => ?_⟩
  obtain ⟨classes, c, h1, h2, h3⟩ := h m hd
  cases h1 with
  | cons a b =>
    cases b
    obtain ⟨v, hv, rfl⟩ := a
    refine ⟨v, hv, ?_⟩
    rw [h2]
    obtain ⟨row, hrow, _, hrv⟩ := srcWalk_leaf _ _ _ _ _ hv
    have hlt := hleaf row hrow
    rw [hrv] at hlt
    have := h3.2.1 (leafVal v) hlt
    rw [List.count_singleton_self] at this
    have h4 : 0 < List.count c [leafVal v] := by omega
    have := List.count_pos_iff.mp h4
    simp only [List.mem_singleton] at this
    rw [this]

/-- The leaf data of `leaf='probabilities'` as used by the examples below. -/
def exLeafVal (bits : Int) (p : List Rat) : List Nat := ((quantizeProbabilities bits p).getD []).map Int.toNat

/-- A source tree that is a single leaf. -/
def leafTree (p : List Rat) : List (SrcNode Int (List Rat)) := [⟨-1, -1, -2, 0, p⟩]

theorem leafTree_wf (p : List Rat) : SrcWF (leafTree p) := by
  refine ⟨by simp [leafTree], ?_, by simp [leafTree, childRefs, SrcNode.isLeaf]⟩
  intro i n h hl
  match i with
  | 0 => simp [leafTree] at h; subst h; simp [SrcNode.isLeaf] at hl
  | i + 1 => simp [leafTree] at h

/-- The bound on the number of classes is needed: with `leaf_bits = 2` and 4 equally likely classes every stored probability is 0, `predict()` returns the error value -1, and the Python wrapper
reports that as class 1. -/
theorem C83_class_bound_sharp :
    ∃ (trees : List (List (SrcNode Int (List Rat)))) (f : Forest Int (List Nat)) (m : CModel),
      (∀ src ∈ trees, SrcWF src ∧ ∀ row ∈ src, ProbVector 4 row.value) ∧
      convertForest 0 (exLeafVal 2) trees = some f ∧ generateLoadable id f (leafBytesSoft f.leaves) 2 1 4 = some m ∧
      predict (exactOps Rat) m [7] 1 = some (-1) ∧ predictWrapper (-1) = 1 := by
  refine ⟨[leafTree [1/4, 1/4, 1/4, 1/4]], ⟨[⟨0, 0, -1, -1⟩], [0], [[0, 0, 0, 0]]⟩, ⟨[⟨0, 0, -1, -1⟩], [0], [0, 0, 0, 0], 8, 1, 4⟩, ?_, ?_, ?_, ?_, by decide⟩
  · intro src h
    simp only [List.mem_singleton] at h
    subst h
    refine ⟨leafTree_wf _, ?_⟩
    intro row hr
    simp only [leafTree, List.mem_singleton] at hr
    subst hr
    exact ⟨rfl, by decide +kernel, by decide +kernel⟩
  · decide +kernel
  · decide +kernel
  · decide +kernel

/-- With hard voting (`leaf_bits = 0`, the default) the converted forest can differ from scikit-learn however clear scikit-learn's decision is: two trees vote for class 0 with probability 3/5, one for
class 1 with certainty; the mean probability of class 1 is 3/5, the converted model returns class 0. -/
theorem C83_hard_vote_differs :
    ∃ (trees : List (List (SrcNode Int (List Rat)))) (ps : List (List Rat)) (f : Forest Int Nat) (m : CModel),
      (∀ src ∈ trees, SrcWF src ∧ ∀ row ∈ src, ProbVector 2 row.value) ∧
      convertForest 0 (fun p : List Rat => if p.getD 0 0 < p.getD 1 0 then 1 else 0) trees = some f ∧
      generateLoadable id f (leafBytesHard f.leaves) 0 1 2 = some m ∧
      List.Forall₂ (fun src p => srcPredict (cmpInt [7] id) src = some p) trees ps ∧
      meanAt ps 0 = 2/5 ∧ meanAt ps 1 = 3/5 ∧ predict (exactOps Rat) m [7] 1 = some 0 := by
  refine ⟨[leafTree [3/5, 2/5], leafTree [3/5, 2/5], leafTree [0, 1]], [[3/5, 2/5], [3/5, 2/5], [0, 1]],
    ⟨[⟨0, 0, -1, -1⟩, ⟨0, 0, -1, -1⟩, ⟨0, 0, -2, -2⟩], [0, 1, 2], [0, 1]⟩,
    ⟨[⟨0, 0, -1, -1⟩, ⟨0, 0, -1, -1⟩, ⟨0, 0, -2, -2⟩], [0, 1, 2], [0, 1], 0, 1, 2⟩, ?_, ?_, ?_, ?_, ?_, ?_, ?_⟩
  · intro src h
    simp only [List.mem_cons, List.not_mem_nil, or_false] at h
    rcases h with rfl | rfl | rfl
    all_goals
      refine ⟨leafTree_wf _, ?_⟩
      intro row hr
      simp only [leafTree, List.mem_singleton] at hr
      subst hr
      exact ⟨rfl, by decide +kernel, by decide +kernel⟩
  · decide +kernel
  · decide +kernel
  · repeat' constructor
  · decide +kernel
  · decide +kernel
  · decide +kernel

/-- A one-split tree with two classes. -/
def exSplit : List (SrcNode Int (List Rat)) := [⟨1, 2, 0, 10, [1/2, 1/2]⟩, ⟨-1, -1, -2, -2, [1/4, 3/4]⟩, ⟨-1, -1, -2, -2, [1, 0]⟩]

/-- Non-vacuity: a one-split tree with 3 bits meets the hypotheses of `C83_soft_vote_close` and of `Deployed`. -/
example : SrcWF exSplit ∧ (∀ row ∈ exSplit, ProbVector 2 row.value) ∧ (2 : Nat) < 2 * (2 ^ (3 : Int).toNat - 2) ∧
    (∀ p b, quantizeProbabilities 3 p = some b → exLeafVal 3 p = b.map Int.toNat) ∧
    ∃ f m, convertForest 0 (exLeafVal 3) [exSplit] = some f ∧ Deployed id f (leafBytesSoft f.leaves) 3 (2 : Nat) [3] m ∧
      predict (exactOps Rat) m [3] 1 = some 1 := by
  have hwf : SrcWF exSplit := by
    refine ⟨by simp [exSplit], ?_, by simp [exSplit, childRefs, SrcNode.isLeaf]; decide⟩
    intro i n h hl
    match i with
    | 0 => simp [exSplit] at h; subst h; simp
    | 1 => simp [exSplit] at h; subst h; simp [SrcNode.isLeaf] at hl
    | 2 => simp [exSplit] at h; subst h; simp [SrcNode.isLeaf] at hl
    | i + 3 => simp [exSplit] at h
  refine ⟨hwf, ?_, by decide, ?_, ?_⟩
  · intro row hr
    simp only [exSplit, List.mem_cons, List.not_mem_nil, or_false] at hr
    rcases hr with rfl | rfl | rfl <;> exact ⟨rfl, by decide +kernel, by decide +kernel⟩
  · intro p b h; simp [exLeafVal, h]
  · obtain ⟨f, hf, _, hok⟩ := C02_convert_refs_valid (0 : Int) (exLeafVal 3) [exSplit] (by simp) (by simpa using hwf)
    have hf' : convertForest 0 (exLeafVal 3) [exSplit] = some ⟨[⟨0, 10, -1, -2⟩], [0], [[85, 170], [255, 0]]⟩ := by decide +kernel
    rw [hf'] at hf
    cases hf
    refine ⟨_, ⟨[⟨0, 10, -1, -2⟩], [0], [85, 170, 255, 0], 8, 1, 2⟩, hf', ⟨hok, by decide, ?_, by decide, by decide, by decide⟩, by decide +kernel⟩
    constructor
    · simp
    · simp
    · intro p n hp
      match p with
      | 0 => simp at hp; subst hp; simp
      | p + 1 => simp at hp

end Emlearn.Trees
