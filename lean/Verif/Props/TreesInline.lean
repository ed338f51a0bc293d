/- Property C09: inline and loadable code agree. -/
import Verif.Props.TreesInfer
import Mathlib.Algebra.Order.Round
import Mathlib.Data.Rat.Floor
namespace Emlearn.Trees
variable {Θ V L R F : Type}

theorem voteFold_int (n : Nat) (go : Int → Θ → Bool) (ts : List (Stmt Θ Nat)) (hlt : ∀ t ∈ ts, t.eval go < n) :
    ts.foldlM (inlineHardVote go) (List.replicate n 0)
    = some ((List.range n).map (fun c => (((ts.map (fun t => t.eval go)).count c : Nat) : Int))) := by
  let iops : FOps Int := ⟨0, 1, (· + ·), (· * ·), (· / ·), id, fun a b => decide (a < b)⟩
  have h := voteFold_zero iops (fun k => (k : Int)) ts.length n (ts.map (fun t => t.eval go)) rfl
    (by intro k _; simp [iops]) (by
      intro c hc
      simp only [List.mem_map] at hc
      obtain ⟨t, ht, rfl⟩ := hc
      exact hlt t ht) (by simp)
  rw [← h]
  unfold voteFold
  rw [List.foldlM_map]
  congr 1
  funext votes t
  unfold inlineHardVote addAt
  cases votes[t.eval go]? <;> rfl

/-- **C09** (hard voting) For every valid forest with class-number leaves and at least one tree, the inline code exists, and for every feature vector
the loadable model and the inline code return the same class (for every arithmetic with faithful vote counting) and the same probabilities (for
*every* float arithmetic, bit for bit). -/
theorem C09_hard_inline_eq_loadable (quant : Θ → Int) (f : Forest Θ Nat) (nClasses : Nat) (hnc : nClasses ≤ 30)
    (hroots : f.roots ≠ []) (hcls : ∀ c ∈ f.leaves, c < nClasses) (hok : ForestOK f) :
    ∃ ts, inlineTrees f (fun i => f.leaves[i]?) = some ts ∧
      ∀ (features : List Int) (m : CModel), Deployed quant f (leafBytesHard f.leaves) 0 nClasses features m →
        (∀ (F : Type) (ops : FOps F) (cnt : Nat → F), VoteLaws ops f.roots.length cnt →
          ∃ c, predict ops m features features.length = some c ∧
            inlinePredictHard (cmpInt features quant) ts nClasses = some c) ∧
        (∀ (F : Type) (ops : FOps F), ∃ out,
          predictProba ops m features nClasses = some (.ok out) ∧
          inlineProbaHard ops (cmpInt features quant) ts nClasses = some out) := by
  obtain ⟨ts, hts, htlen, hev⟩ := inlineTrees_spec hok (fun i => f.leaves[i]?) (fun m hm => ⟨_, List.getElem?_eq_getElem hm⟩)
  refine ⟨ts, hts, ?_⟩
  intro features m hd
  obtain ⟨_, _, e3, e4, e5, e6, e7⟩ := hd.eqs
  have hbytes : leafBytesHard f.leaves = f.leaves := by
    unfold leafBytesHard
    conv_rhs => rw [← List.map_id f.leaves]
    apply List.map_congr_left
    intro c hc
    have := hcls c hc
    exact Nat.mod_eq_of_lt (by omega)
  rw [hbytes] at e4
  have hev' := hev (cmpInt features quant)
  have htrees := hd.trees
  have hcl : ∀ t ∈ ts, t.eval (cmpInt features quant) < nClasses := by
    intro t ht
    obtain ⟨k, hk, rfl⟩ := List.mem_iff_getElem.mp ht
    have := List.forall₂_iff_get.mp hev'
    have g := this.2 k hk (by rw [← this.1]; exact hk)
    simp only [List.get_eq_getElem] at g
    exact hcls _ (List.mem_of_getElem? g)
  have hmlen : m.roots.length = f.roots.length := by rw [e3]; simp
  have hF : List.Forall₂ (fun root c => ∃ leaf : Nat, m.tree features root = some (leaf : Int) ∧ m.leaves[leaf]? = some c)
      m.roots (ts.map (fun t => t.eval (cmpInt features quant))) := by
    rw [List.forall₂_map_right_iff]
    apply List.forall₂_iff_get.mpr
    have l1 := List.forall₂_iff_get.mp htrees
    have l2 := List.forall₂_iff_get.mp hev'
    refine ⟨by rw [hmlen, htlen], ?_⟩
    intro k h1 h2
    have g1 := l1.2 k h1 (by rw [← l1.1]; exact h1)
    have g2 := l2.2 k h2 (by rw [← l2.1]; exact h2)
    simp only [List.get_eq_getElem] at g1 g2 ⊢
    exact ⟨_, g1, by rw [e4]; exact g2⟩
  have hmr : m.roots ≠ [] := by
    intro h; rw [e3] at h; simp at h; exact hroots h
  constructor
  · intro F ops cnt laws
    have := predict_hard_core ops cnt m features _ (by rw [hmlen]; exact laws) (by rw [e5]; simp) (by rw [e7]; omega) hmr hF (by
      intro c hc
      simp only [List.mem_map] at hc
      obtain ⟨t, ht, rfl⟩ := hc
      rw [e7]; exact_mod_cast hcl t ht)
    refine ⟨_, by rw [← e6]; exact this.2.1, ?_⟩
    unfold inlinePredictHard
    rw [voteFold_int nClasses _ ts hcl, e7]
    simp only [Option.map_some, Int.toNat_natCast]
    congr 1
    have hm := argmaxLoop_map (fun a b : Int => decide (a < b)) (fun a b : Nat => decide (a < b)) (fun k => (k : Int)) (fun _ => True)
      (by intro a b _ _; simp) ((List.range nClasses).map (fun c => (ts.map (fun t => t.eval (cmpInt features quant))).count c)) 0 (-1) 0
      (by simp) trivial
    rw [← hm, List.map_map]
    rfl
  · intro F ops
    have hfold := hard_fold ops m features _ htrees (List.replicate nClasses ops.zero)
    have hfold2 : m.roots.foldlM (hardStep ops m features) (List.replicate nClasses ops.zero)
        = ts.foldlM (fun out t => addAt ops out (t.eval (cmpInt features quant)) ops.one) (List.replicate nClasses ops.zero) := by
      rw [hfold]
      symm
      apply forall2_foldlM _ _ _ _ _ _ _ hev'
      intro s t i h
      simp only [e4, h, Option.bind_some]
    have hex : ∃ o, ts.foldlM (fun out t => addAt ops out (t.eval (cmpInt features quant)) ops.one) (List.replicate nClasses ops.zero) = some o := by
      have : ∀ (l : List (Stmt Θ Nat)) (o : List F), (∀ t ∈ l, t.eval (cmpInt features quant) < o.length) →
          ∃ o', l.foldlM (fun out t => addAt ops out (t.eval (cmpInt features quant)) ops.one) o = some o' := by
        intro l
        induction l with
        | nil => intro o _; exact ⟨o, rfl⟩
        | cons t l ih =>
          intro o ho
          have h1 := ho t (by simp)
          obtain ⟨o', ho'⟩ := ih (o.set (t.eval (cmpInt features quant)) (ops.add o[t.eval (cmpInt features quant)] ops.one))
            (by intro u hu; simp; exact ho u (by simp [hu]))
          refine ⟨o', ?_⟩
          simp only [List.foldlM_cons, addAt, List.getElem?_eq_getElem h1, Option.bind_eq_bind, Option.bind_some]
          exact ho'
      exact this ts _ (by intro t ht; simp; exact hcl t ht)
    obtain ⟨o, ho⟩ := hex
    refine ⟨o.map (fun x => ops.div x (ops.ofInt f.roots.length)), ?_, ?_⟩
    · unfold predictProba
      rw [if_neg (by rw [e7]; simp), if_pos (by rw [e5]; simp)]
      simp only [Int.toNat_natCast]
      rw [hfold2, ho, hmlen]
      rfl
    · unfold inlineProbaHard
      rw [ho, htlen]
      rfl

theorem flatten_get {α : Type} (rows : List (List α)) (n : Nat) (h : ∀ r ∈ rows, r.length = n) (i c : Nat) (hc : c < n) :
    rows.flatten[i * n + c]? = (rows[i]?).bind (fun r => r[c]?) := by
  induction rows generalizing i with
  | nil => simp
  | cons r rest ih =>
    have hr := h r (by simp)
    cases i with
    | zero => simp [List.getElem?_append_left (show c < r.length by omega)]
    | succ i =>
      rw [List.flatten_cons, List.getElem?_append_right (by rw [hr, Nat.succ_mul]; omega)]
      have : (i + 1) * n + c - r.length = i * n + c := by rw [hr, Nat.succ_mul]; omega
      rw [this, ih (fun x hx => h x (by simp [hx]))]
      simp

/-- **C09** (soft voting, probabilities) with `0 < leaf_bits <= 8` the loadable model and the inline code compute the same probabilities for every feature vector in
*every* float arithmetic. -/
theorem C09_soft_proba_inline_eq_loadable (quant : Θ → Int) (f : Forest Θ (List Nat)) (nClasses : Nat) (leafBits : Int)
    (hlb : 0 < leafBits) (hlb8 : leafBits ≤ 8) (hlen : ∀ r ∈ f.leaves, r.length = nClasses) (hok : ForestOK f) :
    ∃ ts, inlineTrees f (fun i => some i) = some ts ∧
      ∀ (features : List Int) (m : CModel), Deployed quant f (leafBytesSoft f.leaves) leafBits nClasses features m →
        (∀ (F : Type) (ops : FOps F), ∃ out,
          predictProba ops m features nClasses = some (.ok out) ∧
          inlineProbaSoft ops (cmpInt features quant) ts (leafBytesSoft f.leaves) nClasses nClasses = some out) ∧
        (∀ (K : Type) [Field K] [LinearOrder K] [IsStrictOrderedRing K], f.roots ≠ [] → nClasses ≤ 30 → ∃ c,
          predict (exactOps K) m features features.length = some c ∧
          inlinePredictSoft (exactOps K) (cmpInt features quant) ts (leafBytesSoft f.leaves) nClasses = some c) := by
  obtain ⟨ts, hts, htlen, hev⟩ := inlineTrees_spec hok (fun i => some i) (fun m hm => ⟨_, rfl⟩)
  refine ⟨ts, hts, ?_⟩
  intro features m hd
  obtain ⟨_, _, e3, e4, e5, e6, e7⟩ := hd.eqs
  have hev' := hev (cmpInt features quant)
  have htrees := hd.trees
  have hmlen : m.roots.length = f.roots.length := by rw [e3]; simp
  have hlb' : m.leafBits = 8 := by rw [e5]; split <;> omega
  have hidx : f.roots.map (leafIndex (cmpInt features quant) f) = ts.map (fun t => t.eval (cmpInt features quant)) := by
    have : List.Forall₂ (fun (i j : Nat) => i = j) (ts.map (fun t => t.eval (cmpInt features quant))) (f.roots.map (leafIndex (cmpInt features quant) f)) := by
      rw [List.forall₂_map_left_iff]
      exact hev'.imp (by intro a b h; exact (Option.some.inj h).symm)
    exact (List.forall₂_eq_eq_eq ▸ this : _ = _).symm
  have hilt : ∀ i ∈ f.roots.map (leafIndex (cmpInt features quant) f), i < f.leaves.length := by
    intro i hi
    simp only [List.mem_map] at hi
    obtain ⟨r, hr, rfl⟩ := hi
    exact (leafIndex_spec _ hok hr).2
  -- byte at row i, class c
  have hbyte : ∀ i, i < f.leaves.length → ∀ c, c < nClasses →
      (leafBytesSoft f.leaves)[i * nClasses + c]? = some ((((f.leaves[i]?).bind (fun r => r[c]?)).getD 0) % 256) := by
    intro i hi c hc
    unfold leafBytesSoft
    rw [List.getElem?_map, flatten_get f.leaves nClasses hlen i c hc]
    have hr := hlen _ (List.getElem_mem hi)
    simp only [List.getElem?_eq_getElem hi, Option.bind_some]
    rw [List.getElem?_eq_getElem (by omega)]
    rfl
  have hfold : ∀ (F : Type) (ops : FOps F), m.roots.foldlM (softStep ops m features) (List.replicate nClasses ops.zero)
        = ts.foldlM (inlineSoftVote ops (cmpInt features quant) (leafBytesSoft f.leaves) nClasses) (List.replicate nClasses ops.zero) := by
    intro F ops
    rw [soft_fold ops m features _ htrees, hidx, List.foldlM_map, e4, e7]
    simp only [Int.toNat_natCast]
    congr 1
    funext o t
    unfold inlineSoftVote
    congr 1
    funext o c
    rw [Nat.mul_comm]
    rfl
  have hex : ∀ (F : Type) (ops : FOps F), ∃ o, ts.foldlM (inlineSoftVote ops (cmpInt features quant) (leafBytesSoft f.leaves) nClasses) (List.replicate nClasses ops.zero) = some o := by
    intro F ops
    have : ∀ (l : List (Stmt Θ Nat)) (o : List F), (∀ t ∈ l, t.eval (cmpInt features quant) < f.leaves.length) → o.length = nClasses →
        ∃ o', l.foldlM (inlineSoftVote ops (cmpInt features quant) (leafBytesSoft f.leaves) nClasses) o = some o' := by
      intro l
      induction l with
      | nil => intro o _ _; exact ⟨o, rfl⟩
      | cons t l ih =>
        intro o ho hol
        have h1 := ho t (by simp)
        have := softVote_row ops (leafBytesSoft f.leaves) (t.eval (cmpInt features quant) * nClasses) nClasses o _ hol (hbyte _ h1) nClasses (Nat.le_refl _)
        rw [Nat.mul_comm] at this
        obtain ⟨o', ho'⟩ := ih (o.mapIdx (fun c x => if c < nClasses then ops.add x (ops.div (ops.ofInt ((((f.leaves[t.eval (cmpInt features quant)]?).bind (fun r => r[c]?)).getD 0 % 256 : Nat))) (ops.ofInt 255)) else x))
          (fun u hu => ho u (by simp [hu])) (by simp [hol])
        refine ⟨o', ?_⟩
        rw [List.foldlM_cons]
        have h2 : inlineSoftVote ops (cmpInt features quant) (leafBytesSoft f.leaves) nClasses o t = some _ := this
        rw [h2]
        exact ho'
    apply this ts _ _ (by simp)
    intro t ht
    apply hilt
    rw [hidx]
    exact List.mem_map.mpr ⟨t, ht, rfl⟩
  constructor
  · intro F ops
    obtain ⟨o, ho⟩ := hex F ops
    refine ⟨o.map (fun x => ops.div x (ops.ofInt f.roots.length)), ?_, ?_⟩
    · unfold predictProba
      rw [if_neg (by rw [e7]; simp), if_neg (by omega), if_pos hlb']
      simp only [Int.toNat_natCast]
      rw [hfold, ho, hmlen]
      rfl
    · unfold inlineProbaSoft
      rw [ho, htlen]
      rfl
  · intro K _ _ _ hroots hnc30
    obtain ⟨o, ho⟩ := hex K (exactOps K)
    have hpos : (0 : K) < (f.roots.length : K) := by
      have : 0 < f.roots.length := List.length_pos_iff.mpr hroots
      exact_mod_cast this
    refine ⟨argmaxLoop (exactOps K).lt o 0 (-1) (exactOps K).zero, ?_, ?_⟩
    · unfold predict
      rw [if_neg (by rw [e6]; simp), if_neg (by rw [e7]; omega)]
      have hp : predictProba (exactOps K) m features m.nClasses = some (.ok (o.map (fun x => (exactOps K).div x ((exactOps K).ofInt f.roots.length)))) := by
        unfold predictProba
        rw [if_neg (by simp), if_neg (by omega), if_pos hlb', e7]
        simp only [Int.toNat_natCast]
        rw [hfold, ho, hmlen]
        rfl
      rw [hp]
      simp only
      congr 1
      have hm := argmaxLoop_map (exactOps K).lt (exactOps K).lt (fun x => (exactOps K).div x ((exactOps K).ofInt f.roots.length)) (fun _ => True)
        (by
          intro a b _ _
          simp only [exactOps, Int.cast_natCast, decide_eq_decide]
          exact div_lt_div_iff_of_pos_right hpos) o 0 (-1) 0 (by simp) trivial
      have hz : (exactOps K).div 0 ((exactOps K).ofInt f.roots.length) = 0 := by simp [exactOps]
      rw [hz] at hm
      exact hm
    · unfold inlinePredictSoft
      rw [ho]
      rfl

/-- **C09** (regression, part) the loadable and the inline regressor compute the same value in every float arithmetic, provided every leaf value survives being printed
with six decimals (`lit v = v`).  Missing: leaf values that do not, see `C09_regress_refuted`. -/
theorem C09_regress_inline_eq_loadable_partial (quant : Θ → Int) (f : Forest Θ F) (ops : FOps F) (lit : F → F)
    (hlit : ∀ v ∈ f.leaves, lit v = v) (hok : ForestOK f) :
    ∃ ts, inlineTrees f (fun i => (f.leaves[i]?).map lit) = some ts ∧
      ∀ (bytes : List Nat) (features : List Int) (m : CModel), Deployed quant f bytes 32 0 features m →
        regress ops m (fun i => f.leaves[i]?) features 1 = some (.ok (inlineRegress ops (cmpInt features quant) ts)) := by
  obtain ⟨ts, hts, htlen, hev⟩ := inlineTrees_spec hok (fun i => (f.leaves[i]?).map lit)
    (fun m hm => ⟨_, by rw [List.getElem?_eq_getElem hm]; rfl⟩)
  refine ⟨ts, hts, ?_⟩
  intro bytes features m hd
  obtain ⟨_, _, e3, e4, e5, e6, e7⟩ := hd.eqs
  have hev' := hev (cmpInt features quant)
  have htrees := hd.trees
  have hmlen : m.roots.length = f.roots.length := by rw [e3]; simp
  have hF : List.Forall₂ (fun root (t : Stmt Θ F) => ∃ leaf : Nat, m.tree features root = some (leaf : Int) ∧ f.leaves[leaf]? = some (t.eval (cmpInt features quant)))
      m.roots ts := by
    apply List.forall₂_iff_get.mpr
    have l1 := List.forall₂_iff_get.mp htrees
    have l2 := List.forall₂_iff_get.mp hev'
    refine ⟨by rw [hmlen, htlen], ?_⟩
    intro k h1 h2
    have g1 := l1.2 k h1 (by rw [← l1.1]; exact h1)
    have g2 := l2.2 k h2 (by rw [← l2.1]; exact h2)
    simp only [List.get_eq_getElem] at g1 g2 ⊢
    refine ⟨_, g1, ?_⟩
    obtain ⟨v, hv, hv2⟩ := Option.map_eq_some_iff.mp g2
    rw [hv]
    congr 1
    rw [← hv2, hlit v (List.mem_of_getElem? hv)]
  unfold regress
  rw [if_neg (by omega), if_neg (by rw [e5]; simp)]
  rw [forall2_foldlM _ (fun (s : F) (t : Stmt Θ F) => some (ops.add s (t.eval (cmpInt features quant)))) _ _ _ _ _ hF]
  · have : ∀ (l : List (Stmt Θ F)) (s : F), l.foldlM (fun (s : F) (t : Stmt Θ F) => some (ops.add s (t.eval (cmpInt features quant)))) s
        = some (l.foldl (fun s t => ops.add s (t.eval (cmpInt features quant))) s) := by
      intro l
      induction l with
      | nil => intro s; rfl
      | cons t l ih => intro s; simp [List.foldlM_cons, ih]
    rw [this]
    simp only [Option.map_some, inlineRegress, hmlen, htlen]
  · rintro s a b ⟨leaf, h1, h2⟩
    simp [h1, h2]

/-- `"{:.6f}"` on rationals: rounding to six decimals (`cgen.py` 49-50; ties are irrelevant here). -/
def lit6 (x : Rat) : Rat := (round (x * 1000000) : Int) / 1000000

/-- **C09 refuted** for regressors in general: a single leaf of value 1/4000000 is printed as `0.000000f` in the inline code but stored exactly in the
loadable leaf table, so the two models return different values. -/
theorem C09_regress_refuted : ∃ (f : Forest Int Rat) (m : CModel) (ts : List (Stmt Int Rat)) (features : List Int),
    ForestOK f ∧ Deployed id f [] 32 0 features m ∧ inlineTrees f (fun i => (f.leaves[i]?).map lit6) = some ts ∧
    regress (exactOps Rat) m (fun i => f.leaves[i]?) features 1 = some (.ok (1/4000000)) ∧
    inlineRegress (exactOps Rat) (cmpInt features id) ts = 0 := by
  have hok : ForestOK (⟨[⟨0, 0, -1, -1⟩], [0], [1/4000000]⟩ : Forest Int Rat) := by
    constructor
    · intro p n hp
      match p with
      | 0 => simp at hp; subst hp; constructor <;> constructor <;> simp
      | p + 1 => simp at hp
    · simp
    · intro q hq; left; simp at hq ⊢; omega
    · intro m hm; simp at hm; subst hm; exact ⟨_, List.mem_singleton.mpr rfl, Or.inl rfl⟩
  have hd : Deployed id (⟨[⟨0, 0, -1, -1⟩], [0], [1/4000000]⟩ : Forest Int Rat) [] 32 0 [5] ⟨[⟨0, 0, -1, -1⟩], [0], [], 32, 1, 0⟩ := by
    refine ⟨hok, by rfl, ?_, by simp, by decide, by decide⟩
    constructor
    · simp
    · simp
    · intro p n hp
      match p with
      | 0 => simp at hp; subst hp; simp
      | p + 1 => simp at hp
  have hlit : lit6 (1/4000000) = 0 := by
    unfold lit6
    have : round ((1/4000000 : Rat) * 1000000) = 0 := by
      rw [round_eq_zero_iff]
      constructor <;> norm_num
    rw [this]; norm_num
  have hlit2 : lit6 (4000000⁻¹) = 0 := by rw [← hlit]; norm_num
  refine ⟨⟨[⟨0, 0, -1, -1⟩], [0], [1/4000000]⟩, ⟨[⟨0, 0, -1, -1⟩], [0], [], 32, 1, 0⟩, [.ite 0 0 (.ret 0) (.ret 0)], [5], hok, hd, ?_, ?_, ?_⟩
  · simp only [inlineTrees, List.mapM_cons, List.mapM_nil, inlineNode]
    simp only [List.length_singleton, inlineNode]
    simp [hlit2]
  · obtain ⟨y, h1, h2, _⟩ := C11_regress_mean (K := Rat) ⟨[⟨0, 0, -1, -1⟩], [0], [], 32, 1, 0⟩ (fun i => ([1/4000000] : List Rat)[i]?) [5] [1/4000000] 1
      (by omega) rfl (by simp) (List.Forall₂.cons ⟨0, by decide, by simp⟩ List.Forall₂.nil)
    rw [h1, h2]
    norm_num
  · simp [inlineRegress, Stmt.eval, exactOps]

/-- Non-vacuity of the hard-voting theorem: the converted two-tree example forest. -/
example : ∃ ts, inlineTrees exForest (fun i => exForest.leaves[i]?) = some ts ∧
    inlinePredictHard (cmpInt [50, 3] id) ts 9 = some 7 ∧ Deployed id exForest (leafBytesHard exForest.leaves) 0 9 [50, 3] exModel ∧
    (∀ c ∈ exForest.leaves, c < 9) ∧ exForest.roots ≠ [] := by
  refine ⟨[.ite 0 10 (.ret 7) (.ite 1 20 (.ret 8) (.ret 7)), .ite 0 0 (.ret 7) (.ret 7)], by rfl, ?_, exDeployed 50 3, by decide, by decide⟩
  decide

/-- Non-vacuity of the soft-voting theorem. -/
example : Deployed id (⟨[⟨0, (10 : Int), -1, -2⟩], [0], [[255, 0], [64, 191]]⟩ : Forest Int (List Nat)) (leafBytesSoft [[255, 0], [64, 191]]) 8 2 [3]
    ⟨[⟨0, 10, -1, -2⟩], [0], [255, 0, 64, 191], 8, 1, 2⟩ := by
  refine ⟨?_, by rfl, ?_, by simp, by decide, by decide⟩
  · constructor
    · intro p n hp
      match p with
      | 0 => simp at hp; subst hp; constructor <;> constructor <;> simp
      | p + 1 => simp at hp
    · simp
    · intro q hq; left; simp at hq ⊢; omega
    · intro m hm
      refine ⟨_, List.mem_singleton.mpr rfl, ?_⟩
      simp at hm ⊢
      omega
  · constructor
    · simp
    · simp
    · intro p n hp
      match p with
      | 0 => simp at hp; subst hp; simp
      | p + 1 => simp at hp

end Emlearn.Trees
