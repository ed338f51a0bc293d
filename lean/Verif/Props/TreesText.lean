/- Property C88: the inline C code written by `save` / `convert(method='inline')`, read as C and run, computes what the trees say. -/
import Verif.Trees.TextCall
import Verif.Props.TreesInline
namespace Emlearn.Trees
open Emlearn.Cgen Emlearn.MiniC
variable {F : Type}

/-! ### From calls to predictions -/

theorem foldlM_zip_snd {A B S : Type} (g : S → B → Option S) (as : List A) (bs : List B) (h : as.length = bs.length) (s : S) : (as.zip bs).foldlM (fun s p => g s p.2) s = bs.foldlM g s := by
  rw [← List.foldlM_map (f := fun p : A × B => p.2), ← List.unzip_snd, List.unzip_zip h]

theorem foldl_zip_snd {A B S : Type} (g : S → B → S) (as : List A) (bs : List B) (h : as.length = bs.length) (s : S) : (as.zip bs).foldl (fun s p => g s p.2) s = bs.foldl g s := by
  rw [← List.foldl_map (f := fun p : A × B => p.2), ← List.unzip_snd, List.unzip_zip h]

theorem map_zip_fst {A B : Type} (as : List A) (bs : List B) (h : as.length = bs.length) : (as.zip bs).map Prod.fst = as := by
  rw [← List.unzip_fst, List.unzip_zip h]

/-- Counting votes. -/
theorem voteAt_fold (n : Nat) (classes : List Nat) (h : ∀ c ∈ classes, c < n) :
    classes.foldlM voteAt (List.replicate n 0) = some ((List.range n).map fun c => ((classes.count c : Nat) : Int)) := by
  let iops : FOps Int := ⟨0, 1, (· + ·), (· * ·), (· / ·), id, fun a b => decide (a < b)⟩
  have := voteFold_zero iops (fun k => (k : Int)) classes.length n classes rfl (by intro k _; simp [iops]) h (Nat.le_refl _)
  rw [← this]
  unfold voteFold
  congr 1
  funext votes c
  unfold voteAt addAt
  cases votes[c]? <;> rfl

theorem plurality_of_counts (classes : List Nat) (n : Nat) (hne : classes ≠ []) (hcls : ∀ c ∈ classes, c < n) :
    ∃ c : Nat, argmaxLoop (fun a b => decide (a < b)) ((List.range n).map fun c => ((classes.count c : Nat) : Int)) 0 (-1) 0 = (c : Int) ∧ Plurality classes n c := by
  rcases argmaxLoop_spec ((List.range n).map fun c => ((classes.count c : Nat) : Int)) 0 (-1) 0 with ⟨_, hall⟩ | ⟨c, e, v, hv, hpos, hmax, hfirst⟩
  · exfalso
    obtain ⟨c, rest, hc⟩ : ∃ c rest, classes = c :: rest := by
      cases classes with
      | nil => exact absurd rfl hne
      | cons a l => exact ⟨a, l, rfl⟩
    have hcn := hcls c (by simp [hc])
    have := hall (classes.count c) (by
      simp only [List.mem_map, List.mem_range]; exact ⟨c, by omega, rfl⟩)
    have h1 : 0 < classes.count c := List.count_pos_iff.mpr (by simp [hc])
    omega
  · refine ⟨c, by rw [e]; simp, ?_⟩
    have hc : c < n := by
      have := (List.getElem?_eq_some_iff.mp hv).1
      simpa using this
    have get : ∀ d, d < n → ((List.range n).map fun c => ((classes.count c : Nat) : Int))[d]? = some ((classes.count d : Nat) : Int) := by
      intro d hd; simp [hd]
    rw [get c hc] at hv
    cases hv
    refine ⟨hc, fun d hd => by exact_mod_cast hmax d _ (get d hd), fun d hd => by exact_mod_cast hfirst d _ hd (get d (by omega))⟩

theorem forestPredict_leafIndex {L : Type} (go : Int → ℚ → Bool) {f : Forest ℚ L} (h : ForestOK f) {r : Nat} (hr : r ∈ f.roots) :
    ∃ v, forestPredict go f r = some v ∧ f.leaves[leafIndex go f r]? = some v ∧ v ∈ f.leaves := by
  obtain ⟨h1, h2⟩ := leafIndex_spec go h hr
  refine ⟨f.leaves[leafIndex go f r], ?_, List.getElem?_eq_getElem h2, List.getElem_mem h2⟩
  unfold forestPredict
  rw [h1, Option.bind_some, List.getElem?_eq_getElem h2]

/-- The data of the leaves reached by all trees. -/
theorem forest_leaves {L : Type} (go : Int → ℚ → Bool) {f : Forest ℚ L} (h : ForestOK f) :
    ∃ vs : List L, List.Forall₂ (fun r v => forestPredict go f r = some v) f.roots vs ∧ List.Forall₂ (fun r v => f.leaves[leafIndex go f r]? = some v) f.roots vs ∧ ∀ v ∈ vs, v ∈ f.leaves := by
  have : ∀ rs : List Nat, (∀ r ∈ rs, r ∈ f.roots) →
      ∃ vs : List L, List.Forall₂ (fun r v => forestPredict go f r = some v) rs vs ∧ List.Forall₂ (fun r v => f.leaves[leafIndex go f r]? = some v) rs vs ∧ ∀ v ∈ vs, v ∈ f.leaves := by
    intro rs
    induction rs with
    | nil => intro _; exact ⟨[], .nil, .nil, by simp⟩
    | cons r rs ih =>
      intro hr
      obtain ⟨vs, h1, h2, h3⟩ := ih fun r h => hr r (by simp [h])
      obtain ⟨v, h4, h5, h6⟩ := forestPredict_leafIndex go h (hr r (by simp))
      refine ⟨v :: vs, .cons h4 h1, .cons h5 h2, ?_⟩
      intro w hw
      rcases List.mem_cons.1 hw with rfl | hw
      · exact h6
      · exact h3 w hw
  exact this f.roots fun r h => h

/-- The inputs on which generated inline code is used: the model name is a line of text, the type of the features is a C type, the modifiers are words such as `static const`. -/
structure TextArgs (name dtype : List Char) (ws : List (List Char)) : Prop where
  name : '\n' ∉ name
  type : DType dtype
  modifiers : ∀ w ∈ ws, isMod w = true

section
variable (ops : CFloat F) (hk : Consts ops) (ext : List Char → List (ArgVal F) → Option (CallResult F)) (fuel depth : Nat)

theorem eval_nat (c : Bool) (hc : c = true) (k : Nat) (h : k ≤ 2147483647) (ctx : Ctx F) (env : Env F) :
    eval ops ctx env (litExpr (k : ℚ) (if c then "int".toList else "float".toList)) = some (.int k) := by
  subst hc
  have e : ((k : Nat) : ℚ) = (((k : Nat) : Int) : ℚ) := by push_cast; rfl
  rw [if_pos rfl, eval_litExpr_int ops ctx env _ _ (by decide +kernel) (by rw [e, trunc_int]; omega), e, trunc_int]

theorem trunc_nat (k : Nat) : trunc (k : ℚ) = k := by
  have e : ((k : Nat) : ℚ) = (((k : Nat) : Int) : ℚ) := by push_cast; rfl
  rw [e, trunc_int]

/-- Calls of the tree functions in a hard-voting classifier. -/
theorem hard_calls (f : Forest ℚ Nat) (hok : ForestOK f) (name dtype : List Char) (nClasses : Nat) (hn : nClasses ≤ 2147483647) (hcls : ∀ c ∈ f.leaves, c < nClasses) (ip : Bool) (ws : List (List Char))
    (bytes : List Nat) (codes : List (Stmt ℚ ℚ)) (hcodes : inlineTrees f (leafValue f true 0 fun (c : Nat) => (c : ℚ)) = some codes) (x : Input F) (hx : x.Fits dtype f) (classes : List Nat)
    (hcl : List.Forall₂ (fun r v => f.leaves[leafIndex (x.less ops) f r]? = some v) f.roots classes) :
    classes.length = codes.length ∧
      TreeCalls ops ext (inlineProg name dtype nClasses 0 true ip ws bytes codes) fuel (depth + 1) (fun c => .int (c : Nat)) dtype x.array x.length ((treeNames name codes.length).zip classes) := by
  have hlv : ∀ i, leafValue f true 0 (fun (c : Nat) => (c : ℚ)) i = (f.leaves[i]?).map fun (c : Nat) => (c : ℚ) := fun i => by simp [leafValue]
  have hv : ∀ i v, i < f.leaves.length → leafValue f true 0 (fun (c : Nat) => (c : ℚ)) i = some v → ∃ c : Nat, c < nClasses ∧ v = c := by
    intro i v _ h
    rw [hlv] at h
    obtain ⟨c, hc, rfl⟩ := Option.map_eq_some_iff.1 h
    exact ⟨c, hcls c (List.mem_of_getElem? hc), rfl⟩
  refine inline_treeCalls ops ext fuel depth name dtype nClasses 0 true ip ws bytes codes hok _ hcodes (fun m hm => ⟨_, by rw [hlv, List.getElem?_eq_getElem hm]; rfl⟩) x hx
    (fun q => .int (trunc q)) (fun c => .int (c : Nat)) classes ?_ ?_ ?_
  · refine hcl.imp ?_
    intro r c h
    exact ⟨c, by rw [hlv, h]; rfl, by rw [trunc_nat]⟩
  · intro i v hi h ctx env
    obtain ⟨c, hc, rfl⟩ := hv i v hi h
    rw [eval_nat ops true rfl c (by omega) ctx env, trunc_nat]
  · intro i v hi h
    obtain ⟨c, hc, rfl⟩ := hv i v hi h
    rw [trunc_nat]
    exact conv_int32 ops (.inr rfl) _ (by omega) (by omega)

/-- **C88** (hard voting, class) the file written for a hard-voting classifier is a C program in which `<name>_predict(features, length)` returns the smallest class with the most votes among
the leaves that the trees reach; for integer and for `float` features, every valid forest, every feature vector and every `float` arithmetic. -/
theorem C88_inline_predict_hard (f : Forest ℚ Nat) (hok : ForestOK f) (hroots : f.roots ≠ []) (hr : f.roots.length ≤ 2147483647) (name dtype : List Char) (nClasses : Nat) (hn : nClasses ≤ 2147483647)
    (hfu : nClasses < fuel) (hcls : ∀ c ∈ f.leaves, c < nClasses) (includeProba : Bool) (ws : List (List Char)) (bytes : List Nat) (ha : TextArgs name dtype ws) (text : List Char)
    (h : generateInlined f name nClasses 0 dtype true includeProba ([' '].intercalate ws) (fun (c : Nat) => (c : ℚ)) bytes = some text) :
    ∃ prog, parse (saveText text) = some prog ∧ ∀ x : Input F, x.Fits dtype f →
      ∃ classes, List.Forall₂ (fun r c => forestPredict (x.less ops) f r = some c) f.roots classes ∧
        ∃ c : Nat, callFunc ops ext prog fuel (depth + 2) (name ++ "_predict".toList) [.arr dtype x.array, .num (.int x.length)] = some (.int c, []) ∧ Plurality classes nClasses c := by
  obtain ⟨codes, hcodes, -, hparse⟩ := inline_parse f name nClasses 0 dtype true includeProba ws (fun (c : Nat) => (c : ℚ)) bytes text ha.name ha.type ha.modifiers h
  refine ⟨_, hparse, ?_⟩
  intro x hx
  obtain ⟨classes, h1, h2, h3⟩ := forest_leaves (x.less ops) hok
  refine ⟨classes, h1, ?_⟩
  obtain ⟨hlen, hcalls⟩ := hard_calls ops ext fuel depth f hok name dtype nClasses hn hcls includeProba ws bytes codes hcodes x hx classes h2
  have hne : classes ≠ [] := by
    rintro rfl
    cases hrr : f.roots with
    | nil => exact hroots hrr
    | cons a l => rw [hrr] at h1; cases h1
  have hcn : ∀ c ∈ classes, c < nClasses := fun c hc => hcls c (h3 c hc)
  have hl : (treeNames name codes.length).length = classes.length := by simp [treeNames, hlen]
  have hcl : classes.length = f.roots.length := h1.length_eq.symm
  obtain ⟨c, e, hp⟩ := plurality_of_counts classes nClasses hne hcn
  have hn0 : 1 ≤ nClasses := by have := hp.1; omega
  refine ⟨c, ?_, hp⟩
  rw [← e]
  refine call_predictHard ops ext _ fuel (depth + 1) name dtype nClasses x.array x.length ((treeNames name codes.length).zip classes) _ ?_ hcalls hn0 hn hfu ?_ (by omega) (by have := hx.length; omega) ?_ ?_ ?_
  · rw [map_zip_fst _ _ hl]
    exact find_forest name dtype nClasses 0 true includeProba ws bytes codes (predictHardFunc name dtype nClasses (treeNames name codes.length)) (by simp [forestFuncs])
  · rw [List.length_zip, hl, Nat.min_self, hcl]; exact hr
  · rw [foldlM_zip_snd voteAt _ _ hl, voteAt_fold nClasses classes hcn]
  · rw [e]; have := hp.1; omega
  · intro z hz
    obtain ⟨d, -, rfl⟩ := List.mem_map.1 hz
    have := List.count_le_length (l := classes) (a := d)
    omega

include hk in
/-- **C88** (hard voting, probabilities) `<name>_predict_proba(features, length, out, n_classes)` returns 0 and leaves in `out`, for each class, the number of trees that vote for it (counted in `float`)
divided by the number of trees; in every `float` arithmetic whose literals denote the constants 0 and 1. -/
theorem C88_inline_proba_hard (f : Forest ℚ Nat) (hok : ForestOK f) (hr : f.roots.length ≤ 2147483647) (name dtype : List Char) (nClasses : Nat) (hn : nClasses ≤ 2147483647)
    (hfu : nClasses < fuel) (hcls : ∀ c ∈ f.leaves, c < nClasses) (ws : List (List Char)) (bytes : List Nat) (ha : TextArgs name dtype ws) (text : List Char)
    (h : generateInlined f name nClasses 0 dtype true true ([' '].intercalate ws) (fun (c : Nat) => (c : ℚ)) bytes = some text) :
    ∃ prog, parse (saveText text) = some prog ∧ ∀ x : Input F, x.Fits dtype f → ∀ outs : List (Option (Val F)), outs.length = nClasses →
      ∃ classes, List.Forall₂ (fun r c => forestPredict (x.less ops) f r = some c) f.roots classes ∧
        callFunc ops ext prog fuel (depth + 2) (name ++ "_predict_proba".toList) [.arr dtype x.array, .num (.int x.length), .arr "float".toList outs, .num (.int nClasses)] =
          some (.int 0, [(2, (List.range nClasses).map fun c => some (.flt (ops.div ((fun y => ops.add y ops.one)^[classes.count c] ops.zero) (ops.ofInt f.roots.length))))]) := by
  obtain ⟨codes, hcodes, -, hparse⟩ := inline_parse f name nClasses 0 dtype true true ws (fun (c : Nat) => (c : ℚ)) bytes text ha.name ha.type ha.modifiers h
  refine ⟨_, hparse, ?_⟩
  intro x hx outs houts
  obtain ⟨classes, h1, h2, h3⟩ := forest_leaves (x.less ops) hok
  refine ⟨classes, h1, ?_⟩
  obtain ⟨hlen, hcalls⟩ := hard_calls ops ext fuel depth f hok name dtype nClasses hn hcls true ws bytes codes hcodes x hx classes h2
  have hcn : ∀ c ∈ classes, c < nClasses := fun c hc => hcls c (h3 c hc)
  have hl : (treeNames name codes.length).length = classes.length := by simp [treeNames, hlen]
  have hcl : classes.length = f.roots.length := h1.length_eq.symm
  have hzl : ((treeNames name codes.length).zip classes).length = f.roots.length := by rw [List.length_zip, hl, Nat.min_self, hcl]
  have hv := voteFold_zero ops.toFOps (fun k => (fun y => ops.add y ops.one)^[k] ops.zero) classes.length nClasses classes rfl (fun k _ => by rw [Function.iterate_succ_apply']) hcn (Nat.le_refl _)
  have key := call_probaHard ops hk ext (inlineProg name dtype nClasses 0 true true ws bytes codes) fuel (depth + 1) name dtype x.array outs x.length ((treeNames name codes.length).zip classes) _ ?_ hcalls (by omega)
    (by omega) (by have := hx.length; omega) (by omega) (by omega)
    (by rw [houts, foldlM_zip_snd (fun v c => addAt ops.toFOps v c ops.one) _ _ hl]; exact hv)
  · rw [houts, hzl] at key
    rw [key]
    simp [flts]
  · rw [map_zip_fst _ _ hl]
    exact find_forest name dtype nClasses 0 true true ws bytes codes (probaHardFunc name dtype (treeNames name codes.length)) (by simp [forestFuncs])

/-! ### Soft voting -/

/-- The total of the probabilities that the leaves `rows` give to class `c`, one byte each, in `float`. -/
def softTotal (ops : CFloat F) (rows : List (List Nat)) (c : Nat) : F :=
  rows.foldl (fun s row => ops.add s (ops.div (ops.ofInt (row.getD c 0)) (ops.ofInt 255))) ops.zero

theorem soft_rows (leaves : List Nat) (n : Nat) (rows : List (List Nat)) (idxs : List Nat) (h : List.Forall₂ (fun i row => ∀ c, c < n → leaves[n * i + c]? = some (row.getD c 0)) idxs rows) (acc : Nat → F) :
    idxs.foldlM (fun o i => (List.range n).foldlM (softAt ops.toFOps leaves (n * i)) o) ((List.range n).map acc) =
      some ((List.range n).map fun c => rows.foldl (fun s row => ops.add s (ops.div (ops.ofInt (row.getD c 0)) (ops.ofInt 255))) (acc c)) := by
  induction h generalizing acc with
  | nil => rfl
  | @cons i row idxs rows hi _ ih =>
    have hrow := softVote_row ops.toFOps leaves (n * i) n ((List.range n).map acc) (fun c => row.getD c 0) (by simp) hi n (Nat.le_refl n)
    have e1 : (List.range n).foldlM (softAt ops.toFOps leaves (n * i)) ((List.range n).map acc) =
        some (((List.range n).map acc).mapIdx (fun c x => if c < n then ops.add x (ops.div (ops.ofInt (row.getD c 0 : Nat)) (ops.ofInt 255)) else x)) := by
      rw [← hrow]
      congr 1
      funext o c
      unfold softAt
      cases leaves[n * i + c]? <;> rfl
    have e2 : ((List.range n).map acc).mapIdx (fun c x => if c < n then ops.add x (ops.div (ops.ofInt (row.getD c 0 : Nat)) (ops.ofInt 255)) else x)
        = (List.range n).map (fun c => ops.add (acc c) (ops.div (ops.ofInt (row.getD c 0 : Nat)) (ops.ofInt 255))) := by
      apply List.ext_getElem?
      intro j
      by_cases hj : j < n
      · simp [hj]
      · simp [hj]
    rw [List.foldlM_cons, e1, Option.bind_eq_bind, Option.bind_some, e2, ih]
    rfl

theorem argmaxLoop_bounds {X : Type} (lt : X → X → Bool) (xs : List X) (i : Nat) (b : Int) (z : X) (hb : -1 ≤ b ∧ b < i) :
    -1 ≤ argmaxLoop lt xs i b z ∧ argmaxLoop lt xs i b z < ((i + xs.length : Nat) : Int) := by
  induction xs generalizing i b z with
  | nil => simpa [argmaxLoop] using hb
  | cons x xs ih =>
    unfold argmaxLoop
    split
    · have := ih (i + 1) i x (by omega)
      rw [List.length_cons]; omega
    · have := ih (i + 1) b z (by omega)
      rw [List.length_cons]; omega

/-- Calls of the tree functions in a soft-voting classifier: they return the number of the leaf. -/
theorem soft_calls (f : Forest ℚ (List Nat)) (hok : ForestOK f) (name dtype : List Char) (nClasses : Nat) (lb : Int) (hlb : lb ≠ 0) (hl : f.leaves.length ≤ 2147483647) (num : List Nat → ℚ) (ip : Bool) (ws : List (List Char))
    (bytes : List Nat) (codes : List (Stmt ℚ ℚ)) (hcodes : inlineTrees f (leafValue f true lb num) = some codes) (x : Input F) (hx : x.Fits dtype f) :
    (f.roots.map (leafIndex (x.less ops) f)).length = codes.length ∧
      TreeCalls ops ext (inlineProg name dtype nClasses lb true ip ws bytes codes) fuel (depth + 1) (fun c => .int (c : Nat)) dtype x.array x.length
        ((treeNames name codes.length).zip (f.roots.map (leafIndex (x.less ops) f))) := by
  have hlv : ∀ i, leafValue f true lb num i = some (i : ℚ) := fun i => by simp [leafValue, hlb]
  refine inline_treeCalls ops ext fuel depth name dtype nClasses lb true ip ws bytes codes hok _ hcodes (fun m hm => ⟨_, hlv m⟩) x hx
    (fun q => .int (trunc q)) (fun c => .int (c : Nat)) _ ?_ ?_ ?_
  · rw [List.forall₂_map_right_iff, List.forall₂_same]
    intro r _
    exact ⟨_, hlv _, by rw [trunc_nat]⟩
  · intro i v hi h ctx env
    rw [hlv] at h
    cases h
    rw [eval_nat ops true rfl i (by omega) ctx env, trunc_nat]
  · intro i v hi h
    rw [hlv] at h
    cases h
    rw [trunc_nat]
    exact conv_int32 ops (.inr rfl) _ (by omega) (by omega)

/-- The bytes that the reached leaves contribute. -/
theorem soft_leaves (f : Forest ℚ (List Nat)) (nClasses : Nat) (hrow : ∀ row ∈ f.leaves, row.length = nClasses ∧ ∀ b ∈ row, b < 256) (go : Int → ℚ → Bool) (rows : List (List Nat)) (roots : List Nat)
    (h : List.Forall₂ (fun r v => f.leaves[leafIndex go f r]? = some v) roots rows) :
    List.Forall₂ (fun i row => ∀ c, c < nClasses → (leafBytesSoft f.leaves)[nClasses * i + c]? = some (row.getD c 0)) (roots.map (leafIndex go f)) rows := by
  rw [List.forall₂_map_left_iff]
  refine h.imp ?_
  intro r row hr c hc
  have hm := hrow row (List.mem_of_getElem? hr)
  have hcl : c < row.length := by omega
  unfold leafBytesSoft
  rw [Nat.mul_comm, List.getElem?_map, flatten_get f.leaves nClasses (fun r hr => (hrow r hr).1) _ c hc, hr, Option.bind_some, List.getElem?_eq_getElem hcl, Option.map_some,
    List.getD_eq_getElem?_getD, List.getElem?_eq_getElem hcl, Option.getD_some, Nat.mod_eq_of_lt (hm.2 _ (List.getElem_mem hcl))]

theorem leafBytesSoft_lt (leaves : List (List Nat)) : ∀ b ∈ leafBytesSoft leaves, b < 256 := by
  intro b hb
  obtain ⟨a, -, rfl⟩ := List.mem_map.1 hb
  exact Nat.mod_lt _ (by decide)

/-- A leaf exists and has bytes. -/
theorem leafBytesSoft_ne (f : Forest ℚ (List Nat)) (hok : ForestOK f) (hroots : f.roots ≠ []) (nClasses : Nat) (hn0 : 1 ≤ nClasses) (hrow : ∀ row ∈ f.leaves, row.length = nClasses ∧ ∀ b ∈ row, b < 256) (go : Int → ℚ → Bool) :
    leafBytesSoft f.leaves ≠ [] := by
  intro e
  obtain ⟨r, rs, hr⟩ := List.exists_cons_of_ne_nil hroots
  obtain ⟨v, -, -, hv⟩ := forestPredict_leafIndex go hok (r := r) (by simp [hr])
  have h0 : f.leaves.flatten = [] := List.map_eq_nil_iff.1 e
  have := List.flatten_eq_nil_iff.1 h0 v hv
  have h2 := (hrow v hv).1
  rw [this] at h2
  simp at h2; omega

include hk in
/-- **C88** (soft voting, probabilities) with `leaf_bits` > 0 `<name>_predict_proba` returns 0 and leaves in `out`, for each class, the sum over the trees of (stored byte / 255) for the leaf that the
tree reaches, divided by the number of trees. -/
theorem C88_inline_proba_soft (f : Forest ℚ (List Nat)) (hok : ForestOK f) (hroots : f.roots ≠ []) (hr : f.roots.length ≤ 2147483647) (name dtype : List Char) (nClasses : Nat) (hn0 : 1 ≤ nClasses) (hn : nClasses ≤ 2147483647)
    (hfu : nClasses < fuel) (hrow : ∀ row ∈ f.leaves, row.length = nClasses ∧ ∀ b ∈ row, b < 256) (hsize : (leafBytesSoft f.leaves).length ≤ 2147483647) (lb : Int) (hlb : lb ≠ 0)
    (num : List Nat → ℚ) (ws : List (List Char)) (ha : TextArgs name dtype ws) (text : List Char)
    (h : generateInlined f name nClasses lb dtype true true ([' '].intercalate ws) num (leafBytesSoft f.leaves) = some text) :
    ∃ prog, parse (saveText text) = some prog ∧ ∀ x : Input F, x.Fits dtype f → ∀ outs : List (Option (Val F)), outs.length = nClasses →
      ∃ rows, List.Forall₂ (fun r row => forestPredict (x.less ops) f r = some row) f.roots rows ∧
        callFunc ops ext prog fuel (depth + 2) (name ++ "_predict_proba".toList) [.arr dtype x.array, .num (.int x.length), .arr "float".toList outs, .num (.int nClasses)] =
          some (.int 0, [(2, (List.range nClasses).map fun c => some (.flt (ops.div (softTotal ops rows c) (ops.ofInt f.roots.length))))]) := by
  obtain ⟨codes, hcodes, -, hparse⟩ := inline_parse f name nClasses lb dtype true true ws num (leafBytesSoft f.leaves) text ha.name ha.type ha.modifiers h
  refine ⟨_, hparse, ?_⟩
  intro x hx outs houts
  obtain ⟨rows, h1, h2, h3⟩ := forest_leaves (x.less ops) hok
  refine ⟨rows, h1, ?_⟩
  have hll : f.leaves.length ≤ (leafBytesSoft f.leaves).length := by
    unfold leafBytesSoft
    rw [List.length_map, List.length_flatten]
    calc f.leaves.length = (f.leaves.map fun _ => 1).sum := by simp
      _ ≤ _ := by
        apply List.sum_le_sum
        intro r hr'
        have := (hrow r hr').1
        omega
  obtain ⟨hlen, hcalls⟩ := soft_calls ops ext fuel depth f hok name dtype nClasses lb hlb (by omega) num true ws (leafBytesSoft f.leaves) codes hcodes x hx
  have hl : (treeNames name codes.length).length = (f.roots.map (leafIndex (x.less ops) f)).length := by rw [hlen]; simp [treeNames]
  have hzl : ((treeNames name codes.length).zip (f.roots.map (leafIndex (x.less ops) f))).length = f.roots.length := by rw [List.length_zip, hl, Nat.min_self, List.length_map]
  have hsum := soft_rows ops (leafBytesSoft f.leaves) nClasses rows _ (soft_leaves f nClasses hrow (x.less ops) rows f.roots h2) (fun _ => ops.zero)
  have key := call_probaSoft ops hk ext (inlineProg name dtype nClasses lb true true ws (leafBytesSoft f.leaves) codes) fuel (depth + 1) name dtype nClasses x.array outs x.length
    ((treeNames name codes.length).zip (f.roots.map (leafIndex (x.less ops) f))) (leafBytesSoft f.leaves) _ ?_ hcalls
    (globals_leaves ops name dtype nClasses lb hlb true true ws _ codes (leafBytesSoft_lt _) (leafBytesSoft_ne f hok hroots nClasses hn0 hrow (x.less ops))) hsize hn0 hn hfu (by omega)
    (by omega) (by have := hx.length; omega) (by omega) (by omega)
    (by rw [houts, foldlM_zip_snd (fun o i => (List.range nClasses).foldlM (softAt ops.toFOps (leafBytesSoft f.leaves) (nClasses * i)) o) _ _ hl]; rw [List.map_const', List.length_range] at hsum; exact hsum)
  · rw [houts, hzl] at key
    rw [key]
    simp [flts, softTotal]
  · rw [map_zip_fst _ _ hl]
    exact find_forest name dtype nClasses lb true true ws _ codes (probaSoftFunc name dtype (name ++ "_leaves".toList) nClasses (treeNames name codes.length)) (by simp [forestFuncs, hlb])

include hk in
/-- **C88** (soft voting, class) `<name>_predict` returns the first class with the largest total probability, or -1 if no class has a positive total. -/
theorem C88_inline_predict_soft [LinearOrder F] (hlt : ∀ a b : F, ops.lt a b = decide (a < b)) (f : Forest ℚ (List Nat)) (hok : ForestOK f) (hroots : f.roots ≠ []) (name dtype : List Char) (nClasses : Nat)
    (hn0 : 1 ≤ nClasses) (hn : nClasses ≤ 2147483647) (hfu : nClasses < fuel) (hrow : ∀ row ∈ f.leaves, row.length = nClasses ∧ ∀ b ∈ row, b < 256) (hsize : (leafBytesSoft f.leaves).length ≤ 2147483647)
    (lb : Int) (hlb : lb ≠ 0) (num : List Nat → ℚ) (includeProba : Bool) (ws : List (List Char)) (ha : TextArgs name dtype ws) (text : List Char)
    (h : generateInlined f name nClasses lb dtype true includeProba ([' '].intercalate ws) num (leafBytesSoft f.leaves) = some text) :
    ∃ prog, parse (saveText text) = some prog ∧ ∀ x : Input F, x.Fits dtype f →
      ∃ rows, List.Forall₂ (fun r row => forestPredict (x.less ops) f r = some row) f.roots rows ∧
        ∃ c : Int, callFunc ops ext prog fuel (depth + 2) (name ++ "_predict".toList) [.arr dtype x.array, .num (.int x.length)] = some (.int c, []) ∧
          ((c = -1 ∧ ∀ k, k < nClasses → softTotal ops rows k ≤ ops.zero) ∨
           ∃ k : Nat, c = k ∧ k < nClasses ∧ ops.zero < softTotal ops rows k ∧ (∀ j, j < nClasses → softTotal ops rows j ≤ softTotal ops rows k) ∧ ∀ j, j < k → softTotal ops rows j < softTotal ops rows k) := by
  obtain ⟨codes, hcodes, -, hparse⟩ := inline_parse f name nClasses lb dtype true includeProba ws num (leafBytesSoft f.leaves) text ha.name ha.type ha.modifiers h
  refine ⟨_, hparse, ?_⟩
  intro x hx
  obtain ⟨rows, h1, h2, h3⟩ := forest_leaves (x.less ops) hok
  refine ⟨rows, h1, ?_⟩
  have hll : f.leaves.length ≤ (leafBytesSoft f.leaves).length := by
    unfold leafBytesSoft
    rw [List.length_map, List.length_flatten]
    calc f.leaves.length = (f.leaves.map fun _ => 1).sum := by simp
      _ ≤ _ := by
        apply List.sum_le_sum
        intro r hr'
        have := (hrow r hr').1
        omega
  obtain ⟨hlen, hcalls⟩ := soft_calls ops ext fuel depth f hok name dtype nClasses lb hlb (by omega) num includeProba ws (leafBytesSoft f.leaves) codes hcodes x hx
  have hl : (treeNames name codes.length).length = (f.roots.map (leafIndex (x.less ops) f)).length := by rw [hlen]; simp [treeNames]
  have hsum := soft_rows ops (leafBytesSoft f.leaves) nClasses rows _ (soft_leaves f nClasses hrow (x.less ops) rows f.roots h2) (fun _ => ops.zero)
  have hb := argmaxLoop_bounds ops.lt ((List.range nClasses).map fun c => softTotal ops rows c) 0 (-1) ops.zero (by omega)
  rw [List.length_map, List.length_range] at hb
  have key := call_predictSoft ops hk ext (inlineProg name dtype nClasses lb true includeProba ws (leafBytesSoft f.leaves) codes) fuel (depth + 1) name dtype nClasses x.array x.length
    ((treeNames name codes.length).zip (f.roots.map (leafIndex (x.less ops) f))) (leafBytesSoft f.leaves) ((List.range nClasses).map fun c => softTotal ops rows c) ?_ hcalls
    (globals_leaves ops name dtype nClasses lb hlb true includeProba ws _ codes (leafBytesSoft_lt _) (leafBytesSoft_ne f hok hroots nClasses hn0 hrow (x.less ops))) hsize hn0 hn hfu
    (by omega) (by have := hx.length; omega)
    (by rw [foldlM_zip_snd (fun o i => (List.range nClasses).foldlM (softAt ops.toFOps (leafBytesSoft f.leaves) (nClasses * i)) o) _ _ hl]; rw [List.map_const', List.length_range] at hsum; exact hsum)
    (by omega)
  · refine ⟨_, key, ?_⟩
    have hlt' : ops.lt = fun a b => decide (a < b) := by funext a b; exact hlt a b
    have get : ∀ d, d < nClasses → ((List.range nClasses).map fun c => softTotal ops rows c)[d]? = some (softTotal ops rows d) := fun d hd => by simp [hd]
    rw [hlt']
    rcases argmaxLoop_spec ((List.range nClasses).map fun c => softTotal ops rows c) 0 (-1) ops.zero with ⟨e, hall⟩ | ⟨k, e, v, hv, hpos, hmax, hfirst⟩
    · left
      exact ⟨e, fun k hk => hall _ (List.mem_of_getElem? (get k hk))⟩
    · right
      have hk : k < nClasses := by
        have := (List.getElem?_eq_some_iff.mp hv).1
        simpa using this
      rw [get k hk] at hv
      cases hv
      exact ⟨k, by rw [e]; simp, hk, hpos, fun j hj => hmax j _ (get j hj), fun j hj => hfirst j _ hj (get j (by omega))⟩
  · rw [map_zip_fst _ _ hl]
    exact find_forest name dtype nClasses lb true includeProba ws _ codes (predictSoftFunc name dtype (name ++ "_leaves".toList) nClasses (treeNames name codes.length)) (by simp [forestFuncs, hlb])

include hk in
/-- **C88** (regression) `<name>_predict(features, length)` of a regressor returns the sum, in tree order, of the values of the reached leaves, each rounded to six decimals when it was printed,
divided by the number of trees. -/
theorem C88_inline_regress {L : Type} (f : Forest ℚ L) (hok : ForestOK f) (hr : f.roots.length ≤ 2147483647) (name dtype : List Char) (nClasses : Nat) (lb : Int) (num : L → ℚ)
    (includeProba : Bool) (ws : List (List Char)) (bytes : List Nat) (ha : TextArgs name dtype ws) (text : List Char)
    (h : generateInlined f name nClasses lb dtype false includeProba ([' '].intercalate ws) num bytes = some text) :
    ∃ prog, parse (saveText text) = some prog ∧ ∀ x : Input F, x.Fits dtype f →
      ∃ vals, List.Forall₂ (fun r v => forestPredict (x.less ops) f r = some v) f.roots vals ∧
        callFunc ops ext prog fuel (depth + 2) (name ++ "_predict".toList) [.arr dtype x.array, .num (.int x.length)] =
          some (.flt (ops.div (vals.foldl (fun s v => ops.add s (ops.lit (decide (num v < 0)) |fixedValue 6 (num v)|)) ops.zero) (ops.ofInt f.roots.length)), []) := by
  obtain ⟨codes, hcodes, -, hparse⟩ := inline_parse f name nClasses lb dtype false includeProba ws num bytes text ha.name ha.type ha.modifiers h
  refine ⟨_, hparse, ?_⟩
  intro x hx
  obtain ⟨vals, h1, h2, h3⟩ := forest_leaves (x.less ops) hok
  refine ⟨vals, h1, ?_⟩
  have hlv : ∀ i, leafValue f false lb num i = (f.leaves[i]?).map num := fun i => by simp [leafValue]
  obtain ⟨hlen, hcalls⟩ := inline_treeCalls ops ext fuel depth name dtype nClasses lb false includeProba ws bytes codes hok _ hcodes (fun m hm => ⟨_, by rw [hlv, List.getElem?_eq_getElem hm]; rfl⟩) x hx
    (fun q => .flt (floatLit ops q)) (fun y => .flt y) (vals.map fun v => floatLit ops (num v))
    (by
      rw [List.forall₂_map_right_iff]
      refine h2.imp ?_
      intro r c h
      exact ⟨num c, by rw [hlv, h]; rfl, rfl⟩)
    (fun i v hi h ctx env => eval_litExpr_float ops ctx env v)
    (fun i v hi h => by simp [conv])
  have hl : (treeNames name codes.length).length = (vals.map fun v => floatLit ops (num v)).length := by rw [hlen]; simp [treeNames]
  have hcl : vals.length = f.roots.length := h1.length_eq.symm
  have hzl : ((treeNames name codes.length).zip (vals.map fun v => floatLit ops (num v))).length = f.roots.length := by rw [List.length_zip, hl, Nat.min_self, List.length_map, hcl]
  have key := call_regress ops hk ext (inlineProg name dtype nClasses lb false includeProba ws bytes codes) fuel (depth + 1) name dtype x.array x.length
    ((treeNames name codes.length).zip (vals.map fun v => floatLit ops (num v))) ?_ hcalls (by omega) (by omega) (by have := hx.length; omega)
  · rw [hzl, foldl_zip_snd _ _ _ hl, List.foldl_map] at key
    exact key
  · rw [map_zip_fst _ _ hl]
    exact find_forest name dtype nClasses lb false includeProba ws bytes codes (regressorFunc name dtype (treeNames name codes.length)) (by simp [forestFuncs])
end

/-! ### Non-vacuity: concrete files, read and run -/

/-- Exact rational arithmetic as `float`. -/
def exactC : CFloat ℚ := { exactOps ℚ with lit := fun neg q => if neg then -q else q, toInt := fun x => some (trunc x) }

theorem exactC_consts : Consts exactC := by
  constructor <;> norm_num [exactC, exactOps]

/-- Two trees over two features with three leaf classes, used for hard voting. -/
def exTextHard : Forest ℚ Nat := ⟨[⟨0, 21/2, 1, -1⟩, ⟨1, -3, -2, -3⟩, ⟨1, 5, -2, -3⟩], [0, 2], [0, 1, 2]⟩

/-- The same trees with probabilities in the leaves. -/
def exTextSoft : Forest ℚ (List Nat) := ⟨exTextHard.nodes, exTextHard.roots, [[255, 0, 0], [51, 204, 0], [0, 102, 153]]⟩

def noExt : List Char → List (ArgVal ℚ) → Option (CallResult ℚ) := fun _ _ => none

instance : DecidableEq (ArgVal ℚ) := fun a b => by
  cases a <;> cases b <;> simp <;> infer_instance

theorem exTextHard_ok : ForestOK exTextHard := by
  constructor
  · intro p n hp
    match p with
    | 0 => simp [exTextHard] at hp; subst hp; constructor <;> constructor <;> simp [exTextHard]
    | 1 => simp [exTextHard] at hp; subst hp; constructor <;> constructor <;> simp [exTextHard]
    | 2 => simp [exTextHard] at hp; subst hp; constructor <;> constructor <;> simp [exTextHard]
    | p + 3 => simp [exTextHard] at hp
  · simp [exTextHard]
  · intro q hq; simp [exTextHard] at hq ⊢; omega
  · intro m hm
    simp [exTextHard] at hm ⊢
    omega

/-- The generated file, as text, is produced, parsed and run: features (7, -9) reach the leaves of classes 1 and 1. -/
example : ((generateInlined exTextHard "model".toList 3 0 "int16_t".toList true true "static const".toList (fun (c : Nat) => (c : ℚ)) []).bind fun text =>
      (parse (saveText text)).bind fun prog =>
        callFunc exactC noExt prog 10 2 "model_predict".toList [.arr "int16_t".toList (Input.array (.ints [7, -9])), .num (.int 2)]) = some (.int 1, []) := by
  decide +kernel

/-- Soft voting with `float` features: (10.25, 7.5) reaches leaves 2 and 2 of the first and the second tree. -/
example : ((generateInlined exTextSoft "model".toList 3 8 "float".toList true true "static const".toList (fun _ => 0) (leafBytesSoft exTextSoft.leaves)).bind fun text =>
      (parse (saveText text)).bind fun prog =>
        callFunc exactC noExt prog 10 2 "model_predict_proba".toList [.arr "float".toList (Input.array (.floats [41/4, 15/2])), .num (.int 2), .arr "float".toList [none, none, none], .num (.int 3)]) =
      some (.int 0, [(2, [some (.flt 0), some (.flt (2/5)), some (.flt (3/5))])]) := by
  decide +kernel

/-- The hypotheses of the hard-voting theorems hold for this file, with `int16_t` features. -/
example : TextArgs "model".toList "int16_t".toList ["static".toList, "const".toList] ∧ ForestOK exTextHard ∧ exTextHard.roots ≠ [] ∧ (∀ c ∈ exTextHard.leaves, c < 3) ∧
    (Input.ints [7, -9] : Input ℚ).Fits "int16_t".toList exTextHard ∧
    (generateInlined exTextHard "model".toList 3 0 "int16_t".toList true true ([' '].intercalate ["static".toList, "const".toList]) (fun (c : Nat) => (c : ℚ)) []).isSome = true := by
  refine ⟨⟨by decide +kernel, ?_, by decide +kernel⟩, exTextHard_ok, by decide, by decide, ⟨by decide +kernel, by decide, by decide, by decide +kernel⟩, by decide +kernel⟩
  exact ⟨by decide +kernel, by unfold NumType; decide +kernel⟩

/-- The hypotheses of the soft-voting theorems hold, with `float` features. -/
example : TextArgs "model".toList "float".toList ["static".toList, "const".toList] ∧ (∀ row ∈ exTextSoft.leaves, row.length = 3 ∧ ∀ b ∈ row, b < 256) ∧
    (Input.floats [41/4, 15/2] : Input ℚ).Fits "float".toList exTextSoft ∧ (leafBytesSoft exTextSoft.leaves).length ≤ 2147483647 ∧
    (generateInlined exTextSoft "model".toList 3 8 "float".toList true true ([' '].intercalate ["static".toList, "const".toList]) (fun _ => 0) (leafBytesSoft exTextSoft.leaves)).isSome = true := by
  refine ⟨⟨by decide +kernel, ?_, by decide +kernel⟩, by decide, ⟨rfl, by decide, by decide, trivial⟩, by decide, by decide +kernel⟩
  exact ⟨by decide +kernel, by unfold NumType; decide +kernel⟩

/-- A regressor: the leaf values 1.5 and -0.25 are reached. -/
example : ((generateInlined (⟨exTextHard.nodes, exTextHard.roots, [3/2, 7, -1/4]⟩ : Forest ℚ ℚ) "model".toList 0 32 "int16_t".toList false false "static const".toList id []).bind fun text =>
      (parse (saveText text)).bind fun prog =>
        callFunc exactC noExt prog 10 2 "model_predict".toList [.arr "int16_t".toList (Input.array (.ints [12, 9])), .num (.int 2)]) = some (.flt (5/8), []) := by
  decide +kernel
end Emlearn.Trees
