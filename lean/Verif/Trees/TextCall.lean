/- Calls of the tree functions, and of the functions of the forest, in the inline program. -/
import Verif.Trees.TextExec
import Verif.Trees.Deploy
namespace Emlearn.Trees
open Emlearn.Cgen Emlearn.MiniC
variable {F : Type}

/-! ### One tree -/

/-- All comparisons and all leaves of a tree of nested ifs. -/
def Stmt.All {Θ R : Type} (P : Int → Θ → Prop) (Q : R → Prop) : Stmt Θ R → Prop
  | .ret v => Q v
  | .ite f t l r => P f t ∧ l.All P Q ∧ r.All P Q

theorem inlineNode_all {Θ R : Type} (nodes : List (Node Θ)) (leafOf : Nat → Option R) (P : Int → Θ → Prop) (Q : R → Prop) (I : Nat → Prop) (hP : ∀ n ∈ nodes, P n.feature n.threshold)
    (hI : ∀ n ∈ nodes, (n.left < 0 → I (-n.left - 1).toNat) ∧ (n.right < 0 → I (-n.right - 1).toNat))
    (hQ : ∀ i v, I i → leafOf i = some v → Q v) (fuel : Nat) (c : Int) (hc : c < 0 → I (-c - 1).toNat) (st : Stmt Θ R) (h : inlineNode nodes leafOf fuel c = some st) : st.All P Q := by
  induction fuel generalizing c st with
  | zero =>
    unfold inlineNode at h
    split at h
    · rename_i hn
      obtain ⟨v, hv, rfl⟩ := Option.map_eq_some_iff.1 h
      exact hQ _ v (hc hn) hv
    · cases h
  | succ fuel ih =>
    unfold inlineNode at h
    split at h
    · rename_i hn
      obtain ⟨v, hv, rfl⟩ := Option.map_eq_some_iff.1 h
      exact hQ _ v (hc hn) hv
    · simp only at h
      split at h
      · cases h
      · rename_i n hn
        have hm := List.mem_of_getElem? hn
        cases hl : inlineNode nodes leafOf fuel n.left with
        | none => simp [hl] at h
        | some l =>
          cases hr : inlineNode nodes leafOf fuel n.right with
          | none => simp [hl, hr] at h
          | some r =>
            simp [hl, hr] at h
            subst h
            exact ⟨hP n hm, ih _ (hI n hm).1 _ hl, ih _ (hI n hm).2 _ hr⟩

theorem inlineTrees_all {Θ L R : Type} {f : Forest Θ L} (hok : ForestOK f) (leafOf : Nat → Option R) (P : Int → Θ → Prop) (Q : R → Prop) (hP : ∀ n ∈ f.nodes, P n.feature n.threshold)
    (hQ : ∀ i v, i < f.leaves.length → leafOf i = some v → Q v) (ts : List (Stmt Θ R)) (h : inlineTrees f leafOf = some ts) : ∀ st ∈ ts, st.All P Q := by
  have hI : ∀ n ∈ f.nodes, (n.left < 0 → (-n.left - 1).toNat < f.leaves.length) ∧ (n.right < 0 → (-n.right - 1).toNat < f.leaves.length) := by
    intro n hn
    obtain ⟨p, hp⟩ := List.mem_iff_getElem?.1 hn
    have h1 := (hok.refs p n hp).1.2
    have h2 := (hok.refs p n hp).2.2
    exact ⟨fun h => by have := h1 h; omega, fun h => by have := h2 h; omega⟩
  unfold inlineTrees at h
  generalize f.roots = rs at h
  induction rs generalizing ts with
  | nil => simp at h; subst h; simp
  | cons r rs ih =>
    cases h1 : inlineNode f.nodes leafOf f.nodes.length (r : Int) with
    | none => simp [List.mapM_cons, h1] at h
    | some st =>
      cases h2 : rs.mapM (fun (r : Nat) => inlineNode f.nodes leafOf f.nodes.length (r : Int)) with
      | none => simp [List.mapM_cons, h1, h2] at h
      | some ts' =>
        simp [List.mapM_cons, h1, h2] at h
        subst h
        intro x hx
        rcases List.mem_cons.1 hx with rfl | hx
        · exact inlineNode_all f.nodes leafOf P Q (· < f.leaves.length) hP hI hQ _ _ (fun h => by omega) _ h1
        · exact ih ts' h2 x hx

/-- A comparison of a tree of nested ifs with the given features gives `go f t`. -/
def Compares (ops : CFloat F) (dtype : List Char) (feats : List (Option (Val F))) (go : Int → ℚ → Bool) (f : Int) (t : ℚ) : Prop :=
  ∀ (ctx : Ctx F) (env : Env F), env nmFeatures = some (.array dtype feats) →
    eval ops ctx env (.bin '<' (.idx nmFeatures (litExpr f "int".toList)) (litExpr t dtype)) = some (boolVal (go f t))

theorem exec_stmt (ops : CFloat F) (ctx : Ctx F) (fuel : Nat) (dtype leafDtype : List Char) (feats : List (Option (Val F))) (go : Int → ℚ → Bool) (val : ℚ → Val F) (env : Env F)
    (hf : env nmFeatures = some (.array dtype feats)) (st : Stmt ℚ ℚ) (h : st.All (Compares ops dtype feats go) (fun v => eval ops ctx env (litExpr v leafDtype) = some (val v))) :
    exec ops ctx fuel (stmtCode dtype leafDtype st) env = some (.returned (val (st.eval go)) env) := by
  induction st with
  | ret v =>
    refine exec_ret ops ctx fuel env _ _ _ (evalTop_eq ops ctx env _ _ ?_ h)
    intro f a
    unfold litExpr sgnExpr
    split <;> simp
  | ite f t l r ihl ihr =>
    obtain ⟨h1, h2, h3⟩ := h
    have hc := h1 ctx env hf
    have il := ihl h2
    have ir := ihr h3
    unfold stmtCode
    rw [exec, hc]
    unfold Stmt.eval
    cases go f t with
    | true => simp only [boolVal, if_true, one_ne_zero, if_false, il]
    | false => simp only [boolVal, Bool.false_eq_true, if_false, if_true, ir]

theorem trunc_int (z : Int) : trunc (z : ℚ) = z := by
  unfold trunc
  split <;> simp

/-- Integer features. -/
theorem compares_int (ops : CFloat F) (dtype : List Char) (hd : dtype ≠ "float".toList) (features : List Int) (f : Int) (t : ℚ) (h0 : 0 ≤ f) (h1 : f < features.length) (hl : features.length ≤ 2147483647)
    (ht : (trunc t).natAbs ≤ 2147483647) : Compares ops dtype (ints features) (cmpInt features trunc) f t := by
  intro ctx env hf
  obtain ⟨n, rfl⟩ : ∃ n : Nat, f = n := ⟨f.toNat, by omega⟩
  have hn : n < features.length := by omega
  have e1 : eval ops ctx env (litExpr ((n : Int) : ℚ) "int".toList) = some (.int n) := by
    rw [eval_litExpr_int ops ctx env _ _ (by decide +kernel) (by rw [trunc_int]; omega), trunc_int]
  rw [eval, eval_idx ops ctx env nmFeatures dtype _ _ n (.int features[n]) (lookup_local ctx env _ _ hf) e1 (by simp [ints, hn]), eval_litExpr_int ops ctx env t dtype hd ht]
  simp [binVal, cmpInt, hn]

/-- The comparison made by generated code with `float` features: `features[f] < t` with the printed threshold. -/
def cmpFloat (ops : CFloat F) (features : List F) (f : Int) (t : ℚ) : Bool := ops.lt (features.getD f.toNat ops.zero) (floatLit ops t)

/-- `float` features. -/
theorem compares_float (ops : CFloat F) (features : List F) (f : Int) (t : ℚ) (h0 : 0 ≤ f) (h1 : f < features.length) (hl : features.length ≤ 2147483647) :
    Compares ops "float".toList (flts features) (cmpFloat ops features) f t := by
  intro ctx env hf
  obtain ⟨n, rfl⟩ : ∃ n : Nat, f = n := ⟨f.toNat, by omega⟩
  have hn : n < features.length := by omega
  have e1 : eval ops ctx env (litExpr ((n : Int) : ℚ) "int".toList) = some (.int n) := by
    rw [eval_litExpr_int ops ctx env _ _ (by decide +kernel) (by rw [trunc_int]; omega), trunc_int]
  rw [eval, eval_idx ops ctx env nmFeatures "float".toList _ _ n (.flt features[n]) (lookup_local ctx env _ _ hf) e1 (by simp [flts, hn]), eval_litExpr_float ops ctx env t]
  simp [binVal, cmpFloat, toFloat, hn]

/-! ### Finding functions and arrays -/

theorem treeName_inj (name : List Char) {i j : Nat} (h : treeName name i = treeName name j) : i = j := by
  unfold treeName at h
  have := List.append_cancel_left h
  have h2 := congrArg readNat this
  rw [readNat_showNat, readNat_showNat] at h2
  exact Option.some.inj h2

theorem treeName_last (name : List Char) (i : Nat) : ∃ c, (treeName name i).getLast? = some c ∧ c.isDigit = true := by
  obtain ⟨c, hc⟩ : ∃ c, (showNat i).getLast? = some c := ⟨_, List.getLast?_eq_some_getLast (showNat_ne_nil i)⟩
  refine ⟨c, ?_, showNat_digits (List.mem_of_getLast? hc)⟩
  unfold treeName
  rw [List.getLast?_append, hc]; rfl

theorem treeName_ne (name x s : List Char) (i : Nat) (c : Char) (hs : s.getLast? = some c) (hc : c.isDigit = false) : treeName name i ≠ x ++ s := by
  intro h
  obtain ⟨d, hd, hdd⟩ := treeName_last name i
  rw [h, List.getLast?_append, hs] at hd
  cases hd
  rw [hc] at hdd; cases hdd

theorem mem_treeFuncs (name dtype : List Char) (c : Bool) (codes : List (Stmt ℚ ℚ)) (g : Func) :
    g ∈ treeFuncs name dtype c codes ↔ ∃ i st, codes[i]? = some st ∧
      g = treeFunc dtype (if c then "int".toList else "float".toList) (if c then "int32_t".toList else "float".toList) (treeName name i) st := by
  unfold treeFuncs treeNames
  rw [List.mem_map]
  constructor
  · rintro ⟨p, hp, rfl⟩
    obtain ⟨i, hi⟩ := List.mem_iff_getElem?.1 hp
    rw [List.getElem?_zip_eq_some] at hi
    obtain ⟨h1, h2⟩ := hi
    rw [List.getElem?_map, Option.map_eq_some_iff] at h1
    obtain ⟨j, hj, h1⟩ := h1
    have : j = i := by
      rw [List.getElem?_eq_some_iff] at hj
      obtain ⟨_, hj⟩ := hj
      rw [List.getElem_range] at hj
      exact hj.symm
    subst this
    exact ⟨j, p.2, h2, by rw [h1]⟩
  · rintro ⟨i, st, h, rfl⟩
    have hi : i < codes.length := by
      by_contra hh
      rw [List.getElem?_eq_none (by omega)] at h; cases h
    refine ⟨(treeName name i, st), ?_, rfl⟩
    refine List.mem_iff_getElem?.2 ⟨i, ?_⟩
    rw [List.getElem?_zip_eq_some]
    exact ⟨by simp [hi], h⟩

theorem forestFuncs_name (name dtype : List Char) (n : Nat) (lb : Int) (c ip : Bool) (trees : List (List Char)) (g : Func) (h : g ∈ forestFuncs name dtype n lb c ip trees) :
    g.name = name ++ "_predict".toList ∨ g.name = name ++ "_predict_proba".toList := by
  unfold forestFuncs at h
  cases c with
  | false =>
    simp only [Bool.false_eq_true, if_false, List.mem_singleton] at h
    subst h
    exact .inl rfl
  | true =>
    rw [if_pos rfl] at h
    rcases List.mem_cons.1 h with rfl | h
    · split
      · exact .inl rfl
      · exact .inl rfl
    · cases ip with
      | false => simp at h
      | true =>
        simp only [if_true, List.mem_singleton] at h
        subst h
        split
        · exact .inr rfl
        · exact .inr rfl

theorem mem_inlineProg_func (name dtype : List Char) (n : Nat) (lb : Int) (c ip : Bool) (ws : List (List Char)) (bytes : List Nat) (codes : List (Stmt ℚ ℚ)) (g : Func) :
    Top.func g ∈ inlineProg name dtype n lb c ip ws bytes codes ↔ g ∈ treeFuncs name dtype c codes ∨ g ∈ forestFuncs name dtype n lb c ip (treeNames name codes.length) := by
  unfold inlineProg
  rw [List.mem_append, List.mem_append]
  constructor
  · rintro (h | h | h)
    · obtain ⟨g', h1, h2⟩ := List.mem_map.1 h
      cases h2; exact .inl h1
    · split at h <;> simp at h
    · obtain ⟨g', h1, h2⟩ := List.mem_map.1 h
      cases h2; exact .inr h1
  · rintro (h | h)
    · exact .inl (List.mem_map_of_mem h)
    · exact .inr (.inr (List.mem_map_of_mem h))

theorem find_tree (name dtype : List Char) (n : Nat) (lb : Int) (c ip : Bool) (ws : List (List Char)) (bytes : List Nat) (codes : List (Stmt ℚ ℚ)) (i : Nat) (st : Stmt ℚ ℚ) (h : codes[i]? = some st) :
    findFunc (inlineProg name dtype n lb c ip ws bytes codes) (treeName name i) =
      some (treeFunc dtype (if c then "int".toList else "float".toList) (if c then "int32_t".toList else "float".toList) (treeName name i) st) := by
  refine findFunc_eq _ (treeFunc dtype (if c then "int".toList else "float".toList) (if c then "int32_t".toList else "float".toList) (treeName name i) st) ?_ ?_
  · rw [mem_inlineProg_func]
    exact .inl ((mem_treeFuncs _ _ _ _ _).2 ⟨i, st, h, rfl⟩)
  · intro g hg hn
    rw [mem_inlineProg_func] at hg
    rcases hg with hg | hg
    · obtain ⟨j, st', hj, rfl⟩ := (mem_treeFuncs _ _ _ _ _).1 hg
      have : j = i := treeName_inj name hn
      subst this
      rw [hj] at h
      cases h; rfl
    · rcases forestFuncs_name _ _ _ _ _ _ _ g hg with e | e
      · exact absurd (hn.symm.trans e) (treeName_ne name name _ i 't' (by decide +kernel) (by decide))
      · exact absurd (hn.symm.trans e) (treeName_ne name name _ i 'a' (by decide +kernel) (by decide))

theorem predict_ne_proba (name : List Char) : name ++ "_predict".toList ≠ name ++ "_predict_proba".toList := by
  intro h
  exact absurd (List.append_cancel_left h) (by decide +kernel)

theorem find_forest (name dtype : List Char) (n : Nat) (lb : Int) (c ip : Bool) (ws : List (List Char)) (bytes : List Nat) (codes : List (Stmt ℚ ℚ)) (g : Func)
    (h : g ∈ forestFuncs name dtype n lb c ip (treeNames name codes.length)) : findFunc (inlineProg name dtype n lb c ip ws bytes codes) g.name = some g := by
  refine findFunc_eq _ g ((mem_inlineProg_func _ _ _ _ _ _ _ _ _ _).2 (.inr h)) ?_
  intro g' hg' hn
  rw [mem_inlineProg_func] at hg'
  rcases hg' with hg' | hg'
  · obtain ⟨j, st', hj, rfl⟩ := (mem_treeFuncs _ _ _ _ _).1 hg'
    rcases forestFuncs_name _ _ _ _ _ _ _ g h with e | e
    · exact absurd (hn.trans e) (treeName_ne name name _ j 't' (by decide +kernel) (by decide))
    · exact absurd (hn.trans e) (treeName_ne name name _ j 'a' (by decide +kernel) (by decide))
  · have hp := predict_ne_proba name
    unfold forestFuncs at h hg'
    cases c with
    | false =>
      simp only [Bool.false_eq_true, if_false, List.mem_singleton] at h hg'
      rw [h, hg']
    | true =>
      rw [if_pos rfl] at h hg'
      cases ip with
      | false =>
        simp only [Bool.false_eq_true, if_false, List.mem_singleton] at h hg'
        rw [h, hg']
      | true =>
        simp only [if_true] at h hg'
        by_cases h0 : lb = 0
        · simp only [h0, if_true, List.mem_cons, List.not_mem_nil, or_false] at h hg'
          rcases h with rfl | rfl <;> rcases hg' with rfl | rfl
          · rfl
          · exact absurd hn.symm hp
          · exact absurd hn hp
          · rfl
        · simp only [h0, if_false, List.mem_cons, List.not_mem_nil, or_false] at h hg'
          rcases h with rfl | rfl <;> rcases hg' with rfl | rfl
          · rfl
          · exact absurd hn.symm hp
          · exact absurd hn hp
          · rfl

theorem mapM_eval_bytes (ops : CFloat F) (ctx : Ctx F) (env : Env F) (bytes : List Nat) (hb : ∀ b ∈ bytes, b < 256) :
    (bytes.map fun (b : Nat) => litExpr (b : ℚ) "uint8_t".toList).mapM (eval ops ctx env) = some (bytes.map fun (b : Nat) => .int b) := by
  induction bytes with
  | nil => rfl
  | cons b l ih =>
    have := hb b (by simp)
    have e : ((b : Nat) : ℚ) = (((b : Nat) : Int) : ℚ) := by push_cast; rfl
    have h1 : eval ops ctx env (litExpr (b : ℚ) "uint8_t".toList) = some (.int b) := by
      rw [eval_litExpr_int ops ctx env _ _ (by decide +kernel) (by rw [e, trunc_int]; omega), e, trunc_int]
    rw [List.map_cons, List.mapM_cons, h1, ih fun b hb' => hb b (by simp [hb'])]
    rfl

theorem uint8Range : intRange "uint8_t".toList = some (0, 255) ∧ "uint8_t".toList ≠ "float".toList := by decide +kernel

theorem conv_uint8 (ops : CFloat F) (b : Nat) (h : b < 256) : conv ops "uint8_t".toList (.int b) = some (.int b) := by
  unfold conv
  rw [if_neg uint8Range.2, uint8Range.1]
  have e : wrapRange (0, 255) (b : Int) = b := by
    show ((b : Int) - 0) % (255 - 0 + 1) + 0 = b
    omega
  simp only [e]

theorem mapM_conv_bytes (ops : CFloat F) (bytes : List Nat) (hb : ∀ b ∈ bytes, b < 256) :
    (bytes.map fun (b : Nat) => (.int b : Val F)).mapM (conv ops "uint8_t".toList) = some (bytes.map fun (b : Nat) => .int b) := by
  induction bytes with
  | nil => rfl
  | cons b l ih =>
    rw [List.map_cons, List.mapM_cons, conv_uint8 ops b (hb b (by simp)), ih fun b hb' => hb b (by simp [hb'])]
    rfl

theorem declare_leaves (ops : CFloat F) (ctx : Ctx F) (name : List Char) (ws : List (List Char)) (bytes : List Nat) (hb : ∀ b ∈ bytes, b < 256) (hne : bytes ≠ []) (env : Env F)
    (henv : env (name ++ "_leaves".toList) = none) :
    declare ops ctx env (leavesDecl name ws bytes) = some (env.set (name ++ "_leaves".toList) (some (.array "uint8_t".toList (bytes.map fun (b : Nat) => some (.int b))))) := by
  unfold declare leavesDecl
  have hu := sgnExprs_uses (fun (b : Nat) => litSgn (b : ℚ) "uint8_t".toList) bytes (name ++ "_leaves".toList)
  simp only [henv, Decl.selfUse, hu, Bool.or_self, Option.isSome_none, Bool.false_eq_true, if_false, readNat_showNat, mapM_eval_bytes ops ctx env bytes hb, mapM_conv_bytes ops bytes hb]
  have hz := conv_uint8 ops 0 (by decide)
  rw [if_pos ⟨by simpa using hne, by simp⟩]
  rw [show (Val.int (0 : Int) : Val F) = .int ((0 : Nat) : Int) from rfl, hz]
  simp only [List.length_map, Nat.sub_self, List.replicate_zero, List.append_nil, List.map_map]
  rfl

theorem globals_leaves (ops : CFloat F) (name dtype : List Char) (n : Nat) (lb : Int) (hlb : lb ≠ 0) (c ip : Bool) (ws : List (List Char)) (bytes : List Nat) (codes : List (Stmt ℚ ℚ))
    (hb : ∀ b ∈ bytes, b < 256) (hne : bytes ≠ []) :
    globalsOf ops (inlineProg name dtype n lb c ip ws bytes codes) (name ++ "_leaves".toList) = some (.array "uint8_t".toList (bytes.map fun (b : Nat) => some (.int b))) := by
  have hf : findDecl (inlineProg name dtype n lb c ip ws bytes codes) (name ++ "_leaves".toList) = some (leavesDecl name ws bytes) := by
    refine findDecl_eq _ (leavesDecl name ws bytes) ?_ ?_
    · unfold inlineProg
      rw [if_pos hlb]
      simp
    · intro d hd _
      unfold inlineProg at hd
      rw [if_pos hlb, List.mem_append, List.mem_append] at hd
      rcases hd with h | h | h
      · obtain ⟨g', h1, h2⟩ := List.mem_map.1 h; cases h2
      · rw [List.mem_singleton] at h; cases h; rfl
      · obtain ⟨g', h1, h2⟩ := List.mem_map.1 h; cases h2
  unfold globalsOf
  rw [hf]
  simp only
  rw [declare_leaves ops _ name ws bytes hb hne _ rfl, Option.bind_some, Env.set_same]

/-! ### Calls of tree functions -/

theorem call_tree (ops : CFloat F) (ext : List Char → List (ArgVal F) → Option (CallResult F)) (fuel depth : Nat) (name dtype : List Char) (n : Nat) (lb : Int) (c ip : Bool) (ws : List (List Char))
    (bytes : List Nat) (codes : List (Stmt ℚ ℚ)) (i : Nat) (st : Stmt ℚ ℚ) (hi : codes[i]? = some st) (feats : List (Option (Val F))) (len : Int) (go : Int → ℚ → Bool) (val : ℚ → Val F)
    (h1 : -2147483648 ≤ len) (h2 : len ≤ 2147483647)
    (hst : st.All (Compares ops dtype feats go) fun v => ∀ ctx env, eval ops ctx env (litExpr v (if c then "int".toList else "float".toList)) = some (val v))
    (hcv : conv ops (if c then "int32_t".toList else "float".toList) (val (st.eval go)) = some (val (st.eval go))) :
    callFunc ops ext (inlineProg name dtype n lb c ip ws bytes codes) fuel (depth + 1) (treeName name i) [.arr dtype feats, .num (.int len)] = some (val (st.eval go), []) := by
  have hst' : ∀ ctx env, st.All (Compares ops dtype feats go) fun v => eval ops ctx env (litExpr v (if c then "int".toList else "float".toList)) = some (val v) := by
    intro ctx env
    clear hcv hi
    induction st with
    | ret v => exact hst ctx env
    | ite f t l r ihl ihr => exact ⟨hst.1, ihl hst.2.1, ihr hst.2.2⟩
  rw [callFunc_eq ops ext _ fuel depth _ _ _ (env0 dtype feats len) (env0 dtype feats len) _ _ (find_tree name dtype n lb c ip ws bytes codes i st hi) (bind_features ops dtype feats len h1 h2)
    (exec_stmt ops _ fuel dtype _ feats go val _ (env0_features dtype feats len) st (hst' _ _)) hcv]
  show some (_, writes _ 0 (featureParams dtype)) = _
  rw [writes_features]

/-! ### Inputs -/

/-- A feature vector given to generated code: integers or `float`. -/
inductive Input (F : Type) where
  | ints (features : List Int)
  | floats (features : List F)

def Input.length : Input F → Nat
  | .ints l => l.length
  | .floats l => l.length

/-- The array in memory. -/
def Input.array : Input F → List (Option (Val F))
  | .ints l => l.map fun z => some (.int z)
  | .floats l => l.map fun z => some (.flt z)

/-- The comparison made at a node: integers with the truncated threshold, `float` with the threshold printed with six decimals. -/
def Input.less (ops : CFloat F) : Input F → Int → ℚ → Bool
  | .ints l, f, t => decide (l.getD f.toNat 0 < trunc t)
  | .floats l, f, t => ops.lt (l.getD f.toNat ops.zero) (ops.lit (decide (t < 0)) |fixedValue 6 t|)

/-- The generated type of the features matches, every node compares a feature that exists, and integer thresholds are `int`. -/
structure Input.Fits {L : Type} (x : Input F) (dtype : List Char) (f : Forest ℚ L) : Prop where
  type : match x with | .ints _ => (intRange dtype).isSome = true | .floats _ => dtype = "float".toList
  length : x.length ≤ 2147483647
  features : ∀ n ∈ f.nodes, 0 ≤ n.feature ∧ n.feature < x.length
  thresholds : match x with | .ints _ => ∀ n ∈ f.nodes, (trunc n.threshold).natAbs ≤ 2147483647 | .floats _ => True

theorem notFloat_of_range {dtype : List Char} (h : (intRange dtype).isSome = true) : dtype ≠ "float".toList := by
  rintro rfl
  revert h
  decide +kernel

theorem Input.Fits.compares {L : Type} {ops : CFloat F} {x : Input F} {dtype : List Char} {f : Forest ℚ L} (h : x.Fits dtype f) :
    ∀ n ∈ f.nodes, Compares ops dtype x.array (x.less ops) n.feature n.threshold := by
  intro n hn
  obtain ⟨h1, h2, h3, h4⟩ := h
  cases x with
  | ints l => exact compares_int ops dtype (notFloat_of_range h1) l n.feature n.threshold (h3 n hn).1 (h3 n hn).2 h2 (h4 n hn)
  | floats l => subst h1; exact compares_float ops l n.feature n.threshold (h3 n hn).1 (h3 n hn).2 h2

theorem inline_treeCalls {X L : Type} (ops : CFloat F) (ext : List Char → List (ArgVal F) → Option (CallResult F)) (fuel depth : Nat) (name dtype : List Char) (n : Nat) (lb : Int) (c ip : Bool)
    (ws : List (List Char)) (bytes : List Nat) (codes : List (Stmt ℚ ℚ)) {f : Forest ℚ L} (hok : ForestOK f) (leafOf : Nat → Option ℚ) (hcodes : inlineTrees f leafOf = some codes)
    (hleaf : ∀ m, m < f.leaves.length → ∃ v, leafOf m = some v) (x : Input F) (hx : x.Fits dtype f) (val : ℚ → Val F) (inj : X → Val F) (vals : List X)
    (hvals : List.Forall₂ (fun r y => ∃ q, leafOf (leafIndex (x.less ops) f r) = some q ∧ val q = inj y) f.roots vals)
    (hlit : ∀ i v, i < f.leaves.length → leafOf i = some v → ∀ ctx env, eval ops ctx env (litExpr v (if c then "int".toList else "float".toList)) = some (val v))
    (hconv : ∀ i v, i < f.leaves.length → leafOf i = some v → conv ops (if c then "int32_t".toList else "float".toList) (val v) = some (val v)) :
    vals.length = codes.length ∧ TreeCalls ops ext (inlineProg name dtype n lb c ip ws bytes codes) fuel (depth + 1) inj dtype x.array x.length ((treeNames name codes.length).zip vals) := by
  obtain ⟨ts, h1, h2, h3⟩ := inlineTrees_spec hok leafOf hleaf
  rw [hcodes] at h1
  cases h1
  have hlen : vals.length = codes.length := by rw [h2, hvals.length_eq]
  refine ⟨hlen, ?_⟩
  intro p hp
  obtain ⟨i, hi⟩ := List.mem_iff_getElem?.1 hp
  rw [List.getElem?_zip_eq_some] at hi
  obtain ⟨hi1, hi2⟩ := hi
  have hil : i < codes.length := by
    rw [← hlen]
    by_contra hh
    rw [List.getElem?_eq_none (by omega)] at hi2; cases hi2
  have hname : p.1 = treeName name i := by
    unfold treeNames at hi1
    simp [hil] at hi1
    exact hi1.symm
  have hir : i < f.roots.length := by omega
  have hst := List.getElem?_eq_getElem hil
  have hall := inlineTrees_all hok leafOf (Compares ops dtype x.array (x.less ops))
    (fun v => ∀ ctx env, eval ops ctx env (litExpr v (if c then "int".toList else "float".toList)) = some (val v)) hx.compares hlit codes hcodes codes[i] (List.getElem_mem hil)
  have hev : leafOf (leafIndex (x.less ops) f f.roots[i]) = some (codes[i].eval (x.less ops)) := by
    have := (List.forall₂_iff_get.1 (h3 (x.less ops))).2 i hil (by simpa using hir)
    simpa using this
  obtain ⟨q, hq1, hq2⟩ := (List.forall₂_iff_get.1 hvals).2 i hir (by rw [hlen]; exact hil)
  simp only [List.get_eq_getElem] at hq1 hq2
  rw [hev] at hq1
  cases hq1
  have hidx := (leafIndex_spec (x.less ops) hok (List.getElem_mem hir)).2
  have hvi : p.2 = vals[i]'(by rw [hlen]; exact hil) := by
    rw [List.getElem?_eq_some_iff] at hi2
    exact hi2.2.symm
  rw [hname, call_tree ops ext fuel depth name dtype n lb c ip ws bytes codes i codes[i] hst x.array x.length (x.less ops) val (by omega) (by have := hx.length; omega) hall
    (hconv _ _ hidx hev), hq2, hvi]

end Emlearn.Trees
