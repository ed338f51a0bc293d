/- What a C compiler makes of the code generated for nearest-neighbors models: the `EmlNeighborsModel` structure and the run of `predict_func`.
`readShorts`, `readModel`, `neighborsLib` are part of the specification (initialisers of structures, `eml_neighbors.h` 95-106, and the functions modelled in `Neighbors/Model.lean`). -/
import Verif.Neighbors.Text
namespace Emlearn.Neighbors.CText
open Emlearn.Cgen Emlearn.MiniC
variable {F : Type}

/-- The initialised array of `int16_t` numbers `x`. -/
def readShorts (ops : CFloat F) (prog : Prog) (x : List Char) : Option (List Int) :=
  match globalsOf ops prog x with
  | some (.array ty vs) => if ty = "int16_t".toList then intsOf vs else none
  | _ => none

/-- The variable `g` of type `EmlNeighborsModel` (`eml_neighbors.h` 95-106): sizes, pointers to arrays declared before it, number of neighbors. -/
def readModel (ops : CFloat F) (prog : Prog) (g : List Char) : Option Model :=
  match findDecl prog g with
  | some d =>
    match d.size, d.init with
    | none, some (.flat [nf, ni, mi, .cast t1 true (.var x), .cast t2 true (.var y), k] _) =>
      match fieldInt ops "uint16_t".toList nf, fieldInt ops "int16_t".toList ni, fieldInt ops "int16_t".toList mi, readShorts ops (before prog g) x, readShorts ops (before prog g) y,
        fieldInt ops "int16_t".toList k with
      | some nf, some ni, some mi, some xs, some ys, some k =>
        if d.ty = "EmlNeighborsModel".toList ∧ t1 = "int16_t".toList ∧ t2 = "int16_t".toList ∧ 0 ≤ nf ∧ 0 ≤ ni ∧ 0 ≤ mi then some ⟨nf.toNat, ni.toNat, mi.toNat, xs, ys, k⟩ else none
      | _, _, _, _, _, _ => none
    | _, _ => none
  | none => none

/-- `eml_neighbors_predict` on the structure that the first argument points to (`eml_neighbors.h` 262-286, modelled as `predict`): lengths must not exceed the arrays, the result is written behind the last
argument unless an error is returned. The contents of the distance array after the call are not described. -/
def neighborsLib (ops : CFloat F) (prog : Prog) (f : List Char) (args : List (ArgVal F)) : Option (CallResult F) :=
  match args with
  | [.ref g, .arr fty feats, .num (.int len), .arr dty ds, .num (.int dl), .arr oty [some _]] =>
    match readModel ops prog g, intsOf (feats.take len.toNat) with
    | some m, some xs =>
      if f = "eml_neighbors_predict".toList ∧ fty = "int16_t".toList ∧ dty = "EmlNeighborsDistanceItem".toList ∧ oty = "int16_t".toList ∧ 0 ≤ len ∧ len ≤ feats.length ∧ 0 ≤ dl ∧ dl ≤ ds.length then
        (predict m xs dl).map fun r => match r with | .error e => (.int (errorCode e), []) | .ok c => (.int 0, [(5, [some (.int c)])])
      else none
    | _, _ => none
  | _ => none

/-! ### The structure -/

theorem conv_uint16 (ops : CFloat F) (z : Int) (h1 : 0 ≤ z) (h2 : z ≤ 65535) : conv ops "uint16_t".toList (.int z) = some (.int z) := by
  have hr : intRange "uint16_t".toList = some (0, 65535) ∧ "uint16_t".toList ≠ "float".toList := by decide +kernel
  unfold conv
  rw [if_neg hr.2, hr.1]
  have e : wrapRange (0, 65535) z = z := by
    show (z - 0) % (65535 - 0 + 1) + 0 = z
    norm_num
    exact Int.emod_eq_of_lt h1 (by omega)
  simp only [e]

theorem declare_intArr (ops : CFloat F) (ctx : Ctx F) (name : List Char) (vs : List ℚ) (hne : vs ≠ []) (hv : ∀ v ∈ vs, (trunc v).natAbs ≤ 2147483647) (env : Env F) (henv : env name = none) :
    declare ops ctx env (intArr name vs) = some (env.set name (some (.array "int16_t".toList (vs.map fun v => some (.int (wrap16 (trunc v))))))) := by
  have huse : ((vs.map (litExpr · "int16_t".toList)).any fun e => e.uses name) = false := by
    unfold litExpr
    exact sgnExprs_uses _ vs name
  have he : (vs.map (litExpr · "int16_t".toList)).mapM (eval ops ctx env) = some (vs.map fun v => .int (trunc v)) := by
    clear hne huse
    induction vs with
    | nil => rfl
    | cons v l ih => rw [List.map_cons, List.mapM_cons, eval_litExpr_int ops ctx env v _ (by decide +kernel) (hv v (by simp)), ih fun w hw => hv w (by simp [hw])]; rfl
  have hc : (vs.map fun v => (.int (trunc v) : Val F)).mapM (conv ops "int16_t".toList) = some (vs.map fun v => .int (wrap16 (trunc v))) := by
    clear hne huse he
    induction vs with
    | nil => rfl
    | cons v l ih => rw [List.map_cons, List.mapM_cons, conv_int16, ih fun w hw => hv w (by simp [hw])]; rfl
  unfold declare intArr
  simp only [henv, Decl.selfUse, huse, Bool.or_self, Option.isSome_none, Bool.false_eq_true, if_false, readNat_showNat, he]
  rw [if_pos ⟨by simpa using hne, by simp⟩]
  rw [hc, conv_int16]
  simp only [List.length_map, Nat.sub_self, List.replicate_zero, List.append_nil, List.map_map]
  rfl

theorem readShorts_arr (ops : CFloat F) (p : Prog) (name : List Char) (vs : List ℚ) (hne : vs ≠ []) (hv : ∀ v ∈ vs, (trunc v).natAbs ≤ 2147483647) (hf : findDecl p name = some (intArr name vs)) :
    readShorts ops p name = some (vs.map fun v => wrap16 (trunc v)) := by
  unfold readShorts globalsOf
  rw [hf]
  simp only
  rw [declare_intArr ops _ name vs hne hv _ rfl, Option.bind_some, Env.set_same]
  simp only [if_true]
  have := intsOf_ints (F := F) (vs.map fun v => wrap16 (trunc v))
  rw [List.map_map] at this
  exact this

theorem names_ne (pre : List Char) : pre ++ "_data".toList ≠ pre ++ "_labels".toList ∧ pre ++ "_data".toList ≠ pre ∧ pre ++ "_labels".toList ≠ pre := by
  refine ⟨?_, append_ne_self _ _ (by decide), append_ne_self _ _ (by decide)⟩
  intro h
  exact absurd (List.append_cancel_left h) (by decide +kernel)

/-- Reading the generated structure, in a program that begins with the saved text. -/
theorem readModel_save (ops : CFloat F) (pre : List Char) (data : List (List ℚ)) (nFeatures : Nat) (labels : List Int) (k : Int) (rest : Prog)
    (hn : data.length ≤ 32767) (hnf : nFeatures ≤ 65535) (hk : -32768 ≤ k ∧ k ≤ 32767) (hd : data.flatten ≠ []) (hl : labels ≠ [])
    (hdv : ∀ v ∈ data.flatten, (trunc v).natAbs ≤ 2147483647) (hlv : ∀ z ∈ labels, z.natAbs ≤ 2147483647) :
    readModel ops (saveProg pre data nFeatures labels k ++ rest) pre = generate data nFeatures labels k := by
  obtain ⟨n1, n2, n3⟩ := names_ne pre
  have hfind : findDecl (saveProg pre data nFeatures labels k ++ rest) pre = some (modelVar pre nFeatures data.length k) := by
    unfold saveProg findDecl
    rw [List.cons_append, List.cons_append, List.cons_append, List.findSome?_cons, List.findSome?_cons, List.findSome?_cons]
    have e1 : ¬ (intArr (pre ++ "_data".toList) data.flatten).name = pre := n2
    have e2 : ¬ (intArr (pre ++ "_labels".toList) (labels.map fun (z : Int) => (z : ℚ))).name = pre := n3
    have e3 : (modelVar pre nFeatures data.length k).name = pre := rfl
    simp only [e1, e2, e3, if_false, if_true]
  have hbefore : before (saveProg pre data nFeatures labels k ++ rest) pre =
      [.decl (intArr (pre ++ "_data".toList) data.flatten), .decl (intArr (pre ++ "_labels".toList) (labels.map fun (z : Int) => (z : ℚ)))] := by
    unfold saveProg before
    rw [List.cons_append, List.cons_append, List.cons_append, List.takeWhile_cons, List.takeWhile_cons, List.takeWhile_cons]
    have e1 : ((intArr (pre ++ "_data".toList) data.flatten).name != pre) = true := bne_iff_ne.2 n2
    have e2 : ((intArr (pre ++ "_labels".toList) (labels.map fun (z : Int) => (z : ℚ))).name != pre) = true := bne_iff_ne.2 n3
    have e3 : ((modelVar pre nFeatures data.length k).name != pre) = false := by show (pre != pre) = false; simp
    simp only [e1, e2, e3, if_true, Bool.false_eq_true, if_false]
  have hx : readShorts ops [.decl (intArr (pre ++ "_data".toList) data.flatten), .decl (intArr (pre ++ "_labels".toList) (labels.map fun (z : Int) => (z : ℚ)))] (pre ++ "_data".toList) =
      some (data.flatten.map fun v => wrap16 (trunc v)) := by
    refine readShorts_arr ops _ _ _ hd hdv ?_
    unfold findDecl
    rw [List.findSome?_cons]
    have e1 : (intArr (pre ++ "_data".toList) data.flatten).name = pre ++ "_data".toList := rfl
    simp only [e1, if_true]
  have hy : readShorts ops [.decl (intArr (pre ++ "_data".toList) data.flatten), .decl (intArr (pre ++ "_labels".toList) (labels.map fun (z : Int) => (z : ℚ)))] (pre ++ "_labels".toList) =
      some (labels.map wrap16) := by
    rw [readShorts_arr ops _ _ (labels.map fun (z : Int) => (z : ℚ)) (by simpa using hl) ?_ ?_]
    · rw [List.map_map]
      congr 1
      apply List.map_congr_left
      intro z _
      simp only [Function.comp_apply, trunc_intCast]
    · intro v hv
      obtain ⟨z, hz, rfl⟩ := List.mem_map.1 hv
      rw [trunc_intCast]
      exact hlv z hz
    · unfold findDecl
      rw [List.findSome?_cons, List.findSome?_cons]
      have e1 : ¬ (intArr (pre ++ "_data".toList) data.flatten).name = pre ++ "_labels".toList := n1
      have e2 : (intArr (pre ++ "_labels".toList) (labels.map fun (z : Int) => (z : ℚ))).name = pre ++ "_labels".toList := rfl
      simp only [e1, e2, if_true, if_false]
  have hnf' : fieldInt ops "uint16_t".toList (.lit (showNat nFeatures)) = some (nFeatures : Int) :=
    fieldInt_eq ops (by rw [eval, litVal_showNat ops _ (by omega)]; rfl) (conv_uint16 ops _ (by omega) (by omega))
  have hn' : fieldInt ops "int16_t".toList (.lit (showNat data.length)) = some (data.length : Int) := by
    refine fieldInt_eq ops (by rw [eval, litVal_showNat ops _ (by omega)])  ?_
    simp only [Bool.false_eq_true, if_false]
    rw [conv_int16, wrap16_id (by omega) (by omega)]
  have hk' : fieldInt ops "int16_t".toList (sgnExpr (intSgn k)) = some k := by
    refine fieldInt_eq ops (eval_intSgn ops _ _ k (by omega)) ?_
    rw [conv_int16, wrap16_id (by omega) (by omega)]
  unfold readModel generate
  rw [hfind]
  simp only [modelVar, hbefore, hx, hy, hnf', hn', hk']
  rw [if_pos ⟨trivial, trivial, trivial, by omega, by omega, by omega⟩, if_pos ⟨hn, hnf, hk.1, hk.2⟩]
  simp only [Int.toNat_natCast]

/-! ### The run of `predict_func` -/

/-- A loop whose body has no result at index `m`. -/
theorem iterate_fail (ops : CFloat F) (ctx : Ctx F) (i ty : List Char) (hty : Int32 ty) (bound : Expr) (body : Env F → Option (Outcome F)) (n m : Nat) (hn : n ≤ 2147483647) (hm : m < n)
    (Inv : Nat → Env F → Prop) (hI : ∀ j env, j ≤ m → Inv j env → env i = some (.scalar ty (.int j)) ∧ eval ops ctx env bound = some (.int n))
    (hstep : ∀ j env, j < m → Inv j env → ∃ env', body env = some (.next env') ∧ env' i = some (.scalar ty (.int j)) ∧ Inv (j + 1) (env'.set i (some (.scalar ty (.int ((j + 1 : Nat) : Int))))))
    (hbad : ∀ env, Inv m env → body env = none) (fuel : Nat) (j : Nat) (env : Env F) (hj : j ≤ m) (hinv : Inv j env) : iterate ops ctx i bound body fuel env = none := by
  induction fuel generalizing j env with
  | zero => rfl
  | succ fuel ih =>
    obtain ⟨h1, h2⟩ := hI j env hj hinv
    have hcond : eval ops ctx env (.bin '<' (.var i) bound) = some (.int 1) := by
      have : (j : Int) < n := by omega
      rw [eval, eval_var ops ctx env i ty _ h1, h2]
      simp [binVal, boolVal, this]
    rw [iterate, hcond]
    simp only [one_ne_zero, if_false]
    by_cases hjm : j = m
    · subst hjm
      rw [hbad env hinv]
    · obtain ⟨env', hb, hi', hinv'⟩ := hstep j env (by omega) hinv
      rw [hb]
      have hone : litVal ops ['1'] false = some (.int 1) := by
        have := litVal_showNat ops 1 (by decide) false
        simpa [show showNat 1 = ['1'] from by decide] using this
      have hinc : eval ops ctx env' (.bin '+' (.var i) (.lit ['1'])) = some (.int ((j + 1 : Nat) : Int)) := by
        have hl : eval ops ctx env' (.lit ['1']) = some (.int 1) := by rw [eval, hone]
        rw [eval, eval_var ops ctx env' i ty _ hi', hl]
        exact binVal_add_int ops j 1 (by omega) (by omega)
      simp only [hinc]
      have hst : store ops env' i none (.int ((j + 1 : Nat) : Int)) = some (env'.set i (some (.scalar ty (.int ((j + 1 : Nat) : Int))))) := by
        unfold store
        rw [hi']
        simp only [conv_int32 ops hty ((j + 1 : Nat) : Int) (by omega) (by omega), Option.map_some]
      rw [hst, Option.bind_some]
      exact ih (j + 1) _ (by omega) hinv'

/-- `(int16_t)x` for a `float`. -/
def short (ops : CFloat F) (x : F) : Option Int := (ops.toInt x).bind fun z => if -32768 ≤ z ∧ z ≤ 32767 then some z else none

theorem conv_short (ops : CFloat F) (x : F) : conv ops "int16_t".toList (.flt x) = (short ops x).map .int := by
  unfold conv short
  rw [if_neg ranges.2.2.2, ranges.2.2.1]
  simp only
  cases ops.toInt x with
  | none => rfl
  | some z =>
    simp only [Option.bind_some]
    split <;> rfl

/-- The variables of `predict_func` during the conversion loop, after `j` values. -/
structure St (values : List F) (nFeatures : Nat) (zs : List Int) (j : Nat) (env : Env F) : Prop where
  vals : env "values".toList = some (.array "float".toList (values.map fun x => some (.flt x)))
  length : env "length".toList = some (.scalar "int".toList (.int values.length))
  out : env "out".toList = some (.scalar "int16_t".toList (.int (-1)))
  features : env "features".toList = some (.array "int16_t".toList ((zs.take j).map (fun z => some (.int z)) ++ List.replicate (nFeatures - j) none))
  i : env "i".toList = some (.scalar "int".toList (.int j))
  err : env "err".toList = none
  model : env "mymodel".toList = none
  dist : env "distance_array".toList = none
  okv : env "EmlOk".toList = none

theorem St.set_i {values : List F} {nf : Nat} {zs : List Int} {j j' : Nat} {env : Env F} (h : St values nf zs j env) (hf : zs.take j' = zs.take j ∧ nf - j' = nf - j) :
    St values nf zs j' (env.set "i".toList (some (.scalar "int".toList (.int j')))) := by
  obtain ⟨h1, h2, h3, h4, h5, h6, h7, h8, h9⟩ := h
  constructor
  · rw [Env.set_ne _ _ (by decide +kernel)]; exact h1
  · rw [Env.set_ne _ _ (by decide +kernel)]; exact h2
  · rw [Env.set_ne _ _ (by decide +kernel)]; exact h3
  · rw [Env.set_ne _ _ (by decide +kernel), h4, hf.1, hf.2]
  · rw [Env.set_same]
  · rw [Env.set_ne _ _ (by decide +kernel)]; exact h6
  · rw [Env.set_ne _ _ (by decide +kernel)]; exact h7
  · rw [Env.set_ne _ _ (by decide +kernel)]; exact h8
  · rw [Env.set_ne _ _ (by decide +kernel)]; exact h9

section
variable (ops : CFloat F) (ctx : Ctx F) (fuel : Nat) (values : List F) (nf : Nat) (zs : List Int)

/-- The value assigned by the loop body. -/
theorem eval_conv {j : Nat} {env : Env F} (h : St values nf zs j env) (hj : j < values.length) :
    eval ops ctx env (.cast "int16_t".toList false (.idx "values".toList (.var "i".toList))) = (short ops values[j]).map .int := by
  have hi := eval_var ops ctx env _ _ _ h.i
  have hx := eval_idx ops ctx env "values".toList _ _ (.var "i".toList) j (.flt values[j]) (lookup_local ctx env _ _ h.vals) hi (by simp [hj])
  rw [eval]
  simp only [Bool.false_eq_true, if_false]
  rw [hx, Option.bind_some, conv_short]

theorem conv_step {j : Nat} {env : Env F} (h : St values nf zs j env) (hj : j < values.length) (hjf : j < nf) (hz : ∃ z, short ops values[j] = some z ∧ zs[j]? = some z) :
    ∃ env', exec ops ctx fuel convBody env = some (.next env') ∧ env' "i".toList = some (.scalar "int".toList (.int j)) ∧
      St values nf zs (j + 1) (env'.set "i".toList (some (.scalar "int".toList (.int ((j + 1 : Nat) : Int))))) := by
  obtain ⟨z, hz, hzs⟩ := hz
  have he := eval_conv ops ctx values nf zs h hj
  rw [hz, Option.map_some] at he
  have hr : -32768 ≤ z ∧ z ≤ 32767 := by
    unfold short at hz
    cases ht : ops.toInt values[j] with
    | none => rw [ht] at hz; simp at hz
    | some y =>
      rw [ht, Option.bind_some] at hz
      split at hz
      · cases hz; assumption
      · cases hz
  have het := evalTop_eq ops ctx env _ _ (by intro f a; simp) he
  have hjz : j < zs.length := (List.getElem?_eq_some_iff.1 hzs).1
  have hlen : ((zs.take j).map (fun z => (some (.int z) : Option (Val F))) ++ List.replicate (nf - j) none).length = nf := by simp; omega
  have hset : ((zs.take j).map (fun z => (some (.int z) : Option (Val F))) ++ List.replicate (nf - j) none).set j (some (.int z)) =
      (zs.take (j + 1)).map (fun z => some (.int z)) ++ List.replicate (nf - (j + 1)) none := by
    have e : nf - j = (nf - (j + 1)) + 1 := by omega
    rw [e, List.replicate_succ, List.set_append_right _ _ (by simp), List.take_add_one, hzs]
    have hl : ((zs.take j).map (fun z => (some (.int z) : Option (Val F)))).length = j := by simp; omega
    rw [hl, Nat.sub_self, List.set_cons_zero]
    simp
  have hx := exec_assign_idx ops ctx fuel env _ _ _ (.var "i".toList) _ j (.int z) (.int z) .done h.features (eval_var ops ctx env _ _ _ h.i) (by rw [hlen]; exact hjf) het (by
    rw [conv_int16, wrap16_id hr.1 hr.2])
  rw [hset] at hx
  refine ⟨_, by unfold convBody; rw [hx, exec], by rw [Env.set_ne _ _ (by decide +kernel)]; exact h.i, ?_⟩
  obtain ⟨h1, h2, h3, h4, h5, h6, h7, h8, h9⟩ := h
  constructor
  · rw [Env.set_ne _ _ (by decide +kernel), Env.set_ne _ _ (by decide +kernel)]; exact h1
  · rw [Env.set_ne _ _ (by decide +kernel), Env.set_ne _ _ (by decide +kernel)]; exact h2
  · rw [Env.set_ne _ _ (by decide +kernel), Env.set_ne _ _ (by decide +kernel)]; exact h3
  · rw [Env.set_ne _ _ (by decide +kernel), Env.set_same]
  · rw [Env.set_same]
  · rw [Env.set_ne _ _ (by decide +kernel), Env.set_ne _ _ (by decide +kernel)]; exact h6
  · rw [Env.set_ne _ _ (by decide +kernel), Env.set_ne _ _ (by decide +kernel)]; exact h7
  · rw [Env.set_ne _ _ (by decide +kernel), Env.set_ne _ _ (by decide +kernel)]; exact h8
  · rw [Env.set_ne _ _ (by decide +kernel), Env.set_ne _ _ (by decide +kernel)]; exact h9

/-- At an index outside the array, or with a value that does not fit, the body has no result. -/
theorem conv_bad {j : Nat} {env : Env F} (h : St values nf zs j env) (hj : j < values.length) (hjz : j ≤ zs.length) (hbad : nf ≤ j ∨ short ops values[j] = none) :
    exec ops ctx fuel convBody env = none := by
  have he := eval_conv ops ctx values nf zs h hj
  unfold convBody
  cases hs : short ops values[j] with
  | none =>
    rw [hs, Option.map_none] at he
    have het : evalTop ops ctx env (.cast "int16_t".toList false (.idx "values".toList (.var "i".toList))) = none := by
      unfold evalTop; simp only [he, Option.map_none]
    rw [exec, het]
  | some z =>
    rw [hs, Option.map_some] at he
    have het := evalTop_eq ops ctx env _ _ (by intro f a; simp) he
    have hnf : nf ≤ j := by rcases hbad with h | h; exacts [h, by rw [hs] at h; cases h]
    have hi := eval_var ops ctx env _ _ _ h.i
    rw [exec, het]
    simp only [Bool.false_eq_true, if_false, hi, store, h.features]
    rw [if_neg (by simp; omega)]
    rfl

end

/-! ### The call -/

theorem argmax_range (lt : Nat → Nat → Bool) (l : List Nat) (i : Nat) (c : Int) (best : Nat) (h : -1 ≤ c ∧ c < i) :
    -1 ≤ Trees.argmaxLoop lt l i c best ∧ Trees.argmaxLoop lt l i c best < ((i + l.length : Nat) : Int) := by
  induction l generalizing i c best with
  | nil => simpa [Trees.argmaxLoop] using h
  | cons v l ih =>
    rw [Trees.argmaxLoop]
    have e : i + (v :: l).length = i + 1 + l.length := by simp; omega
    rw [e]
    split
    · exact ih (i + 1) i v ⟨by omega, by omega⟩
    · exact ih (i + 1) c best ⟨h.1, by omega⟩

theorem voteLoop_error (labels : List Int) (l : List Nat) (votes : Nat → Nat) (e : EmlError) (h : voteLoop labels l votes = some (.error e)) : e ≠ .ok := by
  induction l generalizing votes with
  | nil => rw [voteLoop] at h; cases h
  | cons i l ih =>
    rw [voteLoop] at h
    split at h
    · cases h
    · split at h
      · cases h; decide
      · exact ih _ h

/-- The results of `eml_neighbors_predict`. -/
theorem predict_results (m : Model) (xs : List Int) (dl : Int) (r : Except EmlError Int) (h : predict m xs dl = some r) :
    (∃ e, r = .error e ∧ e ≠ .ok) ∨ ∃ c, r = .ok c ∧ -1 ≤ c ∧ c < 10 := by
  unfold predict at h
  split at h
  · cases h; exact .inl ⟨_, rfl, by decide⟩
  split at h
  · cases h; exact .inl ⟨_, rfl, by decide⟩
  cases hd : inferDistances m xs with
  | none => rw [hd] at h; cases h
  | some ds =>
    rw [hd] at h
    simp only [Option.bind_eq_bind, Option.bind_some] at h
    unfold findNearest at h
    split at h
    · cases h; exact .inl ⟨_, rfl, by decide⟩
    · revert h
      cases QSort.qsort (fun (a b : Nat × Int) => decide (a.2 < b.2)) 32 m.nItems (fun i => (i, ds.getD i 0)) with
      | none => intro h; cases h
      | some sorted =>
        simp only [Option.bind_eq_bind, Option.bind_some]
        intro h
        split at h
        · cases h
        · rename_i e he
          cases h
          exact .inl ⟨e, rfl, voteLoop_error _ _ _ _ he⟩
        · rename_i votes he
          cases h
          have := argmax_range (fun a b => decide (a < b)) ((List.range 10).map votes) 0 (-1) 0 ⟨by omega, by omega⟩
          refine .inr ⟨_, rfl, this.1, lt_of_lt_of_le this.2 ?_⟩
          simp

section
variable (ops : CFloat F) (data : List (List ℚ)) (nf : Nat) (labels : List Int) (k : Int)

theorem decl_names (d : MiniC.Decl) (hd : Top.decl d ∈ wrapperProg data nf labels k) :
    d.name = "mymodel".toList ++ "_data".toList ∨ d.name = "mymodel".toList ++ "_labels".toList ∨ d.name = "mymodel".toList ∨ d.name = "distance_array".toList := by
  simp only [wrapperProg, saveProg, List.mem_append, List.mem_cons, List.not_mem_nil, or_false, Top.decl.injEq, reduceCtorEq] at hd
  rcases hd with (rfl | rfl | rfl) | rfl
  · exact .inl rfl
  · exact .inr (.inl rfl)
  · exact .inr (.inr (.inl rfl))
  · exact .inr (.inr (.inr rfl))

theorem globals_dist : globalsOf ops (wrapperProg data nf labels k) "distance_array".toList = some (.array "EmlNeighborsDistanceItem".toList (List.replicate data.length none)) := by
  have hf : findDecl (wrapperProg data nf labels k) (distances data.length).name = some (distances data.length) := by
    refine findDecl_eq _ (distances data.length) (by simp [wrapperProg]) ?_
    intro d hd hn
    have hn' : d.name = "distance_array".toList := hn
    simp only [wrapperProg, saveProg, List.mem_append, List.mem_cons, List.not_mem_nil, or_false, Top.decl.injEq, reduceCtorEq] at hd
    rcases hd with (rfl | rfl | rfl) | rfl
    · exact absurd (show "mymodel".toList ++ "_data".toList = "distance_array".toList from hn') (by decide +kernel)
    · exact absurd (show "mymodel".toList ++ "_labels".toList = "distance_array".toList from hn') (by decide +kernel)
    · exact absurd (show "mymodel".toList = "distance_array".toList from hn') (by decide +kernel)
    · rfl
  have hf' : findDecl (wrapperProg data nf labels k) "distance_array".toList = some (distances data.length) := hf
  unfold globalsOf
  rw [hf']
  simp only [declare, distances, Decl.selfUse, Option.isSome_none, Bool.or_self, Bool.false_eq_true, if_false, readNat_showNat, Option.map_some, Option.bind_some, Env.set_same]

theorem globals_ok : globalsOf ops (wrapperProg data nf labels k) "EmlOk".toList = none := by
  have hf : findDecl (wrapperProg data nf labels k) "EmlOk".toList = none := by
    unfold findDecl
    rw [List.findSome?_eq_none_iff]
    intro t ht
    cases t with
    | func f => rfl
    | decl d =>
      have := decl_names data nf labels k d ht
      have hne : ¬ d.name = "EmlOk".toList := by
        intro e
        rw [e] at this
        revert this
        decide +kernel
      simp only [hne, if_false]
  unfold globalsOf
  rw [hf]

theorem find_predict : findFunc (wrapperProg data nf labels k) "predict_func".toList = some (predictF "mymodel".toList nf data.length) := by
  refine findFunc_eq _ (predictF "mymodel".toList nf data.length) (by simp [wrapperProg]) ?_
  intro g hg _
  simp only [wrapperProg, saveProg, List.mem_append, List.mem_cons, List.not_mem_nil, or_false, Top.func.injEq, reduceCtorEq, false_or] at hg
  exact hg

theorem find_lib : findFunc (wrapperProg data nf labels k) "eml_neighbors_predict".toList = none := by
  unfold findFunc
  rw [List.findSome?_eq_none_iff]
  intro t ht
  cases t with
  | decl d => rfl
  | func g =>
    simp only [wrapperProg, saveProg, List.mem_append, List.mem_cons, List.not_mem_nil, or_false, Top.func.injEq, reduceCtorEq, false_or] at ht
    subst ht
    have hne : ¬ (predictF "mymodel".toList nf data.length).name = "eml_neighbors_predict".toList := by
      show ¬ "predict_func".toList = "eml_neighbors_predict".toList
      decide +kernel
    simp only [hne, if_false]


/-- The two statements after the library call. -/
theorem exec_tail (ctx : Ctx F) (fuel : Nat) (env : Env F) (e c : Int) (hc : ctx.globals "EmlOk".toList = none) (hok : env "EmlOk".toList = none)
    (he : env "err".toList = some (.scalar "EmlError".toList (.int e))) (ho : env "out".toList = some (.scalar "int16_t".toList (.int c))) (hr : -100 ≤ e ∧ e ≤ 100) :
    exec ops ctx fuel tailCode env = some (.returned (.int (if e ≠ 0 then -e else c)) env) := by
  have h1 := eval_var ops ctx env _ _ _ he
  have h2 : eval ops ctx env (.var "EmlOk".toList) = some (.int 0) := by
    rw [eval]
    unfold lookupVar
    rw [hok]
    simp only [hc]
    unfold constVal
    rw [if_pos rfl]
  have hcond : eval ops ctx env (.bin '!' (.var "err".toList) (.var "EmlOk".toList)) = some (boolVal (decide (e ≠ 0))) := by
    rw [eval, h1, h2]; rfl
  unfold tailCode
  rw [exec, hcond]
  by_cases h0 : e = 0
  · subst h0
    simp only [boolVal, ne_eq, not_true_eq_false, decide_false, Bool.false_eq_true, if_false, if_true]
    exact exec_ret ops ctx fuel env _ _ .done (evalTop_eq ops ctx env _ _ (by intro f a; simp) (eval_var ops ctx env _ _ _ ho))
  · have hneg : eval ops ctx env (.neg (.var "err".toList)) = some (.int (-e)) := by
      rw [eval]
      · rw [h1]; exact checked_eq _ (by omega) (by omega)
      · intro s h; cases h
    have hx := exec_ret ops ctx fuel env _ _ .done (evalTop_eq ops ctx env _ _ (by intro f a; simp) hneg)
    simp only [boolVal, ne_eq, h0, not_false_eq_true, decide_true, if_true, one_ne_zero, if_false]
    rw [hx]

theorem evalArg_global {ctx : Ctx F} {env : Env F} {x ty : List Char} {vs : List (Option (Val F))} (hx : isNum x = false) (he : env x = none) (h : ctx.globals x = some (.array ty vs)) :
    evalArg ops ctx env ⟨none, x⟩ = some (.arr ty vs) := by
  unfold evalArg lookupVar
  simp only [hx, he, h, Bool.false_eq_true, if_false]

theorem evalArg_nat {ctx : Ctx F} {env : Env F} (n : Nat) (h : n ≤ 2147483647) : evalArg ops ctx env ⟨none, showNat n⟩ = some (.num (.int n)) := by
  unfold evalArg
  simp only [isNum_showNat, if_true, litVal_showNat ops n h, Bool.false_eq_true, if_false, Option.map_some]

theorem evalArg_addr {ctx : Ctx F} {env : Env F} {x ty : List Char} {v : Val F} (h : env x = some (.scalar ty v)) : evalArg ops ctx env ⟨some '&', x⟩ = some (.arr ty [some v]) := by
  unfold evalArg
  simp only [if_true, h]

/-- The call of the library function, in a state after the conversion loop. -/
theorem call_lib (ctx : Ctx F) (values : List F) (zs : List Int) (env : Env F) (m : Model) (hm : readModel ops (wrapperProg data nf labels k) "mymodel".toList = some m)
    (hg : ctx.globals "distance_array".toList = some (.array "EmlNeighborsDistanceItem".toList (List.replicate data.length none)))
    (hcall : ∀ vs, ctx.call "eml_neighbors_predict".toList vs = neighborsLib ops (wrapperProg data nf labels k) "eml_neighbors_predict".toList vs)
    (hst : St values nf zs values.length env) (hz : zs.length = values.length) (hd : data.length ≤ 32767) :
    evalTop ops ctx (env.set "i".toList none) (.call "eml_neighbors_predict".toList (predictArgs "mymodel".toList data.length)) =
      (predict m zs data.length).map fun r => match r with
        | .error e => (.int (errorCode e), env.set "i".toList none)
        | .ok c => (.int 0, (env.set "i".toList none).set "out".toList (some (.scalar "int16_t".toList (.int c)))) := by
  obtain ⟨h1, h2, h3, h4, h5, h6, h7, h8, h9⟩ := hst
  have g : ∀ {x : List Char}, x ≠ "i".toList → (env.set "i".toList none) x = env x := fun h => Env.set_ne _ _ h
  have hzt : zs.take values.length = zs := by rw [← hz]; exact List.take_length
  have a1 := evalArg_ref ops (ctx := ctx) (env := env.set "i".toList none) (x := "mymodel".toList) (by rw [g (by decide +kernel)]; exact h7)
  have a2 := evalArg_local ops (ctx := ctx) (env := env.set "i".toList none) (x := "features".toList) (by decide +kernel) (by rw [g (by decide +kernel)]; exact h4)
  have a3 := evalArg_num ops (ctx := ctx) (env := env.set "i".toList none) (x := "length".toList) (by decide +kernel) (by rw [g (by decide +kernel)]; exact h2)
  have a4 := evalArg_global ops (env := env.set "i".toList none) (by decide +kernel) (by rw [g (by decide +kernel)]; exact h8) hg
  have a5 := evalArg_nat ops (ctx := ctx) (env := env.set "i".toList none) data.length (by omega)
  have ho : (env.set "i".toList none) "out".toList = some (.scalar "int16_t".toList (.int (-1))) := by rw [g (by decide +kernel)]; exact h3
  have a6 := evalArg_addr ops (ctx := ctx) ho
  have ha : (predictArgs "mymodel".toList data.length).mapM (evalArg ops ctx (env.set "i".toList none)) = some [.ref "mymodel".toList,
      .arr "int16_t".toList ((zs.take values.length).map (fun z => some (.int z)) ++ List.replicate (nf - values.length) none), .num (.int values.length),
      .arr "EmlNeighborsDistanceItem".toList (List.replicate data.length none), .num (.int data.length), .arr "int16_t".toList [some (.int (-1))]] := by
    unfold predictArgs
    rw [List.mapM_cons, a1, List.mapM_cons, a2, List.mapM_cons, a3, List.mapM_cons, a4, List.mapM_cons, a5, List.mapM_cons, a6]
    rfl
  rw [evalTop, ha]
  simp only [hcall]
  unfold neighborsLib
  have hints : intsOf (((zs.take values.length).map (fun z => (some (.int z) : Option (Val F))) ++ List.replicate (nf - values.length) none).take (values.length : Int).toNat) = some zs := by
    rw [hzt, Int.toNat_natCast, List.take_append_of_le_length (by simp [hz]), List.take_of_length_le (by simp [hz])]
    exact intsOf_ints zs
  simp only [hm, hints]
  rw [if_pos ⟨trivial, trivial, trivial, trivial, by omega, by simp [hz], by omega, by simp⟩]
  cases predict m zs data.length with
  | none => rfl
  | some r =>
    cases r with
    | error e => simp only [Option.map_some, writeBack]
    | ok c =>
      simp only [Option.map_some]
      have hwb : writeBack (env.set "i".toList none) (predictArgs "mymodel".toList data.length) [(5, [some (.int c)])] =
          some ((env.set "i".toList none).set "out".toList (some (.scalar "int16_t".toList (.int c)))) := by
        have hidx : (predictArgs "mymodel".toList data.length)[5]? = some ⟨some '&', "out".toList⟩ := rfl
        rw [writeBack, hidx]
        simp only [ho, writeBack]
      rw [hwb]; rfl


/-- An array without initializer. -/
theorem exec_decl_uninit (ctx : Ctx F) (fuel : Nat) (env : Env F) (mods : List (List Char)) (ty x : List Char) (n : Nat) (kk : Code) (hx : env x = none) :
    exec ops ctx fuel (.decl ⟨mods, ty, x, some (showNat n), none⟩ kk) env = exec ops ctx fuel kk (env.set x (some (.array ty (List.replicate n none)))) := by
  rw [exec, declare]
  simp only [hx, Decl.selfUse, Option.isSome_none, Bool.or_self, Bool.false_eq_true, if_false, readNat_showNat, Option.map_some, Option.bind_some]

/-- A variable initialised by a call that writes through pointers. -/
theorem exec_decl_top (ctx : Ctx F) (fuel : Nat) (env env' : Env F) (mods : List (List Char)) (ty x : List Char) (e : Expr) (v v' : Val F) (kk : Code) (hx : env x = none)
    (he : evalTop ops ctx env e = some (v, env')) (hc : conv ops ty v = some v') (hu : e.uses x = false) :
    exec ops ctx fuel (.decl ⟨mods, ty, x, none, some (.one e)⟩ kk) env = exec ops ctx fuel kk (env'.set x (some (.scalar ty v'))) := by
  rw [exec, declare]
  simp only [hx, Decl.selfUse, hu, Option.isSome_none, Bool.or_self, Bool.false_eq_true, if_false, he, hc, Option.map_some, Option.bind_some]

theorem conv_err (z : Int) (h : -2147483648 ≤ z ∧ z ≤ 2147483647) : conv ops "EmlError".toList (.int z) = some (.int z) := by
  have hr : intRange "EmlError".toList = some (-2147483648, 2147483647) ∧ "EmlError".toList ≠ "float".toList := by decide +kernel
  unfold conv
  rw [if_neg hr.2, hr.1]
  simp only
  congr 2
  unfold wrapRange
  norm_num
  omega

theorem args_uses (n : Nat) : (Expr.call "eml_neighbors_predict".toList (predictArgs "mymodel".toList n)).uses "err".toList = false := by
  have hn : (showNat n == "err".toList) = false := by
    rw [beq_eq_false_iff_ne]
    intro h
    have := isNum_showNat n
    rw [h] at this
    revert this
    decide
  unfold Expr.uses predictArgs
  rw [List.any_cons, List.any_cons, List.any_cons, List.any_cons, List.any_cons, hn]
  decide +kernel

/-- The number of values converted before the first one that cannot be: all of them, or the index of the first failure. -/
theorem shorts_split (values : List F) : (∃ zs, values.mapM (short ops) = some zs ∧ zs.length = values.length ∧ ∀ j (h : j < values.length), ∃ z, short ops values[j] = some z ∧ zs[j]? = some z) ∨
    (values.mapM (short ops) = none ∧ ∃ m, ∃ hm : m < values.length, short ops values[m] = none ∧
      ∃ zs : List Int, zs.length = m ∧ ∀ j (h : j < m), ∃ z, short ops values[j] = some z ∧ zs[j]? = some z) := by
  induction values with
  | nil => exact .inl ⟨[], rfl, rfl, by intro j h; simp at h⟩
  | cons v l ih =>
    cases hv : short ops v with
    | none => exact .inr ⟨by rw [List.mapM_cons, hv]; rfl, 0, by simp, hv, [], rfl, by intro j h; omega⟩
    | some z =>
      rcases ih with ⟨zs, h1, h2, h3⟩ | ⟨h1, m, hm, h2, zs, h3, h4⟩
      · refine .inl ⟨z :: zs, by rw [List.mapM_cons, hv, h1]; rfl, by simp [h2], ?_⟩
        intro j h
        cases j with
        | zero => exact ⟨z, hv, rfl⟩
        | succ j => exact h3 j (by simpa using h)
      · refine .inr ⟨by rw [List.mapM_cons, hv, h1]; rfl, m + 1, by simpa using hm, h2, z :: zs, by simp [h3], ?_⟩
        intro j h
        cases j with
        | zero => exact ⟨z, hv, rfl⟩
        | succ j => exact h4 j (by omega)

/-- The result of the generated `predict_func`: conversion of every value, then the library function, with the error code negated. -/
def predictResult (m : Model) (nf n : Nat) (values : List F) : Option Int :=
  (if values.length ≤ nf then values.mapM (short ops) else none).bind fun xs => (predict m xs n).map fun r => match r with | .error e => -errorCode e | .ok c => c

theorem exec_body (ctx : Ctx F) (fuel : Nat) (values : List F) (m : Model) (hm : readModel ops (wrapperProg data nf labels k) "mymodel".toList = some m)
    (hg : ctx.globals "distance_array".toList = some (.array "EmlNeighborsDistanceItem".toList (List.replicate data.length none))) (hgo : ctx.globals "EmlOk".toList = none)
    (hcall : ∀ vs, ctx.call "eml_neighbors_predict".toList vs = neighborsLib ops (wrapperProg data nf labels k) "eml_neighbors_predict".toList vs)
    (hd : data.length ≤ 32767) (hl : values.length ≤ 2147483647) (hfuel : values.length < fuel) (env : Env F)
    (hv : env "values".toList = some (.array "float".toList (values.map fun x => some (.flt x)))) (hlen : env "length".toList = some (.scalar "int".toList (.int values.length)))
    (hx : ∀ x, x ≠ "values".toList → x ≠ "length".toList → env x = none) :
    (∃ z env', predictResult ops m nf data.length values = some z ∧ -5 ≤ z ∧ z ≤ 10 ∧ exec ops ctx fuel (predictF "mymodel".toList nf data.length).body env = some (.returned (.int z) env')) ∨
    (predictResult ops m nf data.length values = none ∧ exec ops ctx fuel (predictF "mymodel".toList nf data.length).body env = none) := by
  have hone : eval ops ctx env (.neg (.lit "1".toList)) = some (.int (-1)) := by
    rw [eval]
    have := litVal_showNat ops 1 (by decide) true
    rw [show showNat 1 = "1".toList from by decide] at this
    rw [this]; rfl
  have hs1 : ∀ kk, exec ops ctx fuel (.decl ⟨[], "int16_t".toList, "out".toList, none, some (.one (.neg (.lit "1".toList)))⟩ kk) env =
      exec ops ctx fuel kk (env.set "out".toList (some (.scalar "int16_t".toList (.int (-1))))) := by
    intro kk
    refine exec_decl ops ctx fuel env [] _ _ _ (.int (-1)) (.int (-1)) kk (hx _ (by decide +kernel) (by decide +kernel)) (evalTop_eq ops ctx env _ _ (by intro f a; simp) hone) ?_
    rw [conv_int16, wrap16_id (by omega) (by omega)]
  set env1 := env.set "out".toList (some (.scalar "int16_t".toList (.int (-1)))) with henv1
  have hs2 : ∀ kk, exec ops ctx fuel (.decl ⟨[], "int16_t".toList, "features".toList, some (showNat nf), none⟩ kk) env1 =
      exec ops ctx fuel kk (env1.set "features".toList (some (.array "int16_t".toList (List.replicate nf none)))) := by
    intro kk
    exact exec_decl_uninit ops ctx fuel env1 _ _ _ nf kk (by rw [henv1, Env.set_ne _ _ (by decide +kernel)]; exact hx _ (by decide +kernel) (by decide +kernel))
  set env2 := env1.set "features".toList (some (.array "int16_t".toList (List.replicate nf none))) with henv2
  have hbody : exec ops ctx fuel (predictF "mymodel".toList nf data.length).body env =
      exec ops ctx fuel (.loop "int".toList "i".toList (.var "length".toList) convBody (.decl (errDecl "mymodel".toList data.length) tailCode)) env2 := by
    unfold predictF
    simp only
    rw [hs1, hs2]
  have h2 : ∀ x, x ≠ "out".toList → x ≠ "features".toList → env2 x = env x := by
    intro x h1 h2
    rw [henv2, Env.set_ne _ _ h2, henv1, Env.set_ne _ _ h1]
  have hi : env2 "i".toList = none := by rw [h2 _ (by decide +kernel) (by decide +kernel)]; exact hx _ (by decide +kernel) (by decide +kernel)
  have h0 : ∀ zs, St values nf zs 0 (env2.set "i".toList (some (.scalar "int".toList (.int ((0 : Nat) : Int))))) := by
    intro zs
    constructor
    · rw [Env.set_ne _ _ (by decide +kernel), h2 _ (by decide +kernel) (by decide +kernel)]; exact hv
    · rw [Env.set_ne _ _ (by decide +kernel), h2 _ (by decide +kernel) (by decide +kernel)]; exact hlen
    · rw [Env.set_ne _ _ (by decide +kernel), henv2, Env.set_ne _ _ (by decide +kernel), henv1, Env.set_same]
    · rw [Env.set_ne _ _ (by decide +kernel), henv2, Env.set_same]; rfl
    · rw [Env.set_same]
    · rw [Env.set_ne _ _ (by decide +kernel), h2 _ (by decide +kernel) (by decide +kernel)]; exact hx _ (by decide +kernel) (by decide +kernel)
    · rw [Env.set_ne _ _ (by decide +kernel), h2 _ (by decide +kernel) (by decide +kernel)]; exact hx _ (by decide +kernel) (by decide +kernel)
    · rw [Env.set_ne _ _ (by decide +kernel), h2 _ (by decide +kernel) (by decide +kernel)]; exact hx _ (by decide +kernel) (by decide +kernel)
    · rw [Env.set_ne _ _ (by decide +kernel), h2 _ (by decide +kernel) (by decide +kernel)]; exact hx _ (by decide +kernel) (by decide +kernel)
  have hI : ∀ zs j env, St values nf zs j env → env "i".toList = some (.scalar "int".toList (.int j)) ∧ eval ops ctx env (.var "length".toList) = some (.int values.length) :=
    fun zs j env h => ⟨h.i, eval_var ops ctx env _ _ _ h.length⟩
  rw [hbody]
  -- the loop fails at index `m`
  have hfail : ∀ (q : Nat) (zs : List Int) (_hq : q < values.length), q ≤ zs.length → (∀ j (h : j < q), ∃ z, short ops (values[j]'(by omega)) = some z ∧ zs[j]? = some z) → q ≤ nf →
      (∀ h : q < values.length, nf ≤ q ∨ short ops values[q] = none) →
      exec ops ctx fuel (.loop "int".toList "i".toList (.var "length".toList) convBody (.decl (errDecl "mymodel".toList data.length) tailCode)) env2 = none := by
    intro q zs hq hqz hok hqf hbad
    have := iterate_fail ops ctx "i".toList "int".toList (.inl rfl) (.var "length".toList) (exec ops ctx fuel convBody) values.length q hl hq (St values nf zs)
      (fun j env _ h => hI zs j env h)
      (fun j env hj h => conv_step ops ctx fuel values nf zs h (by omega) (by omega) (hok j hj))
      (fun env h => conv_bad ops ctx fuel values nf zs h hq hqz (hbad hq)) fuel 0 _ (by omega) (h0 zs)
    rw [exec]
    simp only [hi, Option.isSome_none, Bool.false_eq_true, if_false]
    rw [show (Val.int (0 : Int) : Val F) = .int ((0 : Nat) : Int) from rfl, this]
  unfold predictResult
  rcases shorts_split ops values with ⟨zs, hz1, hz2, hz3⟩ | ⟨hz1, q, hq, hz2, zs, hz3, hz4⟩
  · by_cases hnf : values.length ≤ nf
    · rw [if_pos hnf, hz1, Option.bind_some]
      obtain ⟨env', hE, hS⟩ := exec_loop ops ctx "i".toList "int".toList (.inl rfl) (.var "length".toList) convBody (.decl (errDecl "mymodel".toList data.length) tailCode) values.length hl
        (St values nf zs) (fun j env _ h => hI zs j env h) fuel hfuel env2 hi (h0 zs)
        (fun j env hj h => conv_step ops ctx fuel values nf zs h hj (by omega) (hz3 j hj))
      rw [hE]
      have hcl := call_lib ops data nf labels k ctx values zs env' m hm hg hcall hS hz2 hd
      have g : ∀ {x : List Char}, x ≠ "i".toList → (env'.set "i".toList none) x = env' x := fun h => Env.set_ne _ _ h
      have herr : (env'.set "i".toList none) "err".toList = none := by rw [g (by decide +kernel)]; exact hS.err
      cases hp : predict m zs data.length with
      | none =>
        refine .inr ⟨rfl, ?_⟩
        rw [hp, Option.map_none] at hcl
        exact exec_decl_none ops ctx fuel _ _ _ _ _ _ hcl
      | some r =>
        left
        rw [hp, Option.map_some] at hcl
        rcases predict_results m zs data.length r hp with ⟨e, rfl, he⟩ | ⟨c, rfl, hc1, hc2⟩
        · have hcode : 1 ≤ errorCode e ∧ errorCode e ≤ 5 := by cases e <;> first | exact absurd rfl he | exact ⟨by decide, by decide⟩
          refine ⟨_, (env'.set "i".toList none).set "err".toList (some (.scalar "EmlError".toList (.int (errorCode e)))), rfl, by simp only; omega, by simp only; omega, ?_⟩
          have hdec := exec_decl_top ops ctx fuel _ _ ["const".toList] "EmlError".toList "err".toList _ _ _ tailCode herr hcl (conv_err ops _ (by omega)) (args_uses data.length)
          unfold errDecl
          rw [hdec]
          have ht := exec_tail ops ctx fuel ((env'.set "i".toList none).set "err".toList (some (.scalar "EmlError".toList (.int (errorCode e))))) (errorCode e) (-1) hgo
            (by rw [Env.set_ne _ _ (by decide +kernel), g (by decide +kernel)]; exact hS.okv) (Env.set_same _ _ _)
            (by rw [Env.set_ne _ _ (by decide +kernel), g (by decide +kernel)]; exact hS.out) (by omega)
          rw [ht, if_pos (by omega)]
        · refine ⟨_, ((env'.set "i".toList none).set "out".toList (some (.scalar "int16_t".toList (.int c)))).set "err".toList (some (.scalar "EmlError".toList (.int 0))), rfl, by simp only; omega, by simp only; omega, ?_⟩
          have hdec := exec_decl_top ops ctx fuel _ _ ["const".toList] "EmlError".toList "err".toList _ _ _ tailCode herr hcl (conv_err ops _ (by omega)) (args_uses data.length)
          unfold errDecl
          rw [hdec]
          have ht := exec_tail ops ctx fuel (((env'.set "i".toList none).set "out".toList (some (.scalar "int16_t".toList (.int c)))).set "err".toList (some (.scalar "EmlError".toList (.int 0)))) 0 c hgo
            (by rw [Env.set_ne _ _ (by decide +kernel), Env.set_ne _ _ (by decide +kernel), g (by decide +kernel)]; exact hS.okv) (Env.set_same _ _ _)
            (by rw [Env.set_ne _ _ (by decide +kernel), Env.set_same]) (by omega)
          rw [ht, if_neg (by simp)]
    · rw [if_neg hnf]
      refine .inr ⟨rfl, hfail nf zs (by omega) (by omega) (fun j h => hz3 j (by omega)) le_rfl (fun _ => .inl le_rfl)⟩
  · rw [hz1]
    refine .inr ⟨by split <;> rfl, ?_⟩
    by_cases hqf : q ≤ nf
    · exact hfail q zs hq (by omega) hz4 hqf (fun _ => .inr hz2)
    · refine hfail nf (zs) (by omega) (by omega) (fun j h => hz4 j (by omega)) le_rfl (fun _ => .inl le_rfl)

end

end Emlearn.Neighbors.CText
