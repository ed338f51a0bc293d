/- What the functions compiled by `Wrapper.predict` of a tree model do when called: conversion of the values, then the generated function. -/
import Verif.Trees.TextWrap
namespace Emlearn.Trees
open Emlearn.Cgen Emlearn.MiniC
variable {F : Type}

theorem wrapRange_mem (r : Int × Int) (z : Int) (h1 : r.1 ≤ z) (h2 : z ≤ r.2) : wrapRange r z = z := by
  unfold wrapRange
  rw [Int.emod_eq_of_lt (by omega) (by omega)]
  omega

/-- Converting a converted value again changes nothing. -/
theorem conv_conv (ops : CFloat F) (dtype : List Char) (x : F) (w : Val F) (h : conv ops dtype (.flt x) = some w) : conv ops dtype w = some w := by
  unfold conv at h
  split at h
  · rename_i hf
    cases h
    rw [hf]
    exact conv_float ops x
  · rename_i hf
    cases hr : intRange dtype with
    | none => rw [hr] at h; cases h
    | some r =>
      rw [hr] at h
      simp only at h
      cases ht : ops.toInt x with
      | none => rw [ht] at h; cases h
      | some z =>
        rw [ht] at h
        simp only at h
        split at h
        · rename_i hz
          cases h
          unfold conv
          rw [if_neg hf, hr]
          simp only
          rw [wrapRange_mem r z hz.1 hz.2]
        · cases h

/-! ### The loop -/

/-- After `j` values. -/
structure ConvSt (env0 : Env F) (dtype : List Char) (ws : List (Val F)) (nf : Nat) (j : Nat) (env : Env F) : Prop where
  i : env "i".toList = some (.scalar "int".toList (.int j))
  features : env "features".toList = some (.array dtype ((ws.take j).map some ++ List.replicate (nf - j) none))
  other : ∀ y, y ≠ "features".toList → y ≠ "i".toList → env y = env0 y

section
variable (ops : CFloat F) (ctx : Ctx F) (fuel : Nat) (dtype : List Char) (values : List F) (ws : List (Val F)) (nf : Nat) (env0 : Env F)
  (hv : env0 "values".toList = some (.array "float".toList (values.map fun x => some (.flt x)))) (hl : env0 "length".toList = some (.scalar "int".toList (.int values.length)))
include hv hl

omit hv in
theorem convSt_bound {j : Nat} {env : Env F} (h : ConvSt env0 dtype ws nf j env) :
    env "i".toList = some (.scalar "int".toList (.int j)) ∧ eval ops ctx env (.var "length".toList) = some (.int values.length) :=
  ⟨h.i, eval_var ops ctx env _ _ _ (by rw [h.other _ (by decide +kernel) (by decide +kernel)]; exact hl)⟩

omit hl in
theorem convSt_value {j : Nat} {env : Env F} (h : ConvSt env0 dtype ws nf j env) (hj : j < values.length) :
    eval ops ctx env (.cast dtype false (.idx "values".toList (.var "i".toList))) = conv ops dtype (.flt values[j]) := by
  have hx := eval_idx ops ctx env "values".toList "float".toList _ (.var "i".toList) j (.flt values[j])
    (lookup_local ctx env _ _ (by rw [h.other _ (by decide +kernel) (by decide +kernel)]; exact hv)) (eval_var ops ctx env _ _ _ h.i) (by simp [hj])
  rw [eval]
  simp only [Bool.false_eq_true, if_false]
  rw [hx, Option.bind_some]

omit hl in
theorem convSt_step {j : Nat} {env : Env F} (h : ConvSt env0 dtype ws nf j env) (hj : j < values.length) (hjf : j < nf) (w : Val F) (hw : ws[j]? = some w) (hc : conv ops dtype (.flt values[j]) = some w) :
    ∃ env', exec ops ctx fuel (convAssign dtype) env = some (.next env') ∧ env' "i".toList = some (.scalar "int".toList (.int j)) ∧
      ConvSt env0 dtype ws nf (j + 1) (env'.set "i".toList (some (.scalar "int".toList (.int ((j + 1 : Nat) : Int))))) := by
  have he := convSt_value ops ctx dtype values ws nf env0 hv h hj
  rw [hc] at he
  have het := evalTop_eq ops ctx env _ _ (by intro f a; simp) he
  have hjz : j < ws.length := (List.getElem?_eq_some_iff.1 hw).1
  have hlen : ((ws.take j).map (some : Val F → _) ++ List.replicate (nf - j) none).length = nf := by simp; omega
  have hset : ((ws.take j).map (some : Val F → _) ++ List.replicate (nf - j) none).set j (some w) = (ws.take (j + 1)).map some ++ List.replicate (nf - (j + 1)) none := by
    have e : nf - j = (nf - (j + 1)) + 1 := by omega
    rw [e, List.replicate_succ, List.set_append_right _ _ (by simp), List.take_add_one, hw]
    have hl : ((ws.take j).map (some : Val F → _)).length = j := by simp; omega
    rw [hl, Nat.sub_self, List.set_cons_zero]
    simp
  have hx := exec_assign_idx ops ctx fuel env _ _ _ (.var "i".toList) _ j w w .done h.features (eval_var ops ctx env _ _ _ h.i) (by rw [hlen]; exact hjf) het (conv_conv ops dtype _ w hc)
  rw [hset] at hx
  refine ⟨_, by unfold convAssign; rw [hx, exec], by rw [Env.set_ne _ _ (by decide +kernel)]; exact h.i, ?_⟩
  constructor
  · rw [Env.set_same]
  · rw [Env.set_ne _ _ (by decide +kernel), Env.set_same]
  · intro y hy1 hy2
    rw [Env.set_ne _ _ hy2, Env.set_ne _ _ hy1]
    exact h.other y hy1 hy2

omit hl in
/-- At an index outside the array, or with a value that does not fit the type, the assignment has no result. -/
theorem convSt_bad {j : Nat} {env : Env F} (h : ConvSt env0 dtype ws nf j env) (hj : j < values.length) (hjz : j ≤ ws.length) (hbad : nf ≤ j ∨ conv ops dtype (.flt values[j]) = none) :
    exec ops ctx fuel (convAssign dtype) env = none := by
  have he := convSt_value ops ctx dtype values ws nf env0 hv h hj
  unfold convAssign
  cases hs : conv ops dtype (.flt values[j]) with
  | none =>
    rw [hs] at he
    have het : evalTop ops ctx env (.cast dtype false (.idx "values".toList (.var "i".toList))) = none := by unfold evalTop; simp only [he, Option.map_none]
    rw [exec, het]
  | some z =>
    rw [hs] at he
    have het := evalTop_eq ops ctx env _ _ (by intro f a; simp) he
    have hnf : nf ≤ j := by rcases hbad with h | h; exacts [h, by rw [hs] at h; cases h]
    have hi := eval_var ops ctx env _ _ _ h.i
    rw [exec, het]
    simp only [Bool.false_eq_true, if_false, hi, store, h.features]
    rw [if_neg (by simp; omega)]
    rfl

omit hv hl in
theorem convSt_zero (hf : env0 "features".toList = some (.array dtype (List.replicate nf none))) : ConvSt env0 dtype ws nf 0 (env0.set "i".toList (some (.scalar "int".toList (.int ((0 : Nat) : Int))))) := by
  constructor
  · rw [Env.set_same]
  · rw [Env.set_ne _ _ (by decide +kernel), hf]; simp
  · intro y _ hy; rw [Env.set_ne _ _ hy]

/-- The loop when every value fits: the features are the converted values; nothing else changes. -/
theorem convLoop_ok_run (hf : env0 "features".toList = some (.array dtype (List.replicate nf none))) (hi : env0 "i".toList = none) (hlen : values.length ≤ nf) (hb : values.length ≤ 2147483647)
    (hfu : values.length < fuel) (hw : List.Forall₂ (fun x w => conv ops dtype (.flt x) = some w) values ws) (k : Code) :
    ∃ env', exec ops ctx fuel (convLoop dtype k) env0 = exec ops ctx fuel k env' ∧ env' "features".toList = some (.array dtype (ws.map some ++ List.replicate (nf - values.length) none)) ∧
      ∀ y, y ≠ "features".toList → env' y = env0 y := by
  have hwl : values.length = ws.length := hw.length_eq
  obtain ⟨env', h1, h2⟩ := exec_loop ops ctx "i".toList "int".toList (.inl rfl) (.var "length".toList) (convAssign dtype) k values.length hb (ConvSt env0 dtype ws nf)
    (fun j env _ h => convSt_bound ops ctx dtype values ws nf env0 hl h) fuel hfu env0 hi (convSt_zero dtype ws nf env0 hf)
    (fun j env hj h => by
      obtain ⟨w, hw1, hw2⟩ : ∃ w, ws[j]? = some w ∧ conv ops dtype (.flt values[j]) = some w := ⟨ws[j], by simp, by
        have := (List.forall₂_iff_get.1 hw).2 j hj (by omega)
        simpa using this⟩
      exact convSt_step ops ctx fuel dtype values ws nf env0 hv h hj (by omega) w hw1 hw2)
  refine ⟨_, h1, ?_, ?_⟩
  · rw [Env.set_ne _ _ (by decide +kernel), h2.features, hwl, List.take_length]
  · intro y hy
    by_cases hyi : y = "i".toList
    · subst hyi; rw [Env.set_same, hi]
    · rw [Env.set_ne _ _ hyi]; exact h2.other y hy hyi

/-- The loop when there are more values than features, or a value does not fit: no result. -/
theorem convLoop_bad_run (hf : env0 "features".toList = some (.array dtype (List.replicate nf none))) (hi : env0 "i".toList = none) (hb : values.length ≤ 2147483647)
    (hbad : nf < values.length ∨ ∃ x ∈ values, conv ops dtype (.flt x) = none) (k : Code) : exec ops ctx fuel (convLoop dtype k) env0 = none := by
  -- the first bad index
  obtain ⟨q, hq, hqbad, hqgood⟩ : ∃ q, q < values.length ∧ (∃ h : q < values.length, nf ≤ q ∨ conv ops dtype (.flt values[q]) = none) ∧
      ∀ j, j < q → ∀ h : j < values.length, j < nf ∧ ∃ w, conv ops dtype (.flt values[j]) = some w := by
    have hex : ∃ q, ∃ h : q < values.length, nf ≤ q ∨ conv ops dtype (.flt values[q]) = none := by
      rcases hbad with h | ⟨x, hx, h⟩
      · exact ⟨nf, h, .inl le_rfl⟩
      · obtain ⟨j, hj, rfl⟩ := List.mem_iff_getElem.1 hx
        exact ⟨j, hj, .inr h⟩
    classical
    refine ⟨Nat.find hex, (Nat.find_spec hex).1, Nat.find_spec hex, ?_⟩
    intro j hj hjl
    have := Nat.find_min hex hj
    rw [not_exists] at this
    have := this hjl
    rw [not_or] at this
    refine ⟨by omega, ?_⟩
    cases hc : conv ops dtype (.flt values[j]) with
    | none => exact absurd hc this.2
    | some w => exact ⟨w, rfl⟩
  let zs : List (Val F) := (values.take q).filterMap fun x => conv ops dtype (.flt x)
  have hz : ∀ j, j < q → ∃ w, zs[j]? = some w ∧ ∃ h : j < values.length, conv ops dtype (.flt values[j]) = some w := by
    have key : ∀ (l : List F), (∀ x ∈ l, ∃ w, conv ops dtype (.flt x) = some w) → ∀ j, ∀ h : j < l.length, (l.filterMap fun x => conv ops dtype (.flt x))[j]? = conv ops dtype (.flt l[j]) := by
      intro l
      induction l with
      | nil => intro _ j h; simp at h
      | cons a l ih =>
        intro hall j h
        obtain ⟨w, hw⟩ := hall a (by simp)
        rw [List.filterMap_cons_some (f := fun x => conv ops dtype (.flt x)) hw]
        cases j with
        | zero => simp [hw]
        | succ j => simpa using ih (fun x hx => hall x (by simp [hx])) j (by simpa using h)
    intro j hj
    have hjl : j < values.length := by omega
    obtain ⟨-, w, hw⟩ := hqgood j hj hjl
    refine ⟨w, ?_, hjl, hw⟩
    have := key (values.take q) (by
      intro x hx
      obtain ⟨i, hi, rfl⟩ := List.mem_iff_getElem.1 hx
      rw [List.length_take] at hi
      rw [List.getElem_take]
      exact (hqgood i (by omega) (by omega)).2) j (by simp; omega)
    rw [List.getElem_take, hw] at this
    exact this
  have hzl : q ≤ zs.length := by
    by_contra hc
    obtain ⟨w, hw, -⟩ := hz zs.length (by omega)
    simp at hw
  have := Neighbors.CText.iterate_fail ops ctx "i".toList "int".toList (.inl rfl) (.var "length".toList) (exec ops ctx fuel (convAssign dtype)) values.length q hb hq (ConvSt env0 dtype zs nf)
    (fun j env _ h => convSt_bound ops ctx dtype values zs nf env0 hl h)
    (fun j env hj h => by
      obtain ⟨w, hw1, hjl, hw2⟩ := hz j hj
      exact convSt_step ops ctx fuel dtype values zs nf env0 hv h hjl (hqgood j hj hjl).1 w hw1 hw2)
    (fun env h => convSt_bad ops ctx fuel dtype values zs nf env0 hv h hqbad.1 hzl hqbad.2) fuel 0 _ (by omega) (convSt_zero dtype zs nf env0 hf)
  unfold convLoop
  rw [exec]
  simp only [hi, Option.isSome_none, Bool.false_eq_true, if_false]
  rw [show (Val.int (0 : Int) : Val F) = .int ((0 : Nat) : Int) from rfl, this]

end

/-! ### The calls -/

/-- The variables after the declaration of the features. -/
def wrapEnv (dtype : List Char) (nf : Nat) (base : Env F) : Env F := base.set "features".toList (some (.array dtype (List.replicate nf none)))

theorem exec_featuresDecl (ops : CFloat F) (ctx : Ctx F) (fuel : Nat) (dtype : List Char) (nf : Nat) (k : Code) (base : Env F) (h : base "features".toList = none) :
    exec ops ctx fuel (.decl (featuresDecl dtype nf) k) base = exec ops ctx fuel k (wrapEnv dtype nf base) := by
  exact Neighbors.CText.exec_decl_uninit ops ctx fuel base _ _ _ nf k h

/-- A declaration initialised by a call that writes through pointers. -/
theorem exec_decl_call (ops : CFloat F) (ctx : Ctx F) (fuel : Nat) (env env' : Env F) (mods : List (List Char)) (ty x : List Char) (e : Expr) (v v' : Val F) (k : Code) (hx : env x = none)
    (he : evalTop ops ctx env e = some (v, env')) (hc : conv ops ty v = some v') (hu : e.uses x = false) :
    exec ops ctx fuel (.decl ⟨mods, ty, x, none, some (.one e)⟩ k) env = exec ops ctx fuel k (env'.set x (some (.scalar ty v'))) := by
  rw [exec, declare]
  simp only [hx, Decl.selfUse, hu, Option.isSome_none, Bool.or_self, Bool.false_eq_true, if_false, he, hc, Option.map_some, Option.bind_some]

theorem writeBack_one (env : Env F) (args : List Arg) (k : Nat) (a : Arg) (vs : List (Option (Val F))) (ty : List Char) (old : List (Option (Val F))) (ha : args[k]? = some a) (h : env a.w = some (.array ty old)) :
    writeBack env args [(k, vs)] = some (env.set a.w (some (.array ty vs))) := by
  rw [writeBack, ha]
  simp only
  rw [h]
  rfl

theorem mapM_two {α β : Type} (f : α → Option β) (a b : α) (x y : β) (h1 : f a = some x) (h2 : f b = some y) : [a, b].mapM f = some [x, y] := by
  simp [h1, h2]

theorem mapM_four {α β : Type} (f : α → Option β) (a b c d : α) (x y z w : β) (h1 : f a = some x) (h2 : f b = some y) (h3 : f c = some z) (h4 : f d = some w) : [a, b, c, d].mapM f = some [x, y, z, w] := by
  simp [h1, h2, h3, h4]

/-- The variables of `predict_wrapper` and `regress_wrapper` at the start. -/
def valueEnv (values : List F) : Env F :=
  Env.set (Env.set (fun _ => none) "values".toList (some (.array "float".toList (values.map fun x => some (.flt x))))) "length".toList (some (.scalar "int".toList (.int values.length)))

theorem bind_valueParams (ops : CFloat F) (values : List F) (hb : values.length ≤ 2147483647) :
    bindParams ops valueParams [.arr "float".toList (values.map fun x => some (.flt x)), .num (.int values.length)] (fun _ => none) = some (valueEnv values) := by
  unfold valueParams
  rw [bindParams_ptr ops _ _ _ _ _ _ _ rfl, bindParams_num ops _ _ _ _ _ (.int values.length) _ _ (by rw [Env.set_ne _ _ (by decide +kernel)]) (conv_int32 ops (.inl rfl) _ (by omega) (by omega)), bindParams_nil]
  rfl

/-- The variables of `predict_proba_wrapper` at the start. -/
def outputEnv (values : List F) (outs : List (Option (Val F))) : Env F :=
  Env.set (Env.set (valueEnv values) "outputs".toList (some (.array "float".toList outs))) "n_outputs".toList (some (.scalar "int".toList (.int outs.length)))

theorem valueEnv_other (values : List F) (y : List Char) (h1 : y ≠ "values".toList) (h2 : y ≠ "length".toList) : valueEnv values y = none := by
  unfold valueEnv; rw [Env.set_ne _ _ h2, Env.set_ne _ _ h1]

theorem bind_outParams (ops : CFloat F) (values : List F) (outs : List (Option (Val F))) (hb : values.length ≤ 2147483647) (ho : outs.length ≤ 2147483647) :
    bindParams ops wrapOutParams [.arr "float".toList (values.map fun x => some (.flt x)), .num (.int values.length), .arr "float".toList outs, .num (.int outs.length)] (fun _ => none) =
      some (outputEnv values outs) := by
  unfold wrapOutParams valueParams
  simp only [List.cons_append, List.nil_append]
  rw [bindParams_ptr ops _ _ _ _ _ _ _ rfl, bindParams_num ops _ _ _ _ _ (.int values.length) _ _ (by rw [Env.set_ne _ _ (by decide +kernel)]) (conv_int32 ops (.inl rfl) _ (by omega) (by omega))]
  have h1 : valueEnv values "outputs".toList = none := valueEnv_other values _ (by decide +kernel) (by decide +kernel)
  have h2 : Env.set (valueEnv values) "outputs".toList (some (.array "float".toList outs)) "n_outputs".toList = none := by
    rw [Env.set_ne _ _ (by decide +kernel)]; exact valueEnv_other values _ (by decide +kernel) (by decide +kernel)
  change bindParams ops _ _ (valueEnv values) = _
  rw [bindParams_ptr ops _ _ _ _ _ _ _ h1, bindParams_num ops _ _ _ _ _ (.int outs.length) _ _ h2 (conv_int32 ops (.inl rfl) _ (by omega) (by omega)), bindParams_nil]
  rfl

section
variable (ops : CFloat F) (ext : List Char → List (ArgVal F) → Option (CallResult F)) (prog : Prog) (fuel depth : Nat) (name dtype : List Char) (nf : Nat) (values : List F) (ws : List (Val F))

/-- The features after the loop: the converted values; features beyond the given values are indeterminate. -/
def convArray (ws : List (Val F)) (nf : Nat) : List (Option (Val F)) := ws.map some ++ List.replicate (nf - ws.length) none

theorem value_start (base : Env F) (hbase : ∀ y, y = "values".toList ∨ y = "length".toList ∨ y = "features".toList ∨ y = "i".toList → base y = valueEnv values y) :
    wrapEnv dtype nf base "values".toList = some (.array "float".toList (values.map fun x => some (.flt x))) ∧
    wrapEnv dtype nf base "length".toList = some (.scalar "int".toList (.int values.length)) ∧
    wrapEnv dtype nf base "features".toList = some (.array dtype (List.replicate nf none)) ∧ wrapEnv dtype nf base "i".toList = none ∧ base "features".toList = none := by
  unfold wrapEnv
  refine ⟨?_, ?_, Env.set_same _ _ _, ?_, ?_⟩
  · rw [Env.set_ne _ _ (by decide +kernel), hbase _ (.inl rfl)]; unfold valueEnv; rw [Env.set_ne _ _ (by decide +kernel), Env.set_same]
  · rw [Env.set_ne _ _ (by decide +kernel), hbase _ (.inr (.inl rfl))]; unfold valueEnv; rw [Env.set_same]
  · rw [Env.set_ne _ _ (by decide +kernel), hbase _ (.inr (.inr (.inr rfl)))]; exact valueEnv_other values _ (by decide +kernel) (by decide +kernel)
  · rw [hbase _ (.inr (.inr (.inl rfl)))]; exact valueEnv_other values _ (by decide +kernel) (by decide +kernel)

variable (hb : values.length ≤ 2147483647)
include hb

/-- Too many values, or one that does not fit: every wrapper function fails. -/
theorem wrap_bad (g : Func) (k : Code) (args : List (ArgVal F)) (base : Env F) (hfind : findFunc prog g.name = some g) (hbody : g.body = .decl (featuresDecl dtype nf) (convLoop dtype k))
    (hbind : bindParams ops g.params args (fun _ => none) = some base)
    (hbase : ∀ y, y = "values".toList ∨ y = "length".toList ∨ y = "features".toList ∨ y = "i".toList → base y = valueEnv values y)
    (hbad : nf < values.length ∨ ∃ x ∈ values, conv ops dtype (.flt x) = none) : callFunc ops ext prog fuel (depth + 1) g.name args = none := by
  obtain ⟨h1, h2, h3, h4, h5⟩ := value_start dtype nf values base hbase
  rw [callFunc, hfind]
  simp only [hbind, hbody]
  rw [exec_featuresDecl _ _ _ _ _ _ _ h5, convLoop_bad_run ops _ fuel dtype values nf _ h1 h2 h3 h4 hb hbad]

variable (hlen : values.length ≤ nf) (hfu : values.length < fuel) (hw : List.Forall₂ (fun x w => conv ops dtype (.flt x) = some w) values ws)
include hlen hfu hw

theorem call_outDecl (ctx : Ctx F) (base : Env F) (hbase : ∀ y, y = "values".toList ∨ y = "length".toList ∨ y = "features".toList ∨ y = "i".toList → base y = valueEnv values y) (hout : base "out".toList = none)
    (ty f : List Char) (hf : ∀ y ∈ ["features".toList, "length".toList, "out".toList], f ≠ y) (v v' : Val F) (k : Code)
    (hcall : ctx.call f [.arr dtype (convArray ws nf), .num (.int values.length)] = some (v, [])) (hc : conv ops ty v = some v') :
    ∃ env' : Env F, exec ops ctx fuel (.decl (featuresDecl dtype nf) (convLoop dtype (.decl (outDecl ty f) k))) base = exec ops ctx fuel k (env'.set "out".toList (some (.scalar ty v'))) := by
  obtain ⟨h1, h2, h3, h4, h5⟩ := value_start dtype nf values base hbase
  rw [exec_featuresDecl _ _ _ _ _ _ _ h5]
  obtain ⟨env', h6, h7, h8⟩ := convLoop_ok_run ops ctx fuel dtype values ws nf _ h1 h2 h3 h4 hlen hb hfu hw (.decl (outDecl ty f) k)
  refine ⟨env', ?_⟩
  rw [h6]
  refine exec_decl_call ops ctx fuel env' env' _ _ _ _ v v' k ?_ ?_ hc ?_
  · rw [h8 _ (by decide +kernel)]; unfold wrapEnv; rw [Env.set_ne _ _ (by decide +kernel)]; exact hout
  · refine evalTop_call ops ctx env' f featureArgs [.arr dtype (convArray ws nf), .num (.int values.length)] v ?_ hcall
    exact mapM_two _ _ _ _ _ (evalArg_local ops (by decide +kernel) (by rw [h7, convArray, hw.length_eq])) (evalArg_num ops (by decide +kernel) (by rw [h8 _ (by decide +kernel)]; exact h2))
  · have h0 := hf "out".toList (by simp)
    simp only [Expr.uses, featureArgs, List.any_cons, List.any_nil, Bool.or_false, Bool.or_eq_false_iff, beq_eq_false_iff_ne]
    exact ⟨h0, by decide +kernel, by decide +kernel⟩

/-- `predict_wrapper` converts the values, calls the generated function and returns its result without the sign. -/
theorem call_predictWrap (hfind : findFunc prog "predict_wrapper".toList = some (predictWrapF name dtype nf)) (hname : ∀ y ∈ ["features".toList, "length".toList, "out".toList], name ++ "_predict".toList ≠ y) (z : Int)
    (hz1 : -2147483648 < z) (hz2 : z ≤ 2147483647)
    (hcall : callFunc ops ext prog fuel depth (name ++ "_predict".toList) [.arr dtype (convArray ws nf), .num (.int values.length)] = some (.int z, [])) :
    callFunc ops ext prog fuel (depth + 1) "predict_wrapper".toList [.arr "float".toList (values.map fun x => some (.flt x)), .num (.int values.length)] = some (.int (z.natAbs : Nat), []) := by
  obtain ⟨env', h1⟩ := call_outDecl ops fuel dtype nf values ws hb hlen hfu hw { globals := globalsOf ops prog, call := callFunc ops ext prog fuel depth } (valueEnv values) (fun _ _ => rfl)
    (valueEnv_other values _ (by decide +kernel) (by decide +kernel)) "int32_t".toList (name ++ "_predict".toList) hname (.int z) (.int z)
    (.ifThen (.bin '<' (.var "out".toList) (.lit "0".toList)) (.ret (.neg (.var "out".toList)) .done) (.ret (.var "out".toList) .done)) hcall (conv_int32 ops (.inr rfl) z (by omega) hz2)
  have hov := eval_var ops { globals := globalsOf ops prog, call := callFunc ops ext prog fuel depth } (env'.set "out".toList (some (.scalar "int32_t".toList (.int z)))) "out".toList "int32_t".toList (.int z) (Env.set_same _ _ _)
  have hzero : litVal ops "0".toList false = some (.int 0) := by
    have := litVal_showNat ops 0 (by decide) false
    simpa [show showNat 0 = "0".toList from by decide +kernel] using this
  have hcond : eval ops { globals := globalsOf ops prog, call := callFunc ops ext prog fuel depth } (env'.set "out".toList (some (.scalar "int32_t".toList (.int z)))) (.bin '<' (.var "out".toList) (.lit "0".toList)) =
      some (.int (if z < 0 then 1 else 0)) := by
    rw [eval, hov, eval, hzero]
    simp [binVal, boolVal]
  have key := callFunc_eq ops ext prog fuel depth "predict_wrapper".toList [.arr "float".toList (values.map fun x => some (.flt x)), .num (.int values.length)] _ (valueEnv values) (env'.set "out".toList (some (.scalar "int32_t".toList (.int z)))) (.int z.natAbs) (.int z.natAbs) hfind
    (bind_valueParams ops values hb) ?_ (conv_int32 ops (.inr rfl) _ (by omega) (by omega))
  · rw [key]
    rfl
  · show exec _ _ _ (.decl (featuresDecl dtype nf) (convLoop dtype _)) _ = _
    rw [h1, exec, hcond]
    by_cases hneg : z < 0
    · rw [if_pos hneg]
      simp only [one_ne_zero, if_false]
      rw [exec]
      have : eval ops { globals := globalsOf ops prog, call := callFunc ops ext prog fuel depth } (env'.set "out".toList (some (.scalar "int32_t".toList (.int z)))) (.neg (.var "out".toList)) = some (.int z.natAbs) := by
        rw [eval, hov]
        · show checked (-z) = _
          rw [show -z = (z.natAbs : Int) by omega]; exact checked_eq _ (by omega) (by omega)
        · intro s h; cases h
      rw [evalTop_eq ops _ _ _ _ (by intro f a h; cases h) this]
      rfl
    · rw [if_neg hneg]
      simp only [if_true]
      rw [exec, evalTop_eq ops _ _ _ _ (by intro f a h; cases h) hov, show (z.natAbs : Int) = z by omega]
      rfl

/-- `regress_wrapper` converts the values and returns the result of the generated function. -/
theorem call_regressWrap (hfind : findFunc prog "regress_wrapper".toList = some (regressWrapF name dtype nf)) (hname : ∀ y ∈ ["features".toList, "length".toList, "out".toList], name ++ "_predict".toList ≠ y) (x : F)
    (hcall : callFunc ops ext prog fuel depth (name ++ "_predict".toList) [.arr dtype (convArray ws nf), .num (.int values.length)] = some (.flt x, [])) :
    callFunc ops ext prog fuel (depth + 1) "regress_wrapper".toList [.arr "float".toList (values.map fun x => some (.flt x)), .num (.int values.length)] = some (.flt x, []) := by
  obtain ⟨env', h1⟩ := call_outDecl ops fuel dtype nf values ws hb hlen hfu hw { globals := globalsOf ops prog, call := callFunc ops ext prog fuel depth } (valueEnv values) (fun _ _ => rfl)
    (valueEnv_other values _ (by decide +kernel) (by decide +kernel)) "float".toList (name ++ "_predict".toList) hname (.flt x) (.flt x) (.ret (.var "out".toList) .done) hcall (conv_float ops x)
  have hov := eval_var ops { globals := globalsOf ops prog, call := callFunc ops ext prog fuel depth } (env'.set "out".toList (some (.scalar "float".toList (.flt x)))) "out".toList "float".toList (.flt x) (Env.set_same _ _ _)
  have key := callFunc_eq ops ext prog fuel depth "regress_wrapper".toList [.arr "float".toList (values.map fun x => some (.flt x)), .num (.int values.length)] _ (valueEnv values) (env'.set "out".toList (some (.scalar "float".toList (.flt x)))) (.flt x) (.flt x) hfind
    (bind_valueParams ops values hb) ?_ (conv_float ops x)
  · rw [key]
    rfl
  · show exec _ _ _ (.decl (featuresDecl dtype nf) (convLoop dtype _)) _ = _
    rw [h1, exec, evalTop_eq ops _ _ _ _ (by intro f a h; cases h) hov]
    rfl

/-- `predict_proba_wrapper` converts the values and passes the outputs on: the array afterwards and the returned number are those of the generated function. -/
theorem call_probaWrap (hfind : findFunc prog "predict_proba_wrapper".toList = some (probaWrapF name dtype nf))
    (hname : ∀ y ∈ ["features".toList, "length".toList, "outputs".toList, "n_outputs".toList, "err".toList], name ++ "_predict_proba".toList ≠ y) (outs outs' : List (Option (Val F)))
    (ho : outs.length ≤ 2147483647) (z : Int) (hz1 : -2147483648 ≤ z) (hz2 : z ≤ 2147483647)
    (hcall : callFunc ops ext prog fuel depth (name ++ "_predict_proba".toList) [.arr dtype (convArray ws nf), .num (.int values.length), .arr "float".toList outs, .num (.int outs.length)] = some (.int z, [(2, outs')])) :
    callFunc ops ext prog fuel (depth + 1) "predict_proba_wrapper".toList
      [.arr "float".toList (values.map fun x => some (.flt x)), .num (.int values.length), .arr "float".toList outs, .num (.int outs.length)] = some (.int z, [(2, outs')]) := by
  have hbase : ∀ y, y = "values".toList ∨ y = "length".toList ∨ y = "features".toList ∨ y = "i".toList → outputEnv values outs y = valueEnv values y := by
    rintro y (rfl | rfl | rfl | rfl) <;> (unfold outputEnv; rw [Env.set_ne _ _ (by decide +kernel), Env.set_ne _ _ (by decide +kernel)])
  obtain ⟨h1, h2, h3, h4, h5⟩ := value_start dtype nf values (outputEnv values outs) hbase
  obtain ⟨env', h6, h7, h8⟩ := convLoop_ok_run ops { globals := globalsOf ops prog, call := callFunc ops ext prog fuel depth } fuel dtype values ws nf _ h1 h2 h3 h4 hlen hb hfu hw
    (.decl (errInit (name ++ "_predict_proba".toList)) (.ret (.var "err".toList) .done))
  have ho1 : env' "outputs".toList = some (.array "float".toList outs) := by
    rw [h8 _ (by decide +kernel)]; unfold wrapEnv outputEnv; rw [Env.set_ne _ _ (by decide +kernel), Env.set_ne _ _ (by decide +kernel), Env.set_same]
  have ho2 : env' "n_outputs".toList = some (.scalar "int".toList (.int outs.length)) := by
    rw [h8 _ (by decide +kernel)]; unfold wrapEnv outputEnv; rw [Env.set_ne _ _ (by decide +kernel), Env.set_same]
  have hargs : outputArgs.mapM (evalArg ops { globals := globalsOf ops prog, call := callFunc ops ext prog fuel depth } env') =
      some [.arr dtype (convArray ws nf), .num (.int values.length), .arr "float".toList outs, .num (.int outs.length)] := by
    exact mapM_four _ _ _ _ _ _ _ _ _ (evalArg_local ops (by decide +kernel) (by rw [h7, convArray, hw.length_eq])) (evalArg_num ops (by decide +kernel) (by rw [h8 _ (by decide +kernel)]; exact h2))
      (evalArg_local ops (by decide +kernel) ho1) (evalArg_num ops (by decide +kernel) ho2)
  have htop : evalTop ops { globals := globalsOf ops prog, call := callFunc ops ext prog fuel depth } env' (.call (name ++ "_predict_proba".toList) outputArgs) =
      some (.int z, env'.set "outputs".toList (some (.array "float".toList outs'))) := by
    rw [evalTop, hargs]
    simp only [hcall]
    rw [writeBack_one env' outputArgs 2 ⟨none, "outputs".toList⟩ outs' "float".toList outs rfl ho1]
    rfl
  have hdecl := exec_decl_call ops { globals := globalsOf ops prog, call := callFunc ops ext prog fuel depth } fuel env' _ ["const".toList] "int".toList "err".toList (.call (name ++ "_predict_proba".toList) outputArgs) (.int z) (.int z)
    (.ret (.var "err".toList) .done)
    (by rw [h8 _ (by decide +kernel)]; unfold wrapEnv outputEnv valueEnv; rw [Env.set_ne _ _ (by decide +kernel), Env.set_ne _ _ (by decide +kernel), Env.set_ne _ _ (by decide +kernel), Env.set_ne _ _ (by decide +kernel), Env.set_ne _ _ (by decide +kernel)])
    htop (conv_int32 ops (.inl rfl) z hz1 hz2) (by
      have h0 := hname "err".toList (by simp)
      simp only [Expr.uses, outputArgs, featureArgs, List.cons_append, List.nil_append, List.any_cons, List.any_nil, Bool.or_false, Bool.or_eq_false_iff, beq_eq_false_iff_ne]
      exact ⟨h0, by decide +kernel, by decide +kernel, by decide +kernel, by decide +kernel⟩)
  have key := callFunc_eq ops ext prog fuel depth "predict_proba_wrapper".toList
    [.arr "float".toList (values.map fun x => some (.flt x)), .num (.int values.length), .arr "float".toList outs, .num (.int outs.length)] _ (outputEnv values outs)
    ((env'.set "outputs".toList (some (.array "float".toList outs'))).set "err".toList (some (.scalar "int".toList (.int z)))) (.int z) (.int z) hfind
    (bind_outParams ops values outs hb ho) ?_ (conv_int32 ops (.inl rfl) z hz1 hz2)
  · rw [key]
    show some (Val.int z, writes _ 0 wrapOutParams) = _
    unfold wrapOutParams valueParams
    simp only [List.cons_append, List.nil_append]
    rw [writes_skip _ _ _ _ rfl, writes_skip _ _ _ _ rfl, writes_ptr _ _ _ _ "float".toList outs' rfl (by
      show Env.set _ _ _ "outputs".toList = _
      rw [Env.set_ne _ _ (by decide +kernel), Env.set_same]), writes_skip _ _ _ _ rfl]
    rfl
  · show exec _ _ _ (.decl (featuresDecl dtype nf) (convLoop dtype _)) _ = _
    rw [exec_featuresDecl _ _ _ _ _ _ _ h5, h6]
    show exec _ _ _ (.decl ⟨["const".toList], "int".toList, "err".toList, none, some (.one (.call (name ++ "_predict_proba".toList) outputArgs))⟩ _) _ = _
    rw [hdecl, exec, evalTop_eq ops _ _ _ _ (by intro f a h; cases h) (eval_var ops _ _ "err".toList "int".toList (.int z) (Env.set_same _ _ _))]
    rfl

end
end Emlearn.Trees
