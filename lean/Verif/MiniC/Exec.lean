/- Lemmas about the execution of generated programs: numbers, variables, statements, loops, calls. -/
import Verif.MiniC.Sem
import Verif.MiniC.Gen
import Mathlib.Tactic.Linarith
namespace Emlearn.MiniC
variable {F : Type}

/-! ### Numbers -/

theorem litVal_showNat (ops : CFloat F) (n : Nat) (h : n ≤ 2147483647) (neg : Bool) : litVal ops (showNat n) neg = some (.int (if neg then -(n : Int) else n)) := by
  unfold litVal
  have h1 : (showNat n).getLast? ≠ some 'f' := by
    intro hc
    have := showNat_digits (List.mem_of_getLast? hc)
    revert this; decide
  rw [if_neg h1, if_neg (showNat_no_zero n), readNat_showNat]
  simp [h]

theorem litVal_float (ops : CFloat F) (s : List Char) (q : ℚ) (neg : Bool) (h : readDec s = some q) : litVal ops (s ++ ['f']) neg = some (.flt (ops.lit neg q)) := by
  unfold litVal
  rw [if_pos (by simp)]
  simp [h]

/-- The `float` a printed constant stands for: sign and magnitude with six decimals. -/
def floatLit (ops : CFloat F) (v : ℚ) : F := ops.lit (decide (v < 0)) |fixedValue 6 v|

theorem abs_fixedValue (v : ℚ) : |fixedValue 6 v| = ((roundHalfEven (|v| * 10 ^ 6)).toNat : ℚ) / 10 ^ 6 := by
  have h0 : 0 ≤ roundHalfEven (|v| * 10 ^ 6) := roundHalfEven_nonneg (by positivity)
  have e : ((roundHalfEven (|v| * 10 ^ 6)).toNat : ℚ) = (roundHalfEven (|v| * 10 ^ 6) : ℚ) := by exact_mod_cast Int.toNat_of_nonneg h0
  rw [e]
  have h1 : (0 : ℚ) ≤ (roundHalfEven (|v| * 10 ^ 6) : ℚ) := by exact_mod_cast h0
  unfold fixedValue
  split
  · rw [neg_one_mul, neg_div, abs_neg, abs_of_nonneg (by positivity)]
  · rw [one_mul, abs_of_nonneg (by positivity)]

theorem eval_litExpr_float (ops : CFloat F) (ctx : Ctx F) (env : Env F) (v : ℚ) : eval ops ctx env (litExpr v "float".toList) = some (.flt (floatLit ops v)) := by
  have key : ∀ neg, litVal ops (litMag v "float".toList) neg = some (.flt (ops.lit neg |fixedValue 6 v|)) := by
    intro neg
    unfold litMag
    rw [if_pos rfl, abs_fixedValue]
    refine litVal_float ops _ _ neg ?_
    rw [readDec_fixed (magnitude_no_e v), readUFixed_parts 6 _ (by decide)]
  unfold litExpr sgnExpr litSgn floatLit litNeg
  rw [if_pos rfl]
  by_cases h : v < 0
  · simp only [h, decide_true, if_true]; exact key true
  · simp only [h, decide_false, Bool.false_eq_true, if_false]; exact key false

theorem eval_litExpr_int (ops : CFloat F) (ctx : Ctx F) (env : Env F) (v : ℚ) (dtype : List Char) (hd : dtype ≠ "float".toList) (h : (trunc v).natAbs ≤ 2147483647) :
    eval ops ctx env (litExpr v dtype) = some (.int (trunc v)) := by
  unfold litExpr sgnExpr litSgn litNeg litMag
  rw [if_neg hd, if_neg hd]
  by_cases hn : trunc v < 0
  · simp only [hn, decide_true, if_true]
    show litVal ops _ true = _
    rw [litVal_showNat ops _ h true]
    simp only [if_true]
    congr 2; omega
  · simp only [hn, decide_false, Bool.false_eq_true, if_false]
    show litVal ops _ false = _
    rw [litVal_showNat ops _ h false]
    simp only [Bool.false_eq_true, if_false]
    congr 2; omega

theorem evalTop_eq (ops : CFloat F) (ctx : Ctx F) (env : Env F) (e : Expr) (v : Val F) (hp : ∀ f a, e ≠ .call f a) (h : eval ops ctx env e = some v) : evalTop ops ctx env e = some (v, env) := by
  cases e <;> first | (exact absurd rfl (hp _ _)) | simp [evalTop, h]

theorem conv_float (ops : CFloat F) (x : F) : conv ops "float".toList (.flt x) = some (.flt x) := by
  unfold conv; rw [if_pos rfl]

theorem conv_float_int (ops : CFloat F) (z : Int) : conv ops "float".toList (.int z) = some (.flt (ops.ofInt z)) := by
  unfold conv; rw [if_pos rfl]

/-- The types of 32 bits used for counters. -/
def Int32 (ty : List Char) : Prop := ty = "int".toList ∨ ty = "int32_t".toList

theorem Int32.range {ty : List Char} (h : Int32 ty) : ty ≠ "float".toList ∧ intRange ty = some (-2147483648, 2147483647) := by
  rcases h with rfl | rfl
  · exact ⟨by decide +kernel, by decide +kernel⟩
  · exact ⟨by decide +kernel, by decide +kernel⟩

theorem conv_int32 (ops : CFloat F) {ty : List Char} (ht : Int32 ty) (z : Int) (h1 : -2147483648 ≤ z) (h2 : z ≤ 2147483647) : conv ops ty (.int z) = some (.int z) := by
  unfold conv
  rw [if_neg ht.range.1, ht.range.2]
  have e : wrapRange (-2147483648, 2147483647) z = z := by
    show (z - -2147483648) % (2147483647 - -2147483648 + 1) + -2147483648 = z
    rw [show ((2147483647 : Int) - -2147483648 + 1) = 4294967296 from by norm_num]
    omega
  simp only [e]

theorem checked_eq (z : Int) (h1 : -2147483648 ≤ z) (h2 : z ≤ 2147483647) : (checked z : Option (Val F)) = some (.int z) := by
  unfold checked
  rw [if_pos ⟨h1, h2⟩]

theorem binVal_add_int (ops : CFloat F) (a b : Int) (h1 : -2147483648 ≤ a + b) (h2 : a + b ≤ 2147483647) : binVal ops '+' (.int a) (.int b) = some (.int (a + b)) := by
  simp only [binVal, if_true]
  exact checked_eq _ h1 h2

theorem binVal_mul_int (ops : CFloat F) (a b : Int) (h1 : -2147483648 ≤ a * b) (h2 : a * b ≤ 2147483647) : binVal ops '*' (.int a) (.int b) = some (.int (a * b)) := by
  have e1 : ('*' = '+') = False := by decide
  have e2 : ('*' = '-') = False := by decide
  simp only [binVal, e1, e2, if_true, if_false]
  exact checked_eq _ h1 h2

/-! ### Variables -/

theorem Env.set_same (env : Env F) (x : List Char) (s : Option (Slot F)) : env.set x s x = s := if_pos rfl

theorem Env.set_ne (env : Env F) {x y : List Char} (s : Option (Slot F)) (h : y ≠ x) : env.set x s y = env y := if_neg h

theorem lookup_local (ctx : Ctx F) (env : Env F) (x : List Char) (s : Slot F) (h : env x = some s) : lookupVar ctx env x = some s := by unfold lookupVar; rw [h]

theorem eval_var (ops : CFloat F) (ctx : Ctx F) (env : Env F) (x ty : List Char) (v : Val F) (h : env x = some (.scalar ty v)) : eval ops ctx env (.var x) = some v := by
  rw [eval, lookup_local ctx env x _ h]

theorem eval_idx (ops : CFloat F) (ctx : Ctx F) (env : Env F) (a ty : List Char) (vs : List (Option (Val F))) (i : Expr) (n : Nat) (v : Val F) (h : lookupVar ctx env a = some (.array ty vs))
    (hi : eval ops ctx env i = some (.int n)) (hv : vs[n]? = some (some v)) : eval ops ctx env (.idx a i) = some v := by
  rw [eval, h, hi]
  simp [hv]

/-! ### Statements -/

theorem exec_decl (ops : CFloat F) (ctx : Ctx F) (fuel : Nat) (env : Env F) (mods : List (List Char)) (ty x : List Char) (e : Expr) (v v' : Val F) (k : Code) (hx : env x = none)
    (he : evalTop ops ctx env e = some (v, env)) (hc : conv ops ty v = some v') (hu : e.uses x = false := by rfl) :
    exec ops ctx fuel (.decl ⟨mods, ty, x, none, some (.one e)⟩ k) env = exec ops ctx fuel k (env.set x (some (.scalar ty v'))) := by
  rw [exec, declare]
  simp only [hx, Decl.selfUse, hu, Option.isSome_none, Bool.or_self, Bool.false_eq_true, if_false, he, hc, Option.map_some, Option.bind_some]

/-- An array whose first element is given; the others are 0. -/
theorem exec_decl_array (ops : CFloat F) (ctx : Ctx F) (fuel : Nat) (env : Env F) (mods : List (List Char)) (ty x : List Char) (n : Nat) (e : Expr) (v v' z : Val F) (tr : Bool) (k : Code)
    (hx : env x = none) (hn : 1 ≤ n) (he : eval ops ctx env e = some v) (hc : conv ops ty v = some v') (hz : conv ops ty (.int 0) = some z)
    (hu : e.uses x = false := by rfl) :
    exec ops ctx fuel (.decl ⟨mods, ty, x, some (showNat n), some (.flat [e] tr)⟩ k) env =
      exec ops ctx fuel k (env.set x (some (.array ty (some v' :: List.replicate (n - 1) (some z))))) := by
  rw [exec, declare]
  simp [hx, Decl.selfUse, hu, readNat_showNat, he, hc, hz, hn]

theorem exec_assign (ops : CFloat F) (ctx : Ctx F) (fuel : Nat) (env : Env F) (ty x : List Char) (e : Expr) (old v v' : Val F) (k : Code) (hx : env x = some (.scalar ty old))
    (he : evalTop ops ctx env e = some (v, env)) (hc : conv ops ty v = some v') :
    exec ops ctx fuel (.assign x none false e k) env = exec ops ctx fuel k (env.set x (some (.scalar ty v'))) := by
  rw [exec, he]
  simp only [Bool.false_eq_true, if_false, store, hx, hc, Option.map_some, Option.bind_some]

theorem exec_assign_add (ops : CFloat F) (ctx : Ctx F) (fuel : Nat) (env : Env F) (ty x : List Char) (e : Expr) (old v s v' : Val F) (k : Code) (hx : env x = some (.scalar ty old))
    (he : evalTop ops ctx env e = some (v, env)) (hs : binVal ops '+' old v = some s) (hc : conv ops ty s = some v') :
    exec ops ctx fuel (.assign x none true e k) env = exec ops ctx fuel k (env.set x (some (.scalar ty v'))) := by
  rw [exec, he]
  simp only [if_true, eval_var ops ctx env x ty old hx, Option.bind_some, hs, store, hx, hc, Option.map_some]

theorem exec_assign_idx (ops : CFloat F) (ctx : Ctx F) (fuel : Nat) (env : Env F) (ty x : List Char) (vs : List (Option (Val F))) (i e : Expr) (n : Nat) (v v' : Val F) (k : Code)
    (hx : env x = some (.array ty vs)) (hi : eval ops ctx env i = some (.int n)) (hn : n < vs.length) (he : evalTop ops ctx env e = some (v, env)) (hc : conv ops ty v = some v') :
    exec ops ctx fuel (.assign x (some i) false e k) env = exec ops ctx fuel k (env.set x (some (.array ty (vs.set n (some v'))))) := by
  rw [exec, he]
  simp [hi, store, hx, hc, hn]

theorem exec_assign_idx_add (ops : CFloat F) (ctx : Ctx F) (fuel : Nat) (env : Env F) (ty x : List Char) (vs : List (Option (Val F))) (i e : Expr) (n : Nat) (old v s v' : Val F) (k : Code)
    (hx : env x = some (.array ty vs)) (hi : eval ops ctx env i = some (.int n)) (hn : vs[n]? = some (some old)) (he : evalTop ops ctx env e = some (v, env))
    (hs : binVal ops '+' old v = some s) (hc : conv ops ty s = some v') :
    exec ops ctx fuel (.assign x (some i) true e k) env = exec ops ctx fuel k (env.set x (some (.array ty (vs.set n (some v'))))) := by
  have hl : n < vs.length := by
    by_contra hh
    rw [List.getElem?_eq_none (by omega)] at hn
    cases hn
  have hidx := eval_idx ops ctx env x ty vs i n old (lookup_local ctx env x _ hx) hi hn
  rw [exec, he]
  simp [hi, store, hx, hc, hl, hidx, hs]

theorem exec_ret (ops : CFloat F) (ctx : Ctx F) (fuel : Nat) (env : Env F) (e : Expr) (v : Val F) (k : Code) (he : evalTop ops ctx env e = some (v, env)) :
    exec ops ctx fuel (.ret e k) env = some (.returned v env) := by
  rw [exec, he]; rfl

/-- A call with no effects. -/
theorem evalTop_call (ops : CFloat F) (ctx : Ctx F) (env : Env F) (f : List Char) (args : List Arg) (vs : List (ArgVal F)) (v : Val F) (ha : args.mapM (evalArg ops ctx env) = some vs)
    (hc : ctx.call f vs = some (v, [])) : evalTop ops ctx env (.call f args) = some (v, env) := by
  rw [evalTop, ha]
  simp [hc, writeBack]

theorem eval_call (ops : CFloat F) (ctx : Ctx F) (env : Env F) (f : List Char) (args : List Arg) (vs : List (ArgVal F)) (v : Val F) (ha : args.mapM (evalArg ops ctx env) = some vs)
    (hc : ctx.call f vs = some (v, [])) : eval ops ctx env (.call f args) = some v := by
  rw [eval, ha]
  simp [hc]

/-! ### Loops -/

theorem iterate_inv (ops : CFloat F) (ctx : Ctx F) (i ty : List Char) (hty : Int32 ty) (bound : Expr) (body : Env F → Option (Outcome F)) (n : Nat) (hn : n ≤ 2147483647) (Inv : Nat → Env F → Prop)
    (hI : ∀ j env, j ≤ n → Inv j env → env i = some (.scalar ty (.int j)) ∧ eval ops ctx env bound = some (.int n))
    (hstep : ∀ j env, j < n → Inv j env → ∃ env', body env = some (.next env') ∧ env' i = some (.scalar ty (.int j)) ∧ Inv (j + 1) (env'.set i (some (.scalar ty (.int ((j + 1 : Nat) : Int))))))
    (fuel : Nat) (j : Nat) (env : Env F) (hj : j ≤ n) (hinv : Inv j env) (hf : n - j < fuel) :
    ∃ env', iterate ops ctx i bound body fuel env = some (.next (env'.set i none)) ∧ Inv n env' := by
  induction fuel generalizing j env with
  | zero => omega
  | succ fuel ih =>
    obtain ⟨h1, h2⟩ := hI j env hj hinv
    have hcond : eval ops ctx env (.bin '<' (.var i) bound) = some (.int (if (j : Int) < n then 1 else 0)) := by
      rw [eval, eval_var ops ctx env i ty _ h1, h2]
      simp [binVal, boolVal]
    rw [iterate, hcond]
    by_cases hlt : j < n
    · have hlt' : (j : Int) < n := by exact_mod_cast hlt
      simp only [hlt', if_true, one_ne_zero, if_false]
      obtain ⟨env', hb, hi', hinv'⟩ := hstep j env hlt hinv
      rw [hb]
      have hone : litVal ops ['1'] false = some (.int 1) := by
        have := litVal_showNat ops 1 (by decide) false
        simpa [show showNat 1 = ['1'] from by decide] using this
      have hinc : eval ops ctx env' (.bin '+' (.var i) (.lit ['1'])) = some (.int ((j + 1 : Nat) : Int)) := by
        have hl : eval ops ctx env' (.lit ['1']) = some (.int 1) := by rw [eval, hone]
        rw [eval, eval_var ops ctx env' i ty _ hi', hl]
        exact binVal_add_int ops j 1 (by omega) (by omega)
      simp only [hinc]
      have hst : store ops env' i none (.int ((j + 1 : Nat) : Int)) = some (env'.set i (some (.scalar ty (.int ((j + 1 : Nat) : Int))))) := by
        unfold store
        rw [hi']
        simp only [conv_int32 ops hty ((j + 1 : Nat) : Int) (by omega) (by omega), Option.map_some]
      rw [hst, Option.bind_some]
      exact ih (j + 1) _ (by omega) hinv' (by omega)
    · have hlt' : ¬ (j : Int) < n := by exact_mod_cast hlt
      have hjn : j = n := by omega
      subst hjn
      simp only [hlt', if_false, if_true]
      exact ⟨env, rfl, hinv⟩

theorem exec_loop (ops : CFloat F) (ctx : Ctx F) (i ty : List Char) (hty : Int32 ty) (bound : Expr) (body k : Code) (n : Nat) (hn : n ≤ 2147483647) (Inv : Nat → Env F → Prop)
    (hI : ∀ j env, j ≤ n → Inv j env → env i = some (.scalar ty (.int j)) ∧ eval ops ctx env bound = some (.int n)) (fuel : Nat) (hf : n < fuel)
    (env : Env F) (hi : env i = none) (h0 : Inv 0 (env.set i (some (.scalar ty (.int ((0 : Nat) : Int))))))
    (hstep : ∀ j env, j < n → Inv j env → ∃ env', exec ops ctx fuel body env = some (.next env') ∧ env' i = some (.scalar ty (.int j)) ∧
      Inv (j + 1) (env'.set i (some (.scalar ty (.int ((j + 1 : Nat) : Int)))))) :
    ∃ env', exec ops ctx fuel (.loop ty i bound body k) env = exec ops ctx fuel k (env'.set i none) ∧ Inv n env' := by
  obtain ⟨env', h1, h2⟩ := iterate_inv ops ctx i ty hty bound (exec ops ctx fuel body) n hn Inv hI hstep fuel 0 _ (by omega) h0 (by omega)
  refine ⟨env', ?_, h2⟩
  rw [exec]
  simp only [hi, Option.isSome_none, Bool.false_eq_true, if_false]
  rw [show (Val.int (0 : Int) : Val F) = .int ((0 : Nat) : Int) from rfl, h1]

/-! ### Functions -/

theorem findFunc_eq (p : Prog) (g : Func) (hg : Top.func g ∈ p) (hu : ∀ g', Top.func g' ∈ p → g'.name = g.name → g' = g) : findFunc p g.name = some g := by
  unfold findFunc
  induction p with
  | nil => cases hg
  | cons t p ih =>
    rw [List.findSome?_cons]
    cases t with
    | decl d =>
      simp only
      exact ih (by simpa using hg) fun g' hg' => hu g' (by simp [hg'])
    | func g' =>
      by_cases hn : g'.name = g.name
      · simp only [hn, if_true]
        rw [hu g' (by simp) hn]
      · simp only [hn, if_false]
        refine ih ?_ fun g' hg' => hu g' (by simp [hg'])
        rcases List.mem_cons.1 hg with h | h
        · cases h; exact absurd rfl hn
        · exact h

theorem findDecl_eq (p : Prog) (d : Decl) (hd : Top.decl d ∈ p) (hu : ∀ d', Top.decl d' ∈ p → d'.name = d.name → d' = d) : findDecl p d.name = some d := by
  unfold findDecl
  induction p with
  | nil => cases hd
  | cons t p ih =>
    rw [List.findSome?_cons]
    cases t with
    | func g =>
      simp only
      exact ih (by simpa using hd) fun d' hd' => hu d' (by simp [hd'])
    | decl d' =>
      by_cases hn : d'.name = d.name
      · simp only [hn, if_true]
        rw [hu d' (by simp) hn]
      · simp only [hn, if_false]
        refine ih ?_ fun d' hd' => hu d' (by simp [hd'])
        rcases List.mem_cons.1 hd with h | h
        · cases h; exact absurd rfl hn
        · exact h

theorem bindParams_nil (ops : CFloat F) (env : Env F) : bindParams ops [] [] env = some env := by rw [bindParams]

theorem bindParams_ptr (ops : CFloat F) (c : Bool) (ty x : List Char) (ps : List Param) (vs : List (Option (Val F))) (as : List (ArgVal F)) (env : Env F) (h : env x = none) :
    bindParams ops (⟨c, ty, true, x⟩ :: ps) (.arr ty vs :: as) env = bindParams ops ps as (env.set x (some (.array ty vs))) := by
  show (if (env x).isSome then none else if ty = ty then bindParams ops ps as (env.set x (some (.array ty vs))) else none) = _
  rw [h, if_neg (by simp), if_pos rfl]

theorem bindParams_num (ops : CFloat F) (c : Bool) (ty x : List Char) (ps : List Param) (v v' : Val F) (as : List (ArgVal F)) (env : Env F) (h : env x = none) (hc : conv ops ty v = some v') :
    bindParams ops (⟨c, ty, false, x⟩ :: ps) (.num v :: as) env = bindParams ops ps as (env.set x (some (.scalar ty v'))) := by
  show (if (env x).isSome then none else (conv ops ty v).bind fun v => bindParams ops ps as (env.set x (some (.scalar ty v)))) = _
  rw [h, hc, if_neg (by simp)]
  rfl

theorem writes_skip (env : Env F) (k : Nat) (p : Param) (ps : List Param) (h : (p.ptr && !p.const) = false) : writes env k (p :: ps) = writes env (k + 1) ps := by
  rw [writes, h]
  simp only [Bool.false_eq_true, if_false]

theorem writes_ptr (env : Env F) (k : Nat) (p : Param) (ps : List Param) (ty : List Char) (vs : List (Option (Val F))) (h : (p.ptr && !p.const) = true) (he : env p.name = some (.array ty vs)) :
    writes env k (p :: ps) = (k, vs) :: writes env (k + 1) ps := by
  rw [writes, h]
  simp only [if_true, he]

theorem callFunc_eq (ops : CFloat F) (ext : List Char → List (ArgVal F) → Option (CallResult F)) (p : Prog) (fuel depth : Nat) (f : List Char) (args : List (ArgVal F)) (g : Func)
    (env env' : Env F) (v v' : Val F) (hg : findFunc p f = some g) (hb : bindParams ops g.params args (fun _ => none) = some env)
    (he : exec ops { globals := globalsOf ops p, call := callFunc ops ext p fuel depth } fuel g.body env = some (.returned v env')) (hc : conv ops g.ty v = some v') :
    callFunc ops ext p fuel (depth + 1) f args = some (v', writes env' 0 g.params) := by
  rw [callFunc, hg]
  simp only [hb, he, hc, Option.map_some]

end Emlearn.MiniC
