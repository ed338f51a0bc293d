/- Structures and calls: the parts of reading and running generated programs that are common to all generators.
`fieldInt`, `intsOf`, `before` are part of the specification (initialisers, memory contents, order of declarations). -/
import Verif.MiniC.Exec
namespace Emlearn.MiniC
variable {F : Type}

/-- A constant expression converted to the type of the field that it initialises. -/
def fieldInt (ops : CFloat F) (ty : List Char) (e : Expr) : Option Int :=
  match (eval ops { globals := fun _ => none, call := fun _ _ => none } (fun _ => none) e).bind (conv ops ty) with
  | some (.int z) => some z
  | _ => none

/-- The values of integers in memory. -/
def intsOf (vs : List (Option (Val F))) : Option (List Int) :=
  vs.mapM fun v => match v with | some (.int z) => some z | _ => none

/-- The declarations before that of `g`. -/
def before (prog : Prog) (g : List Char) : Prog := prog.takeWhile fun t => match t with | .decl d => d.name != g | .func f => f.name != g

theorem eval_intSgn (ops : CFloat F) (ctx : Ctx F) (env : Env F) (z : Int) (h : z.natAbs ≤ 2147483647) : eval ops ctx env (sgnExpr (intSgn z)) = some (.int z) := by
  unfold sgnExpr intSgn
  by_cases hz : z < 0
  · rw [if_pos (by simpa using hz), eval, litVal_showNat ops _ h]
    simp only [if_true]
    congr 2; omega
  · rw [if_neg (by simpa using hz), eval, litVal_showNat ops _ h]
    simp only [Bool.false_eq_true, if_false]
    congr 2; omega

theorem ranges : intRange "int8_t".toList = some (-128, 127) ∧ "int8_t".toList ≠ "float".toList ∧ intRange "int16_t".toList = some (-32768, 32767) ∧ "int16_t".toList ≠ "float".toList := by decide +kernel

theorem conv_int8 (ops : CFloat F) (z : Int) : conv ops "int8_t".toList (.int z) = some (.int (wrap8 z)) := by
  unfold conv
  rw [if_neg ranges.2.1, ranges.1]
  have e : wrapRange (-128, 127) z = wrap8 z := by
    show (z - -128) % (127 - -128 + 1) + -128 = (z + 128) % 256 - 128
    norm_num
    omega
  simp only [e]

theorem conv_int16 (ops : CFloat F) (z : Int) : conv ops "int16_t".toList (.int z) = some (.int (wrap16 z)) := by
  unfold conv
  rw [if_neg ranges.2.2.2, ranges.2.2.1]
  have e : wrapRange (-32768, 32767) z = wrap16 z := by
    show (z - -32768) % (32767 - -32768 + 1) + -32768 = (z + 32768) % 65536 - 32768
    norm_num
    omega
  simp only [e]

theorem fieldInt_eq (ops : CFloat F) {ty : List Char} {e : Expr} {z w : Int} (he : eval ops { globals := fun _ => none, call := fun _ _ => none } (fun _ => none) e = some (.int z))
    (hc : conv ops ty (.int z) = some (.int w)) : fieldInt ops ty e = some w := by
  unfold fieldInt
  rw [he, Option.bind_some, hc]

theorem fieldInt_nat (ops : CFloat F) (n : Nat) (h : n ≤ 2147483647) : fieldInt ops "int32_t".toList (.lit (showNat n)) = some (n : Int) :=
  fieldInt_eq ops (by rw [eval, litVal_showNat ops _ h]; rfl) (conv_int32 ops (.inr rfl) _ (by omega) (by omega))

theorem append_ne_self (name s : List Char) (h : s ≠ []) : name ++ s ≠ name := by
  intro e
  have := congrArg List.length e
  rw [List.length_append] at this
  exact h (List.length_eq_zero_iff.1 (by omega))

theorem intsOf_ints (xs : List Int) : intsOf (xs.map fun z => (some (.int z) : Option (Val F))) = some xs := by
  unfold intsOf
  induction xs with
  | nil => rfl
  | cons x l ih => rw [List.map_cons, List.mapM_cons, ih]; rfl

section
variable (ops : CFloat F)

/-- `const ty out = call(...)` followed by `return out`, when the call has no result. -/
theorem callFunc_none (ext : List Char → List (ArgVal F) → Option (CallResult F)) (p : Prog) (fuel depth : Nat) (f : List Char) (args : List (ArgVal F)) (g : Func)
    (env : Env F) (hg : findFunc p f = some g) (hb : bindParams ops g.params args (fun _ => none) = some env)
    (he : exec ops { globals := globalsOf ops p, call := callFunc ops ext p fuel depth } fuel g.body env = none) : callFunc ops ext p fuel (depth + 1) f args = none := by
  rw [callFunc, hg]
  simp only [hb, he]

theorem exec_decl_none (ctx : Ctx F) (fuel : Nat) (env : Env F) (mods : List (List Char)) (ty x : List Char) (e : Expr) (k : Code) (he : evalTop ops ctx env e = none) :
    exec ops ctx fuel (.decl ⟨mods, ty, x, none, some (.one e)⟩ k) env = none := by
  rw [exec, declare]
  simp only [he]
  split <;> rfl

theorem evalTop_call_none (ctx : Ctx F) (env : Env F) (f : List Char) (args : List Arg) (vs : List (ArgVal F)) (ha : args.mapM (evalArg ops ctx env) = some vs)
    (hc : ctx.call f vs = none) : evalTop ops ctx env (.call f args) = none := by
  rw [evalTop, ha]
  simp only [hc]

theorem evalArg_local {ctx : Ctx F} {env : Env F} {x ty : List Char} {vs : List (Option (Val F))} (hx : isNum x = false) (h : env x = some (.array ty vs)) :
    evalArg ops ctx env ⟨none, x⟩ = some (.arr ty vs) := by
  unfold evalArg
  simp only
  rw [hx, lookup_local ctx env x _ h]
  rfl

theorem evalArg_num {ctx : Ctx F} {env : Env F} {x ty : List Char} {v : Val F} (hx : isNum x = false) (h : env x = some (.scalar ty v)) :
    evalArg ops ctx env ⟨none, x⟩ = some (.num v) := by
  unfold evalArg
  simp only
  rw [hx, lookup_local ctx env x _ h]
  rfl

theorem evalArg_ref {ctx : Ctx F} {env : Env F} {x : List Char} (h : env x = none) : evalArg ops ctx env ⟨some '&', x⟩ = some (.ref x) := by
  unfold evalArg
  simp only [if_true, h]

end
end Emlearn.MiniC
