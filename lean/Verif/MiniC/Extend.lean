/- Adding functions at the end of a program does not change the calls that already succeed. -/
import Verif.MiniC.Exec
namespace Emlearn.MiniC
variable {F : Type}

/-- The second context has the same variables, and every call that succeeds in the first succeeds in the second with the same result. -/
def CtxLe (c c' : Ctx F) : Prop := c.globals = c'.globals ∧ ∀ f vs r, c.call f vs = some r → c'.call f vs = some r

section
variable (ops : CFloat F) {c c' : Ctx F} (hle : CtxLe c c')
include hle

theorem lookupVar_le (env : Env F) (x : List Char) : lookupVar c env x = lookupVar c' env x := by unfold lookupVar; rw [hle.1]

theorem evalArg_le (env : Env F) : evalArg ops c env = evalArg ops c' env := by
  funext a; unfold evalArg; simp only [lookupVar_le hle]

theorem eval_le (env : Env F) (e : Expr) (v : Val F) (h : eval ops c env e = some v) : eval ops c' env e = some v := by
  induction e generalizing v with
  | lit s => exact h
  | var x => rw [eval] at h ⊢; rw [← lookupVar_le hle]; exact h
  | idx a i ih =>
    rw [eval] at h ⊢
    rw [← lookupVar_le hle]
    cases he : eval ops c env i with
    | none => rw [he] at h; split at h <;> simp_all
    | some w => rw [he] at h; rw [ih w he]; exact h
  | call f args =>
    rw [eval] at h ⊢
    rw [← evalArg_le ops hle]
    cases ha : args.mapM (evalArg ops c env) with
    | none => rw [ha] at h; cases h
    | some vs =>
      rw [ha] at h
      simp only at h ⊢
      cases hc : c.call f vs with
      | none => rw [hc] at h; cases h
      | some r => rw [hc] at h; rw [hle.2 f vs r hc]; exact h
  | neg e ih =>
    cases e with
    | lit s => exact h
    | _ =>
      rw [eval] at h ⊢
      all_goals first
        | (intro s hs; cases hs)
        | (generalize hq : eval ops c env _ = q at h ih
           cases q with
           | none => cases h
           | some w => rw [ih w rfl]; exact h)
  | cast ty ptr e ih =>
    rw [eval] at h ⊢
    split at h
    · cases h
    · rename_i hp
      rw [if_neg hp]
      cases he : eval ops c env e with
      | none => rw [he] at h; cases h
      | some w => rw [he] at h; rw [ih w he]; exact h
  | paren e ih => rw [eval] at h ⊢; exact ih v h
  | bin op l r ihl ihr =>
    rw [eval] at h ⊢
    cases hl : eval ops c env l with
    | none => rw [hl] at h; cases h
    | some a =>
      cases hr : eval ops c env r with
      | none => rw [hl, hr] at h; cases h
      | some b => rw [hl, hr] at h; rw [ihl a hl, ihr b hr]; exact h

theorem evalTop_le (env : Env F) (e : Expr) (v : Val F × Env F) (h : evalTop ops c env e = some v) : evalTop ops c' env e = some v := by
  unfold evalTop at h ⊢
  split at h
  · rename_i f args
    rw [← evalArg_le ops hle]
    cases ha : args.mapM (evalArg ops c env) with
    | none => rw [ha] at h; cases h
    | some vs =>
      rw [ha] at h
      simp only at h ⊢
      cases hc : c.call f vs with
      | none => rw [hc] at h; cases h
      | some r => rw [hc] at h; rw [hle.2 f vs r hc]; exact h
  · rename_i hne
    cases he : eval ops c env e with
    | none => rw [he] at h; cases h
    | some w => rw [he] at h; rw [eval_le ops hle env e w he]; exact h

theorem evalList_le (env : Env F) (es : List Expr) (vs : List (Val F)) (h : es.mapM (eval ops c env) = some vs) : es.mapM (eval ops c' env) = some vs := by
  induction es generalizing vs with
  | nil => exact h
  | cons e es ih =>
    rw [List.mapM_cons] at h ⊢
    cases he : eval ops c env e with
    | none => rw [he] at h; cases h
    | some w =>
      rw [he] at h
      rw [eval_le ops hle env e w he]
      cases hs : es.mapM (eval ops c env) with
      | none => rw [hs] at h; cases h
      | some ws => rw [hs] at h; rw [ih ws hs]; exact h

theorem declare_le (env : Env F) (d : Decl) (env' : Env F) (h : declare ops c env d = some env') : declare ops c' env d = some env' := by
  unfold declare at h ⊢
  split at h
  · cases h
  · rename_i hn
    rw [if_neg hn]
    split at h
    · rename_i e h1 h2
      cases he : evalTop ops c env e with
      | none => rw [he] at h; cases h
      | some w => rw [he] at h; rw [evalTop_le ops hle env e w he]; exact h
    · exact h
    · rename_i n es tr h1 h2
      cases he : es.mapM (eval ops c env) with
      | none => rw [he] at h; split at h <;> simp_all
      | some w => rw [he] at h; rw [evalList_le ops hle env es w he]; exact h
    · cases h

theorem iterate_le (i : List Char) (bound : Expr) (body body' : Env F → Option (Outcome F)) (hb : ∀ env o, body env = some o → body' env = some o) (k : Nat) (env : Env F) (o : Outcome F)
    (h : iterate ops c i bound body k env = some o) : iterate ops c' i bound body' k env = some o := by
  induction k generalizing env with
  | zero => cases h
  | succ k ih =>
    rw [iterate] at h ⊢
    cases hc : eval ops c env (.bin '<' (.var i) bound) with
    | none => rw [hc] at h; cases h
    | some w =>
      rw [hc] at h
      rw [eval_le ops hle _ _ _ hc]
      cases w with
      | flt x => cases h
      | int z =>
        simp only at h ⊢
        split at h
        · rename_i h0; rw [if_pos h0]; exact h
        · rename_i h0
          rw [if_neg h0]
          cases hbd : body env with
          | none => rw [hbd] at h; cases h
          | some ob =>
            rw [hbd] at h
            rw [hb env ob hbd]
            cases ob with
            | returned v e => exact h
            | next e =>
              simp only at h ⊢
              cases hv : eval ops c e (.bin '+' (.var i) (.lit ['1'])) with
              | none => rw [hv] at h; cases h
              | some v =>
                rw [hv] at h
                rw [eval_le ops hle _ _ _ hv]
                simp only at h ⊢
                cases hs : store ops e i none v with
                | none => rw [hs] at h; cases h
                | some e' => rw [hs] at h; exact ih e' h

theorem exec_le (fuel : Nat) (code : Code) (env : Env F) (o : Outcome F) (h : exec ops c fuel code env = some o) : exec ops c' fuel code env = some o := by
  induction code generalizing env o with
  | done => exact h
  | decl d k ih =>
    rw [exec] at h ⊢
    cases hd : declare ops c env d with
    | none => rw [hd] at h; cases h
    | some e => rw [hd] at h; rw [declare_le ops hle env d e hd]; exact ih e o h
  | assign x i add e k ih =>
    unfold exec at h ⊢
    cases he : evalTop ops c env e with
    | none => rw [he] at h; cases h
    | some w =>
      rw [he] at h
      rw [evalTop_le ops hle env e w he]
      obtain ⟨v, env1⟩ := w
      simp only at h ⊢
      have hst : ∀ (j : Option Int) (v' : Val F), (store ops env1 x j v').bind (exec ops c fuel k) = some o → (store ops env1 x j v').bind (exec ops c' fuel k) = some o := by
        intro j v' h
        cases hs : store ops env1 x j v' with
        | none => rw [hs] at h; cases h
        | some e' => rw [hs] at h; exact ih e' o h
      have hadd : ∀ (lhs : Expr) (v' : Val F), ((eval ops c env1 lhs).bind fun old => binVal ops '+' old v) = some v' → ((eval ops c' env1 lhs).bind fun old => binVal ops '+' old v) = some v' := by
        intro lhs v' hv'
        cases hl : eval ops c env1 lhs with
        | none => rw [hl] at hv'; cases hv'
        | some w => rw [hl] at hv'; rw [eval_le ops hle _ _ _ hl]; exact hv'
      cases i with
      | none =>
        cases add with
        | false => simp only [Bool.false_eq_true, if_false] at h ⊢; exact hst _ _ h
        | true =>
          simp only [if_true] at h ⊢
          cases hv : (eval ops c env1 (.var x)).bind fun old => binVal ops '+' old v with
          | none => rw [hv] at h; simp at h
          | some v' => rw [hv] at h; rw [hadd _ v' hv]; exact hst _ _ h
      | some i =>
        cases hi : eval ops c env1 i with
        | none => simp only [hi] at h; split at h <;> simp_all
        | some w =>
          have hi' := eval_le ops hle _ _ _ hi
          cases w with
          | flt y => simp only [hi] at h; split at h <;> simp_all
          | int z =>
            cases add with
            | false => simp only [Bool.false_eq_true, if_false, hi, hi'] at h ⊢; exact hst _ _ h
            | true =>
              simp only [if_true, hi, hi'] at h ⊢
              cases hv : (eval ops c env1 (.idx x i)).bind fun old => binVal ops '+' old v with
              | none => rw [hv] at h; simp at h
              | some v' => rw [hv] at h; rw [hadd _ v' hv]; exact hst _ _ h
  | ret e k ih =>
    rw [exec] at h ⊢
    cases he : evalTop ops c env e with
    | none => rw [he] at h; cases h
    | some w => rw [he] at h; rw [evalTop_le ops hle env e w he]; exact h
  | ifThen cnd t k iht ihk =>
    rw [exec] at h ⊢
    cases he : eval ops c env cnd with
    | none => rw [he] at h; cases h
    | some w =>
      rw [he] at h
      rw [eval_le ops hle _ _ _ he]
      cases w with
      | flt x => cases h
      | int z =>
        simp only at h ⊢
        split at h
        · rename_i h0; rw [if_pos h0]; exact ihk env o h
        · rename_i h0
          rw [if_neg h0]
          cases ht : exec ops c fuel t env with
          | none => rw [ht] at h; cases h
          | some ob =>
            rw [ht] at h
            rw [iht env ob ht]
            cases ob with
            | next e => exact ihk e o h
            | returned v e => exact h
  | ifElse cnd t e k iht ihe ihk =>
    rw [exec] at h ⊢
    cases he : eval ops c env cnd with
    | none => rw [he] at h; cases h
    | some w =>
      rw [he] at h
      rw [eval_le ops hle _ _ _ he]
      cases w with
      | flt x => cases h
      | int z =>
        simp only at h ⊢
        have hb : ∀ ob, (if z = 0 then exec ops c fuel e env else exec ops c fuel t env) = some ob → (if z = 0 then exec ops c' fuel e env else exec ops c' fuel t env) = some ob := by
          intro ob hob
          split at hob
          · rename_i h0; rw [if_pos h0]; exact ihe env ob hob
          · rename_i h0; rw [if_neg h0]; exact iht env ob hob
        cases ht : (if z = 0 then exec ops c fuel e env else exec ops c fuel t env) with
        | none => rw [ht] at h; cases h
        | some ob =>
          rw [ht] at h
          rw [hb ob ht]
          cases ob with
          | next e => exact ihk e o h
          | returned v e => exact h
  | loop ty i b body k ihb ihk =>
    rw [exec] at h ⊢
    split at h
    · cases h
    · rename_i hi
      rw [if_neg hi]
      cases ht : iterate ops c i b (exec ops c fuel body) fuel (env.set i (some (.scalar ty (.int 0)))) with
      | none => rw [ht] at h; cases h
      | some ob =>
        rw [ht] at h
        rw [iterate_le ops hle i b _ _ (fun env o h => ihb env o h) fuel _ ob ht]
        cases ob with
        | next e => exact ihk e o h
        | returned v e => exact h
end

theorem findDecl_funcs (p : Prog) (q : List Func) (x : List Char) : findDecl (p ++ q.map .func) x = findDecl p x := by
  unfold findDecl
  rw [List.findSome?_append, (List.findSome?_eq_none_iff (l := q.map Top.func)).2, Option.or_none]
  intro t ht
  obtain ⟨g, -, rfl⟩ := List.mem_map.1 ht
  rfl

theorem globalsOf_funcs (ops : CFloat F) (p : Prog) (q : List Func) : globalsOf ops (p ++ q.map .func) = globalsOf ops p := by
  funext x
  unfold globalsOf
  rw [findDecl_funcs]

theorem findFunc_append_some {p : Prog} (q : Prog) {f : List Char} {g : Func} (h : findFunc p f = some g) : findFunc (p ++ q) f = some g := by
  unfold findFunc at h ⊢
  rw [List.findSome?_append, h]
  rfl

theorem findFunc_append_none {p q : Prog} {f : List Char} (h : findFunc p f = none) : findFunc (p ++ q) f = findFunc q f := by
  unfold findFunc at h ⊢
  rw [List.findSome?_append, h]
  rfl

theorem findFunc_none {q : List Func} {f : List Char} (h : ∀ g ∈ q, g.name ≠ f) : findFunc (q.map .func) f = none := by
  unfold findFunc
  rw [List.findSome?_eq_none_iff]
  intro t ht
  obtain ⟨g, hg, rfl⟩ := List.mem_map.1 ht
  simp [h g hg]

/-- **Functions added to a program.** Calls that succeed go on to succeed, with the same result, as long as no library function has the name of an added one. -/
theorem callFunc_funcs (ops : CFloat F) (ext : List Char → List (ArgVal F) → Option (CallResult F)) (p : Prog) (q : List Func) (hq : ∀ g ∈ q, ∀ args, ext g.name args = none) (fuel depth : Nat)
    (f : List Char) (args : List (ArgVal F)) (r : CallResult F) (h : callFunc ops ext p fuel depth f args = some r) : callFunc ops ext (p ++ q.map .func) fuel depth f args = some r := by
  induction depth generalizing f args r with
  | zero => cases h
  | succ d ih =>
    rw [callFunc] at h ⊢
    cases hf : findFunc p f with
    | none =>
      rw [hf] at h
      rw [findFunc_append_none hf, findFunc_none]
      · exact h
      · rintro g hg rfl
        rw [show ext g.name args = none from hq g hg args] at h
        cases h
    | some g =>
      rw [hf] at h
      rw [findFunc_append_some _ hf]
      simp only at h ⊢
      cases hb : bindParams ops g.params args (fun _ => none) with
      | none => rw [hb] at h; cases h
      | some env =>
        rw [hb] at h
        simp only at h ⊢
        have hle : CtxLe (F := F) { globals := globalsOf ops p, call := callFunc ops ext p fuel d } { globals := globalsOf ops (p ++ q.map .func), call := callFunc ops ext (p ++ q.map .func) fuel d } :=
          ⟨(globalsOf_funcs ops p q).symm, fun f vs r h => ih f vs r h⟩
        cases he : exec ops { globals := globalsOf ops p, call := callFunc ops ext p fuel d } fuel g.body env with
        | none => rw [he] at h; cases h
        | some o => rw [he] at h; rw [exec_le ops hle fuel g.body env o he]; exact h

end Emlearn.MiniC
