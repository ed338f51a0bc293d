/- C126: the generated `<name>_predict_proba` called with an output buffer of any length (`trees.py` 466-522, 649-658). -/
import Verif.Props.TreesText
import Verif.Props.TreesLoadText
import Verif.MiniC.Call
namespace Emlearn.Trees
open Emlearn.Cgen Emlearn.MiniC
variable {F : Type}

/-! ### Steps that fail -/

/-- `x[i] += e` outside of the array. -/
theorem exec_idx_add_bad (ops : CFloat F) (ctx : Ctx F) (fuel : Nat) (env : Env F) (ty x : List Char) (vs : List (Option (Val F))) (i e : Expr) (n : Nat) (v : Val F) (k : Code)
    (hx : env x = some (.array ty vs)) (hi : eval ops ctx env i = some (.int n)) (hn : vs.length ≤ n) (he : evalTop ops ctx env e = some (v, env)) :
    exec ops ctx fuel (.assign x (some i) true e k) env = none := by
  have hidx : eval ops ctx env (.idx x i) = none := by
    rw [eval, lookup_local ctx env x _ hx, hi]
    simp [List.getElem?_eq_none hn]
  rw [exec, he]
  simp [hidx]

theorem iterate_bad (ops : CFloat F) (ctx : Ctx F) (i ty : List Char) (hty : Int32 ty) (bound : Expr) (body : Env F → Option (Outcome F)) (n m : Nat) (hn : n ≤ 2147483647) (hm : m < n) (Inv : Nat → Env F → Prop)
    (hI : ∀ j env, j ≤ m → Inv j env → env i = some (.scalar ty (.int j)) ∧ eval ops ctx env bound = some (.int n))
    (hstep : ∀ j env, j < m → Inv j env → ∃ env', body env = some (.next env') ∧ env' i = some (.scalar ty (.int j)) ∧ Inv (j + 1) (env'.set i (some (.scalar ty (.int ((j + 1 : Nat) : Int))))))
    (hbad : ∀ env, Inv m env → body env = none) (fuel : Nat) (j : Nat) (env : Env F) (hj : j ≤ m) (hinv : Inv j env) : iterate ops ctx i bound body fuel env = none := by
  induction fuel generalizing j env with
  | zero => rfl
  | succ fuel ih =>
    obtain ⟨h1, h2⟩ := hI j env hj hinv
    have hcond : eval ops ctx env (.bin '<' (.var i) bound) = some (.int 1) := by
      rw [eval, eval_var ops ctx env i ty _ h1, h2]
      have : (j : Int) < n := by omega
      simp [binVal, boolVal, this]
    rw [iterate, hcond]
    simp only [one_ne_zero, if_false]
    by_cases hlt : j < m
    · obtain ⟨env', hb, hi', hinv'⟩ := hstep j env hlt hinv
      rw [hb]
      have hone : litVal ops ['1'] false = some (.int 1) := by
        have := litVal_showNat ops 1 (by decide) false
        simpa [show showNat 1 = ['1'] from by decide] using this
      have hinc : eval ops ctx env' (.bin '+' (.var i) (.lit ['1'])) = some (.int ((j + 1 : Nat) : Int)) := by
        have hl : eval ops ctx env' (.lit ['1']) = some (.int 1) := by rw [eval, hone]
        rw [eval, eval_var ops ctx env' i ty _ hi', hl]
        exact binVal_add_int ops j 1 (by omega) (by omega)
      simp only [hinc]
      have hst : store ops env' i none (.int ((j + 1 : Nat) : Int)) = some (env'.set i (some (.scalar ty (.int ((j + 1 : Nat) : Int))))) := by
        unfold store
        rw [hi']
        simp only [conv_int32 ops hty ((j + 1 : Nat) : Int) (by omega) (by omega), Option.map_some]
      rw [hst, Option.bind_some]
      exact ih (j + 1) _ (by omega) hinv'
    · obtain rfl : j = m := by omega
      rw [hbad env hinv]

/-! ### Hard voting -/

theorem exec_voteProba_bad (ops : CFloat F) (hk : Consts ops) (ctx : Ctx F) (fuel : Nat) (dtype lty tree : List Char) (feats : List (Option (Val F))) (len old : Val F) (c : Nat) (k : Code) (env : Env F)
    (out : List F) (hcall : ctx.call tree [.arr dtype feats, .num len] = some (.int c, [])) (hf : env nmFeatures = some (.array dtype feats)) (hl : env nmLength = some (.scalar lty len))
    (hv : env "out".toList = some (.array "float".toList (flts out))) (hc : env "_class".toList = some (.scalar "int32_t".toList old)) (hcb : c ≤ 2147483647)
    (hs : out.length ≤ c) : exec ops ctx fuel (voteProbaCode tree k) env = none := by
  obtain ⟨n1, n2, n3, n4, n5⟩ := vp
  have i32 : Int32 "int32_t".toList := .inr rfl
  unfold voteProbaCode
  have hv' : (env.set "_class".toList (some (.scalar "int32_t".toList (.int c)))) "out".toList = some (.array "float".toList (flts out)) := by
    rw [Env.set_ne _ _ n1, hv]
  rw [exec_assign ops ctx fuel env "int32_t".toList "_class".toList (callTree tree) old (.int c) (.int c) _ hc
    (evalTop_call ops ctx env tree _ _ _ (evalArgs_tree ops ctx env dtype lty feats len hf hl) hcall) (conv_int32 ops i32 c (by omega) (by omega)),
    exec_idx_add_bad ops ctx fuel _ "float".toList "out".toList (flts out) (.var "_class".toList) (.lit "1.0f".toList) c (.flt ops.one) k hv'
      (eval_var ops ctx _ _ _ _ (Env.set_same _ _ _)) (by simpa [flts] using hs) (evalTop_eq ops ctx _ _ _ (by simp) (by rw [litOne, hk.one]))]

theorem exec_votesProba_bad (ops : CFloat F) (hk : Consts ops) (ctx : Ctx F) (fuel : Nat) (dtype lty : List Char) (feats : List (Option (Val F))) (len : Val F) (k : Code) (ps : List (List Char × Nat))
    (hcall : ∀ p ∈ ps, ctx.call p.1 [.arr dtype feats, .num len] = some (.int p.2, [])) (hcb : ∀ p ∈ ps, p.2 ≤ 2147483647) (env : Env F) (old : Val F) (out : List F)
    (hf : env nmFeatures = some (.array dtype feats)) (hl : env nmLength = some (.scalar lty len))
    (hv : env "out".toList = some (.array "float".toList (flts out))) (hc : env "_class".toList = some (.scalar "int32_t".toList old))
    (hlen : out.length ≤ 2147483647) (hs : ∃ p ∈ ps, out.length ≤ p.2) : exec ops ctx fuel (votesCode voteProbaCode (ps.map Prod.fst) k) env = none := by
  obtain ⟨n1, n2, n3, n4, n5⟩ := vp
  induction ps generalizing env out old with
  | nil => simp at hs
  | cons p ps ih =>
    rw [List.map_cons]
    show exec ops ctx fuel (voteProbaCode p.1 (votesCode voteProbaCode (ps.map Prod.fst) k)) env = none
    by_cases hp : out.length ≤ p.2
    · exact exec_voteProba_bad ops hk ctx fuel dtype lty p.1 feats len old p.2 _ env out (hcall p (by simp)) hf hl hv hc (hcb p (by simp)) hp
    · have hva : addAt ops.toFOps out p.2 ops.one = some (out.set p.2 (ops.add (out[p.2]'(by omega)) ops.one)) := by
        simp [addAt, List.getElem?_eq_getElem (show p.2 < out.length by omega)]
      obtain ⟨env1, e1, e2, e5, e3, e4⟩ := exec_voteProba ops hk ctx fuel dtype lty p.1 feats len old p.2 (votesCode voteProbaCode (ps.map Prod.fst) k) env out _ (hcall p (by simp)) hf hl hv hc hlen hva
      rw [e1]
      refine ih (fun q hq => hcall q (by simp [hq])) (fun q hq => hcb q (by simp [hq])) env1 (.int p.2) _ (by rw [e4 _ n2 n3, hf]) (by rw [e4 _ n4 n5, hl]) e2 e3 (by rw [e5]; exact hlen) ?_
      obtain ⟨q, hq, hq'⟩ := hs
      rcases List.mem_cons.1 hq with rfl | hq
      · exact absurd hq' hp
      · exact ⟨q, hq, by rw [List.length_set]; exact hq'⟩

/-! ### Soft voting -/

theorem exec_softLoop_bad (ops : CFloat F) (hk : Consts ops) (ctx : Ctx F) (fuel n offset : Nat) (ln : List Char) (leaves : List Nat) (k : Code) (env : Env F) (out : List F) (hn : n ≤ 2147483647)
    (hln : env ln = none) (hg : ctx.globals ln = some (.array "uint8_t".toList (leaves.map fun (b : Nat) => some (.int b)))) (hlen : leaves.length ≤ 2147483647) (hi : env "i".toList = none)
    (ho : env "out".toList = some (.array "float".toList (flts out))) (hoff : env "offset".toList = some (.scalar "int".toList (.int offset)))
    (hne : ln ≠ "i".toList) (hne' : ln ≠ "out".toList) (hrow : offset + n ≤ leaves.length) (hs : out.length < n) :
    exec ops ctx fuel (.loop "int".toList "i".toList (.lit (showNat n)) (softBody ln) k) env = none := by
  obtain ⟨n1, n2, n3, -, -, -, -, -, -⟩ := vs
  have i32 : Int32 "int".toList := .inl rfl
  have hval : ∀ (j : Nat) (e : Env F), j < n → e "i".toList = some (.scalar "int".toList (.int j)) → (∀ x, x ≠ "out".toList → x ≠ "i".toList → e x = env x) →
      ∃ b, leaves[offset + j]? = some b ∧ eval ops ctx e (.paren (.bin '/' (.idx ln (.bin '+' (.var "offset".toList) (.var "i".toList))) (.lit "255.0f".toList))) =
        some (.flt (ops.div (ops.ofInt b) (ops.ofInt 255))) := by
    intro j e hj h1 h5
    refine ⟨leaves[offset + j]'(by omega), List.getElem?_eq_getElem (by omega), ?_⟩
    have hbin : eval ops ctx e (.bin '+' (.var "offset".toList) (.var "i".toList)) = some (.int ((offset + j : Nat) : Int)) := by
      rw [eval, eval_var ops ctx e _ _ _ ((h5 _ (Ne.symm n1) n3).trans hoff), eval_var ops ctx e _ _ _ h1]
      exact binVal_add_int ops offset j (by omega) (by omega)
    have hlk : lookupVar ctx e ln = some (.array "uint8_t".toList (leaves.map fun (b : Nat) => some (.int b))) := by
      unfold lookupVar
      rw [h5 _ hne' hne, hln]
      exact hg
    rw [eval, eval, eval_idx ops ctx e ln _ _ _ (offset + j) (.int (leaves[offset + j]'(by omega))) hlk hbin (by simp [List.getElem?_eq_getElem (show offset + j < leaves.length by omega)]), lit255, hk.c255]
    exact binVal_div_flt ops (.int _) _
  have key := iterate_bad ops ctx "i".toList "int".toList i32 (.lit (showNat n)) (exec ops ctx fuel (softBody ln)) n out.length hn hs
    (fun j e => e "i".toList = some (.scalar "int".toList (.int j)) ∧ (∃ cur, e "out".toList = some (.array "float".toList (flts cur)) ∧ cur.length = out.length) ∧ ∀ x, x ≠ "out".toList → x ≠ "i".toList → e x = env x)
    (fun j e _ h => ⟨h.1, by rw [eval, litVal_showNat ops n hn]; rfl⟩)
    (by
      intro j e hj ⟨h1, ⟨cur, h2, h3⟩, h5⟩
      obtain ⟨b, -, hb⟩ := hval j e (by omega) h1 h5
      refine ⟨_, exec_assign_idx_add ops ctx fuel e "float".toList "out".toList (flts cur) (.var "i".toList) _ j (.flt (cur[j]'(by omega))) _ (.flt (ops.add (cur[j]'(by omega)) (ops.div (ops.ofInt b) (ops.ofInt 255)))) _ .done h2
        (eval_var ops ctx e _ _ _ h1) (by simp [flts, List.getElem?_eq_getElem (show j < cur.length by omega)]) (evalTop_eq ops ctx _ _ _ (by simp) hb) (binVal_add_flt ops _ _) (conv_float ops _), ?_, ?_,
        ⟨cur.set j (ops.add (cur[j]'(by omega)) (ops.div (ops.ofInt b) (ops.ofInt 255))), ?_, ?_⟩, ?_⟩
      · rw [Env.set_ne _ _ (Ne.symm n2), h1]
      · rw [Env.set_same]
      · rw [Env.set_ne _ _ n2, Env.set_same]
        simp [flts, List.map_set]
      · rw [List.length_set, h3]
      · intro x h6 h7
        rw [Env.set_ne _ _ h7, Env.set_ne _ _ h6, h5 x h6 h7])
    (by
      intro e ⟨h1, ⟨cur, h2, h3⟩, h5⟩
      obtain ⟨b, -, hb⟩ := hval out.length e hs h1 h5
      exact exec_idx_add_bad ops ctx fuel e "float".toList "out".toList (flts cur) (.var "i".toList) _ out.length _ .done h2 (eval_var ops ctx e _ _ _ h1) (by simp [flts, h3]) (evalTop_eq ops ctx _ _ _ (by simp) hb))
    fuel 0 (env.set "i".toList (some (.scalar "int".toList (.int ((0 : Nat) : Int))))) (Nat.zero_le _)
    ⟨Env.set_same _ _ _, ⟨out, by rw [Env.set_ne _ _ n2, ho], rfl⟩, fun x _ h => by rw [Env.set_ne _ _ h]⟩
  rw [exec]
  simp only [hi, Option.isSome_none, Bool.false_eq_true, if_false]
  rw [show (Val.int (0 : Int) : Val F) = .int ((0 : Nat) : Int) from rfl, key]

theorem exec_votesSoft_bad (ops : CFloat F) (hk : Consts ops) (ctx : Ctx F) (fuel n : Nat) (dtype lty ln : List Char) (feats : List (Option (Val F))) (len : Val F) (leaves : List Nat) (k : Code)
    (p : List Char × Nat) (ps : List (List Char × Nat)) (hcall : ctx.call p.1 [.arr dtype feats, .num len] = some (.int p.2, [])) (hn : n ≤ 2147483647)
    (hg : ctx.globals ln = some (.array "uint8_t".toList (leaves.map fun (b : Nat) => some (.int b)))) (hlen : leaves.length ≤ 2147483647)
    (hne : ln ≠ "i".toList) (hne' : ln ≠ "out".toList) (hne'' : ln ≠ "offset".toList) (env : Env F) (old : Val F) (out : List F)
    (hf : env nmFeatures = some (.array dtype feats)) (hl : env nmLength = some (.scalar lty len)) (hi : env "i".toList = none) (hln : env ln = none)
    (ho : env "out".toList = some (.array "float".toList (flts out))) (hoff : env "offset".toList = some (.scalar "int".toList old))
    (hrow : n * p.2 + n ≤ leaves.length) (hs : out.length < n) : exec ops ctx fuel (votesCode (voteSoftCode n ln) ((p :: ps).map Prod.fst) k) env = none := by
  obtain ⟨n1, n2, n3, n4, n5, n6, n7, n8, n9⟩ := vs
  have i32 : Int32 "int".toList := .inl rfl
  have hmul : eval ops ctx env (.bin '*' (.lit (showNat n)) (callTree p.1)) = some (.int ((n * p.2 : Nat) : Int)) := by
    rw [eval, eval, litVal_showNat ops n hn, eval_call ops ctx env p.1 _ _ _ (evalArgs_tree ops ctx env dtype lty feats len hf hl) hcall]
    have e : ((n * p.2 : Nat) : Int) = (n : Int) * p.2 := by push_cast; rfl
    rw [e]
    exact binVal_mul_int ops n p.2 (by rw [← e]; omega) (by rw [← e]; omega)
  rw [List.map_cons]
  show exec ops ctx fuel (.assign "offset".toList none false (.bin '*' (.lit (showNat n)) (callTree p.1))
    (.loop "int".toList "i".toList (.lit (showNat n)) (softBody ln) (votesCode (voteSoftCode n ln) (ps.map Prod.fst) k))) env = _
  rw [exec_assign ops ctx fuel env "int".toList "offset".toList (.bin '*' (.lit (showNat n)) (callTree p.1)) old (.int ((n * p.2 : Nat) : Int)) _ _ hoff
    (evalTop_eq ops ctx _ _ _ (by simp) hmul) (conv_int32 ops i32 _ (by omega) (by omega))]
  exact exec_softLoop_bad ops hk ctx fuel n (n * p.2) ln leaves _ _ out hn (by rw [Env.set_ne _ _ hne'', hln]) hg hlen (by rw [Env.set_ne _ _ (Ne.symm n3), hi]) (by rw [Env.set_ne _ _ n1, ho])
    (Env.set_same _ _ _) hne hne' hrow hs

section
variable (ops : CFloat F) (hk : Consts ops) (ext : List Char → List (ArgVal F) → Option (CallResult F)) (prog : Prog) (fuel depth : Nat)

include hk in
theorem call_probaHard_bad (name dtype : List Char) (feats outs : List (Option (Val F))) (len : Int) (ps : List (List Char × Nat)) 
    (hfind : findFunc prog (name ++ "_predict_proba".toList) = some (probaHardFunc name dtype (ps.map Prod.fst)))
    (hcalls : TreeCalls ops ext prog fuel depth (fun c => .int (c : Nat)) dtype feats len ps) (h1 : -2147483648 ≤ len) (h2 : len ≤ 2147483647)
    (hn : outs.length ≤ 2147483647) (hfu : outs.length < fuel) (hcb : ∀ p ∈ ps, p.2 ≤ 2147483647) (hs : ∃ p ∈ ps, outs.length ≤ p.2) :
    callFunc ops ext prog fuel (depth + 1) (name ++ "_predict_proba".toList) [.arr dtype feats, .num (.int len), .arr "float".toList outs, .num (.int outs.length)] = none := by
  have i32 : Int32 "int32_t".toList := .inr rfl
  obtain ⟨m1, m2, m3, m4, m5, m6⟩ := nfl
  obtain ⟨n1, n2, n3, n4, n5⟩ := vp
  have d : "_class".toList ≠ nmFeatures ∧ "_class".toList ≠ nmLength ∧ "_class".toList ≠ "out_length".toList ∧ "i".toList ≠ nmFeatures ∧ "i".toList ≠ nmLength ∧ "i".toList ≠ "out".toList ∧ "i".toList ≠ "out_length".toList ∧ "i".toList ≠ "_class".toList := by decide +kernel
  obtain ⟨d1, d2, d3, d4, d5, d6, d7, d8⟩ := d
  have e1none : ∀ x, x ≠ nmFeatures → x ≠ nmLength → x ≠ "out".toList → x ≠ "out_length".toList → env1 dtype feats len outs outs.length x = none := fun x a b c d => by
    unfold env1; rw [Env.set_ne _ _ d, Env.set_ne _ _ c, env0_none dtype feats len a b]
  set ctx : Ctx F := { globals := globalsOf ops prog, call := callFunc ops ext prog fuel depth } with hctx
  have e1 := exec_decl ops ctx fuel (env1 dtype feats len outs outs.length) [] "int32_t".toList "_class".toList (.neg (.lit "1".toList)) (.int (-1)) (.int (-1))
    (zeroLoop (votesCode voteProbaCode (ps.map Prod.fst) (meanLoop (ps.map Prod.fst).length))) (e1none _ d1 d2 (Ne.symm n1) d3)
    (evalTop_eq ops ctx _ _ _ (by simp) (by rw [eval, litNeg1])) (conv_int32 ops i32 _ (by omega) (by omega))
  set ea := (env1 dtype feats len outs outs.length).set "_class".toList (some (.scalar "int32_t".toList (.int (-1)))) with hea
  have a1 : ea "out".toList = some (.array "float".toList outs) := by rw [hea, Env.set_ne _ _ n1, env1, Env.set_ne _ _ (Ne.symm m6), Env.set_same]
  have a2 : ea "out_length".toList = some (.scalar "int".toList (.int outs.length)) := by rw [hea, Env.set_ne _ _ (Ne.symm d3), env1, Env.set_same]
  have a3 : ea "i".toList = none := by rw [hea, Env.set_ne _ _ d8, e1none _ d4 d5 d6 d7]
  have a4 : ea nmFeatures = some (.array dtype feats) := by rw [hea, Env.set_ne _ _ n3, env1, Env.set_ne _ _ (Ne.symm m4), Env.set_ne _ _ n2, env0_features]
  have a5 : ea nmLength = some (.scalar "int32_t".toList (.int len)) := by rw [hea, Env.set_ne _ _ n5, env1, Env.set_ne _ _ (Ne.symm m5), Env.set_ne _ _ n4, env0_length]
  have a6 : ea "_class".toList = some (.scalar "int32_t".toList (.int (-1))) := by rw [hea, Env.set_same]
  clear_value ea
  obtain ⟨eb, b1, b2, b3⟩ := exec_zeroLoop ops hk ctx fuel (votesCode voteProbaCode (ps.map Prod.fst) (meanLoop (ps.map Prod.fst).length)) outs ea outs.length hn hfu rfl a1 a2 a3
  have hbad := exec_votesProba_bad ops hk ctx fuel dtype "int32_t".toList feats (.int len) (meanLoop (ps.map Prod.fst).length) ps hcalls hcb eb (.int (-1)) (List.replicate outs.length ops.zero)
    (by rw [b3 _ n2, a4]) (by rw [b3 _ n4, a5]) b2 (by rw [b3 _ (Ne.symm n1), a6]) (by simpa using hn) (by simpa using hs)
  exact MiniC.callFunc_none ops ext prog fuel depth _ _ _ (env1 dtype feats len outs outs.length) hfind (bind_proba ops dtype feats outs len outs.length h1 h2 (by omega) (by omega)) (e1.trans (b1.trans hbad))

include hk in
theorem call_probaSoft_bad (name dtype : List Char) (n : Nat) (feats outs : List (Option (Val F))) (len : Int) (p : List Char × Nat) (ps : List (List Char × Nat)) (leaves : List Nat)
    (hfind : findFunc prog (name ++ "_predict_proba".toList) = some (probaSoftFunc name dtype (name ++ "_leaves".toList) n ((p :: ps).map Prod.fst)))
    (hcalls : TreeCalls ops ext prog fuel depth (fun c => .int (c : Nat)) dtype feats len (p :: ps))
    (hg : globalsOf ops prog (name ++ "_leaves".toList) = some (.array "uint8_t".toList (leaves.map fun (b : Nat) => some (.int b)))) (hlen : leaves.length ≤ 2147483647)
    (hnn : n ≤ 2147483647) (h1 : -2147483648 ≤ len) (h2 : len ≤ 2147483647)
    (hn : outs.length ≤ 2147483647) (hfu : outs.length < fuel) (hrow : n * p.2 + n ≤ leaves.length) (hs : outs.length < n) :
    callFunc ops ext prog fuel (depth + 1) (name ++ "_predict_proba".toList) [.arr dtype feats, .num (.int len), .arr "float".toList outs, .num (.int outs.length)] = none := by
  have i32 : Int32 "int".toList := .inl rfl
  obtain ⟨m1, m2, m3, m4, m5, m6⟩ := nfl
  obtain ⟨n1, n2, n3, n4, n5, n6, n7, n8, n9⟩ := vs
  have d : "offset".toList ≠ nmFeatures ∧ "offset".toList ≠ nmLength ∧ "offset".toList ≠ "out_length".toList ∧ "i".toList ≠ nmFeatures ∧ "i".toList ≠ nmLength ∧ "i".toList ≠ "out_length".toList := by decide +kernel
  obtain ⟨d1, d2, d3, d4, d5, d7⟩ := d
  have suf : ∀ x : List Char, ¬ ("_leaves".toList <:+ x) → name ++ "_leaves".toList ≠ x := fun x h e => h (e ▸ List.suffix_append _ _)
  have s1 := suf nmFeatures (by decide +kernel)
  have s2 := suf nmLength (by decide +kernel)
  have s3 := suf "out".toList (by decide +kernel)
  have s4 := suf "out_length".toList (by decide +kernel)
  have s5 := suf "offset".toList (by decide +kernel)
  have s6 := suf "i".toList (by decide +kernel)
  have e1none : ∀ x, x ≠ nmFeatures → x ≠ nmLength → x ≠ "out".toList → x ≠ "out_length".toList → env1 dtype feats len outs outs.length x = none := fun x a b c d => by
    unfold env1; rw [Env.set_ne _ _ d, Env.set_ne _ _ c, env0_none dtype feats len a b]
  set ctx : Ctx F := { globals := globalsOf ops prog, call := callFunc ops ext prog fuel depth } with hctx
  have e1 := exec_decl ops ctx fuel (env1 dtype feats len outs outs.length) [] "int".toList "offset".toList (.lit "0".toList) (.int 0) (.int 0)
    (zeroLoop (votesCode (voteSoftCode n (name ++ "_leaves".toList)) ((p :: ps).map Prod.fst) (meanLoop ((p :: ps).map Prod.fst).length))) (e1none _ d1 d2 (Ne.symm n1) d3)
    (evalTop_eq ops ctx _ _ _ (by simp) (by rw [eval, lit0])) (conv_int32 ops i32 _ (by omega) (by omega))
  set ea := (env1 dtype feats len outs outs.length).set "offset".toList (some (.scalar "int".toList (.int 0))) with hea
  have a1 : ea "out".toList = some (.array "float".toList outs) := by rw [hea, Env.set_ne _ _ n1, env1, Env.set_ne _ _ (Ne.symm m6), Env.set_same]
  have a2 : ea "out_length".toList = some (.scalar "int".toList (.int outs.length)) := by rw [hea, Env.set_ne _ _ (Ne.symm d3), env1, Env.set_same]
  have a3 : ea "i".toList = none := by rw [hea, Env.set_ne _ _ (Ne.symm n3), e1none _ d4 d5 (Ne.symm n2) d7]
  have a4 : ea nmFeatures = some (.array dtype feats) := by rw [hea, Env.set_ne _ _ n5, env1, Env.set_ne _ _ (Ne.symm m4), Env.set_ne _ _ n4, env0_features]
  have a5 : ea nmLength = some (.scalar "int32_t".toList (.int len)) := by rw [hea, Env.set_ne _ _ n7, env1, Env.set_ne _ _ (Ne.symm m5), Env.set_ne _ _ n6, env0_length]
  have a6 : ea "offset".toList = some (.scalar "int".toList (.int 0)) := by rw [hea, Env.set_same]
  have a7 : ea (name ++ "_leaves".toList) = none := by rw [hea, Env.set_ne _ _ s5, e1none _ s1 s2 s3 s4]
  clear_value ea
  obtain ⟨eb, b1, b2, b3⟩ := exec_zeroLoop ops hk ctx fuel (votesCode (voteSoftCode n (name ++ "_leaves".toList)) ((p :: ps).map Prod.fst) (meanLoop ((p :: ps).map Prod.fst).length)) outs ea outs.length hn hfu rfl a1 a2 a3
  have hbad := exec_votesSoft_bad ops hk ctx fuel n dtype "int32_t".toList (name ++ "_leaves".toList) feats (.int len) leaves (meanLoop ((p :: ps).map Prod.fst).length) p ps (hcalls p (by simp))
    hnn hg hlen s6 s3 s5 eb (.int 0) (List.replicate outs.length ops.zero)
    (by rw [b3 _ n4, a4]) (by rw [b3 _ n6, a5]) (by rw [b3 _ (Ne.symm n2), a3]) (by rw [b3 _ s3, a7]) b2 (by rw [b3 _ (Ne.symm n1), a6]) hrow (by simpa using hs)
  exact MiniC.callFunc_none ops ext prog fuel depth _ _ _ (env1 dtype feats len outs outs.length) hfind (bind_proba ops dtype feats outs len outs.length h1 h2 (by omega) (by omega)) (e1.trans (b1.trans hbad))
end

/-! ### The theorems -/

section
variable (ops : CFloat F) (hk : Consts ops) (ext : List Char → List (ArgVal F) → Option (CallResult F)) (fuel depth : Nat)

theorem softAt_row_long (leaves : List Nat) (off n L : Nat) (hL : n ≤ L) (acc : Nat → F) (b : Nat → Nat) (hb : ∀ c, c < n → leaves[off + c]? = some (b c)) (k : Nat) (hk : k ≤ n) :
    (List.range k).foldlM (softAt ops.toFOps leaves off) ((List.range L).map acc) =
      some ((List.range L).map fun c => if c < k then ops.add (acc c) (ops.div (ops.ofInt (b c)) (ops.ofInt 255)) else acc c) := by
  induction k with
  | zero => simp
  | succ k ih =>
    rw [List.range_succ, List.foldlM_append, ih (by omega)]
    simp only [Option.bind_eq_bind, Option.bind_some, List.foldlM_cons, List.foldlM_nil, softAt, hb k (by omega), addAt]
    have hkL : k < L := by omega
    simp only [List.getElem?_map, List.getElem?_range hkL, Option.map_some, Nat.lt_irrefl, if_false, Option.bind_some]
    show some _ = some _
    congr 1
    apply List.ext_getElem?
    intro j
    rw [List.getElem?_set]
    by_cases hj : k = j
    · subst hj
      simp [hkL]
    · simp only [hj, if_false, List.getElem?_map]
      by_cases hjn : j < L
      · simp only [List.getElem?_range hjn, Option.map_some]
        have : (j < k + 1) ↔ (j < k) := by omega
        simp [this]
      · simp [hjn]

theorem soft_rows_long (leaves : List Nat) (n L : Nat) (hL : n ≤ L) (rows : List (List Nat)) (idxs : List Nat) (h : List.Forall₂ (fun i row => ∀ c, c < n → leaves[n * i + c]? = some (row.getD c 0)) idxs rows) (acc : Nat → F) :
    idxs.foldlM (fun o i => (List.range n).foldlM (softAt ops.toFOps leaves (n * i)) o) ((List.range L).map acc) =
      some ((List.range L).map fun c => if c < n then rows.foldl (fun s row => ops.add s (ops.div (ops.ofInt (row.getD c 0)) (ops.ofInt 255))) (acc c) else acc c) := by
  induction h generalizing acc with
  | nil => simp
  | @cons i row idxs rows hi _ ih =>
    rw [List.foldlM_cons, softAt_row_long ops leaves (n * i) n L hL acc (fun c => row.getD c 0) hi n le_rfl, Option.bind_eq_bind, Option.bind_some, ih]
    congr 2
    funext c
    by_cases hc : c < n
    · simp [hc]
    · simp [hc]

include hk in
/-- **C126** (hard voting) called with a buffer of any length, `<name>_predict_proba` returns 0 and the shares of the votes of the first classes if no tree votes for a class beyond the buffer, and
otherwise writes outside of it (`none`): there is no size check. -/
theorem C126_hard (f : Forest ℚ Nat) (hok : ForestOK f) (hr : f.roots.length ≤ 2147483647) (name dtype : List Char) (nClasses : Nat) (hn : nClasses ≤ 2147483647)
    (hcls : ∀ c ∈ f.leaves, c < nClasses) (ws : List (List Char)) (bytes : List Nat) (ha : TextArgs name dtype ws) (text : List Char)
    (h : generateInlined f name nClasses 0 dtype true true ([' '].intercalate ws) (fun (c : Nat) => (c : ℚ)) bytes = some text) :
    ∃ prog, parse (saveText text) = some prog ∧ ∀ x : Input F, x.Fits dtype f → ∀ outs : List (Option (Val F)), outs.length ≤ 2147483647 → outs.length < fuel →
      ∃ classes, List.Forall₂ (fun r c => forestPredict (x.less ops) f r = some c) f.roots classes ∧
        callFunc ops ext prog fuel (depth + 2) (name ++ "_predict_proba".toList) [.arr dtype x.array, .num (.int x.length), .arr "float".toList outs, .num (.int outs.length)] =
          if ∀ c ∈ classes, c < outs.length then
            some (.int 0, [(2, (List.range outs.length).map fun c => some (.flt (ops.div ((fun y => ops.add y ops.one)^[classes.count c] ops.zero) (ops.ofInt f.roots.length))))])
          else none := by
  obtain ⟨codes, hcodes, -, hparse⟩ := inline_parse f name nClasses 0 dtype true true ws (fun (c : Nat) => (c : ℚ)) bytes text ha.name ha.type ha.modifiers h
  refine ⟨_, hparse, ?_⟩
  intro x hx outs hout hfu
  obtain ⟨classes, h1, h2, h3⟩ := forest_leaves (x.less ops) hok
  refine ⟨classes, h1, ?_⟩
  obtain ⟨hlen, hcalls⟩ := hard_calls ops ext fuel depth f hok name dtype nClasses hn hcls true ws bytes codes hcodes x hx classes h2
  have hcn : ∀ c ∈ classes, c < nClasses := fun c hc => hcls c (h3 c hc)
  have hl : (treeNames name codes.length).length = classes.length := by simp [treeNames, hlen]
  have hcl : classes.length = f.roots.length := h1.length_eq.symm
  have hzl : ((treeNames name codes.length).zip classes).length = f.roots.length := by rw [List.length_zip, hl, Nat.min_self, hcl]
  have hfind : findFunc (inlineProg name dtype nClasses 0 true true ws bytes codes) (name ++ "_predict_proba".toList) = some (probaHardFunc name dtype (((treeNames name codes.length).zip classes).map Prod.fst)) := by
    rw [map_zip_fst _ _ hl]
    exact find_forest name dtype nClasses 0 true true ws bytes codes (probaHardFunc name dtype (treeNames name codes.length)) (by simp [forestFuncs])
  split
  · rename_i hall
    have hv := voteFold_zero ops.toFOps (fun k => (fun y => ops.add y ops.one)^[k] ops.zero) classes.length outs.length classes rfl (fun k _ => by rw [Function.iterate_succ_apply']) hall (Nat.le_refl _)
    have key := call_probaHard ops hk ext (inlineProg name dtype nClasses 0 true true ws bytes codes) fuel (depth + 1) name dtype x.array outs x.length ((treeNames name codes.length).zip classes) _ hfind hcalls (by omega)
      (by omega) (by have := hx.length; omega) hout hfu
      (by rw [foldlM_zip_snd (fun v c => addAt ops.toFOps v c ops.one) _ _ hl]; exact hv)
    rw [hzl] at key
    rw [key]
    simp [flts]
  · rename_i hall
    push Not at hall
    refine call_probaHard_bad ops hk ext (inlineProg name dtype nClasses 0 true true ws bytes codes) fuel (depth + 1) name dtype x.array outs x.length ((treeNames name codes.length).zip classes) hfind hcalls
      (by omega) (by have := hx.length; omega) hout hfu ?_ ?_
    · intro p hp
      have := hcn _ (List.of_mem_zip hp).2
      omega
    · obtain ⟨c, hc, hcb⟩ := hall
      obtain ⟨i, hi, rfl⟩ := List.mem_iff_getElem.1 hc
      exact ⟨((treeNames name codes.length)[i]'(by omega), classes[i]), List.mem_iff_getElem.2 ⟨i, by rw [List.length_zip]; omega, by simp⟩, hcb⟩

include hk in
/-- **C126** (soft voting) called with a buffer of any length, `<name>_predict_proba` returns 0, the probabilities and zeros after them if the buffer has room for all classes, and otherwise writes outside of it
(`none`): there is no size check. -/
theorem C126_soft (f : Forest ℚ (List Nat)) (hok : ForestOK f) (hroots : f.roots ≠ []) (hr : f.roots.length ≤ 2147483647) (name dtype : List Char) (nClasses : Nat) (hn0 : 1 ≤ nClasses) (hn : nClasses ≤ 2147483647)
    (hfu : nClasses < fuel) (hrow : ∀ row ∈ f.leaves, row.length = nClasses ∧ ∀ b ∈ row, b < 256) (hsize : (leafBytesSoft f.leaves).length ≤ 2147483647) (lb : Int) (hlb : lb ≠ 0)
    (num : List Nat → ℚ) (ws : List (List Char)) (ha : TextArgs name dtype ws) (text : List Char)
    (h : generateInlined f name nClasses lb dtype true true ([' '].intercalate ws) num (leafBytesSoft f.leaves) = some text) :
    ∃ prog, parse (saveText text) = some prog ∧ ∀ x : Input F, x.Fits dtype f → ∀ outs : List (Option (Val F)), outs.length ≤ 2147483647 → outs.length < fuel →
      ∃ rows, List.Forall₂ (fun r row => forestPredict (x.less ops) f r = some row) f.roots rows ∧
        callFunc ops ext prog fuel (depth + 2) (name ++ "_predict_proba".toList) [.arr dtype x.array, .num (.int x.length), .arr "float".toList outs, .num (.int outs.length)] =
          if nClasses ≤ outs.length then
            some (.int 0, [(2, (List.range outs.length).map fun c => some (.flt (ops.div (if c < nClasses then softTotal ops rows c else ops.zero) (ops.ofInt f.roots.length))))])
          else none := by
  obtain ⟨codes, hcodes, -, hparse⟩ := inline_parse f name nClasses lb dtype true true ws num (leafBytesSoft f.leaves) text ha.name ha.type ha.modifiers h
  refine ⟨_, hparse, ?_⟩
  intro x hx outs hout hfu'
  obtain ⟨rows, h1, h2, h3⟩ := forest_leaves (x.less ops) hok
  refine ⟨rows, h1, ?_⟩
  have hll : f.leaves.length ≤ (leafBytesSoft f.leaves).length := by
    unfold leafBytesSoft
    rw [List.length_map, List.length_flatten]
    calc f.leaves.length = (f.leaves.map fun _ => 1).sum := by simp
      _ ≤ _ := by
        apply List.sum_le_sum
        intro r hr'
        have := (hrow r hr').1
        omega
  obtain ⟨hlen, hcalls⟩ := soft_calls ops ext fuel depth f hok name dtype nClasses lb hlb (by omega) num true ws (leafBytesSoft f.leaves) codes hcodes x hx
  have hl : (treeNames name codes.length).length = (f.roots.map (leafIndex (x.less ops) f)).length := by rw [hlen]; simp [treeNames]
  have hzl : ((treeNames name codes.length).zip (f.roots.map (leafIndex (x.less ops) f))).length = f.roots.length := by rw [List.length_zip, hl, Nat.min_self, List.length_map]
  have hleaves := soft_leaves f nClasses hrow (x.less ops) rows f.roots h2
  have hfind : findFunc (inlineProg name dtype nClasses lb true true ws (leafBytesSoft f.leaves) codes) (name ++ "_predict_proba".toList) =
      some (probaSoftFunc name dtype (name ++ "_leaves".toList) nClasses (((treeNames name codes.length).zip (f.roots.map (leafIndex (x.less ops) f))).map Prod.fst)) := by
    rw [map_zip_fst _ _ hl]
    exact find_forest name dtype nClasses lb true true ws _ codes (probaSoftFunc name dtype (name ++ "_leaves".toList) nClasses (treeNames name codes.length)) (by simp [forestFuncs, hlb])
  have hglob := globals_leaves ops name dtype nClasses lb hlb true true ws _ codes (leafBytesSoft_lt _) (leafBytesSoft_ne f hok hroots nClasses hn0 hrow (x.less ops))
  split
  · rename_i hL
    have hsum := soft_rows_long ops (leafBytesSoft f.leaves) nClasses outs.length hL rows _ hleaves (fun _ => ops.zero)
    have key := call_probaSoft ops hk ext (inlineProg name dtype nClasses lb true true ws (leafBytesSoft f.leaves) codes) fuel (depth + 1) name dtype nClasses x.array outs x.length
      ((treeNames name codes.length).zip (f.roots.map (leafIndex (x.less ops) f))) (leafBytesSoft f.leaves) _ hfind hcalls hglob hsize hn0 hn hfu (by omega)
      (by omega) (by have := hx.length; omega) hout hfu'
      (by rw [foldlM_zip_snd (fun o i => (List.range nClasses).foldlM (softAt ops.toFOps (leafBytesSoft f.leaves) (nClasses * i)) o) _ _ hl]; rw [List.map_const', List.length_range] at hsum; exact hsum)
    rw [hzl] at key
    rw [key]
    simp [flts, softTotal]
  · rename_i hL
    obtain ⟨r, rs, hrs⟩ := List.exists_cons_of_ne_nil hroots
    obtain ⟨q, qs, hqs⟩ : ∃ q qs, (treeNames name codes.length).zip (f.roots.map (leafIndex (x.less ops) f)) = q :: qs := by
      refine List.exists_cons_of_ne_nil fun h0 => ?_
      rw [h0, hrs] at hzl
      simp at hzl
    rw [hqs] at hfind hcalls
    refine call_probaSoft_bad ops hk ext (inlineProg name dtype nClasses lb true true ws (leafBytesSoft f.leaves) codes) fuel (depth + 1) name dtype nClasses x.array outs x.length
      q qs (leafBytesSoft f.leaves) hfind hcalls hglob hsize hn (by omega) (by have := hx.length; omega) hout hfu' ?_ (by omega)
    have hq : q.2 ∈ f.roots.map (leafIndex (x.less ops) f) := (List.of_mem_zip (show (q.1, q.2) ∈ _ from by rw [hqs]; simp)).2
    obtain ⟨i, hi, he⟩ := List.mem_iff_getElem.1 hq
    have hi' : i < rows.length := by rw [← hleaves.length_eq]; exact hi
    have hg := (List.forall₂_iff_get.1 hleaves).2 i hi hi' (nClasses - 1) (by omega)
    rw [show (f.roots.map (leafIndex (x.less ops) f)).get ⟨i, hi⟩ = q.2 from he] at hg
    have := (List.getElem?_eq_some_iff.1 hg).1
    omega
end

section
variable {L : Type} (ops : CFloat F) (decode : List Nat → Nat → Option F) (nan : F) (fuel depth : Nat)

/-- **C126** (loadable code) with up to 127 classes, a buffer of another length than the number of classes is refused with `EmlSizeMismatch` (1) and left as it was. -/
theorem C126_loadable (f : Forest ℚ L) (name : List Char) (nFeatures nClasses : Nat) (leafBits : Int) (ws : List (List Char)) (bytes : List Nat) (text : List Char) (ha : LoadArgs f name nFeatures nClasses ws bytes)
    (hc : nClasses ≤ 127) (h : generateLoadableText f name nFeatures nClasses leafBits "int16_t".toList true true ([' '].intercalate ws) bytes = some text) :
    ∃ prog, parse (saveText text) = some prog ∧ ∀ (features : List Int) (len : Int) (outs : List (Option (Val F))), -2147483648 ≤ len → len ≤ 2147483647 → outs.length ≤ 2147483647 → outs.length ≠ nClasses →
      callFunc ops (treesLib ops decode nan prog) prog fuel (depth + 2) (name ++ "_predict_proba".toList)
        [.arr "int16_t".toList (features.map fun z => some (.int z)), .num (.int len), .arr "float".toList outs, .num (.int outs.length)] = some (.int 1, [(2, outs)]) := by
  obtain ⟨prog, m, h1, h2, h3⟩ := C89_loadable_proba ops f name nFeatures nClasses leafBits ws bytes text decode nan fuel depth ha h
  refine ⟨prog, h1, fun features len outs a b c hne => ?_⟩
  have hm : m.nClasses = nClasses := by
    unfold generateLoadable at h2
    cases hg : generateNodes trunc f.nodes with
    | none => rw [hg] at h2; cases h2
    | some ns =>
      rw [hg] at h2
      simp only [Option.bind_eq_bind, Option.bind_some, Option.some.injEq] at h2
      subst h2
      show wrap8 nClasses = nClasses
      unfold wrap8
      omega
  have := h3 features len outs a b c
  simp only [predictProba, hm, show (outs.length : Int) ≠ nClasses from by exact_mod_cast hne, ne_eq, not_false_eq_true, if_true] at this
  exact this
end

/-- **C126** (negation for inline code) two places for three classes: features (12, 9) reach a leaf of class 2, and the file of a hard-voting model writes outside of the buffer; (7, -9) do not reach it and the call succeeds. -/
theorem C126_inline_refuted : ((generateInlined exTextHard "model".toList 3 0 "int16_t".toList true true "static const".toList (fun (c : Nat) => (c : ℚ)) []).bind fun text => (parse (saveText text)).bind fun prog =>
        callFunc exactC noExt prog 10 2 "model_predict_proba".toList [.arr "int16_t".toList (Input.array (.ints [12, 9])), .num (.int 2), .arr "float".toList [none, none], .num (.int 2)]) = none ∧
    ((generateInlined exTextHard "model".toList 3 0 "int16_t".toList true true "static const".toList (fun (c : Nat) => (c : ℚ)) []).bind fun text => (parse (saveText text)).bind fun prog =>
        callFunc exactC noExt prog 10 2 "model_predict_proba".toList [.arr "int16_t".toList (Input.array (.ints [7, -9])), .num (.int 2), .arr "float".toList [none, none], .num (.int 2)]) =
      some (.int 0, [(2, [some (.flt 0), some (.flt 1)])]) := by
  constructor <;> decide +kernel

/-- With soft voting two places are never enough; with five, the last two are 0. -/
example : ((generateInlined exTextSoft "model".toList 3 8 "float".toList true true "static const".toList (fun _ => 0) (leafBytesSoft exTextSoft.leaves)).bind fun text => (parse (saveText text)).bind fun prog =>
        callFunc exactC noExt prog 10 2 "model_predict_proba".toList [.arr "float".toList (Input.array (.floats [41/4, 15/2])), .num (.int 2), .arr "float".toList [none, none], .num (.int 2)]) = none ∧
    ((generateInlined exTextSoft "model".toList 3 8 "float".toList true true "static const".toList (fun _ => 0) (leafBytesSoft exTextSoft.leaves)).bind fun text => (parse (saveText text)).bind fun prog =>
        callFunc exactC noExt prog 10 2 "model_predict_proba".toList
          [.arr "float".toList (Input.array (.floats [41/4, 15/2])), .num (.int 2), .arr "float".toList [none, none, none, none, none], .num (.int 5)]) =
      some (.int 0, [(2, [some (.flt 0), some (.flt (2/5)), some (.flt (3/5)), some (.flt 0), some (.flt 0)])]) := by
  constructor <;> decide +kernel
end Emlearn.Trees
