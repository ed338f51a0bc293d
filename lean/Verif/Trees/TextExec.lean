/- What the functions of the inline program compute. -/
import Verif.Trees.TextParse
import Verif.MiniC.Exec
namespace Emlearn.Trees
open Emlearn.Cgen Emlearn.MiniC
variable {F : Type}

/-! ### The functions of the forest, given what the tree functions return -/

/-- Names of the local variables are different. -/
theorem vn : "votes".toList ≠ "_class".toList ∧ nmFeatures ≠ "votes".toList ∧ nmFeatures ≠ "_class".toList ∧ nmLength ≠ "votes".toList ∧ nmLength ≠ "_class".toList := by decide +kernel

theorem evalArgs_tree (ops : CFloat F) (ctx : Ctx F) (env : Env F) (dtype lty : List Char) (feats : List (Option (Val F))) (len : Val F) (hf : env nmFeatures = some (.array dtype feats))
    (hl : env nmLength = some (.scalar lty len)) : ([⟨none, nmFeatures⟩, ⟨none, nmLength⟩] : List Arg).mapM (evalArg ops ctx env) = some [.arr dtype feats, .num len] := by
  have h1 : isNum nmFeatures = false := by decide +kernel
  have h2 : isNum nmLength = false := by decide +kernel
  simp [evalArg, h1, h2, lookup_local ctx env _ _ hf, lookup_local ctx env _ _ hl]

/-- The value of `votes[i] += 1`. -/
def voteAt (votes : List Int) (i : Nat) : Option (List Int) :=
  match votes[i]? with
  | none => none
  | some x => some (votes.set i (x + 1))

/-- An array of `int32_t`. -/
def ints (votes : List Int) : List (Option (Val F)) := votes.map fun z => some (.int z)

/-- An array of `float`. -/
def flts (xs : List F) : List (Option (Val F)) := xs.map fun z => some (.flt z)

theorem lit1 (ops : CFloat F) : litVal ops "1".toList false = some (.int 1) := by
  have := litVal_showNat ops 1 (by decide) false
  rw [show showNat 1 = "1".toList from by decide +kernel] at this
  simpa using this

theorem lit0 (ops : CFloat F) : litVal ops "0".toList false = some (.int 0) := by
  have := litVal_showNat ops 0 (by decide) false
  rw [show showNat 0 = "0".toList from by decide +kernel] at this
  simpa using this

theorem litNeg1 (ops : CFloat F) : litVal ops "1".toList true = some (.int (-1)) := by
  have := litVal_showNat ops 1 (by decide) true
  rw [show showNat 1 = "1".toList from by decide +kernel] at this
  simpa using this

theorem exec_vote (ops : CFloat F) (ctx : Ctx F) (fuel : Nat) (dtype lty tree : List Char) (feats : List (Option (Val F))) (len old : Val F) (c : Nat) (k : Code) (env : Env F) (votes votes' : List Int)
    (hcall : ctx.call tree [.arr dtype feats, .num len] = some (.int c, [])) (hf : env nmFeatures = some (.array dtype feats)) (hl : env nmLength = some (.scalar lty len))
    (hv : env "votes".toList = some (.array "int32_t".toList (ints votes))) (hc : env "_class".toList = some (.scalar "int32_t".toList old))
    (hb : ∀ z ∈ votes, 0 ≤ z ∧ z < 2147483647) (hlen : votes.length ≤ 2147483647) (hs : voteAt votes c = some votes') :
    ∃ env', exec ops ctx fuel (voteCode tree k) env = exec ops ctx fuel k env' ∧ env' "votes".toList = some (.array "int32_t".toList (ints votes')) ∧
      env' "_class".toList = some (.scalar "int32_t".toList (.int c)) ∧ ∀ x, x ≠ "votes".toList → x ≠ "_class".toList → env' x = env x := by
  obtain ⟨n1, n2, n3, n4, n5⟩ := vn
  unfold voteAt at hs
  cases hx : votes[c]? with
  | none => rw [hx] at hs; cases hs
  | some z =>
  rw [hx] at hs
  cases hs
  have hcl : c < votes.length := by
    by_contra hh
    rw [List.getElem?_eq_none (by omega)] at hx; cases hx
  have hz := hb z (List.mem_of_getElem? hx)
  have i32 : Int32 "int32_t".toList := .inr rfl
  unfold voteCode
  have hv' : (env.set "_class".toList (some (.scalar "int32_t".toList (.int c)))) "votes".toList = some (.array "int32_t".toList (ints votes)) := by
    rw [Env.set_ne _ _ n1, hv]
  rw [exec_assign ops ctx fuel env "int32_t".toList "_class".toList (callTree tree) old (.int c) (.int c) _ hc
    (evalTop_call ops ctx env tree _ _ _ (evalArgs_tree ops ctx env dtype lty feats len hf hl) hcall) (conv_int32 ops i32 c (by omega) (by omega)),
    exec_assign_idx_add ops ctx fuel _ "int32_t".toList "votes".toList (ints votes) (.var "_class".toList) (.lit "1".toList) c (.int z) (.int 1) (.int (z + 1)) (.int (z + 1)) k hv'
      (eval_var ops ctx _ _ _ _ (Env.set_same _ _ _)) (by simp [ints, hx]) (evalTop_eq ops ctx _ _ _ (by simp) (by rw [eval, lit1])) (binVal_add_int ops z 1 (by omega) (by omega))
      (conv_int32 ops i32 _ (by omega) (by omega))]
  refine ⟨_, rfl, ?_, ?_, ?_⟩
  · rw [Env.set_same]; simp [ints, List.map_set]
  · rw [Env.set_ne _ _ (Ne.symm n1), Env.set_same]
  · intro x h1 h2
    rw [Env.set_ne _ _ h1, Env.set_ne _ _ h2]

theorem exec_votes (ops : CFloat F) (ctx : Ctx F) (fuel : Nat) (dtype lty : List Char) (feats : List (Option (Val F))) (len : Val F) (k : Code) (ps : List (List Char × Nat))
    (hcall : ∀ p ∈ ps, ctx.call p.1 [.arr dtype feats, .num len] = some (.int p.2, [])) (env : Env F) (old : Val F) (votes votes' : List Int)
    (hf : env nmFeatures = some (.array dtype feats)) (hl : env nmLength = some (.scalar lty len))
    (hv : env "votes".toList = some (.array "int32_t".toList (ints votes))) (hc : env "_class".toList = some (.scalar "int32_t".toList old))
    (hb : ∀ z ∈ votes, 0 ≤ z ∧ z + ps.length ≤ 2147483647) (hlen : votes.length ≤ 2147483647) (hs : ps.foldlM (fun v p => voteAt v p.2) votes = some votes') :
    ∃ env', exec ops ctx fuel (votesCode voteCode (ps.map Prod.fst) k) env = exec ops ctx fuel k env' ∧ env' "votes".toList = some (.array "int32_t".toList (ints votes')) ∧
      votes'.length = votes.length ∧ ∀ x, x ≠ "votes".toList → x ≠ "_class".toList → env' x = env x := by
  obtain ⟨n1, n2, n3, n4, n5⟩ := vn
  induction ps generalizing env votes old with
  | nil => cases hs; exact ⟨env, rfl, hv, rfl, fun _ _ _ => rfl⟩
  | cons p ps ih =>
    rw [List.foldlM_cons] at hs
    cases hva : voteAt votes p.2 with
    | none => rw [hva] at hs; cases hs
    | some votes1 =>
    rw [hva] at hs
    have hl1 : votes1.length = votes.length ∧ ∀ z ∈ votes1, 0 ≤ z ∧ z + ps.length ≤ 2147483647 := by
      unfold voteAt at hva
      cases hx : votes[p.2]? with
      | none => rw [hx] at hva; cases hva
      | some z =>
        rw [hx] at hva
        cases hva
        refine ⟨by simp, ?_⟩
        intro y hy
        have hz := hb z (List.mem_of_getElem? hx)
        rw [List.length_cons] at hz
        rcases List.mem_or_eq_of_mem_set hy with hy | rfl
        · have := hb y hy
          rw [List.length_cons] at this
          omega
        · omega
    obtain ⟨env1, e1, e2, e3, e4⟩ := exec_vote ops ctx fuel dtype lty p.1 feats len old p.2 (votesCode voteCode (ps.map Prod.fst) k) env votes votes1 (hcall p (by simp)) hf hl hv hc
      (fun z hz => by have := hb z hz; rw [List.length_cons] at this; omega) hlen hva
    obtain ⟨env2, g1, g2, g3, g4⟩ := ih (fun q hq => hcall q (by simp [hq])) env1 (.int p.2) votes1 (by rw [e4 _ n2 n3, hf]) (by rw [e4 _ n4 n5, hl]) e2 e3 hl1.2 (by rw [hl1.1]; exact hlen) hs
    refine ⟨env2, ?_, g2, by rw [g3, hl1.1], ?_⟩
    · rw [List.map_cons]
      show exec ops ctx fuel (voteCode p.1 (votesCode voteCode (ps.map Prod.fst) k)) env = _
      rw [e1, g1]
    · intro x h1 h2
      rw [g4 x h1 h2, e4 x h1 h2]

/-- The search for the largest element. -/
theorem exec_argmax {X : Type} (ops : CFloat F) (ctx : Ctx F) (fuel n : Nat) (arr best aty ty zero : List Char) (inj : X → Val F) (lt : X → X → Bool) (xs : List X) (z : X) (v0 : Val F) (env : Env F)
    (ha : env arr = some (.array aty (xs.map fun x => some (inj x)))) (hxs : xs.length = n) (hn : n ≤ 2147483647) (hfu : n < fuel)
    (hgt : ∀ a b, binVal ops '>' (inj a) (inj b) = some (boolVal (lt b a))) (hcv : ∀ x ∈ xs, conv ops ty (inj x) = some (inj x))
    (hz : litVal ops zero false = some v0) (hz' : conv ops ty v0 = some (inj z))
    (u1 : env "most_voted_class".toList = none) (u2 : env best = none) (u3 : env "i".toList = none)
    (n1 : best ≠ "most_voted_class".toList) (n2 : best ≠ "i".toList) (n3 : arr ≠ "most_voted_class".toList) (n4 : arr ≠ best) (n5 : arr ≠ "i".toList) :
    ∃ env', exec ops ctx fuel (argmaxCode n arr best ty zero) env = some (.returned (.int (argmaxLoop lt xs 0 (-1) z)) env') := by
  have i32 : Int32 "int32_t".toList := .inr rfl
  have n0 : "most_voted_class".toList ≠ "i".toList := by decide +kernel
  unfold argmaxCode
  rw [exec_decl ops ctx fuel env [] _ _ (.neg (.lit "1".toList)) (.int (-1)) (.int (-1)) _ u1 (evalTop_eq ops ctx _ _ _ (by simp) (by rw [eval, litNeg1])) (conv_int32 ops i32 _ (by omega) (by omega))]
  rw [exec_decl ops ctx fuel _ [] _ _ (.lit zero) v0 (inj z) _ (by rw [Env.set_ne _ _ n1, u2]) (evalTop_eq ops ctx _ _ _ (by simp) (by rw [eval, hz])) hz']
  have hbnd : ∀ env : Env F, eval ops ctx env (.lit (showNat n)) = some (.int n) := by
    intro env; rw [eval, litVal_showNat ops n hn]; rfl
  have key := exec_loop ops ctx "i".toList "int32_t".toList i32 (.lit (showNat n))
    (.ifThen (.bin '>' (.idx arr (.var "i".toList)) (.var best))
          (.assign "most_voted_class".toList none false (.var "i".toList) (.assign best none false (.idx arr (.var "i".toList)) .done)) .done)
    (.ret (.var "most_voted_class".toList) .done) n hn
    (fun j e => e "i".toList = some (.scalar "int32_t".toList (.int j)) ∧ e arr = some (.array aty (xs.map fun x => some (inj x))) ∧
      ∃ bc bv, e "most_voted_class".toList = some (.scalar "int32_t".toList (.int bc)) ∧ e best = some (.scalar ty (inj bv)) ∧
        argmaxLoop lt (xs.drop j) j bc bv = argmaxLoop lt xs 0 (-1) z)
    (fun j e _ h => ⟨h.1, hbnd e⟩) fuel hfu
    ((env.set "most_voted_class".toList (some (.scalar "int32_t".toList (.int (-1))))).set best (some (.scalar ty (inj z))))
    (by rw [Env.set_ne _ _ (Ne.symm n2), Env.set_ne _ _ (Ne.symm n0), u3])
    ⟨Env.set_same _ _ _, by rw [Env.set_ne _ _ n5, Env.set_ne _ _ n4, Env.set_ne _ _ n3, ha], -1, z, by rw [Env.set_ne _ _ n0, Env.set_ne _ _ (Ne.symm n1), Env.set_same],
      by rw [Env.set_ne _ _ n2, Env.set_same], by simp⟩
  specialize key ?_
  rotate_left
  · obtain ⟨env', h1, h2⟩ := key
    rw [h1]
    obtain ⟨-, -, bc, bv, hbc, -, hres⟩ := h2
    rw [List.drop_eq_nil_of_le (by omega)] at hres
    rw [exec_ret ops ctx fuel _ (.var "most_voted_class".toList) (.int bc) _ (evalTop_eq ops ctx _ _ _ (by simp) (eval_var ops ctx _ _ _ _ (by rw [Env.set_ne _ _ n0, hbc])))]
    exact ⟨_, by rw [← hres]; rfl⟩
  · intro j e hj ⟨h1, h2, bc, bv, h3, h4, h5⟩
    obtain ⟨x, hx⟩ : ∃ x, xs[j]? = some x := ⟨xs[j]'(by omega), List.getElem?_eq_getElem (by omega)⟩
    have hxm := List.mem_of_getElem? hx
    have hdrop : xs.drop j = x :: xs.drop (j + 1) := by
      obtain ⟨hjl, rfl⟩ := List.getElem?_eq_some_iff.1 hx
      exact List.drop_eq_getElem_cons hjl
    rw [hdrop, argmaxLoop] at h5
    have hidx : ∀ e : Env F, e "i".toList = some (.scalar "int32_t".toList (.int j)) → e arr = some (.array aty (xs.map fun x => some (inj x))) →
        eval ops ctx e (.idx arr (.var "i".toList)) = some (inj x) := fun e a b =>
      eval_idx ops ctx e arr aty _ _ j (inj x) (lookup_local ctx e arr _ b) (eval_var ops ctx e _ _ _ a) (by simp [hx])
    have hcond : eval ops ctx e (.bin '>' (.idx arr (.var "i".toList)) (.var best)) = some (boolVal (lt bv x)) := by
      rw [eval, hidx e h1 h2, eval_var ops ctx e _ _ _ h4]
      exact hgt x bv
    by_cases hlt : lt bv x = true
    · rw [if_pos hlt] at h5
      rw [hlt] at hcond
      have ex : exec ops ctx fuel (.ifThen (.bin '>' (.idx arr (.var "i".toList)) (.var best))
          (.assign "most_voted_class".toList none false (.var "i".toList) (.assign best none false (.idx arr (.var "i".toList)) .done)) .done) e =
          some (.next ((e.set "most_voted_class".toList (some (.scalar "int32_t".toList (.int j)))).set best (some (.scalar ty (inj x))))) := by
        have hi1 : (e.set "most_voted_class".toList (some (.scalar "int32_t".toList (.int j)))) "i".toList = some (.scalar "int32_t".toList (.int j)) := by rw [Env.set_ne _ _ (Ne.symm n0), h1]
        have ha1 : (e.set "most_voted_class".toList (some (.scalar "int32_t".toList (.int j)))) arr = some (.array aty (xs.map fun x => some (inj x))) := by rw [Env.set_ne _ _ n3, h2]
        have hb1 : (e.set "most_voted_class".toList (some (.scalar "int32_t".toList (.int j)))) best = some (.scalar ty (inj bv)) := by rw [Env.set_ne _ _ n1, h4]
        rw [exec, hcond]
        simp only [boolVal, if_true, one_ne_zero, if_false]
        rw [exec_assign ops ctx fuel e "int32_t".toList _ (.var "i".toList) (.int bc) (.int j) (.int j) _ h3 (evalTop_eq ops ctx _ _ _ (by simp) (eval_var ops ctx _ _ _ _ h1)) (conv_int32 ops i32 _ (by omega) (by omega)),
          exec_assign ops ctx fuel _ ty best (.idx arr (.var "i".toList)) (inj bv) (inj x) (inj x) _ hb1 (evalTop_eq ops ctx _ _ _ (by simp) (hidx _ hi1 ha1)) (hcv x hxm)]
        rfl
      refine ⟨_, ex, ?_, ?_, ?_, (j : Int), x, ?_, ?_, h5⟩
      · rw [Env.set_ne _ _ (Ne.symm n2), Env.set_ne _ _ (Ne.symm n0), h1]
      · rw [Env.set_same]
      · rw [Env.set_ne _ _ n5, Env.set_ne _ _ n4, Env.set_ne _ _ n3, h2]
      · rw [Env.set_ne _ _ n0, Env.set_ne _ _ (Ne.symm n1), Env.set_same]
      · rw [Env.set_ne _ _ n2, Env.set_same]
    · rw [if_neg hlt] at h5
      rw [Bool.eq_false_iff.2 hlt] at hcond
      have ex : exec ops ctx fuel (.ifThen (.bin '>' (.idx arr (.var "i".toList)) (.var best))
          (.assign "most_voted_class".toList none false (.var "i".toList) (.assign best none false (.idx arr (.var "i".toList)) .done)) .done) e = some (.next e) := by
        rw [exec, hcond]
        simp only [boolVal, Bool.false_eq_true, if_true, if_false]
        rfl
      refine ⟨_, ex, h1, ?_, ?_, bc, bv, ?_, ?_, h5⟩
      · rw [Env.set_same]
      · rw [Env.set_ne _ _ n5, h2]
      · rw [Env.set_ne _ _ n0, h3]
      · rw [Env.set_ne _ _ n2, h4]

/-! ### Floating point literals -/

theorem litFloat (ops : CFloat F) (s : List Char) (q : ℚ) (s' : List Char) (e : s = s' ++ ['f']) (h : readDec s' = some q) (env : Env F) (ctx : Ctx F) :
    eval ops ctx env (.lit s) = some (.flt (ops.lit false q)) := by
  rw [eval, e, litVal_float ops s' q false h]

theorem litOne (ops : CFloat F) (ctx : Ctx F) (env : Env F) : eval ops ctx env (.lit "1.0f".toList) = some (.flt (ops.lit false 1)) :=
  litFloat ops _ _ "1.0".toList (by decide +kernel) (by decide +kernel) env ctx

theorem litZero (ops : CFloat F) (ctx : Ctx F) (env : Env F) : eval ops ctx env (.lit "0.0f".toList) = some (.flt (ops.lit false 0)) :=
  litFloat ops _ _ "0.0".toList (by decide +kernel) (by decide +kernel) env ctx

theorem lit255 (ops : CFloat F) (ctx : Ctx F) (env : Env F) : eval ops ctx env (.lit "255.0f".toList) = some (.flt (ops.lit false 255)) :=
  litFloat ops _ _ "255.0".toList (by decide +kernel) (by decide +kernel) env ctx

/-- What the model of `float` must say about the constants `0`, `0.0f`, `1.0f` and `255.0f`. -/
structure Consts (ops : CFloat F) : Prop where
  zero : ops.lit false 0 = ops.zero
  one : ops.lit false 1 = ops.one
  c255 : ops.lit false 255 = ops.ofInt 255
  int0 : ops.ofInt 0 = ops.zero

theorem binVal_add_flt (ops : CFloat F) (a b : F) : binVal ops '+' (.flt a) (.flt b) = some (.flt (ops.add a b)) := by simp [binVal, toFloat]

theorem binVal_div_flt (ops : CFloat F) (a : Val F) (b : F) : binVal ops '/' a (.flt b) = some (.flt (ops.div (toFloat ops a) b)) := by
  cases a <;> simp [binVal, toFloat]

theorem binVal_div_flt_int (ops : CFloat F) (a : F) (b : Int) : binVal ops '/' (.flt a) (.int b) = some (.flt (ops.div a (ops.ofInt b))) := by simp [binVal, toFloat]

/-! ### Votes as probabilities -/

theorem vp : "out".toList ≠ "_class".toList ∧ nmFeatures ≠ "out".toList ∧ nmFeatures ≠ "_class".toList ∧ nmLength ≠ "out".toList ∧ nmLength ≠ "_class".toList := by decide +kernel

theorem exec_voteProba (ops : CFloat F) (hk : Consts ops) (ctx : Ctx F) (fuel : Nat) (dtype lty tree : List Char) (feats : List (Option (Val F))) (len old : Val F) (c : Nat) (k : Code) (env : Env F)
    (out out' : List F) (hcall : ctx.call tree [.arr dtype feats, .num len] = some (.int c, [])) (hf : env nmFeatures = some (.array dtype feats)) (hl : env nmLength = some (.scalar lty len))
    (hv : env "out".toList = some (.array "float".toList (flts out))) (hc : env "_class".toList = some (.scalar "int32_t".toList old))
    (hlen : out.length ≤ 2147483647) (hs : addAt ops.toFOps out c ops.one = some out') :
    ∃ env', exec ops ctx fuel (voteProbaCode tree k) env = exec ops ctx fuel k env' ∧ env' "out".toList = some (.array "float".toList (flts out')) ∧ out'.length = out.length ∧
      env' "_class".toList = some (.scalar "int32_t".toList (.int c)) ∧ ∀ x, x ≠ "out".toList → x ≠ "_class".toList → env' x = env x := by
  obtain ⟨n1, n2, n3, n4, n5⟩ := vp
  unfold addAt at hs
  cases hx : out[c]? with
  | none => rw [hx] at hs; cases hs
  | some z =>
  rw [hx] at hs
  cases hs
  have hcl : c < out.length := by
    by_contra hh
    rw [List.getElem?_eq_none (by omega)] at hx; cases hx
  have i32 : Int32 "int32_t".toList := .inr rfl
  unfold voteProbaCode
  have hv' : (env.set "_class".toList (some (.scalar "int32_t".toList (.int c)))) "out".toList = some (.array "float".toList (flts out)) := by
    rw [Env.set_ne _ _ n1, hv]
  rw [exec_assign ops ctx fuel env "int32_t".toList "_class".toList (callTree tree) old (.int c) (.int c) _ hc
    (evalTop_call ops ctx env tree _ _ _ (evalArgs_tree ops ctx env dtype lty feats len hf hl) hcall) (conv_int32 ops i32 c (by omega) (by omega)),
    exec_assign_idx_add ops ctx fuel _ "float".toList "out".toList (flts out) (.var "_class".toList) (.lit "1.0f".toList) c (.flt z) (.flt ops.one) (.flt (ops.add z ops.one)) (.flt (ops.add z ops.one)) k hv'
      (eval_var ops ctx _ _ _ _ (Env.set_same _ _ _)) (by simp [flts, hx]) (evalTop_eq ops ctx _ _ _ (by simp) (by rw [litOne, hk.one])) (binVal_add_flt ops _ _)
      (conv_float ops _)]
  refine ⟨_, rfl, ?_, by simp, ?_, ?_⟩
  · rw [Env.set_same]; simp [flts, List.map_set]
  · rw [Env.set_ne _ _ (Ne.symm n1), Env.set_same]
  · intro x h1 h2
    rw [Env.set_ne _ _ h1, Env.set_ne _ _ h2]

theorem exec_votesProba (ops : CFloat F) (hk : Consts ops) (ctx : Ctx F) (fuel : Nat) (dtype lty : List Char) (feats : List (Option (Val F))) (len : Val F) (k : Code) (ps : List (List Char × Nat))
    (hcall : ∀ p ∈ ps, ctx.call p.1 [.arr dtype feats, .num len] = some (.int p.2, [])) (env : Env F) (old : Val F) (out out' : List F)
    (hf : env nmFeatures = some (.array dtype feats)) (hl : env nmLength = some (.scalar lty len))
    (hv : env "out".toList = some (.array "float".toList (flts out))) (hc : env "_class".toList = some (.scalar "int32_t".toList old))
    (hlen : out.length ≤ 2147483647) (hs : ps.foldlM (fun v p => addAt ops.toFOps v p.2 ops.one) out = some out') :
    ∃ env', exec ops ctx fuel (votesCode voteProbaCode (ps.map Prod.fst) k) env = exec ops ctx fuel k env' ∧ env' "out".toList = some (.array "float".toList (flts out')) ∧
      out'.length = out.length ∧ ∀ x, x ≠ "out".toList → x ≠ "_class".toList → env' x = env x := by
  obtain ⟨n1, n2, n3, n4, n5⟩ := vp
  induction ps generalizing env out old with
  | nil => cases hs; exact ⟨env, rfl, hv, rfl, fun _ _ _ => rfl⟩
  | cons p ps ih =>
    rw [List.foldlM_cons] at hs
    cases hva : addAt ops.toFOps out p.2 ops.one with
    | none => rw [hva] at hs; cases hs
    | some out1 =>
    rw [hva] at hs
    obtain ⟨env1, e1, e2, e5, e3, e4⟩ := exec_voteProba ops hk ctx fuel dtype lty p.1 feats len old p.2 (votesCode voteProbaCode (ps.map Prod.fst) k) env out out1 (hcall p (by simp)) hf hl hv hc hlen hva
    obtain ⟨env2, g1, g2, g3, g4⟩ := ih (fun q hq => hcall q (by simp [hq])) env1 (.int p.2) out1 (by rw [e4 _ n2 n3, hf]) (by rw [e4 _ n4 n5, hl]) e2 e3 (by rw [e5]; exact hlen) hs
    refine ⟨env2, ?_, g2, by rw [g3, e5], ?_⟩
    · rw [List.map_cons]
      show exec ops ctx fuel (voteProbaCode p.1 (votesCode voteProbaCode (ps.map Prod.fst) k)) env = _
      rw [e1, g1]
    · intro x h1 h2
      rw [g4 x h1 h2, e4 x h1 h2]

/-! ### Loops over the outputs -/

/-- A loop that replaces every output. -/
theorem exec_mapLoop (ops : CFloat F) (ctx : Ctx F) (fuel : Nat) (e : Expr) (k : Code) (g : F → F) (outs : List (Option (Val F))) (xs : List F) (env : Env F) (n : Nat) (hn : n ≤ 2147483647) (hfu : n < fuel)
    (hxs : xs.length = n) (hos : outs.length = n)
    (ho : env "out".toList = some (.array "float".toList outs)) (hl : env "out_length".toList = some (.scalar "int".toList (.int n))) (hi : env "i".toList = none) (hnc : ∀ f a, e ≠ .call f a)
    (he : ∀ (j : Nat) (env' : Env F) (x : F), xs[j]? = some x → env' "i".toList = some (.scalar "int".toList (.int j)) →
      env' "out".toList = some (.array "float".toList (flts ((xs.take j).map g) ++ outs.drop j)) → eval ops ctx env' e = some (.flt (g x))) :
    ∃ env', exec ops ctx fuel (.loop "int".toList "i".toList (.var "out_length".toList) (.assign "out".toList (some (.var "i".toList)) false e .done) k) env = exec ops ctx fuel k env' ∧
      env' "out".toList = some (.array "float".toList (flts (xs.map g))) ∧ ∀ x, x ≠ "out".toList → env' x = env x := by
  have i32 : Int32 "int".toList := .inl rfl
  have n1 : "out".toList ≠ "i".toList := by decide +kernel
  have n2 : "out_length".toList ≠ "i".toList := by decide +kernel
  have n3 : "out_length".toList ≠ "out".toList := by decide +kernel
  have key := exec_loop ops ctx "i".toList "int".toList i32 (.var "out_length".toList) (.assign "out".toList (some (.var "i".toList)) false e .done) k n hn
    (fun j e' => e' "i".toList = some (.scalar "int".toList (.int j)) ∧ e' "out".toList = some (.array "float".toList (flts ((xs.take j).map g) ++ outs.drop j)) ∧
      ∀ x, x ≠ "out".toList → x ≠ "i".toList → e' x = env x)
    (fun j e' _ h => ⟨h.1, eval_var ops ctx _ _ _ _ (by rw [h.2.2 _ n3 n2, hl])⟩) fuel hfu env hi
    ⟨Env.set_same _ _ _, by rw [Env.set_ne _ _ n1, ho]; simp [flts], fun x h1 h2 => by rw [Env.set_ne _ _ h2]⟩
  specialize key ?_
  · intro j e' hj ⟨h1, h2, h3⟩
    obtain ⟨x, hx⟩ : ∃ x, xs[j]? = some x := ⟨xs[j]'(by omega), List.getElem?_eq_getElem (by omega)⟩
    have hjl : j < (flts ((xs.take j).map g) ++ outs.drop j : List (Option (Val F))).length := by simp [flts]; omega
    refine ⟨_, exec_assign_idx ops ctx fuel e' "float".toList "out".toList _ (.var "i".toList) e j (.flt (g x)) (.flt (g x)) .done h2 (eval_var ops ctx _ _ _ _ h1) hjl
      (evalTop_eq ops ctx _ _ _ hnc (he j e' x hx h1 h2)) (conv_float ops _), ?_, ?_, ?_, ?_⟩
    · rw [Env.set_ne _ _ (Ne.symm n1), h1]
    · rw [Env.set_same]
    · rw [Env.set_ne _ _ n1, Env.set_same]
      congr 2
      have hl1 : (flts ((xs.take j).map g) : List (Option (Val F))).length = j := by simp [flts]; omega
      rw [List.set_append, if_neg (by omega), hl1, Nat.sub_self]
      have hd : outs.drop j = outs[j]'(by omega) :: outs.drop (j + 1) := List.drop_eq_getElem_cons (by omega)
      rw [hd, List.set_cons_zero, List.take_add_one, hx]
      simp [flts]
    · intro x h4 h5
      rw [Env.set_ne _ _ h5, Env.set_ne _ _ h4, h3 x h4 h5]
  · obtain ⟨env', h1, h2, h3, h4⟩ := key
    refine ⟨_, h1, ?_, ?_⟩
    · rw [Env.set_ne _ _ n1, h3]
      rw [List.take_of_length_le (by omega), List.drop_eq_nil_of_le (by omega), List.append_nil]
    · intro x hx
      by_cases hxi : x = "i".toList
      · subst hxi; rw [Env.set_same, hi]
      · rw [Env.set_ne _ _ hxi, h4 x hx hxi]

theorem exec_zeroLoop (ops : CFloat F) (hk : Consts ops) (ctx : Ctx F) (fuel : Nat) (k : Code) (outs : List (Option (Val F))) (env : Env F) (n : Nat) (hn : n ≤ 2147483647) (hfu : n < fuel)
    (hos : outs.length = n) (ho : env "out".toList = some (.array "float".toList outs)) (hl : env "out_length".toList = some (.scalar "int".toList (.int n))) (hi : env "i".toList = none) :
    ∃ env', exec ops ctx fuel (zeroLoop k) env = exec ops ctx fuel k env' ∧
      env' "out".toList = some (.array "float".toList (flts (List.replicate n ops.zero))) ∧ ∀ x, x ≠ "out".toList → env' x = env x := by
  have := exec_mapLoop ops ctx fuel (.lit "0.0f".toList) k (fun _ => ops.zero) outs (List.replicate n ops.zero) env n hn hfu (by simp) hos ho hl hi (by simp)
    (fun j env' x _ _ _ => by rw [litZero, hk.zero])
  rw [List.map_replicate] at this
  exact this

theorem exec_meanLoop (ops : CFloat F) (ctx : Ctx F) (fuel m : Nat) (hm : m ≤ 2147483647) (xs : List F) (env : Env F) (n : Nat) (hn : n ≤ 2147483647) (hfu : n < fuel)
    (hxs : xs.length = n) (ho : env "out".toList = some (.array "float".toList (flts xs))) (hl : env "out_length".toList = some (.scalar "int".toList (.int n))) (hi : env "i".toList = none) :
    ∃ env', exec ops ctx fuel (meanLoop m) env = some (.returned (.int 0) env') ∧
      env' "out".toList = some (.array "float".toList (flts (xs.map fun x => ops.div x (ops.ofInt m)))) ∧ ∀ x, x ≠ "out".toList → env' x = env x := by
  obtain ⟨env', h1, h2, h3⟩ := exec_mapLoop ops ctx fuel (.bin '/' (.idx "out".toList (.var "i".toList)) (.lit (showNat m))) (.ret (.lit "0".toList) .done) (fun x => ops.div x (ops.ofInt m)) (flts xs) xs env n hn hfu hxs
    (by simp [flts, hxs]) ho hl hi (by simp)
    (fun j env' x hx hi' ho' => by
      have hj : j < xs.length := by
        by_contra hh
        rw [List.getElem?_eq_none (by omega)] at hx; cases hx
      rw [eval, eval_idx ops ctx env' "out".toList "float".toList _ (.var "i".toList) j (.flt x) (lookup_local ctx env' _ _ ho') (eval_var ops ctx _ _ _ _ hi') ?_, eval, litVal_showNat ops m hm]
      · exact binVal_div_flt_int ops x m
      · have hl1 : (flts ((xs.take j).map fun x => ops.div x (ops.ofInt m)) : List (Option (Val F))).length = j := by simp [flts]; omega
        rw [List.getElem?_append_right (by omega), hl1, Nat.sub_self, List.getElem?_drop]
        simp [flts, hx])
  refine ⟨env', ?_, h2, h3⟩
  unfold meanLoop
  rw [h1, exec_ret ops ctx fuel env' _ (.int 0) _ (evalTop_eq ops ctx _ _ _ (by simp) (by rw [eval, lit0]))]

/-! ### Soft votes -/

/-- One step of a soft vote: `out[i] += leaves[offset + i] / 255.0f`. -/
def softAt (ops : FOps F) (leaves : List Nat) (offset : Nat) (o : List F) (i : Nat) : Option (List F) :=
  match leaves[offset + i]? with
  | none => none
  | some b => addAt ops o i (ops.div (ops.ofInt b) (ops.ofInt 255))

theorem vs : "out".toList ≠ "offset".toList ∧ "out".toList ≠ "i".toList ∧ "offset".toList ≠ "i".toList ∧ nmFeatures ≠ "out".toList ∧ nmFeatures ≠ "offset".toList ∧ nmLength ≠ "out".toList ∧
    nmLength ≠ "offset".toList ∧ nmFeatures ≠ "i".toList ∧ nmLength ≠ "i".toList := by decide +kernel

theorem addAt_length (ops : FOps F) {o o' : List F} {i : Nat} {v : F} (h : addAt ops o i v = some o') : o'.length = o.length := by
  unfold addAt at h
  split at h
  · cases h
  · cases h; simp

theorem exec_softLoop (ops : CFloat F) (hk : Consts ops) (ctx : Ctx F) (fuel n offset : Nat) (ln : List Char) (leaves : List Nat) (k : Code) (env : Env F) (out out' : List F) (hn : n ≤ 2147483647) (hfu : n < fuel)
    (hln : env ln = none) (hg : ctx.globals ln = some (.array "uint8_t".toList (leaves.map fun (b : Nat) => some (.int b)))) (hlen : leaves.length ≤ 2147483647) (hi : env "i".toList = none)
    (ho : env "out".toList = some (.array "float".toList (flts out))) (hoff : env "offset".toList = some (.scalar "int".toList (.int offset)))
    (hne : ln ≠ "i".toList) (hne' : ln ≠ "out".toList) (hs : (List.range n).foldlM (softAt ops.toFOps leaves offset) out = some out') :
    ∃ env', exec ops ctx fuel (.loop "int".toList "i".toList (.lit (showNat n)) (softBody ln) k) env = exec ops ctx fuel k env' ∧ env' "out".toList = some (.array "float".toList (flts out')) ∧
      out'.length = out.length ∧ ∀ x, x ≠ "out".toList → env' x = env x := by
  obtain ⟨n1, n2, n3, -, -, -, -, -, -⟩ := vs
  have i32 : Int32 "int".toList := .inl rfl
  have key := exec_loop ops ctx "i".toList "int".toList i32 (.lit (showNat n)) (softBody ln) k n hn
    (fun j e => e "i".toList = some (.scalar "int".toList (.int j)) ∧ (∃ cur, e "out".toList = some (.array "float".toList (flts cur)) ∧ cur.length = out.length ∧
      (List.range' j (n - j)).foldlM (softAt ops.toFOps leaves offset) cur = some out') ∧ ∀ x, x ≠ "out".toList → x ≠ "i".toList → e x = env x)
    (fun j e _ h => ⟨h.1, by rw [eval, litVal_showNat ops n hn]; rfl⟩) fuel hfu env hi
    ⟨Env.set_same _ _ _, ⟨out, by rw [Env.set_ne _ _ n2, ho], rfl, by rw [Nat.sub_zero, ← List.range_eq_range']; exact hs⟩, fun x _ h => by rw [Env.set_ne _ _ h]⟩
  specialize key ?_
  · intro j e hj ⟨h1, ⟨cur, h2, h3, h4⟩, h5⟩
    obtain ⟨m, hm⟩ : ∃ m, n - j = m + 1 := ⟨n - j - 1, by omega⟩
    rw [hm, List.range'_succ, List.foldlM_cons] at h4
    cases hb : leaves[offset + j]? with
    | none => simp [softAt, hb] at h4
    | some b =>
    have hsa : softAt ops.toFOps leaves offset cur j = addAt ops.toFOps cur j (ops.div (ops.ofInt b) (ops.ofInt 255)) := by simp [softAt, hb]
    cases hx : cur[j]? with
    | none => rw [hsa] at h4; simp [addAt, hx] at h4
    | some y =>
    have hadd : addAt ops.toFOps cur j (ops.div (ops.ofInt b) (ops.ofInt 255)) = some (cur.set j (ops.add y (ops.div (ops.ofInt b) (ops.ofInt 255)))) := by simp [addAt, hx]
    rw [hsa, hadd] at h4
    have hoj : offset + j < leaves.length := by
      by_contra hh
      rw [List.getElem?_eq_none (by omega)] at hb; cases hb
    have hbin : eval ops ctx e (.bin '+' (.var "offset".toList) (.var "i".toList)) = some (.int ((offset + j : Nat) : Int)) := by
      rw [eval, eval_var ops ctx e _ _ _ ((h5 _ (Ne.symm n1) n3).trans hoff), eval_var ops ctx e _ _ _ h1]
      exact binVal_add_int ops offset j (by omega) (by omega)
    have hlk : lookupVar ctx e ln = some (.array "uint8_t".toList (leaves.map fun (b : Nat) => some (.int b))) := by
      unfold lookupVar
      rw [h5 _ hne' hne, hln]
      exact hg
    have hval : eval ops ctx e (.paren (.bin '/' (.idx ln (.bin '+' (.var "offset".toList) (.var "i".toList))) (.lit "255.0f".toList))) =
        some (.flt (ops.div (ops.ofInt b) (ops.ofInt 255))) := by
      rw [eval, eval, eval_idx ops ctx e ln _ _ _ (offset + j) (.int b) hlk hbin (by simp [hb]), lit255, hk.c255]
      exact binVal_div_flt ops (.int b) _
    refine ⟨_, exec_assign_idx_add ops ctx fuel e "float".toList "out".toList (flts cur) (.var "i".toList) _ j (.flt y) _ (.flt (ops.add y (ops.div (ops.ofInt b) (ops.ofInt 255)))) _ .done h2
      (eval_var ops ctx e _ _ _ h1) (by simp [flts, hx]) (evalTop_eq ops ctx _ _ _ (by simp) hval) (binVal_add_flt ops _ _) (conv_float ops _), ?_, ?_, ⟨cur.set j (ops.add y (ops.div (ops.ofInt b) (ops.ofInt 255))), ?_, ?_, ?_⟩, ?_⟩
    · rw [Env.set_ne _ _ (Ne.symm n2), h1]
    · rw [Env.set_same]
    · rw [Env.set_ne _ _ n2, Env.set_same]
      simp [flts, List.map_set]
    · rw [List.length_set, h3]
    · rw [show n - (j + 1) = m from by omega]
      exact h4
    · intro x h6 h7
      rw [Env.set_ne _ _ h7, Env.set_ne _ _ h6, h5 x h6 h7]
  · obtain ⟨env', h1, h2, ⟨cur, h3, h4, h5⟩, h6⟩ := key
    rw [Nat.sub_self] at h5
    cases h5
    refine ⟨_, h1, by rw [Env.set_ne _ _ n2, h3], h4, ?_⟩
    intro x hx
    by_cases hxi : x = "i".toList
    · subst hxi; rw [Env.set_same, hi]
    · rw [Env.set_ne _ _ hxi, h6 x hx hxi]

theorem exec_votesSoft (ops : CFloat F) (hk : Consts ops) (ctx : Ctx F) (fuel n : Nat) (dtype lty ln : List Char) (feats : List (Option (Val F))) (len : Val F) (leaves : List Nat) (k : Code)
    (ps : List (List Char × Nat)) (hcall : ∀ p ∈ ps, ctx.call p.1 [.arr dtype feats, .num len] = some (.int p.2, [])) (hn0 : 1 ≤ n) (hn : n ≤ 2147483647) (hfu : n < fuel)
    (hg : ctx.globals ln = some (.array "uint8_t".toList (leaves.map fun (b : Nat) => some (.int b)))) (hlen : leaves.length ≤ 2147483647)
    (hne : ln ≠ "i".toList) (hne' : ln ≠ "out".toList) (hne'' : ln ≠ "offset".toList) (env : Env F) (old : Val F) (out out' : List F)
    (hf : env nmFeatures = some (.array dtype feats)) (hl : env nmLength = some (.scalar lty len)) (hi : env "i".toList = none) (hln : env ln = none)
    (ho : env "out".toList = some (.array "float".toList (flts out))) (hoff : env "offset".toList = some (.scalar "int".toList old))
    (hs : ps.foldlM (fun o p => (List.range n).foldlM (softAt ops.toFOps leaves (n * p.2)) o) out = some out') :
    ∃ env', exec ops ctx fuel (votesCode (voteSoftCode n ln) (ps.map Prod.fst) k) env = exec ops ctx fuel k env' ∧ env' "out".toList = some (.array "float".toList (flts out')) ∧
      out'.length = out.length ∧ ∀ x, x ≠ "out".toList → x ≠ "offset".toList → env' x = env x := by
  obtain ⟨n1, n2, n3, n4, n5, n6, n7, n8, n9⟩ := vs
  have i32 : Int32 "int".toList := .inl rfl
  induction ps generalizing env out old with
  | nil => cases hs; exact ⟨env, rfl, ho, rfl, fun _ _ _ => rfl⟩
  | cons p ps ih =>
    rw [List.foldlM_cons] at hs
    cases hva : (List.range n).foldlM (softAt ops.toFOps leaves (n * p.2)) out with
    | none => rw [hva] at hs; cases hs
    | some out1 =>
    rw [hva] at hs
    have hoffset : n * p.2 < leaves.length := by
      obtain ⟨m, rfl⟩ : ∃ m, n = m + 1 := ⟨n - 1, by omega⟩
      rw [List.range_eq_range', List.range'_succ, List.foldlM_cons] at hva
      by_contra hh
      rw [softAt, List.getElem?_eq_none (by omega)] at hva
      cases hva
    have hmul : eval ops ctx env (.bin '*' (.lit (showNat n)) (callTree p.1)) = some (.int ((n * p.2 : Nat) : Int)) := by
      rw [eval, eval, litVal_showNat ops n hn, eval_call ops ctx env p.1 _ _ _ (evalArgs_tree ops ctx env dtype lty feats len hf hl) (hcall p (by simp))]
      have e : ((n * p.2 : Nat) : Int) = (n : Int) * p.2 := by push_cast; rfl
      rw [e]
      exact binVal_mul_int ops n p.2 (by rw [← e]; omega) (by rw [← e]; omega)
    have hstep := exec_assign ops ctx fuel env "int".toList "offset".toList (.bin '*' (.lit (showNat n)) (callTree p.1)) old (.int ((n * p.2 : Nat) : Int)) _
      (.loop "int".toList "i".toList (.lit (showNat n)) (softBody ln) (votesCode (voteSoftCode n ln) (ps.map Prod.fst) k)) hoff
      (evalTop_eq ops ctx _ _ _ (by simp) hmul) (conv_int32 ops i32 _ (by omega) (by omega))
    obtain ⟨env1, e1, e2, e3, e4⟩ := exec_softLoop ops hk ctx fuel n (n * p.2) ln leaves (votesCode (voteSoftCode n ln) (ps.map Prod.fst) k)
      (env.set "offset".toList (some (.scalar "int".toList (.int ((n * p.2 : Nat) : Int))))) out out1 hn hfu (by rw [Env.set_ne _ _ hne'', hln]) hg hlen
      (by rw [Env.set_ne _ _ (Ne.symm n3), hi]) (by rw [Env.set_ne _ _ n1, ho]) (Env.set_same _ _ _) hne hne' hva
    have fr : ∀ x, x ≠ "out".toList → x ≠ "offset".toList → env1 x = env x := fun x h1 h2 => by rw [e4 x h1, Env.set_ne _ _ h2]
    obtain ⟨env2, g1, g2, g3, g4⟩ := ih (fun q hq => hcall q (by simp [hq])) env1 (.int ((n * p.2 : Nat) : Int)) out1 (by rw [fr _ n4 n5, hf]) (by rw [fr _ n6 n7, hl])
      (by rw [fr _ (Ne.symm n2) (Ne.symm n3), hi]) (by rw [fr _ hne' hne'', hln]) e2 (by rw [e4 _ (Ne.symm n1), Env.set_same]) hs
    refine ⟨env2, ?_, g2, by rw [g3, e3], ?_⟩
    · rw [List.map_cons]
      show exec ops ctx fuel (.assign "offset".toList none false (.bin '*' (.lit (showNat n)) (callTree p.1))
        (.loop "int".toList "i".toList (.lit (showNat n)) (softBody ln) (votesCode (voteSoftCode n ln) (ps.map Prod.fst) k))) env = _
      rw [hstep, e1, g1]
    · intro x h1 h2
      rw [g4 x h1 h2, fr x h1 h2]

/-! ### Sum of the trees -/

theorem exec_votesRegress (ops : CFloat F) (ctx : Ctx F) (fuel : Nat) (dtype lty : List Char) (feats : List (Option (Val F))) (len : Val F) (k : Code) (ps : List (List Char × F))
    (hcall : ∀ p ∈ ps, ctx.call p.1 [.arr dtype feats, .num len] = some (.flt p.2, [])) (env : Env F) (s : F)
    (hf : env nmFeatures = some (.array dtype feats)) (hl : env nmLength = some (.scalar lty len)) (hv : env "avg".toList = some (.scalar "float".toList (.flt s))) :
    ∃ env', exec ops ctx fuel (votesCode voteRegressCode (ps.map Prod.fst) k) env = exec ops ctx fuel k env' ∧
      env' "avg".toList = some (.scalar "float".toList (.flt (ps.foldl (fun s p => ops.add s p.2) s))) := by
  have n1 : nmFeatures ≠ "avg".toList ∧ nmLength ≠ "avg".toList := by decide +kernel
  induction ps generalizing env s with
  | nil => exact ⟨env, rfl, hv⟩
  | cons p ps ih =>
    have e1 := exec_assign_add ops ctx fuel env "float".toList "avg".toList (callTree p.1) (.flt s) (.flt p.2) _ _ (votesCode voteRegressCode (ps.map Prod.fst) k) hv
      (evalTop_call ops ctx env p.1 _ _ _ (evalArgs_tree ops ctx env dtype lty feats len hf hl) (hcall p (by simp))) (binVal_add_flt ops s p.2) (conv_float ops _)
    obtain ⟨env2, g1, g2⟩ := ih (fun q hq => hcall q (by simp [hq])) (env.set "avg".toList (some (.scalar "float".toList (.flt (ops.add s p.2))))) _ (by rw [Env.set_ne _ _ n1.1, hf]) (by rw [Env.set_ne _ _ n1.2, hl]) (Env.set_same _ _ _)
    exact ⟨env2, e1.trans g1, g2⟩

/-! ### The functions -/

/-- The first variables of a generated function. -/
def env0 (dtype : List Char) (feats : List (Option (Val F))) (len : Int) : Env F :=
  Env.set (Env.set (fun _ => none) nmFeatures (some (.array dtype feats))) nmLength (some (.scalar "int32_t".toList (.int len)))

def env1 (dtype : List Char) (feats : List (Option (Val F))) (len : Int) (outs : List (Option (Val F))) (n : Int) : Env F :=
  Env.set (Env.set (env0 dtype feats len) "out".toList (some (.array "float".toList outs))) "out_length".toList (some (.scalar "int".toList (.int n)))

theorem nfl : nmLength ≠ nmFeatures ∧ "out".toList ≠ nmFeatures ∧ "out".toList ≠ nmLength ∧ "out_length".toList ≠ nmFeatures ∧ "out_length".toList ≠ nmLength ∧ "out_length".toList ≠ "out".toList := by
  decide +kernel

theorem env0_none (dtype : List Char) (feats : List (Option (Val F))) (len : Int) {x : List Char} (h1 : x ≠ nmFeatures) (h2 : x ≠ nmLength) : env0 dtype feats len x = none := by
  unfold env0; rw [Env.set_ne _ _ h2, Env.set_ne _ _ h1]

theorem env0_features (dtype : List Char) (feats : List (Option (Val F))) (len : Int) : env0 dtype feats len nmFeatures = some (.array dtype feats) := by
  unfold env0; rw [Env.set_ne _ _ (Ne.symm nfl.1), Env.set_same]

theorem env0_length (dtype : List Char) (feats : List (Option (Val F))) (len : Int) : env0 dtype feats len nmLength = some (.scalar "int32_t".toList (.int len)) := by
  unfold env0; rw [Env.set_same]

theorem bind_features (ops : CFloat F) (dtype : List Char) (feats : List (Option (Val F))) (len : Int) (h1 : -2147483648 ≤ len) (h2 : len ≤ 2147483647) :
    bindParams ops (featureParams dtype) [.arr dtype feats, .num (.int len)] (fun _ => none) = some (env0 dtype feats len) := by
  have i32 : Int32 "int32_t".toList := .inr rfl
  have hn : (Env.set (fun _ => none) nmFeatures (some (.array dtype feats)) : Env F) nmLength = none := by rw [Env.set_ne _ _ nfl.1]
  unfold featureParams env0
  rw [bindParams_ptr ops _ _ _ _ _ _ _ rfl, bindParams_num ops _ _ _ _ _ _ _ _ hn (conv_int32 ops i32 len h1 h2), bindParams_nil]

theorem bind_proba (ops : CFloat F) (dtype : List Char) (feats outs : List (Option (Val F))) (len n : Int) (h1 : -2147483648 ≤ len) (h2 : len ≤ 2147483647) (h3 : -2147483648 ≤ n) (h4 : n ≤ 2147483647) :
    bindParams ops (probaParams dtype) [.arr dtype feats, .num (.int len), .arr "float".toList outs, .num (.int n)] (fun _ => none) = some (env1 dtype feats len outs n) := by
  have i32 : Int32 "int32_t".toList := .inr rfl
  have i32' : Int32 "int".toList := .inl rfl
  obtain ⟨n1, n2, n3, n4, n5, n6⟩ := nfl
  have hn : (Env.set (fun _ => none) nmFeatures (some (.array dtype feats)) : Env F) nmLength = none := by rw [Env.set_ne _ _ nfl.1]
  have hn2 := env0_none dtype feats len n2 n3
  have hn3 : ((env0 dtype feats len).set "out".toList (some (.array "float".toList outs))) "out_length".toList = none := by rw [Env.set_ne _ _ n6, env0_none dtype feats len n4 n5]
  unfold probaParams featureParams env1
  rw [List.cons_append, List.cons_append, List.nil_append, bindParams_ptr ops _ _ _ _ _ _ _ rfl, bindParams_num ops _ _ _ _ _ _ _ _ hn (conv_int32 ops i32 len h1 h2)]
  change bindParams ops _ _ (env0 dtype feats len) = _
  rw [bindParams_ptr ops _ _ _ _ _ _ _ hn2, bindParams_num ops _ _ _ _ _ _ _ _ hn3 (conv_int32 ops i32' n h3 h4), bindParams_nil]

theorem writes_features (dtype : List Char) (env : Env F) : writes env 0 (featureParams dtype) = [] := by
  unfold featureParams
  rw [writes_skip _ _ _ _ rfl, writes_skip _ _ _ _ rfl]
  rfl

theorem writes_proba (dtype : List Char) (env : Env F) (vs : List (Option (Val F))) (h : env "out".toList = some (.array "float".toList vs)) : writes env 0 (probaParams dtype) = [(2, vs)] := by
  unfold probaParams featureParams
  rw [List.cons_append, List.cons_append, List.nil_append, writes_skip _ _ _ _ rfl, writes_skip _ _ _ _ rfl, writes_ptr _ _ _ _ "float".toList vs rfl h, writes_skip _ _ _ _ rfl]
  rfl

section
variable (ops : CFloat F) (hk : Consts ops) (ext : List Char → List (ArgVal F) → Option (CallResult F)) (prog : Prog) (fuel depth : Nat)

/-- Calls of the tree functions. -/
def TreeCalls {X : Type} (inj : X → Val F) (dtype : List Char) (feats : List (Option (Val F))) (len : Int) (ps : List (List Char × X)) : Prop :=
  ∀ p ∈ ps, callFunc ops ext prog fuel depth p.1 [.arr dtype feats, .num (.int len)] = some (inj p.2, [])

theorem call_predictHard (name dtype : List Char) (n : Nat) (feats : List (Option (Val F))) (len : Int) (ps : List (List Char × Nat)) (votes : List Int)
    (hfind : findFunc prog (name ++ "_predict".toList) = some (predictHardFunc name dtype n (ps.map Prod.fst))) (hcalls : TreeCalls ops ext prog fuel depth (fun c => .int (c : Nat)) dtype feats len ps)
    (hn0 : 1 ≤ n) (hn : n ≤ 2147483647) (hfu : n < fuel) (hps : ps.length ≤ 2147483647) (h1 : -2147483648 ≤ len) (h2 : len ≤ 2147483647)
    (hs : ps.foldlM (fun v p => voteAt v p.2) (List.replicate n 0) = some votes)
    (hr : -2147483648 ≤ argmaxLoop (fun a b => decide (a < b)) votes 0 (-1) 0 ∧ argmaxLoop (fun a b => decide (a < b)) votes 0 (-1) 0 ≤ 2147483647) (hvb : ∀ z ∈ votes, -2147483648 ≤ z ∧ z ≤ 2147483647) :
    callFunc ops ext prog fuel (depth + 1) (name ++ "_predict".toList) [.arr dtype feats, .num (.int len)] = some (.int (argmaxLoop (fun a b => decide (a < b)) votes 0 (-1) 0), []) := by
  have i32 : Int32 "int32_t".toList := .inr rfl
  have d1 : "votes".toList ≠ nmFeatures ∧ "votes".toList ≠ nmLength ∧ "_class".toList ≠ nmFeatures ∧ "_class".toList ≠ nmLength ∧ "_class".toList ≠ "votes".toList := by decide +kernel
  obtain ⟨d1, d2, d3, d4, d5⟩ := d1
  obtain ⟨n1, n2, n3, n4, n5⟩ := vn
  set ctx : Ctx F := { globals := globalsOf ops prog, call := callFunc ops ext prog fuel depth } with hctx
  have e1 := exec_decl_array ops ctx fuel (env0 dtype feats len) [] "int32_t".toList "votes".toList n (.lit "0".toList) (.int 0) (.int 0) (.int 0) true
    (.decl ⟨[], "int32_t".toList, "_class".toList, none, some (.one (.neg (.lit "1".toList)))⟩
        (votesCode voteCode (ps.map Prod.fst) (argmaxCode n "votes".toList "most_voted_votes".toList "int32_t".toList "0".toList)))
    (env0_none dtype feats len d1 d2) hn0 (by rw [eval, lit0]) (conv_int32 ops i32 0 (by omega) (by omega)) (conv_int32 ops i32 0 (by omega) (by omega))
  have hrep : (some (Val.int 0) :: List.replicate (n - 1) (some (.int 0)) : List (Option (Val F))) = ints (List.replicate n 0) := by
    rw [ints, List.map_replicate, ← List.replicate_succ, Nat.sub_add_cancel hn0]
  rw [hrep] at e1
  have e2 := exec_decl ops ctx fuel ((env0 dtype feats len).set "votes".toList (some (.array "int32_t".toList (ints (List.replicate n 0))))) [] "int32_t".toList "_class".toList (.neg (.lit "1".toList))
    (.int (-1)) (.int (-1)) (votesCode voteCode (ps.map Prod.fst) (argmaxCode n "votes".toList "most_voted_votes".toList "int32_t".toList "0".toList))
    (by rw [Env.set_ne _ _ d5, env0_none dtype feats len d3 d4]) (evalTop_eq ops ctx _ _ _ (by simp) (by rw [eval, litNeg1])) (conv_int32 ops i32 _ (by omega) (by omega))
  obtain ⟨env', g1, g2, g3, g4⟩ := exec_votes ops ctx fuel dtype "int32_t".toList feats (.int len) (argmaxCode n "votes".toList "most_voted_votes".toList "int32_t".toList "0".toList) ps hcalls
    (((env0 dtype feats len).set "votes".toList (some (.array "int32_t".toList (ints (List.replicate n 0))))).set "_class".toList (some (.scalar "int32_t".toList (.int (-1))))) (.int (-1)) (List.replicate n 0) votes
    (by rw [Env.set_ne _ _ n3, Env.set_ne _ _ n2, env0_features]) (by rw [Env.set_ne _ _ n5, Env.set_ne _ _ n4, env0_length]) (by rw [Env.set_ne _ _ n1, Env.set_same]) (by rw [Env.set_same])
    (fun z hz => by rw [List.eq_of_mem_replicate hz]; omega) (by simpa using hn) hs
  have hnone : ∀ x, x ≠ "votes".toList → x ≠ "_class".toList → x ≠ nmFeatures → x ≠ nmLength → env' x = none := fun x a b c d => by
    rw [g4 x a b, Env.set_ne _ _ b, Env.set_ne _ _ a, env0_none dtype feats len c d]
  obtain ⟨env'', q⟩ := exec_argmax ops ctx fuel n "votes".toList "most_voted_votes".toList "int32_t".toList "int32_t".toList "0".toList (fun z : Int => Val.int z) (fun a b => decide (a < b)) votes 0 (.int 0) env' g2
    (by rw [g3]; simp) hn hfu (fun a b => by simp [binVal]) (fun z hz => conv_int32 ops i32 z (hvb z hz).1 (hvb z hz).2) (lit0 ops) (conv_int32 ops i32 0 (by omega) (by omega))
    (hnone _ (by decide +kernel) (by decide +kernel) (by decide +kernel) (by decide +kernel)) (hnone _ (by decide +kernel) (by decide +kernel) (by decide +kernel) (by decide +kernel))
    (hnone _ (by decide +kernel) (by decide +kernel) (by decide +kernel) (by decide +kernel)) (by decide +kernel) (by decide +kernel) (by decide +kernel) (by decide +kernel) (by decide +kernel)
  rw [callFunc_eq ops ext prog fuel depth _ _ _ (env0 dtype feats len) env'' (.int (argmaxLoop (fun a b => decide (a < b)) votes 0 (-1) 0)) (.int (argmaxLoop (fun a b => decide (a < b)) votes 0 (-1) 0)) hfind
    (bind_features ops dtype feats len h1 h2) (e1.trans (e2.trans (g1.trans q))) (conv_int32 ops i32 _ hr.1 hr.2)]
  show some (_, writes env'' 0 (featureParams dtype)) = _
  rw [writes_features]

include hk in
theorem call_predictSoft (name dtype : List Char) (n : Nat) (feats : List (Option (Val F))) (len : Int) (ps : List (List Char × Nat)) (leaves : List Nat) (out : List F)
    (hfind : findFunc prog (name ++ "_predict".toList) = some (predictSoftFunc name dtype (name ++ "_leaves".toList) n (ps.map Prod.fst)))
    (hcalls : TreeCalls ops ext prog fuel depth (fun c => .int (c : Nat)) dtype feats len ps)
    (hg : globalsOf ops prog (name ++ "_leaves".toList) = some (.array "uint8_t".toList (leaves.map fun (b : Nat) => some (.int b)))) (hlen : leaves.length ≤ 2147483647)
    (hn0 : 1 ≤ n) (hn : n ≤ 2147483647) (hfu : n < fuel) (h1 : -2147483648 ≤ len) (h2 : len ≤ 2147483647)
    (hs : ps.foldlM (fun o p => (List.range n).foldlM (softAt ops.toFOps leaves (n * p.2)) o) (List.replicate n ops.zero) = some out)
    (hr : -2147483648 ≤ argmaxLoop ops.lt out 0 (-1) ops.zero ∧ argmaxLoop ops.lt out 0 (-1) ops.zero ≤ 2147483647) :
    callFunc ops ext prog fuel (depth + 1) (name ++ "_predict".toList) [.arr dtype feats, .num (.int len)] = some (.int (argmaxLoop ops.lt out 0 (-1) ops.zero), []) := by
  have i32 : Int32 "int".toList := .inl rfl
  have d : "out".toList ≠ nmFeatures ∧ "out".toList ≠ nmLength ∧ "offset".toList ≠ nmFeatures ∧ "offset".toList ≠ nmLength ∧ "offset".toList ≠ "out".toList ∧ "i".toList ≠ nmFeatures ∧ "i".toList ≠ nmLength := by decide +kernel
  obtain ⟨d1, d2, d3, d4, d5, d6, d7⟩ := d
  obtain ⟨n1, n2, n3, n4, n5, n6, n7, n8, n9⟩ := vs
  have hln : ∀ x : List Char, (∀ s, x ≠ s ++ "_leaves".toList) → name ++ "_leaves".toList ≠ x := fun x h e => h name e.symm
  have suf : ∀ x : List Char, ¬ ("_leaves".toList <:+ x) → name ++ "_leaves".toList ≠ x := fun x h e => h (e ▸ List.suffix_append _ _)
  set ctx : Ctx F := { globals := globalsOf ops prog, call := callFunc ops ext prog fuel depth } with hctx
  have e1 := exec_decl_array ops ctx fuel (env0 dtype feats len) [] "float".toList "out".toList n (.lit "0.0f".toList) (.flt ops.zero) (.flt ops.zero) (.flt ops.zero) true
    (.decl ⟨[], "int".toList, "offset".toList, none, some (.one (.lit "0".toList))⟩
        (votesCode (voteSoftCode n (name ++ "_leaves".toList)) (ps.map Prod.fst) (argmaxCode n "out".toList "most_voted_proba".toList "float".toList "0.0f".toList)))
    (env0_none dtype feats len d1 d2) hn0 (by rw [litZero, hk.zero]) (conv_float ops _) (by rw [conv_float_int, hk.int0])
  have hrep : (some (Val.flt ops.zero) :: List.replicate (n - 1) (some (.flt ops.zero)) : List (Option (Val F))) = flts (List.replicate n ops.zero) := by
    rw [flts, List.map_replicate, ← List.replicate_succ, Nat.sub_add_cancel hn0]
  rw [hrep] at e1
  have e2 := exec_decl ops ctx fuel ((env0 dtype feats len).set "out".toList (some (.array "float".toList (flts (List.replicate n ops.zero))))) [] "int".toList "offset".toList (.lit "0".toList)
    (.int 0) (.int 0) (votesCode (voteSoftCode n (name ++ "_leaves".toList)) (ps.map Prod.fst) (argmaxCode n "out".toList "most_voted_proba".toList "float".toList "0.0f".toList))
    (by rw [Env.set_ne _ _ d5, env0_none dtype feats len d3 d4]) (evalTop_eq ops ctx _ _ _ (by simp) (by rw [eval, lit0])) (conv_int32 ops i32 _ (by omega) (by omega))
  obtain ⟨env', g1, g2, g3, g4⟩ := exec_votesSoft ops hk ctx fuel n dtype "int32_t".toList (name ++ "_leaves".toList) feats (.int len) leaves (argmaxCode n "out".toList "most_voted_proba".toList "float".toList "0.0f".toList) ps hcalls
    hn0 hn hfu hg hlen (suf _ (by decide +kernel)) (suf _ (by decide +kernel)) (suf _ (by decide +kernel))
    (((env0 dtype feats len).set "out".toList (some (.array "float".toList (flts (List.replicate n ops.zero))))).set "offset".toList (some (.scalar "int".toList (.int 0)))) (.int 0) (List.replicate n ops.zero) out
    (by rw [Env.set_ne _ _ n5, Env.set_ne _ _ n4, env0_features]) (by rw [Env.set_ne _ _ n7, Env.set_ne _ _ n6, env0_length])
    (by rw [Env.set_ne _ _ (Ne.symm n3), Env.set_ne _ _ (Ne.symm n2), env0_none dtype feats len d6 d7])
    (by rw [Env.set_ne _ _ (suf _ (by decide +kernel)), Env.set_ne _ _ (suf _ (by decide +kernel)), env0_none dtype feats len (suf _ (by decide +kernel)) (suf _ (by decide +kernel))])
    (by rw [Env.set_ne _ _ n1, Env.set_same]) (by rw [Env.set_same]) hs
  have hnone : ∀ x, x ≠ "out".toList → x ≠ "offset".toList → x ≠ nmFeatures → x ≠ nmLength → env' x = none := fun x a b c d => by
    rw [g4 x a b, Env.set_ne _ _ b, Env.set_ne _ _ a, env0_none dtype feats len c d]
  have hz : litVal ops "0.0f".toList false = some (.flt ops.zero) := by
    have := litZero ops ctx env'
    rw [hk.zero, eval] at this
    exact this
  obtain ⟨env'', q⟩ := exec_argmax ops ctx fuel n "out".toList "most_voted_proba".toList "float".toList "float".toList "0.0f".toList (fun z : F => Val.flt z) ops.lt out ops.zero (.flt ops.zero) env' g2
    (by rw [g3]; simp) hn hfu (fun a b => by simp [binVal, toFloat]) (fun z hz => conv_float ops z) hz (conv_float ops _)
    (hnone _ (by decide +kernel) (by decide +kernel) (by decide +kernel) (by decide +kernel)) (hnone _ (by decide +kernel) (by decide +kernel) (by decide +kernel) (by decide +kernel))
    (hnone _ (by decide +kernel) (by decide +kernel) (by decide +kernel) (by decide +kernel)) (by decide +kernel) (by decide +kernel) (by decide +kernel) (by decide +kernel) (by decide +kernel)
  rw [callFunc_eq ops ext prog fuel depth _ _ _ (env0 dtype feats len) env'' (.int (argmaxLoop ops.lt out 0 (-1) ops.zero)) (.int (argmaxLoop ops.lt out 0 (-1) ops.zero)) hfind
    (bind_features ops dtype feats len h1 h2) (e1.trans (e2.trans (g1.trans q))) (conv_int32 ops (.inr rfl) _ hr.1 hr.2)]
  show some (_, writes env'' 0 (featureParams dtype)) = _
  rw [writes_features]

include hk in
theorem call_regress (name dtype : List Char) (feats : List (Option (Val F))) (len : Int) (ps : List (List Char × F))
    (hfind : findFunc prog (name ++ "_predict".toList) = some (regressorFunc name dtype (ps.map Prod.fst)))
    (hcalls : TreeCalls ops ext prog fuel depth (fun c => .flt c) dtype feats len ps) (hps : ps.length ≤ 2147483647) (h1 : -2147483648 ≤ len) (h2 : len ≤ 2147483647) :
    callFunc ops ext prog fuel (depth + 1) (name ++ "_predict".toList) [.arr dtype feats, .num (.int len)] =
      some (.flt (ops.div (ps.foldl (fun s p => ops.add s p.2) ops.zero) (ops.ofInt ps.length)), []) := by
  have d : "avg".toList ≠ nmFeatures ∧ "avg".toList ≠ nmLength := by decide +kernel
  set ctx : Ctx F := { globals := globalsOf ops prog, call := callFunc ops ext prog fuel depth } with hctx
  have e1 := exec_decl ops ctx fuel (env0 dtype feats len) [] "float".toList "avg".toList (.lit "0".toList) (.int 0) (.flt ops.zero)
    (votesCode voteRegressCode (ps.map Prod.fst) (.ret (.bin '/' (.var "avg".toList) (.lit (showNat (ps.map Prod.fst).length))) .done)) (env0_none dtype feats len d.1 d.2)
    (evalTop_eq ops ctx _ _ _ (by simp) (by rw [eval, lit0])) (by rw [conv_float_int, hk.int0])
  obtain ⟨env', g1, g2⟩ := exec_votesRegress ops ctx fuel dtype "int32_t".toList feats (.int len) (.ret (.bin '/' (.var "avg".toList) (.lit (showNat (ps.map Prod.fst).length))) .done) ps hcalls
    ((env0 dtype feats len).set "avg".toList (some (.scalar "float".toList (.flt ops.zero)))) ops.zero (by rw [Env.set_ne _ _ (Ne.symm d.1), env0_features])
    (by rw [Env.set_ne _ _ (Ne.symm d.2), env0_length]) (Env.set_same _ _ _)
  have hlen : (ps.map Prod.fst).length = ps.length := by simp
  have hv : eval ops ctx env' (.bin '/' (.var "avg".toList) (.lit (showNat (ps.map Prod.fst).length))) =
      some (.flt (ops.div (ps.foldl (fun s p => ops.add s p.2) ops.zero) (ops.ofInt ps.length))) := by
    rw [hlen, eval, eval_var ops ctx env' _ _ _ g2, eval, litVal_showNat ops _ hps]
    exact binVal_div_flt_int ops _ _
  have e3 := exec_ret ops ctx fuel env' _ _ .done (evalTop_eq ops ctx env' _ _ (by simp) hv)
  rw [callFunc_eq ops ext prog fuel depth _ _ _ (env0 dtype feats len) env' _ _ hfind (bind_features ops dtype feats len h1 h2) (e1.trans (g1.trans e3)) (conv_float ops _)]
  show some (_, writes env' 0 (featureParams dtype)) = _
  rw [writes_features]

include hk in
theorem call_probaHard (name dtype : List Char) (feats outs : List (Option (Val F))) (len : Int) (ps : List (List Char × Nat)) (out : List F)
    (hfind : findFunc prog (name ++ "_predict_proba".toList) = some (probaHardFunc name dtype (ps.map Prod.fst)))
    (hcalls : TreeCalls ops ext prog fuel depth (fun c => .int (c : Nat)) dtype feats len ps) (hps : ps.length ≤ 2147483647) (h1 : -2147483648 ≤ len) (h2 : len ≤ 2147483647)
    (hn : outs.length ≤ 2147483647) (hfu : outs.length < fuel) (hs : ps.foldlM (fun v p => addAt ops.toFOps v p.2 ops.one) (List.replicate outs.length ops.zero) = some out) :
    callFunc ops ext prog fuel (depth + 1) (name ++ "_predict_proba".toList) [.arr dtype feats, .num (.int len), .arr "float".toList outs, .num (.int outs.length)] =
      some (.int 0, [(2, flts (out.map fun x => ops.div x (ops.ofInt ps.length)))]) := by
  have i32 : Int32 "int32_t".toList := .inr rfl
  obtain ⟨m1, m2, m3, m4, m5, m6⟩ := nfl
  obtain ⟨n1, n2, n3, n4, n5⟩ := vp
  have d : "_class".toList ≠ nmFeatures ∧ "_class".toList ≠ nmLength ∧ "_class".toList ≠ "out_length".toList ∧ "i".toList ≠ nmFeatures ∧ "i".toList ≠ nmLength ∧ "i".toList ≠ "out".toList ∧ "i".toList ≠ "out_length".toList ∧ "i".toList ≠ "_class".toList := by decide +kernel
  obtain ⟨d1, d2, d3, d4, d5, d6, d7, d8⟩ := d
  have e1none : ∀ x, x ≠ nmFeatures → x ≠ nmLength → x ≠ "out".toList → x ≠ "out_length".toList → env1 dtype feats len outs outs.length x = none := fun x a b c d => by
    unfold env1; rw [Env.set_ne _ _ d, Env.set_ne _ _ c, env0_none dtype feats len a b]
  set ctx : Ctx F := { globals := globalsOf ops prog, call := callFunc ops ext prog fuel depth } with hctx
  have e1 := exec_decl ops ctx fuel (env1 dtype feats len outs outs.length) [] "int32_t".toList "_class".toList (.neg (.lit "1".toList)) (.int (-1)) (.int (-1))
    (zeroLoop (votesCode voteProbaCode (ps.map Prod.fst) (meanLoop (ps.map Prod.fst).length))) (e1none _ d1 d2 (Ne.symm n1) d3)
    (evalTop_eq ops ctx _ _ _ (by simp) (by rw [eval, litNeg1])) (conv_int32 ops i32 _ (by omega) (by omega))
  set ea := (env1 dtype feats len outs outs.length).set "_class".toList (some (.scalar "int32_t".toList (.int (-1)))) with hea
  have a1 : ea "out".toList = some (.array "float".toList outs) := by rw [hea, Env.set_ne _ _ n1, env1, Env.set_ne _ _ (Ne.symm m6), Env.set_same]
  have a2 : ea "out_length".toList = some (.scalar "int".toList (.int outs.length)) := by rw [hea, Env.set_ne _ _ (Ne.symm d3), env1, Env.set_same]
  have a3 : ea "i".toList = none := by rw [hea, Env.set_ne _ _ d8, e1none _ d4 d5 d6 d7]
  have a4 : ea nmFeatures = some (.array dtype feats) := by rw [hea, Env.set_ne _ _ n3, env1, Env.set_ne _ _ (Ne.symm m4), Env.set_ne _ _ n2, env0_features]
  have a5 : ea nmLength = some (.scalar "int32_t".toList (.int len)) := by rw [hea, Env.set_ne _ _ n5, env1, Env.set_ne _ _ (Ne.symm m5), Env.set_ne _ _ n4, env0_length]
  have a6 : ea "_class".toList = some (.scalar "int32_t".toList (.int (-1))) := by rw [hea, Env.set_same]
  clear_value ea
  obtain ⟨eb, b1, b2, b3⟩ := exec_zeroLoop ops hk ctx fuel (votesCode voteProbaCode (ps.map Prod.fst) (meanLoop (ps.map Prod.fst).length)) outs ea outs.length hn hfu rfl a1 a2 a3
  obtain ⟨ec, c1, c2, c3, c4⟩ := exec_votesProba ops hk ctx fuel dtype "int32_t".toList feats (.int len) (meanLoop (ps.map Prod.fst).length) ps hcalls eb (.int (-1)) (List.replicate outs.length ops.zero) out
    (by rw [b3 _ n2, a4]) (by rw [b3 _ n4, a5]) b2 (by rw [b3 _ (Ne.symm n1), a6]) (by simpa using hn) hs
  obtain ⟨ed, q1, q2, -⟩ := exec_meanLoop ops ctx fuel (ps.map Prod.fst).length (by simpa using hps) out ec outs.length hn hfu (by rw [c3]; simp) c2
    (by rw [c4 _ m6 (Ne.symm d3), b3 _ m6, a2]) (by rw [c4 _ d6 d8, b3 _ d6, a3])
  rw [callFunc_eq ops ext prog fuel depth _ _ _ (env1 dtype feats len outs outs.length) ed _ _ hfind (bind_proba ops dtype feats outs len outs.length h1 h2 (by omega) (by omega))
    (e1.trans (b1.trans (c1.trans q1))) (conv_int32 ops (.inl rfl) 0 (by omega) (by omega))]
  show some (_, writes ed 0 (probaParams dtype)) = _
  rw [writes_proba dtype ed _ q2, List.length_map]

include hk in
theorem call_probaSoft (name dtype : List Char) (n : Nat) (feats outs : List (Option (Val F))) (len : Int) (ps : List (List Char × Nat)) (leaves : List Nat) (out : List F)
    (hfind : findFunc prog (name ++ "_predict_proba".toList) = some (probaSoftFunc name dtype (name ++ "_leaves".toList) n (ps.map Prod.fst)))
    (hcalls : TreeCalls ops ext prog fuel depth (fun c => .int (c : Nat)) dtype feats len ps)
    (hg : globalsOf ops prog (name ++ "_leaves".toList) = some (.array "uint8_t".toList (leaves.map fun (b : Nat) => some (.int b)))) (hlen : leaves.length ≤ 2147483647)
    (hn0 : 1 ≤ n) (hnn : n ≤ 2147483647) (hfun : n < fuel) (hps : ps.length ≤ 2147483647) (h1 : -2147483648 ≤ len) (h2 : len ≤ 2147483647)
    (hn : outs.length ≤ 2147483647) (hfu : outs.length < fuel)
    (hs : ps.foldlM (fun o p => (List.range n).foldlM (softAt ops.toFOps leaves (n * p.2)) o) (List.replicate outs.length ops.zero) = some out) :
    callFunc ops ext prog fuel (depth + 1) (name ++ "_predict_proba".toList) [.arr dtype feats, .num (.int len), .arr "float".toList outs, .num (.int outs.length)] =
      some (.int 0, [(2, flts (out.map fun x => ops.div x (ops.ofInt ps.length)))]) := by
  have i32 : Int32 "int".toList := .inl rfl
  obtain ⟨m1, m2, m3, m4, m5, m6⟩ := nfl
  obtain ⟨n1, n2, n3, n4, n5, n6, n7, n8, n9⟩ := vs
  have d : "offset".toList ≠ nmFeatures ∧ "offset".toList ≠ nmLength ∧ "offset".toList ≠ "out_length".toList ∧ "i".toList ≠ nmFeatures ∧ "i".toList ≠ nmLength ∧ "i".toList ≠ "out_length".toList := by decide +kernel
  obtain ⟨d1, d2, d3, d4, d5, d7⟩ := d
  have suf : ∀ x : List Char, ¬ ("_leaves".toList <:+ x) → name ++ "_leaves".toList ≠ x := fun x h e => h (e ▸ List.suffix_append _ _)
  have s1 := suf nmFeatures (by decide +kernel)
  have s2 := suf nmLength (by decide +kernel)
  have s3 := suf "out".toList (by decide +kernel)
  have s4 := suf "out_length".toList (by decide +kernel)
  have s5 := suf "offset".toList (by decide +kernel)
  have s6 := suf "i".toList (by decide +kernel)
  have e1none : ∀ x, x ≠ nmFeatures → x ≠ nmLength → x ≠ "out".toList → x ≠ "out_length".toList → env1 dtype feats len outs outs.length x = none := fun x a b c d => by
    unfold env1; rw [Env.set_ne _ _ d, Env.set_ne _ _ c, env0_none dtype feats len a b]
  set ctx : Ctx F := { globals := globalsOf ops prog, call := callFunc ops ext prog fuel depth } with hctx
  have e1 := exec_decl ops ctx fuel (env1 dtype feats len outs outs.length) [] "int".toList "offset".toList (.lit "0".toList) (.int 0) (.int 0)
    (zeroLoop (votesCode (voteSoftCode n (name ++ "_leaves".toList)) (ps.map Prod.fst) (meanLoop (ps.map Prod.fst).length))) (e1none _ d1 d2 (Ne.symm n1) d3)
    (evalTop_eq ops ctx _ _ _ (by simp) (by rw [eval, lit0])) (conv_int32 ops i32 _ (by omega) (by omega))
  set ea := (env1 dtype feats len outs outs.length).set "offset".toList (some (.scalar "int".toList (.int 0))) with hea
  have a1 : ea "out".toList = some (.array "float".toList outs) := by rw [hea, Env.set_ne _ _ n1, env1, Env.set_ne _ _ (Ne.symm m6), Env.set_same]
  have a2 : ea "out_length".toList = some (.scalar "int".toList (.int outs.length)) := by rw [hea, Env.set_ne _ _ (Ne.symm d3), env1, Env.set_same]
  have a3 : ea "i".toList = none := by rw [hea, Env.set_ne _ _ (Ne.symm n3), e1none _ d4 d5 (Ne.symm n2) d7]
  have a4 : ea nmFeatures = some (.array dtype feats) := by rw [hea, Env.set_ne _ _ n5, env1, Env.set_ne _ _ (Ne.symm m4), Env.set_ne _ _ n4, env0_features]
  have a5 : ea nmLength = some (.scalar "int32_t".toList (.int len)) := by rw [hea, Env.set_ne _ _ n7, env1, Env.set_ne _ _ (Ne.symm m5), Env.set_ne _ _ n6, env0_length]
  have a6 : ea "offset".toList = some (.scalar "int".toList (.int 0)) := by rw [hea, Env.set_same]
  have a7 : ea (name ++ "_leaves".toList) = none := by rw [hea, Env.set_ne _ _ s5, e1none _ s1 s2 s3 s4]
  clear_value ea
  obtain ⟨eb, b1, b2, b3⟩ := exec_zeroLoop ops hk ctx fuel (votesCode (voteSoftCode n (name ++ "_leaves".toList)) (ps.map Prod.fst) (meanLoop (ps.map Prod.fst).length)) outs ea outs.length hn hfu rfl a1 a2 a3
  obtain ⟨ec, c1, c2, c3, c4⟩ := exec_votesSoft ops hk ctx fuel n dtype "int32_t".toList (name ++ "_leaves".toList) feats (.int len) leaves (meanLoop (ps.map Prod.fst).length) ps hcalls
    hn0 hnn hfun hg hlen s6 s3 s5 eb (.int 0) (List.replicate outs.length ops.zero) out
    (by rw [b3 _ n4, a4]) (by rw [b3 _ n6, a5]) (by rw [b3 _ (Ne.symm n2), a3]) (by rw [b3 _ s3, a7]) b2 (by rw [b3 _ (Ne.symm n1), a6]) hs
  obtain ⟨ed, q1, q2, -⟩ := exec_meanLoop ops ctx fuel (ps.map Prod.fst).length (by simpa using hps) out ec outs.length hn hfu (by rw [c3]; simp) c2
    (by rw [c4 _ m6 (Ne.symm d3), b3 _ m6, a2]) (by rw [c4 _ (Ne.symm n2) (Ne.symm n3), b3 _ (Ne.symm n2), a3])
  rw [callFunc_eq ops ext prog fuel depth _ _ _ (env1 dtype feats len outs outs.length) ed _ _ hfind (bind_proba ops dtype feats outs len outs.length h1 h2 (by omega) (by omega))
    (e1.trans (b1.trans (c1.trans q1))) (conv_int32 ops (.inl rfl) 0 (by omega) (by omega))]
  show some (_, writes ed 0 (probaParams dtype)) = _
  rw [writes_proba dtype ed _ q2, List.length_map]
end
end Emlearn.Trees
