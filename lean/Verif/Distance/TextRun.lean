/- What a C compiler makes of the code generated for an elliptic envelope: the `EmlEllipticEnvelope` structure and the call into `eml_distance.h`.
`fieldFloat`, `readEnvelope`, `envelopeLib` are part of the specification (initialisers of structures, `eml_distance.h` 44-49, and the function modelled in `Distance/Model.lean`). -/
import Verif.Distance.Text
import Verif.Neighbors.TextRun
namespace Emlearn.Distance.CText
open Emlearn.Cgen Emlearn.MiniC Emlearn.Net.CText
variable {F : Type}

/-- A constant expression that initialises a field of type `float`. -/
def fieldFloat (ops : CFloat F) (e : Expr) : Option F :=
  match (eval ops { globals := fun _ => none, call := fun _ _ => none } (fun _ => none) e).bind (conv ops "float".toList) with
  | some (.flt x) => some x
  | _ => none

/-- The variable `g` of type `EmlEllipticEnvelope` (`eml_distance.h` 44-49); the arrays are declared before it. -/
def readEnvelope (ops : CFloat F) (prog : Prog) (g : List Char) : Option (Envelope F) :=
  match findDecl prog g with
  | some d =>
    match d.size, d.init with
    | none, some (.flat [nf, off, .var x1, .var x2] _) =>
      match fieldInt ops "int".toList nf, fieldFloat ops off, readFloats ops (before prog g) x1, readFloats ops (before prog g) x2 with
      | some nf, some off, some means, some precision => if d.ty = "EmlEllipticEnvelope".toList ∧ 0 ≤ nf then some ⟨nf.toNat, off, means, precision⟩ else none
      | _, _, _, _ => none
    | _, _ => none
  | none => none

/-- `eml_elliptic_envelope_predict` (`eml_distance.h` 60-82) on the structure that the first argument points to: `predictN`. -/
def envelopeLib [Zero F] [Add F] [Sub F] [Mul F] [Neg F] [LT F] [DecidableLT F] (ops : CFloat F) (prog : Prog) (f : List Char) (args : List (ArgVal F)) : Option (CallResult F) :=
  match args with
  | [.ref g, .arr ty feats, .num (.int n), .arr oty (o :: outs)] =>
    match readEnvelope ops prog g, fltsOf feats with
    | some e, some xs =>
      if f = "eml_elliptic_envelope_predict".toList ∧ ty = "float".toList ∧ oty = "float".toList then
        (predictN e xs n).map fun r => (.int r.1, [(3, (match r.2 with | some d => some (.flt d) | none => o) :: outs)])
      else none
    | _, _ => none
  | _ => none

/-! ### The structure -/

section
variable (pre : List Char) (means precision : List ℚ) (offset : PyFloat)

theorem vars_nodup : ((arrays pre means precision ++ [classifierVar pre means.length offset]).map (·.name)).Nodup := by
  have e : (arrays pre means precision ++ [classifierVar pre means.length offset]).map (·.name) = ["_means".toList, "_precisions".toList, "_classifier".toList].map (pre ++ ·) := rfl
  rw [e]
  exact List.Nodup.map (fun a b h => List.append_cancel_left h) (by decide +kernel)

theorem readFloats_mem (ops : CFloat F) (name : List Char) (vs : List ℚ) (hne : vs ≠ []) (h : floatArr name vs ∈ arrays pre means precision) :
    readFloats ops ((arrays pre means precision).map .decl) name = some (vs.map (floatLit ops)) := by
  have hnd : ((arrays pre means precision).map (·.name)).Nodup := by
    have := vars_nodup pre means precision ⟨false, 0, 0⟩
    rw [List.map_append] at this
    exact (List.nodup_append.1 this).1
  have hf := findDecl_mem (arrays pre means precision) [] (by simp) hnd _ h
  rw [List.append_nil] at hf
  have hf' : findDecl ((arrays pre means precision).map .decl) name = some (floatArr name vs) := hf
  unfold readFloats globalsOf
  rw [hf']
  simp only
  rw [declare_floatArr ops _ name vs hne _ rfl, Option.bind_some, Env.set_same]
  simp only [if_true]
  have := fltsOf_flts (vs.map (floatLit ops))
  rw [List.map_map] at this
  exact this

theorem eval_offset (ops : CFloat F) (ctx : Ctx F) (env : Env F) : eval ops ctx env (sgnExpr (offsetSgn offset)) = some (.flt (ops.lit offset.neg offset.mag)) := by
  have h := fun neg => litVal_float ops offset.magText offset.mag neg (readDec_text offset)
  unfold sgnExpr offsetSgn
  simp only
  cases offset.neg
  · simp only [Bool.false_eq_true, if_false, eval, h]
  · simp only [if_true, eval, h]

theorem readEnvelope_generated (ops : CFloat F) (h1 : means ≠ []) (h2 : precision ≠ []) (hf : means.length ≤ 2147483647) :
    readEnvelope ops (envelopeProg pre means precision offset) (pre ++ "_classifier".toList) =
      some ⟨means.length, ops.lit offset.neg offset.mag, means.map (floatLit ops), precision.map (floatLit ops)⟩ := by
  have hnd := vars_nodup pre means precision offset
  have hfind : findDecl (envelopeProg pre means precision offset) (pre ++ "_classifier".toList) = some (classifierVar pre means.length offset) := by
    have := findDecl_mem (arrays pre means precision ++ [classifierVar pre means.length offset]) [.func (predictF pre)]
      (by intro t ht d; simp only [List.mem_cons, List.not_mem_nil, or_false] at ht; subst ht; exact fun h => by cases h) hnd (classifierVar pre means.length offset) (by simp)
    rw [List.map_append, List.append_assoc] at this
    exact this
  have hbefore : before (envelopeProg pre means precision offset) (pre ++ "_classifier".toList) = (arrays pre means precision).map .decl := by
    refine before_append (arrays pre means precision) (classifierVar pre means.length offset) _ ?_
    intro d hd he
    rw [List.map_append] at hnd
    exact (List.nodup_append.1 hnd).2.2 d.name (List.mem_map_of_mem hd) (classifierVar pre means.length offset).name (by simp) he
  have hnf : fieldInt ops "int".toList (.lit (showNat means.length)) = some (means.length : Int) :=
    fieldInt_eq ops (by rw [eval, litVal_showNat ops _ hf]; rfl) (conv_int32 ops (.inl rfl) _ (by omega) (by omega))
  have hoff : fieldFloat ops (sgnExpr (offsetSgn offset)) = some (ops.lit offset.neg offset.mag) := by
    unfold fieldFloat
    rw [eval_offset, Option.bind_some, conv_float]
  unfold readEnvelope
  rw [hfind, hbefore]
  unfold classifierVar
  simp only
  rw [hnf, hoff, readFloats_mem pre means precision ops _ _ h1 (by simp [arrays]), readFloats_mem pre means precision ops _ _ h2 (by simp [arrays])]
  simp only
  rw [if_pos ⟨trivial, by omega⟩]
  simp

/-! ### The function -/

theorem litVal_zero (ops : CFloat F) : litVal ops "0.0".toList false = some (.flt (ops.lit false 0)) := by
  have h : ("0.0".toList.getLast? = some 'f') = False ∧ ("0.0".toList.head? = some '0' ∧ 1 < "0.0".toList.length) ∧ readDec "0.0".toList = some 0 := by decide +kernel
  unfold litVal
  rw [if_neg (by rw [h.1]; exact id), if_pos h.2.1, if_pos h.2.2]

theorem find_predict : findFunc (envelopeProg pre means precision offset) (pre ++ "_predict".toList) = some (predictF pre) := by
  refine findFunc_eq _ (predictF pre) (by simp [envelopeProg]) ?_
  intro g hg _
  unfold envelopeProg arrays at hg
  simpa using hg

theorem find_lib (h : pre ≠ "eml_elliptic_envelope".toList) : findFunc (envelopeProg pre means precision offset) "eml_elliptic_envelope_predict".toList = none := by
  have : pre ++ "_predict".toList ≠ "eml_elliptic_envelope_predict".toList := by
    rw [show "eml_elliptic_envelope_predict".toList = "eml_elliptic_envelope".toList ++ "_predict".toList by decide +kernel]
    exact fun e => h (List.append_cancel_right e)
  unfold findFunc envelopeProg arrays
  simp only [List.map_cons, List.map_nil, List.cons_append, List.nil_append, List.findSome?_cons, List.findSome?_nil]
  rw [if_neg (show ¬ (predictF pre).name = _ from this)]



/-- What the function does: `dist` starts as zero, the library function may store a distance, `dist` is returned. -/
theorem predict_call (ops : CFloat F) (ext : List Char → List (ArgVal F) → Option (CallResult F)) (p : Prog) (fuel depth : Nat) (hfind : findFunc p (pre ++ "_predict".toList) = some (predictF pre))
    (hlib : findFunc p "eml_elliptic_envelope_predict".toList = none) (feats : List (Option (Val F))) (len : Int) (h1 : -2147483648 ≤ len) (h2 : len ≤ 2147483647)
    (r : Option (Int × F)) (hr : ∀ q, r = some q → -2147483648 ≤ q.1 ∧ q.1 ≤ 2147483647)
    (hext : ext "eml_elliptic_envelope_predict".toList [.ref (pre ++ "_classifier".toList), .arr "float".toList feats, .num (.int len), .arr "float".toList [some (.flt (ops.lit false 0))]] =
      r.map fun q => (.int q.1, [(3, [some (.flt q.2)])])) :
    callFunc ops ext p fuel (depth + 2) (pre ++ "_predict".toList) [.arr "float".toList feats, .num (.int len)] = r.map fun q => (.flt q.2, []) := by
  obtain ⟨env0, henv0⟩ : ∃ env0 : Env F, env0 = Env.set (Env.set (fun _ => none) "features".toList (some (.array "float".toList feats))) "n_features".toList (some (.scalar "int".toList (.int len))) := ⟨_, rfl⟩
  have n1 : "dist".toList ≠ "features".toList := by decide +kernel
  have n2 : "dist".toList ≠ "n_features".toList := by decide +kernel
  have n3 : "n_features".toList ≠ "features".toList := by decide +kernel
  have n4 : "class".toList ≠ "dist".toList := by decide +kernel
  have n5 : "class".toList ≠ "features".toList := by decide +kernel
  have n6 : "class".toList ≠ "n_features".toList := by decide +kernel
  have suf : ∀ x : List Char, "_classifier".toList.isSuffixOf x = false → pre ++ "_classifier".toList ≠ x := by
    intro x hx e
    have : "_classifier".toList.isSuffixOf (pre ++ "_classifier".toList) = true := by simp
    rw [e, hx] at this
    cases this
  have c1 := suf "dist".toList (by decide +kernel)
  have c2 := suf "features".toList (by decide +kernel)
  have c3 := suf "n_features".toList (by decide +kernel)
  have hbind : bindParams ops (predictF pre).params [.arr "float".toList feats, .num (.int len)] (fun _ => none) = some env0 := by
    show bindParams ops [⟨true, "float".toList, true, "features".toList⟩, ⟨false, "int".toList, false, "n_features".toList⟩] _ _ = _
    rw [bindParams_ptr _ _ _ _ _ _ _ _ rfl, bindParams_num ops false "int".toList "n_features".toList _ (.int len) (.int len) _ _ (by rw [Env.set_ne _ _ n3]) (conv_int32 ops (.inl rfl) _ h1 h2), ← henv0]
    exact bindParams_nil ops env0
  obtain ⟨env1, henv1⟩ : ∃ env1 : Env F, env1 = env0.set "dist".toList (some (.scalar "float".toList (.flt (ops.lit false 0)))) := ⟨_, rfl⟩
  have ex1 : env0 "dist".toList = none := by rw [henv0, Env.set_ne _ _ n2, Env.set_ne _ _ n1]
  have af : env1 "features".toList = some (.array "float".toList feats) := by rw [henv1, Env.set_ne _ _ n1.symm, henv0, Env.set_ne _ _ n3.symm, Env.set_same]
  have an : env1 "n_features".toList = some (.scalar "int".toList (.int len)) := by rw [henv1, Env.set_ne _ _ n2.symm, henv0, Env.set_same]
  have ad : env1 "dist".toList = some (.scalar "float".toList (.flt (ops.lit false 0))) := by rw [henv1, Env.set_same]
  have am : env1 (pre ++ "_classifier".toList) = none := by rw [henv1, Env.set_ne _ _ c1, henv0, Env.set_ne _ _ c3, Env.set_ne _ _ c2]
  have ac : env1 "class".toList = none := by rw [henv1, Env.set_ne _ _ n4, henv0, Env.set_ne _ _ n6, Env.set_ne _ _ n5]
  have hargs : ∀ ctx : Ctx F, ([⟨some '&', pre ++ "_classifier".toList⟩, ⟨none, "features".toList⟩, ⟨none, "n_features".toList⟩, ⟨some '&', "dist".toList⟩] : List Arg).mapM (evalArg ops ctx env1) =
      some [.ref (pre ++ "_classifier".toList), .arr "float".toList feats, .num (.int len), .arr "float".toList [some (.flt (ops.lit false 0))]] := by
    intro ctx
    have e4 : evalArg ops ctx env1 ⟨some '&', "dist".toList⟩ = some (.arr "float".toList [some (.flt (ops.lit false 0))]) := by
      unfold evalArg
      simp only [if_true, ad]
    rw [List.mapM_cons, evalArg_ref ops am, List.mapM_cons, evalArg_local ops (by decide +kernel) af, List.mapM_cons, evalArg_num ops (by decide +kernel) an, List.mapM_cons, e4]
    rfl
  have hcall : callFunc ops ext p fuel (depth + 1) "eml_elliptic_envelope_predict".toList [.ref (pre ++ "_classifier".toList), .arr "float".toList feats, .num (.int len), .arr "float".toList [some (.flt (ops.lit false 0))]] =
      r.map fun q => (.int q.1, [(3, [some (.flt q.2)])]) := by rw [callFunc, hlib]; exact hext
  have hu : (Expr.call "eml_elliptic_envelope_predict".toList [⟨some '&', pre ++ "_classifier".toList⟩, ⟨none, "features".toList⟩, ⟨none, "n_features".toList⟩, ⟨some '&', "dist".toList⟩]).uses "class".toList = false := by
    have c4 := suf "class".toList (by decide +kernel)
    have c5 : "eml_elliptic_envelope_predict".toList ≠ "class".toList := by decide +kernel
    unfold Expr.uses
    simp only [List.any_cons, List.any_nil, Bool.or_false, Bool.or_eq_false_iff, beq_eq_false_iff_ne]
    exact ⟨c5, c4, n5.symm, n6.symm, n4.symm⟩
  cases r with
  | none =>
    refine callFunc_none ops ext p fuel (depth + 1) _ _ _ _ hfind hbind ?_
    show exec ops _ fuel (predictBody pre) env0 = none
    unfold predictBody
    rw [exec_decl ops _ fuel env0 _ _ _ _ (.flt (ops.lit false 0)) (.flt (ops.lit false 0)) _ ex1 (by rw [evalTop_eq ops _ _ _ _ (by intro f a h; cases h) (by rw [eval]; exact litVal_zero ops)]) (conv_float ops _), ← henv1]
    exact exec_decl_none ops _ fuel env1 _ _ _ _ _ (evalTop_call_none ops _ _ _ _ _ (hargs _) hcall)
  | some q =>
    obtain ⟨z, d⟩ := q
    obtain ⟨z1, z2⟩ := hr _ rfl
    rw [Option.map_some] at hcall
    obtain ⟨env2, henv2⟩ : ∃ env2 : Env F, env2 = env1.set "dist".toList (some (.scalar "float".toList (.flt d))) := ⟨_, rfl⟩
    have htop : evalTop ops { globals := globalsOf ops p, call := callFunc ops ext p fuel (depth + 1) } env1
        (.call "eml_elliptic_envelope_predict".toList [⟨some '&', pre ++ "_classifier".toList⟩, ⟨none, "features".toList⟩, ⟨none, "n_features".toList⟩, ⟨some '&', "dist".toList⟩]) = some (.int z, env2) := by
      rw [evalTop, hargs]
      simp only [hcall]
      have : writeBack env1 [⟨some '&', pre ++ "_classifier".toList⟩, ⟨none, "features".toList⟩, ⟨none, "n_features".toList⟩, ⟨some '&', "dist".toList⟩] [(3, [some (.flt d)])] = some env2 := by
        rw [writeBack]
        show (match env1 "dist".toList, [some (Val.flt d)] with
          | some (.array ty _), vs => _
          | some (.scalar ty _), [some v] => _
          | _, _ => _) = _
        rw [ad]
        simp only [writeBack]
        rw [henv2]
      rw [this]
      rfl
    have hex : exec ops { globals := globalsOf ops p, call := callFunc ops ext p fuel (depth + 1) } fuel (predictF pre).body env0 = some (.returned (.flt d) (env2.set "class".toList (some (.scalar "int".toList (.int z))))) := by
      show exec ops _ fuel (predictBody pre) env0 = _
      unfold predictBody
      rw [exec_decl ops _ fuel env0 _ _ _ _ (.flt (ops.lit false 0)) (.flt (ops.lit false 0)) _ ex1 (by rw [evalTop_eq ops _ _ _ _ (by intro f a h; cases h) (by rw [eval]; exact litVal_zero ops)]) (conv_float ops _), ← henv1,
        Neighbors.CText.exec_decl_top ops _ fuel env1 env2 _ _ _ _ (.int z) (.int z) _ ac htop (conv_int32 ops (.inl rfl) _ z1 z2) hu]
      refine exec_ret ops _ fuel _ _ _ _ (evalTop_eq ops _ _ _ _ (by intro f a h; cases h) (eval_var ops _ _ _ "float".toList _ ?_))
      rw [Env.set_ne _ _ n4.symm, henv2, Env.set_same]
    rw [callFunc_eq ops ext p fuel (depth + 1) _ _ _ _ _ (.flt d) (.flt d) hfind hbind hex (conv_float ops _)]
    show some (_, writes _ 0 [⟨true, "float".toList, true, "features".toList⟩, ⟨false, "int".toList, false, "n_features".toList⟩]) = _
    rw [writes_skip _ _ _ _ rfl, writes_skip _ _ _ _ rfl]
    rfl

end

end Emlearn.Distance.CText
