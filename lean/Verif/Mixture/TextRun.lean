/- What a C compiler makes of the code generated for mixture models: the `EmlMixtureModel` structure and the calls into `eml_mixture.h`.
`readCov`, `readMixture`, `mixtureLib` are part of the specification (initialisers of structures, `eml_mixture.h` 84-117, and the functions modelled in `Mixture/Model.lean`). -/
import Verif.Mixture.Text
namespace Emlearn.Mixture.CText
open Emlearn.Cgen Emlearn.MiniC Emlearn.Net.CText
variable {F : Type}

/-- The constants of `EmlCovarianceType`, `eml_mixture.h` 84-89. -/
def readCov (w : List Char) : Option Cov :=
  if w = "EmlCovarianceFull".toList then some .full
  else if w = "EmlCovarianceTied".toList then some .tied
  else if w = "EmlCovarianceDiagonal".toList then some .diagonal
  else if w = "EmlCovarianceSpherical".toList then some .spherical
  else none

/-- The variable `g` of type `EmlMixtureModel` (`eml_mixture.h` 96-112); the arrays are declared before it. -/
def readMixture (ops : CFloat F) (prog : Prog) (g : List Char) : Option (Model F) :=
  match findDecl prog g with
  | some d =>
    match d.size, d.init with
    | none, some (.flat [nc, nf, .var cov, .var x1, .var x2, .var x3, .var x4] _) =>
      match fieldInt ops "int32_t".toList nc, fieldInt ops "int32_t".toList nf, readCov cov, readFloats ops (before prog g) x1, readFloats ops (before prog g) x2, readFloats ops (before prog g) x3,
        readFloats ops (before prog g) x4 with
      | some nc, some nf, some cov, some means, some precisions, some logDets, some logWeights =>
        if d.ty = "EmlMixtureModel".toList ∧ 0 ≤ nc ∧ 0 ≤ nf then some ⟨nc.toNat, nf.toNat, cov, means, precisions, logDets, logWeights⟩ else none
      | _, _, _, _, _, _, _ => none
    | _, _ => none
  | none => none

/-- The array behind an output pointer after the first elements have been written. -/
def overwrite (ys : List F) (vs : List (Option (Val F))) : List (Option (Val F)) := ys.map (fun y => some (.flt y)) ++ vs.drop ys.length

/-- The three functions of `eml_mixture.h` used by generated code, on the structure that the first argument points to. `eml_mixture_predict_log_proba` (165-255) is `predictLogProba`; it does not read its output
array, which may be uninitialised, and does not look at the length. On success `eml_mixture_score` (269-297) stores `lse` of the component values, and `eml_mixture_predict_proba` (299-323) the values `ex (p - score)`. Only on success is
anything written. -/
def mixtureLib [Zero F] [Add F] [Sub F] [Mul F] (ops : CFloat F) (comb : Nat → F → F → F) (lse : List F → F) (ex : F → F) (prog : Prog) (f : List Char) (args : List (ArgVal F)) : Option (CallResult F) :=
  match args with
  | .ref g :: .arr ty feats :: .num (.int _) :: .arr oty outs :: rest =>
    match readMixture ops prog g, fltsOf feats with
    | some m, some xs =>
      if ty = "float".toList ∧ oty = "float".toList then
        match predictLogProba comb m xs (List.replicate outs.length 0) with
        | none => none
        | some (code, res) =>
          let ps := res.take m.nComponents
          match rest with
          | [] => if f = "eml_mixture_predict_log_proba".toList then some (.int code, numbered 3 [if code = 0 then overwrite ps outs else outs]) else none
          | [.arr sty s] =>
            if f = "eml_mixture_score".toList ∧ sty = "float".toList ∧ 0 < s.length then
              some (.int code, numbered 3 (if code = 0 then [overwrite ps outs, overwrite [lse ps] s] else [outs, s]))
            else none
          | [.arr sty s, .arr rty r] =>
            if f = "eml_mixture_predict_proba".toList ∧ sty = "float".toList ∧ rty = "float".toList ∧ 0 < s.length then
              if code = 0 then
                if m.nComponents ≤ r.length then some (.int code, numbered 3 [overwrite ps outs, overwrite [lse ps] s, overwrite (ps.map fun p => ex (p - lse ps)) r]) else none
              else some (.int code, numbered 3 [outs, s, r])
            else none
          | _ => none
      else none
    | _, _ => none
  | _ => none

/-! ### The structure -/

theorem readCov_type (cov : Cov) : readCov (covarianceType cov) = some cov := by cases cov <;> decide +kernel

section
variable (pre : List Char) (means : List (List ℚ)) (prec : List (List (List ℚ))) (logDets logWeights : List ℚ) (nf : Nat) (cov : Cov)

theorem vars_nodup : ((arrays pre means prec logDets logWeights ++ [modelVar pre means.length nf cov]).map (·.name)).Nodup := by
  have e : (arrays pre means prec logDets logWeights ++ [modelVar pre means.length nf cov]).map (·.name) =
      ["_means".toList, "_precisions".toList, "_log_weights".toList, "_log_dets".toList, "_model".toList].map (pre ++ ·) := rfl
  rw [e]
  exact List.Nodup.map (fun a b h => List.append_cancel_left h) (by decide +kernel)

theorem readFloats_mem (ops : CFloat F) (name : List Char) (vs : List ℚ) (hne : vs ≠ []) (h : floatArr name vs ∈ arrays pre means prec logDets logWeights) :
    readFloats ops ((arrays pre means prec logDets logWeights).map .decl) name = some (vs.map (floatLit ops)) := by
  have hnd : ((arrays pre means prec logDets logWeights).map (·.name)).Nodup := by
    have := vars_nodup pre means prec logDets logWeights 0 .full
    rw [List.map_append] at this
    exact (List.nodup_append.1 this).1
  have hf := findDecl_mem (arrays pre means prec logDets logWeights) [] (by simp) hnd _ h
  rw [List.append_nil] at hf
  have hf' : findDecl ((arrays pre means prec logDets logWeights).map .decl) name = some (floatArr name vs) := hf
  unfold readFloats globalsOf
  rw [hf']
  simp only
  rw [declare_floatArr ops _ name vs hne _ rfl, Option.bind_some, Env.set_same]
  simp only [if_true]
  have := fltsOf_flts (vs.map (floatLit ops))
  rw [List.map_map] at this
  exact this

theorem readMixture_generated (ops : CFloat F) (h1 : means.flatten ≠ []) (h2 : prec.flatten.flatten ≠ []) (h3 : logDets ≠ []) (h4 : logWeights ≠ []) (hc : means.length ≤ 2147483647) (hf : nf ≤ 2147483647) :
    readMixture ops (mixtureProg pre means prec logDets logWeights nf cov) (pre ++ "_model".toList) =
      some ⟨means.length, nf, cov, means.flatten.map (floatLit ops), prec.flatten.flatten.map (floatLit ops), logDets.map (floatLit ops), logWeights.map (floatLit ops)⟩ := by
  have hnd := vars_nodup pre means prec logDets logWeights nf cov
  have hfind : findDecl (mixtureProg pre means prec logDets logWeights nf cov) (pre ++ "_model".toList) = some (modelVar pre means.length nf cov) := by
    have := findDecl_mem (arrays pre means prec logDets logWeights ++ [modelVar pre means.length nf cov]) [.func (logProbaF pre), .func (scoreF pre), .func (probaF pre)]
      (by intro t ht d; simp only [List.mem_cons, List.not_mem_nil, or_false] at ht; rcases ht with rfl | rfl | rfl <;> exact fun h => by cases h) hnd (modelVar pre means.length nf cov) (by simp)
    rw [List.map_append, List.append_assoc] at this
    exact this
  have hbefore : before (mixtureProg pre means prec logDets logWeights nf cov) (pre ++ "_model".toList) = (arrays pre means prec logDets logWeights).map .decl := by
    refine before_append (arrays pre means prec logDets logWeights) (modelVar pre means.length nf cov) _ ?_
    intro d hd he
    rw [List.map_append] at hnd
    exact (List.nodup_append.1 hnd).2.2 d.name (List.mem_map_of_mem hd) (modelVar pre means.length nf cov).name (by simp) he
  have r : ∀ (x : List Char) (vs : List ℚ), vs ≠ [] → floatArr x vs ∈ arrays pre means prec logDets logWeights → readFloats ops ((arrays pre means prec logDets logWeights).map .decl) x = some (vs.map (floatLit ops)) :=
    fun x vs hne hm => readFloats_mem pre means prec logDets logWeights ops x vs hne hm
  unfold readMixture
  rw [hfind, hbefore]
  unfold modelVar
  simp only
  rw [fieldInt_nat ops _ hc, fieldInt_nat ops _ hf, readCov_type, r _ _ h1 (by simp [arrays]), r _ _ h2 (by simp [arrays]), r _ _ h3 (by simp [arrays]), r _ _ h4 (by simp [arrays])]
  simp only
  rw [if_pos ⟨trivial, by omega, by omega⟩]
  simp

/-! ### The functions -/

theorem find_fwd (f : Func) (h : f = logProbaF pre ∨ f = scoreF pre ∨ f = probaF pre) : findFunc (mixtureProg pre means prec logDets logWeights nf cov) f.name = some f := by
  have n1 : pre ++ "_predict_log_proba".toList ≠ pre ++ "_score".toList := fun e => absurd (List.append_cancel_left e) (by decide +kernel)
  have n2 : pre ++ "_predict_log_proba".toList ≠ pre ++ "_predict_proba".toList := fun e => absurd (List.append_cancel_left e) (by decide +kernel)
  have n3 : pre ++ "_score".toList ≠ pre ++ "_predict_proba".toList := fun e => absurd (List.append_cancel_left e) (by decide +kernel)
  refine findFunc_eq _ f ?_ ?_
  · unfold mixtureProg
    rcases h with rfl | rfl | rfl <;> simp
  · intro g hg he
    have hg' : g = logProbaF pre ∨ g = scoreF pre ∨ g = probaF pre := by
      unfold mixtureProg arrays at hg
      simpa using hg
    rcases h with rfl | rfl | rfl <;> rcases hg' with rfl | rfl | rfl
    · rfl
    · exact absurd (show pre ++ "_score".toList = pre ++ "_predict_log_proba".toList from he) n1.symm
    · exact absurd (show pre ++ "_predict_proba".toList = pre ++ "_predict_log_proba".toList from he) n2.symm
    · exact absurd (show pre ++ "_predict_log_proba".toList = pre ++ "_score".toList from he) n1
    · rfl
    · exact absurd (show pre ++ "_predict_proba".toList = pre ++ "_score".toList from he) n3.symm
    · exact absurd (show pre ++ "_predict_log_proba".toList = pre ++ "_predict_proba".toList from he) n2
    · exact absurd (show pre ++ "_score".toList = pre ++ "_predict_proba".toList from he) n3
    · rfl

end

end Emlearn.Mixture.CText
