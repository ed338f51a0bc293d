/- Neural networks called from Python: the wrapper of `net.py` on a matrix of data. -/
import Verif.Harness.Stateful
import Verif.Props.NetText
namespace Emlearn.Net.CText
open Emlearn.Cgen Emlearn.MiniC Emlearn.Net.Codegen Emlearn.Harness
variable {F : Type}

/-- The network in the compiled program: the variable `mynet` of the generated source, and its buffers at the start (static arrays, all zero). The wrapper compiles the loadable source for both methods, because `save` is called
without `inference` (`net.py` 58-71, 106). -/
def compiled (ops : CFloat F) (other : ℚ → List Char) (ds : List (Dense ℚ)) : Option (Prog × Net F × Bufs F) :=
  match (loadableText other "mynet".toList ds).bind parse with
  | none => none
  | some prog =>
    match readNetC ops prog "mynet".toList with
    | none => none
    | some (n, n1, n2) => some (prog, n, ⟨List.replicate n1 (ops.lit false 0), List.replicate n2 (ops.lit false 0)⟩)

/-- `Wrapper.predict(X)` of a classifier, `net.py` 57-61, 68-88, 95-97: `eml_net_predict(&mynet, values, length)` with the loadable method, `mynet_predict(values, length)` with the inline method; the buffers are left as
`eml_net_predict` leaves them. -/
def pyPredict (ops : CFloat F) (nops : NetOps F) (nan : F) (fuel depth : Nat) (read : ℚ → F) (other : ℚ → List Char) (ds : List (Dense ℚ)) (inline : Bool) (X : List (List ℚ)) : Option (List Int) :=
  match compiled ops other ds with
  | none => none
  | some (prog, n, s0) =>
    predictIntS (callS read fun s vs =>
      if inline then
        match callFunc ops (netLib ops nops nan s prog) prog fuel depth "mynet_predict".toList (rowArgs vs), predict nops n s vs with
        | some (.int c, _), some (_, s') => some ((c : ℚ), s')
        | _, _ => none
      else (predict nops n s vs).map fun r => ((r.1 : ℚ), r.2)) s0 X

/-- `Wrapper.predict(X)` of a regressor, `net.py` 62-65, 98-99: `eml_net_regress1(&mynet, values, length)`. `val` is the number in a `float`; there is none in a NaN or an infinity. -/
def pyRegress (ops : CFloat F) (nops : NetOps F) (nan : F) (read : ℚ → F) (val : F → Option ℚ) (other : ℚ → List Char) (ds : List (Dense ℚ)) (X : List (List ℚ)) : Option (List ℚ) :=
  match compiled ops other ds with
  | none => none
  | some (_, n, s0) => predictS (callS read fun s vs => (regress1 nops nan n s vs).bind fun r => (val r.1).map fun q => (q, r.2)) s0 X

/-- The number of classes of the wrapper, `net.py` 49-51. -/
def wrapperClasses (ds : List (Dense ℚ)) : Nat := if Spec.nOut ds = 1 then 2 else Spec.nOut ds

/-- `Wrapper.predict_proba(X)`, `net.py` 58-61, 91-92: `eml_net_predict_proba(&mynet, values, length, outputs, n)`. The error code is dropped: outputs that are not written keep what they had (`common.py` 79-89). -/
def pyProba (ops : CFloat F) (nops : NetOps F) (read : ℚ → F) (val : F → Option ℚ) (other : ℚ → List Char) (ds : List (Dense ℚ)) (X : List (List ℚ)) : Option (Nat → Nat → Option ℚ) :=
  match compiled ops other ds with
  | none => none
  | some (_, n, s0) =>
    predictProbaU (fun values (a : List ℚ × Bufs F) => (given read values).bind fun vs => (predictProba nops n a.2 vs (wrapperClasses ds)).bind fun r =>
      (mapOpt val r.1.2).map fun qs => (qs ++ a.1.drop qs.length, r.2)) Prod.fst (List.replicate (wrapperClasses ds) 0, s0) (wrapperClasses ds) X

end Emlearn.Net.CText
