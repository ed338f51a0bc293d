/- Text of the generated network code: `emlearn/net.py` (`c_generate_layer_data`, `c_generate_net_loadable`, the declarations of `c_generate_net_inline`). Weights are rational numbers. -/
import Verif.Cgen.Model
import Verif.Net.Model
namespace Emlearn.Net.Codegen
open Emlearn.Cgen

/-- `c_activation_function`, `net.py` 137-143 (`.other`: a name that is not supported, ValueError). -/
def activationName : Act → Option (List Char)
  | .identity => some "EmlNetActivationIdentity".toList
  | .relu => some "EmlNetActivationRelu".toList
  | .logistic => some "EmlNetActivationLogistic".toList
  | .softmax => some "EmlNetActivationSoftmax".toList
  | .tanh => some "EmlNetActivationTanh".toList
  | .other => none

/-- `format_name`, `net.py` 154-156. -/
def formatName (pre : List Char) (layerNo : Nat) (var : List Char) : List Char :=
  pre ++ "_layer_".toList ++ showNat layerNo ++ ['_'] ++ var

/-- `weights_format`, `net.py` 159. -/
def weightsFormat (useFixedpoint : Bool) : Option FixFmt := if useFixedpoint then some ⟨8, 23, 1⟩ else none

/-- The declarations of one layer, `net.py` 162-190. -/
def layerData (other : ℚ → List Char) (pre : List Char) (includeConstants useFixedpoint : Bool) (layerNo : Nat) (d : Dense ℚ) : Option (List (List Char)) := do
  let consts ← if includeConstants then do
      let a ← constantDeclarePy other (formatName pre layerNo "input_length".toList) (.num d.nIn) "int".toList
      let b ← constantDeclarePy other (formatName pre layerNo "output_length".toList) (.num d.nOut) "int".toList
      let act ← activationName d.act
      let c ← constantDeclarePy other (formatName pre layerNo "activation".toList) (.str act) "int".toList
      some [a, b, c]
    else some []
  let biases ← arrayDeclareFixedpoint other (formatName pre layerNo "biases".toList) (weightsFormat useFixedpoint) (some d.b) (some (d.b.length : Int)) "static const".toList
  let weights ← arrayDeclareFixedpoint other (formatName pre layerNo "weights".toList) (weightsFormat useFixedpoint) (some d.w.flatten) (some ((d.nIn * d.nOut : Nat) : Int)) "static const".toList
  some (consts ++ [biases, weights])

/-- `c_generate_layer_data`, `net.py` 146-192. -/
def layersData (other : ℚ → List Char) (pre : List Char) (includeConstants useFixedpoint : Bool) (ds : List (Dense ℚ)) : Option (List (List Char)) :=
  (ds.zipIdx.mapM fun p => layerData other pre includeConstants useFixedpoint p.2 p.1).map List.flatten

/-- One entry of the layers array, `net.py` 284-290. -/
def layerEntry (pre : List Char) (layerNo : Nat) (d : Dense ℚ) : Option (List Char) := do
  let act ← activationName d.act
  some ('\n' :: structInit [showNat d.nOut, showNat d.nIn, formatName pre layerNo "weights".toList, formatName pre layerNo "biases".toList, act])

/-- The three convenience functions, `net.py` 301-325. -/
def functionsText (pre : List Char) : List (List Char) :=
  ["\n    int32_t\n    ".toList ++ pre ++ "_predict(const float *features, int32_t n_features)\n    {\n        return eml_net_predict(&".toList ++ pre ++ ", features, n_features);\n    }\n    ".toList,
   "\n    int32_t\n    ".toList ++ pre ++ "_regress(const float *features, int32_t n_features, float *out, int32_t out_length)\n    {\n        return eml_net_regress(&".toList ++ pre ++ ", features, n_features, out, out_length);\n    }\n    ".toList,
   "\n    float\n    ".toList ++ pre ++ "_regress1(const float *features, int32_t n_features)\n    {\n        return eml_net_regress1(&".toList ++ pre ++ ", features, n_features);\n    }\n    ".toList]

/-- `c_generate_net_loadable`, `net.py` 246-330: the generated source text; `none`: an exception. -/
def loadableText (other : ℚ → List Char) (pre : List Char) (ds : List (Dense ℚ)) : Option (List Char) :=
  if assertValidIdentifier pre = false ∨ ds = [] then none
  else do
    let size : Int := (bufferSize ds : Nat)
    let decls ← layersData other pre false false ds
    let entries ← ds.zipIdx.mapM fun p => layerEntry pre p.2 p.1
    let buf1 ← arrayDeclare other (pre ++ "_buf1".toList) (some size) "float".toList "static".toList none [] []
    let buf2 ← arrayDeclare other (pre ++ "_buf2".toList) (some size) "float".toList "static".toList none [] []
    let layers ← arrayDeclarePy other (pre ++ "_layers".toList) (ds.length : Int) "EmlNetLayer".toList "static const".toList (entries.map .str)
    let init := "static EmlNet ".toList ++ pre ++ " = ".toList ++
      structInit [showNat ds.length, pre ++ "_layers".toList, pre ++ "_buf1".toList, pre ++ "_buf2".toList, showInt size] ++ [';']
    some (['\n'].intercalate (["#include <eml_net.h>".toList] ++ decls ++ [buf1, buf2, layers, init] ++ functionsText pre))

/-- The declarations of `c_generate_net_inline`, `net.py` 221-235; what the template receives. `none`: an exception. -/
def inlineDeclarations (other : ℚ → List Char) (pre : List Char) (useFixedpoint : Bool) (ds : List (Dense ℚ)) : Option (List (List Char)) :=
  if assertValidIdentifier pre = false then none
  else do
    let last ← ds.getLast?
    let size : Int := (bufferSize ds : Nat)
    let ctype := if useFixedpoint then "eml_fixed32_t".toList else "float".toList
    let len ← constantDeclarePy other (pre ++ "_activations_length".toList) (.num size) "int".toList
    let a1 ← arrayDeclare other (pre ++ "_activations1".toList) (some size) ctype "static".toList none [] []
    let a2 ← arrayDeclare other (pre ++ "_activations2".toList) (some size) ctype "static".toList none [] []
    let outs ← constantDeclarePy other (pre ++ "_n_outputs".toList) (.num last.nOut) "int".toList
    let layers ← layersData other pre true useFixedpoint ds
    some ([len, a1, a2, outs] ++ layers)

end Emlearn.Net.Codegen
