/- Model of `emlearn/eml_net.h`, `emlearn/eml_net_common.h`, `emlearn/eml_net_fixedpoint.h`, the templates `net_float.jinja`/`net_fixedpoint.jinja` and `emlearn/net.py`.
Sizes are natural numbers (negative `int32_t` sizes are not modelled, the generator never produces them). -/
import Verif.Common
namespace Emlearn.Net

/-- Operations of an arbitrary float-like arithmetic with elementary functions; no law is assumed. -/
structure NetOps (F : Type) where
  zero : F
  one : F
  half : F
  negInf : F
  add : F → F → F
  sub : F → F → F
  mul : F → F → F
  div : F → F → F
  neg : F → F
  exp : F → F
  log : F → F
  tanh : F → F
  /-- `a < b` -/
  lt : F → F → Bool
  /-- `a <= b` -/
  le : F → F → Bool
  /-- `fabsf(a - 1.0f) < 0.001f` -/
  nearOne : F → Bool

/-- `EmlNetActivationFunction`, `eml_net_common.h` 8-15; `other` is any further value. -/
inductive Act where
  | identity | relu | logistic | softmax | tanh | other
  deriving DecidableEq, Repr

variable {F : Type} (ops : NetOps F)

/-- `eml_net_relu`, `eml_net.h` 50-53. -/
def relu (x : F) : F := if ops.le x ops.zero then ops.zero else x
/-- `eml_net_expit`, `eml_net.h` 55-58. -/
def expit (x : F) : F := ops.div ops.one (ops.add ops.one (ops.exp (ops.neg x)))

/-- `eml_net_softmax` on the first `input_length` values, `eml_net.h` 65-88 (pointer non-NULL). -/
def softmax (xs : List F) : List F :=
  let inputMax := xs.foldl (fun m x => if ops.lt m x then x else m) ops.negInf
  let sum := xs.foldl (fun s x => ops.add s (ops.exp (ops.sub x inputMax))) ops.zero
  let offset := ops.add inputMax (ops.log sum)
  xs.map (fun x => ops.exp (ops.sub x offset))

/-- `eml_net_argmax`, `eml_net.h` 90-102: index so far, best value, best index. -/
def argmaxLoop : List F → Int → F → Int → Int
  | [], _, _, best => best
  | v :: vs, i, vmax, best => if ops.lt vmax v then argmaxLoop vs (i + 1) v i else argmaxLoop vs (i + 1) vmax best

def argmax (values : List F) : Int := argmaxLoop ops values 0 ops.negInf (-1)

/-- `EmlNetLayer`, `eml_net.h` 25-31. -/
structure Layer (F : Type) where
  nOutputs : Nat
  nInputs : Nat
  weights : List F
  biases : List F
  activation : Act

/-- Inner product loop of `eml_net_forward`, `eml_net.h` 183-188: `k` inputs remain, starting at `i`. -/
def dotLoop (inp weights : List F) (outLength o : Nat) : Nat → Nat → F → Option F
  | 0, _, sum => some sum
  | k + 1, i, sum => do
    let w ← weights[o + i * outLength]?
    let x ← inp[i]?
    dotLoop inp weights outLength o k (i + 1) (ops.add sum (ops.mul w x))

/-- Outer loop, `eml_net.h` 182-190: `k` outputs remain, starting at `o`; writes `out[o]`. -/
def linearLoop (inp : List F) (inLength : Nat) (weights biases : List F) (outLength : Nat) : Nat → Nat → List F → Option (List F)
  | 0, _, out => some out
  | k + 1, o, out => do
    let s ← dotLoop ops inp weights outLength o inLength 0 ops.zero
    let b ← biases[o]?
    if o < out.length then linearLoop inp inLength weights biases outLength k (o + 1) (out.set o (ops.add s b)) else none

/-- Applying an activation to the first `n` values, `eml_net.h` 192-214; `none`: unsupported. -/
def activate : Act → List F → Option (List F)
  | .identity, xs => some xs
  | .relu, xs => some (xs.map (relu ops))
  | .logistic, xs => some (xs.map (expit ops))
  | .tanh, xs => some (xs.map ops.tanh)
  | .softmax, xs => some (softmax ops xs)
  | .other, _ => none

/-- `eml_net_forward`, `eml_net.h` 173-217: error code and the output buffer. Outer `none`: access out of bounds. -/
def forward (inp : List F) (inLength : Nat) (weights biases : List F) (act : Act) (out : List F) (outLength : Nat) : Option (EmlError × List F) := do
  let out ← linearLoop ops inp inLength weights biases outLength outLength 0 out
  if outLength ≤ out.length then
    match activate ops act (out.take outLength) with
    | some ys => some (.ok, ys ++ out.drop outLength)
    | none => some (.unsupported, out)
  else none

/-- `eml_net_layer_forward`, `eml_net.h` 220-238 (weights and biases non-NULL). -/
def layerForward (l : Layer F) (inp : List F) (inLength : Nat) (out : List F) (outLength : Nat) : Option (EmlError × List F) :=
  if inLength ≥ l.nInputs then
    if outLength ≥ l.nOutputs then forward ops inp l.nInputs l.weights l.biases l.activation out l.nOutputs
    else some (.sizeMismatch, out)
  else some (.sizeMismatch, out)

/-- `EmlNet`, `eml_net.h` 39-47; the two buffers are kept apart (they are the mutable state). -/
structure Net (F : Type) where
  layers : List (Layer F)
  actLen : Nat

/-- The static activation buffers. -/
structure Bufs (F : Type) where
  b1 : List F
  b2 : List F

/-- `eml_net_find_largest_layer`, `eml_net.h` 131-143. -/
def largest (n : Net F) : Int :=
  n.layers.foldl (fun m l =>
    let m := if (l.nInputs : Int) > m then (l.nInputs : Int) else m
    if (l.nOutputs : Int) > m then (l.nOutputs : Int) else m) (-1)

/-- `for (i<buffer_length) buffer1[i] = buffer2[i]`. -/
def copyBuf (len : Nat) (b1 b2 : List F) : Option (List F) :=
  if len ≤ b1.length ∧ len ≤ b2.length then some (b2.take len ++ b1.drop len) else none

/-- Hidden layers then output layer, `eml_net.h` 264-276: all layers but the last are followed by a copy. -/
def restLayers (actLen : Nat) : List (Layer F) → Bufs F → Option (EmlError × Bufs F)
  | [], s => some (.ok, s)
  | [l], s => do
    let (e, b2) ← layerForward ops l s.b1 actLen s.b2 actLen
    some (e, { s with b2 := b2 })
  | l :: ls, s => do
    let (e, b2) ← layerForward ops l s.b1 actLen s.b2 actLen
    if e = .ok then
      let b1 ← copyBuf actLen s.b1 b2
      restLayers actLen ls { b1 := b1, b2 := b2 }
    else some (e, { s with b2 := b2 })

/-- `eml_net_infer`, `eml_net.h` 248-279 (non-NULL pointers). -/
def infer (n : Net F) (s : Bufs F) (features : List F) : Option (EmlError × Bufs F) :=
  match n.layers with
  | l0 :: l1 :: ls =>
    if features.length = l0.nInputs then
      if (n.actLen : Int) ≥ largest n then do
        let (e, b1) ← layerForward ops l0 features features.length s.b1 n.actLen
        if e = .ok then restLayers ops n.actLen (l1 :: ls) { s with b1 := b1 } else some (e, { s with b1 := b1 })
      else some (.sizeMismatch, s)
    else some (.sizeMismatch, s)
  | _ => some (.unsupported, s)

/-- `eml_net_outputs`, `eml_net.h` 111-114; `none`: `layers[-1]`. -/
def outputs (n : Net F) : Option Nat := n.layers.getLast?.map (·.nOutputs)

/-- Numeric error codes, `eml_common.h` 20-28. -/
def errCode : EmlError → Int
  | .ok => 0 | .sizeMismatch => 1 | .unsupported => 2 | .uninitialized => 3 | .postconditionFailed => 4 | .unknownError => 5

/-- The class decision, `eml_net.h` 341-350 and `net_float.jinja` 69-78: `b2` is `activations2`. -/
def decideClass (nOutputs : Nat) (b2 : List F) : Option Int :=
  if nOutputs = 1 then b2[0]?.map (fun v => if ops.lt ops.half v then 1 else 0)
  else if nOutputs > 1 then (if nOutputs ≤ b2.length then some (argmax ops (b2.take nOutputs)) else none)
  else some (-5)

/-- `eml_net_predict`, `eml_net.h` 333-351. -/
def predict (n : Net F) (s : Bufs F) (features : List F) : Option (Int × Bufs F) := do
  let (e, s) ← infer ops n s features
  if e = .ok then
    let no ← outputs n
    let c ← decideClass ops no s.b2
    some (c, s)
  else some (-errCode e, s)

/-- `eml_net_outputs_proba`, `eml_net.h` 117-124. -/
def outputsProba (n : Net F) : Option Nat := (outputs n).map (fun k => if k = 1 then 2 else k)

/-- `eml_net_predict_proba`, `eml_net.h` 292-321 with an output array of length `outLength`: error code, outputs written, buffers. -/
def predictProba (n : Net F) (s : Bufs F) (features : List F) (outLength : Nat) : Option ((EmlError × List F) × Bufs F) := do
  let no ← outputsProba n
  if outLength = no then
    let (e, s) ← infer ops n s features
    if e = .ok then
      if no = 2 then
        let a ← s.b2[0]?
        let out := [ops.sub ops.one a, a]
        let sum := ops.add (ops.sub ops.one a) a
        some ((if ops.nearOne sum then .ok else .postconditionFailed, out), s)
      else if no ≤ s.b2.length then
        let out := s.b2.take no
        let sum := out.foldl ops.add ops.zero
        some ((if ops.nearOne sum then .ok else .postconditionFailed, out), s)
      else none
    else some ((e, []), s)
  else some ((.sizeMismatch, []), s)

/-- `eml_net_regress`, `eml_net.h` 364-379. -/
def regress (n : Net F) (s : Bufs F) (features : List F) (outLength : Nat) : Option ((EmlError × List F) × Bufs F) := do
  let no ← outputs n
  if outLength = no then
    let (e, s) ← infer ops n s features
    if e = .ok then
      if no ≤ s.b2.length then some ((.ok, s.b2.take no), s) else none
    else some ((e, []), s)
  else some ((.sizeMismatch, []), s)

/-! ### Generated code -/

/-- A trained dense layer as `net.py` holds it: activation, weight matrix with one row per input, biases. -/
structure Dense (F : Type) where
  act : Act
  w : List (List F)
  b : List F

/-- Shape `(n_in, n_out)` with `n_out` columns in every row; `nOut` is given by the biases. -/
def Dense.nIn (d : Dense F) : Nat := d.w.length
def Dense.nOut (d : Dense F) : Nat := d.b.length

/-- One entry of the layers array, `net.py` 284-290, weights flattened row by row (`flatten(order='C')`, `net.py` 186). -/
def genLayer (d : Dense F) : Layer F := { nOutputs := d.nOut, nInputs := d.nIn, weights := d.w.flatten, biases := d.b, activation := d.act }

/-- `max(buffer_sizes)`, `net.py` 264-265 and 224-225. -/
def bufferSize (ds : List (Dense F)) : Nat := (ds.map (·.nIn) ++ ds.map (·.nOut)).foldl max 0

/-- `c_generate_net_loadable`, `net.py` 249-297. -/
def genLoadable (ds : List (Dense F)) : Net F := { layers := ds.map genLayer, actLen := bufferSize ds }

/-- Layers of the generated inline code, `net_float.jinja` 33-48 (`eml_net_forward` then copy, for every layer). -/
def inlineLayers (bufLen : Nat) : List (Dense F) → Bufs F → Option (EmlError × Bufs F)
  | [], s => some (.ok, s)
  | d :: ds, s => do
    let (e, b2) ← forward ops s.b1 d.nIn d.w.flatten d.b d.act s.b2 d.nOut
    if e = .ok then
      let b1 ← copyBuf bufLen s.b1 b2
      inlineLayers bufLen ds { b1 := b1, b2 := b2 }
    else some (e, { s with b2 := b2 })

/-- `{prefix}_infer`, `net_float.jinja` 18-51: copies the whole input into the working buffer first. -/
def inlineInfer (ds : List (Dense F)) (s : Bufs F) (features : List F) : Option (EmlError × Bufs F) :=
  if features.length ≤ s.b1.length then
    inlineLayers ops (bufferSize ds) ds { s with b1 := features ++ s.b1.drop features.length }
  else none

/-- `{prefix}_predict`, `net_float.jinja` 54-80. -/
def inlinePredict (ds : List (Dense F)) (s : Bufs F) (features : List F) : Option (Int × Bufs F) := do
  let (e, s) ← inlineInfer ops ds s features
  if e = .ok then
    let d ← ds.getLast?
    let c ← decideClass ops d.nOut s.b2
    some (c, s)
  else some (-errCode e, s)

/-! ### Fixed point -/

/-- `eml_argmax_fixed32`, `eml_net_fixedpoint.h` 97-113 (file lines 70-86). -/
def argmaxFixedLoop : List Int → Int → Int → Int → Int
  | [], _, _, best => best
  | v :: vs, i, vmax, best => if v > vmax then argmaxFixedLoop vs (i + 1) v i else argmaxFixedLoop vs (i + 1) vmax best

def argmaxFixed (values : List Int) : Int :=
  match values with
  | [] => -1
  | v :: _ => argmaxFixedLoop values 0 v (-1)

/-- `eml_net_forward_q16`, `eml_net_fixedpoint.h` 18-67: the loops are empty (bodies disabled), only the activation is checked; the output buffer is not written. -/
def forwardQ16 (act : Act) (out : List Int) : EmlError × List Int :=
  if act = .identity ∨ act = .relu ∨ act = .logistic ∨ act = .softmax then (.ok, out) else (.unsupported, out)

/-- Layers of `net_fixedpoint.jinja` 33-48. -/
def fixedLayers (bufLen : Nat) : List Act → Bufs Int → Option (EmlError × Bufs Int)
  | [], s => some (.ok, s)
  | a :: as, s =>
    match forwardQ16 a s.b2 with
    | (.ok, b2) => do
      let b1 ← copyBuf bufLen s.b1 b2
      fixedLayers bufLen as { b1 := b1, b2 := b2 }
    | (e, b2) => some (e, { s with b2 := b2 })

/-- `{prefix}_predict` of `net_fixedpoint.jinja` 18-80; `0.5f` against an integer activation: `a > 0.5` is `a ≥ 1`. -/
def fixedPredict (bufLen nOutputs : Nat) (acts : List Act) (s : Bufs Int) (features : List Int) : Option (Int × Bufs Int) :=
  if features.length ≤ s.b1.length then do
    let (e, s) ← fixedLayers bufLen acts { s with b1 := features ++ s.b1.drop features.length }
    if e = .ok then
      if nOutputs = 1 then do
        let a ← s.b2[0]?
        some (if a ≥ 1 then 1 else 0, s)
      else if nOutputs > 1 then (if nOutputs ≤ s.b2.length then some (argmaxFixed (s.b2.take nOutputs), s) else none)
      else some (-5, s)
    else some (-errCode e, s)
  else none

/-! ### Conversion from scikit-learn and Keras -/

/-- Layers of a `keras.Sequential` model that `convert_keras` distinguishes; `act` already translated by `from_keras_activation` (`net.py` 342-348). -/
inductive KLayer (F : Type) where
  | dense (act : Act) (w : List (List F)) (b : List F)
  | denseNoBias
  | activation (act : Act)      -- `Activation`
  | reluLayer (plain : Bool)    -- `ReLU`; `plain`: negative_slope == 0 and threshold == 0
  | softmaxLayer (lastAxis : Bool)
  | dropout
  | unsupported

/-- `set_activation`, `net.py` 369-372: overwrites the activation of the last dense layer; `none`: IndexError on an empty list. -/
def setLastAct (act : Act) : List (Dense F) → Option (List (Dense F))
  | [] => none
  | [d] => some [{ d with act := act }]
  | d :: ds => (setLastAct act ds).map (d :: ·)

/-- One iteration of the loop over layers, `net.py` 374-402; `none`: an assertion or exception. -/
def kerasStep (acc : List (Dense F)) : KLayer F → Option (List (Dense F))
  | .dense act w b => some (acc ++ [{ act := act, w := w, b := b }])
  | .denseNoBias => none
  | .activation act => setLastAct act acc
  | .reluLayer plain => if plain then setLastAct .relu acc else none
  | .softmaxLayer lastAxis => if lastAxis then setLastAct .softmax acc else none
  | .dropout => some acc
  | .unsupported => none

/-- `convert_keras`, `net.py` 354-406 (up to the `Wrapper`). -/
def convertKeras (ls : List (KLayer F)) : Option (List (Dense F)) := ls.foldlM kerasStep []

/-- `convert_sklearn_mlp`, `net.py` 330-340: `nLayers` is `n_layers_` (input and output layers included). -/
def convertMlp (nLayers : Nat) (act outAct : Act) (coefs : List (List (List F))) (intercepts : List (List F)) : Option (List (Dense F)) :=
  if nLayers < 3 then none
  else
    let acts := List.replicate (coefs.length - 1) act ++ [outAct]
    some (((acts.zip coefs).zip intercepts).map (fun p => { act := p.1.1, w := p.1.2, b := p.2 }))

end Emlearn.Net
