/- Specification of a feed-forward network, written without the model's loops and buffers. -/
import Verif.Net.Model
namespace Emlearn.Net.Spec
open Emlearn.Net
variable {F : Type} (ops : NetOps F)

/-- Softmax with the largest value subtracted, evaluated left to right. -/
def softmax (xs : List F) : List F :=
  let top := xs.foldl (fun m x => if ops.lt m x then x else m) ops.negInf
  let total := (xs.map (fun x => ops.exp (ops.sub x top))).foldl ops.add ops.zero
  xs.map (fun x => ops.exp (ops.sub x (ops.add top (ops.log total))))

/-- The activation functions a network may use. -/
def act : Act → List F → List F
  | .identity, xs => xs
  | .relu, xs => xs.map (fun x => if ops.le x ops.zero then ops.zero else x)
  | .logistic, xs => xs.map (fun x => ops.div ops.one (ops.add ops.one (ops.exp (ops.neg x))))
  | .tanh, xs => xs.map ops.tanh
  | .softmax, xs => softmax ops xs
  | .other, xs => xs

/-- Output `o` of a dense layer before activation: `(Σ_i w[i][o]·x[i]) + b[o]`, summed in index order. -/
def neuron (d : Dense F) (x : List F) (o : Nat) : F :=
  ops.add ((List.zipWith (fun row xi => ops.mul (row.getD o ops.zero) xi) d.w x).foldl ops.add ops.zero) (d.b.getD o ops.zero)

/-- A dense layer as a function. -/
def layer (d : Dense F) (x : List F) : List F := act ops d.act ((List.range d.b.length).map (neuron ops d x))

/-- A network as a function: the layers applied one after the other. -/
def network (ds : List (Dense F)) (x : List F) : List F := ds.foldl (fun v d => layer ops d v) x

/-- The layers fit together: the first takes `n` inputs, weight matrices are rectangular and each layer takes as many inputs as the previous one has outputs. -/
def Chained : Nat → List (Dense F) → Prop
  | _, [] => True
  | n, d :: ds => d.w.length = n ∧ (∀ r ∈ d.w, r.length = d.b.length) ∧ d.act ≠ .other ∧ Chained d.b.length ds

/-- Number of outputs of the network. -/
def nOut (ds : List (Dense F)) : Nat := match ds.getLast? with | some d => d.b.length | none => 0

/-- The class an output vector stands for: with one output whether it exceeds one half, else the first position holding a value that beats everything before it and is beaten by nothing after it. -/
def IsFirstMax (le : F → F → Prop) (lt : F → F → Prop) (out : List F) (i : Nat) : Prop :=
  ∃ v, out[i]? = some v ∧ (∀ (j : Nat) w, out[j]? = some w → le w v) ∧ (∀ (j : Nat) w, j < i → out[j]? = some w → lt w v)

end Emlearn.Net.Spec
