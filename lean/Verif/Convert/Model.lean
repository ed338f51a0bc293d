/- Model of `emlearn/convert.py` and of the option checks of the wrapper constructors. The trained parameters are not modelled here; reading them, generating and compiling code are taken to succeed. -/
import Verif.Trees.Wrapper
import Verif.Neighbors.Convert
import Mathlib.Data.List.Infix
namespace Emlearn.Convert

/-- Exceptions. -/
inductive PyErr where
  | valueError | notImplemented | typeError
  deriving DecidableEq, Repr

/-- What the constructors read of an estimator: its class name and the attributes used in checks. -/
structure Estimator where
  typeName : String
  nFeatures : Nat
  nClasses : Nat
  /-- `n_layers_` of an MLP -/
  nLayers : Nat
  /-- `effective_metric_`, `weights` of a k-NN model -/
  metric : String
  weights : String
  deriving DecidableEq, Repr

/-- Extra keyword arguments (`**kwargs`). -/
inductive Kwarg where
  | leafBits (b : Option Int)
  | useFixedpoint (b : Bool)
  | other (name : String)
  deriving DecidableEq, Repr

/-- The wrapper `convert` returns. -/
inductive Model where
  | trees (cfg : Trees.WrapperCfg)
  | distance (dtype : String)
  | mixture (dtype : String)
  | net (inference returnType : String) (fixed : Bool)
  | bayes
  | neighbors
  deriving DecidableEq, Repr

/-- `trees.SUPPORTED_ESTIMATORS`, `trees.py` 16-23. -/
def treeKinds : List String :=
  ["RandomForestClassifier", "ExtraTreesClassifier", "DecisionTreeClassifier", "RandomForestRegressor", "ExtraTreesRegressor", "DecisionTreeRegressor"]

/-- `'Regressor' in kind`, `trees.py` 692-696. -/
def hasRegressor (s : String) : Bool := decide ("Regressor".toList <:+: s.toList)

/-- `trees.Wrapper(estimator, method, dtype=dtype, **kwargs)`, `trees.py` 682-742: only `leaf_bits` is a known keyword. -/
def treesWrapper (e : Estimator) (method dtype : Option String) (kwargs : List Kwarg) : Except PyErr Model :=
  let call (lb : Option Int) : Except PyErr Model :=
    match Trees.wrapperInit (hasRegressor e.typeName) e.nFeatures e.nClasses method dtype lb with
    | some cfg => .ok (.trees cfg)
    | none => .error .valueError
  match kwargs with
  | [] => call none
  | [.leafBits b] => call b
  | _ => .error .typeError

/-- `distance.Wrapper(estimator, method, dtype=dtype)`, `distance.py` 96-110. -/
def distanceWrapper (method : Option String) (dtype : String) : Except PyErr Model :=
  if method = some "inline" then .ok (.distance dtype) else .error .valueError

/-- `mixture.Wrapper(estimator, method, dtype=dtype)`, `mixture.py` 302-328: the method is not used. -/
def mixtureWrapper (_method : Option String) (dtype : String) : Except PyErr Model := .ok (.mixture dtype)

/-- `net.Wrapper(..., classifier=method, return_type=return_type, **kwargs)`, `net.py` 33-90. -/
def netWrapper (method : Option String) (returnType : String) (kwargs : List Kwarg) : Except PyErr Model :=
  let call (fixed : Bool) : Except PyErr Model :=
    let m := method.getD "loadable"
    if fixed ∧ m ≠ "inline" then .error .notImplemented
    else if m = "loadable" ∧ returnType = "classifier" then .ok (.net m returnType fixed)
    else if m = "loadable" ∧ returnType = "regressor" then .ok (.net m returnType fixed)
    else if m = "inline" ∧ returnType = "classifier" then .ok (.net m returnType fixed)
    else if m = "inline" ∧ returnType = "regressor" then .error .notImplemented
    else .error .valueError
  match kwargs with
  | [] => call false
  | [.useFixedpoint b] => call b
  | _ => .error .typeError

/-- `net.convert_sklearn_mlp`, `net.py` 330-340. -/
def mlpWrapper (e : Estimator) (method : Option String) (returnType : String) (kwargs : List Kwarg) : Except PyErr Model :=
  if e.nLayers < 3 then .error .valueError else netWrapper method returnType kwargs

/-- `bayes.Wrapper(estimator, method)`, `bayes.py` 87-120. -/
def bayesWrapper (method : Option String) : Except PyErr Model :=
  let m := method.getD "loadable"
  if m = "loadable" then .ok .bayes else if m = "inline" then .error .notImplemented else .error .valueError

/-- `neighbors.convert_sklearn(estimator, inference=method)`, `neighbors.py` 179-182 and 14-87. -/
def neighborsWrapper (e : Estimator) (method : Option String) : Except PyErr Model :=
  match Neighbors.wrapperCheck e.metric e.weights method with
  | .ok _ => .ok .neighbors
  | .error _ => .error .valueError

/-- `convert(estimator, kind, method, dtype, return_type, **kwargs)`, `convert.py` 49-95. -/
def convert (e : Estimator) (kind method dtype : Option String) (returnType : String) (kwargs : List Kwarg) : Except PyErr Model :=
  let kind := kind.getD e.typeName
  if kind ∈ treeKinds then treesWrapper e method dtype kwargs
  else if kind = "EllipticEnvelope" then distanceWrapper method (dtype.getD "float")
  else if kind = "GaussianMixture" ∨ kind = "BayesianGaussianMixture" then mixtureWrapper method (dtype.getD "float")
  else if kind = "MLPClassifier" ∨ kind = "MLPRegressor" then mlpWrapper e method returnType kwargs
  else if kind = "Sequential" then netWrapper method returnType kwargs
  else if kind = "GaussianNB" then bayesWrapper method
  else if kind = "KNeighborsClassifier" then neighborsWrapper e method
  else .error .valueError

end Emlearn.Convert
