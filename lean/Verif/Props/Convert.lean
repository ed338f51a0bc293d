/- C87: `emlearn.convert`. -/
import Verif.Convert.Model
import Verif.Props.TreesWrapper
namespace Emlearn.Convert

/-- The families of models. -/
inductive Family where
  | trees | distance | mixture | net | bayes | neighbors
  deriving DecidableEq, Repr

/-- The documented classes. -/
def familyOf : String → Option Family
  | "RandomForestClassifier" | "ExtraTreesClassifier" | "DecisionTreeClassifier" | "RandomForestRegressor" | "ExtraTreesRegressor" | "DecisionTreeRegressor" => some .trees
  | "EllipticEnvelope" => some .distance
  | "GaussianMixture" | "BayesianGaussianMixture" => some .mixture
  | "MLPClassifier" | "MLPRegressor" | "Sequential" => some .net
  | "GaussianNB" => some .bayes
  | "KNeighborsClassifier" => some .neighbors
  | _ => none

def Model.family : Model → Family
  | .trees _ => .trees
  | .distance _ => .distance
  | .mixture _ => .mixture
  | .net .. => .net
  | .bayes => .bayes
  | .neighbors => .neighbors

/-- Which options each family takes. -/
def Accepts (e : Estimator) (kind method dtype : Option String) (returnType : String) (kwargs : List Kwarg) : Prop :=
  let name := kind.getD e.typeName
  match familyOf name with
  | some .trees => (method = none ∨ method = some "inline" ∨ method = some "loadable") ∧ (method = some "loadable" → (dtype = none ∨ dtype = some "int16_t") ∧ e.nFeatures ≤ 127) ∧
      e.nFeatures ≤ 10000 ∧ (kwargs = [] ∨ ∃ b, kwargs = [.leafBits b])
  | some .distance => method = some "inline"
  | some .mixture => True
  | some .net => (name = "Sequential" ∨ 3 ≤ e.nLayers) ∧
      ((kwargs = [] ∨ kwargs = [.useFixedpoint false]) ∧ ((method = none ∨ method = some "loadable") ∧ (returnType = "classifier" ∨ returnType = "regressor") ∨ method = some "inline" ∧ returnType = "classifier") ∨
       kwargs = [.useFixedpoint true] ∧ method = some "inline" ∧ returnType = "classifier")
  | some .bayes => method = none ∨ method = some "loadable"
  | some .neighbors => e.metric = "euclidean" ∧ e.weights = "uniform" ∧ (method = none ∨ method = some "loadable")
  | none => False

theorem convert_eq (e : Estimator) (kind method dtype : Option String) (returnType : String) (kwargs : List Kwarg) :
    convert e kind method dtype returnType kwargs =
      match familyOf (kind.getD e.typeName) with
      | some .trees => treesWrapper e method dtype kwargs
      | some .distance => distanceWrapper method (dtype.getD "float")
      | some .mixture => mixtureWrapper method (dtype.getD "float")
      | some .net => if kind.getD e.typeName = "Sequential" then netWrapper method returnType kwargs else mlpWrapper e method returnType kwargs
      | some .bayes => bayesWrapper method
      | some .neighbors => neighborsWrapper e method
      | none => .error .valueError := by
  unfold convert
  generalize kind.getD e.typeName = name
  by_cases h0 : name = "RandomForestClassifier"
  · subst h0; simp [treeKinds, familyOf]
  by_cases h1 : name = "ExtraTreesClassifier"
  · subst h1; simp [treeKinds, familyOf]
  by_cases h2 : name = "DecisionTreeClassifier"
  · subst h2; simp [treeKinds, familyOf]
  by_cases h3 : name = "RandomForestRegressor"
  · subst h3; simp [treeKinds, familyOf]
  by_cases h4 : name = "ExtraTreesRegressor"
  · subst h4; simp [treeKinds, familyOf]
  by_cases h5 : name = "DecisionTreeRegressor"
  · subst h5; simp [treeKinds, familyOf]
  by_cases h6 : name = "EllipticEnvelope"
  · subst h6; simp [treeKinds, familyOf]
  by_cases h7 : name = "GaussianMixture"
  · subst h7; simp [treeKinds, familyOf]
  by_cases h8 : name = "BayesianGaussianMixture"
  · subst h8; simp [treeKinds, familyOf]
  by_cases h9 : name = "MLPClassifier"
  · subst h9; simp [treeKinds, familyOf]
  by_cases h10 : name = "MLPRegressor"
  · subst h10; simp [treeKinds, familyOf]
  by_cases h11 : name = "Sequential"
  · subst h11; simp [treeKinds, familyOf]
  by_cases h12 : name = "GaussianNB"
  · subst h12; simp [treeKinds, familyOf]
  by_cases h13 : name = "KNeighborsClassifier"
  · subst h13; simp [treeKinds, familyOf]
  have hn : familyOf name = none := by
    unfold familyOf
    split <;> simp_all
  rw [hn]
  simp [treeKinds, h0, h1, h2, h3, h4, h5, h6, h7, h8, h9, h10, h11, h12, h13]

theorem trees_ok (e : Estimator) (method dtype : Option String) (kwargs : List Kwarg) :
    (treesWrapper e method dtype kwargs).isOk = true ↔ Trees.OptionsOK e.nFeatures method dtype ∧ (kwargs = [] ∨ ∃ b, kwargs = [.leafBits b]) := by
  have key : ∀ lb, (match Trees.wrapperInit (hasRegressor e.typeName) e.nFeatures e.nClasses method dtype lb with
      | some cfg => (.ok (.trees cfg) : Except PyErr Model)
      | none => .error .valueError).isOk = true ↔ Trees.OptionsOK e.nFeatures method dtype := by
    intro lb
    have h := (Trees.C55_options_validated_partial (hasRegressor e.typeName) e.nFeatures e.nClasses method dtype lb).1
    cases hw : Trees.wrapperInit (hasRegressor e.typeName) e.nFeatures e.nClasses method dtype lb with
    | none => rw [hw] at h; simpa [Except.isOk, Except.toBool] using h
    | some c => rw [hw] at h; simpa [Except.isOk, Except.toBool] using h
  unfold treesWrapper
  split
  · refine (key none).trans ?_
    simp
  · rename_i b
    refine (key b).trans ?_
    simp
  · rename_i h1 h2
    simp only [Except.isOk, Except.toBool, Bool.false_eq_true, false_iff, not_and, not_or, not_exists]
    intro _
    exact ⟨h1, fun b => h2 b⟩

theorem net_ok (method : Option String) (returnType : String) (kwargs : List Kwarg) :
    (netWrapper method returnType kwargs).isOk = true ↔
      ((kwargs = [] ∨ kwargs = [.useFixedpoint false]) ∧ ((method = none ∨ method = some "loadable") ∧ (returnType = "classifier" ∨ returnType = "regressor") ∨ method = some "inline" ∧ returnType = "classifier") ∨
       kwargs = [.useFixedpoint true] ∧ method = some "inline" ∧ returnType = "classifier") := by
  have hm : ∀ s, method.getD "loadable" = s ↔ (method = none ∧ s = "loadable") ∨ method = some s := by
    intro s; cases method <;> simp [eq_comm]
  have key : ∀ fixed : Bool, (if fixed ∧ method.getD "loadable" ≠ "inline" then (.error .notImplemented : Except PyErr Model)
    else if method.getD "loadable" = "loadable" ∧ returnType = "classifier" then .ok (.net (method.getD "loadable") returnType fixed)
    else if method.getD "loadable" = "loadable" ∧ returnType = "regressor" then .ok (.net (method.getD "loadable") returnType fixed)
    else if method.getD "loadable" = "inline" ∧ returnType = "classifier" then .ok (.net (method.getD "loadable") returnType fixed)
    else if method.getD "loadable" = "inline" ∧ returnType = "regressor" then .error .notImplemented
    else .error .valueError).isOk = true ↔
      (method.getD "loadable" = "loadable" ∧ fixed = false ∧ (returnType = "classifier" ∨ returnType = "regressor") ∨ method.getD "loadable" = "inline" ∧ returnType = "classifier") := by
    intro fixed
    generalize method.getD "loadable" = m
    by_cases h1 : m = "inline"
    · subst h1
      by_cases h2 : returnType = "classifier" <;> by_cases h3 : returnType = "regressor" <;> simp [h2, h3, Except.isOk, Except.toBool]
    · by_cases h4 : m = "loadable"
      · subst h4
        cases fixed <;> by_cases h2 : returnType = "classifier" <;> by_cases h3 : returnType = "regressor" <;> simp [h2, h3, Except.isOk, Except.toBool]
      · cases fixed <;> simp [h1, h4, Except.isOk, Except.toBool]
  unfold netWrapper
  split
  · rw [key]; simp [hm]
  · rename_i b
    rw [key]; cases b <;> simp [hm]
  · rename_i h1 h2
    simp only [Except.isOk, Except.toBool, Bool.false_eq_true, false_iff]
    rintro (⟨h | h, -⟩ | ⟨h, -⟩)
    · exact h1 h
    · exact h2 _ h
    · exact h2 _ h

/-- **C87.** For every estimator, explicit kind and options: conversion succeeds exactly when the class is a documented one and its family takes the options, and then returns a wrapper of that family
(`kind` decides when given, else the class name). -/
theorem C87_dispatch_partial (e : Estimator) (kind method dtype : Option String) (returnType : String) (kwargs : List Kwarg) :
    ((∃ m, convert e kind method dtype returnType kwargs = .ok m) ↔ Accepts e kind method dtype returnType kwargs) ∧
    (∀ m, convert e kind method dtype returnType kwargs = .ok m → familyOf (kind.getD e.typeName) = some m.family) ∧
    (familyOf (kind.getD e.typeName) = none → convert e kind method dtype returnType kwargs = .error .valueError) := by
  have hok : ∀ x : Except PyErr Model, (∃ m, x = .ok m) ↔ x.isOk = true := by
    intro x; cases x <;> simp [Except.isOk, Except.toBool]
  refine ⟨?_, ?_, ?_⟩
  · rw [hok, convert_eq, Accepts]
    cases hf : familyOf (kind.getD e.typeName) with
    | none => simp [Except.isOk, Except.toBool]
    | some f =>
      cases f
      · simp only [trees_ok, Trees.OptionsOK]
        constructor
        · rintro ⟨⟨h1, h2, h3⟩, h4⟩
          refine ⟨h1, h2, ?_, h4⟩
          by_cases h : method = some "loadable"
          · have := (h2 h).2; omega
          · exact h3 h
        · rintro ⟨h1, h2, h3, h4⟩
          exact ⟨⟨h1, h2, fun _ => h3⟩, h4⟩
      · simp only [distanceWrapper]
        split <;> simp_all [Except.isOk, Except.toBool]
      · simp [mixtureWrapper, Except.isOk, Except.toBool]
      · simp only [mlpWrapper]
        split
        · rename_i h; rw [net_ok]; simp [h]
        · rename_i h
          split
          · simp only [Except.isOk, Except.toBool, Bool.false_eq_true, false_iff, not_and]
            rintro (h' | h')
            · exact absurd h' h
            · omega
          · rw [net_ok]
            constructor
            · exact fun h' => ⟨Or.inr (by omega), h'⟩
            · exact fun h' => h'.2
      · simp only [bayesWrapper]
        cases method with
        | none => simp [Except.isOk, Except.toBool]
        | some m =>
          by_cases h1 : m = "loadable"
          · simp [h1, Except.isOk, Except.toBool]
          · by_cases h2 : m = "inline" <;> simp [h1, h2, Except.isOk, Except.toBool]
      · simp only [neighborsWrapper, Neighbors.wrapperCheck]
        by_cases h1 : e.metric = "euclidean"
        · by_cases h2 : e.weights = "uniform"
          · cases method with
            | none => simp [h1, h2, Except.isOk, Except.toBool]
            | some m => by_cases h3 : m = "loadable" <;> simp [h1, h2, h3, Except.isOk, Except.toBool]
          · simp [h1, h2, Except.isOk, Except.toBool]
        · simp [h1, Except.isOk, Except.toBool]
  · intro m hm
    rw [convert_eq] at hm
    cases hf : familyOf (kind.getD e.typeName) with
    | none => rw [hf] at hm; cases hm
    | some f =>
      rw [hf] at hm
      have net : ∀ m, netWrapper method returnType kwargs = .ok m → m.family = .net := by
        intro m h
        unfold netWrapper at h
        simp only at h
        repeat' split at h
        all_goals try cases h
        all_goals rfl
      cases f
      · simp only [treesWrapper] at hm
        repeat' split at hm
        all_goals try cases hm
        all_goals rfl
      · simp only [distanceWrapper] at hm; split at hm <;> cases hm; rfl
      · simp only [mixtureWrapper] at hm; cases hm; rfl
      · simp only [mlpWrapper] at hm
        split at hm
        · rw [net m hm]
        · split at hm
          · cases hm
          · rw [net m hm]
      · simp only [bayesWrapper] at hm
        repeat' split at hm
        all_goals try cases hm
        all_goals rfl
      · simp only [neighborsWrapper] at hm; split at hm <;> cases hm; rfl
  · intro h
    rw [convert_eq, h]

/-- A fitted tree ensemble with 4 features, 3 classes. -/
def exEst (name : String) : Estimator := ⟨name, 4, 3, 3, "euclidean", "uniform"⟩

example : convert (exEst "RandomForestClassifier") none none none "classifier" [] = .ok (.trees ⟨"inline", "int16_t", true, 0, .argmax, 4, 3⟩) ∧
    convert (exEst "MLPClassifier") none none none "classifier" [] = .ok (.net "loadable" "classifier" false) ∧
    convert (exEst "SVC") none none none "classifier" [] = .error .valueError := by decide

/-- **C87 (defaults, refuted).** Without further arguments every documented class converts, except `EllipticEnvelope`: its default method is refused. -/
theorem C87_default_refuted (e : Estimator) (f : Family) (hf : familyOf e.typeName = some f) (hn : e.nFeatures ≤ 10000) (hl : 3 ≤ e.nLayers) (hm : e.metric = "euclidean") (hw : e.weights = "uniform") :
    (f ≠ .distance → ∃ m, convert e none none none "classifier" [] = .ok m) ∧
    (f = .distance → ∀ dtype returnType kwargs, convert e none none dtype returnType kwargs = .error .valueError) := by
  constructor
  · intro hd
    rw [(C87_dispatch_partial e none none none "classifier" []).1]
    simp only [Accepts, Option.getD_none, hf]
    cases f <;> simp_all
  · rintro rfl dtype returnType kwargs
    rw [convert_eq]
    simp [hf, distanceWrapper]

/-- **C87 (unknown methods, refuted).** A mixture model accepts any method name; every other family refuses a method other than `inline` and `loadable`. -/
theorem C87_unknown_method_refuted (e : Estimator) (kind dtype : Option String) (s returnType : String) (kwargs : List Kwarg) (h1 : s ≠ "inline") (h2 : s ≠ "loadable") :
    (familyOf (kind.getD e.typeName) = some .mixture → ∃ m, convert e kind (some s) dtype returnType kwargs = .ok m) ∧
    (familyOf (kind.getD e.typeName) ≠ some .mixture → ¬ ∃ m, convert e kind (some s) dtype returnType kwargs = .ok m) := by
  rw [(C87_dispatch_partial e kind (some s) dtype returnType kwargs).1]
  unfold Accepts
  constructor
  · intro h; simp [h]
  · intro h
    cases hf : familyOf (kind.getD e.typeName) with
    | none => simp [hf]
    | some f => cases f <;> simp_all

/-- **C87 (ignored options).** Families other than trees and networks take any extra keyword without effect, and trees ignore `return_type`. -/
theorem C87_ignored_options (e : Estimator) (kind method dtype : Option String) (r r' : String) (kw kw' : List Kwarg) :
    (familyOf (kind.getD e.typeName) ≠ some .net → familyOf (kind.getD e.typeName) ≠ some .trees → convert e kind method dtype r kw = convert e kind method dtype r' kw') ∧
    (familyOf (kind.getD e.typeName) = some .trees → convert e kind method dtype r kw = convert e kind method dtype r' kw) := by
  simp only [convert_eq]
  constructor
  · intro h1 h2
    cases hf : familyOf (kind.getD e.typeName) with
    | none => rfl
    | some f => cases f <;> simp_all
  · intro h; rw [h]

/-- **C87 (subclasses, refuted).** `kind` is documented for subclasses of a supported class. A tree regressor whose own class name does not contain `Regressor` is accepted under
`kind="RandomForestRegressor"` but converted as a classifier. -/
theorem C87_subclass_refuted (e : Estimator) (hn : ¬ "Regressor".toList <:+: e.typeName.toList) (m : Model) (h : convert e (some "RandomForestRegressor") none none "regressor" [] = .ok m) :
    ∃ cfg, m = .trees cfg ∧ cfg.isClassifier = true ∧ cfg.leaf = .argmax := by
  rw [convert_eq] at h
  have hF : familyOf ((some "RandomForestRegressor").getD e.typeName) = some .trees := rfl
  have hR : hasRegressor e.typeName = false := decide_eq_false hn
  rw [hF] at h
  simp only [treesWrapper, hR] at h
  split at h
  · rename_i cfg hc
    cases h
    refine ⟨cfg, rfl, ?_⟩
    obtain ⟨-, h⟩ := Trees.C55_options_validated_partial false e.nFeatures e.nClasses none none none
    obtain ⟨-, -, -, -, -, -, h7, -, -, -, h11, -, h13, h14⟩ := h cfg hc
    have h11 := h11 rfl
    refine ⟨by simpa using h7, ?_⟩
    cases hl : cfg.leaf with
    | argmax => rfl
    | value => exact absurd (h14.1 hl) (by simp)
    | probabilities =>
      have := (h13.1 hl).2.1
      simp at h11; omega
  · cases h

example : convert (exEst "MyForest") (some "RandomForestRegressor") none none "regressor" [] = .ok (.trees ⟨"inline", "int16_t", true, 0, .argmax, 4, 3⟩) := by decide

end Emlearn.Convert
