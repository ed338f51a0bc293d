/- Property C113: a converted naive Bayes classifier called from Python: generated text, compiled program, standard input and output. -/
import Verif.Harness.Call
import Verif.Props.BayesText
namespace Emlearn.Bayes.CText
open Emlearn.Cgen Emlearn.MiniC Emlearn.Net.CText Emlearn.Quant Emlearn.Harness
variable {F : Type}

/-- `Wrapper.predict(X)`, `bayes.py` 112-116, 123-124 with `common.py` 161-187: the generated code is compiled (`parse`), `eml_bayes_predict(&mybayes_model, values, length)` is called for each row. `none` is an exception, or
no defined result. -/
def pyPredict [Field F] [LinearOrder F] [IsStrictOrderedRing F] [FloorRing F] (ops : CFloat F) (dbl : ℚ → ℚ) (read : ℚ → F) (nf : Nat) (table : List (List Row)) (X : List (List ℚ)) : Option (List Int) :=
  match (generateText "mybayes".toList nf table).bind parse with
  | none => none
  | some prog => predictIntU (callInt read fun vs => bayesLib ops dbl prog "eml_bayes_predict".toList (.ref "mybayes_model".toList :: rowArgs vs)) X

/-- The table of a fitted classifier. -/
structure FittedTable (nf : Nat) (table : List (List Row)) : Prop where
  classes : 1 ≤ table.length ∧ table.length ≤ 2147483647
  features : 1 ≤ nf ∧ nf ≤ 2147483647
  rows : ∀ r ∈ table, r.length = nf

theorem FittedTable.args {nf : Nat} {table : List (List Row)} (h : FittedTable nf table) : BayesArgs "mybayes".toList nf table :=
  ⟨by decide +kernel, by decide +kernel, by decide +kernel, h.classes, h.features, h.rows⟩

section
variable [Field F] [LinearOrder F] [IsStrictOrderedRing F] [FloorRing F] (ops : CFloat F) (dbl : ℚ → ℚ) (read : ℚ → F)

theorem mybayes_model : "mybayes".toList ++ "_model".toList = "mybayes_model".toList := by decide +kernel

theorem pyPredict_eq {nf : Nat} {table : List (List Row)} (h : FittedTable nf table) (X : List (List ℚ)) :
    ∃ call : List F → Option (CallResult F), pyPredict ops dbl read nf table X = predictIntU (callInt read call) X ∧
      (CText.Fits dbl table → ∀ vs, call vs = (predict (generate nf (values dbl table)) vs).toOption.map fun r => (.int r, [])) ∧
      (¬ CText.Fits dbl table → ∀ vs, call vs = none) := by
  obtain ⟨text, h1, h2⟩ := generate_parse "mybayes".toList nf table h.args.valid h.args.noNewline h.args.ne
  refine ⟨fun vs => bayesLib ops dbl (bayesProg "mybayes".toList nf table) "eml_bayes_predict".toList (.ref "mybayes_model".toList :: rowArgs vs), ?_, ?_, ?_⟩
  · unfold pyPredict
    rw [h1, Option.bind_some, h2]
  · intro hfit vs
    obtain ⟨text', prog', h1', h2', h3⟩ := C94_model ops dbl h.args hfit
    obtain rfl : text' = text := by rw [h1] at h1'; exact (Option.some.inj h1').symm
    obtain rfl : prog' = bayesProg "mybayes".toList nf table := by rw [h2] at h2'; exact (Option.some.inj h2').symm
    rw [mybayes_model] at h3
    unfold bayesLib rowArgs
    simp only [fltsOf_flts, h3]
    rw [if_pos ⟨trivial, trivial⟩]
    unfold predictN
    rw [Int.toNat_natCast, if_pos (le_refl _), List.take_length]
  · intro hfit vs
    have h3 : readBayes ops dbl (bayesProg "mybayes".toList nf table) "mybayes_model".toList = none := by
      rw [← mybayes_model, readBayes_generated "mybayes".toList nf table ops dbl h.args.size h.args.classes.2 h.args.features.2, mapM_unfit dbl]
      · rfl
      · unfold CText.Fits at hfit
        push Not at hfit
        obtain ⟨row, h3, r, h4, h5⟩ := hfit
        exact ⟨r, List.mem_flatten.2 ⟨row, h3, h4⟩, h5⟩
    unfold bayesLib rowArgs
    simp only [h3]

/-- **C113.** `predict(X)` is the C classifier on the fixed-point table, row by row, in order: if it has a defined result for each row these are the answers, otherwise there is no defined result. -/
theorem C113_rows {nf : Nat} {table : List (List Row)} (h : FittedTable nf table) (hfit : CText.Fits dbl table) (X : List (List ℚ)) (hX : ∀ row ∈ X, row ≠ []) (hf : Harness.Fits X) :
    ((∀ row ∈ X, ∃ c, predict (generate nf (values dbl table)) (row.map (seen read)) = .ok c) →
      ∃ preds, pyPredict ops dbl read nf table X = some preds ∧ List.Forall₂ (fun row c => predict (generate nf (values dbl table)) (row.map (seen read)) = .ok c) X preds) ∧
    ((∃ row ∈ X, ∃ e, predict (generate nf (values dbl table)) (row.map (seen read)) = .error e) → pyPredict ops dbl read nf table X = none) := by
  obtain ⟨call, h1, h2, -⟩ := pyPredict_eq ops dbl read h X
  rw [h1]
  refine ⟨fun hr => predictInt_rows read call X hX hf _ fun row hrow => ?_, fun hr => predictInt_bad read call X hX hf ?_⟩
  · obtain ⟨c, hc⟩ := hr row hrow
    exact ⟨c, [], by rw [h2 hfit, hc]; rfl, hc⟩
  · obtain ⟨row, hrow, e, he⟩ := hr
    exact ⟨row, hrow, by rw [h2 hfit, he]; rfl⟩

/-- **C113** (negation) numbers outside the range of Q16 are not refused by the conversion: there is no defined result for any data. -/
theorem C113_out_of_range_refuted {nf : Nat} {table : List (List Row)} (h : FittedTable nf table) (hfit : ¬ CText.Fits dbl table) (X : List (List ℚ)) (hX : ∀ row ∈ X, row ≠ []) (hf : Harness.Fits X) (hne : X ≠ []) :
    pyPredict ops dbl read nf table X = none := by
  obtain ⟨call, h1, -, h2⟩ := pyPredict_eq ops dbl read h X
  rw [h1]
  obtain ⟨row, hr⟩ := List.exists_mem_of_ne_nil X hne
  exact predictInt_bad read call X hX hf ⟨row, hr, h2 hfit _⟩

omit [IsStrictOrderedRing F] in
theorem predict_many (m : Model) (hm : 10 < m.nClasses) (vs : List F) : ∃ e, predict m vs = .error e := by
  cases hp : predict m vs with
  | error e => exact ⟨e, rfl⟩
  | ok c =>
    unfold predict at hp
    rw [if_pos (by omega)] at hp
    cases hs : scoresLoop m vs m.nClasses.toNat 0 [] with
    | error e => rw [hs] at hp; cases hp
    | ok ps =>
      have := (scoresLoop_length m vs m.nClasses.toNat 0 [] ps hs).2
      omega

/-- **C113** (negation) classifiers with more than ten classes are converted, but have no defined result for any data. -/
theorem C113_classes_refuted {nf : Nat} {table : List (List Row)} (h : FittedTable nf table) (hfit : CText.Fits dbl table) (h10 : 10 < table.length) (X : List (List ℚ)) (hX : ∀ row ∈ X, row ≠ []) (hf : Harness.Fits X)
    (hne : X ≠ []) : pyPredict ops dbl read nf table X = none := by
  obtain ⟨row, hr⟩ := List.exists_mem_of_ne_nil X hne
  refine (C113_rows ops dbl read h hfit X hX hf).2 ⟨row, hr, predict_many _ ?_ _⟩
  unfold generate values
  simp
  omega

end

/-- **C113.** For 2 to 10 classes, rows with one value per feature, inside the domain of the fixed-point arithmetic: each row is answered with a class such that, up to the allowances of C81, no other class has a higher exact
Gaussian log-probability (Q16 means and deviations); a class that is ahead by more than the allowances is the answer. -/
theorem C113_predict_partial {nf : Nat} {table : List (List Row)} (ops : CFloat ℝ) (dbl : ℚ → ℚ) (read : ℚ → ℝ) (h : FittedTable nf table) (hfit : CText.Fits dbl table) (h2 : 2 ≤ table.length) (h10 : table.length ≤ 10)
    (tab : Nat → Nat → Summary) (htab : ∀ (c f : Nat) (row : List Row) (r : Row), table[c]? = some row → row[f]? = some r →
      tab c f = ⟨fromFloat 16 (value dbl r.1), fromFloat 16 (value dbl r.2.1), fromFloat 16 (value dbl r.2.2)⟩)
    (X : List (List ℚ)) (hf : Harness.Fits X) (hX : ∀ row ∈ X, row.length = nf ∧ (∀ v ∈ row, InI32 (fromFloat 16 (seen read v))) ∧ ∀ c < table.length, InDomain nf tab (fun f => fromFloat 16 (seen read (row.getD f 0))) c) :
    ∃ preds, pyPredict ops dbl read nf table X = some preds ∧
      List.Forall₂ (fun row (p : Int) => ∃ k : Nat, p = k ∧ k < table.length ∧
        (∀ c < table.length, exactScore nf tab (fun f => fromFloat 16 (seen read (row.getD f 0))) c ≤ exactScore nf tab (fun f => fromFloat 16 (seen read (row.getD f 0))) k +
          allowance nf tab (fun f => fromFloat 16 (seen read (row.getD f 0))) c + allowance nf tab (fun f => fromFloat 16 (seen read (row.getD f 0))) k) ∧
        ∀ c < table.length, (∀ c' < table.length, c' ≠ c → exactScore nf tab (fun f => fromFloat 16 (seen read (row.getD f 0))) c' + allowance nf tab (fun f => fromFloat 16 (seen read (row.getD f 0))) c' +
          allowance nf tab (fun f => fromFloat 16 (seen read (row.getD f 0))) c < exactScore nf tab (fun f => fromFloat 16 (seen read (row.getD f 0))) c) → k = c) X preds := by
  have hnf := h.features
  obtain ⟨call, e1, e2, -⟩ := pyPredict_eq ops dbl read h X
  rw [e1]
  refine predictInt_rows read call X (fun r hr e => by have := (hX r hr).1; rw [e] at this; simp at this; omega) hf _ fun row hr => ?_
  obtain ⟨hlen, hv, hdom⟩ := hX row hr
  obtain ⟨text, prog, h3, h4, h5⟩ := C94_end_to_end ops dbl 0 0 h.args hfit h2 h10 tab htab
  obtain ⟨text', prog', h3', h4', h5'⟩ := C94_predict ops dbl 0 0 h.args hfit
  rw [h3] at h3'
  cases h3'
  rw [h4] at h4'
  cases h4'
  obtain ⟨k, k1, k2, k3, k4⟩ := h5 (row.map (seen read)) (fun f => fromFloat 16 (seen read (row.getD f 0))) (by rw [List.length_map, hlen]) (by
    intro f v hfv
    rw [List.getElem?_map, Option.map_eq_some_iff] at hfv
    obtain ⟨x, hx, rfl⟩ := hfv
    have : row.getD f 0 = x := by rw [List.getD_eq_getElem?_getD, hx]; rfl
    rw [this]
    exact ⟨rfl, hv x (List.mem_of_getElem? hx)⟩) hdom
  refine ⟨k, [], ?_, k, rfl, k1, k3, k4⟩
  rw [h5' _ _ (by omega) (by omega)] at k2
  rw [e2 hfit, ← k2]
  unfold predictN
  rw [Int.toNat_natCast, if_pos (by rw [List.length_map]; omega), List.take_of_length_le (by rw [List.length_map]; omega)]

/-! ### A concrete classifier -/

theorem ex_fitted : FittedTable 1 exTable := ⟨by decide, by decide, by decide⟩

set_option synthInstance.maxSize 1024 in
/-- The whole run, on text: classes 0 and 1. -/
example : pyPredict exC id id 1 exTable [[3/2], [-2]] = some [0, 1] := by decide +kernel

set_option synthInstance.maxSize 1024 in
/-- A row that is too long reads outside the table (no defined result); rows that are too short are answered from the features there are: with two features and only the first given, the second is left out. -/
example : pyPredict exC id id 1 exTable [[3/2, 1]] = none ∧
    pyPredict exC id id 2 [[(⟨false, 1, 0⟩, ⟨false, 1, 0⟩, ⟨false, 0, 0⟩), (⟨false, 5, 0⟩, ⟨false, 1, 0⟩, ⟨false, 0, 0⟩)], [(⟨false, 2, 0⟩, ⟨false, 1, 0⟩, ⟨false, 0, 0⟩), (⟨false, 9, 0⟩, ⟨false, 1, 0⟩, ⟨false, 0, 0⟩)]] [[1], [2]] = some [0, 1] := by
  decide +kernel

end Emlearn.Bayes.CText
