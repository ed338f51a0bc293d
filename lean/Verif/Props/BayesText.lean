/- Property C94: the C code generated for a Gaussian naive Bayes classifier, read as C, declares the intended `EmlBayesModel`, and its function is the classifier. -/
import Verif.Bayes.TextRun
import Verif.Props.BayesAccuracy
import Verif.Exact
namespace Emlearn.Bayes.CText
open Emlearn.Cgen Emlearn.MiniC Emlearn.Net.CText Emlearn.Quant
variable {F : Type}

/-- What the generator gets: a name, and for each class `nf` rows of three numbers. Only the name of the library itself is excluded. -/
structure BayesArgs (pre : List Char) (nf : Nat) (table : List (List Row)) : Prop where
  valid : assertValidIdentifier pre = true
  noNewline : '\n' ∉ pre
  notLib : pre ≠ "eml_bayes".toList
  classes : 1 ≤ table.length ∧ table.length ≤ 2147483647
  features : 1 ≤ nf ∧ nf ≤ 2147483647
  rows : ∀ r ∈ table, r.length = nf

/-- The numbers (doubles) of the table. -/
def values (dbl : ℚ → ℚ) (table : List (List Row)) : List (List (ℚ × ℚ × ℚ)) := table.map fun row => row.map fun r => (value dbl r.1, value dbl r.2.1, value dbl r.2.2)

/-- All numbers of the table are inside the range of Q16. -/
def Fits (dbl : ℚ → ℚ) (table : List (List Row)) : Prop := ∀ row ∈ table, ∀ r ∈ row, RowFits dbl r

theorem flatten_len {α : Type} : ∀ (l : List (List α)) (n : Nat), (∀ r ∈ l, r.length = n) → l.flatten.length = l.length * n
  | [], _, _ => by simp
  | r :: l, n, h => by rw [List.flatten_cons, List.length_append, h r (by simp), flatten_len l n fun r hr => h r (by simp [hr]), List.length_cons, Nat.succ_mul, Nat.add_comm]

theorem generate_values (dbl : ℚ → ℚ) (nf : Nat) (table : List (List Row)) : generate nf (values dbl table) = ⟨table.length, nf, table.flatten.map (rowSummary dbl)⟩ := by
  unfold generate values
  rw [List.length_map, ← List.map_flatten, List.map_map]
  rfl

section
variable {pre : List Char} {nf : Nat} {table : List (List Row)} (ops : CFloat F) (dbl : ℚ → ℚ) (fuel depth : Nat)

theorem BayesArgs.size (ha : BayesArgs pre nf table) : table.flatten.length = table.length * nf := flatten_len _ _ ha.rows

theorem BayesArgs.ne (ha : BayesArgs pre nf table) : table.flatten ≠ [] := by
  intro h
  have := ha.size
  rw [h, List.length_nil] at this
  have := Nat.mul_pos ha.classes.1 ha.features.1
  omega

/-- **C94.** The generated text is C, and its variable `<name>_model` is the classifier: class by class and feature by feature the mean, the standard deviation and its logarithm in Q16, computed by the compiler from the printed
numbers (`dbl` is the double of a decimal number; Python prints as many digits as are needed to get the same double back). The same table as in C33. -/
theorem C94_model (ha : BayesArgs pre nf table) (hfit : Fits dbl table) : ∃ text prog, generateText pre nf table = some text ∧ parse text = some prog ∧
    readBayes ops dbl prog (pre ++ "_model".toList) = some (generate nf (values dbl table)) := by
  obtain ⟨text, h1, h2⟩ := generate_parse pre nf table ha.valid ha.noNewline ha.ne
  refine ⟨text, _, h1, h2, ?_⟩
  rw [readBayes_generated pre nf table ops dbl ha.size ha.classes.2 ha.features.2, mapM_rows dbl, generate_values]
  · rfl
  · intro r hr
    obtain ⟨row, h3, h4⟩ := List.mem_flatten.1 hr
    exact hfit row h3 r h4

/-- **C94.** A call of `<name>_predict` is a call of the library function with the written model. -/
theorem C94_predict [Field F] [LinearOrder F] [IsStrictOrderedRing F] [FloorRing F] (ha : BayesArgs pre nf table) (hfit : Fits dbl table) : ∃ text prog, generateText pre nf table = some text ∧ parse text = some prog ∧
    ∀ (xs : List F) (len : Int), -2147483648 ≤ len → len ≤ 2147483647 →
      callFunc ops (bayesLib ops dbl prog) prog fuel (depth + 2) (pre ++ "_predict".toList) [.arr "float".toList (xs.map fun z => some (.flt z)), .num (.int len)] =
        (predictN (generate nf (values dbl table)) xs len).toOption.map fun r => (.int r, []) := by
  obtain ⟨text, h1, h2⟩ := generate_parse pre nf table ha.valid ha.noNewline ha.ne
  obtain ⟨text', prog', h1', h2', h3⟩ := C94_model ops dbl ha hfit
  obtain rfl : text' = text := by rw [h1] at h1'; exact (Option.some.inj h1').symm
  obtain rfl : prog' = bayesProg pre nf table := by rw [h2] at h2'; exact (Option.some.inj h2').symm
  refine ⟨text', _, h1, h2, fun xs len l1 l2 => ?_⟩
  rw [predict_call pre nf table ops dbl fuel depth ha.notLib xs len l1 l2, h3]
  rfl

/-- **C94** (negation) the generator does not check the range: if some mean, standard deviation or logarithm is outside Q16 (below -32768 or at least 32768), the text is produced all the same, but it has undefined behaviour,
for every input. -/
theorem C94_out_of_range_refuted [Field F] [LinearOrder F] [IsStrictOrderedRing F] [FloorRing F] (ha : BayesArgs pre nf table) (hfit : ¬ Fits dbl table) :
    ∃ text prog, generateText pre nf table = some text ∧ parse text = some prog ∧
    ∀ (xs : List F) (len : Int), -2147483648 ≤ len → len ≤ 2147483647 →
      callFunc ops (bayesLib ops dbl prog) prog fuel (depth + 2) (pre ++ "_predict".toList) [.arr "float".toList (xs.map fun z => some (.flt z)), .num (.int len)] = none := by
  obtain ⟨text, h1, h2⟩ := generate_parse pre nf table ha.valid ha.noNewline ha.ne
  refine ⟨text, _, h1, h2, fun xs len l1 l2 => ?_⟩
  rw [predict_call pre nf table ops dbl fuel depth ha.notLib xs len l1 l2, readBayes_generated pre nf table ops dbl ha.size ha.classes.2 ha.features.2, mapM_unfit dbl]
  · rfl
  · unfold Fits at hfit
    push Not at hfit
    obtain ⟨row, h3, r, h4, h5⟩ := hfit
    exact ⟨r, List.mem_flatten.2 ⟨row, h3, h4⟩, h5⟩
end

/-- **C94.** The text executed as C: for 2 to 10 classes and an input inside the domain of the fixed-point arithmetic (`InDomain`, C81), `<name>_predict` returns a class, and up to the allowances of C81 no other class has a higher
Gaussian log-likelihood under the stored means and standard deviations; a class that leads by more than the allowances is returned. -/
theorem C94_end_to_end {pre : List Char} {nf : Nat} {table : List (List Row)} (ops : CFloat ℝ) (dbl : ℚ → ℚ) (fuel depth : Nat) (ha : BayesArgs pre nf table) (hfit : Fits dbl table) (h2 : 2 ≤ table.length) (h10 : table.length ≤ 10)
    (tab : Nat → Nat → Summary) (htab : ∀ (c f : Nat) (row : List Row) (r : Row), table[c]? = some row → row[f]? = some r →
      tab c f = ⟨fromFloat 16 (value dbl r.1), fromFloat 16 (value dbl r.2.1), fromFloat 16 (value dbl r.2.2)⟩) :
    ∃ text prog, generateText pre nf table = some text ∧ parse text = some prog ∧ ∀ (xs : List ℝ) (x : Nat → Int), xs.length = nf →
      (∀ (f : Nat) (v : ℝ), xs[f]? = some v → x f = fromFloat 16 v ∧ InI32 (x f)) → (∀ c < table.length, InDomain nf tab x c) →
      ∃ k : Nat, k < table.length ∧ callFunc ops (bayesLib ops dbl prog) prog fuel (depth + 2) (pre ++ "_predict".toList) [.arr "float".toList (xs.map fun z => some (.flt z)), .num (.int nf)] = some (.int k, []) ∧
        (∀ c < table.length, exactScore nf tab x c ≤ exactScore nf tab x k + allowance nf tab x c + allowance nf tab x k) ∧
        ∀ c < table.length, (∀ c' < table.length, c' ≠ c → exactScore nf tab x c' + allowance nf tab x c' + allowance nf tab x c < exactScore nf tab x c) → k = c := by
  obtain ⟨text, prog, e1, e2, e3⟩ := C94_predict ops dbl fuel depth ha hfit
  refine ⟨text, prog, e1, e2, fun xs x hx hv hdom => ?_⟩
  have hrows : ∀ r ∈ values dbl table, r.length = nf := by
    intro r hr
    obtain ⟨row, h, rfl⟩ := List.mem_map.1 hr
    rw [List.length_map, ha.rows row h]
  have hlen : (values dbl table).length = table.length := by simp [values]
  obtain ⟨hwf, hgen⟩ := C33_generated_table nf (values dbl table) hrows (by omega) (by omega)
  have n1 : (generate nf (values dbl table)).nClasses.toNat = table.length := by simp [generate, hlen]
  have n2 : (generate nf (values dbl table)).nFeatures.toNat = nf := by simp [generate]
  have hs : ∀ c < (generate nf (values dbl table)).nClasses.toNat, ∀ f < (generate nf (values dbl table)).nFeatures.toNat,
      (generate nf (values dbl table)).summaries[c * (generate nf (values dbl table)).nFeatures.toNat + f]? = some (tab c f) := by
    rw [n1, n2]
    intro c hc f hf
    have hrow : (table[c]'hc).length = nf := ha.rows _ (List.getElem_mem hc)
    have r1 : table[c]? = some table[c] := List.getElem?_eq_getElem hc
    have r2 : (table[c])[f]? = some ((table[c])[f]'(by omega)) := List.getElem?_eq_getElem (by omega)
    rw [hgen c f _ (value dbl ((table[c])[f]'(by omega)).1, value dbl ((table[c])[f]'(by omega)).2.1, value dbl ((table[c])[f]'(by omega)).2.2) (by unfold values; rw [List.getElem?_map, r1]; rfl)
      (by rw [List.getElem?_map, r2]; rfl), htab c f _ _ r1 r2]
  have := C81_predict_gaussian (generate nf (values dbl table)) hwf xs (by rw [n2]; exact hx) tab hs x hv (by rw [n1, n2]; exact hdom)
  rw [n1, n2] at this
  obtain ⟨k, p1, p2, p3, p4⟩ := this
  refine ⟨k, p2, ?_, p3, p4⟩
  have hb := ha.features.2
  rw [e3 xs nf (by omega) (by omega)]
  unfold predictN
  rw [Int.toNat_natCast, if_pos (by omega), List.take_of_length_le (by omega), p1]
  rfl

/-! ### A concrete classifier -/

/-- Exact arithmetic for the C program. -/
def exC : CFloat ℚ := { exactOps ℚ with lit := fun neg q => if neg then -q else q, toInt := fun _ => none }

/-- Two classes with means 1.0 and -2.5, standard deviations 0.5 (logarithm -1.0) and 1.0 (0.0). -/
def exTable : List (List Row) := [[(⟨false, 1, 0⟩, ⟨false, 5, -1⟩, ⟨true, 1, 0⟩)], [(⟨true, 25, -1⟩, ⟨false, 1, 0⟩, ⟨false, 0, 0⟩)]]

theorem ex_args : BayesArgs "nb".toList 1 exTable ∧ Fits id exTable := by
  refine ⟨⟨by decide +kernel, by decide +kernel, by decide +kernel, by decide, by decide, by decide⟩, ?_⟩
  unfold Fits RowFits
  decide +kernel

/-- The generated text of this classifier, parsed and executed. -/
def exRun (name : String) (table : List (List Row)) (args : List (ArgVal ℚ)) : Option (Option (CallResult ℚ)) :=
  (generateText name.toList 1 table).map fun text => (parse text).bind fun prog => callFunc exC (bayesLib exC id prog) prog 0 9 (name.toList ++ "_predict".toList) args

set_option synthInstance.maxSize 1024 in
example : exRun "nb" exTable [.arr "float".toList [some (.flt (3/2))], .num (.int 1)] = some (some (.int 0, [])) ∧
    exRun "nb" exTable [.arr "float".toList [some (.flt (-2))], .num (.int 1)] = some (some (.int 1, [])) ∧
    exRun "nb" exTable [.arr "float".toList [some (.flt (-2))], .num (.int 2)] = some none := by
  decide +kernel

/-- The Q16 table of this classifier, and an input (1.5) inside the domain of `C94_end_to_end`. -/
example : let tab : Nat → Nat → Summary := fun c _ => if c = 0 then ⟨65536, 32768, -65536⟩ else ⟨-163840, 65536, 0⟩
    (∀ (c f : Nat) (row : List Row) (r : Row), exTable[c]? = some row → row[f]? = some r → tab c f = ⟨fromFloat 16 (value id r.1), fromFloat 16 (value id r.2.1), fromFloat 16 (value id r.2.2)⟩) ∧
    (∀ (f : Nat) (v : ℝ), [(3 / 2 : ℝ)][f]? = some v → (98304 : Int) = fromFloat 16 v ∧ InI32 98304) ∧ ∀ c < exTable.length, InDomain 1 tab (fun _ => 98304) c := by
  intro tab
  refine ⟨?_, ?_, ?_⟩
  · have key : ∀ (c : Fin 2) (f : Fin 1), tab c f = ((exTable[c.1]!)[f.1]?.map fun r => (⟨fromFloat 16 (value id r.1), fromFloat 16 (value id r.2.1), fromFloat 16 (value id r.2.2)⟩ : Summary)).getD ⟨0, 0, 0⟩ := by
      show ∀ (c : Fin 2) (f : Fin 1), (if c.1 = 0 then (⟨65536, 32768, -65536⟩ : Summary) else ⟨-163840, 65536, 0⟩) = _
      decide +kernel
    intro c f row r h1 h2
    have hc : c < 2 := (List.getElem?_eq_some_iff.1 h1).1
    have hf : f < 1 := by
      have h3 := ex_args.1.rows row (List.mem_of_getElem? h1)
      have h4 := (List.getElem?_eq_some_iff.1 h2).1
      omega
    have := key ⟨c, hc⟩ ⟨f, hf⟩
    simp only [List.getElem!_eq_getElem?_getD, h1, Option.getD_some, h2, Option.map_some] at this
    exact this
  · intro f v h
    cases f with
    | zero =>
      simp only [List.getElem?_cons_zero, Option.some.injEq] at h
      refine ⟨?_, by decide⟩
      rw [← h]
      unfold fromFloat
      rw [trunc_of_nonneg (by norm_num), show ((3 / 2 : ℝ) * 2 ^ 16) = ((98304 : Int) : ℝ) by norm_num, Int.floor_intCast]
    | succ f => simp at h
  · intro c hc
    have hc : c = 0 ∨ c = 1 := by have : exTable.length = 2 := rfl; omega
    have hf : ∀ f < 1, f = 0 := by omega
    rcases hc with rfl | rfl
    · refine ⟨fun f _ => by decide, fun f _ => by decide, fun f _ => by decide, fun f _ => by decide, ?_⟩
      simp only [Finset.sum_range_one, zscore, tab, if_true]
      norm_num [abs_of_pos, abs_of_neg]
    · refine ⟨fun f _ => by decide, fun f _ => by decide, fun f _ => by decide, fun f _ => by decide, ?_⟩
      simp only [Finset.sum_range_one, zscore, tab, one_ne_zero, if_false]
      norm_num [abs_of_pos, abs_of_neg]

/-- A value for which the hypothesis of the negation holds: a mean of 40000 (printed as `40000.0`). -/
example : BayesArgs "nb".toList 1 [[(⟨false, 4, 4⟩, ⟨false, 5, -1⟩, ⟨true, 1, 0⟩)], [(⟨true, 25, -1⟩, ⟨false, 1, 0⟩, ⟨false, 0, 0⟩)]] ∧
    ¬ Fits id [[(⟨false, 4, 4⟩, ⟨false, 5, -1⟩, ⟨true, 1, 0⟩)], [(⟨true, 25, -1⟩, ⟨false, 1, 0⟩, ⟨false, 0, 0⟩)]] := by
  refine ⟨⟨by decide +kernel, by decide +kernel, by decide +kernel, by decide, by decide, by decide⟩, ?_⟩
  unfold Fits RowFits
  decide +kernel

set_option synthInstance.maxSize 1024 in
/-- **C94** (negation) of the valid names, the name of the library does not work: the generated function has the name of the library function and calls itself. -/
theorem C94_names_refuted : assertValidIdentifier "eml_bayes".toList = true ∧
    exRun "eml_bayes" exTable [.arr "float".toList [some (.flt (3/2))], .num (.int 1)] = some none ∧
    exRun "nb" exTable [.arr "float".toList [some (.flt (3/2))], .num (.int 1)] = some (some (.int 0, [])) := by
  decide +kernel

end Emlearn.Bayes.CText
