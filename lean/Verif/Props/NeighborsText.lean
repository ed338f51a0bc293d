/- Property C91: the C code generated for a nearest-neighbors model, read as C: the model structure in it, and the run of the prediction function that the Python wrapper compiles. -/
import Verif.Neighbors.TextRun
import Verif.Props.NeighborsConvert
import Verif.Exact
namespace Emlearn.Neighbors.CText
open Emlearn.Cgen Emlearn.MiniC
variable {F : Type}

/-- What the Python side guarantees about the training data, plus the ranges of the C types of the sizes. A `.fit` of scikit-learn refuses empty data. -/
structure TrainingData (data : List (List ℚ)) (nFeatures : Nat) (labels : List Int) (k : Int) : Prop where
  rows : data.length ≤ 32767
  features : nFeatures ≤ 65535
  neighbors : -32768 ≤ k ∧ k ≤ 32767
  values : data.flatten ≠ []
  someLabels : labels ≠ []
  valueRange : ∀ v ∈ data.flatten, (trunc v).natAbs ≤ 2147483647
  labelRange : ∀ z ∈ labels, z.natAbs ≤ 2147483647

section
variable (ops : CFloat F) (other : ℚ → List Char) (data : List (List ℚ)) (nf : Nat) (labels : List Int) (k : Int)

/-- **C91.** The text written by `save(name=...)` is C; the variable `name` in it is the intended model: sizes, the training values (truncated to integers) row by row, the labels, and the number
of neighbors. -/
theorem C91_saved_model (pre : List Char) (hv : assertValidIdentifier pre = true) (hnl : '\n' ∉ pre) (hk : isKey pre = false) (h : TrainingData data nf labels k) :
    ∃ text prog m, saveText other pre data nf labels k = some text ∧ parse text = some prog ∧ readModel ops prog pre = some m ∧ generate data nf labels k = some m ∧
      m.nFeatures = nf ∧ m.nItems = data.length ∧ m.maxItems = data.length ∧ m.k = k ∧ m.data = data.flatten.map (fun v => wrap16 (trunc v)) ∧ m.labels = labels.map wrap16 := by
  obtain ⟨text, h1, h2⟩ := saveText_parse other pre data nf labels k hv hnl hk
  have h3 := readModel_save ops pre data nf labels k [] h.rows h.features h.neighbors h.values h.someLabels h.valueRange h.labelRange
  rw [List.append_nil] at h3
  refine ⟨text, _, ⟨nf, data.length, data.length, data.flatten.map (fun v => wrap16 (trunc v)), labels.map wrap16, k⟩, h1, h2, ?_, ?_, rfl, rfl, rfl, rfl, rfl, rfl⟩
  · rw [h3]; unfold generate; rw [if_pos ⟨h.rows, h.features, h.neighbors⟩]
  · unfold generate; rw [if_pos ⟨h.rows, h.features, h.neighbors⟩]

theorem wrapper_call (h : TrainingData data nf labels k) (fuel depth : Nat) (values : List F) (hl : values.length ≤ 2147483647) (hfuel : values.length < fuel) (m : Model) (hm : generate data nf labels k = some m) :
    callFunc ops (neighborsLib ops (wrapperProg data nf labels k)) (wrapperProg data nf labels k) fuel (depth + 2) "predict_func".toList
        [.arr "float".toList (values.map fun x => some (.flt x)), .num (.int values.length)] =
      (predictResult ops m nf data.length values).map fun z => (.int z, []) := by
  have hread := readModel_save ops "mymodel".toList data nf labels k [.decl (distances data.length), .func (predictF "mymodel".toList nf data.length)]
    h.rows h.features h.neighbors h.values h.someLabels h.valueRange h.labelRange
  rw [hm] at hread
  have hb : bindParams ops (predictF "mymodel".toList nf data.length).params [.arr "float".toList (values.map fun x => some (.flt x)), .num (.int values.length)] (fun _ => none) =
      some (Env.set (Env.set (fun _ => none) "values".toList (some (.array "float".toList (values.map fun x => some (.flt x))))) "length".toList (some (.scalar "int".toList (.int values.length)))) := by
    show bindParams ops predictParams _ _ = _
    unfold predictParams
    rw [bindParams_ptr _ _ _ _ _ _ _ _ rfl, bindParams_num ops false "int".toList "length".toList [] (.int values.length) (.int values.length) [] _ ?_ (conv_int32 ops (.inl rfl) _ (by omega) (by omega)), bindParams_nil]
    rw [Env.set_ne _ _ (by decide +kernel)]
  have hE := exec_body ops data nf labels k { globals := globalsOf ops (wrapperProg data nf labels k), call := callFunc ops (neighborsLib ops (wrapperProg data nf labels k)) (wrapperProg data nf labels k) fuel (depth + 1) }
    fuel values m hread (globals_dist ops data nf labels k) (globals_ok ops data nf labels k) (fun vs => by
      simp only
      rw [callFunc, find_lib]) h.rows hl hfuel
    (Env.set (Env.set (fun _ => none) "values".toList (some (.array "float".toList (values.map fun x => some (.flt x))))) "length".toList (some (.scalar "int".toList (.int values.length))))
    (by rw [Env.set_ne _ _ (by decide +kernel), Env.set_same]) (Env.set_same _ _ _) (fun x h1 h2 => by rw [Env.set_ne _ _ h2, Env.set_ne _ _ h1])
  rcases hE with ⟨z, env', h1, h2, h3, h4⟩ | ⟨h1, h2⟩
  · rw [callFunc_eq ops _ _ fuel (depth + 1) _ _ _ _ env' (.int z) (.int z) (find_predict data nf labels k) hb h4 (conv_int32 ops (.inr rfl) z (by omega) (by omega)), h1]
    show some (Val.int z, writes env' 0 predictParams) = _
    unfold predictParams
    rw [writes_skip _ _ _ _ rfl, writes_skip _ _ _ _ rfl]
    rfl
  · rw [callFunc_none ops _ _ fuel (depth + 1) _ _ _ _ (find_predict data nf labels k) hb h2, h1]
    rfl

/-- **C91.** The code that the Python wrapper compiles is C, and a call of its `predict_func` with the values and their number gives: undefined behaviour if there are more values than features (the
local array is written behind its end) or some value does not fit `int16_t`; otherwise what the library function answers for the truncated values on the intended model, an error code being negated. This holds for any
behaviour of the floating-point type. -/
theorem C91_wrapper_call (h : TrainingData data nf labels k) : ∃ text prog m, wrapperText other data nf labels k = some text ∧ parse text = some prog ∧ generate data nf labels k = some m ∧
    ∀ (fuel depth : Nat) (values : List F), values.length ≤ 2147483647 → values.length < fuel →
      callFunc ops (neighborsLib ops prog) prog fuel (depth + 2) "predict_func".toList [.arr "float".toList (values.map fun x => some (.flt x)), .num (.int values.length)] =
        if nf < values.length then none
        else (values.mapM fun x => (ops.toInt x).bind fun z => if -32768 ≤ z ∧ z ≤ 32767 then some z else none).bind fun xs =>
          (predict m xs data.length).map fun r => match r with
            | .error e => (.int (-errorCode e), [])
            | .ok c => (.int c, []) := by
  obtain ⟨text, h1, h2⟩ := wrapperText_parse other data nf labels k
  have hg : generate data nf labels k = some ⟨nf, data.length, data.length, data.flatten.map (fun v => wrap16 (trunc v)), labels.map wrap16, k⟩ := by
    unfold generate; rw [if_pos ⟨h.rows, h.features, h.neighbors⟩]
  refine ⟨text, _, _, h1, h2, hg, ?_⟩
  intro fuel depth values hl hfuel
  rw [wrapper_call ops data nf labels k h fuel depth values hl hfuel _ hg]
  unfold predictResult
  by_cases hn : nf < values.length
  · rw [if_pos hn, if_neg (by omega)]; rfl
  · rw [if_neg hn, if_pos (by omega)]
    show Option.map _ (Option.bind (List.mapM (fun x => (ops.toInt x).bind fun z => if -32768 ≤ z ∧ z ≤ 32767 then some z else none) values) _) = _
    rw [Option.map_bind]
    congr 1
    funext xs
    simp only [Function.comp, Option.map_map]
    congr 1
    funext r
    cases r <;> rfl
end

/-- **C91.** With exact numbers this is the model function `predictFunc` of `C79`. -/
theorem C91_wrapper_predict (ops : CFloat ℚ) (hops : ∀ x, ops.toInt x = some (trunc x)) (other : ℚ → List Char) (data : List (List ℚ)) (nf : Nat) (labels : List Int) (k : Int) (h : TrainingData data nf labels k) :
    ∃ text prog m, wrapperText other data nf labels k = some text ∧ parse text = some prog ∧ generate data nf labels k = some m ∧
    ∀ (fuel depth : Nat) (values : List ℚ), values.length ≤ 2147483647 → values.length < fuel →
      callFunc ops (neighborsLib ops prog) prog fuel (depth + 2) "predict_func".toList [.arr "float".toList (values.map fun x => some (.flt x)), .num (.int values.length)] =
        (predictFunc m data.length values).map fun z => (.int z, []) := by
  obtain ⟨text, prog, m, h1, h2, h3, h4⟩ := C91_wrapper_call ops other data nf labels k h
  refine ⟨text, prog, m, h1, h2, h3, ?_⟩
  intro fuel depth values hl hfuel
  rw [h4 fuel depth values hl hfuel]
  have hmf : m.nFeatures = nf := by
    unfold generate at h3
    rw [if_pos ⟨h.rows, h.features, h.neighbors⟩] at h3
    cases h3; rfl
  unfold predictFunc convertFeatures
  rw [hmf]
  by_cases hn : nf < values.length
  · rw [if_pos hn, if_neg (by omega)]; rfl
  · rw [if_neg hn, if_pos (by omega)]
    have : (fun x => (ops.toInt x).bind fun z => if -32768 ≤ z ∧ z ≤ 32767 then some z else none) = fun v => if -32768 ≤ trunc v ∧ trunc v ≤ 32767 then some (trunc v) else none := by
      funext x; rw [hops]; rfl
    rw [this]
    simp only [Option.bind_eq_bind]
    rw [Option.map_bind]
    congr 1
    funext xs
    simp only [Function.comp]
    cases predict m xs data.length with
    | none => rfl
    | some r => cases r <;> rfl

/-- **C91.** The generated text, executed as C, answers with a class that has the most labels among `k` nearest training rows (of the truncated data). -/
theorem C91_end_to_end (ops : CFloat ℚ) (hops : ∀ x, ops.toInt x = some (trunc x)) (other : ℚ → List Char) (data : List (List ℚ)) (nFeatures : Nat) (labels : List Int) (k : Nat) (values : List ℚ)
    (hsize : data.length ≤ 32767) (hnf : nFeatures ≤ 65535) (hnf0 : 1 ≤ nFeatures) (hk1 : 1 ≤ k) (hk2 : k ≤ data.length) (hshape : ∀ r ∈ data, r.length = nFeatures) (hlab : labels.length = data.length)
    (hlabels : ∀ l ∈ labels, 0 ≤ l ∧ l < 10) (hrange : ∀ r ∈ data, ∀ v ∈ r, -32768 ≤ trunc v ∧ trunc v ≤ 32767)
    (hv : values.length = nFeatures) (hvr : ∀ v ∈ values, -32768 ≤ trunc v ∧ trunc v ≤ 32767)
    (hs : ∀ r ∈ data, squaredDistance (values.map trunc) (r.map trunc) < 2 ^ 30) (fuel depth : Nat) (hfuel : nFeatures < fuel) :
    ∃ text prog, wrapperText other data nFeatures labels k = some text ∧ parse text = some prog ∧ ∃ (items : List Nat) (c : Nat),
      callFunc ops (neighborsLib ops prog) prog fuel (depth + 2) "predict_func".toList [.arr "float".toList (values.map fun x => some (.flt x)), .num (.int values.length)] = some (.int c, []) ∧
      Nearest (values.map trunc) (data.map (fun r => r.map trunc)) k items ∧ Majority labels items c := by
  have hdne : data.flatten ≠ [] := by
    intro e
    cases data with
    | nil => simp at hk2; omega
    | cons r l =>
      have := hshape r (by simp)
      rw [List.flatten_cons, List.append_eq_nil_iff] at e
      rw [e.1] at this
      simp at this
      omega
  have h : TrainingData data nFeatures labels k := by
    refine ⟨hsize, hnf, by omega, hdne, by intro e; rw [e] at hlab; simp at hlab; omega, ?_, fun z hz => by have := hlabels z hz; omega⟩
    intro v hv'
    obtain ⟨r, hr, hv'⟩ := List.mem_flatten.1 hv'
    have := hrange r hr v hv'
    omega
  obtain ⟨text, prog, m, h1, h2, h3, h4⟩ := C91_wrapper_predict ops hops other data nFeatures labels k h
  obtain ⟨m', items, c, h5, h6, h7, h8⟩ := C79_converted_predict_partial data nFeatures labels k values hsize hnf hk1 hk2 hshape hlab hlabels hrange hv hvr hs
  rw [h3] at h5
  cases h5
  refine ⟨text, prog, h1, h2, items, c, ?_, h7, h8⟩
  rw [h4 fuel depth values (by omega) (by omega), h6]
  rfl

/-- **C91.** The generated arrays are `static const`, but the structure holds them as pointers to non-const. `eml_neighbors_add_item` never writes through them: on a generated model every call is refused, and the
model is left as it was. -/
theorem C91_add_refused (data : List (List ℚ)) (nFeatures : Nat) (labels : List Int) (k : Int) (m : Model) (h : generate data nFeatures labels k = some m) (values : List Int) (label : Int) :
    addItem m values label = some (m, .sizeMismatch) := by
  unfold generate at h
  split at h
  · cases h
    unfold addItem
    simp
  · cases h

/-! ### A concrete model -/

/-- Exact arithmetic for the C program. -/
def exC : CFloat ℚ := { exactOps ℚ with lit := fun neg q => if neg then -q else q, toInt := fun x => some (trunc x) }

def exData : List (List ℚ) := [[0, 0], [10, 0], [0, 1], [9, -19/2]]

example : TrainingData exData 2 [1, 2, 1, 3] 3 ∧ (∀ x, exC.toInt x = some (trunc x)) ∧ assertValidIdentifier "knn".toList = true ∧ '\n' ∉ "knn".toList ∧ isKey "knn".toList = false := by
  refine ⟨⟨by decide, by decide, by decide, by decide +kernel, by decide, by decide +kernel, by decide +kernel⟩, fun _ => rfl, by decide +kernel, by decide +kernel, by decide +kernel⟩

/-- The hypotheses of the end-to-end theorem, for the query `(1.5, 1)`. -/
example : (∀ r ∈ exData, r.length = 2) ∧ (∀ l ∈ [(1 : Int), 2, 1, 3], 0 ≤ l ∧ l < 10) ∧ (∀ r ∈ exData, ∀ v ∈ r, -32768 ≤ trunc v ∧ trunc v ≤ 32767) ∧
    (∀ r ∈ exData, squaredDistance ([(3/2 : ℚ), 1].map trunc) (r.map trunc) < 2 ^ 30) := by
  decide +kernel

/-- The generated text, parsed and executed: a class, too few values, and too many values. -/
def exRun (values : List ℚ) : Option (Option (CallResult ℚ)) :=
  (wrapperText (fun _ => []) exData 2 [1, 2, 1, 3] 3).map fun text => (parse text).bind fun prog =>
    callFunc exC (neighborsLib exC prog) prog 9 2 "predict_func".toList [.arr "float".toList (values.map fun x => some (.flt x)), .num (.int values.length)]

example : (exRun [3/2, 1]).map (fun r => r.map Prod.fst) = some (some (.int 1)) ∧ (exRun [1]).map (fun r => r.map Prod.fst) = some (some (.int (-1))) ∧
    (exRun [1, 2, 3]).map (fun r => r.map Prod.fst) = some none ∧ (exRun [40000, 2]).map (fun r => r.map Prod.fst) = some none := by
  decide +kernel

/-- The model structure in the text saved under a name. -/
def exSaved (name : String) : Option (Option Model) :=
  (saveText (fun _ => []) name.toList exData 2 [1, 2, 1, 3] 3).map fun text => (parse text).bind fun prog => readModel exC prog name.toList

/-- **C91** (negation) `save` accepts names for which the text is not C: those of the types used in it. -/
theorem C91_names_refuted : exSaved "knn" = some (generate exData 2 [1, 2, 1, 3] 3) ∧ (generate exData 2 [1, 2, 1, 3] 3).isSome = true ∧
    ∀ name ∈ ["int16_t", "EmlNeighborsModel"], assertValidIdentifier name.toList = true ∧ exSaved name = some none := by
  decide +kernel

end Emlearn.Neighbors.CText
