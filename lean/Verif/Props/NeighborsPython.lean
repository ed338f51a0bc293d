/- Property C112: a converted nearest-neighbors classifier called from Python: generated text, compiled program, standard input and output. -/
import Verif.Harness.Call
import Verif.Props.NeighborsText
namespace Emlearn.Neighbors.CText
open Emlearn.Cgen Emlearn.MiniC Emlearn.Harness
variable {F : Type}

/-- `Wrapper.predict(X)`, `neighbors.py` 50-93 with `common.py` 161-187: the generated code with its wrapper function is compiled (`parse`), `predict_func(values, length)` is called for each row. `none` is an exception, or
no defined result. -/
def pyPredict (ops : CFloat F) (fuel depth : Nat) (read : ℚ → F) (other : ℚ → List Char) (data : List (List ℚ)) (nf : Nat) (labels : List Int) (k : Int) (X : List (List ℚ)) : Option (List Int) :=
  match (wrapperText other data nf labels k).bind parse with
  | none => none
  | some prog => predictIntU (callInt read fun vs => callFunc ops (neighborsLib ops prog) prog fuel depth "predict_func".toList (rowArgs vs)) X

/-- The values of a row as the program converts them to `int16_t`. -/
def WholeParts (ops : CFloat F) (read : ℚ → F) (row : List ℚ) (q : List Int) : Prop :=
  List.Forall₂ (fun x z => ops.toInt (seen read x) = some z ∧ -32768 ≤ z ∧ z ≤ 32767) row q

/-- A fitted classifier within the limits of the generated code. -/
structure Fitted (data : List (List ℚ)) (nf : Nat) (labels : List Int) (k : Nat) : Prop where
  rows : data.length ≤ 32767
  features : nf ≤ 65535
  positive : 1 ≤ nf
  neighbors : 1 ≤ k ∧ k ≤ data.length
  shape : ∀ r ∈ data, r.length = nf
  labelled : labels.length = data.length
  labels : ∀ l ∈ labels, 0 ≤ l ∧ l ≤ 32767
  values : ∀ r ∈ data, ∀ v ∈ r, -32768 ≤ trunc v ∧ trunc v ≤ 32767

theorem Fitted.training {data : List (List ℚ)} {nf : Nat} {labels : List Int} {k : Nat} (h : Fitted data nf labels k) : TrainingData data nf labels k := by
  have hk := h.neighbors
  have hr := h.rows
  have hp := h.positive
  refine ⟨h.rows, h.features, by omega, ?_, ?_, ?_, ?_⟩
  · intro e
    cases hd : data with
    | nil => rw [hd] at hk; simp at hk; omega
    | cons r l =>
      have := h.shape r (by simp [hd])
      rw [hd, List.flatten_cons, List.append_eq_nil_iff] at e
      rw [e.1] at this
      simp at this
      omega
  · intro e
    have := h.labelled
    rw [e] at this
    simp at this
    omega
  · intro v hv
    obtain ⟨r, hr, hv⟩ := List.mem_flatten.1 hv
    have := h.values r hr v hv
    omega
  · intro z hz
    have := h.labels z hz
    omega

theorem Fitted.model {data : List (List ℚ)} {nf : Nat} {labels : List Int} {k : Nat} (h : Fitted data nf labels k) :
    generate data nf labels k = some ⟨nf, data.length, data.length, (data.map (fun r => r.map trunc)).flatten, labels, k⟩ := by
  have hlw : labels.map wrap16 = labels := by
    conv_rhs => rw [← List.map_id labels]
    apply List.map_congr_left
    intro l hl
    have := h.labels l hl
    exact wrap16_id (by omega) (by omega)
  have hdw : data.flatten.map (fun v => wrap16 (trunc v)) = (data.map (fun r => r.map trunc)).flatten := by
    rw [List.map_flatten]
    congr 1
    apply List.map_congr_left
    intro r hr
    apply List.map_congr_left
    intro v hv
    have := h.values r hr v hv
    exact wrap16_id this.1 this.2
  have hk := h.neighbors
  have hr := h.rows
  unfold generate
  rw [if_pos ⟨h.rows, h.features, by omega, by omega⟩, hlw, hdw]

section
variable (ops : CFloat F) (read : ℚ → F)

theorem wholeParts_mapM {row : List ℚ} {q : List Int} (h : WholeParts ops read row q) :
    (row.map (seen read)).mapM (fun x => (ops.toInt x).bind fun z => if -32768 ≤ z ∧ z ≤ 32767 then some z else none) = some q := by
  induction h with
  | nil => rfl
  | cons h _ ih => rw [List.map_cons, List.mapM_cons, h.1, ih]; simp [h.2]

theorem mapM_bad {row : List ℚ} (h : ∃ x ∈ row, ∀ z, ops.toInt (seen read x) = some z → ¬ (-32768 ≤ z ∧ z ≤ 32767)) :
    (row.map (seen read)).mapM (fun x => (ops.toInt x).bind fun z => if -32768 ≤ z ∧ z ≤ 32767 then some z else none) = none := by
  induction row with
  | nil => obtain ⟨x, hx, -⟩ := h; cases hx
  | cons y row ih =>
    rw [List.map_cons, List.mapM_cons]
    obtain ⟨x, hx, hb⟩ := h
    rcases List.mem_cons.1 hx with rfl | hx
    · cases ht : ops.toInt (seen read x) with
      | none => rfl
      | some z => simp [hb z ht]
    · rw [ih ⟨x, hx, hb⟩]
      simp

theorem pyPredict_eq (fuel depth : Nat) (other : ℚ → List Char) {data : List (List ℚ)} {nf : Nat} {labels : List Int} {k : Nat} (h : Fitted data nf labels k) (hfuel : nf < fuel) (X : List (List ℚ)) :
    ∃ prog, pyPredict ops fuel (depth + 2) read other data nf labels k X = predictIntU (callInt read fun vs => callFunc ops (neighborsLib ops prog) prog fuel (depth + 2) "predict_func".toList (rowArgs vs)) X ∧
      ∀ values : List F, values.length < fuel → values.length ≤ 2147483647 → callFunc ops (neighborsLib ops prog) prog fuel (depth + 2) "predict_func".toList (rowArgs values) =
        if nf < values.length then none
        else (values.mapM fun x => (ops.toInt x).bind fun z => if -32768 ≤ z ∧ z ≤ 32767 then some z else none).bind fun xs =>
          (predict ⟨nf, data.length, data.length, (data.map (fun r => r.map trunc)).flatten, labels, k⟩ xs data.length).map fun r => match r with
            | .error e => (.int (-errorCode e), [])
            | .ok c => (.int c, []) := by
  obtain ⟨text, prog, m, h1, h2, h3, h4⟩ := C91_wrapper_call ops other data nf labels k h.training
  rw [h.model] at h3
  cases h3
  refine ⟨prog, ?_, fun values hv hl => h4 fuel depth values hl hv⟩
  unfold pyPredict
  rw [h1, Option.bind_some, h2]

/-- One row of the right length. -/
theorem row_call (fuel depth : Nat) {data : List (List ℚ)} {nf : Nat} {labels : List Int} {k : Nat} (h : Fitted data nf labels k) (q : List Int) (hq : q.length = nf)
    (hs : ∀ r ∈ data, squaredDistance q (r.map trunc) < 2 ^ 30) :
    ∃ items, Nearest q (data.map fun r => r.map trunc) k items ∧
      ((∃ i ∈ items, ∃ l, labels[i]? = some l ∧ 10 ≤ l) ∧ predict ⟨nf, data.length, data.length, (data.map (fun r => r.map trunc)).flatten, labels, k⟩ q data.length = some (.error .unknownError) ∨
       (∀ i ∈ items, ∃ l, labels[i]? = some l ∧ l < 10) ∧ ∃ c : Nat, predict ⟨nf, data.length, data.length, (data.map (fun r => r.map trunc)).flatten, labels, k⟩ q data.length = some (.ok (c : Int)) ∧ Majority labels items c) := by
  have hr := h.rows
  have hk := h.neighbors
  obtain ⟨items, h1, h2⟩ := C17_stored_rows ⟨nf, data.length, data.length, (data.map (fun r => r.map trunc)).flatten, labels, k⟩ (data.map (fun r => r.map trunc)) [] q data.length k (by simp) (by simp)
    (by intro r hr; obtain ⟨r', hr', rfl⟩ := List.mem_map.mp hr; simp [h.shape r' hr']) (by simp [h.labelled]) (by simp; omega) rfl hk.1 (by simpa using hk.2) (by simp) (by simp [hq])
    (by intro r hr; obtain ⟨r', hr', rfl⟩ := List.mem_map.mp hr; exact hs r' hr')
  refine ⟨items, h1, ?_⟩
  rcases h2 with ⟨⟨i, hi, l, hl, hb⟩, h3⟩ | ⟨h3, c, h4, h5⟩
  · have := h.labels l (List.mem_of_getElem? hl)
    exact .inl ⟨⟨i, hi, l, hl, by omega⟩, h3⟩
  · refine .inr ⟨fun i hi => ?_, c, h4, h5⟩
    obtain ⟨l, e1, e2⟩ := h3 i hi
    exact ⟨l, e1, e2.2⟩

/-- **C112.** `predict(X)` answers each row, in order, with the smallest most frequent class among `k` training rows nearest to it (data truncated to whole numbers); but a row with a class index of 10 or more among these
neighbors gets the number -5. -/
theorem C112_predict (fuel depth : Nat) (other : ℚ → List Char) {data : List (List ℚ)} {nf : Nat} {labels : List Int} {k : Nat} (h : Fitted data nf labels k) (hfuel : nf < fuel) (X : List (List ℚ)) (hf : Fits X)
    (hX : ∀ row ∈ X, row.length = nf ∧ ∃ q, WholeParts ops read row q ∧ ∀ r ∈ data, squaredDistance q (r.map trunc) < 2 ^ 30) :
    ∃ preds, pyPredict ops fuel (depth + 2) read other data nf labels k X = some preds ∧
      List.Forall₂ (fun row (c : Int) => ∃ (q : List Int) (items : List Nat), WholeParts ops read row q ∧ Nearest q (data.map fun r => r.map trunc) k items ∧
        ((∀ i ∈ items, ∃ l, labels[i]? = some l ∧ l < 10) ∧ (∃ n : Nat, c = n ∧ Majority labels items n) ∨ (∃ i ∈ items, ∃ l, labels[i]? = some l ∧ 10 ≤ l) ∧ c = -5)) X preds := by
  have hp := h.positive
  have hnf := h.features
  obtain ⟨prog, e, hc⟩ := pyPredict_eq ops read fuel depth other h hfuel X
  rw [e]
  refine predictInt_rows read _ X (fun r hr e => by have := (hX r hr).1; rw [e] at this; simp at this; omega) hf _ fun row hr => ?_
  obtain ⟨hlen, q, hq, hs⟩ := hX row hr
  have hql : q.length = nf := by rw [← List.Forall₂.length_eq hq, hlen]
  obtain ⟨items, h1, h2⟩ := row_call fuel depth h q hql hs
  have key := hc (row.map (seen read)) (by rw [List.length_map]; omega) (by rw [List.length_map]; omega)
  rw [if_neg (by rw [List.length_map]; omega), wholeParts_mapM ops read hq, Option.bind_some] at key
  rcases h2 with ⟨hb, h3⟩ | ⟨hg, c, h3, h4⟩
  · rw [h3] at key
    exact ⟨_, _, key, q, items, hq, h1, .inr ⟨hb, rfl⟩⟩
  · rw [h3] at key
    exact ⟨_, _, key, q, items, hq, h1, .inl ⟨hg, c, rfl, h4⟩⟩

/-- **C112** for at most ten classes: every answer is the majority class of the nearest rows. -/
theorem C112_predict_classes_partial (fuel depth : Nat) (other : ℚ → List Char) {data : List (List ℚ)} {nf : Nat} {labels : List Int} {k : Nat} (h : Fitted data nf labels k) (h10 : ∀ l ∈ labels, l < 10) (hfuel : nf < fuel)
    (X : List (List ℚ)) (hf : Fits X) (hX : ∀ row ∈ X, row.length = nf ∧ ∃ q, WholeParts ops read row q ∧ ∀ r ∈ data, squaredDistance q (r.map trunc) < 2 ^ 30) :
    ∃ preds, pyPredict ops fuel (depth + 2) read other data nf labels k X = some preds ∧
      List.Forall₂ (fun row (c : Int) => ∃ (q : List Int) (items : List Nat) (n : Nat), WholeParts ops read row q ∧ Nearest q (data.map fun r => r.map trunc) k items ∧ Majority labels items n ∧ c = n) X preds := by
  obtain ⟨preds, h1, h2⟩ := C112_predict ops read fuel depth other h hfuel X hf hX
  refine ⟨preds, h1, h2.imp fun row c => ?_⟩
  rintro ⟨q, items, hq, hn, h3⟩
  rcases h3 with ⟨-, n, hc, hm⟩ | ⟨⟨i, hi, l, hl, hb⟩, -⟩
  · exact ⟨q, items, n, hq, hn, hm, hc⟩
  · have := h10 l (List.mem_of_getElem? hl)
    omega

/-- **C112** (negation) too few columns are not refused: every row is answered with the number -1. -/
theorem C112_short_rows_refuted (fuel depth : Nat) (other : ℚ → List Char) {data : List (List ℚ)} {nf : Nat} {labels : List Int} {k : Nat} (h : Fitted data nf labels k) (hfuel : nf < fuel) (X : List (List ℚ)) (hf : Fits X)
    (hX : ∀ row ∈ X, row ≠ [] ∧ row.length < nf ∧ ∃ q, WholeParts ops read row q) :
    pyPredict ops fuel (depth + 2) read other data nf labels k X = some (X.map fun _ => -1) := by
  have hnf := h.features
  obtain ⟨prog, e, hc⟩ := pyPredict_eq ops read fuel depth other h hfuel X
  rw [e]
  obtain ⟨preds, h1, h2⟩ := predictInt_rows read (fun vs => callFunc ops (neighborsLib ops prog) prog fuel (depth + 2) "predict_func".toList (rowArgs vs)) X (fun r hr => (hX r hr).1) hf (fun _ c => c = -1) (fun row hr => by
    obtain ⟨-, hlen, q, hq⟩ := hX row hr
    have hql : q.length = row.length := (List.Forall₂.length_eq hq).symm
    have key := hc (row.map (seen read)) (by rw [List.length_map]; omega) (by rw [List.length_map]; omega)
    rw [if_neg (by rw [List.length_map]; omega), wholeParts_mapM ops read hq, Option.bind_some, predict, if_neg (by simp), if_pos (by simp; omega)] at key
    exact ⟨_, _, key, rfl⟩)
  rw [h1]
  congr 1
  clear h1 hc e hX hf
  induction h2 with
  | nil => rfl
  | cons hc _ ih => rw [hc, ih]; rfl

/-- **C112** (negation) the program has no defined behaviour when a row has too many columns, or a value whose whole part is not an `int16_t`. -/
theorem C112_undefined_refuted (fuel depth : Nat) (other : ℚ → List Char) {data : List (List ℚ)} {nf : Nat} {labels : List Int} {k : Nat} (h : Fitted data nf labels k) (hfuel : nf < fuel) (X : List (List ℚ)) (hf : Fits X)
    (hne : ∀ row ∈ X, row ≠ []) (hX : ∃ row ∈ X, row.length < fuel ∧ row.length ≤ 2147483647 ∧ (nf < row.length ∨ ∃ x ∈ row, ∀ z, ops.toInt (seen read x) = some z → ¬ (-32768 ≤ z ∧ z ≤ 32767))) :
    pyPredict ops fuel (depth + 2) read other data nf labels k X = none := by
  obtain ⟨prog, e, hc⟩ := pyPredict_eq ops read fuel depth other h hfuel X
  rw [e]
  obtain ⟨row, hr, hl1, hl2, hb⟩ := hX
  refine predictInt_bad read _ X hne hf ⟨row, hr, ?_⟩
  rw [hc (row.map (seen read)) (by rwa [List.length_map]) (by rwa [List.length_map]), List.length_map]
  by_cases hn : nf < row.length
  · rw [if_pos hn]
  · rw [if_neg hn, mapM_bad ops read (hb.resolve_left hn)]
    rfl

end

/-! ### A concrete model -/

def exFitted : Fitted exData 2 [1, 2, 1, 11] 1 :=
  ⟨by decide, by decide, by decide, by decide, by decide +kernel, by decide, by decide, by decide +kernel⟩

/-- Exact reading, the arithmetic `exC` of C91. -/
example : ∀ row ∈ [[3/2, 1], [(8 : ℚ), -9]], row.length = 2 ∧ ∃ q, WholeParts exC id row q ∧ ∀ r ∈ exData, squaredDistance q (r.map trunc) < 2 ^ 30 := by
  intro row hr
  simp only [List.mem_cons, List.not_mem_nil, or_false] at hr
  rcases hr with rfl | rfl
  · refine ⟨rfl, [1, 1], ?_, by decide +kernel⟩
    exact .cons ⟨by decide +kernel, by decide, by decide⟩ (.cons ⟨by decide +kernel, by decide, by decide⟩ .nil)
  · refine ⟨rfl, [8, -9], ?_, by decide +kernel⟩
    exact .cons ⟨by decide +kernel, by decide, by decide⟩ (.cons ⟨by decide +kernel, by decide, by decide⟩ .nil)

example : Fits [[3/2, 1], [(8 : ℚ), -9]] := by
  intro i row h
  match i, h with
  | 0, h => cases h; decide +kernel
  | 1, h => cases h; decide +kernel

/-- The whole run, on text: class 1 for the first row; -5 for the second, whose nearest training row has class 11; -1 for rows that are too short. -/
example : pyPredict exC 9 2 id (fun _ => []) exData 2 [1, 2, 1, 11] 1 [[3/2, 1], [8, -9]] = some [1, -5] ∧ pyPredict exC 9 2 id (fun _ => []) exData 2 [1, 2, 1, 11] 1 [[1]] = some [-1] ∧
    pyPredict exC 9 2 id (fun _ => []) exData 2 [1, 2, 1, 11] 1 [[1, 2, 3]] = none := by
  decide +kernel

end Emlearn.Neighbors.CText
