/- C115: neural networks called from Python, from the trained weights to the answers for a matrix of data. -/
import Verif.Net.Python
import Verif.Props.FloatNetText
import Verif.Harness.Read32
namespace Emlearn.Net.CText
open Emlearn.Cgen Emlearn.MiniC Emlearn.Net.Codegen Emlearn.Harness
variable {F : Type}

/-- A trained network within the limits of the generated code. -/
structure Trained (ds : List (Dense ℚ)) : Prop where
  layers : 2 ≤ ds.length
  act : ∀ d ∈ ds, d.act ≠ .other
  rect : ∀ d ∈ ds, ∀ r ∈ d.w, r.length = d.b.length
  pos : ∀ d ∈ ds, d.w ≠ [] ∧ d.b ≠ []
  fit : ∀ d ∈ ds, d.w.length ≤ 2147483647 ∧ d.b.length ≤ 2147483647
  count : ds.length ≤ 2147483647

theorem Trained.args {ds : List (Dense ℚ)} (h : Trained ds) : NetArgs "mynet".toList ds :=
  ⟨by decide +kernel, by decide +kernel, by decide +kernel, by decide +kernel, by intro e; have := h.layers; rw [e] at this; simp at this, h.act, h.rect, h.pos, h.fit, h.count⟩

theorem mynet_predict : "mynet".toList ++ "_predict".toList = "mynet_predict".toList := by decide +kernel

section
variable (ops : CFloat F) (nops : NetOps F) (nan : F) (fuel depth : Nat) (read : ℚ → F) (other : ℚ → List Char) {ds : List (Dense ℚ)}

theorem compiled_eq (ha : NetArgs "mynet".toList ds) : ∃ prog, compiled ops other ds = some (prog, genLoadable (written ops ds), ⟨List.replicate (bufferSize ds) (ops.lit false 0), List.replicate (bufferSize ds) (ops.lit false 0)⟩) ∧
    ∀ (s : Bufs F), BufsOk (written ops ds) s → ∀ vs : List F, vs.length ≤ 2147483647 →
      callFunc ops (netLib ops nops nan s prog) prog fuel (depth + 2) "mynet_predict".toList (rowArgs vs) = (predict nops (genLoadable (written ops ds)) s vs).map fun r => (.int r.1, []) := by
  obtain ⟨text, prog, h1, h2, h3⟩ := C90_net_predict ops nops nan other "mynet".toList ds fuel depth ha
  obtain ⟨text', prog', h1', h2', h3', -⟩ := C90_net_struct ops other "mynet".toList ds ha
  rw [h1] at h1'; cases h1'
  rw [h2] at h2'; cases h2'
  refine ⟨prog, ?_, fun s hs vs hv => ?_⟩
  · unfold compiled
    rw [h1, Option.bind_some, h2]
    simp only [h3']
  · unfold BufsOk written at hs
    rw [bufferSize_map] at hs
    have := h3 s hs.1 hs.2 vs vs.length le_rfl hv
    rw [mynet_predict, List.take_length] at this
    exact this

theorem start_ok (ds : List (Dense ℚ)) : BufsOk (written ops ds) ⟨List.replicate (bufferSize ds) (ops.lit false 0), List.replicate (bufferSize ds) (ops.lit false 0)⟩ := by
  unfold BufsOk written
  rw [bufferSize_map]
  simp

/-- Both methods make the same call. -/
theorem method_call (prog : Prog) (s : Bufs F) (vs : List F) (inline : Bool) (c : Int) (s' : Bufs F) (hp : predict nops (genLoadable (written ops ds)) s vs = some (c, s'))
    (hcall : callFunc ops (netLib ops nops nan s prog) prog fuel (depth + 2) "mynet_predict".toList (rowArgs vs) = (predict nops (genLoadable (written ops ds)) s vs).map fun r => (.int r.1, [])) :
    (if inline then
        match callFunc ops (netLib ops nops nan s prog) prog fuel (depth + 2) "mynet_predict".toList (rowArgs vs), predict nops (genLoadable (written ops ds)) s vs with
        | some (.int c, _), some (_, s') => some ((c : ℚ), s')
        | _, _ => none
      else (predict nops (genLoadable (written ops ds)) s vs).map fun r => ((r.1 : ℚ), r.2)) = some ((c : ℚ), s') := by
  cases inline with
  | true => rw [if_pos rfl, hcall, hp]; rfl
  | false => rw [if_neg (by simp), hp]; rfl

/-- The answer is a function of the row that every state of the buffers gives. -/
theorem pyPredict_eq (h : Trained ds) (inline : Bool) (X : List (List ℚ)) (hX : ∀ row ∈ X, row ≠ []) (hf : Harness.Fits X) (hlen : ∀ row ∈ X, row.length ≤ 2147483647) (g : List F → Int)
    (hg : ∀ row ∈ X, ∀ s, BufsOk (written ops ds) s → ∃ s', predict nops (genLoadable (written ops ds)) s (row.map (seen read)) = some (g (row.map (seen read)), s') ∧ BufsOk (written ops ds) s') :
    pyPredict ops nops nan fuel (depth + 2) read other ds inline X = some (X.map fun row => g (row.map (seen read))) := by
  obtain ⟨prog, h1, h2⟩ := compiled_eq ops nops nan fuel depth other h.args
  unfold pyPredict
  rw [h1]
  refine predictIntS_rows read _ _ (BufsOk (written ops ds)) (start_ok ops ds) X hX hf g fun row hr s hs => ?_
  obtain ⟨s', e1, e2⟩ := hg row hr s hs
  exact ⟨s', method_call ops nops nan fuel depth prog s _ inline _ s' e1 (h2 s hs _ (by rw [List.length_map]; exact hlen row hr)), e2⟩

theorem row_length (h : Trained ds) {n : Nat} (hc : Spec.Chained n ds) : 1 ≤ n ∧ n ≤ 2147483647 := by
  have h2 := h.layers
  cases ds with
  | nil => simp at h2
  | cons d ds =>
    have h1 := (h.fit d (by simp)).1
    have h3 := List.length_pos_iff.2 (h.pos d (by simp)).1
    have := hc.1
    omega

theorem row_ne (h : Trained ds) {row : List ℚ} (hc : Spec.Chained row.length ds) : row ≠ [] := by
  intro e
  have := (row_length h hc).1
  rw [e] at this
  simp at this

/-- **C115.** For any arithmetic, with both methods: `predict(X)` of a classifier answers each row, in order, with the class that the outputs of the network (weights as written in the source) stand for on the row as read. No
answer depends on the rows before it. -/
theorem C115_predict (h : Trained ds) (inline : Bool) (X : List (List ℚ)) (hf : Harness.Fits X) (hX : ∀ row ∈ X, Spec.Chained row.length ds) :
    ∃ preds, pyPredict ops nops nan fuel (depth + 2) read other ds inline X = some preds ∧
      List.Forall₂ (fun row c => decideClass nops (Spec.nOut ds) (Spec.network nops (written ops ds) (row.map (seen read))) = some c) X preds := by
  have hno : Spec.nOut (written ops ds) = Spec.nOut ds := nOut_map ds _
  have hl2 : 2 ≤ (written ops ds).length := by unfold written; rw [List.length_map]; exact h.layers
  have hd : ∀ row ∈ X, ∀ s, BufsOk (written ops ds) s → ∃ c s', decideClass nops (Spec.nOut ds) (Spec.network nops (written ops ds) (row.map (seen read))) = some c ∧
      predict nops (genLoadable (written ops ds)) s (row.map (seen read)) = some (c, s') ∧ BufsOk (written ops ds) s' := by
    intro row hr s hs
    have := predict_spec nops (written ops ds) hl2 (row.map (seen read)) (by rw [List.length_map]; exact chained_map ds _ _ (hX row hr)) s hs
    rwa [hno] at this
  refine ⟨_, pyPredict_eq ops nops nan fuel depth read other h inline X (fun row hr => row_ne h (hX row hr)) hf (fun row hr => (row_length h (hX row hr)).2)
    (fun vs => (decideClass nops (Spec.nOut ds) (Spec.network nops (written ops ds) vs)).getD 0) (fun row hr s hs => ?_), ?_⟩
  · obtain ⟨c, s', e1, e2, e3⟩ := hd row hr s hs
    exact ⟨s', by rw [e1]; exact e2, e3⟩
  · rw [List.forall₂_map_right_iff]
    refine List.forall₂_same.2 fun row hr => ?_
    obtain ⟨c, s', e1, -⟩ := hd row hr _ (start_ok ops ds)
    rw [e1]
    rfl

/-- **C115** (negation) data with another number of columns is not refused: every row is answered with -1. -/
theorem C115_columns_refuted (h : Trained ds) (inline : Bool) (X : List (List ℚ)) (hf : Harness.Fits X) (hX : ∀ row ∈ X, row ≠ [] ∧ row.length ≤ 2147483647 ∧ ∀ d, ds.head? = some d → row.length ≠ d.w.length) :
    pyPredict ops nops nan fuel (depth + 2) read other ds inline X = some (X.map fun _ => -1) := by
  have hl2 : 2 ≤ (written ops ds).length := by unfold written; rw [List.length_map]; exact h.layers
  refine pyPredict_eq ops nops nan fuel depth read other h inline X (fun row hr => (hX row hr).1) hf (fun row hr => (hX row hr).2.1) (fun _ => -1) fun row hr s hs => ⟨s, ?_, hs⟩
  obtain ⟨d, ds', e⟩ : ∃ d ds', ds = d :: ds' := by
    cases ds with
    | nil => have := h.layers; simp at this
    | cons d ds' => exact ⟨d, ds', rfl⟩
  have hi := C36_wrong_length_refused nops (written ops ds) (mapD (floatLit ops) d) (row.map (seen read)) (by rw [e]; rfl) hl2
    (by rw [List.length_map]; show row.length ≠ (d.w.map _).length; rw [List.length_map]; exact (hX row hr).2.2 d (by rw [e]; rfl)) s
  unfold predict
  simp only [hi, bind, Option.bind_some]
  rfl

/-! ### Probabilities -/

/-- What `eml_net_predict_proba` stores for the outputs of the network: two probabilities from the first output when there are one or two outputs, else the outputs. -/
def storedProba (out : List F) : List F := if out.length ≤ 2 then (match out with | v :: _ => [nops.sub nops.one v, v] | [] => []) else out

theorem outputs_gen (ds : List (Dense F)) (hne : ds ≠ []) : outputs (genLoadable ds) = some (Spec.nOut ds) := by
  simp only [outputs, genLoadable, Spec.nOut, List.getLast?_map]
  rw [List.getLast?_eq_some_getLast hne]
  rfl

theorem proba_call (ds : List (Dense F)) (h2 : 2 ≤ ds.length) (hpos : 1 ≤ Spec.nOut ds) (x : List F) (hc : Spec.Chained x.length ds) (s : Bufs F) (hs : BufsOk ds s) :
    ∃ e s', predictProba nops (genLoadable ds) s x (if Spec.nOut ds = 1 then 2 else Spec.nOut ds) = some ((e, storedProba nops (Spec.network nops ds x)), s') ∧ BufsOk ds s' := by
  obtain ⟨s', h1, hb, ht⟩ := C36_infer_is_composition nops ds h2 x hc s hs
  have hne : ds ≠ [] := by rintro rfl; simp at h2
  have hle := nOut_le ds hne
  have hl := length_network nops ds hne x
  have ho := outputs_gen ds hne
  have hop : outputsProba (genLoadable ds) = some (if Spec.nOut ds = 1 then 2 else Spec.nOut ds) := by unfold outputsProba; rw [ho]; rfl
  unfold predictProba
  simp only [hop, bind, Option.bind_some, if_true, h1]
  by_cases h3 : Spec.nOut ds ≤ 2
  · have hk : (if Spec.nOut ds = 1 then 2 else Spec.nOut ds) = 2 := by split_ifs <;> omega
    cases hn : Spec.network nops ds x with
    | nil => rw [hn] at hl; simp at hl; omega
    | cons v vs =>
      have hv : s'.b2[0]? = some v := by
        have : (s'.b2.take (Spec.nOut ds))[0]? = some v := by rw [ht, hn]; rfl
        rwa [List.getElem?_take_of_lt (by omega)] at this
      simp only [hk, if_true, hv, Option.bind_some]
      have hst : storedProba nops (v :: vs) = [nops.sub nops.one v, v] := by
        unfold storedProba
        rw [if_pos (by rw [← hn, hl]; exact h3)]
      rw [hst]
      exact ⟨_, s', rfl, hb⟩
  · have hk : (if Spec.nOut ds = 1 then 2 else Spec.nOut ds) = Spec.nOut ds := by split_ifs <;> omega
    simp only [hk]
    rw [if_neg (by omega), if_pos (by rw [hb.2]; exact hle)]
    have hst : storedProba nops (Spec.network nops ds x) = s'.b2.take (Spec.nOut ds) := by
      unfold storedProba
      rw [if_neg (by rw [hl]; omega), ht]
    rw [hst]
    exact ⟨_, s', rfl, hb⟩

theorem length_storedProba (out : List F) (h : 1 ≤ out.length) : (storedProba nops out).length = if out.length = 1 then 2 else out.length := by
  unfold storedProba
  match out, h with
  | [v], _ => rfl
  | [v, w], _ => rfl
  | v :: w :: u :: l, _ => rw [if_neg (by simp), if_neg (by simp)]

theorem mapOpt_some (val : F → Option ℚ) (v : F → ℚ) (l : List F) (h : ∀ y ∈ l, val y = some (v y)) : mapOpt val l = some (l.map v) := by
  induction l with
  | nil => rfl
  | cons y l ih => rw [mapOpt, h y (by simp), ih fun y hy => h y (by simp [hy])]; rfl

/-- **C115.** `predict_proba(X)`, for any arithmetic, when the stored outputs are numbers: entry `(i, c)` is what `eml_net_predict_proba` stores for class `c` on row `i`, with six decimals. -/
theorem C115_proba (val : F → Option ℚ) (h : Trained ds) (X : List (List ℚ)) (hf : Harness.Fits X) (hX : ∀ row ∈ X, Spec.Chained row.length ds ∧
      ∀ y ∈ storedProba nops (Spec.network nops (written ops ds) (row.map (seen read))), (val y).isSome) :
    ∃ m, pyProba ops nops read val other ds X = some m ∧ ∀ (i c : Nat) (row : List ℚ), X[i]? = some row → c < wrapperClasses ds →
      ∃ y q, (storedProba nops (Spec.network nops (written ops ds) (row.map (seen read))))[c]? = some y ∧ val y = some q ∧ m i c = some (fixedValue 6 q) := by
  obtain ⟨prog, h1, -⟩ := compiled_eq ops nops (ops.lit false 0) 0 0 other h.args
  have hno : Spec.nOut (written ops ds) = Spec.nOut ds := nOut_map ds _
  have hl2 : 2 ≤ (written ops ds).length := by unfold written; rw [List.length_map]; exact h.layers
  have hne : written ops ds ≠ [] := by intro e; rw [e] at hl2; simp at hl2
  have hpos : 1 ≤ Spec.nOut ds := by
    unfold Spec.nOut
    cases hl : ds.getLast? with
    | none => have := h.layers; rw [List.getLast?_eq_none_iff.1 hl] at this; simp at this
    | some d => exact List.length_pos_iff.2 (h.pos d (List.mem_of_getLast? hl)).2
  have hlen : ∀ x, (storedProba nops (Spec.network nops (written ops ds) x)).length = wrapperClasses ds := by
    intro x
    rw [length_storedProba nops _ (by rw [length_network nops _ hne, hno]; exact hpos), length_network nops _ hne, hno]
    rfl
  have hk : 0 < wrapperClasses ds := by unfold wrapperClasses; split_ifs <;> omega
  unfold pyProba
  rw [h1]
  obtain ⟨g, hg⟩ : ∃ g : List (Option ℚ) → List ℚ, g = fun v => (storedProba nops (Spec.network nops (written ops ds) ((given read v).getD []))).map fun y => (val y).getD 0 := ⟨_, rfl⟩
  have hgr : ∀ row, g (received row) = (storedProba nops (Spec.network nops (written ops ds) (row.map (seen read)))).map fun y => (val y).getD 0 := by
    intro row
    rw [hg]
    simp only [given_received, Option.getD_some]
  obtain ⟨m, e1, e2⟩ := predictProbaU_eq (fun values (a : List ℚ × Bufs F) => (given read values).bind fun vs => (predictProba nops (genLoadable (written ops ds)) a.2 vs (wrapperClasses ds)).bind fun r =>
      (mapOpt val r.1.2).map fun qs => (qs ++ a.1.drop qs.length, r.2)) Prod.fst
    (List.replicate (wrapperClasses ds) (0 : ℚ), (⟨List.replicate (bufferSize ds) (ops.lit false 0), List.replicate (bufferSize ds) (ops.lit false 0)⟩ : Bufs F))
    (fun a => a.1.length = wrapperClasses ds ∧ BufsOk (written ops ds) a.2) ⟨by simp, start_ok ops ds⟩ (wrapperClasses ds) hk g (by intro v; rw [hg]; simp only [List.length_map, hlen]) X
    (fun row hr => row_ne h (hX row hr).1) hf (fun row hr a ha => by
      obtain ⟨hc, hv⟩ := hX row hr
      obtain ⟨e, s', p1, p2⟩ := proba_call nops (written ops ds) hl2 (by rw [hno]; exact hpos) (row.map (seen read)) (by rw [List.length_map]; exact chained_map ds _ _ hc) a.2 ha.2
      rw [hno] at p1
      have hm : mapOpt val (storedProba nops (Spec.network nops (written ops ds) (row.map (seen read)))) = some (g (received row)) := by
        rw [hgr]
        refine mapOpt_some val _ _ fun y hy => ?_
        obtain ⟨q, hq⟩ := Option.isSome_iff_exists.1 (hv y hy)
        rw [hq]; rfl
      have hgl : (g (received row)).length = wrapperClasses ds := by rw [hgr, List.length_map, hlen]
      refine ⟨(g (received row), s'), ?_, ⟨hgl, p2⟩, rfl⟩
      simp only [given_received, Option.bind_some]
      unfold wrapperClasses
      rw [p1]
      simp only [Option.bind_some, hm, Option.map_some]
      rw [List.drop_of_length_le (by rw [ha.1, hgl]), List.append_nil])
  refine ⟨m, e1, fun i c row hi hc => ?_⟩
  obtain ⟨p, q1, q2⟩ := e2 i c row hi hc
  rw [hgr, List.getElem?_map, Option.map_eq_some_iff] at q1
  obtain ⟨y, y1, rfl⟩ := q1
  obtain ⟨q, hq⟩ := Option.isSome_iff_exists.1 ((hX row (List.mem_of_getElem? hi)).2 y (List.mem_of_getElem? y1))
  exact ⟨y, q, y1, hq, by rw [q2, hq]; rfl⟩

/-- **C115** (negation) with two outputs (a softmax over two classes) the columns are swapped: in exact arithmetic, probabilities that add up to one appear in the other order. -/
theorem C115_two_outputs_refuted {K : Type} [Field K] (kops : NetOps K) (hone : kops.one = 1) (hsub : ∀ a b, kops.sub a b = a - b) (p q : K) (hsum : p + q = 1) : storedProba kops [p, q] = [q, p] := by
  unfold storedProba
  rw [if_pos (by simp)]
  simp only [hone, hsub]
  rw [← hsum]
  simp

/-- **C115** (negation) data with another number of columns gets the probability zero for every class of every row. -/
theorem C115_proba_columns_refuted (val : F → Option ℚ) (h : Trained ds) (X : List (List ℚ)) (hf : Harness.Fits X) (hX : ∀ row ∈ X, row ≠ [] ∧ ∀ d, ds.head? = some d → row.length ≠ d.w.length) :
    ∃ m, pyProba ops nops read val other ds X = some m ∧ ∀ (i c : Nat) (row : List ℚ), X[i]? = some row → c < wrapperClasses ds → m i c = some 0 := by
  obtain ⟨prog, h1, -⟩ := compiled_eq ops nops (ops.lit false 0) 0 0 other h.args
  have hno : Spec.nOut (written ops ds) = Spec.nOut ds := nOut_map ds _
  have hl2 : 2 ≤ (written ops ds).length := by unfold written; rw [List.length_map]; exact h.layers
  have hne : written ops ds ≠ [] := by intro e; rw [e] at hl2; simp at hl2
  have hpos : 1 ≤ Spec.nOut ds := by
    unfold Spec.nOut
    cases hl : ds.getLast? with
    | none => have := h.layers; rw [List.getLast?_eq_none_iff.1 hl] at this; simp at this
    | some d => exact List.length_pos_iff.2 (h.pos d (List.mem_of_getLast? hl)).2
  have hk : 0 < wrapperClasses ds := by unfold wrapperClasses; split_ifs <;> omega
  have ho : outputsProba (genLoadable (written ops ds)) = some (wrapperClasses ds) := by
    unfold outputsProba wrapperClasses
    rw [outputs_gen _ hne, hno]
    rfl
  obtain ⟨d, ds', e⟩ : ∃ d ds', ds = d :: ds' := by
    cases ds with
    | nil => have := h.layers; simp at this
    | cons d ds' => exact ⟨d, ds', rfl⟩
  unfold pyProba
  rw [h1]
  obtain ⟨m, e1, e2⟩ := predictProbaU_eq (fun values (a : List ℚ × Bufs F) => (given read values).bind fun vs => (predictProba nops (genLoadable (written ops ds)) a.2 vs (wrapperClasses ds)).bind fun r =>
      (mapOpt val r.1.2).map fun qs => (qs ++ a.1.drop qs.length, r.2)) Prod.fst
    (List.replicate (wrapperClasses ds) (0 : ℚ), (⟨List.replicate (bufferSize ds) (ops.lit false 0), List.replicate (bufferSize ds) (ops.lit false 0)⟩ : Bufs F))
    (fun a => a.1 = List.replicate (wrapperClasses ds) 0 ∧ BufsOk (written ops ds) a.2) ⟨rfl, start_ok ops ds⟩ (wrapperClasses ds) hk (fun _ => List.replicate (wrapperClasses ds) 0) (by simp) X
    (fun row hr => (hX row hr).1) hf (fun row hr a ha => by
      have hi := C36_wrong_length_refused nops (written ops ds) (mapD (floatLit ops) d) (row.map (seen read)) (by rw [e]; rfl) hl2
        (by rw [List.length_map]; show row.length ≠ (d.w.map _).length; rw [List.length_map]; exact (hX row hr).2 d (by rw [e]; rfl)) a.2
      refine ⟨(List.replicate (wrapperClasses ds) 0, a.2), ?_, ⟨rfl, ha.2⟩, rfl⟩
      have hp : predictProba nops (genLoadable (written ops ds)) a.2 (row.map (seen read)) (wrapperClasses ds) = some ((.sizeMismatch, []), a.2) := by
        unfold predictProba
        simp only [ho, hi, bind, Option.bind_some, if_true]
        rfl
      simp only [given_received, Option.bind_some, hp, mapOpt, Option.map_some, List.nil_append, List.length_nil, List.drop_zero, ha.1])
  refine ⟨m, e1, fun i c row hi hc => ?_⟩
  obtain ⟨p, q1, q2⟩ := e2 i c row hi hc
  rw [List.getElem?_replicate, if_pos hc] at q1
  cases q1
  rw [q2]
  congr 1
  decide +kernel

/-- **C115** (negation) a network with a single layer (a Keras model with one Dense layer) is converted, and answers -2 for every row. -/
theorem C115_single_layer_refuted (d : Dense ℚ) (ha : NetArgs "mynet".toList [d]) (inline : Bool) (X : List (List ℚ)) (hf : Harness.Fits X) (hX : ∀ row ∈ X, row ≠ [] ∧ row.length ≤ 2147483647) :
    pyPredict ops nops nan fuel (depth + 2) read other [d] inline X = some (X.map fun _ => -2) := by
  obtain ⟨prog, h1, h2⟩ := compiled_eq ops nops nan fuel depth other ha
  unfold pyPredict
  rw [h1]
  refine predictIntS_rows read _ _ (BufsOk (written ops [d])) (start_ok ops [d]) X (fun row hr => (hX row hr).1) hf (fun _ => -2) fun row hr s hs => ?_
  have e1 := (C36_single_layer_refused nops (mapD (floatLit ops) d) (row.map (seen read)) s).2
  exact ⟨s, method_call ops nops nan fuel depth prog s _ inline _ s e1 (h2 s hs _ (by rw [List.length_map]; exact (hX row hr).2)), hs⟩

/-! ### Regression -/

/-- The number in the first output. -/
def firstNumber (val : F → Option ℚ) (out : List F) : ℚ := match out with | y :: _ => (val y).getD 0 | [] => 0

/-- **C115.** `predict(X)` of a regressor with one output, for any arithmetic, when the outputs are numbers: the output of the network on each row, with six decimals. -/
theorem C115_regress (val : F → Option ℚ) (h : Trained ds) (h1 : Spec.nOut ds = 1) (X : List (List ℚ)) (hf : Harness.Fits X)
    (hX : ∀ row ∈ X, Spec.Chained row.length ds ∧ ∀ y ∈ Spec.network nops (written ops ds) (row.map (seen read)), (val y).isSome) :
    ∃ preds, pyRegress ops nops nan read val other ds X = some preds ∧
      List.Forall₂ (fun row p => ∃ y q, Spec.network nops (written ops ds) (row.map (seen read)) = [y] ∧ val y = some q ∧ p = fixedValue 6 q) X preds := by
  obtain ⟨prog, e1, -⟩ := compiled_eq ops nops nan 0 0 other h.args
  have hno : Spec.nOut (written ops ds) = 1 := by rw [← h1]; exact nOut_map ds _
  have hl2 : 2 ≤ (written ops ds).length := by unfold written; rw [List.length_map]; exact h.layers
  have hne : written ops ds ≠ [] := by intro e; rw [e] at hl2; simp at hl2
  have hout : ∀ row ∈ X, ∃ y q, Spec.network nops (written ops ds) (row.map (seen read)) = [y] ∧ val y = some q := by
    intro row hr
    have hl := length_network nops (written ops ds) hne (row.map (seen read))
    rw [hno] at hl
    obtain ⟨y, hy⟩ := List.length_eq_one_iff.1 hl
    obtain ⟨q, hq⟩ := Option.isSome_iff_exists.1 ((hX row hr).2 y (by rw [hy]; simp))
    exact ⟨y, q, hy, hq⟩
  refine ⟨X.map fun row => fixedValue 6 ((fun vs => firstNumber val (Spec.network nops (written ops ds) vs)) (row.map (seen read))), ?_, ?_⟩
  · unfold pyRegress
    rw [e1]
    refine predictS_rows read _ _ (BufsOk (written ops ds)) (start_ok ops ds) X (fun row hr => row_ne h (hX row hr).1) hf
      (fun vs => firstNumber val (Spec.network nops (written ops ds) vs)) fun row hr s hs => ?_
    obtain ⟨y, q, hy, hq⟩ := hout row hr
    obtain ⟨s', i1, i2, i3⟩ := C36_infer_is_composition nops (written ops ds) hl2 (row.map (seen read)) (by rw [List.length_map]; exact chained_map ds _ _ (hX row hr).1) s hs
    refine ⟨s', ?_, i2⟩
    have hle := nOut_le (written ops ds) hne
    rw [hno, hy] at i3
    rw [hno] at hle
    have hreg : regress nops (genLoadable (written ops ds)) s (row.map (seen read)) 1 = some ((.ok, [y]), s') := by
      unfold regress
      simp only [outputs_gen _ hne, hno, bind, Option.bind_some, if_true, i1]
      rw [if_pos (by rw [i2.2]; exact hle), i3]
    unfold regress1
    simp only [hreg, List.getElem?_cons_zero, Option.map_some, Option.bind_some, hy, hq, firstNumber, Option.getD_some]
  · rw [List.forall₂_map_right_iff]
    refine List.forall₂_same.2 fun row hr => ?_
    obtain ⟨y, q, hy, hq⟩ := hout row hr
    refine ⟨y, q, hy, hq, ?_⟩
    simp only [hy, hq, firstNumber, Option.getD_some]

/-- **C115** (negation) a regressor with several outputs is converted, but its predictions are not numbers (`NAN`) for any data. -/
theorem C115_outputs_refuted (val : F → Option ℚ) (hnan : val nan = none) (h : Trained ds) (h1 : Spec.nOut ds ≠ 1) (X : List (List ℚ)) (hne : X ≠ []) (hf : Harness.Fits X) (hX : ∀ row ∈ X, row ≠ []) :
    pyRegress ops nops nan read val other ds X = none := by
  obtain ⟨prog, e1, -⟩ := compiled_eq ops nops nan 0 0 other h.args
  have hno : Spec.nOut (written ops ds) = Spec.nOut ds := nOut_map ds _
  have hl2 : 2 ≤ (written ops ds).length := by unfold written; rw [List.length_map]; exact h.layers
  have hnw : written ops ds ≠ [] := by intro e; rw [e] at hl2; simp at hl2
  unfold pyRegress
  rw [e1]
  obtain ⟨row, hr⟩ : ∃ row, X.head? = some row := by
    cases X with
    | nil => exact absurd rfl hne
    | cons r X => exact ⟨r, rfl⟩
  refine predictS_first_bad read _ _ X hX hf row hr ?_
  unfold regress1 regress
  simp only [outputs_gen _ hnw, hno, bind, Option.bind_some]
  rw [if_neg (Ne.symm h1)]
  simp only [Option.bind_some, hnan, Option.map_none]
end

/-! ### Against the exact network -/

section
open Emlearn.Flt
variable {R : Format F} {P : Accuracy}

theorem network_close (cops : CFloat F) (nops : NetOps F) {uf : ℝ} (h : NetArith R P uf nops) (hlit : LitOk R P cops) {ds : List (Dense ℚ)} {B : ℝ} (hB : 0 ≤ B) (hM : B + 1 / (2 * 10 ^ 6) ≤ P.M) (hw : Within B ds) (m : ℝ)
    (read : ℚ → F) (row : List ℚ) (Y e : ℝ) (he : 0 ≤ e) (hY : 0 ≤ Y) (hc : Spec.Chained row.length ds) (hx : ∀ v ∈ row, Close R e (seen read v) v ∧ |(v : ℝ)| ≤ Y) (hr : NetRange P uf (constErr P B) (realNet ds) (Y, e)) :
    List.Forall₂ (Close R (netErr P uf (constErr P B) (realNet ds) (Y, e)).2) (Spec.network nops (written cops ds) (row.map (seen read))) (Spec.network (realOps m) (realNet ds) (row.map fun v : ℚ => (v : ℝ))) := by
  refine (C96_network h (constErr_nonneg hB) m (written cops ds) (realNet ds) (row.map (seen read)) (row.map fun v : ℚ => (v : ℝ)) Y e he hY (written_close hlit hM ds hw)
    (by rw [List.length_map]; exact chained_map ds _ _ hc) ?_ ?_ hr).1
  · rw [List.forall₂_map_left_iff, List.forall₂_map_right_iff, List.forall₂_same]
    exact fun v hv => (hx v hv).1
  · intro y hy
    obtain ⟨v, hv, rfl⟩ := List.mem_map.1 hy
    exact (hx v hv).2

/-- **C115.** In `float` arithmetic: for each row, a class whose exact output (trained weights, data as given) is ahead of the others by more than twice `netErr` is the answer; with one output, the answer is whether it
exceeds one half, when it is further from one half than `netErr`. -/
theorem C115_class_partial (cops : CFloat F) (nops : NetOps F) {uf : ℝ} (h : NetArith R P uf nops) (hlit : LitOk R P cops) (nan : F) (fuel depth : Nat) (read : ℚ → F) (other : ℚ → List Char) {ds : List (Dense ℚ)} (ht : Trained ds)
    {B : ℝ} (hB : 0 ≤ B) (hM : B + 1 / (2 * 10 ^ 6) ≤ P.M) (hw : Within B ds) (m : ℝ) (Y e : ℝ) (he : 0 ≤ e) (hY : 0 ≤ Y) (hr : NetRange P uf (constErr P B) (realNet ds) (Y, e)) (inline : Bool)
    (X : List (List ℚ)) (hf : Harness.Fits X) (hX : ∀ row ∈ X, Spec.Chained row.length ds ∧ ∀ v ∈ row, Close R e (seen read v) v ∧ |(v : ℝ)| ≤ Y) :
    ∃ preds, pyPredict cops nops nan fuel (depth + 2) read other ds inline X = some preds ∧
      List.Forall₂ (fun row (p : Int) =>
        (∀ (c : Nat) (y : ℝ), 2 ≤ Spec.nOut ds → (Spec.network (realOps m) (realNet ds) (row.map fun v : ℚ => (v : ℝ)))[c]? = some y →
          (∀ (j : Nat) (w : ℝ), j ≠ c → (Spec.network (realOps m) (realNet ds) (row.map fun v : ℚ => (v : ℝ)))[j]? = some w → w + 2 * (netErr P uf (constErr P B) (realNet ds) (Y, e)).2 < y) → p = c) ∧
        (∀ y : ℝ, Spec.network (realOps m) (realNet ds) (row.map fun v : ℚ => (v : ℝ)) = [y] → (netErr P uf (constErr P B) (realNet ds) (Y, e)).2 < |y - 1 / 2| → p = if 1 / 2 < y then 1 else 0)) X preds := by
  obtain ⟨preds, h1, h2⟩ := C115_predict cops nops nan fuel depth read other ht inline X hf fun row hr => (hX row hr).1
  refine ⟨preds, h1, ?_⟩
  rw [List.forall₂_iff_get] at h2 ⊢
  refine ⟨h2.1, fun i hi hi' => ?_⟩
  have hd := h2.2 i hi hi'
  obtain ⟨hc, hx⟩ := hX _ (List.get_mem X ⟨i, hi⟩)
  generalize X.get ⟨i, hi⟩ = row at *
  have hn := network_close cops nops h hlit hB hM hw m read row Y e he hY hc hx hr
  have hne : ds ≠ [] := by rintro rfl; have := ht.layers; simp at this
  have hlen : (Spec.network nops (written cops ds) (row.map (seen read))).length = Spec.nOut ds := by
    rw [length_network nops _ (by unfold written; simpa using hne)]
    exact nOut_map ds _
  obtain ⟨k1, k2⟩ := decideClass_close h hn
  rw [hlen] at k1 k2
  refine ⟨fun c y hk hy hother => ?_, fun y hy hm => ?_⟩
  · have := k1 c y (by rw [← hn.length_eq, hlen]; exact hk) hy hother
    rw [hd] at this
    exact Option.some.inj this
  · have := k2 y hy hm
    rw [hd] at this
    exact Option.some.inj this

/-- **C115.** A regressor with one output, in `float` arithmetic: each prediction is within `netErr` and half a millionth of the output of the trained network. -/
theorem C115_regress_close (cops : CFloat F) (nops : NetOps F) {uf : ℝ} (h : NetArith R P uf nops) (hlit : LitOk R P cops) (nan : F) (read : ℚ → F) (val : F → Option ℚ) (hval : ∀ y, R.fin y → ∃ q : ℚ, val y = some q ∧ (q : ℝ) = R.val y)
    (other : ℚ → List Char) {ds : List (Dense ℚ)} (ht : Trained ds) (h1 : Spec.nOut ds = 1)
    {B : ℝ} (hB : 0 ≤ B) (hM : B + 1 / (2 * 10 ^ 6) ≤ P.M) (hw : Within B ds) (m : ℝ) (Y e : ℝ) (he : 0 ≤ e) (hY : 0 ≤ Y) (hr : NetRange P uf (constErr P B) (realNet ds) (Y, e))
    (X : List (List ℚ)) (hf : Harness.Fits X) (hX : ∀ row ∈ X, Spec.Chained row.length ds ∧ ∀ v ∈ row, Close R e (seen read v) v ∧ |(v : ℝ)| ≤ Y) :
    ∃ preds, pyRegress cops nops nan read val other ds X = some preds ∧
      List.Forall₂ (fun row (p : ℚ) => ∃ y, Spec.network (realOps m) (realNet ds) (row.map fun v : ℚ => (v : ℝ)) = [y] ∧ |(p : ℝ) - y| ≤ (netErr P uf (constErr P B) (realNet ds) (Y, e)).2 + 1 / (2 * 10 ^ 6)) X preds := by
  have hclose := fun row (hr' : row ∈ X) => network_close cops nops h hlit hB hM hw m read row Y e he hY (hX row hr').1 (hX row hr').2 hr
  obtain ⟨preds, p1, p2⟩ := C115_regress cops nops nan read other val ht h1 X hf fun row hr' => ⟨(hX row hr').1, fun y hy => by
    obtain ⟨i, hi, rfl⟩ := List.mem_iff_getElem.1 hy
    have := (List.forall₂_iff_get.1 (hclose row hr')).2 i hi (by rw [← (hclose row hr').length_eq]; exact hi)
    obtain ⟨q, hq, -⟩ := hval _ this.1
    simp only [List.get_eq_getElem] at hq
    rw [hq]; rfl⟩
  refine ⟨preds, p1, ?_⟩
  rw [List.forall₂_iff_get] at p2 ⊢
  refine ⟨p2.1, fun i hi hi' => ?_⟩
  obtain ⟨y, q, e1, e2, e3⟩ := p2.2 i hi hi'
  have hn := hclose _ (List.get_mem X ⟨i, hi⟩)
  rw [e1] at hn
  obtain ⟨z, tl, hz, hnil, hz'⟩ := List.forall₂_cons_left_iff.1 hn
  rw [List.forall₂_nil_left_iff] at hnil
  subst hnil
  refine ⟨z, hz', ?_⟩
  obtain ⟨q', hq', hqv⟩ := hval y hz.1
  rw [e2] at hq'
  cases hq'
  have h6 : |((fixedValue 6 q : ℚ) : ℝ) - (q : ℝ)| ≤ 1 / (2 * 10 ^ 6) := by
    have := fixedValue_close 6 q
    have h' : ((|fixedValue 6 q - q| : ℚ) : ℝ) ≤ ((1 / (2 * 10 ^ 6) : ℚ) : ℝ) := by exact_mod_cast this
    push_cast at h'
    exact h'
  rw [e3]
  have a1 := abs_le.1 h6
  have a2 := abs_le.1 hz.2
  rw [hqv] at a1
  rw [abs_le]
  constructor <;> linarith [a1.1, a1.2, a2.1, a2.2]
end

/-! ### Concrete runs -/

theorem exNet_trained : Trained exNet := by
  refine ⟨by decide, ?_, ?_, ?_, ?_, ?_⟩ <;> decide +kernel

set_option synthInstance.maxSize 1024 in
/-- Both methods, on text: two rows. Rows with one column are answered with -1. -/
example : pyPredict exC ratOps (-7) 0 2 id (fun _ => []) exNet false [[1, 2], [-1, 3]] = some [0, 1] ∧ pyPredict exC ratOps (-7) 0 2 id (fun _ => []) exNet true [[1, 2], [-1, 3]] = some [0, 1] ∧
    pyPredict exC ratOps (-7) 0 2 id (fun _ => []) exNet true [[1], [3]] = some [-1, -1] := by
  decide +kernel

set_option synthInstance.maxSize 1024 in
/-- One output: a regressor, and the two probabilities of a classifier. -/
example : pyRegress exC ratOps (-7) id some (fun _ => []) [⟨.relu, [[1, 1 / 10], [-1 / 2, 3]], [1 / 4, 0]⟩, ⟨.identity, [[2], [-1]], [1 / 3]⟩] [[1, 2], [4, 0]] = some [-5266667 / 1000000, 8433333 / 1000000] ∧
    (pyProba exC ratOps id some (fun _ => []) [⟨.relu, [[1]], [0]⟩, ⟨.identity, [[1]], [0]⟩] [[1 / 4], [1 / 2]]).map (fun m => (m 0 0, m 0 1, m 1 1)) = some (some (3 / 4), some (1 / 4), some (1 / 2)) := by
  decide +kernel

section
open Emlearn.Flt Binary32

theorem exTrained_trained : Trained exTrained :=
  ⟨by simp [exTrained], by decide +kernel, by decide +kernel, by decide +kernel, by decide +kernel, by simp [exTrained]⟩

/-- A concrete regressor in binary32, on any data of two columns with magnitudes up to 1: every prediction is within `2e-4` of the trained network. -/
example (nan : F32) (X : List (List ℚ)) (hf : Harness.Fits X) (hX : ∀ row ∈ X, row.length = 2 ∧ ∀ v ∈ row, |(v : ℝ)| ≤ 1) :
    ∃ preds, pyRegress c32 ops32 nan f32Read (fun y => some (f32Val y)) (fun _ => []) exTrained X = some preds ∧
      List.Forall₂ (fun row (p : ℚ) => ∃ y, Spec.network (realOps 0) exReal (row.map fun v : ℚ => (v : ℝ)) = [y] ∧ |(p : ℝ) - y| ≤ 2 / 10 ^ 4) X preds := by
  have hr := constErr_three_range
  have h := C115_regress_close c32 ops32 netArith lit32 nan f32Read (fun y => some (f32Val y)) (fun y hy => ⟨_, rfl, f32Val_eq y hy⟩) (fun _ => []) exTrained_trained rfl (B := 3) (by norm_num)
    (by have := big; show _ ≤ maxFinite; norm_num at this ⊢; linarith) within_trained 0 1 (1 / 10 ^ 6) (by norm_num) (by norm_num) (by rw [realNet_trained]; exact hr.1) X hf
    (fun row hrow => by
      obtain ⟨h2, hv⟩ := hX row hrow
      refine ⟨?_, fun v hvr => ⟨f32Read_close v ((hv v hvr).trans (by norm_num)), hv v hvr⟩⟩
      rw [h2]
      simp only [exTrained, Spec.Chained]
      refine ⟨rfl, by simp, by decide, rfl, by simp, by decide, trivial⟩)
  rw [realNet_trained] at h
  obtain ⟨preds, p1, p2⟩ := h
  refine ⟨preds, p1, p2.imp fun row p => ?_⟩
  rintro ⟨y, hy, hc⟩
  refine ⟨y, hy, hc.trans ?_⟩
  have := hr.2
  norm_num at this ⊢
  linarith
end

end Emlearn.Net.CText
