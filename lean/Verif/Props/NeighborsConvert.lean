/- Properties C17 (end to end), C78, C79: predictions from stored items, the model check, conversion of scikit-learn models. -/
import Verif.Neighbors.Convert
import Verif.Props.Neighbors
import Mathlib.Data.Nat.Sqrt
namespace Emlearn.Neighbors

/-! ### Specification -/

/-- Euclidean distance of two integer vectors, rounded down. -/
def euclid (a b : List Int) : Nat := Nat.sqrt (squaredDistance a b).toNat

/-- `items` are `k` different positions of `rows` such that no other row is strictly nearer to `q` than one of them. -/
def Nearest (q : List Int) (rows : List (List Int)) (k : Nat) (items : List Nat) : Prop :=
  items.length = k ∧ items.Nodup ∧ (∀ i ∈ items, i < rows.length) ∧
  ∀ i ∈ items, ∀ j, j < rows.length → j ∉ items → euclid q (rows.getD i []) ≤ euclid q (rows.getD j [])

/-- `c` is the smallest of the labels `0..9` that is most frequent among `items`. -/
def Majority (labels : List Int) (items : List Nat) (c : Nat) : Prop :=
  c < 10 ∧ (∀ d : Nat, d < 10 → labelVotes labels items d ≤ labelVotes labels items c) ∧ ∀ d : Nat, d < c → labelVotes labels items d < labelVotes labels items c

/-! ### C17 end to end -/

theorem distance_prefix (a b rest : List Int) (hlen : b.length = a.length) (hs : squaredDistance a b < 2 ^ 30) :
    distance a (b ++ rest) a.length = some (euclid a b : Int) := by
  have e1 := sumSquares_spec a.length a (b ++ rest) 0 (le_refl _) (by simp; omega)
    (by rw [List.take_length, List.take_append_of_le_length (by omega), ← hlen, List.take_length]; norm_num at hs ⊢; exact hs)
  rw [List.take_length, List.take_append_of_le_length (by omega), ← hlen, List.take_length, hlen] at e1
  have h0 := squaredDistance_nonneg a b
  unfold distance
  rw [e1]
  simp only [Option.bind_eq_bind, Option.bind_some, Nat.zero_add]
  have e2 : toInt32 (squaredDistance a b).toNat = squaredDistance a b := by unfold toInt32; rw [if_pos (by omega)]; omega
  rw [e2]
  obtain ⟨r, e, r0, r1, r2⟩ := C15_isqrt_exact (squaredDistance a b) h0 hs
  rw [e]
  unfold euclid
  obtain ⟨s, hs'⟩ : ∃ s : Nat, r = s := ⟨r.toNat, by omega⟩
  obtain ⟨t, ht⟩ : ∃ t : Nat, squaredDistance a b = t := ⟨(squaredDistance a b).toNat, by omega⟩
  rw [hs', ht] at r1 r2 ⊢
  rw [Int.toNat_natCast]
  have a1 : s ≤ Nat.sqrt t := Nat.le_sqrt'.mpr (by exact_mod_cast r1)
  have a2 : Nat.sqrt t < s + 1 := Nat.sqrt_lt'.mpr (by exact_mod_cast r2)
  rw [show Nat.sqrt t = s by omega]

theorem drop_flatten (rows : List (List Int)) (n : Nat) (h : ∀ r ∈ rows, r.length = n) (rest : List Int) (i : Nat) (hi : i < rows.length) :
    ∃ (tail : List Int), (rows.flatten ++ rest).drop (n * i) = rows.getD i [] ++ tail := by
  induction rows generalizing i with
  | nil => simp at hi
  | cons r rows ih =>
    cases i with
    | zero => exact ⟨rows.flatten ++ rest, by simp⟩
    | succ i =>
      obtain ⟨tail, e⟩ := ih (fun x hx => h x (by simp [hx])) i (by simpa using hi)
      refine ⟨tail, ?_⟩
      have hr := h r (by simp)
      rw [List.flatten_cons, List.append_assoc, show n * (i + 1) = r.length + n * i by rw [hr]; ring, ← List.drop_drop, List.drop_left, e]
      simp

/-- **C17 (end to end).** For every model whose arrays hold the training rows `rows` and their labels (in order, possibly followed by unused space), with `1 <= k <= rows`, every query of the
right length whose squared distances to the rows are below `2^30`, and a distance buffer of at least one entry per row: the prediction is the smallest most frequent label among `k` nearest rows
(Euclidean distance, rounded down), or an error when one of those rows has a label outside `0..9`. -/
theorem C17_stored_rows (m : Model) (rows : List (List Int)) (rest : List Int) (q : List Int) (bufLen : Int) (k : Nat)
    (hn : m.nItems = rows.length) (hdata : m.data = rows.flatten ++ rest) (hrows : ∀ r ∈ rows, r.length = m.nFeatures) (hlab : rows.length ≤ m.labels.length)
    (hsize : rows.length < 2 ^ 32) (hk : m.k = k) (hk1 : 1 ≤ k) (hk2 : k ≤ rows.length) (hbuf : (rows.length : Int) ≤ bufLen) (hq : q.length = m.nFeatures)
    (hs : ∀ r ∈ rows, squaredDistance q r < 2 ^ 30) :
    ∃ (items : List Nat), Nearest q rows k items ∧
      ((∃ i ∈ items, ∃ l, m.labels[i]? = some l ∧ (l < 0 ∨ 10 ≤ l)) ∧ predict m q bufLen = some (.error .unknownError) ∨
       (∀ i ∈ items, ∃ l, m.labels[i]? = some l ∧ 0 ≤ l ∧ l < 10) ∧ ∃ c : Nat, predict m q bufLen = some (.ok (c : Int)) ∧ Majority m.labels items c) := by
  have hdist : ∀ i, i < m.nItems → distance q (m.item i) q.length = some ((euclid q (rows.getD i []) : Nat) : Int) := by
    intro i hi
    rw [hn] at hi
    obtain ⟨tail, e⟩ := drop_flatten rows m.nFeatures hrows rest i hi
    have hmem : rows.getD i [] ∈ rows := by
      rw [List.getD_eq_getElem?_getD, List.getElem?_eq_getElem hi]
      exact List.getElem_mem hi
    unfold Model.item
    rw [hdata, e]
    exact distance_prefix q _ tail (by rw [hrows _ hmem, hq]) (hs _ hmem)
  obtain ⟨items, h1, h2, h3, h4, h5⟩ := C17_predict_majority_of_k_nearest m q (fun i => ((euclid q (rows.getD i []) : Nat) : Int)) bufLen k (by omega) (by omega) hk hk1 (by omega) (by omega) hq hdist
  refine ⟨items, ⟨h1, h2, fun i hi => by rw [← hn]; exact h3 i hi, fun i hi j hj hji => ?_⟩, ?_⟩
  · exact_mod_cast h4 i hi j (by omega) hji
  · rcases h5 with h5 | ⟨h5, c, h6, h7, h8, h9⟩
    · exact Or.inl h5
    · exact Or.inr ⟨h5, c, h6, h7, h8, h9⟩

/-- **C17 (degenerate).** With `k <= 0` the function reports success with class `-1`, whatever is stored. -/
theorem C17_no_neighbours (m : Model) (q : List Int) (bufLen : Int) (ds : List Int) (hd : inferDistances m q = some ds) (hk : m.k ≤ 0) (hn : m.nItems < 2 ^ 32)
    (hbuf : (m.nItems : Int) ≤ bufLen) (hq : q.length = m.nFeatures) : predict m q bufLen = some (.ok (-1)) := by
  unfold predict
  rw [if_neg (by omega), if_neg (by simpa using hq), hd]
  simp only [Option.bind_eq_bind, Option.bind_some]
  unfold findNearest
  rw [if_neg (by omega)]
  obtain ⟨A, e, _⟩ := QSort.C13_qsort_sorts QSort.distance_strictWeak m.nItems (by omega) (fun i => (i, ds.getD i 0))
  rw [e]
  have : m.k.toNat = 0 := by omega
  simp only [Option.bind_eq_bind, Option.bind_some, this, List.range_zero, List.map_nil, voteLoop]
  decide

/-! ### C78 -/

/-- **C78.** `eml_neighbors_check` returns OK only when the data array holds `max_items * n_features` values and the label and distance arrays `max_items` entries; for lengths below `2^15`
exactly then. (Lengths are `int16_t` parameters; larger ones wrap, which can refuse a good model but never accepts a bad one.) -/
theorem C78_check (m : Model) (dataLength labelsLength distancesLength : Nat) :
    (check m dataLength labelsLength distancesLength = .ok → m.maxItems * m.nFeatures ≤ dataLength ∧ m.maxItems ≤ labelsLength ∧ m.maxItems ≤ distancesLength) ∧
    (dataLength < 2 ^ 15 → labelsLength < 2 ^ 15 → distancesLength < 2 ^ 15 →
      (check m dataLength labelsLength distancesLength = .ok ↔ m.maxItems * m.nFeatures ≤ dataLength ∧ m.maxItems ≤ labelsLength ∧ m.maxItems ≤ distancesLength)) ∧
    (check m dataLength labelsLength distancesLength ≠ .ok → check m dataLength labelsLength distancesLength = .sizeMismatch) := by
  have w : ∀ n : Nat, wrap16 n ≤ n := by intro n; unfold wrap16; omega
  have w2 : ∀ n : Nat, n < 2 ^ 15 → wrap16 n = n := by intro n hn; unfold wrap16; omega
  have hm : ((m.maxItems * m.nFeatures : Nat) : Int) = (m.maxItems : Int) * m.nFeatures := by push_cast; ring
  have a := w dataLength; have b := w labelsLength; have c := w distancesLength
  refine ⟨?_, ?_, ?_⟩
  · unfold check
    rw [← hm]
    split_ifs with h1 h2 h3
    · simp
    · simp
    · simp
    · intro _; omega
  · intro g1 g2 g3
    unfold check
    rw [← hm, w2 _ g1, w2 _ g2, w2 _ g3]
    split_ifs with h1 h2 h3 <;> simp <;> omega
  · unfold check
    split_ifs <;> simp

/-- **C78, refuted as a completeness claim.** A model of 200 items with 200 features in arrays of exactly the right size is refused: 40000 does not fit the `int16_t` parameter. -/
theorem C78_large_refuted : check ⟨200, 0, 200, List.replicate 40000 0, List.replicate 200 0, 1⟩ 40000 200 200 = .sizeMismatch := by
  unfold check
  decide

/-- **C78.** A model that passes the check with the true array lengths accepts any history of `add_item` calls without leaving its arrays (`C18` applies). -/
theorem C78_then_safe (m : Model) (h0 : m.nItems = 0) (distancesLength : Nat) (hc : check m m.data.length m.labels.length distancesLength = .ok) (calls : List (List Int × Int)) :
    ∃ (m' : Model) (es : List EmlError), addAll m calls = some (m', es) ∧ m'.nItems ≤ m.maxItems ∧ m'.data.length = m.data.length := by
  obtain ⟨h1, h2, _⟩ := (C78_check m m.data.length m.labels.length distancesLength).1 hc
  obtain ⟨m', e, h3, h4, _, _, _, _, _, _, h5, _⟩ := C18_add_item_history m h0 (by rw [Nat.mul_comm]; exact h1) h2 calls
  exact ⟨m', _, e, by omega, h5⟩

example : check ⟨2, 0, 3, [0,0,0,0,0,0], [0,0,0], 1⟩ 6 3 3 = .ok ∧ check ⟨2, 0, 3, [0,0,0,0,0], [0,0,0], 1⟩ 5 3 3 = .sizeMismatch := by decide

/-! ### C79 -/

theorem convertFeatures_ok (n : Nat) (values : List ℚ) (h : values.length = n) (hr : ∀ v ∈ values, -32768 ≤ trunc v ∧ trunc v ≤ 32767) :
    convertFeatures n values = some (values.map trunc) := by
  unfold convertFeatures
  rw [if_pos (by omega)]
  clear h
  induction values with
  | nil => rfl
  | cons v vs ih =>
    rw [List.mapM_cons, if_pos (hr v (by simp)), ih (fun x hx => hr x (by simp [hx]))]
    rfl

/-- **C79.** Conversion of a fitted nearest-neighbors classifier with `n_items` training rows, class indices `0..9` and `1 <= k <= n_items`: for every query of the right length, the generated
function returns the smallest most frequent class index among `k` training rows nearest to the query, where data and query are first truncated to integers (all within `int16_t`, squared distances
below `2^30`). -/
theorem C79_converted_predict_partial (data : List (List ℚ)) (nFeatures : Nat) (labels : List Int) (k : Nat) (values : List ℚ)
    (hsize : data.length ≤ 32767) (hnf : nFeatures ≤ 65535) (hk1 : 1 ≤ k) (hk2 : k ≤ data.length) (hshape : ∀ r ∈ data, r.length = nFeatures) (hlab : labels.length = data.length)
    (hlabels : ∀ l ∈ labels, 0 ≤ l ∧ l < 10) (hrange : ∀ r ∈ data, ∀ v ∈ r, -32768 ≤ trunc v ∧ trunc v ≤ 32767)
    (hv : values.length = nFeatures) (hvr : ∀ v ∈ values, -32768 ≤ trunc v ∧ trunc v ≤ 32767)
    (hs : ∀ r ∈ data, squaredDistance (values.map trunc) (r.map trunc) < 2 ^ 30) :
    ∃ (m : Model) (items : List Nat) (c : Nat), generate data nFeatures labels k = some m ∧ predictFunc m data.length values = some (c : Int) ∧
      Nearest (values.map trunc) (data.map (fun r => r.map trunc)) k items ∧ Majority labels items c := by
  have hlw : labels.map wrap16 = labels := by
    conv_rhs => rw [← List.map_id labels]
    apply List.map_congr_left
    intro l hl
    have := hlabels l hl
    exact wrap16_id (by omega) (by omega)
  have hdw : data.flatten.map (fun v => wrap16 (trunc v)) = (data.map (fun r => r.map trunc)).flatten := by
    rw [List.map_flatten]
    congr 1
    apply List.map_congr_left
    intro r hr
    apply List.map_congr_left
    intro v hv
    have := hrange r hr v hv
    exact wrap16_id this.1 this.2
  set m : Model := { nFeatures := nFeatures, nItems := data.length, maxItems := data.length, data := (data.map (fun r => r.map trunc)).flatten, labels := labels, k := k } with hm
  have hg : generate data nFeatures labels k = some m := by
    unfold generate
    rw [if_pos ⟨hsize, hnf, by omega, by omega⟩, hlw, hdw]
  obtain ⟨items, h1, h2⟩ := C17_stored_rows m (data.map (fun r => r.map trunc)) [] (values.map trunc) data.length k (by simp [hm]) (by simp [hm])
    (by intro r hr; obtain ⟨r', h, rfl⟩ := List.mem_map.mp hr; simp [hm, hshape r' h]) (by simp [hm, hlab]) (by simp; omega) rfl hk1 (by simpa using hk2) (by simp) (by simp [hm, hv])
    (by intro r hr; obtain ⟨r', h, rfl⟩ := List.mem_map.mp hr; exact hs r' h)
  rcases h2 with ⟨⟨i, hi, l, hl, hbad⟩, _⟩ | ⟨_, c, hp, hc⟩
  · have := hlabels l (List.mem_of_getElem? hl)
    omega
  · refine ⟨m, items, c, hg, ?_, h1, hc⟩
    unfold predictFunc
    rw [convertFeatures_ok m.nFeatures values hv hvr]
    simp only [Option.bind_eq_bind, Option.bind_some]
    rw [hp]
    rfl

/-- **C79, refuted for data that is not whole numbers.** Training rows `0` (class 0) and `0.9` (class 1), one neighbor: the query `0.8` is nearest to `0.9`, but the generated code answers 0,
because data and query are truncated to integers. -/
theorem C79_truncation_refuted : ∃ (m : Model), generate [[0], [9 / 10]] 1 [0, 1] 1 = some m ∧ predictFunc m 2 [8 / 10] = some 0 ∧ |(8 / 10 : ℚ) - 9 / 10| < |(8 / 10 : ℚ) - 0| := by
  refine ⟨⟨1, 2, 2, [0, 0], [0, 1], 1⟩, ?_, ?_, ?_⟩
  · decide +kernel
  · decide +kernel
  · norm_num

/-- **C79, refuted for wrong input lengths.** The library call would report a size mismatch, but the generated wrapper first copies all given values into an array of `n_features` elements:
any longer input is written past its end. -/
theorem C79_long_input_refuted (m : Model) (distanceLength : Nat) (values : List ℚ) (h : m.nFeatures < values.length) : predictFunc m distanceLength values = none := by
  unfold predictFunc convertFeatures
  rw [if_neg (by omega)]
  rfl

/-- **C79.** Failures are reported as negative numbers, never as a class: too few values give -1 (size mismatch), more neighbors than training rows give -1, and neighbors with labels outside
`0..9` give -5 (unknown error). -/
theorem C79_errors (m : Model) (distanceLength : Nat) (values : List ℚ) (hvr : ∀ v ∈ values, -32768 ≤ trunc v ∧ trunc v ≤ 32767) (hn : m.nItems ≤ distanceLength) :
    (values.length < m.nFeatures → predictFunc m distanceLength values = some (-1)) ∧
    (values.length = m.nFeatures → m.k > m.nItems → (∃ ds, inferDistances m (values.map trunc) = some ds) → predictFunc m distanceLength values = some (-1)) ∧
    (predict m (values.map trunc) distanceLength = some (.error .unknownError) → values.length = m.nFeatures → predictFunc m distanceLength values = some (-5)) := by
  have conv : values.length ≤ m.nFeatures → convertFeatures m.nFeatures values = some (values.map trunc) := by
    intro h
    have := convertFeatures_ok values.length values rfl hvr
    unfold convertFeatures at this ⊢
    rw [if_pos h]
    rwa [if_pos le_rfl] at this
  refine ⟨fun h => ?_, fun h hk hd => ?_, fun hp h => ?_⟩
  · unfold predictFunc
    rw [conv (by omega)]
    have : predict m (values.map trunc) distanceLength = some (.error .sizeMismatch) := by
      unfold predict
      rw [if_neg (by omega), if_pos (by simp; omega)]
    simp only [Option.bind_eq_bind, Option.bind_some, this]
    rfl
  · obtain ⟨ds, hd⟩ := hd
    have := (C17_predict_reports_errors m (values.map trunc) distanceLength ds hd).2.2 hk
    unfold predictFunc
    rw [conv (by omega)]
    simp only [Option.bind_eq_bind, Option.bind_some, this]
    rfl
  · unfold predictFunc
    rw [conv (by omega)]
    simp only [Option.bind_eq_bind, Option.bind_some, hp]
    rfl

/-- **C79.** Only Euclidean, uniformly weighted models and the `loadable` method are converted; everything else is refused before code is generated. -/
theorem C79_refusals (metric weights : String) (inference : Option String) :
    wrapperCheck metric weights inference = .ok () ↔ metric = "euclidean" ∧ weights = "uniform" ∧ (inference = none ∨ inference = some "loadable") := by
  unfold wrapperCheck
  split_ifs with h1 h2 h3
  · simp [h1]
  · simp [h2]
  · simp only [not_not] at h1 h2
    cases inference <;> simp_all
  · simp only [not_not] at h1 h2
    cases inference <;> simp_all

example : ∃ (m : Model), generate [[0, 0], [10, 0], [0, 1], [9, 9]] 2 [1, 2, 1, 3] 3 = some m ∧ predictFunc m 4 [1, 1] = some 1 := by
  refine ⟨⟨2, 4, 4, [0, 0, 10, 0, 0, 1, 9, 9], [1, 2, 1, 3], 3⟩, ?_, ?_⟩ <;> decide +kernel

end Emlearn.Neighbors
