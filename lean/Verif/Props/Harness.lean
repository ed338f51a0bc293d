/- C56, C57: the compiled-model harness (`CompiledClassifier` and `eml_test.h`). -/
import Verif.Harness.Lemmas
namespace Emlearn.Harness

/-! ### output texts -/

theorem pySplit_single (sep : Char) (a : List Char) (h : sep ∉ a) : pySplit sep a = [a] := by
  induction a with
  | nil => rfl
  | cons c a ih =>
    simp only [List.mem_cons, not_or] at h
    simp [pySplit, ih h.2, Ne.symm h.1]

theorem pySplit_append (sep : Char) (a rest : List Char) (h : sep ∉ a) : pySplit sep (a ++ sep :: rest) = a :: pySplit sep rest := by
  induction a with
  | nil => simp [pySplit]
  | cons c a ih =>
    simp only [List.mem_cons, not_or] at h
    simp [pySplit, ih h.2, Ne.symm h.1]

theorem outputLines_text (ls : List (List Char)) (hn : ∀ l ∈ ls, '\n' ∉ l) (hne : ∀ l ∈ ls, l ≠ []) :
    outputLines (ls.flatMap (fun l => l ++ ['\n'])) = ls := by
  unfold outputLines
  induction ls with
  | nil => rfl
  | cons l ls ih =>
    simp only [List.flatMap_cons, List.append_assoc, List.singleton_append]
    rw [pySplit_append _ _ _ (hn l (by simp)), List.filter_cons_of_pos (by simp [hne l (by simp)]),
      ih (fun x hx => hn x (by simp [hx])) (fun x hx => hne x (by simp [hx]))]

theorem mapOpt_map {A B C : Type} (g : C → A) (f : A → Option B) (h : C → B) (l : List C) (hf : ∀ c ∈ l, f (g c) = some (h c)) :
    mapOpt f (l.map g) = some (l.map h) := by
  induction l with
  | nil => rfl
  | cons c l ih => simp [mapOpt, hf c (by simp), ih (fun c hc => hf c (by simp [hc]))]

theorem showNat_ne_sep {n : Nat} {c : Char} (h : c ∈ showNat n) : c ≠ ',' ∧ c ≠ ';' ∧ c ≠ '\n' := sep_facts (Or.inl (showNat_digits h))

/-- Lines printed by `classify`. -/
def predLine (row : Nat) (v : ℚ) : List Char := showNat row ++ ',' :: showFixed 6 v

def predPairs (func : List (Option ℚ) → ℚ) : Nat → List (List Char) → List (Nat × ℚ)
  | _, [] => []
  | row, b :: bs => (row, func ((strtok b []).map scanFloat)) :: predPairs func (row + 1) bs

theorem predPairs_values (func : List (Option ℚ) → ℚ) (row : Nat) (bs : List (List Char)) :
    (predPairs func row bs).map (·.2) = bs.map (fun b => func ((strtok b []).map scanFloat)) := by
  induction bs generalizing row with
  | nil => rfl
  | cons b bs ih => simp [predPairs, ih]

theorem foldRows_classify (func : List (Option ℚ) → ℚ) (row : Nat) (bs : List (List Char)) (out : List Char) :
    foldRows (classify func) row bs out = out ++ ((predPairs func row bs).map (fun p => predLine p.1 p.2)).flatMap (fun l => l ++ ['\n']) := by
  induction bs generalizing row out with
  | nil => simp [foldRows, predPairs]
  | cons b bs ih => simp [foldRows, predPairs, ih, classify, predLine]

theorem predLine_clean (row : Nat) (v : ℚ) : '\n' ∉ predLine row v ∧ predLine row v ≠ [] := by
  refine ⟨?_, by simp [predLine]⟩
  intro h
  rcases List.mem_append.mp h with h | h
  · exact (showNat_ne_sep h).2.2 rfl
  · rcases List.mem_cons.mp h with h | h
    · exact absurd h (by decide)
    · exact (showFixed_ne_sep h).2.2 rfl

theorem parsePrediction_line (row : Nat) (v : ℚ) : parsePrediction (predLine row v) = some (fixedValue 6 v) := by
  unfold parsePrediction predLine
  rw [pySplit_append _ _ _ (fun h => (showNat_ne_sep h).1 rfl), pySplit_single _ _ (fun h => (showFixed_ne_sep h).1 rfl)]
  exact readFixed_showFixed 6 (by norm_num) v

/-- The rows that fit the 2 KiB line buffer, in numbers: the text of each row, plus the newline after it if it is not the last, has at most 2047 characters. -/
def Fits (X : List (List ℚ)) : Prop :=
  ∀ (i : Nat) (row : List ℚ), X[i]? = some row → (serializeRow row).length + (if i + 1 < X.length then 1 else 0) ≤ 2047

theorem fits_iff (X : List (List ℚ)) : FitLines 2047 (X.map serializeRow) ↔ Fits X := by
  induction X with
  | nil => simp [FitLines, Fits]
  | cons r X ih =>
    cases X with
    | nil =>
      constructor
      · intro h i row hi
        cases i with
        | zero => simp at hi; subst hi; simpa [FitLines] using h
        | succ i => simp at hi
      · intro h
        have := h 0 r (by simp)
        simpa [FitLines] using this
    | cons q X =>
      simp only [List.map_cons, FitLines] at ih ⊢
      rw [ih]
      constructor
      · rintro ⟨h1, h2⟩ i row hi
        cases i with
        | zero => simp at hi; subst hi; simpa using h1
        | succ i =>
          have := h2 i row (by simpa using hi)
          simp only [List.length_cons] at this ⊢
          simpa using this
      · intro h
        refine ⟨by simpa using h 0 r (by simp), fun i row hi => ?_⟩
        have := h (i + 1) row (by simpa using hi)
        simp only [List.length_cons] at this ⊢
        simpa using this

theorem tokens_lines (X : List (List ℚ)) (hX : ∀ r ∈ X, r ≠ []) :
    (withNl (X.map serializeRow)).map (fun b => (strtok b []).map scanFloat) = X.map (fun row => row.map (fun x => some (fixedValue 8 x))) := by
  induction X with
  | nil => rfl
  | cons r X ih =>
    cases X with
    | nil =>
      have := tokens_row r (hX r (by simp)) [] (Or.inl rfl)
      simpa [withNl] using this
    | cons q X =>
      simp only [List.map_cons, withNl]
      have := ih (fun r hr => hX r (by simp at hr ⊢; tauto))
      simp only [List.map_cons] at this
      rw [this, tokens_row r (hX r (by simp)) _ (Or.inr rfl)]

theorem rows_clean (X : List (List ℚ)) (hX : ∀ r ∈ X, r ≠ []) :
    (∀ l ∈ X.map serializeRow, '\n' ∉ l) ∧ (∀ l ∈ X.map serializeRow, l ≠ []) := by
  constructor
  · intro l hl
    obtain ⟨r, _, rfl⟩ := List.mem_map.mp hl
    exact fun h => (serializeRow_chars h).2 rfl
  · intro l hl
    obtain ⟨r, hr, rfl⟩ := List.mem_map.mp hl
    exact serializeRow_ne_nil (hX r hr)

/-- The chunks the program reads: the rows if they fit, else more than there are rows. -/
theorem chunks_serialize (X : List (List ℚ)) (hX : ∀ r ∈ X, r ≠ []) :
    (Fits X → chunks 2047 ((serialize X).length + 1) (serialize X) = withNl (X.map serializeRow)) ∧
    (¬ Fits X → X.length < (chunks 2047 ((serialize X).length + 1) (serialize X)).length) := by
  obtain ⟨h1, h2⟩ := rows_clean X hX
  constructor
  · intro hf
    exact chunks_fit 2047 _ (by norm_num) h1 h2 ((fits_iff X).mpr hf) _ (by unfold serialize; omega)
  · intro hf
    rw [← fits_iff] at hf
    cases X with
    | nil => exact absurd (by simp [FitLines]) hf
    | cons r X =>
      have := (chunks_count 2047 (by norm_num) _ (serializeRow r) (X.map serializeRow) h1 (fun x hx => h2 x (by simp at hx ⊢; tauto))
        (Or.inl (h2 _ (by simp))) le_rfl ((serialize (r :: X)).length + 1) (by unfold serialize; simp)).2 hf
      simpa [serialize] using this

theorem readCsv_fold {S : Type} (cb : S → List (Option ℚ) → Nat → S) (X : List (List ℚ)) (hX : ∀ r ∈ X, r ≠ []) (st : S) :
    readCsv cb (serialize X) st = (foldRows cb 0 (chunks 2047 ((serialize X).length + 1) (serialize X)) st, .ok) :=
  readLoop_fold _ _ _ _ _ (chunk_tokens X hX _)

/-- What the compiled model gets for a row: every value rounded to 8 decimals. -/
def received (row : List ℚ) : List (Option ℚ) := row.map (fun x => some (fixedValue 8 x))

theorem outputLines_classify (func : List (Option ℚ) → ℚ) (X : List (List ℚ)) (hX : ∀ r ∈ X, r ≠ []) :
    outputLines (readCsv (classify func) (serialize X) []).1 =
    (predPairs func 0 (chunks 2047 ((serialize X).length + 1) (serialize X))).map (fun p => predLine p.1 p.2) := by
  rw [readCsv_fold _ X hX]
  simp only []
  rw [foldRows_classify, List.nil_append, outputLines_text]
  · intro l hl; obtain ⟨p, _, rfl⟩ := List.mem_map.mp hl; exact (predLine_clean _ _).1
  · intro l hl; obtain ⟨p, _, rfl⟩ := List.mem_map.mp hl; exact (predLine_clean _ _).2

theorem values_fit (func : List (Option ℚ) → ℚ) (X : List (List ℚ)) (hX : ∀ r ∈ X, r ≠ []) (hf : Fits X) :
    (predPairs func 0 (chunks 2047 ((serialize X).length + 1) (serialize X))).map (·.2) = X.map (fun row => func (received row)) := by
  rw [predPairs_values, (chunks_serialize X hX).1 hf]
  have := congrArg (List.map func) (tokens_lines X hX)
  rw [List.map_map, List.map_map] at this
  exact this

/-- **C56.** For every matrix (rows of at least one value) and every compiled model: `predict` returns one prediction per row, in order, each the model's answer for that row's
values — when every serialized row fits the program's line buffer. Otherwise it raises: it never returns a shifted, split or partial result. -/
theorem C56_predict (func : List (Option ℚ) → ℚ) (X : List (List ℚ)) (hX : ∀ r ∈ X, r ≠ []) :
    (Fits X → predict func X = some (X.map (fun row => fixedValue 6 (func (received row))))) ∧ (¬ Fits X → predict func X = none) := by
  have hm : mapOpt parsePrediction (outputLines (readCsv (classify func) (serialize X) []).1) =
      some ((predPairs func 0 (chunks 2047 ((serialize X).length + 1) (serialize X))).map (fun p => fixedValue 6 p.2)) := by
    rw [outputLines_classify func X hX]
    exact mapOpt_map _ _ _ _ (fun p _ => parsePrediction_line p.1 p.2)
  unfold predict
  simp only []
  rw [hm]
  simp only [Option.bind_some]
  constructor
  · intro hf
    have := congrArg (List.map (fixedValue 6)) (values_fit func X hX hf)
    rw [List.map_map, List.map_map] at this
    simp only [Function.comp_def] at this
    rw [this, if_pos (by simp)]
  · intro hf
    have := (chunks_serialize X hX).2 hf
    have hl := congrArg List.length (predPairs_values func 0 (chunks 2047 ((serialize X).length + 1) (serialize X)))
    simp only [List.length_map] at hl
    rw [if_neg]
    simp only [List.length_map]
    omega

theorem pyInt_int (n : Int) : pyInt (fixedValue 6 (n : ℚ)) = n := by
  have : (n : ℚ) = ((n * 10 ^ 6 : Int) : ℚ) / 10 ^ 6 := by rw [eq_div_iff (by norm_num)]; push_cast; norm_num
  have e : fixedValue 6 (n : ℚ) = n := by
    conv_lhs => rw [this]
    rw [fixedValue_exact, ← this]
  rw [e]
  unfold pyInt
  split
  · rw [show -(n : ℚ) = ((-n : Int) : ℚ) by push_cast; rfl, Int.floor_intCast]; omega
  · exact Int.floor_intCast n

/-- **C56.** For classifiers (the compiled model returns an integer class or error code), `predict` returns exactly that integer for every row. -/
theorem C56_predict_classes (func : List (Option ℚ) → Int) (X : List (List ℚ)) (hX : ∀ r ∈ X, r ≠ []) :
    (Fits X → predictInt (fun v => (func v : ℚ)) X = some (X.map (fun row => func (received row)))) ∧ (¬ Fits X → predictInt (fun v => (func v : ℚ)) X = none) := by
  have hm : mapOpt (fun l => (parsePrediction l).map pyInt) (outputLines (readCsv (classify (fun v => (func v : ℚ))) (serialize X) []).1) =
      some ((predPairs (fun v => (func v : ℚ)) 0 (chunks 2047 ((serialize X).length + 1) (serialize X))).map (fun p => pyInt (fixedValue 6 p.2))) := by
    rw [outputLines_classify _ X hX]
    exact mapOpt_map _ _ _ _ (fun p _ => by rw [parsePrediction_line]; rfl)
  unfold predictInt
  simp only []
  rw [hm]
  simp only [Option.bind_some]
  constructor
  · intro hf
    have := congrArg (List.map (fun q => pyInt (fixedValue 6 q))) (values_fit (fun v => (func v : ℚ)) X hX hf)
    rw [List.map_map, List.map_map] at this
    simp only [Function.comp_def, pyInt_int] at this
    rw [this, if_pos (by simp)]
  · intro hf
    have := (chunks_serialize X hX).2 hf
    have hl := congrArg List.length (predPairs_values (fun v => (func v : ℚ)) 0 (chunks 2047 ((serialize X).length + 1) (serialize X)))
    simp only [List.length_map] at hl
    rw [if_neg]
    simp only [List.length_map]
    omega

/-- **C56.** The values the compiled model gets are as many as were given and each differs from the given one by at most half a unit in the 8th decimal; a value whose magnitude is below
that becomes zero. -/
theorem C56_received_close (row : List ℚ) : (received row).length = row.length ∧
    (∀ (i : Nat) (x : ℚ), row[i]? = some x → ∃ (y : ℚ), (received row)[i]? = some (some y) ∧ |y - x| ≤ 1 / (2 * 10 ^ 8)) := by
  refine ⟨by simp [received], fun i x hx => ⟨fixedValue 8 x, by simp [received, hx], fixedValue_close 8 x⟩⟩

/-- Length of a serialized row. -/
theorem joinSep_length (sep : Char) (ls : List (List Char)) : (joinSep sep ls).length + 1 = (ls.map (fun l => l.length + 1)).sum + (if ls = [] then 1 else 0) := by
  induction ls with
  | nil => simp [joinSep]
  | cons l ls ih =>
    cases ls with
    | nil => simp [joinSep]
    | cons m ls =>
      simp only [joinSep, List.length_append, List.length_cons, List.map_cons, List.sum_cons] at ih ⊢
      simp at ih ⊢
      omega

/-- **C56.** The width limit: a matrix whose rows each need at most 2046 characters works, so in particular rows of `n` values of at most `w` characters with `n * (w + 1) ≤ 2047`. -/
theorem C56_narrow_enough (X : List (List ℚ)) (n w : Nat) (hX : ∀ r ∈ X, r ≠ []) (hn : ∀ r ∈ X, r.length ≤ n) (hw : ∀ r ∈ X, ∀ x ∈ r, (showFixed 8 x).length ≤ w)
    (h : n * (w + 1) ≤ 2047) : Fits X := by
  intro i row hi
  have hr := List.mem_of_getElem? hi
  have e := joinSep_length ',' (row.map (showFixed 8))
  rw [if_neg (by simpa using hX row hr), Nat.add_zero, List.map_map] at e
  have hs : (row.map ((fun l => l.length + 1) ∘ showFixed 8)).sum ≤ row.length * (w + 1) := by
    have h' := hw row hr
    clear e hr hi
    induction row with
    | nil => simp
    | cons x row ih =>
      simp only [List.map_cons, List.sum_cons, List.length_cons, Function.comp_apply]
      have := ih (fun y hy => h' y (by simp [hy]))
      have := h' x (by simp)
      rw [Nat.add_mul]
      omega
  have : row.length * (w + 1) ≤ n * (w + 1) := Nat.mul_le_mul_right _ (hn row hr)
  unfold serializeRow
  split <;> omega

/-- **C56, refuted as stated for all matrices.** A matrix with a row of more than 186 values makes `predict` raise, whatever the values and the model: the row does not fit the
2 KiB line buffer of `eml_test_read_csv` (whose value limit of 256 is never reached). -/
theorem C56_wide_refuted (func : List (Option ℚ) → ℚ) (X : List (List ℚ)) (hX : ∀ r ∈ X, r ≠ []) (row : List ℚ) (hr : row ∈ X) (hw : 186 < row.length) :
    predict func X = none := by
  apply (C56_predict func X hX).2
  intro hf
  obtain ⟨i, hi⟩ := List.mem_iff_getElem?.mp hr
  have := hf i row hi
  have e := joinSep_length ',' (row.map (showFixed 8))
  rw [if_neg (by simpa using hX row hr), Nat.add_zero, List.map_map] at e
  have hs : row.length * 11 ≤ (row.map ((fun l => l.length + 1) ∘ showFixed 8)).sum := by
    clear e hr hi this hw
    induction row with
    | nil => simp
    | cons x row ih =>
      simp only [List.map_cons, List.sum_cons, List.length_cons, Function.comp_apply]
      have := showFixed_length (d := 8) (by norm_num) x
      omega
  unfold serializeRow at this
  omega

example : Fits [[1, -5/2], [3, 10]] := C56_narrow_enough _ 2 20 (by decide) (by decide) (by decide +kernel) (by decide)
example : predictInt (fun v => v.length) [[1, -5/2], [3, 10]] = some [2, 2] := by decide +kernel
example : predict (fun v => match v with | [some a, some b] => a + b | _ => 0) [[1, -5/2], [3, 10]] = some [-3/2, 13] := by decide +kernel

/-! ### C57 -/

def probaLine (t : Nat × Nat × ℚ) : List Char := showNat t.1 ++ ',' :: (showNat t.2.1 ++ ',' :: showFixed 6 t.2.2)

def probaTriples (row : Nat) : Nat → List ℚ → List (Nat × Nat × ℚ)
  | _, [] => []
  | c, p :: ps => (row, c, p) :: probaTriples row (c + 1) ps

theorem probaLines_eq (row c : Nat) (ps : List ℚ) : probaLines row c ps = ((probaTriples row c ps).map probaLine).flatMap (fun l => l ++ ['\n']) := by
  induction ps generalizing c with
  | nil => rfl
  | cons p ps ih => simp [probaLines, probaTriples, ih, probaLine]

/-- The lines printed for the successive chunks, and the final `outputs`. -/
def probaAll (func : List (Option ℚ) → List ℚ → List ℚ) : Nat → List (List (Option ℚ)) → List ℚ → List (Nat × Nat × ℚ)
  | _, [], _ => []
  | row, v :: vs, o => probaTriples row 0 (func v o) ++ probaAll func (row + 1) vs (func v o)

theorem foldRows_proba (func : List (Option ℚ) → List ℚ → List ℚ) (row : Nat) (bs : List (List Char)) (o : List ℚ) (out : List Char) :
    (foldRows (classifyProba func) row bs (o, out)).2 =
    out ++ ((probaAll func row (bs.map (fun b => (strtok b []).map scanFloat)) o).map probaLine).flatMap (fun l => l ++ ['\n']) := by
  induction bs generalizing row o out with
  | nil => simp [foldRows, probaAll]
  | cons b bs ih =>
    simp only [foldRows, List.map_cons, probaAll]
    unfold classifyProba at ih ⊢
    simp only [] at ih ⊢
    rw [ih, probaLines_eq]
    simp

theorem probaLine_clean (t : Nat × Nat × ℚ) : '\n' ∉ probaLine t ∧ probaLine t ≠ [] := by
  refine ⟨?_, by simp [probaLine]⟩
  intro h
  rcases List.mem_append.mp h with h | h
  · exact (showNat_ne_sep h).2.2 rfl
  · rcases List.mem_cons.mp h with h | h
    · exact absurd h (by decide)
    · rcases List.mem_append.mp h with h | h
      · exact (showNat_ne_sep h).2.2 rfl
      · rcases List.mem_cons.mp h with h | h
        · exact absurd h (by decide)
        · exact (showFixed_ne_sep h).2.2 rfl

theorem parseProba_line (t : Nat × Nat × ℚ) : parseProba (probaLine t) = some (t.1, t.2.1, fixedValue 6 t.2.2) := by
  unfold parseProba probaLine
  rw [pySplit_append _ _ _ (fun h => (showNat_ne_sep h).1 rfl), pySplit_append _ _ _ (fun h => (showNat_ne_sep h).1 rfl),
    pySplit_single _ _ (fun h => (showFixed_ne_sep h).1 rfl)]
  simp [readNat_showNat, readFixed_showFixed 6 (by norm_num)]

theorem fillProba_append (n k : Nat) (l1 l2 : List (Nat × Nat × ℚ)) (m : Nat → Nat → Option ℚ) :
    fillProba n k (l1 ++ l2) m = (fillProba n k l1 m).bind (fillProba n k l2) := by
  induction l1 generalizing m with
  | nil => rfl
  | cons t l1 ih =>
    obtain ⟨r, c, v⟩ := t
    simp only [List.cons_append, fillProba]
    split
    · exact ih _
    · rfl

theorem fillProba_bad (n k : Nat) (l : List (Nat × Nat × ℚ)) (m : Nat → Nat → Option ℚ) (h : ∃ t ∈ l, ¬ t.1 < n) : fillProba n k l m = none := by
  induction l generalizing m with
  | nil => simp at h
  | cons t l ih =>
    obtain ⟨r, c, v⟩ := t
    simp only [fillProba]
    split
    · rename_i hc
      apply ih
      obtain ⟨t, ht, hb⟩ := h
      rcases List.mem_cons.mp ht with rfl | ht
      · exact absurd hc.1 hb
      · exact ⟨t, ht, hb⟩
    · rfl

def roundT (t : Nat × Nat × ℚ) : Nat × Nat × ℚ := (t.1, t.2.1, fixedValue 6 t.2.2)

theorem fillProba_row (n k row c : Nat) (ps : List ℚ) (hr : row < n) (hc : c + ps.length ≤ k) (m : Nat → Nat → Option ℚ) :
    ∃ (m' : Nat → Nat → Option ℚ), fillProba n k ((probaTriples row c ps).map roundT) m = some m' ∧
      ∀ i j, m' i j = if i = row ∧ c ≤ j ∧ j < c + ps.length then (ps[j - c]?).map (fixedValue 6) else m i j := by
  induction ps generalizing c m with
  | nil =>
    refine ⟨m, rfl, fun i j => ?_⟩
    rw [if_neg (by simp)]
  | cons p ps ih =>
    simp only [List.length_cons] at hc
    obtain ⟨m', h1, h2⟩ := ih (c + 1) (by omega) (fun i j => if i = row ∧ j = c then some (fixedValue 6 p) else m i j)
    refine ⟨m', ?_, fun i j => ?_⟩
    · simp only [probaTriples, List.map_cons, roundT, fillProba]
      rw [if_pos ⟨hr, by omega⟩]
      exact h1
    · rw [h2]
      simp only [List.length_cons]
      by_cases hi : i = row
      · subst hi
        by_cases hj : j = c
        · subst hj
          simp
        · by_cases hj2 : c + 1 ≤ j ∧ j < c + 1 + ps.length
          · rw [if_pos ⟨rfl, hj2⟩, if_pos ⟨rfl, by omega, by omega⟩]
            rw [show j - c = (j - (c + 1)) + 1 by omega, List.getElem?_cons_succ]
          · rw [if_neg (fun h => hj2 h.2), if_neg (fun h => hj h.2), if_neg (fun h => hj2 (by omega))]
      · rw [if_neg (fun h => hi h.1), if_neg (fun h => hi h.1), if_neg (fun h => hi h.1)]

/-- The compiled program's `outputs` after the rows so far, starting from zeros. -/
def outputsAfter (func : List (Option ℚ) → List ℚ → List ℚ) (nClasses : Nat) (rows : List (List ℚ)) : List ℚ :=
  rows.foldl (fun o row => func (received row) o) (List.replicate nClasses 0)

theorem fillProba_all (func : List (Option ℚ) → List ℚ → List ℚ) (n k : Nat) (hfun : ∀ v o, o.length = k → (func v o).length = k)
    (row : Nat) (vs : List (List (Option ℚ))) (o : List ℚ) (ho : o.length = k) (hr : row + vs.length ≤ n) (m : Nat → Nat → Option ℚ) :
    ∃ (m' : Nat → Nat → Option ℚ), fillProba n k ((probaAll func row vs o).map roundT) m = some m' ∧
      ∀ i j, m' i j = if row ≤ i ∧ i < row + vs.length ∧ j < k then (((vs.take (i - row + 1)).foldl (fun o v => func v o) o)[j]?).map (fixedValue 6) else m i j := by
  induction vs generalizing row o m with
  | nil =>
    refine ⟨m, rfl, fun i j => ?_⟩
    rw [if_neg]
    simp only [List.length_nil]; omega
  | cons v vs ih =>
    simp only [List.length_cons] at hr
    obtain ⟨m1, h1, h2⟩ := fillProba_row n k row 0 (func v o) (by omega) (by rw [hfun v o ho]; omega) m
    obtain ⟨m', h3, h4⟩ := ih (row + 1) (func v o) (hfun v o ho) (by omega) m1
    refine ⟨m', ?_, fun i j => ?_⟩
    · simp only [probaAll, List.map_append, fillProba_append]
      rw [h1]
      exact h3
    · rw [h4, h2, hfun v o ho]
      simp only [List.length_cons]
      by_cases hi : i = row
      · subst hi
        rw [if_neg (by omega)]
        by_cases hj : j < k
        · rw [if_pos ⟨rfl, by omega, by omega⟩, if_pos ⟨le_rfl, by omega, hj⟩]
          simp
        · rw [if_neg (by omega), if_neg (by omega)]
      · by_cases hc : row + 1 ≤ i ∧ i < row + 1 + vs.length ∧ j < k
        · rw [if_pos hc, if_pos ⟨by omega, by omega, hc.2.2⟩]
          rw [show i - row + 1 = (i - (row + 1) + 1) + 1 by omega, List.take_succ_cons, List.foldl_cons]
        · rw [if_neg hc, if_neg (fun h => hi h.1), if_neg (by omega)]

theorem probaAll_bad (func : List (Option ℚ) → List ℚ → List ℚ) (k : Nat) (hk : 0 < k) (hfun : ∀ v o, o.length = k → (func v o).length = k)
    (n row : Nat) (vs : List (List (Option ℚ))) (o : List ℚ) (ho : o.length = k) (hv : vs ≠ []) (hn : n < row + vs.length) :
    ∃ t ∈ (probaAll func row vs o).map roundT, ¬ t.1 < n := by
  induction vs generalizing row o with
  | nil => exact absurd rfl hv
  | cons v vs ih =>
    by_cases hvs : vs = []
    · subst hvs
      have hl := hfun v o ho
      cases hp : func v o with
      | nil => rw [hp] at hl; simp at hl; omega
      | cons p ps =>
        refine ⟨(row, 0, fixedValue 6 p), by simp [probaAll, hp, probaTriples, roundT], ?_⟩
        simp at hn ⊢; omega
    · obtain ⟨t, ht, hb⟩ := ih (row + 1) (func v o) (hfun v o ho) hvs (by simp at hn; omega)
      exact ⟨t, by simp only [probaAll, List.map_append, List.mem_append]; exact Or.inr ht, hb⟩

/-- **C57.** For every number of rows and classes and every compiled model: when the rows fit the line buffer, `predict_proba` returns a matrix in which every entry
`[row][class]` is set, to the value (with 6 decimals) that the program's output array held after processing that row; otherwise it raises. No entry is left uninitialised. -/
theorem C57_predict_proba (func : List (Option ℚ) → List ℚ → List ℚ) (nClasses : Nat) (hk : 0 < nClasses)
    (hfun : ∀ v o, o.length = nClasses → (func v o).length = nClasses) (X : List (List ℚ)) (hX : ∀ r ∈ X, r ≠ []) :
    (Fits X → ∃ (m : Nat → Nat → Option ℚ), predictProba func nClasses X = some m ∧ ∀ row cls, row < X.length → cls < nClasses →
      ∃ (p : ℚ), (outputsAfter func nClasses (X.take (row + 1)))[cls]? = some p ∧ m row cls = some (fixedValue 6 p)) ∧
    (¬ Fits X → predictProba func nClasses X = none) := by
  have hm : mapOpt parseProba (outputLines (readCsv (classifyProba func) (serialize X) (List.replicate nClasses 0, [])).1.2) =
      some ((probaAll func 0 ((chunks 2047 ((serialize X).length + 1) (serialize X)).map (fun b => (strtok b []).map scanFloat)) (List.replicate nClasses 0)).map roundT) := by
    rw [readCsv_fold _ X hX]
    simp only []
    rw [foldRows_proba, List.nil_append, outputLines_text]
    · exact mapOpt_map _ _ _ _ (fun t _ => parseProba_line t)
    · intro l hl; obtain ⟨p, _, rfl⟩ := List.mem_map.mp hl; exact (probaLine_clean _).1
    · intro l hl; obtain ⟨p, _, rfl⟩ := List.mem_map.mp hl; exact (probaLine_clean _).2
  unfold predictProba
  simp only []
  rw [hm]
  simp only [Option.bind_some]
  constructor
  · intro hf
    rw [(chunks_serialize X hX).1 hf, tokens_lines X hX]
    obtain ⟨m, h1, h2⟩ := fillProba_all func X.length nClasses hfun 0 (X.map (fun row => row.map (fun x => some (fixedValue 8 x)))) (List.replicate nClasses 0) (by simp)
      (by simp) (fun _ _ => none)
    refine ⟨m, h1, fun row cls hr hc => ?_⟩
    have e := h2 row cls
    rw [if_pos ⟨by omega, by simpa using hr, hc⟩] at e
    have ho : (List.take (row - 0 + 1) (X.map (fun row => row.map (fun x => some (fixedValue 8 x))))).foldl (fun o v => func v o) (List.replicate nClasses 0) =
        outputsAfter func nClasses (X.take (row + 1)) := by
      unfold outputsAfter
      rw [← List.map_take, List.foldl_map]
      rfl
    rw [ho] at e
    have hl : (outputsAfter func nClasses (X.take (row + 1))).length = nClasses := by
      unfold outputsAfter
      generalize X.take (row + 1) = Y
      have : ∀ (Y : List (List ℚ)) (o : List ℚ), o.length = nClasses → (Y.foldl (fun o row => func (received row) o) o).length = nClasses := by
        intro Y
        induction Y with
        | nil => intro o ho; exact ho
        | cons y Y ih => intro o ho; exact ih _ (hfun _ _ ho)
      exact this Y _ (by simp)
    obtain ⟨p, hp⟩ : ∃ p, (outputsAfter func nClasses (X.take (row + 1)))[cls]? = some p := ⟨_, List.getElem?_eq_getElem (by omega)⟩
    exact ⟨p, hp, by rw [e, hp]; rfl⟩
  · intro hf
    have hlt := (chunks_serialize X hX).2 hf
    apply fillProba_bad
    apply probaAll_bad func nClasses hk hfun X.length 0
    · simp
    · intro h
      have := congrArg List.length h
      simp at this
      rw [this] at hlt; simp at hlt
    · simpa using hlt

/-- **C57.** When the model's call fills the whole output array for every row (it succeeds), each entry is that model's probability for that row alone. -/
theorem C57_predict_proba_success (proba : List (Option ℚ) → List ℚ) (nClasses : Nat) (hk : 0 < nClasses) (hp : ∀ v, (proba v).length = nClasses)
    (X : List (List ℚ)) (hX : ∀ r ∈ X, r ≠ []) (hf : Fits X) :
    ∃ (m : Nat → Nat → Option ℚ), predictProba (fun v _ => proba v) nClasses X = some m ∧ ∀ (row cls : Nat) (r : List ℚ), X[row]? = some r → cls < nClasses →
      ∃ (p : ℚ), (proba (received r))[cls]? = some p ∧ m row cls = some (fixedValue 6 p) := by
  obtain ⟨m, h1, h2⟩ := (C57_predict_proba (fun v _ => proba v) nClasses hk (fun v o _ => hp v) X hX).1 hf
  refine ⟨m, h1, fun row cls r hr hc => ?_⟩
  obtain ⟨hlt, he⟩ := List.getElem?_eq_some_iff.mp hr
  obtain ⟨p, h3, h4⟩ := h2 row cls hlt hc
  refine ⟨p, ?_, h4⟩
  rw [← h3]
  unfold outputsAfter
  rw [List.take_add_one, hr, List.foldl_append]
  rfl

/-- **C57, refuted for failing rows.** When the model's call fails for a row without touching the output array (the generated program ignores the error), the matrix reports
the previous row's probabilities for it. -/
theorem C57_stale_probabilities (func : List (Option ℚ) → List ℚ → List ℚ) (nClasses : Nat) (hk : 0 < nClasses)
    (hfun : ∀ v o, o.length = nClasses → (func v o).length = nClasses) (X : List (List ℚ)) (hX : ∀ r ∈ X, r ≠ []) (hf : Fits X)
    (row : Nat) (r : List ℚ) (hr : X[row + 1]? = some r) (hfail : ∀ o, func (received r) o = o) :
    ∃ (m : Nat → Nat → Option ℚ), predictProba func nClasses X = some m ∧ ∀ cls, cls < nClasses → m (row + 1) cls = m row cls := by
  obtain ⟨m, h1, h2⟩ := (C57_predict_proba func nClasses hk hfun X hX).1 hf
  refine ⟨m, h1, fun cls hc => ?_⟩
  obtain ⟨hlt, he⟩ := List.getElem?_eq_some_iff.mp hr
  obtain ⟨p, h3, h4⟩ := h2 (row + 1) cls hlt hc
  obtain ⟨q, h5, h6⟩ := h2 row cls (by omega) hc
  have : outputsAfter func nClasses (X.take (row + 1 + 1)) = outputsAfter func nClasses (X.take (row + 1)) := by
    unfold outputsAfter
    rw [List.take_add_one (i := row + 1), hr, List.foldl_append]
    exact hfail _
  rw [this, h5] at h3
  rw [h4, h6, Option.some.inj h3]

example : (predictProba (fun v o => match v with | [some a] => if a < 0 then o else [a / 4, 1 - a / 4] | _ => o) 2 [[1], [-1], [3]]).map (fun m => [m 0 0, m 0 1, m 1 0, m 1 1, m 2 0, m 2 1])
    = some [some (1/4), some (3/4), some (1/4), some (3/4), some (3/4), some (1/4)] := by decide +kernel

end Emlearn.Harness
