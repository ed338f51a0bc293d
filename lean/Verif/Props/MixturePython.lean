/- C116: Gaussian mixtures called from Python, from the fitted mixture to the answers for a matrix of data. -/
import Verif.Mixture.Python
import Verif.Props.FloatMixture
import Verif.Harness.Read32
namespace Emlearn.Mixture.CText
open Emlearn.Cgen Emlearn.MiniC Emlearn.Net.CText Emlearn.Harness Matrix
variable {F : Type}

/-! ### Specification: the values of the components, in the order of the operations of the program -/

section
variable [Zero F] [Add F] [Sub F] [Mul F] {n : Nat}

/-- `Σ_p v_p L_{p,f}`, added from the left. -/
def colDot (v : Fin n → F) (L : Matrix (Fin n) (Fin n) F) (f : Fin n) : F := (List.finRange n).foldl (fun a p => a + v p * L p f) 0

/-- `Σ_f ((x L)_f - (μ L)_f)²`, added from the left. -/
def sqLength (x mu : Fin n → F) (L : Matrix (Fin n) (Fin n) F) : F :=
  (List.finRange n).foldl (fun a f => a + (colDot x L f - colDot mu L f) * (colDot x L f - colDot mu L f)) 0

/-- The weighted log density of one component. -/
def compVal (comb : Nat → F → F → F) (x mu : Fin n → F) (L : Matrix (Fin n) (Fin n) F) (ld lw : F) : F := comb n (sqLength x mu L) ld + lw

omit [Zero F] [Sub F] [Mul F] in
theorem sumLoop_range (f : Nat → Option F) (g : Nat → F) (k i : Nat) (acc : F) (h : ∀ j, i ≤ j → j < i + k → f j = some (g j)) :
    Emlearn.sumLoop f k i acc = some ((List.range' i k).foldl (fun a j => a + g j) acc) := by
  induction k generalizing i acc with
  | zero => rfl
  | succ k ih =>
    rw [Emlearn.sumLoop, h i le_rfl (by omega)]
    simp only [Option.bind_some]
    rw [ih (i + 1) _ fun j h1 h2 => h j (by omega) (by omega)]
    rfl

omit [Sub F] [Mul F] in
theorem sumLoop_finRange (f : Nat → Option F) (g : Fin n → F) (h : ∀ j : Fin n, f j.1 = some (g j)) :
    Emlearn.sumLoop f n 0 0 = some ((List.finRange n).foldl (fun a j => a + g j) 0) := by
  rw [sumLoop_range f (fun j => if hj : j < n then g ⟨j, hj⟩ else 0) n 0 0 (fun j _ hj => by rw [dif_pos (by omega)]; exact h ⟨j, by omega⟩),
    ← List.range_eq_range', ← List.map_coe_finRange_eq_range, List.foldl_map]
  simp

theorem component_any {C : Nat} (comb : Nat → F → F → F) (mu : Fin C → Fin n → F) (L : Fin C → Matrix (Fin n) (Fin n) F) (ld lw : Fin C → F) (x : Fin n → F) (c : Fin C) :
    component comb (gmm mu L ld lw) (List.ofFn x) c = some (compVal comb x (mu c) (L c) (ld c) (lw c)) := by
  have hdot : ∀ (l : List F) (off : Nat) (v : Fin n → F), (∀ p : Fin n, l[off + p.1]? = some (v p)) → ∀ f : Fin n, dot (gmm mu L ld lw) l off c f = some (colDot v (L c) f) := by
    intro l off v hl f
    unfold dot
    refine sumLoop_finRange _ _ fun p => ?_
    have h1 := prec_entry L c p f
    have h2 := hl p
    simp only [gmm, generate, h1, h2]
    rfl
  have hq : quad (gmm mu L ld lw) (List.ofFn x) c = some (sqLength x (mu c) (L c)) := by
    unfold quad
    refine sumLoop_finRange (n := n) _ _ fun f => ?_
    have e1 := hdot (List.ofFn x) 0 x (fun p => by simp) f
    have e2 : dot (gmm mu L ld lw) (gmm mu L ld lw).means (c.1 * (gmm mu L ld lw).nFeatures) c f = _ := hdot _ (c.1 * n) (mu c) (fun p => rows_flatten mu c p) f
    rw [e1, e2]
    rfl
  unfold component
  rw [hq]
  simp [gmm, generate, compVal]

/-- The call succeeds for any arithmetic. -/
theorem logProba_any {C : Nat} (hC : 0 < C) (comb : Nat → F → F → F) (mu : Fin C → Fin n → F) (L : Fin C → Matrix (Fin n) (Fin n) F) (ld lw : Fin C → F) (x : Fin n → F) (out : List F) (hout : out.length = C) :
    predictLogProba comb (gmm mu L ld lw) (List.ofFn x) out = some (0, List.ofFn fun c => compVal comb x (mu c) (L c) (ld c) (lw c)) := by
  have hn : (gmm mu L ld lw).nComponents = C := by simp [gmm, generate, rows]
  unfold predictLogProba
  rw [hn, if_pos hC, if_pos (show (gmm mu L ld lw).cov = Cov.full from rfl),
    compLoop_eq comb _ _ (fun j => if hj : j < C then compVal comb x (mu ⟨j, hj⟩) (L ⟨j, hj⟩) (ld ⟨j, hj⟩) (lw ⟨j, hj⟩) else 0) C 0 out (by omega)
      (fun j _ hj => by rw [dif_pos (by omega)]; exact component_any comb mu L ld lw x ⟨j, by omega⟩)]
  simp only [List.take_zero, List.nil_append, Option.map_some, Option.some.injEq, Prod.mk.injEq, true_and]
  rw [List.drop_eq_nil_of_le (by omega), List.append_nil]
  apply List.ext_getElem
  · simp
  · intro j h1 h2
    have hj : j < C := by simpa using h2
    simp [hj]
end

/-! ### Text -/

theorem pySplit_joinSep (sep : Char) (ls : List (List Char)) (hne : ls ≠ []) (h : ∀ l ∈ ls, sep ∉ l) : pySplit sep (joinSep sep ls) = ls := by
  induction ls with
  | nil => exact absurd rfl hne
  | cons a ls ih =>
    cases ls with
    | nil => exact pySplit_single sep a (h a (by simp))
    | cons b ls =>
      rw [joinSep, pySplit_append sep a _ (h a (by simp)), ih (by simp) fun l hl => h l (by simp [hl])]

theorem lastLine_join (qs : List ℚ) (hne : qs ≠ []) : lastLine (joinSep ',' (qs.map (showFixed 6))) = some (qs.map (fixedValue 6)) := by
  have hs : ∀ l ∈ qs.map (showFixed 6), ∀ c ∈ l, c ≠ ',' ∧ c ≠ '\n' := by
    intro l hl c hc
    obtain ⟨q, -, rfl⟩ := List.mem_map.1 hl
    rcases showFixed_chars hc with h | rfl | rfl
    · constructor <;> rintro rfl <;> simp at h
    · decide
    · decide
  unfold lastLine
  rw [pySplit_single '\n' _ (by
      intro hc
      rcases mem_joinSep hc with h | ⟨l, hl, hc⟩
      · exact absurd h (by decide)
      · exact (hs l hl _ hc).2 rfl)]
  rw [List.getLast?_singleton, Option.getD_some]
  rw [pySplit_joinSep ',' _ (by simpa using hne) fun l hl hc => (hs l hl _ hc).1 rfl]
  exact mapOpt_map (showFixed 6) readFixed (fixedValue 6) qs fun q _ => readFixed_showFixed 6 (by norm_num) q

theorem printed_flts (val : F → Option ℚ) (num : F → ℚ) (ys : List F) (h : ∀ y ∈ ys, val y = some (num y)) :
    printed val (ys.map fun y => some (.flt y)) = some (joinSep ',' (ys.map fun y => showFixed 6 (num y))) := by
  unfold printed
  rw [mapOpt_map _ _ (fun y => showFixed 6 (num y)) ys fun y hy => by simp only [h y hy, Option.map_some]]
  rfl

/-! ### Any arithmetic -/

/-- The covariance data of scikit-learn's four types. -/
abbrev CovData (C n : Nat) : Type := (Fin C → Matrix (Fin n) (Fin n) ℚ) ⊕ Matrix (Fin n) (Fin n) ℚ ⊕ (Fin C → Fin n → ℚ) ⊕ (Fin C → ℚ)

/-- The fitted mixture. -/
def est {C n : Nat} (mu : Fin C → Fin n → ℚ) (d : CovData C n) (ld lw : Fin C → ℚ) : Estimator := ⟨rows mu, asChol d, List.ofFn ld, List.ofFn lw, n⟩

section
variable [Zero F] [Add F] [Sub F] [Mul F] (ops : CFloat F) (comb : Nat → F → F → F) (lse : List F → F) (ex : F → F) (fuel depth : Nat) (val : F → Option ℚ) (pyStr : ℚ → List Char) (strtod : List Char → F) (other : ℚ → List Char)
variable {C n : Nat} (mu : Fin C → Fin n → ℚ) (d : CovData C n) (ld lw : Fin C → ℚ)

/-- The value of a component for a row of data, with the numbers as they stand in the source. -/
def rowComp (row : Fin n → ℚ) (c : Fin C) : F :=
  compVal comb (fun i => strtod (pyStr (row i))) (fun i => floatLit ops (mu c i)) (Matrix.of fun i j => floatLit ops (fullOf c d i j)) (floatLit ops (ld c)) (floatLit ops (lw c))

def rowScore (row : Fin n → ℚ) : F := lse (List.ofFn (rowComp ops comb pyStr strtod mu d ld lw row))

def rowResp (row : Fin n → ℚ) (c : Fin C) : F := ex (rowComp ops comb pyStr strtod mu d ld lw row c - rowScore ops comb lse pyStr strtod mu d ld lw row)

/-- What each method prints for a row. -/
def rowOut (q : Query) (row : Fin n → ℚ) : List F :=
  match q with
  | .score => [rowScore ops comb lse pyStr strtod mu d ld lw row]
  | .logProba => List.ofFn (rowComp ops comb pyStr strtod mu d ld lw row)
  | .proba => List.ofFn (rowResp ops comb lse ex pyStr strtod mu d ld lw row)

theorem gmm_args (hC : 1 ≤ C ∧ C ≤ 2147483647) (hn : 1 ≤ n ∧ n ≤ 2147483647) : MixtureArgs "gmm".toList (rows mu) (List.ofFn fun c => rows (fullOf c d)) (List.ofFn ld) (List.ofFn lw) n := by
  refine ⟨by decide +kernel, by decide +kernel, by decide +kernel, by simpa [rows] using hC, hn, ?_, ⟨by simp [rows], ?_⟩, by simp [rows], by simp [rows]⟩
  · intro r hr
    obtain ⟨c, rfl⟩ := List.mem_ofFn.1 hr
    simp
  · intro m hm
    obtain ⟨c, rfl⟩ := List.mem_ofFn.1 hm
    exact isMat_rows _

omit [Zero F] [Add F] [Sub F] [Mul F] in
theorem overwrite_ofFn (f : Fin C → F) (vs : List (Option (Val F))) (h : vs.length = C) : overwrite (List.ofFn f) vs = (List.ofFn f).map fun y => some (.flt y) := by
  unfold overwrite
  rw [List.drop_of_length_le (by simp [h]), List.append_nil]

theorem row_eq (hC : 1 ≤ C ∧ C ≤ 2147483647) (hn : 1 ≤ n ∧ n ≤ 2147483647) : ∃ text prog, generateText other "gmm".toList (rows mu) (List.ofFn fun c => rows (fullOf c d)) (List.ofFn ld) (List.ofFn lw) n .full = some text ∧
    parse text = some prog ∧ ∀ (q : Query) (num : F → ℚ) (row : Fin n → ℚ), (∀ y ∈ rowOut ops comb lse ex pyStr strtod mu d ld lw q row, val y = some (num y)) →
      pyRow ops comb lse ex fuel (depth + 2) val pyStr strtod prog C n q (List.ofFn row) = some ((rowOut ops comb lse ex pyStr strtod mu d ld lw q row).map fun y => fixedValue 6 (num y)) := by
  have ha := gmm_args mu d ld lw hC hn
  obtain ⟨text, prog, h1, h2, hs⟩ := C92_score ops other "gmm".toList _ _ _ _ n comb lse ex fuel depth ha
  obtain ⟨text', prog', h1', h2', hp⟩ := C92_predict_proba ops other "gmm".toList _ _ _ _ n comb lse ex fuel depth ha
  rw [h1] at h1'; cases h1'
  rw [h2] at h2'; cases h2'
  refine ⟨text, prog, h1, h2, ?_⟩
  intro q num row hval
  have hrows : (rows mu).length = C := by simp [rows]
  have hw : writtenModel ops (rows mu) (List.ofFn fun c => rows (fullOf c d)) (List.ofFn ld) (List.ofFn lw) n =
      gmm (fun c f => floatLit ops (mu c f)) (fun c => Matrix.of fun i j => floatLit ops (fullOf c d i j)) (fun c => floatLit ops (ld c)) (fun c => floatLit ops (lw c)) := by
    unfold writtenModel gmm rows
    simp only [List.map_ofFn, Function.comp_def]
    rfl
  have hl : predictLogProba comb (writtenModel ops (rows mu) (List.ofFn fun c => rows (fullOf c d)) (List.ofFn ld) (List.ofFn lw) n) (List.ofFn fun i => strtod (pyStr (row i))) (List.replicate C 0) =
      some (0, List.ofFn (rowComp ops comb pyStr strtod mu d ld lw row)) := by
    rw [hw, logProba_any (by omega) comb _ _ _ _ _ _ (by simp)]
    rfl
  have hmap : ((List.ofFn row).map pyStr).map strtod = List.ofFn fun i => strtod (pyStr (row i)) := by
    simp only [List.map_ofFn, Function.comp_def]
  have htake : (List.ofFn (rowComp ops comb pyStr strtod mu d ld lw row)).take C = List.ofFn (rowComp ops comb pyStr strtod mu d ld lw row) := List.take_of_length_le (by simp)
  have hprint : ∀ ys : List F, ys ≠ [] → ys = rowOut ops comb lse ex pyStr strtod mu d ld lw q row →
      (((printed val (ys.map fun y => some (.flt y))).map fun t => ((0 : Int), t)).bind fun r => (checkOutput r).bind lastLine) = some (ys.map fun y => fixedValue 6 (num y)) := by
    intro ys hne hys
    rw [printed_flts val num ys (by rw [hys]; exact hval), Option.map_some, Option.bind_some]
    show lastLine _ = _
    have e := lastLine_join (ys.map num) (by simpa using hne)
    rw [List.map_map, List.map_map] at e
    exact e
  have hne : ∀ f : Fin C → F, List.ofFn f ≠ [] := fun f e => by have := congrArg List.length e; simp at this; omega
  unfold pyRow gmmMain
  rw [if_pos (by simp), hmap]
  cases q with
  | score =>
    have e := hs (List.ofFn fun i => strtod (pyStr (row i))) n (List.replicate C (some (.flt (ops.lit false 0)))) [none] (by omega) (by omega) (by simp)
    rw [List.length_replicate, hl, hrows, Option.map_some, htake] at e
    simp only [if_true, List.drop_one, List.tail_cons] at e
    have e' : callFunc ops (mixtureLib ops comb lse ex prog) prog fuel (depth + 2) Query.score.func (Query.score.args ops C n (List.ofFn fun i => strtod (pyStr (row i)))) = _ := e
    rw [e']
    exact hprint [rowScore ops comb lse pyStr strtod mu d ld lw row] (by simp) rfl
  | logProba =>
    have e := hs (List.ofFn fun i => strtod (pyStr (row i))) n (List.replicate C (some (.flt (ops.lit false 0)))) [none] (by omega) (by omega) (by simp)
    rw [List.length_replicate, hl, hrows, Option.map_some, htake] at e
    simp only [if_true, List.drop_one, List.tail_cons] at e
    have e' : callFunc ops (mixtureLib ops comb lse ex prog) prog fuel (depth + 2) Query.logProba.func (Query.logProba.args ops C n (List.ofFn fun i => strtod (pyStr (row i)))) = _ := e
    rw [e']
    rw [overwrite_ofFn _ _ (by simp)]
    have := hprint _ (hne _) rfl
    simp only [if_true, Query.result, List.lookup, beq_self_eq_true, Option.map_some, Option.bind_some]
    rw [List.take_of_length_le (by simp)]
    exact this
  | proba =>
    have e := hp (List.ofFn fun i => strtod (pyStr (row i))) n (List.replicate C (some (.flt (ops.lit false 0)))) [none] (List.replicate C none) (by omega) (by omega) (by simp) (by simp [hrows])
    have hresp : (List.ofFn (rowComp ops comb pyStr strtod mu d ld lw row)).map (fun p => ex (p - lse (List.ofFn (rowComp ops comb pyStr strtod mu d ld lw row)))) = List.ofFn (rowResp ops comb lse ex pyStr strtod mu d ld lw row) := by
      rw [List.map_ofFn]
      rfl
    rw [List.length_replicate, hl, hrows, Option.map_some, htake, hresp] at e
    simp only [if_true, List.drop_one, List.tail_cons] at e
    have e' : callFunc ops (mixtureLib ops comb lse ex prog) prog fuel (depth + 2) Query.proba.func (Query.proba.args ops C n (List.ofFn fun i => strtod (pyStr (row i)))) = _ := e
    rw [e']
    rw [overwrite_ofFn _ (List.replicate C none) (by simp)]
    have := hprint _ (hne _) rfl
    simp only [if_true, Query.result, List.lookup]
    show (((printed val (List.take C _)).map _).bind _) = _
    rw [List.take_of_length_le (by simp)]
    exact this

theorem convert_est : convertToFull (est mu d ld lw).means.length (est mu d ld lw).nFeatures (est mu d ld lw).chol = some (List.ofFn fun c => rows (fullOf c d)) := by
  have : (est mu d ld lw).means.length = C := by simp [est, rows]
  rw [this]
  exact (C46_convert_to_full d).1

/-- **C116.** For any arithmetic and every covariance type: each method answers each row with the numbers of the program for that row, in order, with six decimals. -/
theorem C116_rows (hC : 1 ≤ C ∧ C ≤ 2147483647) (hn : 1 ≤ n ∧ n ≤ 2147483647) (q : Query) (num : F → ℚ) (X : List (Fin n → ℚ))
    (hX : ∀ row ∈ X, ∀ y ∈ rowOut ops comb lse ex pyStr strtod mu d ld lw q row, val y = some (num y)) :
    pyRows ops comb lse ex fuel (depth + 2) val pyStr strtod other (est mu d ld lw) q (X.map List.ofFn) = some (X.map fun row => (rowOut ops comb lse ex pyStr strtod mu d ld lw q row).map fun y => fixedValue 6 (num y)) := by
  obtain ⟨text, prog, h1, h2, h3⟩ := row_eq ops comb lse ex fuel depth val pyStr strtod other mu d ld lw hC hn
  unfold pyRows
  rw [convert_est]
  have h1' : generateText other "gmm".toList (est mu d ld lw).means (List.ofFn fun c => rows (fullOf c d)) (est mu d ld lw).logDets (est mu d ld lw).logWeights (est mu d ld lw).nFeatures .full = some text := h1
  have hl : (est mu d ld lw).means.length = C := by simp [est, rows]
  simp only [h1', h2, Option.bind_some, hl]
  exact mapOpt_map List.ofFn _ _ X fun row hr => h3 q num row (hX row hr)

/-- **C116, wrong calls.** Called with a wrong number of values, the program prints nothing and its exit status is not zero. -/
theorem C116_usage (prog : Prog) (nc nf : Nat) (q : Query) (argv : List (List Char)) (h : argv.length ≠ nf) :
    ∃ r, gmmMain ops comb lse ex fuel depth val strtod prog nc nf q argv = some r ∧ r.2 = [] ∧ r.1 % 256 ≠ 0 := by
  unfold gmmMain
  rw [if_neg h]
  exact ⟨_, rfl, rfl, by decide⟩

/-- **C116.** Data with another number of columns is refused: a row of the wrong length is an exception, for every method. -/
theorem C116_columns (q : Query) (X : List (List ℚ)) (row : List ℚ) (hr : row ∈ X) (hl : row.length ≠ n) :
    pyRows ops comb lse ex fuel depth val pyStr strtod other (est mu d ld lw) q X = none := by
  have hrow : ∀ prog nc, pyRow ops comb lse ex fuel depth val pyStr strtod prog nc n q row = none := by
    intro prog nc
    unfold pyRow gmmMain
    rw [if_neg (by simpa using hl)]
    rfl
  unfold pyRows
  simp only [convert_est]
  cases (generateText other "gmm".toList (est mu d ld lw).means (List.ofFn fun c => rows (fullOf c d)) (est mu d ld lw).logDets (est mu d ld lw).logWeights (est mu d ld lw).nFeatures .full).bind parse with
  | none => rfl
  | some prog =>
    show mapOpt (pyRow ops comb lse ex fuel depth val pyStr strtod prog _ n q) X = none
    generalize (est mu d ld lw).means.length = nc
    induction X with
    | nil => cases hr
    | cons a X ih =>
      rw [mapOpt]
      rcases List.mem_cons.1 hr with rfl | h
      · rw [hrow]; rfl
      · rw [ih h]
        cases pyRow ops comb lse ex fuel depth val pyStr strtod prog nc n q a <;> rfl
end

/-! ### The component of a row -/

theorem npArgmax_spec (l : List ℚ) (hne : l ≠ []) : ∃ i, npArgmax l = some i ∧ i < l.length ∧ (∀ j < l.length, l.getD j 0 ≤ l.getD i 0) ∧ ∀ j < i, l.getD j 0 < l.getD i 0 := by
  induction l with
  | nil => exact absurd rfl hne
  | cons v l ih =>
    cases l with
    | nil =>
      refine ⟨0, rfl, by simp, fun j hj => ?_, fun j hj => by omega⟩
      have : j = 0 := by simpa using hj
      rw [this]
    | cons w l =>
      obtain ⟨i, h1, h2, h3, h4⟩ := ih (by simp)
      rw [npArgmax, h1, Option.map_some]
      by_cases hv : (w :: l).getD i 0 ≤ v
      · rw [if_pos hv]
        refine ⟨0, rfl, by simp, fun j hj => ?_, fun j hj => by omega⟩
        cases j with
        | zero => exact le_rfl
        | succ j =>
          rw [List.getD_cons_succ, List.getD_cons_zero]
          exact (h3 j (by simpa using hj)).trans hv
      · rw [if_neg hv]
        push Not at hv
        refine ⟨i + 1, rfl, by simpa using h2, fun j hj => ?_, fun j hj => ?_⟩
        · rw [List.getD_cons_succ]
          cases j with
          | zero => rw [List.getD_cons_zero]; exact hv.le
          | succ j => rw [List.getD_cons_succ]; exact h3 j (by simpa using hj)
        · rw [List.getD_cons_succ]
          cases j with
          | zero => rw [List.getD_cons_zero]; exact hv
          | succ j => rw [List.getD_cons_succ]; exact h4 j (by omega)

theorem npArgmax_ofFn {C : Nat} (hC : 1 ≤ C) (f : Fin C → ℚ) : ∃ c : Fin C, npArgmax (List.ofFn f) = some c.1 ∧ (∀ j, f j ≤ f c) ∧ ∀ j < c, f j < f c := by
  obtain ⟨i, h1, h2, h3, h4⟩ := npArgmax_spec (List.ofFn f) (fun e => by have := congrArg List.length e; simp at this; omega)
  have hi : i < C := by simpa using h2
  have hg : ∀ j : Fin C, (List.ofFn f).getD j.1 0 = f j := fun j => by rw [List.getD_eq_getElem?_getD, List.getElem?_eq_getElem (by simp)]; simp
  have hgi := hg ⟨i, hi⟩
  simp only at hgi
  refine ⟨⟨i, hi⟩, h1, fun j => ?_, fun j hj => ?_⟩
  · have := h3 j.1 (by simp)
    rwa [hg, hgi] at this
  · have := h4 j.1 hj
    rwa [hg, hgi] at this

section
variable [Zero F] [Add F] [Sub F] [Mul F] (ops : CFloat F) (comb : Nat → F → F → F) (lse : List F → F) (ex : F → F) (fuel depth : Nat) (val : F → Option ℚ) (pyStr : ℚ → List Char) (strtod : List Char → F) (other : ℚ → List Char)
variable {C n : Nat} (mu : Fin C → Fin n → ℚ) (d : CovData C n) (ld lw : Fin C → ℚ)

/-- **C116.** `predict(X)` answers each row with the first of the components whose responsibility, written with six decimals, is largest. -/
theorem C116_predict (hC : 1 ≤ C ∧ C ≤ 2147483647) (hn : 1 ≤ n ∧ n ≤ 2147483647) (num : F → ℚ) (X : List (Fin n → ℚ)) (hne : X ≠ [])
    (hX : ∀ row ∈ X, ∀ c, val (rowResp ops comb lse ex pyStr strtod mu d ld lw row c) = some (num (rowResp ops comb lse ex pyStr strtod mu d ld lw row c))) :
    ∃ preds : List (Fin C), pyPredict ops comb lse ex fuel (depth + 2) val pyStr strtod other (est mu d ld lw) (X.map List.ofFn) = some (preds.map Fin.val) ∧
      List.Forall₂ (fun row p => (∀ j, fixedValue 6 (num (rowResp ops comb lse ex pyStr strtod mu d ld lw row j)) ≤ fixedValue 6 (num (rowResp ops comb lse ex pyStr strtod mu d ld lw row p))) ∧
        ∀ j < p, fixedValue 6 (num (rowResp ops comb lse ex pyStr strtod mu d ld lw row j)) < fixedValue 6 (num (rowResp ops comb lse ex pyStr strtod mu d ld lw row p))) X preds := by
  have hr := C116_rows ops comb lse ex fuel depth val pyStr strtod other mu d ld lw hC hn .proba num X (by
    intro row hrow y hy
    obtain ⟨c, rfl⟩ := List.mem_ofFn.1 hy
    exact hX row hrow c)
  choose f hf using fun row : Fin n → ℚ => npArgmax_ofFn hC.1 fun c => fixedValue 6 (num (rowResp ops comb lse ex pyStr strtod mu d ld lw row c))
  refine ⟨X.map f, ?_, ?_⟩
  · unfold pyPredict
    rw [if_neg (by simpa using hne), hr, Option.bind_some, List.map_map]
    refine mapOpt_map _ _ (Fin.val ∘ f) X fun row hrow => ?_
    show npArgmax ((List.ofFn _).map _) = _
    rw [List.map_ofFn]
    exact (hf row).1
  · rw [List.forall₂_map_right_iff]
    exact List.forall₂_same.2 fun row hrow => (hf row).2

/-- **C116.** The responsibility (a `float`) of the answer is at most a millionth below that of any other component. -/
theorem C116_near_best (hC : 1 ≤ C ∧ C ≤ 2147483647) (hn : 1 ≤ n ∧ n ≤ 2147483647) (num : F → ℚ) (X : List (Fin n → ℚ)) (hne : X ≠ [])
    (hX : ∀ row ∈ X, ∀ c, val (rowResp ops comb lse ex pyStr strtod mu d ld lw row c) = some (num (rowResp ops comb lse ex pyStr strtod mu d ld lw row c))) :
    ∃ preds : List (Fin C), pyPredict ops comb lse ex fuel (depth + 2) val pyStr strtod other (est mu d ld lw) (X.map List.ofFn) = some (preds.map Fin.val) ∧
      List.Forall₂ (fun row p => ∀ j, num (rowResp ops comb lse ex pyStr strtod mu d ld lw row j) ≤ num (rowResp ops comb lse ex pyStr strtod mu d ld lw row p) + 1 / 10 ^ 6) X preds := by
  obtain ⟨preds, h1, h2⟩ := C116_predict ops comb lse ex fuel depth val pyStr strtod other mu d ld lw hC hn num X hne hX
  refine ⟨preds, h1, h2.imp fun row p h j => ?_⟩
  have a1 := abs_le.1 (fixedValue_close 6 (num (rowResp ops comb lse ex pyStr strtod mu d ld lw row j)))
  have a2 := abs_le.1 (fixedValue_close 6 (num (rowResp ops comb lse ex pyStr strtod mu d ld lw row p)))
  have := h.1 j
  norm_num at a1 a2 ⊢
  linarith [a1.1, a1.2, a2.1, a2.2]

/-- **C116.** `score_samples(X)`: the score of each row, with six decimals. -/
theorem C116_score (hC : 1 ≤ C ∧ C ≤ 2147483647) (hn : 1 ≤ n ∧ n ≤ 2147483647) (num : F → ℚ) (X : List (Fin n → ℚ)) (hne : X ≠ [])
    (hX : ∀ row ∈ X, val (rowScore ops comb lse pyStr strtod mu d ld lw row) = some (num (rowScore ops comb lse pyStr strtod mu d ld lw row))) :
    pyScore ops comb lse ex fuel (depth + 2) val pyStr strtod other (est mu d ld lw) (X.map List.ofFn) = some (X.map fun row => fixedValue 6 (num (rowScore ops comb lse pyStr strtod mu d ld lw row))) := by
  have hr := C116_rows ops comb lse ex fuel depth val pyStr strtod other mu d ld lw hC hn .score num X (by
    intro row hrow y hy
    rw [rowOut, List.mem_singleton] at hy
    rw [hy]
    exact hX row hrow)
  unfold pyScore
  rw [if_neg (by simpa using hne), hr, Option.bind_some]
  exact mapOpt_map _ _ _ X fun row hrow => rfl

/-- **C116.** No data: `predict` and `score_samples` are exceptions, `predict_proba` gives an empty array. -/
theorem C116_empty (hC : 1 ≤ C ∧ C ≤ 2147483647) (hn : 1 ≤ n ∧ n ≤ 2147483647) :
    pyPredict ops comb lse ex fuel depth val pyStr strtod other (est mu d ld lw) [] = none ∧ pyScore ops comb lse ex fuel depth val pyStr strtod other (est mu d ld lw) [] = none ∧
    ∀ q, pyRows ops comb lse ex fuel depth val pyStr strtod other (est mu d ld lw) q [] = some [] := by
  refine ⟨rfl, rfl, fun q => ?_⟩
  obtain ⟨text, prog, h1, h2, -⟩ := row_eq ops comb lse ex fuel depth val pyStr strtod other mu d ld lw hC hn
  have h1' : generateText other "gmm".toList (est mu d ld lw).means (List.ofFn fun c => rows (fullOf c d)) (est mu d ld lw).logDets (est mu d ld lw).logWeights (est mu d ld lw).nFeatures .full = some text := h1
  unfold pyRows
  simp only [convert_est, h1', h2, Option.bind_some]
  rfl
end

/-! ### Against scikit-learn -/

section
open Emlearn.Flt
variable {R : Format F} {P : Accuracy} {C n : Nat} (mu : Fin C → Fin n → ℚ) (d : CovData C n) (ld lw : Fin C → ℚ)

/-- scikit-learn's weighted log density of component `c` for a row, from its own squared distance for the covariance type. -/
noncomputable def trueComp (log2pi : ℝ) (row : Fin n → ℚ) (c : Fin C) : ℝ := -(1 / 2) * (n * log2pi + ((typeTerm row (mu c) c d : ℚ) : ℝ)) + ld c + lw c

/-- The exact responsibility. -/
noncomputable def trueResp (log2pi : ℝ) (row : Fin n → ℚ) (c : Fin C) : ℝ := Real.exp (trueComp mu d ld lw log2pi row c) / ∑ c', Real.exp (trueComp mu d ld lw log2pi row c')

/-- The exact log likelihood. -/
noncomputable def trueScore (log2pi : ℝ) (row : Fin n → ℚ) : ℝ := Real.log (∑ c, Real.exp (trueComp mu d ld lw log2pi row c))

theorem trueComp_eq (log2pi : ℝ) (row : Fin n → ℚ) (c : Fin C) : trueComp mu d ld lw log2pi row c =
    -(1 / 2) * (n * log2pi + (((fun i => (row i : ℝ)) - fun i => (mu c i : ℝ)) ᵥ* Matrix.of fun i j => ((fullOf c d i j : ℚ) : ℝ)) ⬝ᵥ (((fun i => (row i : ℝ)) - fun i => (mu c i : ℝ)) ᵥ* Matrix.of fun i j => ((fullOf c d i j : ℚ) : ℝ))) + ld c + lw c := by
  unfold trueComp
  rw [← (C46_convert_to_full d).2 row (mu c) c]
  simp only [dotProduct, vecMul, Pi.sub_apply, Matrix.of_apply]
  push_cast
  rfl

/-- The numbers of the mixture are at most `B`, and nothing overflows on these rows (`MixRange`, `SoftRange`); `e` bounds the errors of the component values, `Y` these values. -/
structure RowsOk (P : Accuracy) (uc log2pi uf B dx e Y : ℝ) (X : List (Fin n → ℚ)) : Prop where
  max : B + 1 / (2 * 10 ^ 6) ≤ P.M
  means : ∀ c i, |(mu c i : ℝ)| ≤ B
  factors : ∀ c i j, |((fullOf c d i j : ℚ) : ℝ)| ≤ B
  dets : ∀ c, |(ld c : ℝ)| ≤ B
  weights : ∀ c, |(lw c : ℝ)| ≤ B
  range : ∀ row ∈ X, ∀ c, MixRange P uc log2pi dx (constErr P B) (constErr P B) (constErr P B) (constErr P B) (fun i => (row i : ℝ)) (fun i => (mu c i : ℝ)) (Matrix.of fun i j => ((fullOf c d i j : ℚ) : ℝ)) (ld c) (lw c)
  err : ∀ row ∈ X, ∀ c, compErr P uc log2pi dx (constErr P B) (constErr P B) (constErr P B) (constErr P B) (fun i => (row i : ℝ)) (fun i => (mu c i : ℝ)) (Matrix.of fun i j => ((fullOf c d i j : ℚ) : ℝ)) (ld c) (lw c) ≤ e
  size : ∀ row ∈ X, ∀ c, |trueComp mu d ld lw log2pi row c| + e ≤ Y
  soft : SoftRange P uf C Y

variable [Zero F] [Add F] [Sub F] [Mul F] [LT F] [DecidableLT F] (h : BasicArith (F := F) R P) (ops : CFloat F) (hlit : LitOk R P ops) {uc log2pi uf : ℝ} {comb : Nat → F → F → F} (hcomb : CombOk R P uc log2pi comb) (huc : 0 ≤ uc) (h2pi : 0 ≤ log2pi)
    {exp log : F → F} {lo hi : F} (hl : LseArith R P uf 0 hi (· + ·) (· - ·) exp log (fun a b => decide (a < b))) (fuel depth : Nat) (val : F → Option ℚ) (num : F → ℚ) (hval : ∀ y, R.fin y → val y = some (num y) ∧ (num y : ℝ) = R.val y)
    (pyStr : ℚ → List Char) (strtod : List Char → F) (other : ℚ → List Char) (hC : 1 ≤ C ∧ C ≤ 2147483647) (hn : 1 ≤ n ∧ n ≤ 2147483647) {B dx e Y : ℝ} (X : List (Fin n → ℚ)) (hr : RowsOk mu d ld lw P uc log2pi uf B dx e Y X)
    (hx : ∀ row ∈ X, ∀ i, Close R dx (strtod (pyStr (row i))) (row i))

include h hlit hcomb huc h2pi hl hr hx hC in
theorem row_close (row : Fin n → ℚ) (hrow : row ∈ X) :
    (∀ c, Close R e (rowComp ops comb pyStr strtod mu d ld lw row c) (trueComp mu d ld lw log2pi row c)) ∧
    Close R (omg P uf C Y + e) (rowScore ops comb (logsumexpG exp log lo hi) pyStr strtod mu d ld lw row) (trueScore mu d ld lw log2pi row) ∧
    ∀ c, Close R (softErr P uf C Y e) (rowResp ops comb (logsumexpG exp log lo hi) exp pyStr strtod mu d ld lw row c) (trueResp mu d ld lw log2pi row c) := by
  obtain ⟨y, ey, hy⟩ := C107_log_proba h hcomb huc h2pi (by omega) (fun c f => floatLit ops (mu c f)) (fun c => Matrix.of fun i j => floatLit ops (fullOf c d i j)) (fun c => floatLit ops (ld c)) (fun c => floatLit ops (lw c))
    (fun i => strtod (pyStr (row i))) (fun c i => (mu c i : ℝ)) (fun c => Matrix.of fun i j => ((fullOf c d i j : ℚ) : ℝ)) (fun c => (ld c : ℝ)) (fun c => (lw c : ℝ)) (fun i => (row i : ℝ)) (hx row hrow)
    (fun c i => floatLit_close hlit hr.max _ (hr.means c i)) (fun c i j => floatLit_close hlit hr.max _ (hr.factors c i j))
    (fun c => floatLit_close hlit hr.max _ (hr.dets c)) (fun c => floatLit_close hlit hr.max _ (hr.weights c)) (hr.range row hrow) (List.replicate C 0) (by simp)
  rw [logProba_any (by omega) comb _ _ _ _ _ _ (by simp)] at ey
  simp only [Option.some.injEq, Prod.mk.injEq, true_and] at ey
  have ey' : (rowComp ops comb pyStr strtod mu d ld lw row) = y := List.ofFn_injective ey
  have hc : ∀ c, Close R e (rowComp ops comb pyStr strtod mu d ld lw row c) (trueComp mu d ld lw log2pi row c) := fun c => by
    rw [ey', trueComp_eq]
    exact (hy c).mono (hr.err row hrow c)
  obtain ⟨l1, l2⟩ := C107_lse (lo := lo) hl (by omega) _ _ hc (hr.size row hrow) hr.soft
  exact ⟨hc, l1, l2⟩

omit [Zero F] [Add F] [Sub F] [Mul F] [LT F] [DecidableLT F] in
theorem fixed_close {y : F} {q : ℚ} {E t : ℝ} (hq : (q : ℝ) = R.val y) (hc : Close R E y t) : |((fixedValue 6 q : ℚ) : ℝ) - t| ≤ E + 1 / (2 * 10 ^ 6) := by
  have h6 : |((fixedValue 6 q : ℚ) : ℝ) - (q : ℝ)| ≤ 1 / (2 * 10 ^ 6) := by
    have := fixedValue_close 6 q
    have h' : ((|fixedValue 6 q - q| : ℚ) : ℝ) ≤ ((1 / (2 * 10 ^ 6) : ℚ) : ℝ) := by exact_mod_cast this
    push_cast at h'
    exact h'
  have a1 := abs_le.1 h6
  have a2 := abs_le.1 hc.2
  rw [hq] at a1
  rw [abs_le]
  constructor <;> linarith [a1.1, a1.2, a2.1, a2.2]

include h hlit hcomb huc h2pi hl hr hx hval hC hn in
/-- **C116.** In `float` arithmetic, for every covariance type: `predict_proba(X)` is within `softErr`, and `predict_log_proba(X)` within `e`, of scikit-learn's responsibilities and weighted log densities, to half a unit of the
sixth decimal. -/
theorem C116_proba_close :
    (∃ p : (Fin n → ℚ) → Fin C → ℚ, pyRows ops comb (logsumexpG exp log lo hi) exp fuel (depth + 2) val pyStr strtod other (est mu d ld lw) .proba (X.map List.ofFn) = some (X.map fun row => List.ofFn (p row)) ∧
      ∀ row ∈ X, ∀ c, |(p row c : ℝ) - trueResp mu d ld lw log2pi row c| ≤ softErr P uf C Y e + 1 / (2 * 10 ^ 6)) ∧
    ∃ p : (Fin n → ℚ) → Fin C → ℚ, pyRows ops comb (logsumexpG exp log lo hi) exp fuel (depth + 2) val pyStr strtod other (est mu d ld lw) .logProba (X.map List.ofFn) = some (X.map fun row => List.ofFn (p row)) ∧
      ∀ row ∈ X, ∀ c, |(p row c : ℝ) - trueComp mu d ld lw log2pi row c| ≤ e + 1 / (2 * 10 ^ 6) := by
  have hcl := row_close mu d ld lw h ops hlit hcomb huc h2pi (lo := lo) hl pyStr strtod hC X hr hx
  constructor
  · refine ⟨fun row c => fixedValue 6 (num (rowResp ops comb (logsumexpG exp log lo hi) exp pyStr strtod mu d ld lw row c)), ?_, fun row hrow c => fixed_close (hval _ ((hcl row hrow).2.2 c).1).2 ((hcl row hrow).2.2 c)⟩
    rw [C116_rows ops comb (logsumexpG exp log lo hi) exp fuel depth val pyStr strtod other mu d ld lw hC hn .proba num X (by
      intro row hrow y hy
      obtain ⟨c, rfl⟩ := List.mem_ofFn.1 hy
      exact (hval _ ((hcl row hrow).2.2 c).1).1)]
    simp only [rowOut, List.map_ofFn, Function.comp_def]
  · refine ⟨fun row c => fixedValue 6 (num (rowComp ops comb pyStr strtod mu d ld lw row c)), ?_, fun row hrow c => fixed_close (hval _ ((hcl row hrow).1 c).1).2 ((hcl row hrow).1 c)⟩
    rw [C116_rows ops comb (logsumexpG exp log lo hi) exp fuel depth val pyStr strtod other mu d ld lw hC hn .logProba num X (by
      intro row hrow y hy
      obtain ⟨c, rfl⟩ := List.mem_ofFn.1 hy
      exact (hval _ ((hcl row hrow).1 c).1).1)]
    simp only [rowOut, List.map_ofFn, Function.comp_def]

include h hlit hcomb huc h2pi hl hr hx hval hC hn in
/-- **C116.** `score_samples(X)` is within `omg + e` of the log likelihood of each row, to half a unit of the sixth decimal. -/
theorem C116_score_close (hne : X ≠ []) :
    ∃ p : (Fin n → ℚ) → ℚ, pyScore ops comb (logsumexpG exp log lo hi) exp fuel (depth + 2) val pyStr strtod other (est mu d ld lw) (X.map List.ofFn) = some (X.map p) ∧
      ∀ row ∈ X, |(p row : ℝ) - trueScore mu d ld lw log2pi row| ≤ omg P uf C Y + e + 1 / (2 * 10 ^ 6) := by
  have hcl := row_close mu d ld lw h ops hlit hcomb huc h2pi (lo := lo) hl pyStr strtod hC X hr hx
  exact ⟨_, C116_score ops comb (logsumexpG exp log lo hi) exp fuel depth val pyStr strtod other mu d ld lw hC hn num X hne fun row hrow => (hval _ (hcl row hrow).2.1.1).1,
    fun row hrow => fixed_close (hval _ (hcl row hrow).2.1.1).2 (hcl row hrow).2.1⟩

include h hlit hcomb huc h2pi hl hr hx hval hC hn in
/-- **C116.** `predict(X)` is the component with the largest exact responsibility when it is ahead of the others by more than twice `softErr` and a millionth. (With a smaller lead it need not be: `C116_ties_refuted`.) -/
theorem C116_predict_partial (hne : X ≠ []) :
    ∃ preds : List (Fin C), pyPredict ops comb (logsumexpG exp log lo hi) exp fuel (depth + 2) val pyStr strtod other (est mu d ld lw) (X.map List.ofFn) = some (preds.map Fin.val) ∧
      List.Forall₂ (fun row p => ∀ c, (∀ j, j ≠ c → trueResp mu d ld lw log2pi row j + (2 * softErr P uf C Y e + 1 / 10 ^ 6) < trueResp mu d ld lw log2pi row c) → p = c) X preds := by
  have hcl := row_close mu d ld lw h ops hlit hcomb huc h2pi (lo := lo) hl pyStr strtod hC X hr hx
  obtain ⟨preds, h1, h2⟩ := C116_predict ops comb (logsumexpG exp log lo hi) exp fuel depth val pyStr strtod other mu d ld lw hC hn num X hne fun row hrow c => (hval _ ((hcl row hrow).2.2 c).1).1
  refine ⟨preds, h1, ?_⟩
  rw [List.forall₂_iff_get] at h2 ⊢
  refine ⟨h2.1, fun i hi1 hi2 c hc => ?_⟩
  have hm := (h2.2 i hi1 hi2).1 c
  have hcl' := (hcl _ (List.get_mem X ⟨i, hi1⟩)).2.2
  generalize X.get ⟨i, hi1⟩ = row at *
  generalize preds.get ⟨i, hi2⟩ = p at *
  by_contra hp
  have := hc p hp
  have a1 := abs_le.1 (fixed_close (hval _ (hcl' c).1).2 (hcl' c))
  have a2 := abs_le.1 (fixed_close (hval _ (hcl' p).1).2 (hcl' p))
  have hm' : ((fixedValue 6 (num (rowResp ops comb (logsumexpG exp log lo hi) exp pyStr strtod mu d ld lw row c)) : ℚ) : ℝ) ≤ ((fixedValue 6 (num (rowResp ops comb (logsumexpG exp log lo hi) exp pyStr strtod mu d ld lw row p)) : ℚ) : ℝ) := by
    exact_mod_cast hm
  norm_num at a1 a2 this
  linarith [a1.1, a1.2, a2.1, a2.2]
end

/-! ### Components that the six decimals do not tell apart -/

/-- The number that `%.6f` prints for a real number. -/
noncomputable def millionth (y : ℝ) : ℚ := (round (y * 10 ^ 6) : ℚ) / 10 ^ 6

/-- **C116** (negation) in exact arithmetic, `predict` does not give the component with the largest responsibility: two components with the same mean and covariance and log weights -0.693147 and -0.693146. The second is more likely
for every row; the answer for the mean is the first. -/
theorem C116_ties_refuted (ops : CFloat ℝ) (hops : ExactLits ops) (pyStr : ℚ → List Char) (strtod : List Char → ℝ) (hz : strtod (pyStr 0) = 0) (other : ℚ → List Char) (fuel depth : Nat) (lo hi log2pi : ℝ) :
    pyPredict ops (exactComb log2pi) (logsumexpG Real.exp Real.log lo hi) Real.exp fuel (depth + 2) (fun y => some (millionth y)) pyStr strtod other
      (est (C := 2) (n := 1) (fun _ _ => 0) (.inr (.inl 1)) (fun _ => 0) ![-693147 / 10 ^ 6, -693146 / 10 ^ 6]) [[0]] = some [0] ∧
    trueResp (C := 2) (n := 1) (fun _ _ => 0) (.inr (.inl 1)) (fun _ => 0) ![-693147 / 10 ^ 6, -693146 / 10 ^ 6] log2pi (fun _ => 0) 0 <
      trueResp (C := 2) (n := 1) (fun _ _ => 0) (.inr (.inl 1)) (fun _ => 0) ![-693147 / 10 ^ 6, -693146 / 10 ^ 6] log2pi (fun _ => 0) 1 := by
  obtain ⟨E, hE⟩ : ∃ E, E = Real.exp (1 / 10 ^ 6) := ⟨_, rfl⟩
  have hE1 : 1 + 1 / 10 ^ 6 ≤ E := by rw [hE]; have := Real.add_one_le_exp (1 / 10 ^ 6 : ℝ); linarith
  have hE2 : E ≤ 1 + 2 / 10 ^ 6 := by
    have := Real.add_one_le_exp (-(1 / 10 ^ 6) : ℝ)
    rw [Real.exp_neg, ← hE] at this
    have hpos : 0 < E := by linarith
    have h2 := mul_le_mul_of_nonneg_right this hpos.le
    rw [inv_mul_cancel₀ hpos.ne'] at h2
    norm_num at h2 ⊢
    linarith
  have hcomp : ∀ c : Fin 2, trueComp (C := 2) (n := 1) (fun _ _ => 0) (.inr (.inl 1)) (fun _ => 0) ![-693147 / 10 ^ 6, -693146 / 10 ^ 6] log2pi (fun _ => 0) c = (-(1 / 2) * log2pi - 693147 / 10 ^ 6) + ![0, 1 / 10 ^ 6] c := by
    intro c
    fin_cases c <;> simp [trueComp, typeTerm] <;> ring
  have hexp : ∀ c : Fin 2, Real.exp (trueComp (C := 2) (n := 1) (fun _ _ => 0) (.inr (.inl 1)) (fun _ => 0) ![-693147 / 10 ^ 6, -693146 / 10 ^ 6] log2pi (fun _ => 0) c) = Real.exp (-(1 / 2) * log2pi - 693147 / 10 ^ 6) * ![1, E] c := by
    intro c
    rw [hcomp, Real.exp_add]
    fin_cases c <;> simp [hE]
  have hpos := Real.exp_pos (-(1 / 2) * log2pi - 693147 / 10 ^ 6)
  have hresp : ∀ c : Fin 2, trueResp (C := 2) (n := 1) (fun _ _ => 0) (.inr (.inl 1)) (fun _ => 0) ![-693147 / 10 ^ 6, -693146 / 10 ^ 6] log2pi (fun _ => 0) c = ![1 / (1 + E), E / (1 + E)] c := by
    intro c
    unfold trueResp
    rw [Fin.sum_univ_two, hexp, hexp, hexp]
    generalize Real.exp (-(1 / 2) * log2pi - 693147 / 10 ^ 6) = k at *
    have h1 : (1 : ℝ) + E ≠ 0 := by linarith
    fin_cases c <;> simp <;> field_simp
  refine ⟨?_, ?_⟩
  swap
  · rw [hresp, hresp]
    simp only [Matrix.cons_val_zero, Matrix.cons_val_one]
    exact div_lt_div_of_pos_right (by linarith) (by linarith)
  have hrow : ∀ c : Fin 2, rowComp ops (exactComb log2pi) pyStr strtod (C := 2) (n := 1) (fun _ _ => 0) (.inr (.inl 1)) (fun _ => 0) ![-693147 / 10 ^ 6, -693146 / 10 ^ 6] (fun _ => 0) c =
      trueComp (C := 2) (n := 1) (fun _ _ => 0) (.inr (.inl 1)) (fun _ => 0) ![-693147 / 10 ^ 6, -693146 / 10 ^ 6] log2pi (fun _ => 0) c := by
    intro c
    have hq : ∀ z : Int, floatLit ops ((z : ℚ) / 10 ^ 6) = (z : ℝ) / 10 ^ 6 := fun z => by
      rw [floatLit_exact ops hops, round6, fixedValue_exact]
      push_cast
      rfl
    have h0 : floatLit ops 0 = 0 := by have := hq 0; simpa using this
    have h1 := hq (-693147)
    have h2 := hq (-693146)
    push_cast at h1 h2
    rw [hcomp]
    unfold rowComp compVal sqLength colDot exactComb
    fin_cases c
    · simp [hz, h0, h1]
      ring
    · simp [hz, h0, h2]
      ring
  have hsc : rowScore ops (exactComb log2pi) (logsumexpG Real.exp Real.log lo hi) pyStr strtod (C := 2) (n := 1) (fun _ _ => 0) (.inr (.inl 1)) (fun _ => 0) ![-693147 / 10 ^ 6, -693146 / 10 ^ 6] (fun _ => 0) =
      Real.log (∑ c, Real.exp (trueComp (C := 2) (n := 1) (fun _ _ => 0) (.inr (.inl 1)) (fun _ => 0) ![-693147 / 10 ^ 6, -693146 / 10 ^ 6] log2pi (fun _ => 0) c)) := by
    unfold rowScore
    rw [logsumexpG_eq lo hi _ (fun e => by have := congrArg List.length e; simp at this), List.map_ofFn, List.sum_ofFn]
    simp only [Function.comp_def, hrow]
  have hrr : ∀ c, rowResp ops (exactComb log2pi) (logsumexpG Real.exp Real.log lo hi) Real.exp pyStr strtod (C := 2) (n := 1) (fun _ _ => 0) (.inr (.inl 1)) (fun _ => 0) ![-693147 / 10 ^ 6, -693146 / 10 ^ 6] (fun _ => 0) c = ![1 / (1 + E), E / (1 + E)] c := by
    intro c
    rw [← hresp c]
    unfold rowResp
    rw [hrow, hsc, Real.exp_sub, Real.exp_log (Finset.sum_pos (fun c _ => Real.exp_pos _) ⟨0, Finset.mem_univ _⟩)]
    rfl
  have hm : ∀ y : ℝ, |y - 1 / 2| < 1 / (2 * 10 ^ 6) → millionth y = 1 / 2 := by
    intro y hy
    have : round (y * 10 ^ 6) = 500000 := by
      rw [round_eq_iff, Set.mem_Ico]
      have := abs_lt.1 hy
      norm_num at this ⊢
      constructor <;> linarith [this.1, this.2]
    unfold millionth
    rw [this]
    norm_num
  have hh : ∀ c : Fin 2, millionth (![1 / (1 + E), E / (1 + E)] c) = 1 / 2 := by
    intro c
    apply hm
    have h1 : (0 : ℝ) < 1 + E := by linarith
    have e1 : 1 / (1 + E) - 1 / 2 = -((E - 1) / (2 * (1 + E))) := by field_simp; ring
    have e2 : E / (1 + E) - 1 / 2 = (E - 1) / (2 * (1 + E)) := by field_simp; ring
    have e3 : 0 ≤ (E - 1) / (2 * (1 + E)) := div_nonneg (by linarith) (by linarith)
    have e4 : (E - 1) / (2 * (1 + E)) < 1 / (2 * 10 ^ 6) := by
      rw [div_lt_div_iff₀ (by linarith) (by norm_num)]
      norm_num at hE1 hE2 ⊢
      linarith
    fin_cases c
    · show |1 / (1 + E) - 1 / 2| < _
      rw [e1, abs_neg, abs_of_nonneg e3]
      exact e4
    · show |E / (1 + E) - 1 / 2| < _
      rw [e2, abs_of_nonneg e3]
      exact e4
  obtain ⟨preds, p1, p2⟩ := C116_predict ops (exactComb log2pi) (logsumexpG Real.exp Real.log lo hi) Real.exp fuel depth (fun y => some (millionth y)) pyStr strtod other (C := 2) (n := 1) (fun _ _ => 0) (.inr (.inl 1)) (fun _ => 0)
    ![-693147 / 10 ^ 6, -693146 / 10 ^ 6] (by norm_num) (by norm_num) millionth [fun _ => 0] (by simp) (fun _ _ _ => rfl)
  have hX : ([fun _ => 0] : List (Fin 1 → ℚ)).map List.ofFn = [[0]] := rfl
  rw [hX] at p1
  rw [p1]
  obtain ⟨p, tl, hp, htl, rfl⟩ := List.forall₂_cons_left_iff.1 p2
  rw [List.forall₂_nil_left_iff] at htl
  subst htl
  simp only [hrr, hh] at hp
  have : p = 0 := by
    by_contra h0
    exact absurd (hp.2 0 (Fin.pos_of_ne_zero h0)) (lt_irrefl _)
  rw [this]
  rfl

/-! ### Concrete runs -/

/-- A number without a sign or an exponent, as `str` writes it (enough for the runs below), and its reading. -/
def exStr (q : ℚ) : List Char := showFixed 8 q
def exStrtod (s : List Char) : ℚ := (readFixed s).getD 0

set_option synthInstance.maxSize 1024 in
/-- The text of a mixture of two components with diagonal covariances, compiled and run for each row (`log 2π` replaced by 2, the maximum in place of the logarithm of the sum, `1 + x` in place of `exp`). A row with one value is an
exception. -/
example : pyRows exC (exactComb 2) (fun l => l.foldl max (-1000)) (fun x => 1 + x) 0 2 some exStr exStrtod (fun _ => []) ⟨[[0, 1], [3, -2]], .diag [[1, 1], [2, 1 / 4]], [0, -7 / 10], [-1 / 2, -1], 2⟩ .proba [[1, 1], [3, 0]] =
      some [[1, -1277 / 160], [-107 / 40, 1]] ∧
    pyPredict exC (exactComb 2) (fun l => l.foldl max (-1000)) (fun x => 1 + x) 0 2 some exStr exStrtod (fun _ => []) ⟨[[0, 1], [3, -2]], .diag [[1, 1], [2, 1 / 4]], [0, -7 / 10], [-1 / 2, -1], 2⟩ [[1, 1], [3, 0]] = some [0, 1] ∧
    pyScore exC (exactComb 2) (fun l => l.foldl max (-1000)) (fun x => 1 + x) 0 2 some exStr exStrtod (fun _ => []) ⟨[[0, 1], [3, -2]], .diag [[1, 1], [2, 1 / 4]], [0, -7 / 10], [-1 / 2, -1], 2⟩ [[1, 1], [3, 0]] = some [-3, -153 / 40] ∧
    pyPredict exC (exactComb 2) (fun l => l.foldl max (-1000)) (fun x => 1 + x) 0 2 some exStr exStrtod (fun _ => []) ⟨[[0, 1], [3, -2]], .diag [[1, 1], [2, 1 / 4]], [0, -7 / 10], [-1 / 2, -1], 2⟩ [[1, 1], [3]] = none := by
  decide +kernel

section
open Emlearn.Flt Binary32

/-- The mixture of three components of `FloatMixture`, in binary32, at `x = 1`: `RowsOk` holds, so the probabilities and scores are right to better than three decimals. -/
theorem ex_rows_ok : RowsOk exMu (.inl exL) exLd exLw acc (1 / 2 ^ 23) (Real.log (2 * Real.pi)) (1 / 2 ^ 23) 3 (1 / 10 ^ 6) (1 / 10 ^ 4) 10 [fun _ => 1] := by
  obtain ⟨b1, b2⟩ := log2pi_bounds
  have hb := big
  have hM : acc.M = maxFinite := rfl
  norm_num at hb b1 b2
  refine ⟨by rw [hM]; norm_num; linarith, by simp only [Fin.forall_fin_succ, Fin.forall_fin_zero, exMu]; simp; norm_num, by simp only [Fin.forall_fin_succ, Fin.forall_fin_zero, exL, fullOf]; simp; norm_num,
    by simp only [Fin.forall_fin_succ, Fin.forall_fin_zero, exLd]; simp [abs_le]; norm_num, by simp only [Fin.forall_fin_succ, Fin.forall_fin_zero, exLw]; simp [abs_le]; norm_num, ?_, ?_, ?_, ex_softmax.1⟩
  · intro row hrow c
    obtain rfl := List.mem_singleton.1 hrow
    simpa [fullOf] using (ex_mix_range c).1
  · intro row hrow c
    obtain rfl := List.mem_singleton.1 hrow
    simpa [fullOf] using (ex_mix_range c).2
  · intro row hrow
    obtain rfl := List.mem_singleton.1 hrow
    simp only [Fin.forall_fin_succ, Fin.forall_fin_zero, trueComp, typeTerm, exMu, exL, exLd, exLw, dotProduct, vecMul, Fin.sum_univ_one]
    generalize Real.log (2 * Real.pi) = g at *
    simp
    refine ⟨?_, ?_, ?_⟩ <;> rw [← le_sub_iff_add_le, abs_le] <;> constructor <;> norm_num <;> linarith

example (pyStr : ℚ → List Char) (strtod : List Char → F32) (hx : strtod (pyStr 1) = rnd 1) :
    ∃ p : (Fin 1 → ℚ) → Fin 3 → ℚ, pyRows c32 comb32 (logsumexpG ops32.exp ops32.log 0 Binary32.negInf) ops32.exp 0 2 (fun y => some (f32Val y)) pyStr strtod (fun _ => []) (est exMu (.inl exL) exLd exLw) .proba [[1]] =
      some [List.ofFn (p fun _ => 1)] ∧ ∀ c, |(p (fun _ => 1) c : ℝ) - trueResp exMu (.inl exL) exLd exLw (Real.log (2 * Real.pi)) (fun _ => 1) c| ≤ 1 / 10 ^ 3 := by
  obtain ⟨b1, b2⟩ := log2pi_bounds
  have hb := big
  norm_num at hb b1 b2
  have hx1 : Close fmt (1 / 10 ^ 6) (rnd 1) 1 := by
    refine ⟨fl_fin 1 (by norm_num; linarith), (fl_error_any 1).trans ?_⟩
    norm_num
  obtain ⟨⟨p, h1, h2⟩, -⟩ := C116_proba_close exMu (.inl exL) exLd exLw basic32 c32 lit32 comb32_ok (by norm_num) (by linarith) (lo := 0) lse32 0 0 (fun y => some (f32Val y)) f32Val (fun y hy => ⟨rfl, f32Val_eq y hy⟩)
    pyStr strtod (fun _ => []) (by norm_num) (by norm_num) [fun _ => 1] ex_rows_ok (by
      intro row hrow i
      obtain rfl := List.mem_singleton.1 hrow
      rw [hx]
      simpa using hx1)
  refine ⟨p, h1, fun c => (h2 _ (by simp) c).trans ?_⟩
  obtain ⟨s1, -, -, -, s2, s3, s4⟩ := ex_softmax
  have hη : acc.η = 1 / 2 ^ 150 := rfl
  unfold softErr
  have := exp_small (x := alp acc (1 / 2 ^ 23) 3 10 + 2 * (1 / 10 ^ 4)) (by positivity) (by norm_num at s4 ⊢; linarith)
  rw [hη]
  norm_num at this s4 ⊢
  linarith
end

end Emlearn.Mixture.CText
