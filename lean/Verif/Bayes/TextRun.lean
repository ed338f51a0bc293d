/- What a C compiler makes of the code generated for a naive Bayes classifier: the `EmlBayesModel` structure and the call into `eml_bayes.h`.
`macroVal`, `readSummaries`, `readBayes`, `bayesLib` are part of the specification (the macro of `eml_fixedpoint.h` 28, initialisers of structures, `eml_bayes.h` 15-30, and the function modelled in `Bayes/Model.lean`). -/
import Verif.Bayes.Text
import Verif.Net.TextRun
namespace Emlearn.Bayes

section
variable {K : Type} [Field K] [LinearOrder K] [IsStrictOrderedRing K] [FloorRing K]

/-- `eml_bayes_predict(model, values, values_length)`, `eml_bayes.h` 107-143, with a length that need not be that of the array: a negative one reads nothing, a longer one reads outside. -/
def predictN (m : Model) (values : List K) (len : Int) : Except Fault Int :=
  if len.toNat ≤ values.length then predict m (values.take len.toNat) else if m.nClasses ≥ 2 then .error .outOfBounds else .ok (-3)

omit [IsStrictOrderedRing K] in
theorem scoresLoop_length (m : Model) (values : List K) : ∀ (n c : Nat) (acc ps : List Int), scoresLoop m values n c acc = .ok ps → ps.length = acc.length + n ∧ (n = 0 ∨ c + n ≤ 10)
  | 0, c, acc, ps, h => by rw [scoresLoop] at h; cases h; simp
  | n + 1, c, acc, ps, h => by
    rw [scoresLoop] at h
    cases hc : classLoop m c 0 values 0 with
    | error e => rw [hc] at h; cases h
    | ok p =>
      rw [hc] at h
      change (if c < 10 then scoresLoop m values n (c + 1) (acc ++ [p]) else .error .outOfBounds) = .ok ps at h
      split at h
      · obtain ⟨h1, h2⟩ := scoresLoop_length m values n (c + 1) _ _ h
        rw [List.length_append, List.length_singleton] at h1
        omega
      · cases h

theorem argmaxLoop_le : ∀ (ps : List Int) (i : Nat) (hi : Int) (best : Nat), best ≤ i → argmaxLoop ps i hi best ≤ i + ps.length
  | [], i, _, best, h => by rw [argmaxLoop]; simpa using h
  | p :: ps, i, hi, best, h => by
    rw [argmaxLoop, List.length_cons]
    split
    · have := argmaxLoop_le ps (i + 1) p i (by omega); omega
    · have := argmaxLoop_le ps (i + 1) hi best (by omega); omega

omit [IsStrictOrderedRing K] in
theorem predict_range (m : Model) (values : List K) (r : Int) (h : predict m values = .ok r) : -3 ≤ r ∧ r ≤ 10 := by
  unfold predict at h
  split at h
  · cases hs : scoresLoop m values m.nClasses.toNat 0 [] with
    | error e => rw [hs] at h; cases h
    | ok ps =>
      rw [hs] at h
      obtain ⟨h1, h2⟩ := scoresLoop_length m values _ _ _ _ hs
      cases ps with
      | nil => cases h
      | cons p ps =>
        have hr : ((argmaxLoop ps 1 p 0 : Nat) : Int) = r := by injection h
        have := argmaxLoop_le ps 1 p 0 (by omega)
        rw [List.length_cons, List.length_nil] at h1
        omega
  · cases h; omega

omit [IsStrictOrderedRing K] in
theorem predictN_range (m : Model) (values : List K) (len r : Int) (h : predictN m values len = .ok r) : -3 ≤ r ∧ r ≤ 10 := by
  unfold predictN at h
  split at h
  · exact predict_range _ _ _ h
  · split at h
    · cases h
    · cases h; omega

end

namespace CText
open Emlearn.Cgen Emlearn.MiniC Emlearn.Net.CText Emlearn.Quant
variable {F : Type}

/-- `EML_Q16_FROMFLOAT(x)` as a constant expression, `eml_fixedpoint.h` 28: `x` is a constant of type `double`; `dbl` is the value of the compiler's double for a decimal number. The product with 65536 is exact; the
conversion to `int` is undefined outside the range of `int`. -/
def macroVal (dbl : ℚ → ℚ) (e : Expr) : Option Int :=
  match e with
  | .call f [⟨sgn, w⟩] =>
    if f = "EML_Q16_FROMFLOAT".toList ∧ (sgn = none ∨ sgn = some '-') then
      (readDec w).bind fun q => if InI32 (fromFloat 16 (if sgn = some '-' then -dbl q else dbl q)) then some (fromFloat 16 (if sgn = some '-' then -dbl q else dbl q)) else none
    else none
  | _ => none

/-- The initialiser of an `EmlBayesSummary`, `eml_bayes.h` 15-19. -/
def readSummary (dbl : ℚ → ℚ) (es : List Expr) : Option Summary :=
  match es with
  | [a, b, c] => (macroVal dbl a).bind fun mean => (macroVal dbl b).bind fun std => (macroVal dbl c).map fun l => ⟨mean, std, l⟩
  | _ => none

/-- The initialised array of summaries `x`. -/
def readSummaries (dbl : ℚ → ℚ) (prog : Prog) (x : List Char) : Option (List Summary) :=
  match findDecl prog x with
  | some d =>
    match d.size, d.init with
    | some n, some (.nested rows) => if d.ty = "EmlBayesSummary".toList ∧ readNat n = some rows.length then rows.mapM (readSummary dbl) else none
    | _, _ => none
  | none => none

/-- The variable `g` of type `EmlBayesModel` (`eml_bayes.h` 26-30); the array is declared before it. -/
def readBayes (ops : CFloat F) (dbl : ℚ → ℚ) (prog : Prog) (g : List Char) : Option Model :=
  match findDecl prog g with
  | some d =>
    match d.size, d.init with
    | none, some (.flat [nc, nf, .var x] _) =>
      match fieldInt ops "int32_t".toList nc, fieldInt ops "int32_t".toList nf, readSummaries dbl (before prog g) x with
      | some nc, some nf, some ss => if d.ty = "EmlBayesModel".toList then some ⟨nc, nf, ss⟩ else none
      | _, _, _ => none
    | _, _ => none
  | none => none

/-- `eml_bayes_predict` (`eml_bayes.h` 107-143) on the structure that the first argument points to. -/
def bayesLib [Field F] [LinearOrder F] [IsStrictOrderedRing F] [FloorRing F] (ops : CFloat F) (dbl : ℚ → ℚ) (prog : Prog) (f : List Char) (args : List (ArgVal F)) : Option (CallResult F) :=
  match args with
  | [.ref g, .arr ty feats, .num (.int n)] =>
    match readBayes ops dbl prog g, fltsOf feats with
    | some m, some xs => if f = "eml_bayes_predict".toList ∧ ty = "float".toList then (predictN m xs n).toOption.map fun r => (.int r, []) else none
    | _, _ => none
  | _ => none

/-- The double that the text of a number stands for. -/
def value (dbl : ℚ → ℚ) (v : PyFloat) : ℚ := if v.neg then -dbl v.mag else dbl v.mag

/-! ### The structure -/

theorem macroVal_fixed (dbl : ℚ → ℚ) (v : PyFloat) : macroVal dbl (fixedExpr v) = if InI32 (fromFloat 16 (value dbl v)) then some (fromFloat 16 (value dbl v)) else none := by
  unfold macroVal fixedExpr macroName value
  simp only
  cases v.neg
  · simp only [Bool.false_eq_true, if_false, readDec_text, Option.bind_some]
    rw [if_pos ⟨trivial, .inl trivial⟩]
    simp
  · simp only [if_true, readDec_text, Option.bind_some]
    rw [if_pos ⟨trivial, .inr trivial⟩]

/-- All three numbers fit Q16. -/
def RowFits (dbl : ℚ → ℚ) (r : Row) : Prop := InI32 (fromFloat 16 (value dbl r.1)) ∧ InI32 (fromFloat 16 (value dbl r.2.1)) ∧ InI32 (fromFloat 16 (value dbl r.2.2))

def rowSummary (dbl : ℚ → ℚ) (r : Row) : Summary := ⟨fromFloat 16 (value dbl r.1), fromFloat 16 (value dbl r.2.1), fromFloat 16 (value dbl r.2.2)⟩

theorem readSummary_row (dbl : ℚ → ℚ) (r : Row) (h : RowFits dbl r) : readSummary dbl (rowExprs r) = some (rowSummary dbl r) := by
  unfold readSummary rowExprs
  simp only [macroVal_fixed]
  rw [if_pos h.1, if_pos h.2.1, if_pos h.2.2]
  rfl

theorem readSummary_unfit (dbl : ℚ → ℚ) (r : Row) (h : ¬ RowFits dbl r) : readSummary dbl (rowExprs r) = none := by
  unfold readSummary rowExprs
  simp only [macroVal_fixed]
  by_cases h1 : InI32 (fromFloat 16 (value dbl r.1))
  · by_cases h2 : InI32 (fromFloat 16 (value dbl r.2.1))
    · have h3 : ¬ InI32 (fromFloat 16 (value dbl r.2.2)) := fun h3 => h ⟨h1, h2, h3⟩
      rw [if_pos h1, if_pos h2, if_neg h3]; rfl
    · rw [if_pos h1, if_neg h2]; rfl
  · rw [if_neg h1]; rfl

theorem mapM_rows (dbl : ℚ → ℚ) : ∀ rows : List Row, (∀ r ∈ rows, RowFits dbl r) → (rows.map rowExprs).mapM (readSummary dbl) = some (rows.map (rowSummary dbl))
  | [], _ => rfl
  | r :: l, h => by
    rw [List.map_cons, List.mapM_cons, readSummary_row dbl r (h r (by simp)), mapM_rows dbl l fun s hs => h s (by simp [hs])]
    rfl

theorem mapM_unfit (dbl : ℚ → ℚ) : ∀ rows : List Row, (∃ r ∈ rows, ¬ RowFits dbl r) → (rows.map rowExprs).mapM (readSummary dbl) = none
  | [], h => by obtain ⟨r, hr, -⟩ := h; cases hr
  | r :: l, h => by
    rw [List.map_cons, List.mapM_cons]
    by_cases h1 : RowFits dbl r
    · rw [readSummary_row dbl r h1, mapM_unfit dbl l]
      · rfl
      · obtain ⟨s, hs, h2⟩ := h
        rcases List.mem_cons.1 hs with rfl | hs
        · exact absurd h1 h2
        · exact ⟨s, hs, h2⟩
    · rw [readSummary_unfit dbl r h1]; rfl

section
variable (pre : List Char) (nf : Nat) (table : List (List Row))

theorem summaries_ne_model : pre ++ "_summaries".toList ≠ pre ++ "_model".toList := fun h => absurd (List.append_cancel_left h) (by decide +kernel)

theorem find_model : findDecl (bayesProg pre nf table) (pre ++ "_model".toList) = some (modelVar pre table.length nf) := by
  have e : ¬ (summariesVar pre (table.length * nf) table.flatten).name = pre ++ "_model".toList := summaries_ne_model pre
  have e2 : (modelVar pre table.length nf).name = pre ++ "_model".toList := rfl
  unfold findDecl bayesProg
  simp only [List.findSome?_cons, e, e2, if_false, if_true]

theorem before_model : before (bayesProg pre nf table) (pre ++ "_model".toList) = [.decl (summariesVar pre (table.length * nf) table.flatten)] := by
  have e : ((summariesVar pre (table.length * nf) table.flatten).name != pre ++ "_model".toList) = true := bne_iff_ne.2 (summaries_ne_model pre)
  have e2 : ((modelVar pre table.length nf).name != pre ++ "_model".toList) = false := by show (pre ++ "_model".toList != pre ++ "_model".toList) = false; simp
  unfold before bayesProg
  rw [List.takeWhile_cons, List.takeWhile_cons]
  simp only [e, e2, if_true, Bool.false_eq_true, if_false]

theorem readSummaries_generated (dbl : ℚ → ℚ) (hsize : table.flatten.length = table.length * nf) :
    readSummaries dbl [.decl (summariesVar pre (table.length * nf) table.flatten)] (pre ++ "_summaries".toList) = (table.flatten.map rowExprs).mapM (readSummary dbl) := by
  have e2 : (summariesVar pre (table.length * nf) table.flatten).name = pre ++ "_summaries".toList := rfl
  have : findDecl [.decl (summariesVar pre (table.length * nf) table.flatten)] (pre ++ "_summaries".toList) = some (summariesVar pre (table.length * nf) table.flatten) := by
    unfold findDecl
    simp only [List.findSome?_cons, e2, if_true]
  unfold readSummaries
  rw [this]
  unfold summariesVar
  simp only
  rw [if_pos ⟨trivial, by rw [readNat_showNat, List.length_map, hsize]⟩]

theorem readBayes_eq (ops : CFloat F) (dbl : ℚ → ℚ) (prog : Prog) (g name x : List Char) (nc nf : Expr) (a b : Int) (o : Option (List Summary))
    (hfind : findDecl prog g = some ⟨[], "EmlBayesModel".toList, name, none, some (.flat [nc, nf, .var x] true)⟩) (h1 : fieldInt ops "int32_t".toList nc = some a) (h2 : fieldInt ops "int32_t".toList nf = some b)
    (h3 : readSummaries dbl (before prog g) x = o) : readBayes ops dbl prog g = o.map fun ss => ⟨a, b, ss⟩ := by
  unfold readBayes
  rw [hfind]
  show (match fieldInt ops "int32_t".toList nc, fieldInt ops "int32_t".toList nf, readSummaries dbl (before prog g) x with
      | some nc, some nf, some ss => if "EmlBayesModel".toList = "EmlBayesModel".toList then some (⟨nc, nf, ss⟩ : Model) else none
      | _, _, _ => none) = _
  rw [h1, h2, h3]
  cases o with
  | none => rfl
  | some ss => exact if_pos rfl

theorem readBayes_generated (ops : CFloat F) (dbl : ℚ → ℚ) (hsize : table.flatten.length = table.length * nf) (hc : table.length ≤ 2147483647) (hf : nf ≤ 2147483647) :
    readBayes ops dbl (bayesProg pre nf table) (pre ++ "_model".toList) = ((table.flatten.map rowExprs).mapM (readSummary dbl)).map fun ss => ⟨table.length, nf, ss⟩ :=
  readBayes_eq ops dbl _ _ (pre ++ "_model".toList) _ _ _ _ _ _ (find_model pre nf table) (fieldInt_nat ops _ hc) (fieldInt_nat ops _ hf) (by rw [before_model]; exact readSummaries_generated pre nf table dbl hsize)

/-! ### The function -/

theorem find_predict : findFunc (bayesProg pre nf table) (pre ++ "_predict".toList) = some (predictF pre) := by
  refine findFunc_eq _ (predictF pre) (by simp [bayesProg]) ?_
  intro g hg _
  unfold bayesProg at hg
  simpa using hg

theorem find_lib (h : pre ≠ "eml_bayes".toList) : findFunc (bayesProg pre nf table) "eml_bayes_predict".toList = none := by
  have : pre ++ "_predict".toList ≠ "eml_bayes_predict".toList := by
    rw [show "eml_bayes_predict".toList = "eml_bayes".toList ++ "_predict".toList by decide +kernel]
    exact fun e => h (List.append_cancel_right e)
  unfold findFunc bayesProg
  simp only [List.findSome?_cons, List.findSome?_nil]
  rw [if_neg (show ¬ (predictF pre).name = _ from this)]

theorem predict_call [Field F] [LinearOrder F] [IsStrictOrderedRing F] [FloorRing F] (ops : CFloat F) (dbl : ℚ → ℚ) (fuel depth : Nat) (hlib : pre ≠ "eml_bayes".toList) (xs : List F) (len : Int)
    (h1 : -2147483648 ≤ len) (h2 : len ≤ 2147483647) :
    callFunc ops (bayesLib ops dbl (bayesProg pre nf table)) (bayesProg pre nf table) fuel (depth + 2) (pre ++ "_predict".toList) [.arr "float".toList (xs.map fun z => some (.flt z)), .num (.int len)] =
      ((readBayes ops dbl (bayesProg pre nf table) (pre ++ "_model".toList)).bind fun m => (predictN m xs len).toOption).map fun r => (.int r, []) := by
  have hext : bayesLib ops dbl (bayesProg pre nf table) "eml_bayes_predict".toList (.ref (pre ++ "_model".toList) :: .arr "float".toList (xs.map fun z => some (.flt z)) :: .num (.int len) :: ([] : List (List (Option (Val F)))).map fun vs => .arr "float".toList vs) =
      (((readBayes ops dbl (bayesProg pre nf table) (pre ++ "_model".toList)).bind fun m => (predictN m xs len).toOption).map fun r => (r, [])).map fun q => (.int q.1, numbered 3 q.2) := by
    rw [List.map_nil]
    unfold bayesLib
    simp only [fltsOf_flts]
    cases readBayes ops dbl (bayesProg pre nf table) (pre ++ "_model".toList) with
    | none => rfl
    | some m =>
      simp only
      rw [if_pos ⟨trivial, trivial⟩, Option.bind_some]
      cases (predictN m xs len).toOption <;> rfl
  have suf : ∀ x : List Char, "_model".toList.isSuffixOf x = false → pre ++ "_model".toList ≠ x := by
    intro x hx e
    have : "_model".toList.isSuffixOf (pre ++ "_model".toList) = true := by simp
    rw [e, hx] at this
    cases this
  have n1 := suf "features".toList (by decide +kernel)
  have n2 := suf "n_features".toList (by decide +kernel)
  have n3 : "features".toList ≠ "n_features".toList := by decide +kernel
  have := forward_call ops (bayesLib ops dbl (bayesProg pre nf table)) (bayesProg pre nf table) fuel depth "int32_t".toList (pre ++ "_predict".toList) "eml_bayes_predict".toList (pre ++ "_model".toList) "features".toList "n_features".toList []
    (fun z z1 z2 => conv_int32 ops (.inr rfl) z z1 z2) (find_predict pre nf table) (find_lib pre nf table hlib)
    (by
      simp only [List.nodup_cons, List.mem_cons, List.not_mem_nil, or_false, not_false_eq_true, List.nodup_nil, and_true, not_or]
      exact ⟨⟨n1, n2⟩, n3⟩)
    (by
      intro y hy
      simp only [List.mem_cons, List.not_mem_nil, or_false] at hy
      rcases hy with rfl | rfl <;> decide +kernel)
    (xs.map fun z => some (.flt z)) len h1 h2 [] rfl _ hext
    (by
      intro q hq
      obtain ⟨r, hr, rfl⟩ := Option.map_eq_some_iff.1 hq
      obtain ⟨m, -, hm⟩ := Option.bind_eq_some_iff.1 hr
      cases hp : predictN m xs len with
      | error e => rw [hp] at hm; cases hm
      | ok z =>
        rw [hp] at hm
        have hz : z = r := by injection hm
        have := predictN_range m xs len z hp
        simp only [List.length_nil, and_true]
        omega)
  rw [List.map_nil] at this
  rw [this, Option.map_map]
  rfl
end

end CText
end Emlearn.Bayes
