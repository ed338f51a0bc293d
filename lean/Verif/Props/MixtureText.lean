/- Property C92: the C code generated for a Gaussian mixture, read as C, declares the intended `EmlMixtureModel`, and its functions pass it to `eml_mixture.h`. -/
import Verif.Mixture.TextRun
import Verif.MiniC.Rounding
import Verif.Props.Mixture
import Verif.Exact
import Verif.Trunc
namespace Emlearn.Mixture.CText
open Emlearn.Cgen Emlearn.MiniC Emlearn.Net.CText Matrix
variable {F : Type}

/-- What the generator gets: a name and a mixture with at least one component and one feature, in the shapes of scikit-learn (after `convert_to_full`). Only the name of the library itself is excluded. -/
structure MixtureArgs (pre : List Char) (means : List (List ℚ)) (prec : List (List (List ℚ))) (logDets logWeights : List ℚ) (nf : Nat) : Prop where
  valid : assertValidIdentifier pre = true
  noNewline : '\n' ∉ pre
  notLib : pre ≠ "eml_mixture".toList
  components : 1 ≤ means.length ∧ means.length ≤ 2147483647
  features : 1 ≤ nf ∧ nf ≤ 2147483647
  rows : ∀ r ∈ means, r.length = nf
  matrices : prec.length = means.length ∧ ∀ m ∈ prec, IsMat nf nf m
  dets : logDets.length = means.length
  weights : logWeights.length = means.length

theorem flatten_len {α : Type} : ∀ (l : List (List α)) (n : Nat), (∀ r ∈ l, r.length = n) → l.flatten.length = l.length * n
  | [], _, _ => by simp
  | r :: l, n, h => by rw [List.flatten_cons, List.length_append, h r (by simp), flatten_len l n fun r hr => h r (by simp [hr]), List.length_cons, Nat.succ_mul, Nat.add_comm]

theorem ne_nil_of_len {α : Type} {l : List α} (h : 1 ≤ l.length) : l ≠ [] := by rintro rfl; simp at h

theorem suffix_ne (pre s n : List Char) (h : s.isSuffixOf n = false) : pre ++ s ≠ n := by
  rintro rfl
  have : s.isSuffixOf (pre ++ s) = true := by simp
  rw [h] at this
  cases this

section
variable (ops : CFloat F) (other : ℚ → List Char) (pre : List Char) (means : List (List ℚ)) (prec : List (List (List ℚ))) (logDets logWeights : List ℚ) (nf : Nat)

theorem find_lib (hne : pre ≠ "eml_mixture".toList) (cov : Cov) (f : List Char)
    (hf : f = "eml_mixture_predict_log_proba".toList ∨ f = "eml_mixture_score".toList ∨ f = "eml_mixture_predict_proba".toList) :
    findFunc (mixtureProg pre means prec logDets logWeights nf cov) f = none := by
  unfold findFunc
  rw [List.findSome?_eq_none_iff]
  intro t ht
  cases t with
  | decl d => rfl
  | func g =>
    have hg : g = logProbaF pre ∨ g = scoreF pre ∨ g = probaF pre := by
      unfold mixtureProg arrays at ht
      simpa using ht
    show (if g.name = f then some g else none) = none
    rw [if_neg]
    have a1 : "eml_mixture_predict_log_proba".toList = "eml_mixture".toList ++ "_predict_log_proba".toList := by decide +kernel
    have a2 : "eml_mixture_score".toList = "eml_mixture".toList ++ "_score".toList := by decide +kernel
    have a3 : "eml_mixture_predict_proba".toList = "eml_mixture".toList ++ "_predict_proba".toList := by decide +kernel
    have same : ∀ s : List Char, pre ++ s ≠ "eml_mixture".toList ++ s := fun s e => hne (List.append_cancel_right e)
    rcases hg with rfl | rfl | rfl <;> rcases hf with rfl | rfl | rfl
    · show pre ++ "_predict_log_proba".toList ≠ _; rw [a1]; exact same _
    · exact suffix_ne pre "_predict_log_proba".toList _ (by decide +kernel)
    · exact suffix_ne pre "_predict_log_proba".toList _ (by decide +kernel)
    · exact suffix_ne pre "_score".toList _ (by decide +kernel)
    · show pre ++ "_score".toList ≠ _; rw [a2]; exact same _
    · exact suffix_ne pre "_score".toList _ (by decide +kernel)
    · exact suffix_ne pre "_predict_proba".toList _ (by decide +kernel)
    · exact suffix_ne pre "_predict_proba".toList _ (by decide +kernel)
    · show pre ++ "_predict_proba".toList ≠ _; rw [a3]; exact same _

/-- The mixture as its literals are read: each number is written with six decimals. -/
def writtenModel : Model F :=
  generate (means.map fun r => r.map (floatLit ops)) (prec.map fun m => m.map fun r => r.map (floatLit ops)) (logDets.map (floatLit ops)) (logWeights.map (floatLit ops)) nf

theorem mixture_prog (ha : MixtureArgs pre means prec logDets logWeights nf) : ∃ text, generateText other pre means prec logDets logWeights nf .full = some text ∧
    parse text = some (mixtureProg pre means prec logDets logWeights nf .full) ∧
    readMixture ops (mixtureProg pre means prec logDets logWeights nf .full) (pre ++ "_model".toList) = some (writtenModel ops means prec logDets logWeights nf) := by
  have hml := flatten_len means nf ha.rows
  have hpl : prec.flatten.flatten.length = means.length * nf * nf := by
    rw [flatten_len prec.flatten nf (by
      intro r hr
      obtain ⟨m, hm, hr⟩ := List.mem_flatten.1 hr
      exact (ha.matrices.2 m hm).2 r hr), flatten_len prec nf fun m hm => (ha.matrices.2 m hm).1, ha.matrices.1]
  obtain ⟨text, h1, h2⟩ := generate_parse other pre means prec logDets logWeights nf .full ha.valid ha.noNewline hml
  refine ⟨text, h1, h2, ?_⟩
  rw [readMixture_generated pre means prec logDets logWeights nf .full ops (ne_nil_of_len (by rw [hml]; exact Nat.mul_pos ha.components.1 ha.features.1))
    (ne_nil_of_len (by rw [hpl]; exact Nat.mul_pos (Nat.mul_pos ha.components.1 ha.features.1) ha.features.1)) (ne_nil_of_len (by rw [ha.dets]; exact ha.components.1))
    (ne_nil_of_len (by rw [ha.weights]; exact ha.components.1)) ha.components.2 ha.features.2]
  unfold writtenModel generate
  simp [List.map_flatten]

/-- **C92.** The generated text is C, and its variable `<name>_model` is the mixture, row by row, every number rounded to six decimals. -/
theorem C92_model (ha : MixtureArgs pre means prec logDets logWeights nf) : ∃ text prog, generateText other pre means prec logDets logWeights nf .full = some text ∧ parse text = some prog ∧
    readMixture ops prog (pre ++ "_model".toList) =
      some ⟨means.length, nf, .full, means.flatten.map (floatLit ops), prec.flatten.flatten.map (floatLit ops), logDets.map (floatLit ops), logWeights.map (floatLit ops)⟩ ∧
    ∀ v, ∃ q : ℚ, |q - v| ≤ 1 / (2 * 10 ^ 6) ∧ floatLit ops v = ops.lit (decide (v < 0)) |q| := by
  obtain ⟨text, h1, h2, h3⟩ := mixture_prog ops other pre means prec logDets logWeights nf ha
  refine ⟨text, _, h1, h2, ?_, fun v => ⟨fixedValue 6 v, fixedValue_close 6 v, rfl⟩⟩
  rw [h3]
  unfold writtenModel generate
  simp [List.map_flatten]

theorem names_nodup (outs : List (List Char)) (h : ("values".toList :: "values_length".toList :: outs).Nodup) (hs : ∀ o ∈ "values".toList :: "values_length".toList :: outs, "_model".toList.isSuffixOf o = false) :
    ((pre ++ "_model".toList) :: "values".toList :: "values_length".toList :: outs).Nodup :=
  List.nodup_cons.2 ⟨fun hm => suffix_ne pre "_model".toList _ (hs _ hm) rfl, h⟩

theorem code_range [Zero F] [Add F] [Sub F] [Mul F] {comb : Nat → F → F → F} {m : Model F} {xs out : List F} {r : Int × List F} (h : predictLogProba comb m xs out = some r) : -2147483648 ≤ r.1 ∧ r.1 ≤ 2147483647 := by
  unfold predictLogProba at h
  split at h
  · split at h
    · cases hc : compLoop comb m xs m.nComponents 0 out with
      | none => rw [hc] at h; cases h
      | some o => rw [hc] at h; cases h; constructor <;> simp
    · cases h; constructor <;> simp
  · cases h; constructor <;> simp

theorem conv_error (z : Int) (h1 : -2147483648 ≤ z) (h2 : z ≤ 2147483647) : conv ops "EmlError".toList (.int z) = some (.int z) := by
  have hr : intRange "EmlError".toList = some (-2147483648, 2147483647) ∧ "EmlError".toList ≠ "float".toList := by decide +kernel
  unfold conv
  rw [if_neg hr.2, hr.1]
  have e : wrapRange (-2147483648, 2147483647) z = z := by
    show (z - -2147483648) % (2147483647 - -2147483648 + 1) + -2147483648 = z
    norm_num
    omega
  simp only [e]

variable (comb : Nat → F → F → F) (lse : List F → F) (ex : F → F) (fuel depth : Nat)

/-- **C92.** A call of `<name>_predict_log_proba` is the call of the library function with the written model: the return code is passed on, and on success the component values are stored from the start of the caller's
array. The length that the caller gives is ignored. -/
theorem C92_predict_log_proba [Zero F] [Add F] [Sub F] [Mul F] (ha : MixtureArgs pre means prec logDets logWeights nf) : ∃ text prog, generateText other pre means prec logDets logWeights nf .full = some text ∧ parse text = some prog ∧
    ∀ (xs : List F) (len : Int) (outs : List (Option (Val F))), -2147483648 ≤ len → len ≤ 2147483647 →
      callFunc ops (mixtureLib ops comb lse ex prog) prog fuel (depth + 2) (pre ++ "_predict_log_proba".toList)
          [.arr "float".toList (xs.map fun z => some (.flt z)), .num (.int len), .arr "float".toList outs] =
        (predictLogProba comb (writtenModel ops means prec logDets logWeights nf) xs (List.replicate outs.length 0)).map fun r =>
          (.int r.1, [(2, if r.1 = 0 then overwrite (r.2.take means.length) outs else outs)]) := by
  obtain ⟨text, h1, h2, hread⟩ := mixture_prog ops other pre means prec logDets logWeights nf ha
  refine ⟨text, _, h1, h2, ?_⟩
  intro xs len outs hl1 hl2
  have key := forward_call ops (mixtureLib ops comb lse ex (mixtureProg pre means prec logDets logWeights nf .full)) (mixtureProg pre means prec logDets logWeights nf .full) fuel depth
    "int32_t".toList (pre ++ "_predict_log_proba".toList) "eml_mixture_predict_log_proba".toList (pre ++ "_model".toList) "values".toList "values_length".toList ["out".toList]
    (fun z z1 z2 => conv_int32 ops (.inr rfl) z z1 z2) (find_fwd pre means prec logDets logWeights nf .full (logProbaF pre) (.inl rfl))
    (find_lib pre means prec logDets logWeights nf ha.notLib .full _ (.inl rfl)) (names_nodup pre _ (by decide +kernel) (by decide +kernel)) (by decide +kernel)
    (xs.map fun z => some (.flt z)) len hl1 hl2 [outs] rfl
    ((predictLogProba comb (writtenModel ops means prec logDets logWeights nf) xs (List.replicate outs.length 0)).map fun r => (r.1, [if r.1 = 0 then overwrite (r.2.take means.length) outs else outs])) ?_ ?_
  · rw [Option.map_map] at key
    exact key
  · rw [Option.map_map]
    unfold mixtureLib
    simp only [List.map_cons, List.map_nil, hread, fltsOf_flts]
    rw [if_pos (And.intro trivial trivial)]
    have hn : (writtenModel ops means prec logDets logWeights nf).nComponents = means.length := by simp [writtenModel, generate]
    rw [hn]
    cases predictLogProba comb (writtenModel ops means prec logDets logWeights nf) xs (List.replicate outs.length 0) with
    | none => rfl
    | some r => rfl
  · intro q hq
    obtain ⟨r, hr, rfl⟩ := Option.map_eq_some_iff.1 hq
    exact ⟨(code_range hr).1, (code_range hr).2, rfl⟩

/-- **C92.** `<name>_score`: also stores `lse` of the component values behind the last pointer. -/
theorem C92_score [Zero F] [Add F] [Sub F] [Mul F] (ha : MixtureArgs pre means prec logDets logWeights nf) : ∃ text prog, generateText other pre means prec logDets logWeights nf .full = some text ∧ parse text = some prog ∧
    ∀ (xs : List F) (len : Int) (outs s : List (Option (Val F))), -2147483648 ≤ len → len ≤ 2147483647 → 0 < s.length →
      callFunc ops (mixtureLib ops comb lse ex prog) prog fuel (depth + 2) (pre ++ "_score".toList)
          [.arr "float".toList (xs.map fun z => some (.flt z)), .num (.int len), .arr "float".toList outs, .arr "float".toList s] =
        (predictLogProba comb (writtenModel ops means prec logDets logWeights nf) xs (List.replicate outs.length 0)).map fun r =>
          (.int r.1, if r.1 = 0 then [(2, overwrite (r.2.take means.length) outs), (3, some (.flt (lse (r.2.take means.length))) :: s.drop 1)] else [(2, outs), (3, s)]) := by
  obtain ⟨text, h1, h2, hread⟩ := mixture_prog ops other pre means prec logDets logWeights nf ha
  refine ⟨text, _, h1, h2, ?_⟩
  intro xs len outs s hl1 hl2 hs
  have key := forward_call ops (mixtureLib ops comb lse ex (mixtureProg pre means prec logDets logWeights nf .full)) (mixtureProg pre means prec logDets logWeights nf .full) fuel depth
    "EmlError".toList (pre ++ "_score".toList) "eml_mixture_score".toList (pre ++ "_model".toList) "values".toList "values_length".toList ["probabilities".toList, "score".toList]
    (fun z z1 z2 => conv_error ops z z1 z2) (find_fwd pre means prec logDets logWeights nf .full (scoreF pre) (.inr (.inl rfl)))
    (find_lib pre means prec logDets logWeights nf ha.notLib .full _ (.inr (.inl rfl))) (names_nodup pre _ (by decide +kernel) (by decide +kernel)) (by decide +kernel)
    (xs.map fun z => some (.flt z)) len hl1 hl2 [outs, s] rfl
    ((predictLogProba comb (writtenModel ops means prec logDets logWeights nf) xs (List.replicate outs.length 0)).map fun r =>
      (r.1, if r.1 = 0 then [overwrite (r.2.take means.length) outs, overwrite [lse (r.2.take means.length)] s] else [outs, s])) ?_ ?_
  · rw [Option.map_map] at key
    refine key.trans ?_
    cases predictLogProba comb (writtenModel ops means prec logDets logWeights nf) xs (List.replicate outs.length 0) with
    | none => rfl
    | some r =>
      simp only [Option.map_some, Function.comp]
      by_cases h : r.1 = 0
      · rw [if_pos h, if_pos h]; rfl
      · rw [if_neg h, if_neg h]; rfl
  · rw [Option.map_map]
    unfold mixtureLib
    simp only [List.map_cons, List.map_nil, hread, fltsOf_flts]
    rw [if_pos (And.intro trivial trivial)]
    have hn : (writtenModel ops means prec logDets logWeights nf).nComponents = means.length := by simp [writtenModel, generate]
    rw [hn]
    cases predictLogProba comb (writtenModel ops means prec logDets logWeights nf) xs (List.replicate outs.length 0) with
    | none => rfl
    | some r =>
      simp only [true_and]
      rw [if_pos hs]
      rfl
  · intro q hq
    obtain ⟨r, hr, rfl⟩ := Option.map_eq_some_iff.1 hq
    refine ⟨(code_range hr).1, (code_range hr).2, ?_⟩
    simp only
    split <;> rfl

/-- **C92.** `<name>_predict_proba`: also stores `ex` of the component values minus the score, in an array with room for all components. -/
theorem C92_predict_proba [Zero F] [Add F] [Sub F] [Mul F] (ha : MixtureArgs pre means prec logDets logWeights nf) : ∃ text prog, generateText other pre means prec logDets logWeights nf .full = some text ∧ parse text = some prog ∧
    ∀ (xs : List F) (len : Int) (outs s resp : List (Option (Val F))), -2147483648 ≤ len → len ≤ 2147483647 → 0 < s.length → means.length ≤ resp.length →
      callFunc ops (mixtureLib ops comb lse ex prog) prog fuel (depth + 2) (pre ++ "_predict_proba".toList)
          [.arr "float".toList (xs.map fun z => some (.flt z)), .num (.int len), .arr "float".toList outs, .arr "float".toList s, .arr "float".toList resp] =
        (predictLogProba comb (writtenModel ops means prec logDets logWeights nf) xs (List.replicate outs.length 0)).map fun r =>
          (.int r.1, if r.1 = 0 then [(2, overwrite (r.2.take means.length) outs), (3, some (.flt (lse (r.2.take means.length))) :: s.drop 1),
            (4, overwrite ((r.2.take means.length).map fun p => ex (p - lse (r.2.take means.length))) resp)] else [(2, outs), (3, s), (4, resp)]) := by
  obtain ⟨text, h1, h2, hread⟩ := mixture_prog ops other pre means prec logDets logWeights nf ha
  refine ⟨text, _, h1, h2, ?_⟩
  intro xs len outs s resp hl1 hl2 hs hresp
  have key := forward_call ops (mixtureLib ops comb lse ex (mixtureProg pre means prec logDets logWeights nf .full)) (mixtureProg pre means prec logDets logWeights nf .full) fuel depth
    "int32_t".toList (pre ++ "_predict_proba".toList) "eml_mixture_predict_proba".toList (pre ++ "_model".toList) "values".toList "values_length".toList ["probabilities".toList, "score".toList, "resp".toList]
    (fun z z1 z2 => conv_int32 ops (.inr rfl) z z1 z2) (find_fwd pre means prec logDets logWeights nf .full (probaF pre) (.inr (.inr rfl)))
    (find_lib pre means prec logDets logWeights nf ha.notLib .full _ (.inr (.inr rfl))) (names_nodup pre _ (by decide +kernel) (by decide +kernel)) (by decide +kernel)
    (xs.map fun z => some (.flt z)) len hl1 hl2 [outs, s, resp] rfl
    ((predictLogProba comb (writtenModel ops means prec logDets logWeights nf) xs (List.replicate outs.length 0)).map fun r =>
      (r.1, if r.1 = 0 then [overwrite (r.2.take means.length) outs, overwrite [lse (r.2.take means.length)] s,
        overwrite ((r.2.take means.length).map fun p => ex (p - lse (r.2.take means.length))) resp] else [outs, s, resp])) ?_ ?_
  · rw [Option.map_map] at key
    refine key.trans ?_
    cases predictLogProba comb (writtenModel ops means prec logDets logWeights nf) xs (List.replicate outs.length 0) with
    | none => rfl
    | some r =>
      simp only [Option.map_some, Function.comp]
      by_cases h : r.1 = 0
      · rw [if_pos h, if_pos h]; rfl
      · rw [if_neg h, if_neg h]; rfl
  · rw [Option.map_map]
    unfold mixtureLib
    simp only [List.map_cons, List.map_nil, hread, fltsOf_flts]
    rw [if_pos (And.intro trivial trivial)]
    have hn : (writtenModel ops means prec logDets logWeights nf).nComponents = means.length := by simp [writtenModel, generate]
    rw [hn]
    cases predictLogProba comb (writtenModel ops means prec logDets logWeights nf) xs (List.replicate outs.length 0) with
    | none => rfl
    | some r =>
      simp only [true_and]
      rw [if_pos hs, if_pos hresp]
      simp only [Option.map_some, Function.comp]
      by_cases h : r.1 = 0
      · rw [if_pos h, if_pos h]
      · rw [if_neg h, if_neg h]
  · intro q hq
    obtain ⟨r, hr, rfl⟩ := Option.map_eq_some_iff.1 hq
    refine ⟨(code_range hr).1, (code_range hr).2, ?_⟩
    simp only
    split <;> rfl
end

/-! ### Exact numbers -/

section
variable {C n : Nat} (mu : Fin C → Fin n → ℚ) (L : Fin C → Matrix (Fin n) (Fin n) ℚ) (ld lw : Fin C → ℚ)

/-- Value of component `c` for the rounded parameters: `-1/2 (n log 2π + |(x - μ) L|²) + log det + log weight`. -/
noncomputable def componentValue (log2pi : ℝ) (x : Fin n → ℝ) (c : Fin C) : ℝ :=
  -(1/2) * (n * log2pi + ((x - fun f => round6 (mu c f)) ᵥ* Matrix.of fun i j => round6 (L c i j)) ⬝ᵥ ((x - fun f => round6 (mu c f)) ᵥ* Matrix.of fun i j => round6 (L c i j))) + round6 (ld c) + round6 (lw c)

theorem written_gmm (ops : CFloat ℝ) (h : ExactLits ops) : writtenModel ops (rows mu) (List.ofFn fun c => rows (L c)) (List.ofFn ld) (List.ofFn lw) n =
    gmm (fun c f => round6 (mu c f)) (fun c => Matrix.of fun i j => round6 (L c i j)) (fun c => round6 (ld c)) (fun c => round6 (lw c)) := by
  have e : floatLit ops = round6 := funext (floatLit_exact ops h)
  unfold writtenModel gmm
  rw [e]
  unfold rows
  simp only [List.map_ofFn, Function.comp_def]
  rfl

/-- **C92.** The generated text, executed as C with exact arithmetic: for every input of `n` values the three functions return 0 and store the component values of the rounded mixture, the logarithm of the sum of their
exponentials, and the exponentials divided by that sum. -/
theorem C92_end_to_end (hC : 1 ≤ C) (hn : 1 ≤ n) (ops : CFloat ℝ) (hops : ExactLits ops) (other : ℚ → List Char) (pre : List Char)
    (ha : MixtureArgs pre (rows mu) (List.ofFn fun c => rows (L c)) (List.ofFn ld) (List.ofFn lw) n) (lo hi log2pi : ℝ) (fuel depth : Nat) :
    ∃ text prog, generateText other pre (rows mu) (List.ofFn fun c => rows (L c)) (List.ofFn ld) (List.ofFn lw) n .full = some text ∧ parse text = some prog ∧
      ∀ (x : Fin n → ℝ) (outs s resp : List (Option (Val ℝ))), outs.length = C → s.length = 1 → resp.length = C →
        callFunc ops (mixtureLib ops (exactComb log2pi) (logsumexp lo hi) Real.exp prog) prog fuel (depth + 2) (pre ++ "_predict_log_proba".toList)
            [.arr "float".toList ((List.ofFn x).map fun z => some (.flt z)), .num (.int n), .arr "float".toList outs] =
          some (.int 0, [(2, List.ofFn fun c => some (.flt (componentValue mu L ld lw log2pi x c)))]) ∧
        callFunc ops (mixtureLib ops (exactComb log2pi) (logsumexp lo hi) Real.exp prog) prog fuel (depth + 2) (pre ++ "_score".toList)
            [.arr "float".toList ((List.ofFn x).map fun z => some (.flt z)), .num (.int n), .arr "float".toList outs, .arr "float".toList s] =
          some (.int 0, [(2, List.ofFn fun c => some (.flt (componentValue mu L ld lw log2pi x c))), (3, [some (.flt (Real.log (∑ c, Real.exp (componentValue mu L ld lw log2pi x c))))])]) ∧
        callFunc ops (mixtureLib ops (exactComb log2pi) (logsumexp lo hi) Real.exp prog) prog fuel (depth + 2) (pre ++ "_predict_proba".toList)
            [.arr "float".toList ((List.ofFn x).map fun z => some (.flt z)), .num (.int n), .arr "float".toList outs, .arr "float".toList s, .arr "float".toList resp] =
          some (.int 0, [(2, List.ofFn fun c => some (.flt (componentValue mu L ld lw log2pi x c))), (3, [some (.flt (Real.log (∑ c, Real.exp (componentValue mu L ld lw log2pi x c))))]),
            (4, List.ofFn fun c => some (.flt (Real.exp (componentValue mu L ld lw log2pi x c) / ∑ c', Real.exp (componentValue mu L ld lw log2pi x c'))))]) := by
  obtain ⟨text, prog, h1, h2, e1⟩ := C92_predict_log_proba ops other pre _ _ _ _ n (exactComb log2pi) (logsumexp lo hi) Real.exp fuel depth ha
  obtain ⟨_, _, h1', h2', e2⟩ := C92_score ops other pre _ _ _ _ n (exactComb log2pi) (logsumexp lo hi) Real.exp fuel depth ha
  obtain ⟨_, _, h1'', h2'', e3⟩ := C92_predict_proba ops other pre _ _ _ _ n (exactComb log2pi) (logsumexp lo hi) Real.exp fuel depth ha
  rw [h1] at h1' h1''
  cases h1'; cases h1''
  rw [h2] at h2' h2''
  cases h2'; cases h2''
  refine ⟨text, prog, h1, h2, ?_⟩
  intro x outs s resp ho hs hr
  have hlen : (n : Int) ≤ 2147483647 := by have := ha.features.2; omega
  have hrows : (rows mu).length = C := by simp [rows]
  have hpl := C45_log_proba (by omega) log2pi (fun c f => round6 (mu c f)) (fun c => Matrix.of fun i j => round6 (L c i j)) (fun c => round6 (ld c)) (fun c => round6 (lw c)) x (List.replicate outs.length 0) (by simp [ho])
  rw [← written_gmm mu L ld lw ops hops] at hpl
  have hv : (List.ofFn fun c => -(1/2) * (n * log2pi + ((x - fun f => round6 (mu c f)) ᵥ* Matrix.of fun i j => round6 (L c i j)) ⬝ᵥ ((x - fun f => round6 (mu c f)) ᵥ* Matrix.of fun i j => round6 (L c i j)))
      + round6 (ld c) + round6 (lw c)) = List.ofFn fun c => componentValue mu L ld lw log2pi x c := rfl
  rw [hv] at hpl
  have htake : (List.ofFn fun c => componentValue mu L ld lw log2pi x c).take C = List.ofFn fun c => componentValue mu L ld lw log2pi x c := List.take_of_length_le (by simp)
  have hover : ∀ (f : Fin C → ℝ) (vs : List (Option (Val ℝ))), vs.length = C → overwrite (List.ofFn f) vs = List.ofFn fun c => some (.flt (f c)) := by
    intro f vs hvs
    unfold overwrite
    rw [List.drop_of_length_le (by simp [hvs]), List.append_nil, List.map_ofFn]
    rfl
  have hlse : logsumexp lo hi (List.ofFn fun c => componentValue mu L ld lw log2pi x c) = Real.log (∑ c, Real.exp (componentValue mu L ld lw log2pi x c)) := by
    rw [logsumexp_eq _ _ _ (ne_nil_of_len (by simpa using hC)), List.map_ofFn, List.sum_ofFn]
    rfl
  have hpos : 0 < ∑ c, Real.exp (componentValue mu L ld lw log2pi x c) := by
    have : Nonempty (Fin C) := ⟨⟨0, by omega⟩⟩
    exact Finset.sum_pos (fun c _ => Real.exp_pos _) Finset.univ_nonempty
  have hdrop : s.drop 1 = [] := List.drop_of_length_le (by omega)
  refine ⟨?_, ?_, ?_⟩
  · rw [e1 _ _ _ (by omega) hlen, hpl, hrows, Option.map_some, htake]
    simp only [if_true]
    rw [hover _ _ ho]
  · rw [e2 _ _ _ _ (by omega) hlen (by omega), hpl, hrows, Option.map_some, htake, hlse, hdrop]
    simp only [if_true]
    rw [hover _ _ ho]
  · rw [e3 _ _ _ _ _ (by omega) hlen (by omega) (by rw [hrows, hr]), hpl, hrows, Option.map_some, htake, hlse, hdrop]
    simp only [if_true]
    rw [hover _ _ ho, List.map_ofFn, hover _ _ hr]
    simp only [Function.comp, Real.exp_sub, Real.exp_log hpos]

/-- **C92** (negation) six decimals are not enough for features on a large scale: if every entry of the precision factors is below half of 10⁻⁶ (standard deviations above two millions), the stored factors are all zero, and the
component values do not depend on the input at all. -/
theorem C92_small_precision_refuted (hL : ∀ c i j, |L c i j| < 1 / (2 * 10 ^ 6)) (log2pi : ℝ) (x y : Fin n → ℝ) (c : Fin C) :
    (∀ c i j, round6 (L c i j) = 0) ∧ componentValue mu L ld lw log2pi x c = componentValue mu L ld lw log2pi y c := by
  have h0 : ∀ c i j, round6 (L c i j) = 0 := by
    intro c i j
    exact round6_small _ (hL c i j)
  refine ⟨h0, ?_⟩
  unfold componentValue
  have : (Matrix.of fun i j => round6 (L c i j)) = 0 := by ext i j; exact h0 c i j
  rw [this]
  simp
end

/-! ### A concrete mixture -/

/-- Exact arithmetic for the C program. -/
def exC : CFloat ℚ := { exactOps ℚ with lit := fun neg q => if neg then -q else q, toInt := fun _ => none }

def exMeans : List (List ℚ) := [[0, 1], [3, -2]]
def exPrec : List (List (List ℚ)) := [[[1, 1/2], [0, 1]], [[2, 0], [0, 1/4]]]

theorem ex_args : MixtureArgs "gmm".toList exMeans exPrec [0, -7/10] [-1/2, -1] 2 := by
  refine ⟨by decide +kernel, by decide +kernel, by decide +kernel, by decide, by decide, by decide +kernel, ⟨by decide, ?_⟩, by decide, by decide⟩
  intro m hm
  simp only [exPrec, List.mem_cons, List.not_mem_nil, or_false] at hm
  rcases hm with rfl | rfl <;> exact ⟨rfl, by decide⟩

/-- The generated text of this mixture, parsed and executed (`log 2π` replaced by 2, the maximum in place of the logarithm of the sum). -/
def exRun (name f : String) (args : List (ArgVal ℚ)) : Option (Option (CallResult ℚ)) :=
  (generateText (fun _ => []) name.toList exMeans exPrec [0, -7/10] [-1/2, -1] 2 .full).map fun text => (parse text).bind fun prog =>
    callFunc exC (mixtureLib exC (exactComb 2) (fun l => l.foldl max (-1000)) (fun x => 1 + x) prog) prog 0 9 (name.toList ++ f.toList) args

set_option synthInstance.maxSize 1024 in
set_option synthInstance.maxHeartbeats 200000 in
example : (exRun "gmm" "_predict_proba" [.arr "float".toList [some (.flt 1), some (.flt 1)], .num (.int 2), .arr "float".toList [none, none], .arr "float".toList [none], .arr "float".toList [none, none, none]]).map
    (fun r => r.map fun p => (p.1, p.2)) = some (some (.int 0, [(2, [some (.flt (-25/8)), some (.flt (-1917/160))]), (3, [some (.flt (-25/8))]), (4, [some (.flt 1), some (.flt (-1257/160)), none])])) := by
  decide +kernel

/-- **C92** (negation) of the valid names, the name of the library does not work: the generated functions have the names of the library functions and call themselves. -/
theorem C92_names_refuted : assertValidIdentifier "eml_mixture".toList = true ∧
    (exRun "eml_mixture" "_predict_log_proba" [.arr "float".toList [some (.flt 1), some (.flt 1)], .num (.int 2), .arr "float".toList [none, none]]).map (fun r => r.map Prod.fst) = some none ∧
    (exRun "gmm" "_predict_log_proba" [.arr "float".toList [some (.flt 1), some (.flt 1)], .num (.int 2), .arr "float".toList [none, none]]).map (fun r => r.map Prod.fst) = some (some (.int 0)) := by
  decide +kernel

end Emlearn.Mixture.CText
