/- Property C93: the C code generated for an elliptic envelope, read as C, declares the intended `EmlEllipticEnvelope`, and its function returns the squared Mahalanobis distance. -/
import Verif.Distance.TextRun
import Verif.MiniC.Rounding
import Verif.Props.Distance
import Verif.Exact
import Verif.Trunc
namespace Emlearn.Distance.CText
open Emlearn.Cgen Emlearn.MiniC Emlearn.Net.CText Matrix
variable {F : Type}

/-- What the generator gets: a name, at least one feature, a square matrix. Only the name of the library itself is excluded. -/
structure EnvelopeArgs (pre : List Char) (means : List ℚ) (precision : List (List ℚ)) : Prop where
  valid : assertValidIdentifier pre = true
  noNewline : '\n' ∉ pre
  notLib : pre ≠ "eml_elliptic_envelope".toList
  features : 1 ≤ means.length ∧ means.length ≤ 2147483647
  square : precision.length = means.length ∧ ∀ r ∈ precision, r.length = means.length

theorem flatten_len {α : Type} : ∀ (l : List (List α)) (n : Nat), (∀ r ∈ l, r.length = n) → l.flatten.length = l.length * n
  | [], _, _ => by simp
  | r :: l, n, h => by rw [List.flatten_cons, List.length_append, h r (by simp), flatten_len l n fun r hr => h r (by simp [hr]), List.length_cons, Nat.succ_mul, Nat.add_comm]

section
variable {pre : List Char} {means : List ℚ} {precision : List (List ℚ)} (offset : PyFloat) (ops : CFloat F) (other : ℚ → List Char) (fuel depth : Nat)

theorem EnvelopeArgs.size (ha : EnvelopeArgs pre means precision) : precision.flatten.length = means.length * means.length := by rw [flatten_len _ _ ha.square.2, ha.square.1]

theorem EnvelopeArgs.means_ne (ha : EnvelopeArgs pre means precision) : means ≠ [] := by rintro rfl; have := ha.features.1; simp at this

theorem EnvelopeArgs.precision_ne (ha : EnvelopeArgs pre means precision) : precision.flatten ≠ [] := by
  intro h
  have := ha.size
  rw [h, List.length_nil] at this
  have h1 := ha.features.1
  have := Nat.mul_pos h1 h1
  omega

/-- The structure in the generated text. -/
def written (means : List ℚ) (precision : List (List ℚ)) : Envelope F := ⟨means.length, ops.lit offset.neg offset.mag, means.map (floatLit ops), precision.flatten.map (floatLit ops)⟩

/-- **C93.** The generated text is C, and its variable `<name>_classifier` is the envelope: the means and the matrix row by row, rounded to six decimals, and the offset with all its digits, in every format that Python
uses to print it. -/
theorem C93_model (ha : EnvelopeArgs pre means precision) : ∃ text prog, generateText other pre means precision offset = some text ∧ parse text = some prog ∧
    readEnvelope ops prog (pre ++ "_classifier".toList) = some ⟨means.length, ops.lit offset.neg offset.mag, means.map (floatLit ops), precision.flatten.map (floatLit ops)⟩ ∧
    ∀ v, ∃ q : ℚ, |q - v| ≤ 1 / (2 * 10 ^ 6) ∧ floatLit ops v = ops.lit (decide (v < 0)) |q| := by
  obtain ⟨text, h1, h2⟩ := generate_parse other pre means precision offset ha.valid ha.noNewline ha.size
  exact ⟨text, _, h1, h2, readEnvelope_generated pre means precision.flatten offset ops ha.means_ne ha.precision_ne ha.features.2, fun v => ⟨fixedValue 6 v, fixedValue_close 6 v, rfl⟩⟩

/-- **C93.** A call of `<name>_predict` is a call of the library function with the written model. It returns the distance that this stores; if the length is wrong it returns zero, the distance of the best inlier. The
decision (0 or 1) is dropped. -/
theorem C93_predict [Zero F] [Add F] [Sub F] [Mul F] [Neg F] [LT F] [DecidableLT F] (ha : EnvelopeArgs pre means precision) : ∃ text prog, generateText other pre means precision offset = some text ∧ parse text = some prog ∧
    ∀ (xs : List F) (len : Int), -2147483648 ≤ len → len ≤ 2147483647 →
      callFunc ops (envelopeLib ops prog) prog fuel (depth + 2) (pre ++ "_predict".toList) [.arr "float".toList (xs.map fun z => some (.flt z)), .num (.int len)] =
        if len = means.length then (mahaC xs (means.map (floatLit ops)) (precision.flatten.map (floatLit ops)) means.length).map fun d => (.flt d, []) else some (.flt (ops.lit false 0), []) := by
  obtain ⟨text, h1, h2⟩ := generate_parse other pre means precision offset ha.valid ha.noNewline ha.size
  refine ⟨text, _, h1, h2, ?_⟩
  intro xs len l1 l2
  have hread := readEnvelope_generated pre means precision.flatten offset ops ha.means_ne ha.precision_ne ha.features.2
  obtain ⟨r, hr⟩ : ∃ r : Option (Int × F), r = (predictN (written offset ops means precision) xs len).map fun p => (p.1, p.2.getD (ops.lit false 0)) := ⟨_, rfl⟩
  have hext : envelopeLib ops (envelopeProg pre means precision.flatten offset) "eml_elliptic_envelope_predict".toList
      [.ref (pre ++ "_classifier".toList), .arr "float".toList (xs.map fun z => some (.flt z)), .num (.int len), .arr "float".toList [some (.flt (ops.lit false 0))]] = r.map fun q => (.int q.1, [(3, [some (.flt q.2)])]) := by
    unfold envelopeLib
    simp only [hread, fltsOf_flts]
    rw [if_pos ⟨trivial, trivial, trivial⟩, hr]
    unfold written
    cases predictN _ xs len with
    | none => rfl
    | some p =>
      obtain ⟨z, d⟩ := p
      cases d <;> rfl
  have hcall := predict_call pre ops _ _ fuel depth (find_predict pre means precision.flatten offset) (find_lib pre means precision.flatten offset ha.notLib) (xs.map fun z => some (.flt z)) len l1 l2 r (by
    intro q hq
    rw [hr] at hq
    obtain ⟨p, hp, rfl⟩ := Option.map_eq_some_iff.1 hq
    unfold predictN at hp
    split at hp
    · cases hm : mahaC xs (written offset ops means precision).means (written offset ops means precision).precision len.toNat with
      | none => rw [hm] at hp; cases hp
      | some d =>
        rw [hm] at hp
        simp only [bind, Option.bind_some, Option.some.injEq] at hp
        rw [← hp]
        simp only
        split <;> constructor <;> decide
    · simp only [Option.some.injEq] at hp
      rw [← hp]
      constructor <;> simp) hext
  rw [hcall, hr]
  unfold predictN written
  simp only
  by_cases hl : len = means.length
  · rw [if_pos hl, if_pos hl, hl, Int.toNat_natCast]
    cases mahaC xs (means.map (floatLit ops)) (precision.flatten.map (floatLit ops)) means.length <;> rfl
  · rw [if_neg hl, if_neg hl]
    rfl
end

section
variable {n : Nat} (m : Fin n → ℚ) (P : Matrix (Fin n) (Fin n) ℚ)

/-- The written matrix and means. -/
noncomputable def roundedP : Matrix (Fin n) (Fin n) ℝ := Matrix.of fun i j => round6 (P i j)
noncomputable def roundedM : Fin n → ℝ := fun i => round6 (m i)

/-- **C93.** The generated text, executed as C with exact arithmetic, returns for every input of `n` values the squared Mahalanobis distance `(x - m)ᵀ P (x - m)` for the rounded means and matrix. -/
theorem C93_end_to_end (ops : CFloat ℝ) (hops : ExactLits ops) (other : ℚ → List Char) (offset : PyFloat) (pre : List Char) (ha : EnvelopeArgs pre (List.ofFn m) (rows P)) (fuel depth : Nat) :
    ∃ text prog, generateText other pre (List.ofFn m) (rows P) offset = some text ∧ parse text = some prog ∧
      ∀ x : Fin n → ℝ, callFunc ops (envelopeLib ops prog) prog fuel (depth + 2) (pre ++ "_predict".toList) [.arr "float".toList (List.ofFn fun i => some (.flt (x i))), .num (.int n)] =
        some (.flt ((x - roundedM m) ⬝ᵥ (roundedP P *ᵥ (x - roundedM m))), []) := by
  obtain ⟨text, prog, h1, h2, h3⟩ := C93_predict offset ops other fuel depth ha
  refine ⟨text, prog, h1, h2, fun x => ?_⟩
  have e : floatLit ops = round6 := funext (floatLit_exact ops hops)
  have hl := ha.features.2
  rw [List.length_ofFn] at hl
  have := h3 (List.ofFn x) n (by omega) (by omega)
  rw [List.map_ofFn, if_pos (by rw [List.length_ofFn]), e, List.map_ofFn] at this
  have hP : (rows P).flatten.map round6 = (rows (roundedP P)).flatten := by
    unfold rows roundedP
    rw [List.map_flatten, List.map_ofFn]
    simp only [Function.comp_def, List.map_ofFn]
    rfl
  rw [hP, List.length_ofFn] at this
  have hq := C43_c_quadratic_form n x (roundedM m) (roundedP P)
  have hm : (List.ofFn (round6 ∘ m)) = List.ofFn (roundedM m) := rfl
  rw [hm, hq] at this
  exact this

/-- **C93** (negation) six decimals are not enough for features on a large scale: if every entry of the precision matrix is below half of 10⁻⁶ (standard deviations above 1415), the generated function returns the
distance 0 for every input. -/
theorem C93_small_precision_refuted (hP : ∀ i j, |P i j| < 1 / (2 * 10 ^ 6)) (ops : CFloat ℝ) (hops : ExactLits ops) (other : ℚ → List Char) (offset : PyFloat) (pre : List Char)
    (ha : EnvelopeArgs pre (List.ofFn m) (rows P)) (fuel depth : Nat) :
    ∃ text prog, generateText other pre (List.ofFn m) (rows P) offset = some text ∧ parse text = some prog ∧
      ∀ x : Fin n → ℝ, callFunc ops (envelopeLib ops prog) prog fuel (depth + 2) (pre ++ "_predict".toList) [.arr "float".toList (List.ofFn fun i => some (.flt (x i))), .num (.int n)] = some (.flt 0, []) := by
  obtain ⟨text, prog, h1, h2, h3⟩ := C93_end_to_end m P ops hops other offset pre ha fuel depth
  refine ⟨text, prog, h1, h2, fun x => ?_⟩
  have : roundedP P = 0 := by ext i j; exact round6_small _ (hP i j)
  rw [h3 x, this]
  simp

/-- A matrix for which this happens: one feature with variance 2500² (standard deviation 2500). The distance of a point 25000 away from the mean is 100. -/
example : (∀ i j : Fin 1, |(!![1 / 6250000] : Matrix (Fin 1) (Fin 1) ℚ) i j| < 1 / (2 * 10 ^ 6)) ∧ EnvelopeArgs "env".toList (List.ofFn ![(3 : ℚ)]) (rows (!![1 / 6250000] : Matrix (Fin 1) (Fin 1) ℚ)) ∧
    (![25000] : Fin 1 → ℚ) ⬝ᵥ ((!![1 / 6250000] : Matrix (Fin 1) (Fin 1) ℚ) *ᵥ ![25000]) = 100 := by
  refine ⟨?_, ⟨by decide +kernel, by decide +kernel, by decide +kernel, by simp, ⟨by simp [rows], by intro r hr; obtain ⟨k, rfl⟩ := List.mem_ofFn.1 hr; simp⟩⟩, ?_⟩
  · intro i j
    fin_cases i; fin_cases j
    norm_num [abs_of_pos]
  · simp [dotProduct, mulVec]
    norm_num
end

/-! ### A concrete envelope -/

/-- Exact arithmetic for the C program. -/
def exC : CFloat ℚ := { exactOps ℚ with lit := fun neg q => if neg then -q else q, toInt := fun _ => none }

theorem ex_args : EnvelopeArgs "env".toList [1, -1/2] [[2, 5/4], [0, 1]] :=
  ⟨by decide +kernel, by decide +kernel, by decide +kernel, by decide, ⟨by decide, by decide⟩⟩

/-- The generated text of this envelope, parsed and executed. -/
def exRun (name : String) (offset : PyFloat) (args : List (ArgVal ℚ)) : Option (Option (CallResult ℚ)) :=
  (generateText (fun _ => []) name.toList [1, -1/2] [[2, 5/4], [0, 1]] offset).map fun text => (parse text).bind fun prog =>
    callFunc exC (envelopeLib exC prog) prog 0 9 (name.toList ++ "_predict".toList) args

set_option synthInstance.maxSize 1024 in
example : exRun "env" ⟨true, 15, -6⟩ [.arr "float".toList [some (.flt 3), some (.flt 1)], .num (.int 2)] = some (some (.flt 14, [])) ∧
    exRun "env" ⟨true, 15, -6⟩ [.arr "float".toList [some (.flt 3), some (.flt 1)], .num (.int 1)] = some (some (.flt 0, [])) ∧
    exRun "env" ⟨true, 15, -6⟩ [.arr "float".toList [some (.flt 3)], .num (.int 2)] = some none := by
  decide +kernel

/-- The offset in the structure, for an offset that is printed with an exponent (`-1.5e-05f`). -/
example : ((generateText (fun _ => []) "env".toList [1, -1/2] [[2, 5/4], [0, 1]] ⟨true, 15, -6⟩).bind fun text => (parse text).bind fun prog => (readEnvelope exC prog "env_classifier".toList).map fun e => e.boundary) =
    some (-15 / 1000000) := by decide +kernel

set_option synthInstance.maxSize 1024 in
/-- **C93** (negation) of the valid names, the name of the library does not work: the generated function has the name of the library function and calls itself. -/
theorem C93_names_refuted : assertValidIdentifier "eml_elliptic_envelope".toList = true ∧
    (exRun "eml_elliptic_envelope" ⟨true, 8, 0⟩ [.arr "float".toList [some (.flt 3), some (.flt 1)], .num (.int 2)]) = some none ∧
    (exRun "env" ⟨true, 8, 0⟩ [.arr "float".toList [some (.flt 3), some (.flt 1)], .num (.int 2)]) = some (some (.flt 14, [])) := by
  decide +kernel

end Emlearn.Distance.CText
