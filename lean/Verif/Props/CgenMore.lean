/- C54 (constants, declarators), C85 (fixed-point arrays): more of `emlearn/cgen.py`. -/
import Verif.Props.Cgen
import Verif.Props.Quant
namespace Emlearn.Cgen

/-! ### C54: what is declared -/

/-- The literal of a constant declaration: the text between `=` and `;`, blanks ignored. -/
def constantLiteral (s : List Char) : List Char := (between '=' ';' s).filter (· ≠ ' ')

theorem read_constant (pre lit post : List Char) (h1 : '=' ∉ pre) (h2 : ';' ∉ lit) (h3 : ' ' ∉ lit) :
    constantLiteral (pre ++ " = ".toList ++ lit ++ ';' :: post) = lit := by
  have e : pre ++ " = ".toList ++ lit ++ ';' :: post = (pre ++ [' ']) ++ '=' :: ((' ' :: lit) ++ ';' :: post) := by simp
  unfold constantLiteral
  rw [e, between_eq _ _ _ _ _ (by simp [h1]) (by simp [h2])]
  simp only [List.filter_cons]
  simp
  intro a ha hc
  exact h3 (hc ▸ ha)

theorem showInt_no {c : Char} (i : Int) (h1 : c.isDigit = false) (h2 : c ≠ '-') : c ∉ showInt i := showInt_not_sep h1 h2

theorem showFixed_no {c : Char} (d : Nat) (q : ℚ) (h1 : c.isDigit = false) (h2 : c ≠ '-') (h3 : c ≠ '.') : c ∉ showFixed d q := by
  intro h
  rcases showFixed_chars h with h | h | h
  · rw [h1] at h; cases h
  · exact h2 h
  · exact h3 h

/-- **C54 (constants).** For every name, type and number, a constant declaration starts `static const <type> <name> =`; an integer type gets the value truncated toward zero,
`float` gets a literal ending in `f` within `5e-7` of the value. -/
theorem C54_constant (other : ℚ → List Char) (name dtype : List Char) (v : ℚ) (hn : '=' ∉ name) (hd : '=' ∉ dtype) :
    ("static const ".toList ++ dtype ++ [' '] ++ name ++ " = ".toList) <+: constantDeclare other name v dtype ∧
    (dtype ≠ "float".toList → "int".toList <:+: dtype → readInt (constantLiteral (constantDeclare other name v dtype)) = some (trunc v)) ∧
    (dtype = "float".toList → ∃ (lit : List Char) (q : ℚ), constantLiteral (constantDeclare other name v dtype) = lit ++ ['f'] ∧ readFixed lit = some q ∧ |q - v| ≤ 1 / (2 * 10 ^ 6)) := by
  have hpre : '=' ∉ "static const ".toList ++ dtype ++ [' '] ++ name := by simp [hn, hd]
  have hdecl : constantDeclare other name v dtype = ("static const ".toList ++ dtype ++ [' '] ++ name) ++ " = ".toList ++ constant other v dtype ++ ';' :: [' '] := by
    unfold constantDeclare; rw [List.append_assoc _ (constant other v dtype)]; simp
  rw [hdecl]
  generalize "static const ".toList ++ dtype ++ [' '] ++ name = pre at *
  refine ⟨?_, ?_, ?_⟩
  · rw [List.append_assoc (pre ++ _)]; exact List.prefix_append _ _
  · intro hf hi
    replace hi := (hasInt_iff _).2 hi
    rw [read_constant _ _ _ hpre, constant, if_neg hf, if_pos hi]
    · exact readInt_showInt _
    · rw [constant, if_neg hf, if_pos hi]; exact showInt_no _ (by decide) (by decide)
    · rw [constant, if_neg hf, if_pos hi]; exact showInt_no _ (by decide) (by decide)
  · intro hf
    refine ⟨showFixed 6 v, fixedValue 6 v, ?_, readFixed_showFixed 6 (by norm_num) v, fixedValue_close 6 v⟩
    rw [read_constant _ _ _ hpre, constant, if_pos hf]
    · rw [constant, if_pos hf]; simp [showFixed_no 6 v (c := ';') (by decide) (by decide) (by decide)]
    · rw [constant, if_pos hf]; simp [showFixed_no 6 v (c := ' ') (by decide) (by decide) (by decide)]

/-- **C54 (declarator).** Every array declaration reads `<indent><modifiers> <type> <name>[<size>]`, with the values' count as size when none is given, then nothing (no values) or the initializer, then `;<end>`. -/
theorem C54_declarator (other : ℚ → List Char) (name dtype modifiers end_ indent : List Char) (size : Option Int) (values : Option (List ℚ)) (text : List Char)
    (h : arrayDeclare other name size dtype modifiers values end_ indent = some text) :
    ∃ body sz, text = indent ++ modifiers ++ [' '] ++ dtype ++ [' '] ++ name ++ ['['] ++ sz ++ [']'] ++ body ++ [';'] ++ end_ ∧
      (values = none → body = []) ∧ (∀ k, size = some k → sz = showInt k) ∧ (∀ vs, values = some vs → sz = showInt vs.length ∧ body ≠ []) := by
  cases values with
  | none =>
    simp only [arrayDeclare, Option.some.injEq] at h
    refine ⟨[], showSize size, h.symm, fun _ => rfl, ?_, by simp⟩
    rintro k rfl; rfl
  | some vs =>
    simp only [arrayDeclare] at h
    split at h
    · rename_i hs
      simp only [Option.some.injEq] at h
      refine ⟨_, _, h.symm, by simp, ?_, ?_⟩
      · rintro k rfl; rfl
      · rintro vs' hv
        cases hv
        refine ⟨by rw [hs]; rfl, by simp⟩
    · cases h

theorem alpha_not {c d : Char} (hc : c.isAlpha = true) (hd : d.isAlpha = false) : c ≠ d := by
  rintro rfl; rw [hc] at hd; cases hd

/-- **C54 (text).** Text that starts with a letter is refused as a constant of an integer type or `float`. -/
theorem C54_constant_text_refused (other : ℚ → List Char) (name dtype : List Char) (c : Char) (s : List Char) (hint : dtype = "float".toList ∨ "int".toList <:+: dtype)
    (hc : c.isAlpha = true) : constantDeclarePy other name (.str (c :: s)) dtype = none := by
  have hb : isBlank c = false := by
    simp only [isBlank, Bool.or_eq_false_iff, beq_eq_false_iff_ne]
    refine ⟨⟨⟨⟨⟨?_, ?_⟩, ?_⟩, ?_⟩, ?_⟩, ?_⟩ <;> exact alpha_not hc (by decide)
  have hd : c.isDigit = false := by
    simp only [Char.isAlpha, Char.isUpper, Char.isLower, Char.isDigit, Bool.or_eq_true, decide_eq_true_eq, Bool.and_eq_true, Bool.and_eq_false_iff, decide_eq_false_iff_not, ge_iff_le] at *
    right
    rcases hc with hc | hc
    · intro h; have h1 := UInt32.le_trans hc.1 h; exact absurd h1 (by decide)
    · intro h; have h1 := UInt32.le_trans hc.1 h; exact absurd h1 (by decide)
  have hstrip : ∃ t, (((c :: s).dropWhile isBlank).reverse.dropWhile isBlank).reverse = c :: t := by
    rw [List.dropWhile_cons, hb]
    simp only [Bool.false_eq_true, if_false, List.reverse_cons]
    rw [List.dropWhile_append]
    split
    · refine ⟨[], ?_⟩
      simp [hb]
    · exact ⟨(s.reverse.dropWhile isBlank).reverse, by simp⟩
  obtain ⟨t, ht⟩ := hstrip
  have hg : readDigitGroups (c :: t) = none := by
    unfold readDigitGroups
    rw [if_neg]
    intro h
    have hu : (c == '_') = false := by
      rw [beq_eq_false_iff_ne]
      exact alpha_not hc (by decide)
    rw [List.splitOn, List.splitOnP_cons_eq_if_modifyHead, hu] at h
    cases hsp : List.splitOnP (fun x => x == '_') t with
    | nil => exact absurd hsp (List.splitOnP_ne_nil _ _)
    | cons a l =>
      rw [hsp] at h
      simp [hd] at h
  unfold constantDeclarePy constantPy
  rcases hint with hf | hi
  · simp [hf]
  · replace hi := (hasInt_iff _).2 hi
    by_cases hf : dtype = "float".toList
    · simp [hf]
    · simp only [if_neg hf, hi, if_true]
      unfold pyIntOfText
      rw [ht]
      split
      · rename_i h; injection h with h _; exact absurd h (alpha_not hc (by decide))
      · rename_i h; injection h with h _; exact absurd h (alpha_not hc (by decide))
      · rw [hg]; rfl

/-- Blanks at both ends. -/
theorem strip_blanks (a b s : List Char) (ha : ∀ c ∈ a, isBlank c = true) (hb : ∀ c ∈ b, isBlank c = true) (hs : ∀ c ∈ s, isBlank c = false) (hne : s ≠ []) :
    (((a ++ s ++ b).dropWhile isBlank).reverse.dropWhile isBlank).reverse = s := by
  have drop : ∀ (a t : List Char), (∀ c ∈ a, isBlank c = true) → (a ++ t).dropWhile isBlank = t.dropWhile isBlank := by
    intro a t ha
    induction a with
    | nil => rfl
    | cons c a ih => rw [List.cons_append, List.dropWhile_cons, ha c (by simp), if_pos rfl]; exact ih fun d hd => ha d (by simp [hd])
  have stop : ∀ (s t : List Char), (∀ c ∈ s, isBlank c = false) → s ≠ [] → (s ++ t).dropWhile isBlank = s ++ t := by
    intro s t hs hne
    cases s with
    | nil => exact absurd rfl hne
    | cons c s => rw [List.cons_append, List.dropWhile_cons, hs c (by simp)]; rfl
  rw [List.append_assoc, drop a _ ha, stop s b hs hne, List.reverse_append, drop _ _ (by simpa using hb)]
  have := stop s.reverse [] (by simpa using hs) (by simpa using hne)
  rw [List.append_nil] at this
  rw [this, List.reverse_reverse]

theorem digits_blank {c : Char} (h : c.isDigit = true) : isBlank c = false := by
  simp only [isBlank, Bool.or_eq_false_iff, beq_eq_false_iff_ne]
  refine ⟨⟨⟨⟨⟨?_, ?_⟩, ?_⟩, ?_⟩, ?_⟩, ?_⟩ <;> (rintro rfl; revert h; decide)

theorem readDigitGroups_showNat (n : Nat) : readDigitGroups (showNat n) = some n := by
  have hu : '_' ∉ showNat n := fun h => absurd (showNat_digits h) (by decide)
  have hsplit : (showNat n).splitOn '_' = [showNat n] := by
    have := List.splitOn_intercalate (ls := [showNat n]) '_' (by simpa using hu) (by simp)
    simpa [List.intercalate] using this
  unfold readDigitGroups
  rw [hsplit, if_pos]
  · rw [List.filter_eq_self.2 (fun c hc => by simp; rintro rfl; exact hu hc)]
    have := readNat_showNat n
    unfold readNat at this
    split at this
    · exact this
    · cases this
  · simp only [List.all_cons, List.all_nil, Bool.and_true, decide_eq_true_eq]
    exact ⟨showNat_ne_nil n, List.all_eq_true.2 fun c hc => showNat_digits hc⟩

/-- **C54 (numbers given as text).** A decimal number given as text, with its sign and with any blanks around it, is the same constant of an integer type as the number itself. -/
theorem C54_constant_text_number (other : ℚ → List Char) (name dtype : List Char) (i : Int) (a b : List Char) (hf : dtype ≠ "float".toList) (hint : "int".toList <:+: dtype)
    (ha : ∀ c ∈ a, isBlank c = true) (hb : ∀ c ∈ b, isBlank c = true) :
    constantDeclarePy other name (.str (a ++ showInt i ++ b)) dtype = some (constantDeclare other name (i : ℚ) dtype) := by
  have hi := (hasInt_iff _).2 hint
  have hne : showInt i ≠ [] := (showInt_plain i).1
  have hstrip := strip_blanks a b (showInt i) ha hb (fun c hc => by
    rcases showInt_chars hc with h | h
    · exact digits_blank h
    · subst h; decide) hne
  have hp : pyIntOfText (a ++ showInt i ++ b) = some i := by
    unfold pyIntOfText
    rw [hstrip]
    unfold showInt
    by_cases hneg : i < 0
    · rw [if_pos hneg]
      show (readDigitGroups (showNat (-i).toNat)).map _ = _
      rw [readDigitGroups_showNat]
      simp; omega
    · rw [if_neg hneg]
      have hd : ∀ c ∈ showNat i.toNat, c.isDigit = true := fun c hc => showNat_digits hc
      have hr := readDigitGroups_showNat i.toNat
      generalize showNat i.toNat = s at hd hr
      split
      · exact absurd (hd '-' (by simp)) (by decide)
      · exact absurd (hd '+' (by simp)) (by decide)
      · rw [hr]; simp; omega
  unfold constantDeclarePy constantPy constantDeclare constant
  simp only [if_neg hf, hi, if_true, hp, Option.map_some]
  rw [trunc_intCast]

example : constantDeclarePy (fun _ => []) "n".toList (.num 3) "int".toList = some "static const int n = 3; ".toList ∧
    constantDeclarePy (fun _ => []) "n".toList (.str " 1_2 ".toList) "int".toList = some "static const int n = 12; ".toList ∧
    constantDeclarePy (fun _ => []) "n".toList (.str "EmlNetActivationRelu".toList) "int".toList = none := by decide +kernel

/-! ### C85: fixed-point arrays -/

/-- **C85.** For every 32-bit format, every list of values and every name: the declaration has the C type of the format, one integer per value, and every integer `k` represents a number `k / 2^fraction_bits`
less than one unit away from the value and not larger in magnitude; values below `2^integer_bits` in magnitude fit `int32_t` when the format has a sign bit. `str` of an integer is its decimal text. -/
theorem C85_fixedpoint_array (other : ℚ → List Char) (hother : ∀ k : Int, other k = showInt k) (name modifiers : List Char) (f : FixFmt) (size : Option Int) (vs : List ℚ)
    (hn : NoBrackets name) (hm : NoBrackets modifiers) (hf : f.integerBits + f.fractionBits + f.signBits = 32) (hs : size = none ∨ size = some (vs.length : Int)) :
    ∃ text ct, arrayDeclareFixedpoint other name (some f) (some vs) size modifiers = some text ∧
      (ct = "eml_q16_t".toList ∧ f.integerBits = 15 ∧ f.fractionBits = 16 ∨ ct = "eml_fixed32_t".toList ∧ ¬ (f.integerBits = 15 ∧ f.fractionBits = 16)) ∧
      (modifiers ++ [' '] ++ ct ++ [' '] ++ name ++ ['[']) <+: text ∧
      readInt (declaredSize text) = some (vs.length : Int) ∧ (initializers text).length = vs.length ∧
      ∀ (i : Nat) (v : ℚ), vs[i]? = some v → ∃ (k : Int), ((initializers text)[i]?).bind readInt = some k ∧
        |(k : ℚ) / 2 ^ f.fractionBits - v| < 1 / 2 ^ f.fractionBits ∧ |(k : ℚ) / 2 ^ f.fractionBits| ≤ |v| ∧
        (f.signBits = 1 → |v| < 2 ^ f.integerBits → -2147483648 ≤ k ∧ k ≤ 2147483647) := by
  obtain ⟨ct, hct, hname, hfl, hint, hbr⟩ : ∃ ct, f.ctype = some ct ∧
      (ct = "eml_q16_t".toList ∧ f.integerBits = 15 ∧ f.fractionBits = 16 ∨ ct = "eml_fixed32_t".toList ∧ ¬ (f.integerBits = 15 ∧ f.fractionBits = 16)) ∧
      ct ≠ "float".toList ∧ hasInt ct = false ∧ NoBrackets ct := by
    unfold FixFmt.ctype
    rw [if_pos (show f.total = 32 from hf)]
    refine ⟨_, rfl, ?_⟩
    split
    · rename_i h
      exact ⟨Or.inl ⟨rfl, h.1, h.2.1⟩, by decide, by decide, by decide, by decide⟩
    · rename_i h
      refine ⟨Or.inr ⟨rfl, ?_⟩, by decide, by decide, by decide, by decide⟩
      rintro ⟨h1, h2⟩; exact h ⟨h1, h2, by omega⟩
  have hsz : size.getD (vs.length : Int) = vs.length := by rcases hs with rfl | rfl <;> rfl
  have hlit : ∀ k : Int, constant other k ct = showInt k := fun k => by rw [constant, if_neg hfl, hint]; exact hother k
  have hread := read_array (modifiers ++ [' '] ++ ct ++ [' '] ++ name) (showInt (vs.length : Int)) [';'] (vs.map fun v => showInt (Quant.fromFloat f.fractionBits v))
    (by simp [hn.1, hbr.1, hm.1]) (by simp [hn.2, hbr.2, hm.2]) (showInt_not_sep (by decide) (by decide)) (showInt_not_sep (by decide) (by decide))
    (by simp only [List.mem_map]; rintro l ⟨v, _, rfl⟩; exact showInt_plain _)
  refine ⟨modifiers ++ [' '] ++ ct ++ [' '] ++ name ++ ['['] ++ showInt (vs.length : Int) ++ [']'] ++
      (" = { ".toList ++ [',', ' '].intercalate (vs.map fun v => showInt (Quant.fromFloat f.fractionBits v)) ++ " }".toList) ++ [';'], ct, ?_, hname, ?_, ?_⟩
  · simp only [arrayDeclareFixedpoint, hct, Option.bind_some, arrayDeclare, List.length_map, hsz, if_true, showSize, List.map_map, Function.comp_def, hlit]
    simp only [List.append_assoc, List.nil_append, List.append_nil]
  · simp only [List.append_assoc]
    simp
  · obtain ⟨h1, h2⟩ := hread
    rw [h1, h2]
    refine ⟨readInt_showInt _, by simp, fun i v hv => ⟨Quant.fromFloat f.fractionBits v, by simp [hv, readInt_showInt], ?_⟩⟩
    obtain ⟨c1, c2, -⟩ := Quant.C31_fixed_point_conversion f.fractionBits v 0
    refine ⟨c1, c2, ?_⟩
    intro hsb hv'
    have hp : (0 : ℚ) < 2 ^ f.fractionBits := by positivity
    have h3 : |((Quant.fromFloat f.fractionBits v : Int) : ℚ)| < 2 ^ 31 := by
      unfold Quant.toFloat at c2
      rw [abs_div, abs_of_pos hp, div_le_iff₀ hp] at c2
      calc _ ≤ |v| * 2 ^ f.fractionBits := c2
        _ < 2 ^ f.integerBits * 2 ^ f.fractionBits := by gcongr
        _ = 2 ^ 31 := by rw [← pow_add]; congr 1; omega
    have h4 : |Quant.fromFloat f.fractionBits v| < 2 ^ 31 := by exact_mod_cast h3
    rw [abs_lt] at h4
    omega

/-- **C85 (refusal).** A format that is not 32 bits wide is refused; without a format the array is a `float` array. -/
theorem C85_width_refused (other : ℚ → List Char) (name modifiers : List Char) (f : FixFmt) (size : Option Int) (values : Option (List ℚ))
    (hf : f.integerBits + f.fractionBits + f.signBits ≠ 32) :
    arrayDeclareFixedpoint other name (some f) values size modifiers = none ∧
    arrayDeclareFixedpoint other name none values size modifiers = arrayDeclare other name size "float".toList modifiers values [] [] := by
  refine ⟨?_, rfl⟩
  simp [arrayDeclareFixedpoint, FixFmt.ctype, FixFmt.total, hf]

example : (arrayDeclareFixedpoint (fun q => showInt q.num) "w".toList (some ⟨8, 23, 1⟩) (some [1/2, -3]) none "static const".toList).map String.ofList =
    some "static const eml_fixed32_t w[2] = { 4194304, -25165824 };" := by decide +kernel

end Emlearn.Cgen
