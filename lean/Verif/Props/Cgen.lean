/- C53, C54, C75: C code generation (`emlearn/cgen.py`). -/
import Verif.Cgen.Model
namespace Emlearn.Cgen

/-! ### Reading a declaration back, as a C compiler does -/

/-- Text between the first `open` and the next `close`. -/
def between (op cl : Char) (s : List Char) : List Char := ((s.dropWhile (· ≠ op)).drop 1).takeWhile (· ≠ cl)

/-- The declared number of elements. -/
def declaredSize (s : List Char) : List Char := between '[' ']' s

/-- The initializers, separated by commas, blanks ignored. -/
def initializers (s : List Char) : List (List Char) :=
  let inner := (between '{' '}' s).filter (· ≠ ' ')
  if inner = [] then [] else inner.splitOn ','

theorem between_eq (op cl : Char) (a b c : List Char) (ha : op ∉ a) (hb : cl ∉ b) : between op cl (a ++ op :: (b ++ cl :: c)) = b := by
  unfold between
  have h1 : ∀ x ∈ a, (decide (x ≠ op)) = true := fun x hx => by simp; rintro rfl; exact ha hx
  have h2 : ∀ x ∈ b, (decide (x ≠ cl)) = true := fun x hx => by simp; rintro rfl; exact hb hx
  rw [List.dropWhile_append_of_pos h1]
  simp only [ne_eq, List.dropWhile_cons, not_true_eq_false, decide_false, Bool.false_eq_true, if_false, List.drop_succ_cons, List.drop_zero]
  rw [List.takeWhile_append_of_pos h2]
  simp

/-- A literal: no blanks, commas or braces, and not empty. -/
def Plain (s : List Char) : Prop := s ≠ [] ∧ ∀ c ∈ s, c ≠ ' ' ∧ c ≠ ',' ∧ c ≠ '}'

theorem filter_join (ls : List (List Char)) (h : ∀ l ∈ ls, Plain l) :
    ([',', ' '].intercalate ls).filter (· ≠ ' ') = [','].intercalate ls := by
  induction ls with
  | nil => simp [List.intercalate]
  | cons l ls ih =>
    have hl : l.filter (fun x => decide (x ≠ ' ')) = l := List.filter_eq_self.mpr (fun c hc => by simpa using ((h l (by simp)).2 c hc).1)
    cases ls with
    | nil => simpa [List.intercalate] using hl
    | cons m ms =>
      have := ih (fun l hl => h l (by simp [hl]))
      have e : ∀ s : List Char, s.intercalate (l :: m :: ms) = l ++ (s ++ s.intercalate (m :: ms)) := by intro s; simp [List.intercalate]
      rw [e, e, List.filter_append, List.filter_append, hl, this]
      simp

theorem mem_join {sep : List Char} {ls : List (List Char)} {c : Char} (h : c ∈ sep.intercalate ls) : c ∈ sep ∨ ∃ l ∈ ls, c ∈ l := by
  induction ls with
  | nil => simp [List.intercalate] at h
  | cons l ls ih =>
    cases ls with
    | nil => simp [List.intercalate] at h; exact Or.inr ⟨l, by simp, h⟩
    | cons m ms =>
      have e : sep.intercalate (l :: m :: ms) = l ++ (sep ++ sep.intercalate (m :: ms)) := by simp [List.intercalate]
      rw [e] at h
      rcases List.mem_append.mp h with h | h
      · exact Or.inr ⟨l, by simp, h⟩
      · rcases List.mem_append.mp h with h | h
        · exact Or.inl h
        · rcases ih h with h | ⟨x, hx, h⟩
          · exact Or.inl h
          · exact Or.inr ⟨x, by simp [hx], h⟩

/-- Reading an array declaration whose literals are plain. -/
theorem read_array (pre size rest : List Char) (ls : List (List Char)) (h1 : '[' ∉ pre) (h2 : '{' ∉ pre) (h3 : ']' ∉ size) (h3' : '{' ∉ size)
    (hl : ∀ l ∈ ls, Plain l) :
    let s := pre ++ ['['] ++ size ++ [']'] ++ (" = { ".toList ++ [',', ' '].intercalate ls ++ " }".toList) ++ rest
    declaredSize s = size ∧ initializers s = ls := by
  intro s
  constructor
  · have : s = pre ++ '[' :: (size ++ ']' :: ((" = { ".toList ++ [',', ' '].intercalate ls ++ " }".toList) ++ rest)) := by simp [s]
    rw [this]; exact between_eq _ _ _ _ _ h1 h3
  · have e : s = (pre ++ '[' :: size ++ "] = ".toList) ++ '{' :: ((' ' :: [',', ' '].intercalate ls ++ [' ']) ++ '}' :: rest) := by
      simp [s]
    have hp : '{' ∉ pre ++ '[' :: size ++ "] = ".toList := by
      simp [h2, h3']
    have hb : '}' ∉ ' ' :: [',', ' '].intercalate ls ++ [' '] := by
      intro hc
      simp only [List.mem_append, List.mem_cons] at hc
      rcases hc with (hc | hc) | hc
      · exact absurd hc (by decide)
      · rcases mem_join hc with hc | ⟨l, hl', hc⟩
        · simp at hc
        · exact ((hl l hl').2 _ hc).2.2 rfl
      · simp at hc
    unfold initializers
    rw [e, between_eq _ _ _ _ _ hp hb]
    have hf : (' ' :: [',', ' '].intercalate ls ++ [' ']).filter (fun x => decide (x ≠ ' ')) = [','].intercalate ls := by
      rw [← filter_join ls hl]
      simp [List.filter_append, List.filter_cons]
    simp only [hf]
    cases ls with
    | nil => simp [List.intercalate]
    | cons l ls =>
      have hne : [','].intercalate (l :: ls) ≠ [] := by
        intro hc
        have := (hl l (by simp)).1
        cases ls with
        | nil => simp [List.intercalate] at hc; exact this hc
        | cons m ms => simp [List.intercalate] at hc
      rw [if_neg hne]
      exact List.splitOn_intercalate _ (fun l hl' hc => ((hl l hl').2 _ hc).2.1 rfl) (by simp)

theorem showInt_plain (i : Int) : Plain (showInt i) := by
  refine ⟨?_, fun c hc => ?_⟩
  · unfold showInt; split
    · simp
    · exact showNat_ne_nil _
  · rcases showInt_chars hc with h | h
    · refine ⟨?_, ?_, ?_⟩ <;> rintro rfl <;> simp [Char.isDigit] at h
    · subst h; decide

theorem showFixed_plain (d : Nat) (x : ℚ) : Plain (showFixed d x ++ ['f']) := by
  refine ⟨by simp, fun c hc => ?_⟩
  rcases List.mem_append.mp hc with hc | hc
  · rcases showFixed_chars hc with h | h | h
    · refine ⟨?_, ?_, ?_⟩ <;> rintro rfl <;> simp [Char.isDigit] at h
    · subst h; decide
    · subst h; decide
  · simp at hc; subst hc; decide

/-- Identifiers, types and modifiers: no brackets or braces. -/
def NoBrackets (s : List Char) : Prop := '[' ∉ s ∧ '{' ∉ s

/-- The test for integer types: `int` occurs in the type's name. -/
theorem hasInt_iff (s : List Char) : hasInt s = true ↔ "int".toList <:+: s := by
  induction s with
  | nil => simp [hasInt]
  | cons c r ih =>
    rw [hasInt, Bool.or_eq_true, ih, List.infix_cons_iff]
    refine or_congr ?_ Iff.rfl
    constructor
    · intro h
      split at h
      · rename_i r' e; exact ⟨r', e.symm⟩
      · cases h
    · rintro ⟨t, ht⟩
      have : c :: r = 'i' :: 'n' :: 't' :: t := ht.symm
      rw [this]
      rfl

/-- **C54 (integer types).** For every integer type, values and names, when the size is omitted or right, the declaration has exactly the declared number of initializers, and reading the literals back gives each value truncated toward zero. -/
theorem C54_integer_array (other : ℚ → List Char) (name dtype modifiers end_ indent : List Char) (size : Option Int) (vs : List ℚ)
    (hn : NoBrackets name) (hd : NoBrackets dtype) (hm : NoBrackets modifiers) (hi : NoBrackets indent) (hf : dtype ≠ "float".toList) (hint : "int".toList <:+: dtype)
    (hs : size = none ∨ size = some (vs.length : Int)) :
    ∃ text, arrayDeclare other name size dtype modifiers (some vs) end_ indent = some text ∧
      readInt (declaredSize text) = some (vs.length : Int) ∧ (initializers text).length = vs.length ∧
      (initializers text).map readInt = vs.map (fun v => some (trunc v)) := by
  have hsz : size.getD (vs.length : Int) = vs.length := by rcases hs with rfl | rfl <;> rfl
  have hlit : ∀ v, constant other v dtype = showInt (trunc v) := fun v => by rw [constant, if_neg hf, if_pos ((hasInt_iff _).2 hint)]
  have hread := read_array (indent ++ modifiers ++ [' '] ++ dtype ++ [' '] ++ name) (showInt (vs.length : Int)) ([';'] ++ end_) (vs.map fun v => showInt (trunc v))
    (by simp [hn.1, hd.1, hm.1, hi.1]) (by simp [hn.2, hd.2, hm.2, hi.2]) (showInt_not_sep (by decide) (by decide)) (showInt_not_sep (by decide) (by decide))
    (by simp only [List.mem_map]; rintro l ⟨v, _, rfl⟩; exact showInt_plain _)
  refine ⟨indent ++ modifiers ++ [' '] ++ dtype ++ [' '] ++ name ++ ['['] ++ showInt (vs.length : Int) ++ [']'] ++
      (" = { ".toList ++ [',', ' '].intercalate (vs.map fun v => showInt (trunc v)) ++ " }".toList) ++ ([';'] ++ end_), ?_, ?_⟩
  · simp only [arrayDeclare, hsz, if_true, hlit, showSize]
    simp only [List.append_assoc]
  · obtain ⟨h1, h2⟩ := hread
    rw [h1, h2]
    refine ⟨readInt_showInt _, by simp, ?_⟩
    rw [List.map_map]
    apply List.map_congr_left
    intro v _
    exact readInt_showInt _

/-- **C54 (float).** For `float` arrays the number of initializers is the declared size too; each literal ends in `f` and reads as a number within `5e-7` of the value
(exactly the value when it has at most 6 decimals). -/
theorem C54_float_array (other : ℚ → List Char) (name modifiers end_ indent : List Char) (size : Option Int) (vs : List ℚ)
    (hn : NoBrackets name) (hm : NoBrackets modifiers) (hi : NoBrackets indent) (hs : size = none ∨ size = some (vs.length : Int)) :
    ∃ text, arrayDeclare other name size "float".toList modifiers (some vs) end_ indent = some text ∧
      readInt (declaredSize text) = some (vs.length : Int) ∧ (initializers text).length = vs.length ∧
      ∀ (i : Nat) (v : ℚ), vs[i]? = some v → ∃ (lit : List Char) (q : ℚ), (initializers text)[i]? = some (lit ++ ['f']) ∧ readFixed lit = some q ∧ |q - v| ≤ 1 / (2 * 10 ^ 6) ∧
        (∀ k : Int, v = k / 10 ^ 6 → q = v) := by
  have hsz : size.getD (vs.length : Int) = vs.length := by rcases hs with rfl | rfl <;> rfl
  have hlit : ∀ v, constant other v "float".toList = showFixed 6 v ++ ['f'] := fun v => by rw [constant, if_pos rfl]
  have hread := read_array (indent ++ modifiers ++ [' '] ++ "float".toList ++ [' '] ++ name) (showInt (vs.length : Int)) ([';'] ++ end_) (vs.map fun v => showFixed 6 v ++ ['f'])
    (by simp [hn.1, hm.1, hi.1]) (by simp [hn.2, hm.2, hi.2]) (showInt_not_sep (by decide) (by decide)) (showInt_not_sep (by decide) (by decide))
    (by simp only [List.mem_map]; rintro l ⟨v, _, rfl⟩; exact showFixed_plain _ _)
  refine ⟨indent ++ modifiers ++ [' '] ++ "float".toList ++ [' '] ++ name ++ ['['] ++ showInt (vs.length : Int) ++ [']'] ++
      (" = { ".toList ++ [',', ' '].intercalate (vs.map fun v => showFixed 6 v ++ ['f']) ++ " }".toList) ++ ([';'] ++ end_), ?_, ?_⟩
  · simp only [arrayDeclare, hsz, if_true, hlit, showSize]
    simp only [List.append_assoc]
  · obtain ⟨h1, h2⟩ := hread
    rw [h1, h2]
    refine ⟨readInt_showInt _, by simp, fun i v hv => ⟨showFixed 6 v, fixedValue 6 v, by simp [hv], readFixed_showFixed 6 (by norm_num) v, fixedValue_close 6 v, ?_⟩⟩
    rintro k rfl
    exact fixedValue_exact 6 k

/-- **C54 (refusal).** A size that differs from the number of values is refused, for every type. -/
theorem C54_wrong_size_refused (other : ℚ → List Char) (name dtype modifiers end_ indent : List Char) (k : Int) (vs : List ℚ) (h : k ≠ vs.length) :
    arrayDeclare other name (some k) dtype modifiers (some vs) end_ indent = none := by
  simp [arrayDeclare, h]

example : (arrayDeclare (fun _ => []) "arr".toList none "int".toList "static const".toList (some [1, -5/2, 3]) [] []).map String.ofList
    = some "static const int arr[3] = { 1, -2, 3 };" := by decide +kernel
example : (arrayDeclare (fun _ => []) "b".toList none "uint8_t".toList "const".toList (some [200, 7 / 2]) [] []).map String.ofList
    = some "const uint8_t b[2] = { 200, 3 };" := by decide +kernel
example : (arrayDeclare (fun _ => []) "w".toList (some 2) "float".toList "static const".toList (some [1/3, -5/2]) [] []).map String.ofList
    = some "static const float w[2] = { 0.333333f, -2.500000f };" := by decide +kernel

/-! ### Struct declarations -/

/-- **C75 (partial).** The generated struct declaration has the type, the name and all initializers in order; without values it has no initializer. Missing: the modifiers (`C75_refuted`). -/
theorem C75_struct_declare_partial (name typeName modifiers : List Char) (values : List (List Char)) (hn : '{' ∉ name) (ht : '{' ∉ typeName) (hv : ∀ l ∈ values, Plain l) :
    initializers (structDeclare name typeName (some values) modifiers) = values ∧
    (∃ rest, structDeclare name typeName (some values) modifiers = typeName ++ [' '] ++ name ++ rest) ∧
    structDeclare name typeName none modifiers = typeName ++ [' '] ++ name ++ [';'] := by
  refine ⟨?_, ⟨_, by simp [structDeclare]; rfl⟩, by simp [structDeclare]⟩
  have e : structDeclare name typeName (some values) modifiers = (typeName ++ [' '] ++ name ++ "= ".toList) ++ '{' :: ((' ' :: [',', ' '].intercalate values ++ [' ']) ++ '}' :: [';']) := by
    simp [structDeclare, structInit]
  have hb : '}' ∉ ' ' :: [',', ' '].intercalate values ++ [' '] := by
    intro hc
    simp only [List.mem_append, List.mem_cons] at hc
    rcases hc with (hc | hc) | hc
    · exact absurd hc (by decide)
    · rcases mem_join hc with hc | ⟨l, hl', hc⟩
      · simp at hc
      · exact ((hv l hl').2 _ hc).2.2 rfl
    · simp at hc
  unfold initializers
  rw [e, between_eq _ _ _ _ _ (by simp [hn, ht]) hb]
  have hf : (' ' :: [',', ' '].intercalate values ++ [' ']).filter (fun x => decide (x ≠ ' ')) = [','].intercalate values := by
    rw [← filter_join values hv]
    simp [List.filter_append, List.filter_cons]
  simp only [hf]
  cases values with
  | nil => simp [List.intercalate]
  | cons l ls =>
    have hne : [','].intercalate (l :: ls) ≠ [] := by
      intro hc
      have := (hv l (by simp)).1
      cases ls with
      | nil => simp [List.intercalate] at hc; exact this hc
      | cons m ms => simp [List.intercalate] at hc
    rw [if_neg hne]
    exact List.splitOn_intercalate _ (fun l hl' hc => ((hv l hl').2 _ hc).2.1 rfl) (by simp)

/-- **C75 is false as stated**: the text does not depend on the modifiers, and the documented example output is not produced. -/
theorem C75_refuted : (∀ name typeName values m1 m2, structDeclare name typeName values m1 = structDeclare name typeName values m2) ∧
    String.ofList (structDeclare "myinstance".toList "SomeStruct".toList (some ["2".toList, "foo_array".toList]) "static const".toList) = "SomeStruct myinstance= { 2, foo_array };" :=
  ⟨fun _ _ _ _ _ => rfl, by decide +kernel⟩

/-! ### Identifiers -/

/-- Specification: the keywords of the C standards up to C23. -/
def cKeywords : List String :=
  ["auto", "break", "case", "char", "const", "continue", "default", "do", "double", "else", "enum", "extern", "float", "for", "goto", "if", "int", "long",
   "register", "return", "short", "signed", "sizeof", "static", "struct", "switch", "typedef", "union", "unsigned", "void", "volatile", "while",
   "inline", "restrict", "_Bool", "_Complex", "_Imaginary",
   "_Alignas", "_Alignof", "_Atomic", "_Generic", "_Noreturn", "_Static_assert", "_Thread_local",
   "alignas", "alignof", "bool", "constexpr", "false", "nullptr", "static_assert", "thread_local", "true", "typeof", "typeof_unqual",
   "_BitInt", "_Decimal32", "_Decimal64", "_Decimal128"]

/-- Specification: a C identifier (not counting keywords). -/
def IsIdentifier (s : List Char) : Prop :=
  (∀ c ∈ s, c ∈ "abcdefghijklmnopqrstuvwxyzABCDEFGHIJKLMNOPQRSTUVWXYZ0123456789_".toList) ∧ ∃ c r, s = c :: r ∧ c ∉ "0123456789".toList

theorem identRest_iff (c : Char) : identRest c = true ↔ c ∈ "abcdefghijklmnopqrstuvwxyzABCDEFGHIJKLMNOPQRSTUVWXYZ0123456789_".toList := by
  constructor
  · intro h
    have hlt : c.val.toNat < 128 := by
      simp only [identRest, identFirst, Bool.or_eq_true, Bool.and_eq_true, beq_iff_eq, decide_eq_true_eq] at h
      rcases h with ((h | h) | h) | h
      · subst h; decide
      · have := h.2; rw [Char.le_def, UInt32.le_iff_toNat_le] at this; exact lt_of_le_of_lt this (by decide)
      · have := h.2; rw [Char.le_def, UInt32.le_iff_toNat_le] at this; exact lt_of_le_of_lt this (by decide)
      · have := h.2; rw [Char.le_def, UInt32.le_iff_toNat_le] at this; exact lt_of_le_of_lt this (by decide)
    have key : ∀ n : Nat, n < 128 → identRest (Char.ofNat n) = true → Char.ofNat n ∈ "abcdefghijklmnopqrstuvwxyzABCDEFGHIJKLMNOPQRSTUVWXYZ0123456789_".toList := by decide +kernel
    have hc : Char.ofNat c.toNat = c := Char.ofNat_toNat c
    have := key c.toNat hlt
    rw [hc] at this
    exact this h
  · intro h
    have key : ∀ c ∈ "abcdefghijklmnopqrstuvwxyzABCDEFGHIJKLMNOPQRSTUVWXYZ0123456789_".toList, identRest c = true := by decide +kernel
    exact key c h

theorem identFirst_iff (c : Char) : identFirst c = true ↔ identRest c = true ∧ c ∉ "0123456789".toList := by
  constructor
  · intro h
    have h1 : identRest c = true := by simp [identRest, h]
    refine ⟨h1, fun hc => ?_⟩
    have key : ∀ c ∈ "0123456789".toList, identFirst c = false := by decide +kernel
    rw [key c hc] at h; simp at h
  · rintro ⟨h1, h2⟩
    have key : ∀ c ∈ "abcdefghijklmnopqrstuvwxyzABCDEFGHIJKLMNOPQRSTUVWXYZ0123456789_".toList, c ∈ "0123456789".toList ∨ identFirst c = true := by decide +kernel
    rcases key c ((identRest_iff c).mp h1) with h | h
    · exact absurd h h2
    · exact h

theorem dropWhile_eq_nil' {p : Char → Bool} {r : List Char} : r.dropWhile p = [] ↔ ∀ c ∈ r, p c = true := by
  induction r with
  | nil => simp
  | cons a r ih => rw [List.dropWhile_cons]; split <;> simp_all

theorem valid_iff (s : List Char) : identifierIsValid s = true ↔ ∃ t, (s = t ∨ s = t ++ ['\n']) ∧ IsIdentifier t := by
  cases s with
  | nil =>
    simp only [identifierIsValid, Bool.false_eq_true, false_iff]
    rintro ⟨t, h | h, _, c, r, he, _⟩
    · rw [← h] at he; simp at he
    · simp at h
  | cons c r =>
    have hfst := identFirst_iff c
    simp only [identifierIsValid, Bool.and_eq_true, Bool.or_eq_true, beq_iff_eq]
    constructor
    · rintro ⟨h1, h2 | h2⟩
      · refine ⟨c :: r, Or.inl rfl, fun x hx => ?_, c, r, rfl, (hfst.mp h1).2⟩
        rw [← identRest_iff]
        rcases List.mem_cons.mp hx with rfl | hx
        · exact (hfst.mp h1).1
        · exact dropWhile_eq_nil'.mp h2 x hx
      · refine ⟨c :: r.takeWhile identRest, Or.inr ?_, fun x hx => ?_, c, _, rfl, (hfst.mp h1).2⟩
        · rw [List.cons_append, ← h2, List.takeWhile_append_dropWhile]
        · rw [← identRest_iff]
          rcases List.mem_cons.mp hx with rfl | hx
          · exact (hfst.mp h1).1
          · have := List.all_takeWhile (p := identRest) (l := r)
            exact List.all_eq_true.mp this x hx
    · rintro ⟨t, h, hall, c', r', rfl, hd⟩
      have hall' : ∀ x ∈ c' :: r', identRest x = true := fun x hx => (identRest_iff x).mpr (hall x hx)
      have hr' : ∀ x ∈ r', identRest x = true := fun x hx => hall' x (by simp [hx])
      have hc' : identFirst c' = true := (identFirst_iff c').mpr ⟨hall' c' (by simp), hd⟩
      rcases h with h | h
      · injection h with h1 h2
        subst h1; subst h2
        exact ⟨hc', Or.inl (dropWhile_eq_nil'.mpr hr')⟩
      · rw [List.cons_append] at h
        injection h with h1 h2
        subst h1; subst h2
        refine ⟨hc', Or.inr ?_⟩
        rw [List.dropWhile_append_of_pos hr']
        rfl

theorem reserved_iff (s : List Char) : identifierIsReserved s = true ↔ s = [] ∨ String.ofList s ∈ cKeywords ∨ s = "_Packed".toList := by
  have e1 : ∀ w : String, w ∈ reservedWords → w = "" ∨ w ∈ cKeywords ∨ w = "_Packed" := by decide +kernel
  have e2 : ∀ w : String, w ∈ cKeywords → w ∈ reservedWords := by decide +kernel
  simp only [identifierIsReserved, List.any_eq_true, beq_iff_eq]
  constructor
  · rintro ⟨w, hw, rfl⟩
    rcases e1 w hw with rfl | h | rfl
    · exact Or.inl rfl
    · exact Or.inr (Or.inl (by simpa using h))
    · exact Or.inr (Or.inr rfl)
  · rintro (rfl | h | rfl)
    · exact ⟨"", by decide +kernel, rfl⟩
    · exact ⟨_, e2 _ h, by simp⟩
    · exact ⟨"_Packed", by decide +kernel, rfl⟩

/-- **C53 (partial, all strings).** A name is accepted exactly when it is a C identifier, possibly followed by one newline, that is not a C keyword and not `_Packed`.
In particular, every accepted name without a newline is a valid C identifier and no keyword. Missing: the trailing newline (`C53_refuted`). -/
theorem C53_identifiers_partial (s : List Char) :
    assertValidIdentifier s = true ↔ (∃ t, (s = t ∨ s = t ++ ['\n']) ∧ IsIdentifier t) ∧ String.ofList s ∉ cKeywords ∧ s ≠ "_Packed".toList := by
  unfold assertValidIdentifier
  have hv := valid_iff s
  have hr := reserved_iff s
  have hne : identifierIsValid s = true → s ≠ [] := by rintro h rfl; simp [identifierIsValid] at h
  cases h1 : identifierIsValid s
  · rw [h1] at hv
    simp only [Bool.not_false, if_true, Bool.false_eq_true, false_iff]
    rintro ⟨h, _⟩
    exact absurd (hv.mpr h) (by simp)
  · simp only [Bool.not_true, Bool.false_eq_true, if_false]
    cases h2 : identifierIsReserved s
    · simp only [Bool.false_eq_true, if_false, true_iff]
      rw [h2] at hr
      refine ⟨hv.mp h1, fun h => ?_, fun h => ?_⟩
      · exact absurd (hr.mpr (Or.inr (Or.inl h))) (by simp)
      · exact absurd (hr.mpr (Or.inr (Or.inr h))) (by simp)
    · simp only [if_true, Bool.false_eq_true, false_iff]
      rintro ⟨_, h3, h4⟩
      rcases hr.mp h2 with h | h | h
      · exact hne h1 h
      · exact h3 h
      · exact h4 h

/-- **C53 for names without newline**: accepted exactly when a C identifier that is not a keyword (nor the extension keyword `_Packed`). -/
theorem C53_identifiers_no_newline_partial (s : List Char) (h : '\n' ∉ s) :
    assertValidIdentifier s = true ↔ IsIdentifier s ∧ String.ofList s ∉ cKeywords ∧ s ≠ "_Packed".toList := by
  rw [C53_identifiers_partial]
  constructor
  · rintro ⟨⟨t, ht | ht, hi⟩, h2⟩
    · subst ht; exact ⟨hi, h2⟩
    · exact absurd (by rw [ht]; simp) h
  · rintro ⟨hi, h2⟩
    exact ⟨⟨s, Or.inl rfl, hi⟩, h2⟩

/-- **C53 is false as stated**: every valid non-keyword name followed by a newline is accepted, and so is a keyword followed by a newline. -/
theorem C53_refuted : assertValidIdentifier "foo\n".toList = true ∧ assertValidIdentifier "for\n".toList = true ∧ ¬ IsIdentifier "foo\n".toList := by
  refine ⟨by decide +kernel, by decide +kernel, fun h => ?_⟩
  have := h.1 '\n' (by decide)
  revert this
  decide +kernel

example : assertValidIdentifier "my_model_2".toList = true ∧ assertValidIdentifier "2my".toList = false ∧ assertValidIdentifier "for".toList = false ∧
    assertValidIdentifier "".toList = false ∧ assertValidIdentifier "a-b".toList = false := by decide +kernel

end Emlearn.Cgen
