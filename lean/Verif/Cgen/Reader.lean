/- A reader for generated C source: statements, declared names, initializers. Used to state what the generated text declares; written without the generator's functions. -/
import Verif.Props.Cgen
namespace Emlearn.Cgen.Reader
open Emlearn.Cgen

/-- The statements of a C text: the pieces between semicolons. -/
def statements (text : List Char) : List (List Char) := text.splitOn ';'

def blank (c : Char) : Bool := c == ' ' || c == '\n'

/-- The last blank-separated word. -/
def lastWord (s : List Char) : List Char := ((s.reverse.dropWhile blank).takeWhile fun c => !blank c).reverse

/-- The name a statement declares: the word before `[` or `=`. -/
def declaredName (stmt : List Char) : List Char := lastWord (stmt.takeWhile fun c => c != '[' && c != '=')

/-- A text without its last word. -/
def beforeLastWord (s : List Char) : List Char := ((s.reverse.dropWhile blank).dropWhile fun c => !blank c).reverse

/-- The type a statement declares: the word before the name. -/
def declaredType (stmt : List Char) : List Char := lastWord (beforeLastWord (stmt.takeWhile fun c => c != '[' && c != '='))

/-- The first statement declaring a name. -/
def lookup (text name : List Char) : Option (List Char) := (statements text).find? fun s => declaredName s == name

/-- A `float` literal: a decimal number followed by `f`. -/
def readFloat (lit : List Char) : Option ℚ := if lit.getLast? = some 'f' then readFixed lit.dropLast else none

/-- The numbers a `float` array is initialised with; the declared size must be their count. -/
def floatArray (text name : List Char) : Option (List ℚ) := do
  let s ← lookup text name
  let vs ← (initializers s).mapM readFloat
  if declaredType s = "float".toList ∧ readInt (declaredSize s) = some (vs.length : Int) then some vs else none

/-- The numbers an integer array is initialised with; the declared size must be their count. -/
def intArray (text name : List Char) : Option (List Int) := do
  let s ← lookup text name
  let vs ← (initializers s).mapM readInt
  if readInt (declaredSize s) = some (vs.length : Int) then some vs else none

/-- The initializers of an array of structures: the groups in inner braces. -/
def groups (stmt : List Char) : List (List (List Char)) :=
  ((((stmt.dropWhile (· ≠ '{')).drop 1).splitOn '{').drop 1).map fun g => ((g.takeWhile (· ≠ '}')).filter (· ≠ ' ')).splitOn ','

/-! ### Lemmas -/

theorem splitOn_append_sep (sep : Char) (s t : List Char) (h : sep ∉ s) : (s ++ sep :: t).splitOn sep = s :: t.splitOn sep := by
  induction s with
  | nil =>
    rw [List.nil_append, List.splitOn, List.splitOnP_cons_eq_if_modifyHead]
    simp [List.splitOn]
  | cons c s ih =>
    have hc : (c == sep) = false := by rw [beq_eq_false_iff_ne]; rintro rfl; exact h (by simp)
    rw [List.cons_append, List.splitOn, List.splitOnP_cons_eq_if_modifyHead, hc]
    have := ih (fun h' => h (List.mem_cons_of_mem _ h'))
    rw [List.splitOn] at this
    rw [this]
    simp

theorem splitOn_eq_single (sep : Char) (s : List Char) (h : sep ∉ s) : s.splitOn sep = [s] := by
  induction s with
  | nil => rfl
  | cons c s ih =>
    have hc : (c == sep) = false := by rw [beq_eq_false_iff_ne]; rintro rfl; exact h (by simp)
    rw [List.splitOn, List.splitOnP_cons_eq_if_modifyHead, hc]
    have := ih (fun h' => h (List.mem_cons_of_mem _ h'))
    rw [List.splitOn] at this
    rw [this]
    simp

/-- A text that begins with given statements. -/
theorem statements_append (ss : List (List Char)) (rest : List Char) (h : ∀ s ∈ ss, ';' ∉ s) :
    statements ((ss.map fun s => s ++ [';']).flatten ++ rest) = ss ++ statements rest := by
  induction ss with
  | nil => rfl
  | cons s ss ih =>
    have e : ((s :: ss).map fun s => s ++ [';']).flatten ++ rest = s ++ ';' :: ((ss.map fun s => s ++ [';']).flatten ++ rest) := by simp
    rw [e, statements, splitOn_append_sep _ _ _ (h s (by simp))]
    have := ih (fun s hs => h s (by simp [hs]))
    rw [statements] at this
    rw [this]; rfl

/-- Looking up a name among statements with distinct names. -/
theorem lookup_eq (ps : List (List Char × List Char)) (rest : List Char) (h1 : ∀ p ∈ ps, ';' ∉ p.2) (h2 : ∀ p ∈ ps, declaredName p.2 = p.1)
    (h3 : (ps.map (·.1)).Nodup) (p : List Char × List Char) (hp : p ∈ ps) :
    lookup ((ps.map fun p => p.2 ++ [';']).flatten ++ rest) p.1 = some p.2 := by
  have e : (ps.map fun p => p.2 ++ [';']) = (ps.map (·.2)).map fun s => s ++ [';'] := by simp
  rw [lookup, e, statements_append _ _ (by simpa using fun a b h => h1 (b, a) h), List.find?_append]
  have : (ps.map (·.2)).find? (fun s => declaredName s == p.1) = some p.2 := by
    induction ps with
    | nil => simp at hp
    | cons q ps ih =>
      rw [List.map_cons, List.find?_cons]
      rcases List.mem_cons.1 hp with rfl | hp'
      · rw [h2 p (by simp)]; simp
      · have hne : q.1 ≠ p.1 := by
          intro h
          simp only [List.map_cons, List.nodup_cons] at h3
          exact h3.1 (h ▸ List.mem_map_of_mem hp')
        rw [h2 q (by simp)]
        rw [show (q.1 == p.1) = false by rw [beq_eq_false_iff_ne]; exact hne]
        exact ih (fun p hp => h1 p (by simp [hp])) (fun p hp => h2 p (by simp [hp])) (by simp only [List.map_cons, List.nodup_cons] at h3; exact h3.2) hp' (by simp)
  rw [this]; rfl

theorem lastWord_eq (a name b : List Char) (hb : ∀ c ∈ b, blank c = true) (hn : ∀ c ∈ name, blank c = false) (hne : name ≠ []) (ha : a = [] ∨ ∃ a' c, a = a' ++ [c] ∧ blank c = true) :
    lastWord (a ++ name ++ b) = name := by
  unfold lastWord
  rw [List.reverse_append, List.reverse_append, List.dropWhile_append_of_pos (by simpa using hb)]
  have hr : name.reverse ≠ [] := by simpa using hne
  obtain ⟨c, r, hcr⟩ := List.exists_cons_of_ne_nil hr
  have hc : blank c = false := hn c (by rw [← List.mem_reverse, hcr]; simp)
  have h1 : (name.reverse ++ a.reverse).dropWhile blank = name.reverse ++ a.reverse := by
    rw [hcr, List.cons_append, List.dropWhile_cons, hc]; simp
  rw [h1, List.takeWhile_append_of_pos (by simpa using hn)]
  have h2 : a.reverse.takeWhile (fun c => !blank c) = [] := by
    rcases ha with rfl | ⟨a', d, rfl, hd⟩
    · rfl
    · simp [hd]
  rw [h2, List.append_nil, List.reverse_reverse]

theorem declaredName_eq (a name b rest : List Char) (x : Char) (hx : x = '[' ∨ x = '=') (hstop : ∀ c ∈ a ++ name ++ b, c ≠ '[' ∧ c ≠ '=') (hb : ∀ c ∈ b, blank c = true)
    (hn : ∀ c ∈ name, blank c = false) (hne : name ≠ []) (ha : a = [] ∨ ∃ a' c, a = a' ++ [c] ∧ blank c = true) :
    declaredName (a ++ name ++ b ++ x :: rest) = name := by
  unfold declaredName
  rw [List.takeWhile_append_of_pos]
  · have : (x :: rest).takeWhile (fun c => c != '[' && c != '=') = [] := by
      rcases hx with rfl | rfl <;> simp
    rw [this, List.append_nil, lastWord_eq a name b hb hn hne ha]
  · intro c hc
    obtain ⟨h1, h2⟩ := hstop c hc
    simp [h1, h2]

theorem beforeLastWord_eq (a name b : List Char) (hb : ∀ c ∈ b, blank c = true) (hn : ∀ c ∈ name, blank c = false) (hne : name ≠ []) (ha : a = [] ∨ ∃ a' c, a = a' ++ [c] ∧ blank c = true) :
    beforeLastWord (a ++ name ++ b) = a := by
  unfold beforeLastWord
  rw [List.reverse_append, List.reverse_append, List.dropWhile_append_of_pos (by simpa using hb)]
  have hr : name.reverse ≠ [] := by simpa using hne
  obtain ⟨c, r, hcr⟩ := List.exists_cons_of_ne_nil hr
  have hc : blank c = false := hn c (by rw [← List.mem_reverse, hcr]; simp)
  have h1 : (name.reverse ++ a.reverse).dropWhile blank = name.reverse ++ a.reverse := by
    rw [hcr, List.cons_append, List.dropWhile_cons, hc]; simp
  rw [h1, List.dropWhile_append_of_pos (by simpa using hn)]
  have h2 : a.reverse.dropWhile (fun c => !blank c) = a.reverse := by
    rcases ha with rfl | ⟨a', d, rfl, hd⟩
    · rfl
    · simp [hd]
  rw [h2, List.reverse_reverse]

theorem takeWhile_declarator (a rest : List Char) (x : Char) (hx : x = '[' ∨ x = '=') (h : ∀ c ∈ a, c ≠ '[' ∧ c ≠ '=') :
    (a ++ x :: rest).takeWhile (fun c => c != '[' && c != '=') = a := by
  rw [List.takeWhile_append_of_pos]
  · have : (x :: rest).takeWhile (fun c => c != '[' && c != '=') = [] := by
      rcases hx with rfl | rfl <;> simp
    rw [this, List.append_nil]
  · intro c hc
    obtain ⟨h1, h2⟩ := h c hc
    simp [h1, h2]

theorem declaredType_eq (a ty name b rest : List Char) (x : Char) (hx : x = '[' ∨ x = '=') (hstop : ∀ c ∈ a ++ ty ++ [' '] ++ name ++ b, c ≠ '[' ∧ c ≠ '=') (hb : ∀ c ∈ b, blank c = true)
    (hn : ∀ c ∈ name, blank c = false) (hne : name ≠ []) (ht : ∀ c ∈ ty, blank c = false) (hte : ty ≠ []) (ha : a = [] ∨ ∃ a' c, a = a' ++ [c] ∧ blank c = true) :
    declaredType (a ++ ty ++ [' '] ++ name ++ b ++ x :: rest) = ty := by
  unfold declaredType
  rw [takeWhile_declarator _ _ _ hx hstop, beforeLastWord_eq _ _ _ hb hn hne (Or.inr ⟨a ++ ty, ' ', rfl, rfl⟩), lastWord_eq _ _ _ (by simp [blank]) ht hte ha]

theorem intercalate_newline (hdr : List Char) (lines : List (List Char)) : ['\n'].intercalate (hdr :: lines) = hdr ++ (lines.map fun l => '\n' :: l).flatten := by
  induction lines generalizing hdr with
  | nil => simp [List.intercalate]
  | cons l ls ih =>
    have e : ['\n'].intercalate (hdr :: l :: ls) = hdr ++ (['\n'] ++ ['\n'].intercalate (l :: ls)) := by simp [List.intercalate]
    rw [e, ih]; simp

/-- Looking up a name in a text made of a header and one declaration per line (a declaration may itself contain line breaks). -/
theorem lookup_lines (hdr : List Char) (items : List (List Char × List Char)) (rest : List Char) (hh : ';' ∉ hdr) (h1 : ∀ p ∈ items, ';' ∉ p.2)
    (h2 : ∀ p ∈ items, ∀ P, P = ['\n'] ∨ P = hdr ++ ['\n'] → declaredName (P ++ p.2) = p.1) (h3 : (items.map (·.1)).Nodup) (p : List Char × List Char) (hp : p ∈ items) :
    ∃ P, (P = ['\n'] ∨ P = hdr ++ ['\n']) ∧ lookup (hdr ++ (items.map fun p => '\n' :: (p.2 ++ [';'])).flatten ++ rest) p.1 = some (P ++ p.2) := by
  obtain ⟨q, items, rfl⟩ := List.exists_cons_of_ne_nil (List.ne_nil_of_mem hp)
  have key := lookup_eq ((q.1, hdr ++ ['\n'] ++ q.2) :: items.map fun p => (p.1, ['\n'] ++ p.2)) rest
    (by
      intro p hp
      rcases List.mem_cons.1 hp with rfl | hp
      · simp [hh, h1 q (by simp)]
      · obtain ⟨r, hr, rfl⟩ := List.mem_map.1 hp
        simp [h1 r (by simp [hr])])
    (by
      intro p hp
      rcases List.mem_cons.1 hp with rfl | hp
      · exact h2 q (by simp) _ (Or.inr rfl)
      · obtain ⟨r, hr, rfl⟩ := List.mem_map.1 hp
        exact h2 r (by simp [hr]) _ (Or.inl rfl))
    (by simpa [Function.comp_def] using h3)
  have e : (((q.1, hdr ++ ['\n'] ++ q.2) :: items.map fun p => (p.1, ['\n'] ++ p.2)).map fun p => p.2 ++ [';']).flatten =
      hdr ++ ((q :: items).map fun p => '\n' :: (p.2 ++ [';'])).flatten := by simp [Function.comp_def]
  rw [e] at key
  rcases List.mem_cons.1 hp with rfl | hp
  · exact ⟨_, Or.inr rfl, key (p.1, hdr ++ ['\n'] ++ p.2) (by simp)⟩
  · exact ⟨_, Or.inl rfl, key (p.1, ['\n'] ++ p.2) (List.mem_cons_of_mem _ (List.mem_map.2 ⟨p, hp, rfl⟩))⟩

/-! ### Declarations -/

/-- A word made of letters, digits and underscores. -/
def Word (s : List Char) : Prop := s ≠ [] ∧ ∀ c ∈ s, identRest c = true

theorem word_ne {c d : Char} (h : identRest c = true) (hd : identRest d = false) : c ≠ d := by rintro rfl; rw [h] at hd; cases hd

theorem Word.not_mem {s : List Char} (h : Word s) {d : Char} (hd : identRest d = false) : d ∉ s := fun hm => word_ne (h.2 d hm) hd rfl

theorem Word.blank {s : List Char} (h : Word s) : ∀ c ∈ s, blank c = false := fun c hc => by
  have h1 := word_ne (h.2 c hc) (d := ' ') (by decide)
  have h2 := word_ne (h.2 c hc) (d := '\n') (by decide)
  simp [Reader.blank, h1, h2]

theorem Word.plain {s : List Char} (h : Word s) : Plain s :=
  ⟨h.1, fun c hc => ⟨word_ne (h.2 c hc) (by decide), word_ne (h.2 c hc) (by decide), word_ne (h.2 c hc) (by decide)⟩⟩

theorem Word.append {s t : List Char} (h : Word s) (ht : ∀ c ∈ t, identRest c = true) : Word (s ++ t) :=
  ⟨by simp [h.1], fun c hc => by rcases List.mem_append.1 hc with hc | hc; exacts [h.2 c hc, ht c hc]⟩

theorem identRest_digit {c : Char} (h : c.isDigit = true) : identRest c = true := by
  simp only [identRest, Bool.or_eq_true, Bool.and_eq_true, decide_eq_true_eq]
  right
  simp only [Char.isDigit, Bool.and_eq_true, decide_eq_true_eq] at h
  exact ⟨h.1, h.2⟩

theorem word_showNat (n : Nat) : Word (showNat n) := ⟨showNat_ne_nil n, fun _ hc => identRest_digit (showNat_digits hc)⟩

/-- A valid name without a line break. -/
theorem word_of_valid {s : List Char} (h : assertValidIdentifier s = true) (hn : '\n' ∉ s) : Word s := by
  have hv : identifierIsValid s = true := by
    unfold assertValidIdentifier at h
    by_contra hc
    simp [hc] at h
  obtain ⟨t, ht, hi⟩ := (valid_iff s).1 hv
  rcases ht with rfl | rfl
  · obtain ⟨h1, c, r, h2, -⟩ := hi
    exact ⟨by rw [h2]; simp, fun c hc => (identRest_iff c).2 (h1 c hc)⟩
  · exact absurd (by simp) hn

/-- A declaration: modifiers, type, name, blanks, then `[` or `=` and the rest. -/
structure Decl where
  mods : List Char
  ty : List Char
  name : List Char
  gap : List Char
  x : Char
  rest : List Char

def Decl.body (d : Decl) : List Char := d.mods ++ d.ty ++ [' '] ++ d.name ++ d.gap ++ d.x :: d.rest

structure Decl.Ok (d : Decl) : Prop where
  mods_end : d.mods = [] ∨ ∃ a c, d.mods = a ++ [c] ∧ blank c = true
  mods_chars : ∀ c ∈ d.mods, c ≠ '[' ∧ c ≠ '=' ∧ c ≠ ';'
  ty : Word d.ty
  name : Word d.name
  gap : ∀ c ∈ d.gap, blank c = true
  x : d.x = '[' ∨ d.x = '='
  rest : ';' ∉ d.rest

theorem Decl.Ok.chars {d : Decl} (h : d.Ok) : ∀ c ∈ d.mods ++ d.ty ++ [' '] ++ d.name ++ d.gap, c ≠ '[' ∧ c ≠ '=' ∧ c ≠ ';' := by
  intro c hc
  simp only [List.mem_append] at hc
  rcases hc with (((hc | hc) | hc) | hc) | hc
  · exact h.mods_chars c hc
  · exact ⟨word_ne (h.ty.2 c hc) (by decide), word_ne (h.ty.2 c hc) (by decide), word_ne (h.ty.2 c hc) (by decide)⟩
  · simp at hc; subst hc; decide
  · exact ⟨word_ne (h.name.2 c hc) (by decide), word_ne (h.name.2 c hc) (by decide), word_ne (h.name.2 c hc) (by decide)⟩
  · have := h.gap c hc
    simp [Reader.blank] at this
    rcases this with rfl | rfl <;> decide

theorem Decl.Ok.ends {d : Decl} (h : d.Ok) (P : List Char) (hP : ∃ a, P = a ++ ['\n']) : ∃ a c, P ++ d.mods = a ++ [c] ∧ Reader.blank c = true := by
  rcases h.mods_end with h' | ⟨a, c, h', hc⟩
  · obtain ⟨a, rfl⟩ := hP
    exact ⟨a, '\n', by simp [h'], rfl⟩
  · exact ⟨P ++ a, c, by simp [h'], hc⟩

theorem Decl.Ok.declaredName {d : Decl} (h : d.Ok) (P : List Char) (hP : ∃ a, P = a ++ ['\n']) (hc : ∀ c ∈ P, c ≠ '[' ∧ c ≠ '=') : declaredName (P ++ d.body) = d.name := by
  obtain ⟨a, c, e, hb⟩ := h.ends P hP
  have := declaredName_eq (P ++ d.mods ++ d.ty ++ [' ']) d.name d.gap d.rest d.x h.x (by
    intro c hc'
    simp only [List.append_assoc] at hc'
    rcases List.mem_append.1 hc' with h1 | h1
    · exact hc c h1
    · have := h.chars c (by simpa only [List.append_assoc] using h1); exact ⟨this.1, this.2.1⟩) h.gap h.name.blank h.name.1 (Or.inr ⟨P ++ d.mods ++ d.ty, ' ', rfl, rfl⟩)
  simpa only [Decl.body, List.append_assoc] using this

theorem Decl.Ok.declaredType {d : Decl} (h : d.Ok) (P : List Char) (hP : ∃ a, P = a ++ ['\n']) (hc : ∀ c ∈ P, c ≠ '[' ∧ c ≠ '=') : declaredType (P ++ d.body) = d.ty := by
  have := declaredType_eq (P ++ d.mods) d.ty d.name d.gap d.rest d.x h.x (by
    intro c hc'
    simp only [List.append_assoc] at hc'
    rcases List.mem_append.1 hc' with h1 | h1
    · exact hc c h1
    · have := h.chars c (by simpa only [List.append_assoc] using h1); exact ⟨this.1, this.2.1⟩) h.gap h.name.blank h.name.1 h.ty.blank h.ty.1 (Or.inr (h.ends P hP))
  simpa only [Decl.body, List.append_assoc] using this

theorem Decl.Ok.semicolon {d : Decl} (h : d.Ok) : ';' ∉ d.body := by
  intro hc
  rcases List.mem_append.1 (show ';' ∈ (d.mods ++ d.ty ++ [' '] ++ d.name ++ d.gap) ++ d.x :: d.rest from hc) with hc | hc
  · exact (h.chars _ hc).2.2 rfl
  · rcases List.mem_cons.1 hc with hc | hc
    · rcases h.x with hx | hx <;> rw [hx] at hc <;> exact absurd hc (by decide)
    · exact h.rest hc

/-- Looking up a declaration in a text of a header and declarations with distinct names, one per line. -/
theorem lookup_decls (hdr : List Char) (ds : List Decl) (rest : List Char) (hh : ∀ c ∈ hdr, c ≠ ';' ∧ c ≠ '[' ∧ c ≠ '=' ∧ c ≠ '{') (hok : ∀ d ∈ ds, d.Ok) (hnd : (ds.map (·.name)).Nodup)
    (d : Decl) (hd : d ∈ ds) :
    ∃ P, lookup (hdr ++ (ds.map fun d => '\n' :: (d.body ++ [';'])).flatten ++ rest) d.name = some (P ++ d.body) ∧ declaredType (P ++ d.body) = d.ty ∧
      '[' ∉ P ∧ '{' ∉ P ∧ '=' ∉ P := by
  have hPc : ∀ P, P = ['\n'] ∨ P = hdr ++ ['\n'] → (∃ a, P = a ++ ['\n']) ∧ ∀ c ∈ P, c ≠ '[' ∧ c ≠ '=' ∧ c ≠ '{' := by
    rintro P (rfl | rfl)
    · exact ⟨⟨[], rfl⟩, by simp⟩
    · refine ⟨⟨hdr, rfl⟩, fun c hc => ?_⟩
      rcases List.mem_append.1 hc with hc | hc
      · exact (hh c hc).2
      · simp at hc; subst hc; decide
  obtain ⟨P, hP, h⟩ := lookup_lines hdr (ds.map fun d => (d.name, d.body)) rest (fun h => (hh _ h).1 rfl)
    (by
      intro p hp
      obtain ⟨e, he, rfl⟩ := List.mem_map.1 hp
      exact (hok e he).semicolon)
    (by
      intro p hp P hP
      obtain ⟨e, he, rfl⟩ := List.mem_map.1 hp
      obtain ⟨h1, h2⟩ := hPc P hP
      exact (hok e he).declaredName P h1 (fun c hc => ⟨(h2 c hc).1, (h2 c hc).2.1⟩))
    (by simpa [Function.comp_def] using hnd) (d.name, d.body) (List.mem_map.2 ⟨d, hd, rfl⟩)
  obtain ⟨h1, h2⟩ := hPc P hP
  refine ⟨P, by simpa [Function.comp_def] using h, (hok d hd).declaredType P h1 (fun c hc => ⟨(h2 c hc).1, (h2 c hc).2.1⟩), fun hc => (h2 _ hc).1 rfl, fun hc => (h2 _ hc).2.2 rfl, fun hc => (h2 _ hc).2.1 rfl⟩

/-- The declaration of an initialised array. -/
def arrDecl (mods ty name size : List Char) (lits : List (List Char)) : Decl :=
  ⟨mods, ty, name, [], '[', size ++ [']'] ++ (" = { ".toList ++ [',', ' '].intercalate lits ++ " }".toList)⟩

theorem arrDecl_ok (mods ty name size : List Char) (lits : List (List Char)) (hm : mods = [] ∨ ∃ a c, mods = a ++ [c] ∧ blank c = true) (hmc : ∀ c ∈ mods, c ≠ '[' ∧ c ≠ '=' ∧ c ≠ ';')
    (ht : Word ty) (hn : Word name) (hs : ';' ∉ size) (hl : ∀ l ∈ lits, ';' ∉ l) : (arrDecl mods ty name size lits).Ok := by
  refine ⟨hm, hmc, ht, hn, by simp [arrDecl], Or.inl rfl, ?_⟩
  intro hc
  simp only [arrDecl, List.mem_append] at hc
  rcases hc with (hc | hc) | (hc | hc) | hc
  · exact hs hc
  · simp at hc
  · simp at hc
  · rcases mem_join hc with hc | ⟨l, hl', hc⟩
    · simp at hc
    · exact hl l hl' hc
  · simp at hc

theorem arrDecl_read (P mods ty name size : List Char) (lits : List (List Char)) (hP : '[' ∉ P) (hP2 : '{' ∉ P) (hmc : '[' ∉ mods) (hmc2 : '{' ∉ mods) (ht : Word ty) (hn : Word name)
    (hs : ']' ∉ size) (hs2 : '{' ∉ size) (hl : ∀ l ∈ lits, Plain l) :
    declaredSize (P ++ (arrDecl mods ty name size lits).body) = size ∧ initializers (P ++ (arrDecl mods ty name size lits).body) = lits := by
  have h := read_array (P ++ mods ++ ty ++ [' '] ++ name) size [] lits
    (by simp [hP, hmc, ht.not_mem (d := '[') (by decide), hn.not_mem (d := '[') (by decide)])
    (by simp [hP2, hmc2, ht.not_mem (d := '{') (by decide), hn.not_mem (d := '{') (by decide)]) hs hs2 hl
  have e : P ++ mods ++ ty ++ [' '] ++ name ++ ['['] ++ size ++ [']'] ++ (" = { ".toList ++ [',', ' '].intercalate lits ++ " }".toList) ++ [] = P ++ (arrDecl mods ty name size lits).body := by
    simp [arrDecl, Decl.body]
  rw [← e]; exact h

/-- Reading a structure initializer. -/
theorem initializers_struct (A : List Char) (fs : List (List Char)) (hA : '{' ∉ A) (hf : ∀ f ∈ fs, Plain f) (hne : fs ≠ []) (rest : List Char) :
    initializers (A ++ structInit fs ++ rest) = fs := by
  have e : A ++ structInit fs ++ rest = A ++ '{' :: ((' ' :: [',', ' '].intercalate fs ++ [' ']) ++ '}' :: rest) := by simp [structInit]
  have hb : '}' ∉ ' ' :: [',', ' '].intercalate fs ++ [' '] := by
    intro hc
    simp only [List.mem_append, List.mem_cons] at hc
    rcases hc with (hc | hc) | hc
    · exact absurd hc (by decide)
    · rcases mem_join hc with hc | ⟨l, hl', hc⟩
      · simp at hc
      · exact ((hf l hl').2 _ hc).2.2 rfl
    · simp at hc
  unfold initializers
  rw [e, between_eq _ _ _ _ _ hA hb]
  have hfl : (' ' :: [',', ' '].intercalate fs ++ [' ']).filter (fun x => decide (x ≠ ' ')) = [','].intercalate fs := by
    rw [← filter_join fs hf]
    simp [List.filter_append, List.filter_cons]
  simp only [hfl]
  obtain ⟨l, ls, rfl⟩ := List.exists_cons_of_ne_nil hne
  have hne' : [','].intercalate (l :: ls) ≠ [] := by
    intro hc
    have := (hf l (by simp)).1
    cases ls with
    | nil => simp [List.intercalate] at hc; exact this hc
    | cons m ms => simp [List.intercalate] at hc
  rw [if_neg hne']
  exact List.splitOn_intercalate _ (fun l hl' hc => ((hf l hl').2 _ hc).2.1 rfl) (by simp)

/-- One group of an array of structures. -/
def readGroup (g : List Char) : List (List Char) := ((g.takeWhile (· ≠ '}')).filter (· ≠ ' ')).splitOn ','

theorem readGroup_eq (fs : List (List Char)) (hf : ∀ f ∈ fs, Plain f) (hne : fs ≠ []) (rest : List Char) :
    readGroup (' ' :: [',', ' '].intercalate fs ++ [' '] ++ '}' :: rest) = fs := by
  have hb : ∀ c ∈ ' ' :: [',', ' '].intercalate fs ++ [' '], decide (c ≠ '}') = true := by
    intro c hc
    simp only [List.mem_append, List.mem_cons] at hc
    rcases hc with (hc | hc) | hc
    · subst hc; decide
    · rcases mem_join hc with hc | ⟨l, hl', hc⟩
      · simp at hc; rcases hc with rfl | rfl <;> decide
      · simpa using ((hf l hl').2 _ hc).2.2
    · simp at hc; subst hc; decide
  unfold readGroup
  rw [List.takeWhile_append_of_pos hb]
  have : List.takeWhile (fun x => decide (x ≠ '}')) ('}' :: rest) = [] := by simp
  rw [this, List.append_nil]
  have hfl : (' ' :: [',', ' '].intercalate fs ++ [' ']).filter (fun x => decide (x ≠ ' ')) = [','].intercalate fs := by
    rw [← filter_join fs hf]
    simp [List.filter_append, List.filter_cons]
  rw [hfl]
  exact List.splitOn_intercalate _ (fun l hl' hc => ((hf l hl').2 _ hc).2.1 rfl) hne

theorem groups_aux (es : List (List (List Char))) (hf : ∀ e ∈ es, e ≠ [] ∧ ∀ f ∈ e, Plain f ∧ '{' ∉ f) (junk tail : List Char) (hj : '{' ∉ junk) (ht : '{' ∉ tail) :
    ∃ h t, (junk ++ [',', ' '].intercalate (es.map fun e => '\n' :: structInit e) ++ tail).splitOn '{' = h :: t ∧ junk <+: h ∧ t.map readGroup = es := by
  induction es generalizing junk with
  | nil =>
    refine ⟨junk ++ tail, [], ?_, List.prefix_append _ _, rfl⟩
    have := splitOn_eq_single '{' (junk ++ tail) (by simp [hj, ht])
    simpa [List.intercalate] using this
  | cons e es ih =>
    obtain ⟨he, hfe⟩ := hf e (by simp)
    have hin : '{' ∉ [',', ' '].intercalate e := by
      intro hc
      rcases mem_join hc with hc | ⟨l, hl', hc⟩
      · simp at hc
      · exact (hfe l hl').2 hc
    cases es with
    | nil =>
      have e1 : junk ++ [',', ' '].intercalate ([e].map fun e => '\n' :: structInit e) ++ tail =
          (junk ++ ['\n']) ++ '{' :: (' ' :: [',', ' '].intercalate e ++ [' '] ++ '}' :: tail) := by simp [List.intercalate, structInit]
      refine ⟨junk ++ ['\n'], [' ' :: [',', ' '].intercalate e ++ [' '] ++ '}' :: tail], ?_, List.prefix_append _ _, ?_⟩
      · rw [e1, splitOn_append_sep _ _ _ (by simp [hj]), splitOn_eq_single _ _ (by simp [hin, ht])]
      · simp only [List.map_cons, List.map_nil]
        rw [readGroup_eq e (fun f hf => (hfe f hf).1) he]
    | cons e' es =>
      obtain ⟨h, t, h1, h2, h3⟩ := ih (fun e he => hf e (by simp [he])) (' ' :: [',', ' '].intercalate e ++ [' '] ++ "}, ".toList) (by simp [hin])
      have e1 : junk ++ [',', ' '].intercalate ((e :: e' :: es).map fun e => '\n' :: structInit e) ++ tail =
          (junk ++ ['\n']) ++ '{' :: ((' ' :: [',', ' '].intercalate e ++ [' '] ++ "}, ".toList) ++ [',', ' '].intercalate ((e' :: es).map fun e => '\n' :: structInit e) ++ tail) := by
        simp [List.intercalate, structInit]
      refine ⟨junk ++ ['\n'], h :: t, ?_, List.prefix_append _ _, ?_⟩
      · rw [e1, splitOn_append_sep _ _ _ (by simp [hj]), h1]
      · obtain ⟨r, rfl⟩ := h2
        rw [List.map_cons, h3]
        congr 1
        have := readGroup_eq e (fun f hf => (hfe f hf).1) he (", ".toList ++ r)
        simpa using this

theorem groups_eq (A : List Char) (es : List (List (List Char))) (hA : '{' ∉ A) (hf : ∀ e ∈ es, e ≠ [] ∧ ∀ f ∈ e, Plain f ∧ '{' ∉ f) :
    groups (A ++ " = { ".toList ++ [',', ' '].intercalate (es.map fun e => '\n' :: structInit e) ++ " }".toList) = es := by
  obtain ⟨h, t, h1, -, h3⟩ := groups_aux es hf [' '] " }".toList (by simp) (by simp)
  have e : A ++ " = { ".toList ++ [',', ' '].intercalate (es.map fun e => '\n' :: structInit e) ++ " }".toList =
      (A ++ " = ".toList) ++ '{' :: ([' '] ++ [',', ' '].intercalate (es.map fun e => '\n' :: structInit e) ++ " }".toList) := by simp
  unfold groups
  rw [e, List.dropWhile_append_of_pos]
  · have : List.dropWhile (fun x => decide (x ≠ '{')) ('{' :: ([' '] ++ [',', ' '].intercalate (es.map fun e => '\n' :: structInit e) ++ " }".toList)) =
        '{' :: ([' '] ++ [',', ' '].intercalate (es.map fun e => '\n' :: structInit e) ++ " }".toList) := by
      rw [List.dropWhile_cons]; simp
    rw [this, List.drop_succ_cons, List.drop_zero, h1, List.drop_succ_cons, List.drop_zero]
    exact h3
  · intro c hc
    have : c ≠ '{' := by rintro rfl; revert hc; simp [hA]
    simpa using this

end Emlearn.Cgen.Reader
