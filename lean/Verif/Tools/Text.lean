/- The C text that the command line tools `eml-window-function` (`emlearn/tools/window_function.py`) and `eml-mel-filterbank` (`emlearn/tools/mel_filterbank.py` with `emlearn/signal.py` 27-60) write,
and the variables that it declares. The coefficients (scipy, librosa) are arbitrary numbers. -/
import Verif.Tools.Textwrap
import Verif.Neighbors.TextRun
import Verif.Net.TextRun
import Verif.Mixture.Text
import Verif.Signal.Filterbank
namespace Emlearn.Tools
open Emlearn.Cgen Emlearn.MiniC Emlearn.Textwrap

/-! ### Model -/

/-- A declaration that the tools print: `cgen.constant_declare(name, val)` or `cgen.array_declare(name, size, dtype=dtype, values=values)`. -/
inductive Item where
  | const (name : List Char) (val : ℚ)
  | arr (name : List Char) (size : Int) (dtype : List Char) (values : List ℚ)

/-- The text of a declaration, `cgen.py` 56-100. `none`: the assertion on the size fails. -/
def Item.text (other : ℚ → List Char) : Item → Option (List Char)
  | .const name val => some (constantDeclare other name val "int".toList)
  | .arr name size dtype values => arrayDeclare other name (some size) dtype "static const".toList (some values) [] []

/-- `window_function(name, window_type, length, fft_mode, linewrap)`, `window_function.py` 38-51; `window` are the values of `scipy.signal.get_window(window_type, length)`. -/
def windowItems (name : List Char) (length : Int) (window : List ℚ) : List Item :=
  [.arr name length "float".toList window, .const (name ++ "_length".toList) length]

def windowFunction (other : ℚ → List Char) (name : List Char) (length : Int) (window : List ℚ) (linewrap : Int) : Option (List Char) :=
  ((windowItems name length window).mapM (Item.text other)).bind fun arrays => wrapped true (['\n'].intercalate arrays) linewrap

/-- The file that `main` writes, `window_function.py` 64-75. -/
def windowFile (other : ℚ → List Char) (name : List Char) (length : Int) (window : List ℚ) (linewrap : Int) : Option (List Char) :=
  (windowFunction other name length window linewrap).map fun t => "// This file was generated with emlearn using eml-window-function\n\n".toList ++ t

/-- The name that `main` uses when none is given, `window_function.py` 61-62. -/
def windowName (name window_type : List Char) (length : Int) : List Char :=
  if name = [] then ['_'].intercalate [window_type, showInt length, "lut".toList] else name

/-- The optional arguments of `sparse_filterbank_serialize`, `signal.py` 27. -/
structure Extra where
  frequencies : Option (List ℚ)
  nfft : Option ℚ
  sr : Option ℚ
  fmin : Option ℚ
  fmax : Option ℚ

/-- `sparse_filterbank_serialize`, `signal.py` 27-59. -/
def filterbankItems (s : Filterbank.Sparse ℚ) (name : List Char) (x : Extra) : List Item :=
  [.const (name ++ "_bands".toList) s.starts.length,
   .arr (name ++ "_starts".toList) s.starts.length "int".toList (s.starts.map fun (n : Nat) => (n : ℚ)),
   .arr (name ++ "_ends".toList) s.ends.length "int".toList (s.ends.map fun (n : Nat) => (n : ℚ)),
   .const (name ++ "_length".toList) s.coeffs.length,
   .arr (name ++ "_lut".toList) s.coeffs.length "float".toList s.coeffs] ++
  (x.frequencies.map fun fs => Item.arr (name ++ "_frequencies".toList) fs.length "float".toList fs).toList ++
  (x.nfft.map fun v => Item.const (name ++ "_nfft".toList) v).toList ++ (x.sr.map fun v => Item.const (name ++ "_samplerate".toList) v).toList ++
  (x.fmax.map fun v => Item.const (name ++ "_fmax".toList) v).toList ++ (x.fmin.map fun v => Item.const (name ++ "_fmin".toList) v).toList

def serialize (other : ℚ → List Char) (s : Filterbank.Sparse ℚ) (name : List Char) (x : Extra) : Option (List Char) :=
  if s.starts.length = s.ends.length then ((filterbankItems s name x).mapM (Item.text other)).map fun arrays => "\n\n".toList.intercalate arrays else none

/-- `mel_filterbank(args, name)`, `mel_filterbank.py` 14-30, for the matrix `mels` that librosa computes (`none` for a filter without coefficients: IndexError), and the file that `main` writes (78-84). -/
def filterbankFile (other : ℚ → List Char) (mels : List (List ℚ)) (name : List Char) (x : Extra) (linewrap : Int) : Option (List Char) :=
  (Filterbank.sparseFilterbank mels).bind fun s => (serialize other s name x).bind fun gen =>
    (wrapped false gen linewrap).map fun t => "// This file was generated with emlearn using eml-mel-filterbank\n\n".toList ++ t ++ "\n\n".toList

/-! ### The declarations -/

def Item.decl : Item → MiniC.Decl
  | .const name val => ⟨["static".toList, "const".toList], "int".toList, name, none, some (.one (litExpr val "int".toList))⟩
  | .arr name _ dtype values => ⟨["static".toList, "const".toList], dtype, name, some (showNat values.length), some (.flat (values.map (litExpr · dtype)) false)⟩

def Item.name : Item → List Char
  | .const n _ => n
  | .arr n _ _ _ => n

/-- A declaration that works: a name that is allowed, a size that is the number of values. -/
def Item.Ok : Item → Prop
  | .const name _ => Nm name
  | .arr name size dtype values => Nm name ∧ size = values.length ∧ (dtype = "float".toList ∨ dtype = "int".toList)

/-- Every word of the declaration fits on a line of `width` characters. -/
def Item.Fits (width : Nat) : Item → Prop
  | .const name val => 6 ≤ width ∧ name.length ≤ width ∧ (showInt (trunc val)).length + 1 ≤ width
  | .arr name _ dtype values => 6 ≤ width ∧ name.length + (showNat values.length).length + 2 ≤ width ∧ ∀ v ∈ values, (constant (fun _ => []) v dtype).length + 1 ≤ width

theorem numType_of {dtype : List Char} (h : dtype = "float".toList ∨ dtype = "int".toList) : NumType dtype ∧ IsWord dtype ∧ isType dtype = true := by
  rcases h with rfl | rfl
  · exact ⟨.inl rfl, by constructor <;> decide +kernel, by decide +kernel⟩
  · exact ⟨.inr (by decide +kernel), by constructor <;> decide +kernel, by decide +kernel⟩

theorem Item.decl_ok {i : Item} (h : i.Ok) : i.decl.Ok := by
  cases i with
  | const name val =>
    refine ⟨by show ∀ m ∈ ["static".toList, "const".toList], isMod m = true; decide +kernel, by show isType "int".toList = true; decide +kernel, h, (by intro n hn; cases hn), ?_⟩
    intro e he
    cases he
    exact (litExpr_ok _ _).2
  | arr name size dtype values =>
    refine ⟨by show ∀ m ∈ ["static".toList, "const".toList], isMod m = true; decide +kernel, (numType_of h.2.2).2.2, h.1, Net.CText.num_size _, ?_⟩
    intro e he
    cases he
    refine ⟨?_, fun _ => rfl⟩
    intro x hx
    obtain ⟨v, -, rfl⟩ := List.mem_map.1 hx
    exact (litExpr_ok _ _).2

set_option simprocs false in
theorem Item.lexes (other : ℚ → List Char) {i : Item} (h : i.Ok) : ∃ t, i.text other = some t ∧ Lexes t i.decl.print := by
  cases i with
  | const name val =>
    refine ⟨_, rfl, ?_⟩
    have k1 := lexes_sgn_chain (litSgn val "int".toList) (litSgn_word val _) "; ".toList [.sym ';'] (by decide +kernel) Lexes.nil
    have k2 := lexes_word_chain name (isName_word h.1) " = ".toList [.sym '='] (by decide +kernel) k1
    have k := lexes_lit_chain "static const int ".toList [.word "static".toList, .word "const".toList, .word "int".toList] (by decide +kernel) k2
    refine k.congr ?_ ?_
    · unfold constantDeclare
      rw [constant_sgn other val _ (.inr (by decide +kernel)), show "static const int ".toList = "static const ".toList ++ ("int".toList ++ [' ']) by decide +kernel]
      simp only [List.append_assoc, List.append_nil]
    · unfold Item.decl Decl.print Init.print
      simp only [List.map_cons, List.map_nil, List.append_assoc, List.nil_append, List.cons_append, List.append_nil]
  | arr name size dtype values =>
    obtain ⟨h1, h2, h3⟩ := h
    have hs : ∃ t, arrayDeclare other name (some (values.length : Int)) dtype "static const".toList (some values) [] [] = some t := by
      unfold arrayDeclare
      simp only [Option.getD_some, if_true]
      exact ⟨_, rfl⟩
    obtain ⟨t, ht⟩ := hs
    refine ⟨t, by unfold Item.text; rw [h2]; exact ht, ?_⟩
    refine arrayDeclare_lexes other name dtype ["static".toList, "const".toList] values t h1.1 (numType_of h3).2.1 (numType_of h3).1 (by
      intro w hw; simp only [List.mem_cons, List.not_mem_nil, or_false] at hw; rcases hw with rfl | rfl <;> constructor <;> decide +kernel) ?_
    rw [show [' '].intercalate ["static".toList, "const".toList] = "static const".toList by decide +kernel]
    exact ht

theorem items_lexes (other : ℚ → List Char) (items : List Item) (h : ∀ i ∈ items, i.Ok) (sep : List Char) (hsep : Lexes sep []) :
    ∃ ts, items.mapM (Item.text other) = some ts ∧ ts.length = items.length ∧ Lexes (sep.intercalate ts) (printProg (items.map fun i => .decl i.decl)) ∧ ∀ t ∈ ts, ∃ i ∈ items, i.text other = some t := by
  have key : ∃ ts, items.mapM (Item.text other) = some ts ∧ ts.length = items.length ∧ (∀ p ∈ ts.zip items, Lexes p.1 p.2.decl.print) ∧ ∀ t ∈ ts, ∃ i ∈ items, i.text other = some t := by
    induction items with
    | nil => exact ⟨[], rfl, rfl, by simp, by simp⟩
    | cons i r ih =>
      obtain ⟨t, h1, h2⟩ := Item.lexes other (h i (by simp))
      obtain ⟨ts, h3, h4, h5, h6⟩ := ih fun j hj => h j (by simp [hj])
      refine ⟨t :: ts, by rw [List.mapM_cons, h1, h3]; rfl, by simp [h4], ?_, ?_⟩
      · intro p hp
        rw [List.zip_cons_cons, List.mem_cons] at hp
        rcases hp with rfl | hp
        · exact h2
        · exact h5 p hp
      · intro u hu
        rcases List.mem_cons.1 hu with rfl | hu
        · exact ⟨i, by simp, h1⟩
        · obtain ⟨j, hj, e⟩ := h6 u hu
          exact ⟨j, by simp [hj], e⟩
  obtain ⟨ts, h1, h2, h3, h4⟩ := key
  refine ⟨ts, h1, h2, ?_, h4⟩
  have := lexes_join sep hsep (fun p : List Char × Item => p.1) (fun p => p.2.decl.print) (ts.zip items) h3
  have e1 : (ts.zip items).map (fun p => p.1) = ts := List.map_fst_zip (by omega)
  have e2 : (ts.zip items).map (fun p => p.2) = items := List.map_snd_zip (by omega)
  rw [e1] at this
  refine this.congr rfl ?_
  unfold printProg
  conv_lhs => rw [← e2]
  rw [List.map_map, List.flatMap_map]
  rfl

/-! ### Wrapping and reading -/

/-- The reader at a separator. -/
theorem lexFrom_sep (a : List Char) (c : Char) (hc : white c = true) (b : List Char) (h : ∀ x ∈ a, x ≠ '#' ∧ x ≠ '/') (cur : List Char) : lexFrom (a ++ c :: b) cur false = lexFrom a cur false ++ lex b := by
  have hj : ∀ cur, joins cur c = false := by
    intro cur
    have : c = ' ' ∨ c = '\n' ∨ c = '\t' := by
      unfold white at hc
      simp only [Bool.or_eq_true, beq_iff_eq] at hc
      tauto
    rcases this with rfl | rfl | rfl <;> simp [joins, wordChar, identRest, identFirst]
  induction a generalizing cur with
  | nil =>
    show lexFrom (c :: b) cur false = flush cur [] ++ lex b
    rw [lexFrom.eq_3, if_neg (by rw [hj]; decide), if_pos hc]
    unfold flush lex
    split <;> rfl
  | cons x r ih =>
    have ihr := ih fun y hy => h y (by simp [hy])
    obtain ⟨h1, h2⟩ := h x (by simp)
    rw [List.cons_append, lexFrom, lexFrom]
    split
    · exact ihr _
    · split
      · rw [ihr]; unfold flush; split <;> rfl
      · have c1 : ¬ (x == '#') = true := by simpa using h1
        have c2 : ∀ d, ¬ (x == '/' && d) = true := by intro d; simp [h2]
        rw [if_neg c1, if_neg (c2 _), if_neg c1, if_neg (c2 _), ihr]
        unfold flush; split <;> rfl

/-- What is read depends only on the words, if there are no comments and directives. -/
theorem lex_words (s cur : List Char) (h : ∀ x ∈ s, x ≠ '#' ∧ x ≠ '/' ∧ (Textwrap.ws x = true → white x = true)) (hcur : ∀ x ∈ cur, x ≠ '#' ∧ x ≠ '/') :
    lex (cur ++ s) = (wordsFrom s cur).flatMap lex := by
  induction s generalizing cur with
  | nil =>
    rw [List.append_nil, wordsFrom, flushW]
    split
    · rename_i hc; rw [hc]; rfl
    · simp
  | cons c r ih =>
    rw [wordsFrom]
    split
    · rename_i hc
      have := lexFrom_sep cur c ((h c (by simp)).2.2 hc) r hcur []
      have hr := ih [] (fun x hx => h x (by simp [hx])) (by simp)
      rw [List.nil_append] at hr
      unfold lex at *
      rw [this, hr, flushW]
      split
      · rename_i hn; rw [hn]; rfl
      · simp
    · have := ih (cur ++ [c]) (fun x hx => h x (by simp [hx])) (by
        intro x hx
        rcases List.mem_append.1 hx with hx | hx
        · exact hcur x hx
        · rw [List.mem_singleton.1 hx]; exact ⟨(h c (by simp)).1, (h c (by simp)).2.1⟩)
      rwa [List.append_assoc] at this

/-- Characters of the generated declarations. -/
def plain (c : Char) : Bool := c != '#' && c != '/' && (!Textwrap.ws c || white c)

theorem plain_spec {c : Char} (h : plain c = true) : c ≠ '#' ∧ c ≠ '/' ∧ (Textwrap.ws c = true → white c = true) := by
  unfold plain at h
  simp only [Bool.and_eq_true, bne_iff_ne, ne_eq, Bool.or_eq_true, Bool.not_eq_true'] at h
  refine ⟨h.1.1, h.1.2, fun hw => ?_⟩
  rcases h.2 with h | h
  · rw [hw] at h; cases h
  · exact h

theorem wrapped_some (replace : Bool) (text : List Char) (width : Nat) (hw : 0 < width) :
    ∃ t, wrapped replace text width = some t ∧ t = ['\n'].intercalate (wrapLoop width (munge replace text).length (chunks (munge replace text)) []) := by
  refine ⟨_, ?_, rfl⟩
  unfold wrapped wrap
  rw [if_neg (by omega)]
  simp

theorem wrapped_words (replace : Bool) (text : List Char) (width : Nat) (hw : 0 < width) (h : ∀ w ∈ words text, w.length ≤ width) (t : List Char) (ht : wrapped replace text width = some t) :
    words t = words text := by
  obtain ⟨t', e1, e2⟩ := wrapped_some replace text width hw
  rw [ht] at e1
  injection e1 with e1
  rw [e1, e2, words_join]
  have hc := words_flatten _ (chunks_chunk (munge replace text)) (chunks_sep _)
  rw [chunks_flatten, words_munge] at hc
  rw [wrapLoop_words width hw _ _ _ (chunks_chunk _) (chunks_sep _) ?_ (by rw [chunks_flatten]), ← hc]
  · simp
  · intro c hm hb
    refine h c ?_
    rw [hc]
    exact List.mem_filter.2 ⟨hm, by rw [hb]; rfl⟩

theorem wrapped_chars (replace : Bool) (text : List Char) (width : Nat) (hw : 0 < width) (t : List Char) (ht : wrapped replace text width = some t) : ∀ x ∈ t, x ∈ text ∨ x = ' ' ∨ x = '\n' := by
  obtain ⟨t', e1, e2⟩ := wrapped_some replace text width hw
  rw [ht] at e1
  injection e1 with e1
  rw [e1, e2]
  intro x hx
  have key : ∀ ls : List (List Char), x ∈ ['\n'].intercalate ls → x = '\n' ∨ ∃ l ∈ ls, x ∈ l := by
    intro ls
    induction ls with
    | nil => intro h; simp [List.intercalate] at h
    | cons l ls ih =>
      cases ls with
      | nil => intro h; right; exact ⟨l, by simp, by simpa [List.intercalate] using h⟩
      | cons m ms =>
        intro h
        have e : ['\n'].intercalate (l :: m :: ms) = l ++ '\n' :: ['\n'].intercalate (m :: ms) := by simp [List.intercalate]
        rw [e, List.mem_append, List.mem_cons] at h
        rcases h with h | h | h
        · exact .inr ⟨l, by simp, h⟩
        · exact .inl h
        · rcases ih h with h | ⟨k, hk, h⟩
          · exact .inl h
          · exact .inr ⟨k, by simp [List.mem_cons.1 hk], h⟩
  rcases key _ hx with h | ⟨l, hl, h⟩
  · exact .inr (.inr h)
  · rcases wrapLoop_chars width _ _ _ l hl x h with h | h
    · rw [chunks_flatten] at h
      rcases munge_chars replace text x h with h | h
      · exact .inl h
      · exact .inr (.inl h)
    · simp at h

/-- Wrapping does not change what a C compiler reads. -/
theorem wrapped_lex (replace : Bool) (text : List Char) (width : Nat) (hw : 0 < width) (h : ∀ w ∈ words text, w.length ≤ width) (hp : ∀ x ∈ text, plain x = true) (t : List Char)
    (ht : wrapped replace text width = some t) : lex t = lex text := by
  have h1 := lex_words text [] (fun x hx => plain_spec (hp x hx)) (by simp)
  have h2 := lex_words t [] (fun x hx => by
    rcases wrapped_chars replace text width hw t ht x hx with h | h | h
    · exact plain_spec (hp x h)
    · rw [h]; exact plain_spec (by decide)
    · rw [h]; exact plain_spec (by decide)) (by simp)
  rw [List.nil_append] at h1 h2
  have := wrapped_words replace text width hw h t ht
  unfold words at this
  rw [h1, h2, this]

/-! ### Words of the declarations -/

theorem wordChar_plain {c : Char} (h : wordChar c = true) : Textwrap.ws c = false ∧ c ≠ '-' ∧ plain c = true := by
  have hne : ∀ d : Char, wordChar d = false → c ≠ d := fun d hd => wordChar_ne h hd
  have e : Textwrap.ws c = false := by
    unfold Textwrap.ws
    simp only [Bool.or_eq_false_iff, beq_eq_false_iff_ne]
    exact ⟨⟨⟨⟨⟨hne _ (by decide), hne _ (by decide)⟩, hne _ (by decide)⟩, hne _ (by decide)⟩, hne _ (by decide)⟩, hne _ (by decide)⟩
  refine ⟨e, hne _ (by decide), ?_⟩
  unfold plain
  rw [e]
  simp [hne '#' (by decide), hne '/' (by decide)]

theorem litMag_chars (v : ℚ) (dtype : List Char) : litMag v dtype ≠ [] ∧ ∀ c ∈ litMag v dtype, wordChar c = true := by
  refine ⟨(isWord_litMag v dtype).1, ?_⟩
  unfold litMag
  split
  · intro c hc
    simp only [List.mem_append, List.mem_cons, padZeros, List.mem_replicate, List.append_assoc, List.cons_append] at hc
    rcases hc with hc | rfl | hc | hc | rfl | hc
    · exact digit_wordChar (showNat_digits hc)
    · decide
    · rw [hc.2]; decide
    · exact digit_wordChar (showNat_digits hc)
    · decide
    · cases hc
  · exact fun c hc => digit_wordChar (showNat_digits hc)

/-- A word of the generated text: no white space, no comment, a hyphen at most in front. -/
structure GenWord (w : List Char) : Prop where
  ne : w ≠ []
  plain : ∀ c ∈ w, Textwrap.ws c = false ∧ plain c = true
  hyphen : '-' ∉ w.tail

theorem genWord_append {w s : List Char} (h : GenWord w) (hs : ∀ c ∈ s, Textwrap.ws c = false ∧ plain c = true ∧ c ≠ '-') : GenWord (w ++ s) := by
  refine ⟨by simp [h.ne], ?_, ?_⟩
  · intro c hc
    rcases List.mem_append.1 hc with hc | hc
    · exact h.plain c hc
    · exact ⟨(hs c hc).1, (hs c hc).2.1⟩
  · cases w with
    | nil => exact absurd rfl h.ne
    | cons a r =>
      rw [List.cons_append, List.tail_cons, List.mem_append]
      rintro (h1 | h1)
      · exact h.hyphen h1
      · exact (hs _ h1).2.2 rfl

theorem genWord_chars {w : List Char} (hne : w ≠ []) (h : ∀ c ∈ w, wordChar c = true) : GenWord w :=
  ⟨hne, fun c hc => ⟨(wordChar_plain (h c hc)).1, (wordChar_plain (h c hc)).2.2⟩, fun hm => (wordChar_plain (h _ (List.mem_of_mem_tail hm))).2.1 rfl⟩

theorem genWord_lit (v : ℚ) (dtype : List Char) : GenWord (sgnText (litSgn v dtype)) := by
  obtain ⟨h1, h2⟩ := litMag_chars v dtype
  unfold sgnText litSgn
  simp only
  split
  · refine ⟨by simp, ?_, ?_⟩
    · intro c hc
      rcases List.mem_cons.1 hc with rfl | hc
      · exact ⟨by decide, by decide⟩
      · exact ⟨(wordChar_plain (h2 c hc)).1, (wordChar_plain (h2 c hc)).2.2⟩
    · rw [List.tail_cons]
      exact fun hm => (wordChar_plain (h2 _ hm)).2.1 rfl
  · exact genWord_chars h1 h2

theorem genWord_name {n : List Char} (h : isName n = true) : GenWord n := by
  cases n with
  | nil => cases h
  | cons c r =>
    refine genWord_chars (by simp) ?_
    simp only [isName, Bool.and_eq_true, List.all_eq_true] at h
    intro d hd
    rcases List.mem_cons.1 hd with rfl | hd
    · simp [wordChar, identRest, h.1]
    · simp [wordChar, h.2 d hd]

/-- Words with blanks between them and an end. -/
theorem words_joined (ws : List (List Char)) (h : ∀ w ∈ ws, GenWord w) : words ([' '].intercalate ws) = ws := by
  induction ws with
  | nil => rfl
  | cons w r ih =>
    have hr := ih fun v hv => h v (by simp [hv])
    have hw := h w (by simp)
    cases r with
    | nil =>
      rw [show [' '].intercalate [w] = w by simp [List.intercalate]]
      exact words_solid w (fun c hc => (hw.plain c hc).1) hw.ne
    | cons v r =>
      have e : [' '].intercalate (w :: v :: r) = w ++ ' ' :: [' '].intercalate (v :: r) := by simp [List.intercalate]
      rw [e, words_cons w (fun c hc => (hw.plain c hc).1) hw.ne ' ' (by decide), hr]

/-- The list of values: every value but the last has a comma. -/
def commas (ls : List (List Char)) : List (List Char) :=
  match ls with
  | [] => []
  | [a] => [a]
  | a :: r => (a ++ [',']) :: commas r

theorem commas_joined (ls : List (List Char)) : [' '].intercalate (commas ls) = [',', ' '].intercalate ls := by
  induction ls with
  | nil => rfl
  | cons a r ih =>
    cases r with
    | nil => rfl
    | cons b r =>
      have hc : commas (b :: r) ≠ [] := by cases r <;> simp [commas]
      have e1 : [',', ' '].intercalate (a :: b :: r) = a ++ ',' :: ' ' :: [',', ' '].intercalate (b :: r) := by simp [List.intercalate]
      rw [e1, ← ih, show commas (a :: b :: r) = (a ++ [',']) :: commas (b :: r) from rfl]
      cases hcs : commas (b :: r) with
      | nil => exact absurd hcs hc
      | cons x xs => simp [List.intercalate]

theorem mem_commas {ls : List (List Char)} {w : List Char} (h : w ∈ commas ls) : ∃ a ∈ ls, w = a ∨ w = a ++ [','] := by
  induction ls with
  | nil => cases h
  | cons a r ih =>
    cases r with
    | nil => exact ⟨a, by simp, .inl (by simpa [commas] using h)⟩
    | cons b r =>
      rw [show commas (a :: b :: r) = (a ++ [',']) :: commas (b :: r) from rfl, List.mem_cons] at h
      rcases h with h | h
      · exact ⟨a, by simp, .inr h⟩
      · obtain ⟨x, hx, e⟩ := ih h
        exact ⟨x, by simp [List.mem_cons.1 hx], e⟩

theorem join_append (a b : List (List Char)) (hb : b ≠ []) : [' '].intercalate (a ++ b) = (a.flatMap fun w => w ++ [' ']) ++ [' '].intercalate b := by
  induction a with
  | nil => rfl
  | cons w r ih =>
    have : r ++ b ≠ [] := by simp [hb]
    rw [List.cons_append, List.flatMap_cons, List.append_assoc, List.append_assoc, ← ih]
    cases hr : r ++ b with
    | nil => exact absurd hr this
    | cons x xs => simp [List.intercalate]

/-- The words of a declaration. -/
def Item.words : Item → List (List Char)
  | .const name val => ["static".toList, "const".toList, "int".toList, name, "=".toList, sgnText (litSgn val "int".toList) ++ [';']]
  | .arr name _ dtype values => ["static".toList, "const".toList, dtype, name ++ '[' :: (showNat values.length ++ [']']), "=".toList, "{".toList] ++ commas (values.map fun v => sgnText (litSgn v dtype)) ++ ["};".toList]

theorem genWord_const {s : List Char} (h : (s != [] && s.all (fun c => !Textwrap.ws c && plain c && c != '-')) = true) : GenWord s := by
  simp only [Bool.and_eq_true, bne_iff_ne, ne_eq, List.all_eq_true, Bool.not_eq_true'] at h
  refine ⟨h.1, fun c hc => (h.2 c hc).1, fun hm => (h.2 _ (List.mem_of_mem_tail hm)).2 rfl⟩

theorem commas_ne {ls : List (List Char)} (h : ls ≠ []) : commas ls ≠ [] := by
  cases ls with
  | nil => exact absurd rfl h
  | cons a r => cases r <;> simp [commas]

set_option simprocs false in
/-- The text of a declaration with values is made of its words. -/
theorem Item.text_words (other : ℚ → List Char) {i : Item} (h : i.Ok) (hv : ∀ n s d vs, i = .arr n s d vs → vs ≠ []) (t : List Char) (ht : i.text other = some t) :
    (t = [' '].intercalate i.words ∨ t = [' '].intercalate i.words ++ [' ']) ∧ (∀ w ∈ i.words, GenWord w) ∧ i.words ≠ [] := by
  have g1 : GenWord "static".toList := genWord_const (by decide +kernel)
  have g2 : GenWord "const".toList := genWord_const (by decide +kernel)
  have g3 : GenWord "=".toList := genWord_const (by decide +kernel)
  have g4 : GenWord "{".toList := genWord_const (by decide +kernel)
  have g5 : GenWord "};".toList := genWord_const (by decide +kernel)
  have g6 : GenWord "int".toList := genWord_const (by decide +kernel)
  have g7 : GenWord "float".toList := genWord_const (by decide +kernel)
  cases i with
  | const name val =>
    have hn := genWord_name h.1
    refine ⟨.inr ?_, ?_, List.cons_ne_nil _ _⟩
    · simp only [Item.text, Option.some.injEq] at ht
      rw [← ht]
      unfold constantDeclare Item.words
      rw [constant_sgn other val _ (.inr (by decide +kernel)), show "static const ".toList = "static".toList ++ ([' '] ++ ("const".toList ++ [' '])) by decide +kernel,
        show " = ".toList = [' '] ++ ("=".toList ++ [' ']) by decide +kernel, show "; ".toList = [';'] ++ [' '] by decide +kernel]
      simp only [List.intercalate, List.intersperse, List.flatten_cons, List.flatten_nil, List.append_assoc, List.append_nil]
    · intro w hw
      simp only [Item.words, List.mem_cons, List.not_mem_nil, or_false] at hw
      rcases hw with rfl | rfl | rfl | rfl | rfl | rfl
      · exact g1
      · exact g2
      · exact g6
      · exact hn
      · exact g3
      · exact genWord_append (genWord_lit _ _) (by intro c hc; rw [List.mem_singleton.1 hc]; decide)
  | arr name size dtype values =>
    obtain ⟨h1, h2, h3⟩ := h
    have hn := genWord_name h1.1
    have hvs := hv name size dtype values rfl
    refine ⟨.inl ?_, ?_, List.cons_ne_nil _ _⟩
    · simp only [Item.text, h2] at ht
      unfold arrayDeclare at ht
      simp only [Option.getD_some, if_true, Option.some.injEq] at ht
      have es : showSize (some (values.length : Int)) = showNat values.length := by simp [showSize, showInt]
      have em : values.map (fun v => constant other v dtype) = values.map fun v => sgnText (litSgn v dtype) := List.map_congr_left fun v _ => constant_sgn other v dtype (numType_of h3).1
      rw [es, em] at ht
      rw [← ht]
      unfold Item.words
      rw [join_append (_ ++ _) _ (by simp), List.flatMap_append]
      have hcj := commas_joined (values.map fun v => sgnText (litSgn v dtype))
      have hce : (commas (values.map fun v => sgnText (litSgn v dtype))).flatMap (fun w => w ++ [' ']) = [',', ' '].intercalate (values.map fun v => sgnText (litSgn v dtype)) ++ [' '] := by
        rw [← hcj]
        generalize hc : commas (values.map fun v => sgnText (litSgn v dtype)) = C
        have hC : C ≠ [] := by rw [← hc]; exact commas_ne (by simpa using hvs)
        clear hc hcj
        induction C with
        | nil => exact absurd rfl hC
        | cons a r ih =>
          cases r with
          | nil => simp [List.intercalate]
          | cons b r =>
            have e : [' '].intercalate (a :: b :: r) = a ++ ' ' :: [' '].intercalate (b :: r) := by simp [List.intercalate]
            rw [List.flatMap_cons, ih (List.cons_ne_nil _ _), e]
            simp only [List.append_assoc, List.cons_append, List.nil_append]
      rw [hce, show "static const".toList = "static".toList ++ ([' '] ++ "const".toList) by decide +kernel, show " = { ".toList = [' '] ++ ("=".toList ++ ([' '] ++ ("{".toList ++ [' ']))) by decide +kernel,
        show " }".toList = [' '] ++ ['}'] by decide +kernel, show "};".toList = ['}'] ++ [';'] by decide +kernel]
      generalize [',', ' '].intercalate (values.map fun v => sgnText (litSgn v dtype)) = L
      simp only [List.flatMap_cons, List.flatMap_nil, List.intercalate, List.intersperse, List.flatten_cons, List.flatten_nil, List.append_assoc, List.append_nil, List.nil_append, List.cons_append]
    · intro w hw
      simp only [Item.words, List.mem_append, List.mem_cons, List.not_mem_nil, or_false] at hw
      rcases hw with ((rfl | rfl | rfl | rfl | rfl | rfl) | hw) | rfl
      · exact g1
      · exact g2
      · rcases h3 with rfl | rfl
        · exact g7
        · exact g6
      · refine genWord_append hn ?_
        intro c hc
        simp only [List.mem_cons, List.mem_append, List.not_mem_nil, or_false] at hc
        rcases hc with rfl | hc | rfl
        · decide
        · have := wordChar_plain (digit_wordChar (showNat_digits hc)); exact ⟨this.1, this.2.2, this.2.1⟩
        · decide
      · exact g3
      · exact g4
      · obtain ⟨a, ha, e⟩ := mem_commas hw
        obtain ⟨v, -, rfl⟩ := List.mem_map.1 ha
        rcases e with rfl | rfl
        · exact genWord_lit _ _
        · exact genWord_append (genWord_lit _ _) (by intro c hc; rw [List.mem_singleton.1 hc]; decide)
      · exact g5

/-! ### Files -/

theorem words_sep_blank (a b sep : List Char) (hs : ∀ c ∈ sep, Textwrap.ws c = true) (hne : sep ≠ []) : Textwrap.words (a ++ (sep ++ b)) = Textwrap.words a ++ Textwrap.words b := by
  cases sep with
  | nil => exact absurd rfl hne
  | cons c r =>
    rw [List.cons_append, words_sep a c (hs c (by simp))]
    congr 1
    exact words_blank_append r (fun d hd => hs d (by simp [hd])) b

theorem words_join_sep (ts : List (List Char)) (sep : List Char) (hs : ∀ c ∈ sep, Textwrap.ws c = true) (hne : sep ≠ []) : Textwrap.words (sep.intercalate ts) = ts.flatMap Textwrap.words := by
  induction ts with
  | nil => rfl
  | cons t r ih =>
    cases r with
    | nil => simp [List.intercalate]
    | cons u r =>
      have e : sep.intercalate (t :: u :: r) = t ++ (sep ++ sep.intercalate (u :: r)) := by simp [List.intercalate]
      rw [e, words_sep_blank _ _ _ hs hne, ih]
      simp only [List.flatMap_cons]

/-- The arrays of the declarations have values. -/
def Item.Filled (i : Item) : Prop := ∀ n s d vs, i = .arr n s d vs → vs ≠ []

theorem Item.words_eq (other : ℚ → List Char) {i : Item} (h : i.Ok) (hv : i.Filled) (t : List Char) (ht : i.text other = some t) : Textwrap.words t = i.words := by
  obtain ⟨h1, h2, -⟩ := Item.text_words other h hv t ht
  rcases h1 with rfl | rfl
  · exact words_joined _ h2
  · rw [words_sep _ ' ' (by decide), words_joined _ h2, words_nil, List.append_nil]

theorem Item.chars (other : ℚ → List Char) {i : Item} (h : i.Ok) (hv : i.Filled) (t : List Char) (ht : i.text other = some t) : ∀ c ∈ t, plain c = true := by
  obtain ⟨h1, h2, -⟩ := Item.text_words other h hv t ht
  have key : ∀ ws : List (List Char), (∀ w ∈ ws, GenWord w) → ∀ c ∈ [' '].intercalate ws, plain c = true := by
    intro ws
    induction ws with
    | nil => intro _ c hc; simp [List.intercalate] at hc
    | cons w r ih =>
      intro hw c hc
      cases r with
      | nil => exact ((hw w (by simp)).plain c (by simpa [List.intercalate] using hc)).2
      | cons v r =>
        have e : [' '].intercalate (w :: v :: r) = w ++ ' ' :: [' '].intercalate (v :: r) := by simp [List.intercalate]
        rw [e, List.mem_append, List.mem_cons] at hc
        rcases hc with hc | rfl | hc
        · exact ((hw w (by simp)).plain c hc).2
        · decide
        · exact ih (fun x hx => hw x (by simp [List.mem_cons.1 hx])) c hc
  intro c hc
  rcases h1 with rfl | rfl
  · exact key _ h2 c hc
  · rcases List.mem_append.1 hc with hc | hc
    · exact key _ h2 c hc
    · rw [List.mem_singleton.1 hc]; decide

theorem Item.fits_words {width : Nat} {i : Item} (h : i.Ok) (hf : i.Fits width) : ∀ w ∈ i.words, w.length ≤ width := by
  have l1 : "static".toList.length = 6 ∧ "const".toList.length = 5 ∧ "int".toList.length = 3 ∧ "float".toList.length = 5 ∧ "=".toList.length = 1 ∧ "{".toList.length = 1 ∧ "};".toList.length = 2 := by decide +kernel
  obtain ⟨l1, l2, l3, l4, l5, l6, l7⟩ := l1
  cases i with
  | const name val =>
    obtain ⟨f1, f2, f3⟩ := hf
    have hl : sgnText (litSgn val "int".toList) = showInt (trunc val) := by
      have hne : "int".toList ≠ "float".toList := by decide +kernel
      rw [← constant_sgn (fun _ => []) val _ (.inr (by decide +kernel)), constant, if_neg hne, if_pos (by decide +kernel)]
    intro w hw
    simp only [Item.words, List.mem_cons, List.not_mem_nil, or_false] at hw
    rcases hw with rfl | rfl | rfl | rfl | rfl | rfl
    · omega
    · omega
    · omega
    · exact f2
    · omega
    · rw [hl, List.length_append, List.length_singleton]; exact f3
  | arr name size dtype values =>
    obtain ⟨f1, f2, f3⟩ := hf
    obtain ⟨h1, h2, h3⟩ := h
    intro w hw
    simp only [Item.words, List.mem_append, List.mem_cons, List.not_mem_nil, or_false] at hw
    rcases hw with ((rfl | rfl | rfl | rfl | rfl | rfl) | hw) | rfl
    · omega
    · omega
    · rcases h3 with rfl | rfl <;> omega
    · simp only [List.length_append, List.length_cons, List.length_nil]; omega
    · omega
    · omega
    · obtain ⟨a, ha, e⟩ := mem_commas hw
      obtain ⟨v, hv, rfl⟩ := List.mem_map.1 ha
      have := f3 v hv
      rw [constant_sgn _ v _ (numType_of h3).1] at this
      rcases e with rfl | rfl
      · omega
      · rw [List.length_append, List.length_singleton]; exact this
    · omega

/-- The declarations, joined, wrapped and with a preamble, are read as the declarations. -/
theorem file_parse (other : ℚ → List Char) (items : List Item) (hok : ∀ i ∈ items, i.Ok) (hv : ∀ i ∈ items, i.Filled) (sep pre post : List Char) (hsep : Lexes sep []) (hsb : ∀ c ∈ sep, Textwrap.ws c = true)
    (hsp : ∀ c ∈ sep, plain c = true) (hne : sep ≠ []) (hpre : Lexes pre []) (hpost : Lexes ('\n' :: post) []) (hps : post = [] ∨ ∃ r, post = '\n' :: r) (replace : Bool) (width : Nat) (hw : 0 < width)
    (hf : ∀ i ∈ items, i.Fits width) :
    ∃ ts t, items.mapM (Item.text other) = some ts ∧ wrapped replace (sep.intercalate ts) width = some t ∧ HyphenSafe (sep.intercalate ts) ∧
      parse (pre ++ t ++ post) = some (items.map fun i => .decl i.decl) := by
  obtain ⟨ts, h1, h2, h3, h4⟩ := items_lexes other items hok sep hsep
  obtain ⟨t, ht, -⟩ := wrapped_some replace (sep.intercalate ts) width hw
  have hwords : ∀ w ∈ Textwrap.words (sep.intercalate ts), ∃ i ∈ items, w ∈ i.words := by
    intro w hm
    rw [words_join_sep _ _ hsb hne, List.mem_flatMap] at hm
    obtain ⟨u, hu, hm⟩ := hm
    obtain ⟨i, hi, e⟩ := h4 u hu
    exact ⟨i, hi, by rw [← Item.words_eq other (hok i hi) (hv i hi) u e]; exact hm⟩
  have hchars : ∀ c ∈ sep.intercalate ts, plain c = true := by
    intro c hc
    have key : ∀ ls : List (List Char), c ∈ sep.intercalate ls → c ∈ sep ∨ ∃ l ∈ ls, c ∈ l := by
      intro ls
      induction ls with
      | nil => intro h; simp [List.intercalate] at h
      | cons l ls ih =>
        cases ls with
        | nil => intro h; right; exact ⟨l, by simp, by simpa [List.intercalate] using h⟩
        | cons m ms =>
          intro h
          have e : sep.intercalate (l :: m :: ms) = l ++ (sep ++ sep.intercalate (m :: ms)) := by simp [List.intercalate]
          rw [e, List.mem_append, List.mem_append] at h
          rcases h with h | h | h
          · exact .inr ⟨l, by simp, h⟩
          · exact .inl h
          · rcases ih h with h | ⟨k, hk, h⟩
            · exact .inl h
            · exact .inr ⟨k, by simp [List.mem_cons.1 hk], h⟩
    rcases key ts hc with h | ⟨u, hu, h⟩
    · exact hsp c h
    · obtain ⟨i, hi, e⟩ := h4 u hu
      exact Item.chars other (hok i hi) (hv i hi) u e c h
  have hlex := wrapped_lex replace (sep.intercalate ts) width hw (by
    intro w hm
    obtain ⟨i, hi, hm⟩ := hwords w hm
    exact Item.fits_words (hok i hi) (hf i hi) w hm) hchars t ht
  refine ⟨ts, t, h1, ht, ?_, ?_⟩
  · intro w hm
    obtain ⟨i, hi, hm⟩ := hwords w hm
    obtain ⟨u, e, -⟩ := Item.lexes other (hok i hi)
    exact ((Item.text_words other (hok i hi) (hv i hi) u e).2.1 w hm).hyphen
  · refine parse_eq _ _ ?_ ?_
    · intro x hx
      obtain ⟨i, hi, rfl⟩ := List.mem_map.1 hx
      exact Item.decl_ok (hok i hi)
    · rw [List.append_assoc, hpre, List.nil_append]
      have e1 : lex (t ++ post) = lex t := by
        rcases hps with rfl | ⟨r, rfl⟩
        · rw [List.append_nil]
        · have hch : ∀ x ∈ t, x ≠ '#' ∧ x ≠ '/' := by
            intro x hx
            rcases wrapped_chars replace _ width hw t ht x hx with h | h | h
            · exact ⟨(plain_spec (hchars x h)).1, (plain_spec (hchars x h)).2.1⟩
            · rw [h]; decide
            · rw [h]; decide
          have := lexFrom_sep t '\n' (by decide) r hch []
          have hr : lex r = [] := by
            have e := hpost []
            rw [List.append_nil] at e
            have a : lex ('\n' :: '\n' :: r) = lex ('\n' :: r) := lexFrom_sep [] '\n' (by decide) ('\n' :: r) (by simp) []
            have b : lex ('\n' :: r) = lex r := lexFrom_sep [] '\n' (by decide) r (by simp) []
            rw [a, b] at e
            exact e
          unfold lex at this hr ⊢
          rw [this, hr, List.append_nil]
      rw [e1, hlex]
      exact h3.lex

/-! ### Reading the variables -/

section
variable {F : Type}

/-- The number in the variable `x` of type `int`. -/
def readConst (ops : CFloat F) (prog : Prog) (x : List Char) : Option Int :=
  match globalsOf ops prog x with
  | some (.scalar ty (.int z)) => if ty = "int".toList then some z else none
  | _ => none

/-- The numbers in the array `x` of type `int`. -/
def readIntArr (ops : CFloat F) (prog : Prog) (x : List Char) : Option (List Int) :=
  match globalsOf ops prog x with
  | some (.array ty vs) => if ty = "int".toList then intsOf vs else none
  | _ => none

theorem find_item (items : List Item) (hnd : (items.map Item.name).Nodup) (i : Item) (hi : i ∈ items) : findDecl (items.map fun i => .decl i.decl) i.name = some i.decl := by
  have hname : ∀ i : Item, i.decl.name = i.name := by intro i; cases i <;> rfl
  have hnd' : ((items.map Item.decl).map (·.name)).Nodup := by
    rw [List.map_map]
    have : (fun d : MiniC.Decl => d.name) ∘ Item.decl = Item.name := funext hname
    rw [this]
    exact hnd
  have := Net.CText.findDecl_mem (items.map Item.decl) [] (by simp) hnd' i.decl (List.mem_map_of_mem hi)
  rw [List.append_nil, List.map_map, hname] at this
  exact this

theorem read_const (ops : CFloat F) (items : List Item) (hnd : (items.map Item.name).Nodup) (name : List Char) (v : ℚ) (hi : Item.const name v ∈ items) (hv : (trunc v).natAbs ≤ 2147483647) :
    readConst ops (items.map fun i => .decl i.decl) name = some (trunc v) := by
  have hf := find_item items hnd _ hi
  have hf' : findDecl (items.map fun i => .decl i.decl) name = some (Item.const name v).decl := hf
  have hne : "int".toList ≠ "float".toList := by decide +kernel
  unfold readConst globalsOf
  rw [hf']
  simp only [Item.decl, declare, Option.isSome_none, Decl.selfUse, Bool.false_or]
  have hu : (litExpr v "int".toList).uses name = false := sgnExpr_uses _ _
  rw [hu, if_neg (by decide), evalTop_eq ops _ _ _ (.int (trunc v)) (by
    intro f a h
    unfold litExpr sgnExpr at h
    split at h <;> cases h) (eval_litExpr_int ops _ _ v _ hne hv)]
  simp only
  rw [conv_int32 ops (.inl rfl) _ (by omega) (by omega)]
  simp only [Option.map_some, Option.bind_some, Env.set_same, if_true]

theorem read_floats (ops : CFloat F) (items : List Item) (hnd : (items.map Item.name).Nodup) (name : List Char) (size : Int) (vs : List ℚ) (hne : vs ≠ []) (hi : Item.arr name size "float".toList vs ∈ items) :
    Net.CText.readFloats ops (items.map fun i => .decl i.decl) name = some (vs.map (floatLit ops)) := by
  have hf := find_item items hnd _ hi
  have hf' : findDecl (items.map fun i => .decl i.decl) name = some (Net.CText.floatArr name vs) := hf
  unfold Net.CText.readFloats globalsOf
  rw [hf']
  simp only
  rw [Net.CText.declare_floatArr ops _ name vs hne _ rfl, Option.bind_some, Env.set_same]
  simp only [if_true]
  have := Net.CText.fltsOf_flts (vs.map (floatLit ops))
  rw [List.map_map] at this
  exact this

theorem read_ints (ops : CFloat F) (items : List Item) (hnd : (items.map Item.name).Nodup) (name : List Char) (size : Int) (vs : List ℚ) (hne : vs ≠ []) (hi : Item.arr name size "int".toList vs ∈ items)
    (hv : ∀ v ∈ vs, (trunc v).natAbs ≤ 2147483647) : readIntArr ops (items.map fun i => .decl i.decl) name = some (vs.map trunc) := by
  have hf := find_item items hnd _ hi
  have hf' : findDecl (items.map fun i => .decl i.decl) name = some (Item.arr name size "int".toList vs).decl := hf
  have hnf : "int".toList ≠ "float".toList := by decide +kernel
  have huse : ((vs.map (litExpr · "int".toList)).any fun e => e.uses name) = false := by
    unfold litExpr
    exact sgnExprs_uses _ vs name
  have he : ∀ (ctx : Ctx F) (env : Env F), (vs.map (litExpr · "int".toList)).mapM (eval ops ctx env) = some (vs.map fun v => .int (trunc v)) := by
    intro ctx env
    clear hne huse hi hf hf'
    induction vs with
    | nil => rfl
    | cons v l ih => rw [List.map_cons, List.mapM_cons, eval_litExpr_int ops ctx env v _ hnf (hv v (by simp)), ih fun w hw => hv w (by simp [hw])]; rfl
  have hc : (vs.map fun v => (.int (trunc v) : Val F)).mapM (conv ops "int".toList) = some (vs.map fun v => .int (trunc v)) := by
    clear hne huse he hi hf hf'
    induction vs with
    | nil => rfl
    | cons v l ih =>
      have := hv v (by simp)
      rw [List.map_cons, List.mapM_cons, conv_int32 ops (.inl rfl) _ (by omega) (by omega), ih fun w hw => hv w (by simp [hw])]; rfl
  unfold readIntArr globalsOf
  rw [hf']
  simp only [Item.decl, declare, Decl.selfUse, huse, Bool.or_self, Option.isSome_none, Bool.false_eq_true, if_false, readNat_showNat, he]
  rw [if_pos ⟨by simpa using hne, by simp⟩, hc, conv_int32 ops (.inl rfl) 0 (by omega) (by omega)]
  simp only [List.length_map, Nat.sub_self, List.replicate_zero, List.append_nil, List.map_map, Option.bind_some, Env.set_same, if_true]
  have := intsOf_ints (F := F) (vs.map trunc)
  rw [List.map_map] at this
  exact this
end

end Emlearn.Tools
