/- Model of Python's `textwrap.wrap` as `emlearn/tools/window_function.py` (47) and `emlearn/tools/mel_filterbank.py` (27) call it, and what it does to the words of a text.
The function is in the Python standard library (`textwrap.py`, class `TextWrapper`: `_munge_whitespace`, `_split`, `_wrap_chunks`, `_handle_long_word`), with the default options and with
`replace_whitespace` on or off. Simplification: words are not split at hyphens (`break_on_hyphens`); the regular expression does that only behind at least one character of the word that comes before the hyphen,
so that the model is the function on texts in which a hyphen only begins a word (`HyphenSafe`), which is proved of the generated texts. -/
import Verif.MiniC.Lex
namespace Emlearn.Textwrap

/-- `_whitespace`: tab, newline, vertical tab, form feed, carriage return, space. -/
def ws (c : Char) : Bool := c == '\t' || c == '\n' || c == '\x0b' || c == '\x0c' || c == '\r' || c == ' '

/-! ### Specification: words -/

def flushW (cur : List Char) (ws : List (List Char)) : List (List Char) := if cur = [] then ws else cur :: ws

def wordsFrom : List Char → List Char → List (List Char)
  | [], cur => flushW cur []
  | c :: r, cur => if ws c then flushW cur (wordsFrom r []) else wordsFrom r (cur ++ [c])

/-- The maximal runs of characters that are not white space. -/
def words (s : List Char) : List (List Char) := wordsFrom s []

/-- Hyphens only begin words. -/
def HyphenSafe (s : List Char) : Prop := ∀ w ∈ words s, '-' ∉ w.tail

instance (s : List Char) : Decidable (HyphenSafe s) := inferInstanceAs (Decidable (∀ w ∈ words s, '-' ∉ w.tail))

/-! ### Model -/

/-- `str.expandtabs()`: `col` is the column. -/
def expandTabs : Nat → List Char → List Char
  | _, [] => []
  | col, c :: r =>
    if c = '\t' then List.replicate (8 - col % 8) ' ' ++ expandTabs (col + (8 - col % 8)) r
    else c :: expandTabs (if c = '\n' ∨ c = '\r' then 0 else col + 1) r

/-- `_munge_whitespace`: tabs are expanded and, with `replace_whitespace`, every white space character becomes a space. -/
def munge (replace : Bool) (s : List Char) : List Char :=
  if replace then (expandTabs 0 s).map fun c => if ws c then ' ' else c else expandTabs 0 s

/-- `_split`: maximal runs of white space and of other characters. -/
def chunks : List Char → List (List Char)
  | [] => []
  | c :: r =>
    match chunks r with
    | (d :: w) :: cs => if ws c = ws d then (c :: d :: w) :: cs else [c] :: (d :: w) :: cs
    | cs => [c] :: cs

/-- `chunk.strip() == ''`. -/
def blank (c : List Char) : Bool := c.all ws

/-- The inner loop of `_wrap_chunks`: chunks that fit on the line, of which `len` characters are used, and the others. -/
def takeFit (width : Nat) : List (List Char) → Nat → List (List Char) × List (List Char)
  | [], _ => ([], [])
  | c :: cs, len =>
    if len + c.length ≤ width then (c :: (takeFit width cs (len + c.length)).1, (takeFit width cs (len + c.length)).2) else ([], c :: cs)

/-- `_handle_long_word`: a chunk that does not fit on any line is cut where the line ends. -/
def handleLong (width : Nat) (line : List (List Char)) : List (List Char) → List (List Char) × List (List Char)
  | [] => (line, [])
  | c :: cs => if width < c.length then (line ++ [c.take (width - line.flatten.length)], c.drop (width - line.flatten.length) :: cs) else (line, c :: cs)

/-- A blank chunk at the end of the line is dropped. -/
def dropTrail (line : List (List Char)) : List (List Char) :=
  match line.getLast? with
  | some c => if blank c then line.dropLast else line
  | none => line

/-- A blank chunk at the beginning of a line other than the first is dropped. -/
def dropLead (chs : List (List Char)) (lines : List (List Char)) : List (List Char) :=
  match chs with
  | c :: cs => if blank c && !lines.isEmpty then cs else c :: cs
  | [] => []

/-- `_wrap_chunks`: one line after the other. `fuel` bounds the number of lines; every line takes at least one character. -/
def wrapLoop (width : Nat) : Nat → List (List Char) → List (List Char) → List (List Char)
  | 0, _, lines => lines
  | _ + 1, [], lines => lines
  | fuel + 1, c :: cs, lines =>
    let fit := takeFit width (dropLead (c :: cs) lines) 0
    let cut := handleLong width fit.1 fit.2
    let line := dropTrail cut.1
    wrapLoop width fuel cut.2 (if line.isEmpty then lines else lines ++ [line.flatten])

/-- `textwrap.wrap(text, width)`; `none`: `ValueError` for a width that is not positive. -/
def wrap (replace : Bool) (text : List Char) (width : Int) : Option (List (List Char)) :=
  if width ≤ 0 then none
  else some (wrapLoop width.toNat (munge replace text).length (chunks (munge replace text)) [])

/-- `'\n'.join(textwrap.wrap(text, width))`. -/
def wrapped (replace : Bool) (text : List Char) (width : Int) : Option (List Char) := (wrap replace text width).map fun ls => ['\n'].intercalate ls

/-! ### Words -/

theorem wordsFrom_append (a : List Char) (c : Char) (hc : ws c = true) (b cur : List Char) : wordsFrom (a ++ c :: b) cur = wordsFrom a cur ++ words b := by
  induction a generalizing cur with
  | nil =>
    show wordsFrom (c :: b) cur = flushW cur [] ++ words b
    rw [wordsFrom.eq_2, if_pos hc]
    unfold flushW words
    split <;> rfl
  | cons x r ih =>
    rw [List.cons_append, wordsFrom, wordsFrom]
    split
    · rw [ih]
      unfold flushW
      split <;> rfl
    · exact ih _

theorem words_sep (a : List Char) (c : Char) (hc : ws c = true) (b : List Char) : words (a ++ c :: b) = words a ++ words b := wordsFrom_append a c hc b []

theorem words_nil : words [] = [] := rfl

theorem wordsFrom_solid (w cur : List Char) (h : ∀ c ∈ w, ws c = false) (b : List Char) : wordsFrom (w ++ b) cur = wordsFrom b (cur ++ w) := by
  induction w generalizing cur with
  | nil => rw [List.nil_append, List.append_nil]
  | cons c r ih =>
    rw [List.cons_append, wordsFrom, if_neg (by rw [h c (by simp)]; decide), ih _ (fun d hd => h d (by simp [hd])), List.append_assoc]
    rfl

theorem words_solid (w : List Char) (h : ∀ c ∈ w, ws c = false) (hne : w ≠ []) : words w = [w] := by
  have := wordsFrom_solid w [] h []
  rw [List.append_nil, List.nil_append] at this
  unfold words
  rw [this, wordsFrom, flushW, if_neg hne]

theorem words_blank_append (b : List Char) (h : ∀ c ∈ b, ws c = true) (s : List Char) : words (b ++ s) = words s := by
  induction b with
  | nil => rfl
  | cons c r ih =>
    have := words_sep [] c (h c (by simp)) (r ++ s)
    rw [List.nil_append, words_nil, List.nil_append] at this
    rw [List.cons_append, this]
    exact ih fun d hd => h d (by simp [hd])

theorem words_blank (b : List Char) (h : ∀ c ∈ b, ws c = true) : words b = [] := by
  have := words_blank_append b h []
  rwa [List.append_nil, words_nil] at this

/-- A word, a character of white space, and the rest. -/
theorem words_cons (w : List Char) (h : ∀ c ∈ w, ws c = false) (hne : w ≠ []) (c : Char) (hc : ws c = true) (b : List Char) : words (w ++ c :: b) = w :: words b := by
  rw [words_sep w c hc, words_solid w h hne]
  rfl

theorem wordsFrom_congr (f : Char → Char) (hf : ∀ c, ws (f c) = ws c) (hid : ∀ c, ws c = false → f c = c) (s cur : List Char) : wordsFrom (s.map f) cur = wordsFrom s cur := by
  induction s generalizing cur with
  | nil => rfl
  | cons c r ih =>
    rw [List.map_cons, wordsFrom, wordsFrom, hf c]
    split
    · rw [ih]
    · rename_i h
      rw [hid c (by simpa using h), ih]

theorem wordsFrom_replicate (n : Nat) (hn : 0 < n) (s cur : List Char) : wordsFrom (List.replicate n ' ' ++ s) cur = flushW cur (words s) := by
  obtain ⟨m, rfl⟩ : ∃ m, n = m + 1 := ⟨n - 1, by omega⟩
  rw [List.replicate_succ, List.cons_append, wordsFrom, if_pos (by decide)]
  have := words_blank_append (List.replicate m ' ') (by intro c hc; rw [List.eq_of_mem_replicate hc]; decide) s
  unfold words at this
  rw [this]
  rfl

theorem wordsFrom_expandTabs (s : List Char) (col : Nat) (cur : List Char) : wordsFrom (expandTabs col s) cur = wordsFrom s cur := by
  induction s generalizing col cur with
  | nil => rfl
  | cons c r ih =>
    rw [expandTabs]
    by_cases hc : c = '\t'
    · rw [if_pos hc, wordsFrom_replicate _ (by omega), hc, wordsFrom, if_pos (by decide)]
      unfold words
      rw [ih]
    · rw [if_neg hc, wordsFrom, wordsFrom]
      split
      · rw [ih]
      · exact ih _ _

theorem words_munge (replace : Bool) (s : List Char) : words (munge replace s) = words s := by
  unfold munge words
  cases replace
  · exact wordsFrom_expandTabs s 0 []
  · rw [if_pos rfl, wordsFrom_congr]
    · exact wordsFrom_expandTabs s 0 []
    · intro c
      split
      · rename_i h; rw [h]; decide
      · rfl
    · intro c hc
      rw [hc]
      rfl

theorem mem_wordsFrom (s cur w : List Char) (hcur : ∀ c ∈ cur, ws c = false) (h : w ∈ wordsFrom s cur) : w ≠ [] ∧ ∀ c ∈ w, ws c = false ∧ (c ∈ s ∨ c ∈ cur) := by
  induction s generalizing cur with
  | nil =>
    rw [wordsFrom, flushW] at h
    split at h
    · cases h
    · rename_i hne
      rw [List.mem_singleton] at h
      rw [h]
      exact ⟨hne, fun c hc => ⟨hcur c hc, .inr hc⟩⟩
  | cons x r ih =>
    rw [wordsFrom] at h
    split at h
    · rw [flushW] at h
      have hr : w ∈ wordsFrom r [] → w ≠ [] ∧ ∀ c ∈ w, ws c = false ∧ (c ∈ x :: r ∨ c ∈ cur) := by
        intro h
        obtain ⟨h1, h2⟩ := ih [] (by simp) h
        refine ⟨h1, fun c hc => ⟨(h2 c hc).1, ?_⟩⟩
        rcases (h2 c hc).2 with h | h
        · exact .inl (by simp [h])
        · cases h
      split at h
      · exact hr h
      · rename_i hne
        rcases List.mem_cons.1 h with rfl | h
        · exact ⟨hne, fun c hc => ⟨hcur c hc, .inr hc⟩⟩
        · exact hr h
    · rename_i hx
      obtain ⟨h1, h2⟩ := ih (cur ++ [x]) (by
        intro c hc
        rcases List.mem_append.1 hc with h | h
        · exact hcur c h
        · rw [List.mem_singleton.1 h]; simpa using hx) h
      refine ⟨h1, fun c hc => ⟨(h2 c hc).1, ?_⟩⟩
      rcases (h2 c hc).2 with h | h
      · exact .inl (by simp [h])
      · rcases List.mem_append.1 h with h | h
        · exact .inr h
        · exact .inl (by rw [List.mem_singleton.1 h]; simp)

theorem mem_words {s w : List Char} (h : w ∈ words s) : w ≠ [] ∧ ∀ c ∈ w, ws c = false ∧ c ∈ s := by
  obtain ⟨h1, h2⟩ := mem_wordsFrom s [] w (by simp) h
  exact ⟨h1, fun c hc => ⟨(h2 c hc).1, by rcases (h2 c hc).2 with h | h; exact h; cases h⟩⟩

/-! ### Chunks -/

/-- A chunk: not empty, and either white space or a word. -/
def Chunk (c : List Char) : Prop := c ≠ [] ∧ ((∀ x ∈ c, ws x = true) ∨ ∀ x ∈ c, ws x = false)

theorem chunks_flatten (s : List Char) : (chunks s).flatten = s := by
  induction s with
  | nil => rfl
  | cons c r ih =>
    rw [chunks]
    split
    · rename_i d w cs h
      rw [h] at ih
      split <;> simp [← ih]
    · rw [List.flatten_cons, ih]
      rfl

theorem chunks_chunk (s : List Char) : ∀ c ∈ chunks s, Chunk c := by
  induction s with
  | nil => simp [chunks]
  | cons c r ih =>
    have hsingle : Chunk [c] := ⟨by simp, by simp⟩
    rw [chunks]
    split
    · rename_i d w cs h
      rw [h] at ih
      have hd := ih (d :: w) (by simp)
      split
      · rename_i hcd
        intro x hx
        rcases List.mem_cons.1 hx with rfl | hx
        · refine ⟨by simp, ?_⟩
          rcases hd.2 with h2 | h2
          · left
            intro y hy
            rcases List.mem_cons.1 hy with rfl | hy
            · rw [hcd]; exact h2 d (by simp)
            · exact h2 y hy
          · right
            intro y hy
            rcases List.mem_cons.1 hy with rfl | hy
            · rw [hcd]; exact h2 d (by simp)
            · exact h2 y hy
        · exact ih x (by simp [hx])
      · intro x hx
        rcases List.mem_cons.1 hx with rfl | hx
        · exact hsingle
        · exact ih x hx
    · intro x hx
      rcases List.mem_cons.1 hx with rfl | hx
      · exact hsingle
      · exact ih x hx

/-- Two words are not next to each other. -/
def Sep : List (List Char) → Prop
  | a :: b :: r => (blank a = true ∨ blank b = true) ∧ Sep (b :: r)
  | _ => True

theorem blank_cons (c : Char) (w : List Char) : blank (c :: w) = (ws c && blank w) := by simp [blank]

theorem blank_of_chunk {c : Char} {w : List Char} (h : Chunk (c :: w)) : blank (c :: w) = ws c := by
  rcases h.2 with h | h
  · rw [h c (by simp)]
    exact List.all_eq_true.2 h
  · rw [h c (by simp)]
    rw [blank_cons, h c (by simp)]
    rfl

theorem chunks_sep (s : List Char) : Sep (chunks s) := by
  induction s with
  | nil => trivial
  | cons c r ih =>
    have hall := chunks_chunk r
    rw [chunks]
    split
    · rename_i d w cs h
      rw [h] at ih hall
      split
      · rename_i hcd
        cases cs with
        | nil => trivial
        | cons e es =>
          refine ⟨?_, ih.2⟩
          rcases ih.1 with h1 | h1
          · left
            rw [blank_of_chunk (hall (d :: w) (by simp))] at h1
            rw [blank_cons, hcd, h1, Bool.true_and, blank]
            have := (hall (d :: w) (by simp)).2
            rcases this with h2 | h2
            · exact List.all_eq_true.2 h2
            · rw [h2 d (by simp)] at h1; cases h1
          · exact .inr h1
      · rename_i hcd
        refine ⟨?_, ih⟩
        rw [blank_of_chunk (hall (d :: w) (by simp))]
        simp only [blank, List.all_cons, List.all_nil, Bool.and_true]
        cases h1 : ws c <;> cases h2 : ws d
        · rw [h1, h2] at hcd; exact absurd rfl hcd
        · exact .inr rfl
        · exact .inl rfl
        · exact .inl rfl
    · rename_i hno
      cases hcs : chunks r with
      | nil => trivial
      | cons e es =>
        cases e with
        | nil =>
          rw [hcs] at hall
          exact absurd rfl (hall [] (by simp)).1
        | cons d w => exact absurd hcs (hno d w es)

/-- The words of the chunks. -/
def wordChunks (cs : List (List Char)) : List (List Char) := cs.filter fun c => !blank c

theorem sep_tail {a : List Char} {r : List (List Char)} (h : Sep (a :: r)) : Sep r := by
  cases r with
  | nil => trivial
  | cons b r => exact h.2

theorem sep_append_left (a b : List (List Char)) (h : Sep (a ++ b)) : Sep a := by
  induction a with
  | nil => trivial
  | cons x r ih =>
    have ht := ih (sep_tail h)
    cases r with
    | nil => trivial
    | cons y r => exact ⟨h.1, ht⟩

theorem sep_append_right (a b : List (List Char)) (h : Sep (a ++ b)) : Sep b := by
  induction a with
  | nil => exact h
  | cons x r ih => exact ih (sep_tail h)

/-- Words of a sequence of chunks. -/
theorem words_flatten (cs : List (List Char)) (h : ∀ c ∈ cs, Chunk c) (hs : Sep cs) : words cs.flatten = wordChunks cs := by
  induction cs with
  | nil => rfl
  | cons c r ih =>
    have ihr := ih (fun d hd => h d (by simp [hd])) (sep_tail hs)
    obtain ⟨hne, hc⟩ := h c (by simp)
    rw [List.flatten_cons]
    cases c with
    | nil => exact absurd rfl hne
    | cons x w =>
      have hb := blank_of_chunk (h (x :: w) (by simp))
      rcases hc with hc | hc
      · rw [words_blank_append _ hc, ihr]
        rw [hc x (by simp)] at hb
        simp only [wordChunks, List.filter_cons, hb, Bool.not_true, Bool.false_eq_true, if_false]
      · rw [hc x (by simp)] at hb
        simp only [wordChunks, List.filter_cons, hb, Bool.not_false, if_true]
        cases r with
        | nil =>
          rw [List.flatten_nil, List.append_nil, words_solid _ hc hne]
          rfl
        | cons d r =>
          have hd : blank d = true := by
            rcases hs.1 with h1 | h1
            · rw [hb] at h1; cases h1
            · exact h1
          obtain ⟨hdne, -⟩ := h d (by simp)
          cases d with
          | nil => exact absurd rfl hdne
          | cons y v =>
            have hy : ws y = true := by
              rw [blank_cons, Bool.and_eq_true] at hd
              exact hd.1
            rw [List.flatten_cons, show (x :: w) ++ ((y :: v) ++ r.flatten) = (x :: w) ++ y :: (v ++ r.flatten) from rfl, words_cons (x :: w) hc hne y hy]
            congr 1
            have e := words_blank_append [y] (by simpa using hy) (v ++ r.flatten)
            rw [List.flatten_cons] at ihr
            exact e.symm.trans ihr

/-! ### Lines -/

theorem takeFit_append (width : Nat) (cs : List (List Char)) (len : Nat) : (takeFit width cs len).1 ++ (takeFit width cs len).2 = cs := by
  induction cs generalizing len with
  | nil => rfl
  | cons c cs ih =>
    rw [takeFit]
    split
    · simp [ih]
    · rfl

theorem takeFit_len (width : Nat) (cs : List (List Char)) (len : Nat) (h : len ≤ width) : len + (takeFit width cs len).1.flatten.length ≤ width := by
  induction cs generalizing len with
  | nil => simpa [takeFit] using h
  | cons c cs ih =>
    rw [takeFit]
    split
    · rename_i hc
      have := ih (len + c.length) hc
      simp only [List.flatten_cons, List.length_append]
      omega
    · simpa using h

/-- If nothing fits on an empty line, the first chunk is too long. -/
theorem takeFit_stuck (width : Nat) (c : List Char) (cs : List (List Char)) (h : c.length ≤ width) : (takeFit width (c :: cs) 0).1 = c :: (takeFit width cs c.length).1 := by
  rw [takeFit, if_pos (by omega)]
  simp

theorem dropTrail_prefix (line : List (List Char)) : ∃ t, line = dropTrail line ++ t ∧ (∀ c ∈ t, blank c = true) := by
  unfold dropTrail
  cases h : line.getLast? with
  | none => exact ⟨[], by simp, by simp⟩
  | some c =>
    simp only
    split
    · rename_i hb
      refine ⟨[c], (List.dropLast_append_getLast? c h).symm, by simpa using hb⟩
    · exact ⟨[], by simp, by simp⟩

theorem wordChunks_append (a b : List (List Char)) : wordChunks (a ++ b) = wordChunks a ++ wordChunks b := by simp [wordChunks]

theorem wordChunks_blank (t : List (List Char)) (h : ∀ c ∈ t, blank c = true) : wordChunks t = [] := by
  unfold wordChunks
  rw [List.filter_eq_nil_iff]
  intro c hc
  rw [h c hc]
  simp

theorem words_join (ls : List (List Char)) : words (['\n'].intercalate ls) = ls.flatMap words := by
  induction ls with
  | nil => rfl
  | cons l ls ih =>
    cases ls with
    | nil => simp [List.intercalate]
    | cons m ms =>
      have e : ['\n'].intercalate (l :: m :: ms) = l ++ '\n' :: ['\n'].intercalate (m :: ms) := by simp [List.intercalate]
      rw [e, words_sep _ _ (by decide), ih]
      simp only [List.flatMap_cons]

theorem dropLead_cases (cs : List (List Char)) (lines : List (List Char)) : dropLead cs lines = cs ∨ ∃ c, blank c = true ∧ cs = c :: dropLead cs lines := by
  cases cs with
  | nil => exact .inl rfl
  | cons c cs =>
    unfold dropLead
    simp only
    split
    · rename_i h
      rw [Bool.and_eq_true] at h
      exact .inr ⟨c, h.1, rfl⟩
    · exact .inl rfl

theorem handleLong_cases (width : Nat) (line rest : List (List Char)) (h : ∀ c ∈ rest, blank c = false → c.length ≤ width) : handleLong width line rest = (line, rest) ∨
    ∃ b cs, blank b = true ∧ width < b.length ∧ rest = b :: cs ∧ handleLong width line rest = (line ++ [b.take (width - line.flatten.length)], b.drop (width - line.flatten.length) :: cs) := by
  cases rest with
  | nil => exact .inl rfl
  | cons c cs =>
    rw [handleLong]
    split
    · rename_i hc
      cases hb : blank c with
      | false => exact absurd (h c (by simp) hb) (by omega)
      | true => exact .inr ⟨c, cs, hb, hc, rfl, rfl⟩
    · exact .inl rfl

theorem blank_take {b : List Char} (h : blank b = true) (k : Nat) : blank (b.take k) = true := by
  unfold blank at *
  rw [List.all_eq_true] at *
  exact fun x hx => h x (List.mem_of_mem_take hx)

theorem blank_drop {b : List Char} (h : blank b = true) (k : Nat) : blank (b.drop k) = true := by
  unfold blank at *
  rw [List.all_eq_true] at *
  exact fun x hx => h x (List.mem_of_mem_drop hx)

theorem dropTrail_blank (line : List (List Char)) (b : List Char) (h : blank b = true) : dropTrail (line ++ [b]) = line := by
  unfold dropTrail
  rw [List.getLast?_concat]
  simp only [h, if_true, List.dropLast_concat]

theorem sep_blank {a b : List Char} {r : List (List Char)} (h : Sep (a :: r)) (hb : blank b = true) : Sep (b :: r) := by
  cases r with
  | nil => trivial
  | cons c r => exact ⟨.inl hb, h.2⟩

/-- One line: its words and what remains. -/
theorem line_step (width : Nat) (hw0 : 0 < width) (st : List (List Char)) (h : ∀ c ∈ st, Chunk c) (hs : Sep st) (hw : ∀ c ∈ st, blank c = false → c.length ≤ width) (line rest : List (List Char))
    (e : handleLong width (takeFit width st 0).1 (takeFit width st 0).2 = (line, rest)) :
    words (dropTrail line).flatten ++ wordChunks rest = wordChunks st ∧ (∀ c ∈ rest, Chunk c) ∧ Sep rest ∧ (∀ c ∈ rest, blank c = false → c.length ≤ width) ∧
      (st = [] ∧ rest = [] ∨ rest.flatten.length < st.flatten.length) := by
  have happ := takeFit_append width st 0
  have hle := takeFit_len width st 0 (Nat.zero_le _)
  obtain ⟨l, hl⟩ : ∃ l, (takeFit width st 0).1 = l := ⟨_, rfl⟩
  obtain ⟨r, hr⟩ : ∃ r, (takeFit width st 0).2 = r := ⟨_, rfl⟩
  rw [hl, hr] at happ e
  rw [hl] at hle
  have hlm : ∀ d ∈ l, d ∈ st := fun d hd => by rw [← happ]; simp [hd]
  have hrm : ∀ d ∈ r, d ∈ st := fun d hd => by rw [← happ]; simp [hd]
  have hsr : Sep r := by rw [← happ] at hs; exact sep_append_right _ _ hs
  have hlen : st.flatten.length = l.flatten.length + r.flatten.length := by rw [← happ]; simp
  have hl0 : ∀ d ds, l = d :: ds → 0 < l.flatten.length := by
    intro d ds hd
    have : 0 < d.length := List.length_pos_iff.2 (h d (hlm d (by rw [hd]; simp))).1
    rw [hd]
    simp only [List.flatten_cons, List.length_append]
    omega
  have hwl : ∀ t, l = t ++ (l.drop t.length) → (∀ c ∈ l.drop t.length, blank c = true) → words t.flatten = wordChunks l := by
    intro t ht hb
    have hst : Sep t := by
      rw [← happ, ht, List.append_assoc] at hs
      exact sep_append_left _ _ hs
    rw [words_flatten t (fun d hd => h d (hlm d (by rw [ht]; simp [hd]))) hst]
    conv_rhs => rw [ht]
    rw [wordChunks_append, wordChunks_blank _ hb, List.append_nil]
  rcases handleLong_cases width l r (fun c hc => hw c (hrm c hc)) with e' | ⟨b, cs, hb, hbl, hrb, e'⟩
  · rw [e'] at e
    injection e with e1 e2
    subst e1 e2
    refine ⟨?_, fun c hc => h c (hrm c hc), hsr, fun c hc => hw c (hrm c hc), ?_⟩
    · obtain ⟨t, ht, htb⟩ := dropTrail_prefix l
      have hd : l.drop (dropTrail l).length = t := (congrArg (List.drop (dropTrail l).length) ht).trans List.drop_left
      rw [hwl (dropTrail l) (by rw [hd]; exact ht) (by rw [hd]; exact htb), ← happ, wordChunks_append]
    · cases st with
      | nil =>
        left
        refine ⟨rfl, ?_⟩
        cases r with
        | nil => rfl
        | cons d ds => exact absurd (hrm d (by simp)) (by simp)
      | cons d ds =>
        right
        cases l with
        | cons a as => have := hl0 a as rfl; omega
        | nil =>
          exfalso
          rw [List.nil_append] at happ
          have hdl : width < d.length := by
            by_contra hc
            rw [takeFit_stuck width d ds (by omega)] at hl
            cases hl
          rw [happ, handleLong, if_pos hdl] at e'
          simp at e'
  · rw [e'] at e
    injection e with e1 e2
    subst e1 e2
    have hbc := h b (hrm b (by rw [hrb]; simp))
    have hk : (width - l.flatten.length) < b.length := by omega
    refine ⟨?_, ?_, ?_, ?_, .inr ?_⟩
    · rw [dropTrail_blank _ _ (blank_take hb _), hwl l (by simp) (by simp), ← happ, wordChunks_append, hrb]
      congr 1
      simp only [wordChunks, List.filter_cons, hb, blank_drop hb, Bool.not_true, Bool.false_eq_true, if_false]
    · intro c hc
      rcases List.mem_cons.1 hc with rfl | hc
      · refine ⟨fun hn => ?_, .inl fun x hx => ?_⟩
        · have := List.drop_eq_nil_iff.1 hn
          omega
        · exact List.all_eq_true.1 hb x (List.mem_of_mem_drop hx)
      · exact h c (hrm c (by rw [hrb]; simp [hc]))
    · rw [hrb] at hsr
      exact sep_blank hsr (blank_drop hb _)
    · intro c hc
      rcases List.mem_cons.1 hc with rfl | hc
      · intro hn; rw [blank_drop hb] at hn; cases hn
      · exact hw c (hrm c (by rw [hrb]; simp [hc]))
    · rw [hlen, hrb]
      simp only [List.flatten_cons, List.length_append, List.length_drop]
      cases l with
      | cons a as => have := hl0 a as rfl; omega
      | nil => simp only [List.flatten_nil, List.length_nil] at hk ⊢; omega

/-- Without words that are longer than a line, the words of the lines are the words of the text. -/
theorem wrapLoop_words (width : Nat) (hw0 : 0 < width) (fuel : Nat) (cs : List (List Char)) (lines : List (List Char)) (h : ∀ c ∈ cs, Chunk c) (hs : Sep cs)
    (hw : ∀ c ∈ cs, blank c = false → c.length ≤ width) (hf : cs.flatten.length ≤ fuel) : (wrapLoop width fuel cs lines).flatMap words = lines.flatMap words ++ wordChunks cs := by
  have hnil : ∀ cs : List (List Char), (∀ c ∈ cs, Chunk c) → cs.flatten.length = 0 → cs = [] := by
    intro cs h h0
    cases cs with
    | nil => rfl
    | cons c r =>
      have : 0 < c.length := List.length_pos_iff.2 (h c (by simp)).1
      simp only [List.flatten_cons, List.length_append] at h0
      omega
  induction fuel generalizing cs lines with
  | zero =>
    rw [hnil cs h (by omega)]
    simp [wrapLoop, wordChunks]
  | succ fuel ih =>
    cases cs with
    | nil => simp [wrapLoop, wordChunks]
    | cons c cs =>
      rw [wrapLoop]
      obtain ⟨st, hst⟩ : ∃ st, dropLead (c :: cs) lines = st := ⟨_, rfl⟩
      have hcases := dropLead_cases (c :: cs) lines
      rw [hst] at hcases ⊢
      have hmem : ∀ d ∈ st, d ∈ c :: cs := by
        intro d hd
        rcases hcases with e | ⟨b, -, e⟩
        · rw [← e]; exact hd
        · rw [e]; simp [hd]
      have hwc : wordChunks (c :: cs) = wordChunks st := by
        rcases hcases with e | ⟨b, hb, e⟩
        · rw [e]
        · rw [e]
          simp [wordChunks, hb]
      have hsep : Sep st := by
        rcases hcases with e | ⟨b, -, e⟩
        · rw [e]; exact hs
        · rw [e] at hs; exact sep_tail hs
      have hfl : st.flatten.length ≤ (c :: cs).flatten.length ∧ (st = [] → st.flatten.length < (c :: cs).flatten.length) := by
        have h0 : 0 < c.length := List.length_pos_iff.2 (h c (by simp)).1
        refine ⟨?_, fun hn => by rw [hn]; simp only [List.flatten_nil, List.length_nil, List.flatten_cons, List.length_append]; omega⟩
        rcases hcases with e | ⟨b, -, e⟩
        · rw [e]
        · rw [e]; simp
      obtain ⟨cut, hcut⟩ : ∃ cut, handleLong width (takeFit width st 0).1 (takeFit width st 0).2 = cut := ⟨_, rfl⟩
      obtain ⟨line, rest⟩ := cut
      obtain ⟨s1, s2, s3, s4, s5⟩ := line_step width hw0 st (fun d hd => h d (hmem d hd)) hsep (fun d hd => hw d (hmem d hd)) line rest hcut
      rw [hcut]
      simp only
      rw [ih rest _ s2 s3 s4 (by
        rcases s5 with ⟨e1, e2⟩ | e
        · have := hfl.2 e1; rw [e1] at this; rw [e2]; simp
        · have := hfl.1; omega), hwc, ← s1]
      cases hdl : dropTrail line with
      | nil => simp [words_nil]
      | cons a b => simp only [List.isEmpty_cons, Bool.false_eq_true, if_false, List.flatMap_append, List.flatMap_cons, List.flatMap_nil, List.append_nil, List.append_assoc]

/-- The lines are not longer than the width. -/
theorem wrapLoop_len (width : Nat) (fuel : Nat) (cs : List (List Char)) (lines : List (List Char)) (hl : ∀ l ∈ lines, l.length ≤ width) : ∀ l ∈ wrapLoop width fuel cs lines, l.length ≤ width := by
  induction fuel generalizing cs lines with
  | zero => exact hl
  | succ fuel ih =>
    cases cs with
    | nil => exact hl
    | cons c cs =>
      rw [wrapLoop]
      refine ih _ _ ?_
      intro l hm
      split at hm
      · exact hl l hm
      · rcases List.mem_append.1 hm with hm | hm
        · exact hl l hm
        · rw [List.mem_singleton] at hm
          have h1 := takeFit_len width (dropLead (c :: cs) lines) 0 (Nat.zero_le _)
          obtain ⟨line, hline⟩ : ∃ line, (takeFit width (dropLead (c :: cs) lines) 0).1 = line := ⟨_, rfl⟩
          rw [hline] at h1 hm
          have h2 : (handleLong width line (takeFit width (dropLead (c :: cs) lines) 0).2).1.flatten.length ≤ width := by
            cases (takeFit width (dropLead (c :: cs) lines) 0).2 with
            | nil => simpa [handleLong] using h1
            | cons d ds =>
              rw [handleLong]
              split
              · simp only [List.flatten_append, List.flatten_cons, List.flatten_nil, List.append_nil, List.length_append, List.length_take]
                omega
              · simpa using h1
          obtain ⟨t, ht, -⟩ := dropTrail_prefix (handleLong width line (takeFit width (dropLead (c :: cs) lines) 0).2).1
          rw [ht] at h2
          rw [hm]
          simp only [List.flatten_append, List.length_append] at h2
          omega

/-- The characters of the lines are characters of the chunks. -/
theorem wrapLoop_chars (width : Nat) (fuel : Nat) (cs : List (List Char)) (lines : List (List Char)) : ∀ l ∈ wrapLoop width fuel cs lines, ∀ x ∈ l, x ∈ cs.flatten ∨ x ∈ lines.flatten := by
  induction fuel generalizing cs lines with
  | zero => exact fun l hl x hx => .inr (List.mem_flatten.2 ⟨l, hl, hx⟩)
  | succ fuel ih =>
    cases cs with
    | nil => exact fun l hl x hx => .inr (List.mem_flatten.2 ⟨l, hl, hx⟩)
    | cons c cs =>
      rw [wrapLoop]
      intro l hl x hx
      have hfit := takeFit_append width (dropLead (c :: cs) lines) 0
      have hlead : ∀ y ∈ (dropLead (c :: cs) lines).flatten, y ∈ (c :: cs).flatten := by
        rcases dropLead_cases (c :: cs) lines with e | ⟨b, -, e⟩
        · rw [e]; exact fun y hy => hy
        · intro y hy; rw [e]; simp only [List.flatten_cons, List.mem_append]; exact .inr hy
      obtain ⟨line, hline⟩ : ∃ line, (takeFit width (dropLead (c :: cs) lines) 0).1 = line := ⟨_, rfl⟩
      obtain ⟨rest, hrest⟩ : ∃ rest, (takeFit width (dropLead (c :: cs) lines) 0).2 = rest := ⟨_, rfl⟩
      simp only [hline, hrest] at hl
      rw [hline, hrest] at hfit
      have hcut : ∀ y, (y ∈ (handleLong width line rest).1.flatten ∨ y ∈ (handleLong width line rest).2.flatten) → y ∈ (c :: cs).flatten := by
        intro y hy
        apply hlead
        rw [← hfit, List.flatten_append, List.mem_append]
        cases rest with
        | nil => simpa [handleLong] using hy
        | cons d ds =>
          rw [handleLong] at hy
          split at hy
          · simp only [List.flatten_append, List.flatten_cons, List.flatten_nil, List.append_nil, List.mem_append] at hy ⊢
            rcases hy with (h | h) | (h | h)
            · exact .inl h
            · exact .inr (.inl (List.mem_of_mem_take h))
            · exact .inr (.inl (List.mem_of_mem_drop h))
            · exact .inr (.inr h)
          · exact hy
      rcases ih _ _ l hl x hx with h | h
      · exact .inl (hcut x (.inr h))
      · split at h
        · exact .inr h
        · rw [List.flatten_append, List.mem_append] at h
          rcases h with h | h
          · exact .inr h
          · obtain ⟨t, ht, -⟩ := dropTrail_prefix (handleLong width line rest).1
            refine .inl (hcut x (.inl ?_))
            rw [ht, List.flatten_append, List.mem_append]
            exact .inl (by simpa using h)

theorem expandTabs_chars (s : List Char) (col : Nat) : ∀ x ∈ expandTabs col s, x ∈ s ∨ x = ' ' := by
  induction s generalizing col with
  | nil => simp [expandTabs]
  | cons c r ih =>
    intro x hx
    rw [expandTabs] at hx
    split at hx
    · rcases List.mem_append.1 hx with h | h
      · exact .inr (List.eq_of_mem_replicate h)
      · rcases ih _ x h with h | h
        · exact .inl (by simp [h])
        · exact .inr h
    · rcases List.mem_cons.1 hx with h | h
      · exact .inl (by simp [h])
      · rcases ih _ x h with h | h
        · exact .inl (by simp [h])
        · exact .inr h

theorem munge_chars (replace : Bool) (s : List Char) : ∀ x ∈ munge replace s, x ∈ s ∨ x = ' ' := by
  intro x hx
  unfold munge at hx
  split at hx
  · obtain ⟨y, hy, rfl⟩ := List.mem_map.1 hx
    rcases expandTabs_chars s 0 y hy with h | h
    · split
      · exact .inr rfl
      · exact .inl h
    · rw [h]
      exact .inr (by decide)
  · exact expandTabs_chars s 0 x hx

end Emlearn.Textwrap
