/- Splitting of texts composed of fixed pieces, names and numbers into words. -/
import Verif.MiniC.Syntax
import Mathlib.Tactic.Common
namespace Emlearn.MiniC

/-- A part of a generated text. -/
inductive Piece where
  /-- fixed text -/
  | lit (s : List Char)
  /-- a name or an unsigned number -/
  | word (w : List Char)
  /-- a number with a sign -/
  | signed (neg : Bool) (w : List Char)
  /-- a division sign -/
  | slash

def Piece.render : Piece → List Char
  | .lit s => s
  | .word w => w
  | .signed neg w => if neg then '-' :: w else w
  | .slash => ['/']

def Piece.toks : Piece → List Tok
  | .lit s => lex s
  | .word w => [.word w]
  | .signed neg w => if neg then [.sym '-', .word w] else [.word w]
  | .slash => [.sym '/']

def renderAll (ps : List Piece) : List Char := ps.flatMap Piece.render

def toksAll (ps : List Piece) : List Tok := ps.flatMap Piece.toks

/-- The text ends outside of words and comments and not with `/`. -/
def cleanFrom : List Char → List Char → Bool → Bool
  | [], cur, skip => cur.isEmpty && !skip
  | c :: r, _, true => cleanFrom r [] (c != '\n')
  | c :: r, cur, false =>
    if joins cur c then cleanFrom r (cur ++ [c]) false
    else if white c then cleanFrom r [] false
    else if c == '#' then cleanFrom r [] true
    else if c == '/' && r.head? == some '/' then cleanFrom r [] true
    else if c == '/' && r.isEmpty then false
    else cleanFrom r [] false

def clean (s : List Char) : Bool := cleanFrom s [] false

/-- A text that begins with a character that ends a word. -/
def breaks : List Piece → Bool
  | [] => true
  | .lit (c :: _) :: _ => !wordChar c
  | .slash :: _ => true
  | _ => false

/-- A text that does not begin with `/`. -/
def noSlash : List Piece → Bool
  | .word _ :: _ => true
  | .signed _ _ :: _ => true
  | _ => false

/-- The characters continue the word `cur`. -/
def grows : List Char → List Char → Bool
  | _, [] => true
  | cur, c :: r => joins cur c && grows (cur ++ [c]) r

def IsWord (w : List Char) : Prop := w ≠ [] ∧ grows [] w = true ∧ ppExp w = false

theorem grows_of_chars (w : List Char) (h : ∀ c ∈ w, wordChar c = true) (cur : List Char) : grows cur w = true := by
  induction w generalizing cur with
  | nil => rfl
  | cons c w ih =>
    simp only [grows, joins, h c (by simp), Bool.true_or, Bool.true_and]
    exact ih (fun c hc => h c (by simp [hc])) _

theorem isWord_of_chars {w : List Char} (h0 : w ≠ []) (h1 : ∀ c ∈ w, wordChar c = true) (h2 : ppExp w = false) : IsWord w := ⟨h0, grows_of_chars w h1 [], h2⟩

theorem IsWord.head {c : Char} {w : List Char} (h : IsWord (c :: w)) : wordChar c = true := by
  have := h.2.1
  simp only [grows, joins, ppExp, Bool.and_eq_true, Bool.or_eq_true, Bool.false_and, Bool.and_false, Bool.false_eq_true, or_false, and_false] at this
  exact this.1

theorem ppExp_nil : ppExp [] = false := rfl

theorem joins_false {cur : List Char} {c : Char} (h : ppExp cur = false) (hc : wordChar c = false) : joins cur c = false := by simp [joins, h, hc]

theorem joins_nil (c : Char) : joins [] c = wordChar c := by simp [joins, ppExp_nil]

def PiecesOk : List Piece → Prop
  | [] => True
  | .lit s :: r => clean s = true ∧ PiecesOk r
  | .word w :: r => IsWord w ∧ breaks r = true ∧ PiecesOk r
  | .signed _ w :: r => IsWord w ∧ breaks r = true ∧ PiecesOk r
  | .slash :: r => noSlash r = true ∧ PiecesOk r

theorem lexFrom_clean (s cur : List Char) (skip : Bool) (h : cleanFrom s cur skip = true) (r : List Char) : lexFrom (s ++ r) cur skip = lexFrom s cur skip ++ lex r := by
  induction s generalizing cur skip with
  | nil =>
    simp only [cleanFrom, Bool.and_eq_true, List.isEmpty_iff, Bool.not_eq_true'] at h
    obtain ⟨rfl, rfl⟩ := h
    rfl
  | cons c s ih =>
    have fl : ∀ cur (a b : List Tok), flush cur a ++ b = flush cur (a ++ b) := by
      intro cur a b; unfold flush; split <;> rfl
    cases skip with
    | true =>
      simp only [List.cons_append, lexFrom]
      exact ih _ _ (by simpa [cleanFrom] using h)
    | false =>
      simp only [List.cons_append, lexFrom, cleanFrom] at h ⊢
      by_cases hw : joins cur c = true
      · rw [if_pos hw] at h
        rw [if_pos hw, if_pos hw]
        exact ih _ _ h
      · rw [if_neg hw] at h
        rw [if_neg hw, if_neg hw]
        by_cases hb : white c = true
        · rw [if_pos hb] at h
          rw [if_pos hb, if_pos hb, fl, ih _ _ h]
        · rw [if_neg hb] at h
          rw [if_neg hb, if_neg hb]
          by_cases hh : (c == '#') = true
          · rw [if_pos hh] at h
            rw [if_pos hh, if_pos hh, fl, ih _ _ h]
          · rw [if_neg hh] at h
            rw [if_neg hh, if_neg hh]
            by_cases hs : (c == '/') = true
            · cases s with
              | nil => rw [hs] at h; simp at h
              | cons d s =>
                have e1 : ((d :: s) ++ r).head? = (d :: s).head? := rfl
                rw [e1]
                by_cases h2 : (c == '/' && (d :: s).head? == some '/') = true
                · rw [if_pos h2] at h
                  rw [if_pos h2, if_pos h2, fl, ih _ _ h]
                · rw [if_neg h2] at h
                  rw [if_neg h2, if_neg h2, fl]
                  simp only [List.isEmpty_cons, Bool.and_false, Bool.false_eq_true, if_false] at h
                  rw [ih _ _ h]; rfl
            · have hs' : (c == '/') = false := by simpa using hs
              rw [hs'] at h ⊢
              simp only [Bool.false_and, Bool.false_eq_true, if_false] at h ⊢
              rw [fl, ih _ _ h]; rfl

theorem lex_clean (s : List Char) (h : clean s = true) (r : List Char) : lex (s ++ r) = lex s ++ lex r := lexFrom_clean s [] false h r

theorem lexFrom_word (w cur : List Char) (h : grows cur w = true) (r : List Char) : lexFrom (w ++ r) cur false = lexFrom r (cur ++ w) false := by
  induction w generalizing cur with
  | nil => simp
  | cons c w ih =>
    simp only [grows, Bool.and_eq_true] at h
    simp only [List.cons_append, lexFrom]
    rw [if_pos h.1, ih _ h.2]
    simp

/-- A word is followed by the end or by a character that is not part of words. -/
theorem lex_word (w : List Char) (h : IsWord w) (r : List Char) (hr : r = [] ∨ ∃ c r', r = c :: r' ∧ wordChar c = false) : lex (w ++ r) = .word w :: lex r := by
  rw [lex, lexFrom_word w [] h.2.1, List.nil_append]
  rcases hr with rfl | ⟨c, r', rfl, hc⟩
  · simp [lexFrom, flush, h.1, lex]
  · simp only [lex, lexFrom]
    have e : ∀ ts, flush w ts = .word w :: ts := fun ts => by simp [flush, h.1]
    have e' : ∀ ts, flush [] ts = ts := fun ts => rfl
    rw [joins_nil, joins_false h.2.2 hc, hc]
    simp only [Bool.false_eq_true, if_false]
    split
    · rw [e, e']
    · split
      · rw [e, e']
      · split
        · rw [e, e']
        · rw [e, e']

theorem breaks_spec (ps : List Piece) (h : breaks ps = true) : renderAll ps = [] ∨ ∃ c r', renderAll ps = c :: r' ∧ wordChar c = false := by
  cases ps with
  | nil => exact .inl rfl
  | cons p r =>
    cases p with
    | lit s =>
      cases s with
      | nil => simp [breaks] at h
      | cons c s => exact .inr ⟨c, s ++ renderAll r, rfl, by simpa [breaks] using h⟩
    | slash => exact .inr ⟨'/', renderAll r, rfl, by decide⟩
    | word w => simp [breaks] at h
    | signed n w => simp [breaks] at h

theorem wordChar_ne {c d : Char} (h : wordChar c = true) (hd : wordChar d = false) : c ≠ d := by rintro rfl; rw [h] at hd; cases hd

/-- The words of a composed text are the words of its pieces. -/
theorem lex_render (ps : List Piece) (h : PiecesOk ps) : lex (renderAll ps) = toksAll ps := by
  induction ps with
  | nil => rfl
  | cons p r ih =>
    have e1 : renderAll (p :: r) = p.render ++ renderAll r := rfl
    have e2 : toksAll (p :: r) = p.toks ++ toksAll r := rfl
    rw [e1, e2]
    cases p with
    | lit s => rw [← ih h.2]; exact lex_clean s h.1 _
    | word w => rw [← ih h.2.2]; exact lex_word w h.1 _ (breaks_spec r h.2.1)
    | signed neg w =>
      rw [← ih h.2.2]
      cases neg with
      | false => exact lex_word w h.1 _ (breaks_spec r h.2.1)
      | true =>
        show lex ('-' :: (w ++ renderAll r)) = .sym '-' :: .word w :: lex (renderAll r)
        rw [← lex_word w h.1 _ (breaks_spec r h.2.1)]
        rw [lex, lexFrom]
        simp only [joins_nil, show wordChar '-' = false from by decide, show white '-' = false from by decide, show ('-' == '#') = false from by decide, show ('-' == '/') = false from by decide,
          Bool.false_eq_true, if_false, Bool.false_and]
        rfl
    | slash =>
      have hd : (renderAll r).head? ≠ some '/' := by
        obtain ⟨h1, h2⟩ := h
        cases r with
        | nil => simp [noSlash] at h1
        | cons q r =>
          cases q with
          | lit s => simp [noSlash] at h1
          | slash => simp [noSlash] at h1
          | word w =>
            obtain ⟨hw2, -⟩ := h2
            obtain ⟨c, w, rfl⟩ := List.exists_cons_of_ne_nil hw2.1
            have := wordChar_ne (d := '/') hw2.head (by decide)
            show (c :: (w ++ renderAll r)).head? ≠ _
            simpa using this
          | signed neg w =>
            obtain ⟨hw2, -⟩ := h2
            obtain ⟨c, w, rfl⟩ := List.exists_cons_of_ne_nil hw2.1
            have := wordChar_ne (d := '/') hw2.head (by decide)
            cases neg with
            | false => show (c :: (w ++ renderAll r)).head? ≠ _; simpa using this
            | true => show ('-' :: _).head? ≠ _; simp
      rw [← ih h.2]
      show lex ('/' :: renderAll r) = .sym '/' :: lex (renderAll r)
      rw [lex, lexFrom]
      simp only [joins_nil, show wordChar '/' = false from by decide, show white '/' = false from by decide, show ('/' == '#') = false from by decide, Bool.false_eq_true, if_false]
      rw [if_neg (by simpa using hd)]
      rfl

/-- A text whose words do not depend on what follows. -/
def Lexes (s : List Char) (ts : List Tok) : Prop := ∀ r, lex (s ++ r) = ts ++ lex r

theorem Lexes.append {a b : List Char} {s t : List Tok} (ha : Lexes a s) (hb : Lexes b t) : Lexes (a ++ b) (s ++ t) := by
  intro r; rw [List.append_assoc, ha, hb, List.append_assoc]

theorem Lexes.congr {a b : List Char} {s t : List Tok} (ha : Lexes a s) (h : b = a) (ht : t = s) : Lexes b t := by rw [h, ht]; exact ha

theorem Lexes.nil : Lexes [] [] := fun _ => rfl

theorem Lexes.lex {s : List Char} {ts : List Tok} (h : Lexes s ts) : MiniC.lex s = ts := by
  have := h []
  simpa [show MiniC.lex [] = [] from rfl] using this

theorem lexes_clean (s : List Char) (h : clean s = true) : Lexes s (lex s) := fun r => lex_clean s h r

/-- The last part is fixed text. -/
def endsLit : List Piece → Bool
  | [] => true
  | [.lit _] => true
  | [_] => false
  | _ :: q :: r => endsLit (q :: r)

theorem endsLit_tail {p : Piece} {r : List Piece} (h : endsLit (p :: r) = true) : endsLit r = true := by
  cases r with
  | nil => rfl
  | cons q r => simpa [endsLit] using h

theorem lexes_pieces (ps : List Piece) (h : PiecesOk ps) (he : endsLit ps = true) : Lexes (renderAll ps) (toksAll ps) := by
  induction ps with
  | nil => exact Lexes.nil
  | cons p r ih =>
    have e1 : renderAll (p :: r) = p.render ++ renderAll r := rfl
    have e2 : toksAll (p :: r) = p.toks ++ toksAll r := rfl
    have het := endsLit_tail he
    rw [e1, e2]
    -- the text that follows a word begins with a character that is not part of words
    have stop : (∃ q r', r = q :: r') → breaks r = true → ∀ rest, ∃ c r', renderAll r ++ rest = c :: r' ∧ wordChar c = false := by
      rintro ⟨q, r', rfl⟩ hb rest
      cases q with
      | lit s =>
        cases s with
        | nil => simp [breaks] at hb
        | cons c s => exact ⟨c, _, rfl, by simpa [breaks] using hb⟩
      | slash => exact ⟨'/', _, rfl, by decide⟩
      | word w => simp [breaks] at hb
      | signed n w => simp [breaks] at hb
    have hne : (∀ s, p ≠ .lit s) → ∃ q r', r = q :: r' := by
      intro hp
      cases r with
      | nil => cases p <;> simp_all [endsLit]
      | cons q r' => exact ⟨q, r', rfl⟩
    intro rest
    rw [List.append_assoc, List.append_assoc]
    cases p with
    | lit s =>
      rw [← ih h.2 het rest]
      exact lex_clean s h.1 _
    | word w =>
      rw [← ih h.2.2 het rest]
      exact lex_word w h.1 _ (.inr (stop (hne (by simp)) h.2.1 rest))
    | signed neg w =>
      rw [← ih h.2.2 het rest]
      have key := lex_word w h.1 _ (.inr (stop (hne (by simp)) h.2.1 rest))
      cases neg with
      | false => exact key
      | true =>
        show MiniC.lex ('-' :: (w ++ (renderAll r ++ rest))) = .sym '-' :: .word w :: MiniC.lex (renderAll r ++ rest)
        rw [← key, MiniC.lex, lexFrom]
        simp only [joins_nil, show wordChar '-' = false from by decide, show white '-' = false from by decide, show ('-' == '#') = false from by decide, show ('-' == '/') = false from by decide,
          Bool.false_eq_true, if_false, Bool.false_and]
        rfl
    | slash =>
      have hd : (renderAll r ++ rest).head? ≠ some '/' := by
        obtain ⟨h1, h2⟩ := h
        cases r with
        | nil => simp [noSlash] at h1
        | cons q r =>
          cases q with
          | lit s => simp [noSlash] at h1
          | slash => simp [noSlash] at h1
          | word w =>
            obtain ⟨hw2, -⟩ := h2
            obtain ⟨c, w, rfl⟩ := List.exists_cons_of_ne_nil hw2.1
            have := wordChar_ne (d := '/') hw2.head (by decide)
            show (c :: _).head? ≠ _
            simpa using this
          | signed neg w =>
            obtain ⟨hw2, -⟩ := h2
            obtain ⟨c, w, rfl⟩ := List.exists_cons_of_ne_nil hw2.1
            have := wordChar_ne (d := '/') hw2.head (by decide)
            cases neg with
            | false => show (c :: _).head? ≠ _; simpa using this
            | true => show ('-' :: _).head? ≠ _; simp
      rw [← ih h.2 het rest]
      show MiniC.lex ('/' :: (renderAll r ++ rest)) = .sym '/' :: MiniC.lex (renderAll r ++ rest)
      rw [MiniC.lex, lexFrom]
      simp only [joins_nil, show wordChar '/' = false from by decide, show white '/' = false from by decide, show ('/' == '#') = false from by decide, Bool.false_eq_true, if_false]
      rw [if_neg (by simpa using hd)]
      rfl

theorem toksAll_append (a b : List Piece) : toksAll (a ++ b) = toksAll a ++ toksAll b := by simp [toksAll]
theorem renderAll_append (a b : List Piece) : renderAll (a ++ b) = renderAll a ++ renderAll b := by simp [renderAll]

end Emlearn.MiniC
