/- Words of generated texts: numbers, names, lists, array declarations (`cgen.py` helpers read by the reader of `MiniC/Syntax.lean`). -/
import Verif.Cgen.Reader
import Verif.MiniC.Lex
import Verif.Decimal
import Verif.MiniC.Print
import Verif.MiniC.Sem
namespace Emlearn.MiniC
open Emlearn.Cgen

/-! ### Numbers -/

/-- Sign of a printed number. -/
def litNeg (v : ℚ) (dtype : List Char) : Bool := if dtype = "float".toList then decide (v < 0) else decide (trunc v < 0)

/-- Digits of a printed number. -/
def litMag (v : ℚ) (dtype : List Char) : List Char :=
  if dtype = "float".toList then
    showNat ((roundHalfEven (|v| * 10 ^ 6)).toNat / 10 ^ 6) ++ '.' :: padZeros 6 (showNat ((roundHalfEven (|v| * 10 ^ 6)).toNat % 10 ^ 6)) ++ ['f']
  else showNat (trunc v).natAbs

/-- The types of numbers with a text of their own. -/
def NumType (dtype : List Char) : Prop := dtype = "float".toList ∨ hasInt dtype = true

theorem constant_eq (other : ℚ → List Char) (v : ℚ) (dtype : List Char) (h : NumType dtype) :
    constant other v dtype = (Piece.signed (litNeg v dtype) (litMag v dtype)).render := by
  unfold constant litNeg litMag Piece.render
  by_cases hf : dtype = "float".toList
  · rw [if_pos hf, if_pos hf, if_pos hf]
    unfold showFixed
    by_cases hv : v < 0 <;> simp [hv]
  · rw [if_neg hf, if_neg hf, if_neg hf, if_pos (h.resolve_left hf)]
    unfold showInt
    by_cases hv : trunc v < 0
    · simp only [hv, if_true, decide_true, if_true]
      congr 2
      omega
    · simp only [hv, if_false, decide_false]
      rw [if_neg (by simp)]
      congr 1
      omega

theorem digit_wordChar {c : Char} (h : c.isDigit = true) : wordChar c = true := by
  have := Cgen.Reader.identRest_digit h
  simp [wordChar, this]

/-- A word that does not end with the letter of an exponent. -/
theorem ppExp_last {w : List Char} {c : Char} (h : w.getLast? = some c) (h1 : c ≠ 'e') (h2 : c ≠ 'E') : ppExp w = false := by
  unfold ppExp
  rw [h]
  simp [h1, h2]

theorem isWord_showNat (n : Nat) : IsWord (showNat n) := by
  refine isWord_of_chars (showNat_ne_nil n) (fun _ hc => digit_wordChar (showNat_digits hc)) ?_
  have hl := List.getLast?_eq_some_getLast (showNat_ne_nil n)
  have hd := showNat_digits (List.getLast_mem (showNat_ne_nil n))
  exact ppExp_last hl (by rintro e; rw [e] at hd; revert hd; decide) (by rintro e; rw [e] at hd; revert hd; decide)

theorem isNum_showNat (n : Nat) : isNum (showNat n) = true := by
  have h1 := showNat_ne_nil n
  cases h : showNat n with
  | nil => exact absurd h h1
  | cons c r => exact showNat_digits (n := n) (by rw [h]; simp)

theorem isNum_append {a : List Char} (b : List Char) (h : isNum a = true) : isNum (a ++ b) = true := by
  cases a with
  | nil => simp [isNum] at h
  | cons c r => exact h

theorem isWord_litMag (v : ℚ) (dtype : List Char) : IsWord (litMag v dtype) := by
  unfold litMag
  split
  · refine isWord_of_chars (by simp) (fun c hc => ?_) (ppExp_last (c := 'f') (by rw [List.getLast?_append]; rfl) (by decide) (by decide))
    simp only [List.mem_append, List.mem_cons, padZeros, List.mem_replicate, List.append_assoc, List.cons_append] at hc
    rcases hc with hc | rfl | hc | hc | rfl | hc
    · exact digit_wordChar (showNat_digits hc)
    · decide
    · rw [hc.2]; decide
    · exact digit_wordChar (showNat_digits hc)
    · decide
    · cases hc
  · exact isWord_showNat _

theorem magnitude_no_e (v : ℚ) : 'e' ∉ showNat ((roundHalfEven (|v| * 10 ^ 6)).toNat / 10 ^ 6) ++ '.' :: padZeros 6 (showNat ((roundHalfEven (|v| * 10 ^ 6)).toNat % 10 ^ 6)) := by
  have hd : ∀ n, 'e' ∉ showNat n := by intro n hc; have := showNat_digits hc; revert this; decide
  simp [padZeros, hd]

theorem isNum_litMag (v : ℚ) (dtype : List Char) : isNum (litMag v dtype) = true := by
  unfold litMag
  split
  · rw [List.append_assoc]; exact isNum_append _ (isNum_showNat _)
  · exact isNum_showNat _

/-! ### Numbers printed by Python -/

theorem grows_append (cur a b : List Char) : grows cur (a ++ b) = (grows cur a && grows (cur ++ a) b) := by
  induction a generalizing cur with
  | nil => simp [grows]
  | cons c a ih => simp only [List.cons_append, grows, ih, Bool.and_assoc, List.append_assoc, List.nil_append]

theorem isNum_take {a : List Char} (h : isNum a = true) (k : Nat) (hk : 1 ≤ k) : isNum (a.take k) = true := by
  cases a with
  | nil => simp [isNum] at h
  | cons c r =>
    obtain ⟨k, rfl⟩ := Nat.exists_eq_add_of_le' hk
    exact h

theorem isNum_magText (x : PyFloat) : isNum x.magText = true := by
  have hn := isNum_showNat x.m
  unfold PyFloat.magText
  simp only
  split
  · split
    · exact isNum_append _ hn
    · rw [List.append_assoc]; exact isNum_append _ (isNum_take hn 1 le_rfl)
  · split
    · rfl
    · split
      · exact isNum_append _ hn
      · exact isNum_append _ (isNum_take hn _ (by omega))

/-- Every printed number is one word, with any ending that is part of words and not `e` or `E`. -/
theorem grows_magText (x : PyFloat) : grows [] x.magText = true := by
  have hn := isNum_showNat x.m
  have hd : ∀ n, ∀ c ∈ showNat n, wordChar c = true := fun n c hc => digit_wordChar (showNat_digits hc)
  have hp : wordChar '.' = true := by decide
  have hz : wordChar '0' = true := by decide
  unfold PyFloat.magText
  simp only
  split
  · generalize hM : (if (showNat x.m).length = 1 then showNat x.m else (showNat x.m).take 1 ++ '.' :: (showNat x.m).drop 1) = M
    have h1 : ∀ c ∈ M, wordChar c = true := by
      rw [← hM]
      split
      · exact hd _
      · intro c hc
        simp only [List.mem_append, List.mem_cons] at hc
        rcases hc with hc | rfl | hc
        · exact hd _ c (List.mem_of_mem_take hc)
        · exact hp
        · exact hd _ c (List.mem_of_mem_drop hc)
    have h2 : isNum M = true := by
      rw [← hM]
      split
      · exact hn
      · exact isNum_append _ (isNum_take hn 1 le_rfl)
    have h3 : ppExp (M ++ ['e']) = true := by
      cases M with
      | nil => simp [isNum] at h2
      | cons c r =>
        have hc : c.isDigit = true := h2
        have hl : (c :: r ++ ['e']).getLast? = some 'e' := by rw [List.getLast?_append]; rfl
        unfold ppExp
        rw [hl]
        simp [hc]
    rw [grows_append, grows_of_chars M h1, List.nil_append, Bool.true_and, grows, grows, grows_of_chars]
    · rw [show joins M 'e' = true from by simp [joins, show wordChar 'e' = true from by decide]]
      simp only [joins, h3]
      split <;> simp
    · intro c hc
      rcases List.mem_append.1 hc with hc | hc
      · rw [(List.mem_replicate.1 hc).2]; exact hz
      · exact hd _ c hc
  · refine grows_of_chars _ (fun c hc => ?_) _
    split at hc
    · simp only [List.mem_cons, List.mem_append, List.mem_replicate] at hc
      rcases hc with rfl | rfl | hc | hc
      · exact hz
      · exact hp
      · rw [hc.2]; exact hz
      · exact hd _ c hc
    · split at hc
      · simp only [List.mem_cons, List.mem_append, List.mem_replicate, List.not_mem_nil, or_false] at hc
        rcases hc with hc | hc | rfl | rfl
        · exact hd _ c hc
        · rw [hc.2]; exact hz
        · exact hp
        · exact hz
      · simp only [List.mem_append, List.mem_cons] at hc
        rcases hc with hc | rfl | hc
        · exact hd _ c (List.mem_of_mem_take hc)
        · exact hp
        · exact hd _ c (List.mem_of_mem_drop hc)

theorem magText_ne (x : PyFloat) : x.magText ≠ [] := by
  intro h
  have := isNum_magText x
  rw [h] at this
  cases this

theorem isWord_magText_f (x : PyFloat) : IsWord (x.magText ++ ['f']) := by
  refine ⟨by simp, ?_, ppExp_last (c := 'f') (by simp) (by decide) (by decide)⟩
  rw [grows_append, grows_magText, Bool.true_and]
  exact grows_of_chars _ (by intro c hc; simp only [List.mem_singleton] at hc; subst hc; decide) _

theorem lastDigit_magText (x : PyFloat) : ∃ c, x.magText.getLast? = some c ∧ c.isDigit = true := by
  have key : ∀ (a : List Char) (s : List Char), s ≠ [] → (∀ c ∈ s, c.isDigit = true) → ∃ c, (a ++ s).getLast? = some c ∧ c.isDigit = true := by
    intro a s h0 hs
    refine ⟨s.getLast h0, ?_, hs _ (List.getLast_mem h0)⟩
    rw [List.getLast?_append, List.getLast?_eq_some_getLast h0]; rfl
  have hd : ∀ n, ∀ c ∈ showNat n, c.isDigit = true := fun n c hc => showNat_digits hc
  unfold PyFloat.magText
  simp only
  split
  · generalize (if (showNat x.m).length = 1 then showNat x.m else (showNat x.m).take 1 ++ '.' :: (showNat x.m).drop 1) = M
    have := key (M ++ 'e' :: (if ((showNat x.m).length : Int) + x.e - 1 < 0 then '-' else '+') :: List.replicate (2 - (showNat (((showNat x.m).length : Int) + x.e - 1).natAbs).length) '0') _ (showNat_ne_nil _) (hd (((showNat x.m).length : Int) + x.e - 1).natAbs)
    simpa [padZeros, List.append_assoc] using this
  · split
    · have := key ('0' :: '.' :: List.replicate (-(((showNat x.m).length : Int) + x.e)).toNat '0') _ (showNat_ne_nil _) (hd x.m)
      simpa using this
    · split
      · have := key (showNat x.m ++ List.replicate x.e.toNat '0' ++ ['.']) ['0'] (by simp) (by simp)
        simp
      · rename_i h1 h2 h3
        have := key ((showNat x.m).take (((showNat x.m).length : Int) + x.e).toNat ++ ['.']) ((showNat x.m).drop (((showNat x.m).length : Int) + x.e).toNat)
          (by intro h; have := congrArg List.length h; rw [List.length_drop, List.length_nil] at this; omega) (fun c hc => hd _ c (List.mem_of_mem_drop hc))
        simpa using this

theorem isWord_magText (x : PyFloat) : IsWord x.magText := by
  obtain ⟨c, h1, h2⟩ := lastDigit_magText x
  refine ⟨magText_ne x, grows_magText x, ppExp_last h1 ?_ ?_⟩ <;> (rintro rfl; revert h2; decide)

/-- A printed number as an expression. -/
def sgnExpr (p : Bool × List Char) : Expr := if p.1 then .neg (.lit p.2) else .lit p.2

def sgnText (p : Bool × List Char) : List Char := if p.1 then '-' :: p.2 else p.2

theorem sgnExpr_print (p : Bool × List Char) : (sgnExpr p).print = (Piece.signed p.1 p.2).toks := by
  obtain ⟨b, w⟩ := p
  cases b <;> simp [sgnExpr, Piece.toks, Expr.print]

theorem sgnExpr_uses (p : Bool × List Char) (x : List Char) : (sgnExpr p).uses x = false := by
  unfold sgnExpr; split <;> rfl

theorem sgnExprs_uses {α : Type} (g : α → Bool × List Char) (l : List α) (x : List Char) : ((l.map fun a => sgnExpr (g a)).any fun e => e.uses x) = false := by
  simp [sgnExpr_uses]

theorem sgnExpr_ok (p : Bool × List Char) (h : isNum p.2 = true) : (sgnExpr p).Prim ∧ (sgnExpr p).Ok := by
  unfold sgnExpr
  split
  · exact ⟨trivial, trivial, h⟩
  · exact ⟨trivial, h⟩

/-- Sign and digits of a printed integer. -/
def intSgn (z : Int) : Bool × List Char := (decide (z < 0), showNat z.natAbs)

def litSgn (v : ℚ) (dtype : List Char) : Bool × List Char := (litNeg v dtype, litMag v dtype)

/-- The expression of `constant(v, dtype)`. -/
abbrev litExpr (v : ℚ) (dtype : List Char) : Expr := sgnExpr (litSgn v dtype)

theorem constant_sgn (other : ℚ → List Char) (v : ℚ) (dtype : List Char) (h : NumType dtype) : constant other v dtype = sgnText (litSgn v dtype) := constant_eq other v dtype h

theorem showInt_sgn (z : Int) : showInt z = sgnText (intSgn z) := by
  unfold showInt sgnText intSgn
  by_cases h : z < 0
  · simp only [h, if_true, decide_true]; congr 2; omega
  · simp only [h, if_false, decide_false, Bool.false_eq_true]; congr 1; omega

theorem showNat_sgn (n : Nat) : showNat n = sgnText (false, showNat n) := rfl

theorem litExpr_ok (v : ℚ) (dtype : List Char) : (litExpr v dtype).Prim ∧ (litExpr v dtype).Ok := sgnExpr_ok _ (isNum_litMag v dtype)

theorem intSgn_word (z : Int) : IsWord (intSgn z).2 := isWord_showNat _
theorem litSgn_word (v : ℚ) (dtype : List Char) : IsWord (litSgn v dtype).2 := isWord_litMag v dtype

/-! ### Composition -/

theorem lexes_lits (s : List Char) (ts : List Tok) (h : clean s = true) (e : lex s = ts) : Lexes s ts := e ▸ lexes_clean s h

/-- A text that begins with a character that ends a word. -/
def stopsWord (s : List Char) : Bool := match s with | c :: _ => !wordChar c | [] => false

theorem lexes_word_lits (w : List Char) (hw : IsWord w) (s : List Char) (ts : List Tok) (h : clean s = true) (e : lex s = ts) (hs : stopsWord s = true) :
    Lexes (w ++ s) (.word w :: ts) := by
  cases s with
  | nil => simp [stopsWord] at hs
  | cons c r =>
    have := lexes_pieces [.word w, .lit (c :: r)] ⟨hw, hs, h, trivial⟩ rfl
    rw [← e]
    simpa [renderAll, toksAll, Piece.render, Piece.toks] using this

theorem lexes_sgn_lits (p : Bool × List Char) (hw : IsWord p.2) (s : List Char) (ts : List Tok) (h : clean s = true) (e : lex s = ts) (hs : stopsWord s = true) :
    Lexes (sgnText p ++ s) ((sgnExpr p).print ++ ts) := by
  cases s with
  | nil => simp [stopsWord] at hs
  | cons c r =>
    have := lexes_pieces [.signed p.1 p.2, .lit (c :: r)] ⟨hw, hs, h, trivial⟩ rfl
    rw [← e, sgnExpr_print]
    simpa [renderAll, toksAll, Piece.render, Piece.toks, sgnText] using this

/-- Fixed text with its words. -/
def litOk (s : List Char) (ts : List Tok) : Bool := clean s && decide (lex s = ts)

/-- Fixed text after a word. -/
def stopOk (s : List Char) (ts : List Tok) : Bool := clean s && decide (lex s = ts) && stopsWord s

theorem lexes_lit_chain (s : List Char) (ts : List Tok) (h : litOk s ts = true) {r : List Char} {us : List Tok} (hr : Lexes r us) : Lexes (s ++ r) (ts ++ us) := by
  simp only [litOk, Bool.and_eq_true, decide_eq_true_eq] at h
  exact (lexes_lits s ts h.1 h.2).append hr

theorem lexes_word_chain (w : List Char) (hw : IsWord w) (s : List Char) (ts : List Tok) (h : stopOk s ts = true)
    {r : List Char} {us : List Tok} (hr : Lexes r us) : Lexes (w ++ (s ++ r)) (.word w :: (ts ++ us)) := by
  simp only [stopOk, Bool.and_eq_true, decide_eq_true_eq] at h
  obtain ⟨⟨h, e⟩, hs⟩ := h
  have := (lexes_word_lits w hw s ts h e hs).append hr
  rwa [List.append_assoc, List.cons_append] at this

theorem lexes_sgn_chain (p : Bool × List Char) (hw : IsWord p.2) (s : List Char) (ts : List Tok) (h : stopOk s ts = true)
    {r : List Char} {us : List Tok} (hr : Lexes r us) : Lexes (sgnText p ++ (s ++ r)) ((sgnExpr p).print ++ (ts ++ us)) := by
  simp only [stopOk, Bool.and_eq_true, decide_eq_true_eq] at h
  obtain ⟨⟨h, e⟩, hs⟩ := h
  have := (lexes_sgn_lits p hw s ts h e hs).append hr
  rwa [List.append_assoc, List.append_assoc] at this

/-- Numbers separated by commas. -/
theorem lexes_sgn_list (sep : List Char) (hsep : clean sep = true) (hl : lex sep = [.sym ',']) (hst : stopsWord sep = true) (ps : List (Bool × List Char)) (hne : ps ≠ [])
    (hw : ∀ p ∈ ps, IsWord p.2) (s : List Char) (ts : List Tok) (h : clean s = true) (e : lex s = ts) (hs : stopsWord s = true) :
    Lexes (sep.intercalate (ps.map sgnText) ++ s) (printExprs (ps.map sgnExpr) ++ ts) := by
  induction ps with
  | nil => exact absurd rfl hne
  | cons p l ih =>
    cases l with
    | nil => simpa [List.intercalate, printExprs] using lexes_sgn_lits p (hw p (by simp)) s ts h e hs
    | cons q l =>
      have h1 := lexes_sgn_lits p (hw p (by simp)) sep _ hsep hl hst
      have h2 := ih (by simp) (fun p hp => hw p (by simp [hp]))
      have := h1.append h2
      simpa [List.intercalate, printExprs] using this

/-- Texts joined by white space. -/
theorem lexes_join {α : Type} (sep : List Char) (hsep : Lexes sep []) (text : α → List Char) (toks : α → List Tok) (l : List α) (h : ∀ a ∈ l, Lexes (text a) (toks a)) :
    Lexes (sep.intercalate (l.map text)) (l.flatMap toks) := by
  induction l with
  | nil => exact Lexes.nil
  | cons a l ih =>
    cases l with
    | nil => simpa [List.intercalate] using h a (by simp)
    | cons b l =>
      have h1 := h a (by simp)
      have h2 := ih (fun a ha => h a (by simp [ha]))
      have := h1.append (hsep.append h2)
      simpa [List.intercalate] using this

/-- A list of texts joined by white space, given as a list of pairs. -/
theorem lexes_join_pairs (sep : List Char) (hsep : Lexes sep []) (l : List (List Char × List Tok)) (h : ∀ a ∈ l, Lexes a.1 a.2) :
    Lexes (sep.intercalate (l.map (·.1))) (l.flatMap (·.2)) := lexes_join sep hsep (·.1) (·.2) l h

/-! ### White space -/

theorem clean_spaces (n : Nat) : clean (List.replicate n ' ') = true := by
  unfold clean
  induction n with
  | zero => rfl
  | succ n ih => rw [List.replicate_succ, cleanFrom]; simpa [joins_nil, wordChar, white, identRest, identFirst] using ih

theorem lex_spaces (n : Nat) : lex (List.replicate n ' ') = [] := by
  unfold lex
  induction n with
  | zero => rfl
  | succ n ih =>
    rw [List.replicate_succ, lexFrom]
    simp only [joins_nil, show wordChar ' ' = false from by decide, show white ' ' = true from by decide, Bool.false_eq_true, if_false, if_true]
    rw [ih]; rfl

/-! ### Names -/

theorem identFirst_not_digit {c : Char} (h : identFirst c = true) : c.isDigit = false := by
  by_contra hc
  simp only [Bool.not_eq_false, Char.isDigit, Bool.and_eq_true, decide_eq_true_eq] at hc
  simp only [identFirst, Bool.or_eq_true, Bool.and_eq_true, decide_eq_true_eq, beq_iff_eq] at h
  have h1 : 48 ≤ c.toNat := hc.1
  have h2 : c.toNat ≤ 57 := hc.2
  rcases h with (rfl | ⟨h, -⟩) | ⟨h, -⟩
  · revert h2; decide
  · have : 97 ≤ c.toNat := h
    omega
  · have : 65 ≤ c.toNat := h
    omega

theorem isWord_of_word {s : List Char} (h : Reader.Word s) (hp : ppExp s = false) : IsWord s := isWord_of_chars h.1 (fun c hc => by simp [wordChar, h.2 c hc]) hp

theorem isName_of_valid {s : List Char} (h : assertValidIdentifier s = true) (hn : '\n' ∉ s) : isName s = true := by
  have hw := Reader.word_of_valid h hn
  have hv : identifierIsValid s = true := by
    unfold assertValidIdentifier at h
    by_contra hc
    simp [hc] at h
  cases s with
  | nil => exact absurd rfl hw.1
  | cons c r =>
    simp only [identifierIsValid, Bool.and_eq_true] at hv
    simp only [isName, Bool.and_eq_true, List.all_eq_true]
    exact ⟨hv.1, fun d hd => hw.2 d (by simp [hd])⟩

theorem isName_word {s : List Char} (h : isName s = true) : IsWord s := by
  cases s with
  | nil => simp [isName] at h
  | cons c r =>
    simp only [isName, Bool.and_eq_true, List.all_eq_true] at h
    refine isWord_of_chars (by simp) (fun d hd => ?_) (by simp [ppExp, identFirst_not_digit h.1])
    rcases List.mem_cons.1 hd with rfl | hd
    · simp [wordChar, identRest, h.1]
    · simp [wordChar, h.2 d hd]

theorem isName_append {s t : List Char} (h : isName s = true) (ht : t.all identRest = true) : isName (s ++ t) = true := by
  cases s with
  | nil => simp [isName] at h
  | cons c r =>
    simp only [isName, Bool.and_eq_true] at h
    show (identFirst c && (r ++ t).all identRest) = true
    rw [Bool.and_eq_true]
    exact ⟨h.1, by rw [List.all_append, h.2, ht]; rfl⟩

/-- The words with a meaning of their own. -/
def keyWords : List (List Char) := (["if", "else", "for", "return", "static", "const", "inline"] ++ typeNames).map String.toList

theorem isKey_mem {w : List Char} (h : isKey w = true) : w ∈ keyWords := by
  unfold isKey isMod at h
  simp only [Bool.or_eq_true, beq_iff_eq] at h
  unfold keyWords
  rw [List.map_append, List.mem_append]
  rcases h with ((((h | h) | h) | h) | (h | h) | h) | h
  all_goals first | exact .inr (isType_cases h) | (left; rw [h]; decide +kernel)

/-- A name with a suffix none of the special words ends with. -/
theorem nm_suffix {s t : List Char} (h : isName s = true) (ht : t.all identRest = true) (hk : keyWords.all (fun k => !(t.isSuffixOf k)) = true) : Nm (s ++ t) := by
  refine ⟨isName_append h ht, ?_⟩
  rw [← Bool.not_eq_true]
  intro hc
  have := List.all_eq_true.1 hk _ (isKey_mem hc)
  rw [Bool.not_eq_true', ← Bool.not_eq_true, List.isSuffixOf_iff_suffix] at this
  exact this (List.suffix_append s t)

/-! ### Declarations of arrays -/

/-- Modifiers followed by a blank. -/
theorem lexes_mods (ws : List (List Char)) (hw : ∀ w ∈ ws, IsWord w) : Lexes ([' '].intercalate ws ++ [' ']) (ws.map .word) := by
  induction ws with
  | nil => exact lexes_lits [' '] [] (by decide) (by decide)
  | cons w l ih =>
    have h1 := lexes_word_lits w (hw w (by simp)) [' '] [] (by decide) (by decide) (by decide)
    cases l with
    | nil => simpa [List.intercalate] using h1
    | cons v l =>
      have := h1.append (ih (fun w hm => hw w (by simp [hm])))
      simpa [List.intercalate] using this

/-- `array_declare` with values (`cgen.py` 73-100) read by the reader of this specification. -/
theorem arrayDeclare_lexes (other : ℚ → List Char) (name dtype : List Char) (ws : List (List Char)) (vs : List ℚ) (text : List Char) (hn : isName name = true) (hd : IsWord dtype)
    (ht : NumType dtype) (hws : ∀ w ∈ ws, IsWord w)
    (h : arrayDeclare other name (some vs.length) dtype ([' '].intercalate ws) (some vs) [] [] = some text) :
    Lexes text (Decl.print ⟨ws, dtype, name, some (showNat vs.length), some (.flat (vs.map (litExpr · dtype)) false)⟩) := by
  unfold arrayDeclare at h
  simp only [Option.getD_some, if_true, Option.some.injEq] at h
  subst h
  have k1 := lexes_mods ws hws
  have k2 := lexes_word_lits dtype hd [' '] [] (by decide) (by decide) (by decide)
  have k3 := lexes_word_lits name (isName_word hn) ['['] [.sym '['] (by decide) (by decide) (by decide)
  have es : showSize (some (vs.length : Int)) = showNat vs.length := by simp [showSize, showInt]
  have em : vs.map (fun v => constant other v dtype) = (vs.map fun v => litSgn v dtype).map sgnText := by
    rw [List.map_map]; exact List.map_congr_left fun v _ => constant_sgn other v dtype ht
  cases vs with
  | nil =>
    have k4 := lexes_word_lits (showNat 0) (isWord_showNat 0) "] = {  };".toList [.sym ']', .sym '=', .sym '{', .sym '}', .sym ';'] (by decide +kernel) (by decide +kernel) (by decide +kernel)
    have := k1.append (k2.append (k3.append k4))
    have es' : showSize (some ((([] : List ℚ).length : Nat) : Int)) = showNat 0 := es
    rw [es']
    simpa [Decl.print, Init.print, printExprs, List.intercalate] using this
  | cons v l =>
    have k4 := lexes_word_lits (showNat (v :: l).length) (isWord_showNat _) "] = { ".toList [.sym ']', .sym '=', .sym '{'] (by decide +kernel) (by decide +kernel) (by decide +kernel)
    have k5 := lexes_sgn_list [',', ' '] (by decide) (by decide) (by decide) ((v :: l).map fun v => litSgn v dtype) (by simp) (by
      intro p hp; obtain ⟨v, -, rfl⟩ := List.mem_map.1 hp; exact litSgn_word v dtype) " };".toList [.sym '}', .sym ';'] (by decide +kernel) (by decide +kernel) (by decide +kernel)
    have := k1.append (k2.append (k3.append (k4.append k5)))
    rw [es, em]
    rw [List.map_map] at this
    simpa [Decl.print, Init.print, Function.comp_def, -List.map_cons] using this

end Emlearn.MiniC
