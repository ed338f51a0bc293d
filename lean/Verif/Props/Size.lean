/- C101: reading the sizes of a program. -/
import Verif.Evaluate.Size
import Verif.Cgen.Reader
import Mathlib.Data.List.TakeWhile
namespace Emlearn.Size

/-! ### Specification -/

/-- A row of the table: the name of a section, its size and its address, aligned with spaces. -/
structure Row where
  name : List Char
  size : Nat
  addr : Nat
  gap1 : Nat
  gap2 : Nat

def Row.text (r : Row) : List Char :=
  r.name ++ List.replicate r.gap1 ' ' ++ showNat r.size ++ List.replicate r.gap2 ' ' ++ showNat r.addr ++ ['\n']

/-- The output of `size -A` for one file: the file, the header, the rows, the total. -/
structure Table where
  file : List Char
  gap1 : Nat
  gap2 : Nat
  rows : List Row
  gap3 : Nat
  total : Nat

def Table.text (t : Table) : List Char :=
  t.file ++ "  :\n".toList ++ "section".toList ++ List.replicate t.gap1 ' ' ++ "size".toList ++ List.replicate t.gap2 ' ' ++ "addr\n".toList ++ t.rows.flatMap Row.text ++
    "Total".toList ++ List.replicate t.gap3 ' ' ++ showNat t.total ++ "\n\n\n".toList

/-- The part of a section name that is recognised: its longest ending of letters, digits, underscores and dots, in lower case. -/
def IsKey (name key : List Char) : Prop :=
  ∃ p k, name = p ++ k ∧ (∀ c ∈ k, isWord c = true) ∧ (∀ q c, p = q ++ [c] → isWord c = false) ∧ key = k.map Char.toLower

/-- What the output of the tool looks like: columns are separated, names are not empty, without white space, do not begin with a digit and end with a letter, digit, underscore or dot. -/
structure WellFormed (t : Table) : Prop where
  elf : ".elf".toList <:+: t.file
  file : ∀ c ∈ t.file, isSp c = false
  gaps : 0 < t.gap1 ∧ 0 < t.gap2 ∧ 0 < t.gap3
  rows : ∀ r ∈ t.rows, 0 < r.gap1 ∧ 0 < r.gap2 ∧ (∀ c ∈ r.name, isSp c = false) ∧ (∃ c l, r.name = c :: l ∧ c.isDigit = false) ∧ (∃ l c, r.name = l ++ [c] ∧ isWord c = true)

/-- `n` is the size in the last row recognised as `key`. -/
def LastSize (rows : List Row) (key : List Char) (n : Nat) : Prop :=
  ∃ a r b, rows = a ++ r :: b ∧ IsKey r.name key ∧ r.size = n ∧ ∀ r' ∈ b, ¬ IsKey r'.name key

/-- The same, and 0 if there is no such row. -/
def SizeIs (rows : List Row) (key : List Char) (n : Nat) : Prop :=
  LastSize rows key n ∨ (∀ r ∈ rows, ¬ IsKey r.name key) ∧ n = 0

/-- The size of the section with this very name; 0 without one. -/
def sectionSize (rows : List Row) (name : List Char) : Nat := ((rows.filter (fun r => r.name = name)).map (·.size)).sum

/-! ### The regular expression -/

theorem isWord_not_sp {c : Char} (h : isWord c = true) : isSp c = false := by
  unfold isWord at h
  unfold isSp
  simp only [Char.isAlphanum, Char.isAlpha, Char.isUpper, Char.isLower, Char.isDigit, Bool.or_eq_true, Bool.and_eq_true, decide_eq_true_eq, beq_iff_eq] at h
  simp only [Bool.or_eq_false_iff, Bool.and_eq_false_iff, decide_eq_false_iff_not, not_le]
  have e : c.toNat = c.val.toNat := rfl
  have hc : 48 ≤ c.toNat ∨ c.toNat = 46 := by
    rcases h with ((((h | h) | h) | h) | h)
    · have := UInt32.le_iff_toNat_le.1 h.1; simp at this; omega
    · have := UInt32.le_iff_toNat_le.1 h.1; simp at this; omega
    · have := UInt32.le_iff_toNat_le.1 h.1; simp at this; omega
    · subst h; left; decide
    · subst h; right; decide
  omega

theorem isDigit_isWord {c : Char} (h : c.isDigit = true) : isWord c = true := by
  simp [isWord, Char.isAlphanum, h]

/-- The model of the regular expression is exact: there is a match at the beginning of the text, with whatever lengths of the three parts, exactly if `matchAt` finds one. -/
theorem matchAt_complete {l : List Char} : (matchAt l).isSome = true ↔
    ∃ k g d r, l = k ++ g ++ d ++ r ∧ k ≠ [] ∧ g ≠ [] ∧ d ≠ [] ∧ (∀ c ∈ k, isWord c = true) ∧ (∀ c ∈ g, isSp c = true) ∧ ∀ c ∈ d, c.isDigit = true := by
  constructor
  · intro h
    unfold matchAt at h
    simp only at h
    split at h
    · cases h
    · rename_i hn
      push Not at hn
      refine ⟨_, _, _, ((l.dropWhile isWord).dropWhile isSp).dropWhile Char.isDigit, ?_, hn.1, hn.2.1, hn.2.2, ?_, ?_, ?_⟩
      · simp [List.append_assoc, List.takeWhile_append_dropWhile]
      · intro c hc; exact List.mem_takeWhile_imp hc
      · intro c hc; exact List.mem_takeWhile_imp hc
      · intro c hc; exact List.mem_takeWhile_imp hc
  · rintro ⟨k, g, d, r, rfl, hk, hg, hd, hkw, hgs, hdd⟩
    obtain ⟨g0, g', rfl⟩ := List.exists_cons_of_ne_nil hg
    obtain ⟨d0, d', rfl⟩ := List.exists_cons_of_ne_nil hd
    have hg0 : isWord g0 = false := by
      cases h : isWord g0 with
      | false => rfl
      | true => have := isWord_not_sp h; rw [hgs g0 (by simp)] at this; cases this
    have hd0 : isSp d0 = false := isWord_not_sp (isDigit_isWord (hdd d0 (by simp)))
    have e1 : (k ++ (g0 :: g') ++ (d0 :: d') ++ r).dropWhile isWord = (g0 :: g') ++ ((d0 :: d') ++ r) := by
      rw [List.append_assoc, List.append_assoc, List.dropWhile_append_of_pos hkw]
      simp [hg0]
    have e2 : (k ++ (g0 :: g') ++ (d0 :: d') ++ r).takeWhile isWord = k := by
      rw [List.append_assoc, List.append_assoc, List.takeWhile_append_of_pos hkw]
      simp [hg0]
    have e3 : ((g0 :: g') ++ ((d0 :: d') ++ r)).dropWhile isSp = (d0 :: d') ++ r := by
      rw [List.dropWhile_append_of_pos hgs]; simp [hd0]
    have e4 : ((g0 :: g') ++ ((d0 :: d') ++ r)).takeWhile isSp = g0 :: g' := by
      rw [List.takeWhile_append_of_pos hgs]; simp [hd0]
    have e5 : ((d0 :: d') ++ r).takeWhile Char.isDigit ≠ [] := by
      simp [hdd d0 (by simp)]
    unfold matchAt
    simp only [e1, e2, e3, e4]
    rw [if_neg (by push Not; exact ⟨hk, by simp, e5⟩)]
    rfl

theorem finditer_none {c : Char} {t : List Char} (h : matchAt (c :: t) = none) : finditer (c :: t) = finditer t := by
  rw [finditer]
  split
  · rename_i h'; rw [h] at h'; cases h'
  · rfl

theorem finditer_some {l k d r : List Char} (h : matchAt l = some (k, d, r)) : finditer l = (k, d) :: finditer r := by
  rw [finditer]
  split
  · rename_i h'; rw [h] at h'; cases h'; rfl
  · rename_i h'; rw [h] at h'; cases h'

theorem finditer_nil : finditer [] = [] := by
  rw [finditer]
  split
  · rename_i h; cases h
  · rfl

/-- The text does not begin with a digit or white space. -/
def Starts (y : List Char) : Prop := ∀ c t, y = c :: t → c.isDigit = false ∧ isSp c = false

theorem takeWhile_digit_of_starts {y : List Char} (h : Starts y) : y.takeWhile Char.isDigit = [] := by
  cases y with
  | nil => rfl
  | cons c t => simp [(h c t rfl).1]

theorem gap_starts {g y : List Char} (hg : ∀ c ∈ g, isSp c = true) (h : Starts y) : (g ++ y).dropWhile isSp = y := by
  rw [List.dropWhile_append_of_pos hg]
  cases y with
  | nil => rfl
  | cons c t => simp [(h c t rfl).2]

theorem sp_not_word {c : Char} (h : isSp c = true) : isWord c = false := by
  cases hw : isWord c with
  | false => rfl
  | true => have := isWord_not_sp hw; rw [h] at this; cases this

theorem finditer_skip_sp {g y : List Char} (hg : ∀ c ∈ g, isSp c = true) : finditer (g ++ y) = finditer y := by
  induction g with
  | nil => rfl
  | cons c g ih =>
    rw [List.cons_append, finditer_none, ih (fun d hd => hg d (List.mem_cons_of_mem _ hd))]
    have := sp_not_word (hg c (by simp))
    unfold matchAt
    simp [this]

/-- A run of characters whose longest beginning of word characters is followed by one that is neither a word character nor white space: no match. -/
theorem matchAt_stop {l y : List Char} (hl : ∀ c ∈ l, isSp c = false) (h : ∃ c ∈ l, isWord c = false) : matchAt (l ++ y) = none := by
  have hne : l.dropWhile isWord ≠ [] := by
    intro h0
    obtain ⟨c, hc, hw⟩ := h
    have := List.dropWhile_eq_nil_iff.1 h0 c hc
    rw [hw] at this; cases this
  have e : (l ++ y).dropWhile isWord = l.dropWhile isWord ++ y := by
    rw [List.dropWhile_append, if_neg (by simpa using hne)]
  obtain ⟨c, t, hct⟩ := List.exists_cons_of_ne_nil hne
  have hc : isSp c = false := hl c ((List.dropWhile_sublist isWord).subset (by rw [hct]; simp))
  unfold matchAt
  simp only [e, hct]
  rw [if_pos]
  right; left
  simp [hc]

/-- A word followed by white space and no number is skipped. -/
theorem finditer_skip {l g y : List Char} (hl : ∀ c ∈ l, isSp c = false) (hg : ∀ c ∈ g, isSp c = true) (hg0 : g ≠ []) (hy : Starts y) : finditer (l ++ (g ++ y)) = finditer y := by
  induction l with
  | nil => exact finditer_skip_sp hg
  | cons c l ih =>
    rw [List.cons_append, finditer_none, ih (fun d hd => hl d (List.mem_cons_of_mem _ hd))]
    rw [← List.cons_append]
    by_cases hw : ∃ d ∈ c :: l, isWord d = false
    · exact matchAt_stop hl hw
    · have hw' : ∀ d ∈ c :: l, isWord d = true := by
        intro d hd
        cases h : isWord d with
        | true => rfl
        | false => exact absurd ⟨d, hd, h⟩ hw
      have e : (c :: l ++ (g ++ y)).dropWhile isWord = g ++ y := by
        rw [List.dropWhile_append_of_pos hw']
        obtain ⟨g0, g', rfl⟩ := List.exists_cons_of_ne_nil hg0
        simp [sp_not_word (hg g0 (by simp))]
      unfold matchAt
      simp only [e, gap_starts hg hy, takeWhile_digit_of_starts hy]
      simp

/-- A word followed by white space and a number is found, from its longest ending of word characters on. -/
theorem finditer_row {p k g d y : List Char} (hp : ∀ c ∈ p, isSp c = false) (hpe : ∀ q c, p = q ++ [c] → isWord c = false) (hk : k ≠ []) (hkw : ∀ c ∈ k, isWord c = true)
    (hg : ∀ c ∈ g, isSp c = true) (hg0 : g ≠ []) (hd : ∀ c ∈ d, c.isDigit = true) (hd0 : d ≠ []) (hy : ∀ c t, y = c :: t → c.isDigit = false) :
    finditer (p ++ (k ++ (g ++ (d ++ y)))) = (k, d) :: finditer y := by
  induction p with
  | nil =>
    rw [List.nil_append]
    apply finditer_some
    obtain ⟨g0, g', rfl⟩ := List.exists_cons_of_ne_nil hg0
    obtain ⟨d0, d', rfl⟩ := List.exists_cons_of_ne_nil hd0
    have hg0 : isWord g0 = false := sp_not_word (hg g0 (by simp))
    have hd0 : isSp d0 = false := isWord_not_sp (isDigit_isWord (hd d0 (by simp)))
    have e1 : (k ++ ((g0 :: g') ++ ((d0 :: d') ++ y))).dropWhile isWord = (g0 :: g') ++ ((d0 :: d') ++ y) := by
      rw [List.dropWhile_append_of_pos hkw]; simp [hg0]
    have e2 : (k ++ ((g0 :: g') ++ ((d0 :: d') ++ y))).takeWhile isWord = k := by
      rw [List.takeWhile_append_of_pos hkw]; simp [hg0]
    have e3 : ((g0 :: g') ++ ((d0 :: d') ++ y)).dropWhile isSp = (d0 :: d') ++ y := by
      rw [List.dropWhile_append_of_pos hg]; simp [hd0]
    have e4 : ((g0 :: g') ++ ((d0 :: d') ++ y)).takeWhile isSp = g0 :: g' := by
      rw [List.takeWhile_append_of_pos hg]; simp [hd0]
    have e5 : ((d0 :: d') ++ y).takeWhile Char.isDigit = d0 :: d' := by
      rw [List.takeWhile_append_of_pos hd]
      cases y with
      | nil => simp
      | cons c t => simp [hy c t rfl]
    have e6 : ((d0 :: d') ++ y).dropWhile Char.isDigit = y := by
      rw [List.dropWhile_append_of_pos hd]
      cases y with
      | nil => rfl
      | cons c t => simp [hy c t rfl]
    unfold matchAt
    simp only [e1, e2, e3, e4, e5, e6]
    rw [if_neg (by push Not; exact ⟨hk, by simp, by simp⟩)]
  | cons c p ih =>
    rw [List.cons_append, finditer_none]
    · refine ih (fun d hd => hp d (List.mem_cons_of_mem _ hd)) fun q e he => hpe (c :: q) e (by rw [he]; rfl)
    · rw [← List.cons_append]
      apply matchAt_stop hp
      obtain ⟨q, e, he⟩ : ∃ q e, c :: p = q ++ [e] := ⟨_, _, (List.dropLast_append_getLast (by simp)).symm⟩
      exact ⟨e, by rw [he]; simp, hpe q e he⟩


/-! ### The table -/

theorem Row.key_exists {r : Row} (h : (∃ l c, r.name = l ++ [c] ∧ isWord c = true)) : ∃ p k, r.name = p ++ k ∧ k ≠ [] ∧ (∀ c ∈ k, isWord c = true) ∧ (∀ q c, p = q ++ [c] → isWord c = false) := by
  obtain ⟨l, c, hn, hc⟩ := h
  refine ⟨(r.name.reverse.dropWhile isWord).reverse, (r.name.reverse.takeWhile isWord).reverse, ?_, ?_, ?_, ?_⟩
  · rw [← List.reverse_append, List.takeWhile_append_dropWhile, List.reverse_reverse]
  · rw [hn]; simp [hc]
  · intro d hd
    rw [List.mem_reverse] at hd
    exact List.mem_takeWhile_imp hd
  · intro q d hq
    have hq' : r.name.reverse.dropWhile isWord = d :: q.reverse := by
      have := congrArg List.reverse hq
      simpa using this
    have := List.head?_dropWhile_not isWord r.name.reverse
    rw [hq'] at this
    simpa using this

theorem suffix_eq {p k p' k' : List Char} (h : p ++ k = p' ++ k') (hk : ∀ c ∈ k, isWord c = true) (hp : ∀ q c, p = q ++ [c] → isWord c = false)
    (hk' : ∀ c ∈ k', isWord c = true) (hp' : ∀ q c, p' = q ++ [c] → isWord c = false) : k = k' := by
  have key : ∀ {p k : List Char}, (∀ c ∈ k, isWord c = true) → (∀ q c, p = q ++ [c] → isWord c = false) → (p ++ k).reverse.takeWhile isWord = k.reverse := by
    intro p k hk hp
    rw [List.reverse_append, List.takeWhile_append_of_pos (by simpa using hk)]
    rcases List.eq_nil_or_concat p with rfl | ⟨q, c, rfl⟩
    · simp
    · simp [hp q c (by simp)]
  have h1 := key hk hp
  rw [h, key hk' hp'] at h1
  exact (List.reverse_injective h1).symm

theorem IsKey.unique {name a b : List Char} (ha : IsKey name a) (hb : IsKey name b) : a = b := by
  obtain ⟨p, k, hn, hk, hp, rfl⟩ := ha
  obtain ⟨p', k', hn', hk', hp', rfl⟩ := hb
  rw [suffix_eq (hn.symm.trans hn') hk hp hk' hp']

theorem showNat_starts (n : Nat) (y : List Char) : ∃ c t, showNat n ++ y = c :: t ∧ c.isDigit = true := by
  obtain ⟨c, t, h⟩ := List.exists_cons_of_ne_nil (showNat_ne_nil n)
  exact ⟨c, t ++ y, by rw [h]; rfl, showNat_digits (n := n) (by rw [h]; simp)⟩

theorem replicate_sp (n : Nat) : ∀ c ∈ List.replicate n ' ', isSp c = true := by
  intro c hc
  rw [List.eq_of_mem_replicate hc]; rfl

theorem replicate_ne {n : Nat} (h : 0 < n) : List.replicate n ' ' ≠ [] := by
  cases n with
  | zero => omega
  | succ n => simp [List.replicate_succ]

theorem digit_not_sp {n : Nat} : ∀ c ∈ showNat n, isSp c = false := fun _ hc => isWord_not_sp (isDigit_isWord (showNat_digits hc))

theorem starts_word {c : Char} (l : List Char) (h1 : c.isDigit = false) (h2 : isSp c = false) : Starts (c :: l) := by
  intro d t h; cases h; exact ⟨h1, h2⟩

theorem starts_append {a : List Char} (y : List Char) (h : ∃ c l, a = c :: l ∧ c.isDigit = false) (h2 : ∀ c ∈ a, isSp c = false) : Starts (a ++ y) := by
  obtain ⟨c, l, rfl, hc⟩ := h
  exact starts_word _ hc (h2 c (by simp))

theorem not_digit_sp (n : Nat) (y : List Char) (h : 0 < n) : ∀ c t, List.replicate n ' ' ++ y = c :: t → c.isDigit = false := by
  intro c t h'
  cases n with
  | zero => omega
  | succ n => rw [List.replicate_succ, List.cons_append] at h'; cases h'; rfl

/-- What the search finds in one row. -/
theorem row_found {r : Row} {y : List Char} (h1 : 0 < r.gap1) (h2 : 0 < r.gap2) (hs : ∀ c ∈ r.name, isSp c = false) (hl : ∃ l c, r.name = l ++ [c] ∧ isWord c = true) (hy : Starts y) :
    ∃ k, (∃ p, r.name = p ++ k ∧ (∀ c ∈ k, isWord c = true) ∧ (∀ q c, p = q ++ [c] → isWord c = false)) ∧ finditer (r.text ++ y) = (k, showNat r.size) :: finditer y := by
  obtain ⟨p, k, hn, hk, hkw, hp⟩ := Row.key_exists hl
  refine ⟨k, ⟨p, hn, hkw, hp⟩, ?_⟩
  have : r.text ++ y = p ++ (k ++ (List.replicate r.gap1 ' ' ++ (showNat r.size ++ (List.replicate r.gap2 ' ' ++ (showNat r.addr ++ (['\n'] ++ y)))))) := by
    unfold Row.text; rw [hn]; simp only [List.append_assoc]
  rw [this, finditer_row (fun c hc => hs c (by rw [hn]; exact List.mem_append_left _ hc)) hp hk hkw (replicate_sp _) (replicate_ne h1) (fun c hc => showNat_digits hc) (showNat_ne_nil _) (not_digit_sp _ _ h2),
    finditer_skip_sp (replicate_sp _), finditer_skip digit_not_sp (by intro c hc; rw [List.mem_singleton.1 hc]; rfl) (by simp) hy]

/-- The entry made for a row: its key and its size. -/
def Entry (r : Row) (e : List Char × Nat) : Prop := IsKey r.name e.1 ∧ e.2 = r.size

theorem ofDigits_showNat (n : Nat) : Nat.ofDigitChars 10 (showNat n) 0 = n := by
  have := readNat_showNat n
  unfold readNat at this
  split at this
  · simpa using this
  · cases this

/-- The dictionary made from a list of matches. -/
def entryOf (m : List Char × List Char) : List Char × Nat := (lower m.1, Nat.ofDigitChars 10 m.2 0)

theorem rows_found {rows : List Row} {y : List Char}
    (h : ∀ r ∈ rows, 0 < r.gap1 ∧ 0 < r.gap2 ∧ (∀ c ∈ r.name, isSp c = false) ∧ (∃ c l, r.name = c :: l ∧ c.isDigit = false) ∧ (∃ l c, r.name = l ++ [c] ∧ isWord c = true)) (hy : Starts y) :
    Starts (rows.flatMap Row.text ++ y) ∧ ∃ es, List.Forall₂ Entry rows es ∧ (finditer (rows.flatMap Row.text ++ y)).map entryOf = es ++ (finditer y).map entryOf := by
  induction rows with
  | nil => exact ⟨hy, [], .nil, rfl⟩
  | cons r rows ih =>
    obtain ⟨ih1, es, hes, ih2⟩ := ih (fun r' hr => h r' (List.mem_cons_of_mem _ hr))
    obtain ⟨g1, g2, hs, hd, hl⟩ := h r (by simp)
    obtain ⟨k, ⟨p, hn, hkw, hp⟩, hf⟩ := row_found g1 g2 hs hl ih1
    rw [List.flatMap_cons, List.append_assoc]
    refine ⟨?_, (lower k, r.size) :: es, .cons ⟨⟨p, k, hn, hkw, hp, rfl⟩, rfl⟩ hes, ?_⟩
    · unfold Row.text
      simp only [List.append_assoc]
      exact starts_append _ hd hs
    · rw [hf, List.map_cons, ih2, entryOf, ofDigits_showNat, List.cons_append]

theorem table_found {t : Table} (w : WellFormed t) : ∃ es, List.Forall₂ Entry t.rows es ∧ fields t.text = (es ++ [("total".toList, t.total)]).reverse := by
  have hT : Starts ("Total".toList ++ (List.replicate t.gap3 ' ' ++ (showNat t.total ++ "\n\n\n".toList))) := starts_word _ (by decide) (by decide)
  obtain ⟨hS, es, hes, hf⟩ := rows_found w.rows hT
  refine ⟨es, hes, ?_⟩
  unfold fields
  have : t.text = t.file ++ ([' ', ' '] ++ (":".toList ++ (['\n'] ++ ("section".toList ++ (List.replicate t.gap1 ' ' ++ ("size".toList ++ (List.replicate t.gap2 ' ' ++ ("addr".toList ++ (['\n'] ++
      (t.rows.flatMap Row.text ++ ("Total".toList ++ (List.replicate t.gap3 ' ' ++ (showNat t.total ++ "\n\n\n".toList))))))))))))) := by
    unfold Table.text
    simp only [List.append_assoc]
    rfl
  have nl : ∀ c ∈ ['\n'], isSp c = true := by decide
  have lit : ∀ (a : List Char) (y : List Char), a.head?.map Char.isDigit = some false → a.all (fun c => !isSp c) = true → Starts (a ++ y) := by
    intro a y h1 h2
    cases a with
    | nil => cases h1
    | cons c l => exact starts_append y ⟨c, l, rfl, by simpa using h1⟩ (by simpa using h2)
  rw [this, finditer_skip w.file (by decide) (by simp) (lit _ _ (by decide) (by decide)), finditer_skip (by decide) nl (by simp) (lit _ _ (by decide) (by decide)),
    finditer_skip (by decide) (replicate_sp _) (replicate_ne w.gaps.1) (lit _ _ (by decide) (by decide)),
    finditer_skip (by decide) (replicate_sp _) (replicate_ne w.gaps.2.1) (lit _ _ (by decide) (by decide)),
    finditer_skip (by decide) nl (by simp) hS]
  congr 1
  refine (show _ = List.map entryOf _ from rfl).trans (hf.trans ?_)
  congr 1
  have e := finditer_row (p := []) (k := "Total".toList) (g := List.replicate t.gap3 ' ') (d := showNat t.total) (y := "\n\n\n".toList) (by simp) (by simp) (by decide) (by decide)
    (replicate_sp _) (replicate_ne w.gaps.2.2) (fun c hc => showNat_digits hc) (showNat_ne_nil _) (by intro c t h; cases h; rfl)
  rw [List.nil_append] at e
  rw [e, List.map_cons, entryOf, ofDigits_showNat]
  have : finditer "\n\n\n".toList = [] := by
    have := finditer_skip_sp (g := "\n\n\n".toList) (y := []) (by decide)
    rw [List.append_nil, finditer_nil] at this
    exact this
  rw [this]
  rfl

/-- Looking up a key in the entries of the rows, the newest first. -/
theorem get_entries {rows : List Row} {es : List (List Char × Nat)} (h : List.Forall₂ Entry rows es) (key : List Char) :
    (∀ n, get es.reverse key = some n ↔ LastSize rows key n) ∧ (get es.reverse key = none ↔ ∀ r ∈ rows, ¬ IsKey r.name key) := by
  have snoc : ∀ (es : List (List Char × Nat)) e, get (es ++ [e]).reverse key = if e.1 = key then some e.2 else get es.reverse key := by
    intro es e
    rw [List.reverse_append]
    simp only [List.reverse_cons, List.reverse_nil, List.nil_append, List.singleton_append]
    unfold get
    rw [List.find?_cons]
    by_cases he : e.1 = key
    · simp [he]
    · simp [he]
  induction rows using List.reverseRecOn generalizing es with
  | nil =>
    cases h
    refine ⟨fun n => ⟨fun h => by simp [get] at h, ?_⟩, by simp [get]⟩
    rintro ⟨a, r, b, h, _⟩
    simp at h
  | append_singleton rows r ih =>
    obtain ⟨es', e, rfl, hes, he⟩ : ∃ es' e, es = es' ++ [e] ∧ List.Forall₂ Entry rows es' ∧ Entry r e := by
      have hl := h.length_eq
      rcases List.eq_nil_or_concat es with rfl | ⟨es', e, rfl⟩
      · simp at hl
      · rw [List.concat_eq_append] at h ⊢
        refine ⟨es', e, rfl, ?_⟩
        have hr := List.forall₂_reverse_iff.2 h
        simp only [List.reverse_append, List.reverse_cons, List.reverse_nil, List.nil_append, List.singleton_append] at hr
        cases hr with
        | cons h1 h2 => exact ⟨List.forall₂_reverse_iff.1 h2, h1⟩
    rw [snoc]
    obtain ⟨ih1, ih2⟩ := ih hes
    have hkey : IsKey r.name key ↔ e.1 = key := ⟨fun hk => IsKey.unique he.1 hk, fun h => h ▸ he.1⟩
    by_cases hk : e.1 = key
    · rw [if_pos hk]
      constructor
      · intro n
        constructor
        · intro hn
          exact ⟨rows, r, [], rfl, hkey.2 hk, by rw [← he.2]; simpa using hn, by simp⟩
        · rintro ⟨a, r', b, hrows, hk', hn, hb⟩
          rcases List.eq_nil_or_concat b with rfl | ⟨b', r'', rfl⟩
          · obtain ⟨rfl, h2⟩ := List.append_inj' hrows rfl
            cases h2
            rw [← hn, he.2]
          · rw [List.concat_eq_append, ← List.cons_append, ← List.append_assoc] at hrows
            obtain ⟨_, h2⟩ := List.append_inj' hrows rfl
            cases h2
            exact absurd (hkey.2 hk) (hb r (by simp))
      · simp [hkey.2 hk]
    · rw [if_neg hk]
      have hnk : ¬ IsKey r.name key := fun h => hk (hkey.1 h)
      constructor
      · intro n
        rw [ih1 n]
        constructor
        · rintro ⟨a, r', b, rfl, hk', hn, hb⟩
          refine ⟨a, r', b ++ [r], by simp, hk', hn, ?_⟩
          intro x hx
          rcases List.mem_append.1 hx with hx | hx
          · exact hb x hx
          · rw [List.mem_singleton.1 hx]; exact hnk
        · rintro ⟨a, r', b, hrows, hk', hn, hb⟩
          rcases List.eq_nil_or_concat b with rfl | ⟨b', r'', rfl⟩
          · obtain ⟨rfl, h2⟩ := List.append_inj' hrows rfl
            cases h2
            exact absurd hk' hnk
          · rw [List.concat_eq_append, ← List.cons_append, ← List.append_assoc] at hrows
            obtain ⟨h1, h2⟩ := List.append_inj' hrows rfl
            exact ⟨a, r', b', h1, hk', hn, fun x hx => hb x (by simp [hx])⟩
      · rw [ih2]
        constructor
        · intro h x hx
          rcases List.mem_append.1 hx with hx | hx
          · exact h x hx
          · rw [List.mem_singleton.1 hx]; exact hnk
        · intro h x hx
          exact h x (by simp [hx])

theorem get_ensure (out : List (List Char × Nat)) (k key : List Char) : get (ensure out k) key = if key = k then some ((get out k).getD 0) else get out key := by
  unfold ensure
  by_cases h : get out k = none
  · rw [if_pos h]
    by_cases hk : key = k
    · subst hk
      rw [if_pos rfl, h]
      simp [get]
    · rw [if_neg hk]
      unfold get
      rw [List.find?_cons]
      simp [Ne.symm hk]
  · rw [if_neg h]
    obtain ⟨n, hn⟩ := Option.ne_none_iff_exists'.1 h
    by_cases hk : key = k
    · subst hk; rw [if_pos rfl, hn]; rfl
    · rw [if_neg hk]

theorem sizeIs_iff {rows : List Row} {es : List (List Char × Nat)} (h : List.Forall₂ Entry rows es) (key : List Char) (n : Nat) : (get es.reverse key).getD 0 = n ↔ SizeIs rows key n := by
  obtain ⟨h1, h2⟩ := get_entries h key
  unfold SizeIs
  cases hg : get es.reverse key with
  | none =>
    have hn := h2.1 hg
    constructor
    · intro h0; exact .inr ⟨hn, by simpa using h0.symm⟩
    · rintro (h | h)
      · rw [(h1 n).2 h] at hg; cases hg
      · rw [h.2]; rfl
  | some m =>
    have hm := (h1 m).1 hg
    constructor
    · intro h0
      left
      rw [← (show m = n from h0)]; exact hm
    · rintro (h | h)
      · rw [(h1 n).2 h] at hg; cases hg; rfl
      · exact absurd hg (by rw [h2.2 h.1]; simp)

theorem elf_infix {t : Table} (w : WellFormed t) (x : List Char) : ".elf".toList <:+: t.file ++ x := w.elf.trans (List.prefix_append _ _).isInfix

/-- The sizes reported for a program are those of its sections: flash holds `.text`, `.data` and `.rodata`, RAM holds `.data` and `.bss`; a section that is missing counts 0, except that without `.text` the call fails. -/
theorem C101_sizes (t : Table) (w : WellFormed t) (res : Sizes) :
    sizes t.text = some res ↔ ∃ text data rodata bss, LastSize t.rows ".text".toList text ∧ SizeIs t.rows ".data".toList data ∧ SizeIs t.rows ".rodata".toList rodata ∧ SizeIs t.rows ".bss".toList bss ∧
      res = ⟨text + data + rodata, data + bss⟩ := by
  obtain ⟨es, hes, hf⟩ := table_found w
  have hlines : ∃ rest, t.text.splitOn '\n' = (t.file ++ "  :".toList) :: ("section".toList ++ List.replicate t.gap1 ' ' ++ "size".toList ++ List.replicate t.gap2 ' ' ++ "addr".toList) :: rest := by
    refine ⟨(t.rows.flatMap Row.text ++ "Total".toList ++ List.replicate t.gap3 ' ' ++ showNat t.total ++ "\n\n\n".toList).splitOn '\n', ?_⟩
    have e : t.text = (t.file ++ "  :".toList) ++ '\n' :: (("section".toList ++ List.replicate t.gap1 ' ' ++ "size".toList ++ List.replicate t.gap2 ' ' ++ "addr".toList) ++ '\n' ::
        (t.rows.flatMap Row.text ++ "Total".toList ++ List.replicate t.gap3 ' ' ++ showNat t.total ++ "\n\n\n".toList)) := by
      unfold Table.text
      simp only [List.append_assoc]
      rfl
    rw [e, Cgen.Reader.splitOn_append_sep _ _ _ ?_, Cgen.Reader.splitOn_append_sep _ _ _ ?_]
    · simp
    · simp only [List.mem_append, not_or]
      refine ⟨fun h => ?_, by decide⟩
      have := w.file _ h
      revert this; decide
  obtain ⟨rest, hl⟩ := hlines
  have hcond : ".elf".toList <:+: (t.file ++ "  :".toList) ∧ "section".toList <:+: ("section".toList ++ List.replicate t.gap1 ' ' ++ "size".toList ++ List.replicate t.gap2 ' ' ++ "addr".toList) ∧
      "size".toList <:+: ("section".toList ++ List.replicate t.gap1 ' ' ++ "size".toList ++ List.replicate t.gap2 ' ' ++ "addr".toList) := by
    refine ⟨elf_infix w _, ⟨[], List.replicate t.gap1 ' ' ++ "size".toList ++ List.replicate t.gap2 ' ' ++ "addr".toList, by simp only [List.append_assoc, List.nil_append]⟩,
      ⟨"section".toList ++ List.replicate t.gap1 ' ', List.replicate t.gap2 ' ' ++ "addr".toList, by simp only [List.append_assoc]⟩⟩
  have hget : ∀ key, key ≠ "total".toList → get (fields t.text) key = get es.reverse key := by
    intro key hk
    rw [hf, List.reverse_append]
    show get (("total".toList, t.total) :: es.reverse) key = _
    unfold get
    rw [List.find?_cons]
    simp only [Ne.symm hk, decide_false]
  have htext := get_ensure
  generalize hout : ensure (ensure (ensure (fields t.text) ".rodata".toList) ".data".toList) ".bss".toList = out
  have g1 : get out ".text".toList = get es.reverse ".text".toList := by
    rw [← hout, get_ensure, if_neg (by decide), get_ensure, if_neg (by decide), get_ensure, if_neg (by decide), hget _ (by decide)]
  have g2 : get out ".data".toList = some ((get es.reverse ".data".toList).getD 0) := by
    rw [← hout, get_ensure, if_neg (by decide), get_ensure, if_pos rfl, get_ensure, if_neg (by decide), hget _ (by decide)]
  have g3 : get out ".rodata".toList = some ((get es.reverse ".rodata".toList).getD 0) := by
    rw [← hout, get_ensure, if_neg (by decide), get_ensure, if_neg (by decide), get_ensure, if_pos rfl, hget _ (by decide)]
  have g4 : get out ".bss".toList = some ((get es.reverse ".bss".toList).getD 0) := by
    rw [← hout, get_ensure, if_pos rfl, get_ensure, if_neg (by decide), get_ensure, if_neg (by decide), hget _ (by decide)]
  have hparse : parse t.text = if get out ".text".toList ≠ none ∧ get out ".data".toList ≠ none then some out else none := by
    unfold parse
    rw [hl]
    simp only
    rw [if_pos hcond, hout]
  unfold sizes
  rw [hparse]
  cases hg : get es.reverse ".text".toList with
  | none =>
    rw [if_neg (by rw [g1, hg]; simp)]
    constructor
    · intro h; cases h
    · rintro ⟨text, data, rodata, bss, ht, -⟩
      rw [((get_entries hes _).1 text).2 ht] at hg
      cases hg
  | some text =>
    rw [if_pos (by rw [g1, g2, hg]; simp)]
    simp only [Option.bind_eq_bind, Option.bind_some, g1, g2, g3, g4, hg]
    constructor
    · intro h
      refine ⟨text, _, _, _, ((get_entries hes _).1 text).1 hg, (sizeIs_iff hes _ _).1 rfl, (sizeIs_iff hes _ _).1 rfl, (sizeIs_iff hes _ _).1 rfl, ?_⟩
      simpa using h.symm
    · rintro ⟨text', data, rodata, bss, ht, hd, hr, hb, rfl⟩
      rw [((get_entries hes _).1 text').2 ht] at hg
      cases hg
      rw [(sizeIs_iff hes _ _).2 hd, (sizeIs_iff hes _ _).2 hr, (sizeIs_iff hes _ _).2 hb]
      rfl

theorem isKey_plain {name key : List Char} (h : ∀ c ∈ name, isWord c = true) (hl : name.map Char.toLower = name) : IsKey name key ↔ name = key := by
  have self : IsKey name name := ⟨[], name, rfl, h, by simp, hl.symm⟩
  exact ⟨fun hk => self.unique hk, fun hk => hk ▸ self⟩

theorem sizeIs_plain {rows : List Row} (plain : ∀ r ∈ rows, (∀ c ∈ r.name, isWord c = true) ∧ r.name.map Char.toLower = r.name) (nodup : (rows.map Row.name).Nodup) (key : List Char) :
    SizeIs rows key (sectionSize rows key) ∧ ((∃ r ∈ rows, r.name = key) → LastSize rows key (sectionSize rows key)) := by
  have hex : (∃ r ∈ rows, r.name = key) → LastSize rows key (sectionSize rows key) := by
    rintro ⟨r, hr, hk⟩
    obtain ⟨a, b, rfl⟩ := List.append_of_mem hr
    rw [List.map_append, List.map_cons, List.nodup_append] at nodup
    obtain ⟨-, hn2, hn3⟩ := nodup
    rw [List.nodup_cons] at hn2
    have ha : ∀ x ∈ a, ¬ x.name = key := fun x hx he => hn3 x.name (List.mem_map_of_mem hx) r.name (by simp) (he.trans hk.symm)
    have hb : ∀ x ∈ b, ¬ x.name = key := fun x hx he => hn2.1 (List.mem_map.2 ⟨x, hx, he.trans hk.symm⟩)
    refine ⟨a, r, b, rfl, (isKey_plain (plain r hr).1 (plain r hr).2).2 hk, ?_, ?_⟩
    · unfold sectionSize
      have fa : a.filter (fun r => decide (r.name = key)) = [] := by
        rw [List.filter_eq_nil_iff]; intro x hx; simpa using ha x hx
      have fb : b.filter (fun r => decide (r.name = key)) = [] := by
        rw [List.filter_eq_nil_iff]; intro x hx; simpa using hb x hx
      rw [List.filter_append, List.filter_cons, fa, fb]
      simp [hk]
    · intro x hx hkx
      have hx' : x ∈ a ++ r :: b := by simp [hx]
      exact hb x hx ((isKey_plain (plain x hx').1 (plain x hx').2).1 hkx)
  refine ⟨?_, hex⟩
  by_cases h : ∃ r ∈ rows, r.name = key
  · exact .inl (hex h)
  · push Not at h
    refine .inr ⟨fun r hr hk => h r hr ((isKey_plain (plain r hr).1 (plain r hr).2).1 hk), ?_⟩
    unfold sectionSize
    rw [List.filter_eq_nil_iff.2 (by intro x hx; simpa using h x hx)]
    rfl

/-- With section names of lower-case letters, digits, underscores and dots, no name twice, and a section `.text`: the sum of the sizes of the sections of exactly those names. -/
theorem C101_plain (t : Table) (w : WellFormed t) (plain : ∀ r ∈ t.rows, (∀ c ∈ r.name, isWord c = true) ∧ r.name.map Char.toLower = r.name) (nodup : (t.rows.map Row.name).Nodup)
    (ht : ∃ r ∈ t.rows, r.name = ".text".toList) :
    sizes t.text = some ⟨sectionSize t.rows ".text".toList + sectionSize t.rows ".data".toList + sectionSize t.rows ".rodata".toList, sectionSize t.rows ".data".toList + sectionSize t.rows ".bss".toList⟩ :=
  (C101_sizes t w _).2 ⟨_, _, _, _, (sizeIs_plain plain nodup _).2 ht, (sizeIs_plain plain nodup _).1, (sizeIs_plain plain nodup _).1, (sizeIs_plain plain nodup _).1, rfl⟩

/-- Whatever the tool printed: no sizes are reported unless the first line names an ELF file and the second one is the header. -/
theorem C101_checked (stdout : List Char) (res : Sizes) (h : sizes stdout = some res) :
    ∃ fileLine headerLine rest, (stdout = fileLine ++ '\n' :: headerLine ∧ rest = [] ∨ stdout = fileLine ++ '\n' :: (headerLine ++ '\n' :: rest)) ∧ ".elf".toList <:+: fileLine ∧
      "section".toList <:+: headerLine ∧ "size".toList <:+: headerLine := by
  have hp : ∃ out, parse stdout = some out := by
    unfold sizes at h
    cases hp : parse stdout with
    | none => rw [hp] at h; cases h
    | some out => exact ⟨out, rfl⟩
  obtain ⟨out, hp⟩ := hp
  unfold parse at hp
  split at hp
  · rename_i f hd rest hs
    split at hp
    · rename_i hc
      have hj := List.intercalate_splitOn (xs := stdout) (x := '\n')
      rw [hs] at hj
      cases rest with
      | nil =>
        refine ⟨f, hd, [], .inl ⟨?_, rfl⟩, hc⟩
        rw [← hj]; simp [List.intercalate, List.intersperse]
      | cons r rest =>
        refine ⟨f, hd, ['\n'].intercalate (r :: rest), .inr ?_, hc⟩
        rw [← hj]; simp [List.intercalate, List.intersperse]
    · cases hp
  · cases hp

def rowData : Row := ⟨".data".toList, 12, 8388864, 10, 3⟩
def rowText : Row := ⟨".text".toList, 1234, 0, 10, 9⟩
def rowBss : Row := ⟨".bss".toList, 100, 8388876, 10, 3⟩
def rowNote : Row := ⟨".note.gnu.avr-deviceinfo".toList, 64, 0, 3, 9⟩
def rowInfo : Row := ⟨".debug_info".toList, 999, 0, 5, 9⟩

/-- A table as printed by `avr-size -A`; a name with a dash is recognised by what follows the dash. -/
def exampleTable : Table := ⟨"/tmp/x/out.elf".toList, 20, 6, [rowData, rowText, rowBss, rowNote, rowInfo], 12, 2409⟩

theorem exampleTable_wf : WellFormed exampleTable where
  elf := ⟨"/tmp/x/out".toList, [], by decide +kernel⟩
  file := by decide +kernel
  gaps := by decide
  rows := List.forall_mem_cons.2 ⟨⟨by decide, by decide, by decide +kernel, ⟨_, _, rfl, by decide⟩, ⟨".dat".toList, 'a', by decide +kernel, by decide⟩⟩,
    List.forall_mem_cons.2 ⟨⟨by decide, by decide, by decide +kernel, ⟨_, _, rfl, by decide⟩, ⟨".tex".toList, 't', by decide +kernel, by decide⟩⟩,
    List.forall_mem_cons.2 ⟨⟨by decide, by decide, by decide +kernel, ⟨_, _, rfl, by decide⟩, ⟨".bs".toList, 's', by decide +kernel, by decide⟩⟩,
    List.forall_mem_cons.2 ⟨⟨by decide, by decide, by decide +kernel, ⟨_, _, rfl, by decide⟩, ⟨".note.gnu.avr-deviceinf".toList, 'o', by decide +kernel, by decide⟩⟩,
    List.forall_mem_cons.2 ⟨⟨by decide, by decide, by decide +kernel, ⟨_, _, rfl, by decide⟩, ⟨".debug_inf".toList, 'o', by decide +kernel, by decide⟩⟩,
    List.forall_mem_nil _⟩⟩⟩⟩⟩

example : (exampleTable.text.splitOn '\n').head? = some "/tmp/x/out.elf  :".toList := by decide +kernel
example : sectionSize exampleTable.rows ".data".toList = 12 := by decide +kernel

/-- The case of the theorem: 1234 + 12 bytes of flash, 12 + 100 bytes of RAM. -/
example : sizes exampleTable.text = some ⟨1246, 112⟩ := by
  have plainKey : ∀ s : List Char, (∀ c ∈ s, isWord c = true) → s.map Char.toLower = s → IsKey s s := fun s h1 h2 => (isKey_plain h1 h2).2 rfl
  have hdash : IsKey ".note.gnu.avr-deviceinfo".toList "deviceinfo".toList :=
    ⟨".note.gnu.avr-".toList, "deviceinfo".toList, by decide +kernel, by decide +kernel, by
      intro q c h
      have : (".note.gnu.avr-".toList).getLast? = some c := by rw [h]; simp
      have h2 : (".note.gnu.avr-".toList).getLast? = some '-' := by decide +kernel
      rw [h2] at this; cases this; decide, by decide +kernel⟩
  have ne : ∀ {name k key : List Char}, IsKey name k → k ≠ key → ¬ IsKey name key := fun h hne h' => hne (h.unique h')
  have kinfo := plainKey ".debug_info".toList (by decide +kernel) (by decide +kernel)
  have ktext := plainKey ".text".toList (by decide +kernel) (by decide +kernel)
  have kdata := plainKey ".data".toList (by decide +kernel) (by decide +kernel)
  have kbss := plainKey ".bss".toList (by decide +kernel) (by decide +kernel)
  refine (C101_sizes _ exampleTable_wf _).2 ⟨1234, 12, 0, 100, ⟨[rowData], rowText, [rowBss, rowNote, rowInfo], rfl, ktext, rfl, ?_⟩,
    .inl ⟨[], rowData, [rowText, rowBss, rowNote, rowInfo], rfl, kdata, rfl, ?_⟩, .inr ⟨?_, rfl⟩, .inl ⟨[rowData, rowText], rowBss, [rowNote, rowInfo], rfl, kbss, rfl, ?_⟩, rfl⟩
  · exact List.forall_mem_cons.2 ⟨ne kbss (by decide +kernel), List.forall_mem_cons.2 ⟨ne hdash (by decide +kernel), List.forall_mem_cons.2 ⟨ne kinfo (by decide +kernel), List.forall_mem_nil _⟩⟩⟩
  · exact List.forall_mem_cons.2 ⟨ne ktext (by decide +kernel), List.forall_mem_cons.2 ⟨ne kbss (by decide +kernel), List.forall_mem_cons.2 ⟨ne hdash (by decide +kernel), List.forall_mem_cons.2 ⟨ne kinfo (by decide +kernel), List.forall_mem_nil _⟩⟩⟩⟩
  · exact List.forall_mem_cons.2 ⟨ne kdata (by decide +kernel), List.forall_mem_cons.2 ⟨ne ktext (by decide +kernel), List.forall_mem_cons.2 ⟨ne kbss (by decide +kernel), List.forall_mem_cons.2 ⟨ne hdash (by decide +kernel), List.forall_mem_cons.2 ⟨ne kinfo (by decide +kernel), List.forall_mem_nil _⟩⟩⟩⟩⟩
  · exact List.forall_mem_cons.2 ⟨ne hdash (by decide +kernel), List.forall_mem_cons.2 ⟨ne kinfo (by decide +kernel), List.forall_mem_nil _⟩⟩

end Emlearn.Size
