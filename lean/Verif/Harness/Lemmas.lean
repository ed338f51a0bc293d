import Verif.Harness.Model
namespace Emlearn.Harness

/-! ### fgets chunks -/

/-- The successive `fgets` results with `k` = buffer length - 1. -/
def chunks (k : Nat) : Nat → List Char → List (List Char)
  | 0, _ => []
  | fuel + 1, s => if s = [] then [] else (fgetsTake k s).1 :: chunks k fuel (fgetsTake k s).2

theorem fgetsTake_append (k : Nat) (s : List Char) : (fgetsTake k s).1 ++ (fgetsTake k s).2 = s := by
  induction k generalizing s with
  | zero => rfl
  | succ k ih =>
    cases s with
    | nil => rfl
    | cons c cs =>
      unfold fgetsTake
      split
      · simp
      · simp [ih cs]

theorem fgetsTake_length (k : Nat) (s : List Char) : (fgetsTake k s).1.length ≤ k := by
  induction k generalizing s with
  | zero => simp [fgetsTake]
  | succ k ih =>
    cases s with
    | nil => simp [fgetsTake]
    | cons c cs =>
      unfold fgetsTake
      split
      · simp
      · have := ih cs; simp; omega

theorem fgetsTake_pos (k : Nat) (s : List Char) (hk : 0 < k) (hs : s ≠ []) : 0 < (fgetsTake k s).1.length := by
  cases k with
  | zero => omega
  | succ k =>
    cases s with
    | nil => exact absurd rfl hs
    | cons c cs => unfold fgetsTake; split <;> simp

theorem fgetsTake_nl (k : Nat) (l rest : List Char) (h : '\n' ∉ l) (hk : l.length + 1 ≤ k) :
    fgetsTake k (l ++ '\n' :: rest) = (l ++ ['\n'], rest) := by
  induction l generalizing k with
  | nil => cases k with
    | zero => simp at hk
    | succ k => simp [fgetsTake]
  | cons c l ih =>
    cases k with
    | zero => simp at hk
    | succ k =>
      simp only [List.mem_cons, not_or] at h
      simp only [List.length_cons] at hk
      simp [fgetsTake, ih k h.2 (by omega), Ne.symm h.1]

theorem fgetsTake_last (k : Nat) (l : List Char) (h : '\n' ∉ l) (hk : l.length ≤ k) : fgetsTake k l = (l, []) := by
  induction l generalizing k with
  | nil => cases k <;> simp [fgetsTake]
  | cons c l ih =>
    cases k with
    | zero => simp at hk
    | succ k =>
      simp only [List.mem_cons, not_or] at h
      simp only [List.length_cons] at hk
      simp [fgetsTake, ih k h.2 (by omega), Ne.symm h.1]

theorem fgetsTake_long (k : Nat) (l rest : List Char) (h : '\n' ∉ l) (hk : k ≤ l.length) :
    fgetsTake k (l ++ rest) = (l.take k, l.drop k ++ rest) := by
  induction l generalizing k with
  | nil => have : k = 0 := by simpa using hk
           subst this; simp [fgetsTake]
  | cons c l ih =>
    cases k with
    | zero => simp [fgetsTake]
    | succ k =>
      simp only [List.mem_cons, not_or] at h
      simp only [List.length_cons] at hk
      simp [fgetsTake, ih k h.2 (by omega), Ne.symm h.1]

/-- Every line fits the buffer (a newline follows every line but the last). -/
def FitLines (k : Nat) : List (List Char) → Prop
  | [] => True
  | [l] => l.length ≤ k
  | l :: m :: ls => l.length + 1 ≤ k ∧ FitLines k (m :: ls)

/-- The lines with the newlines that end them. -/
def withNl : List (List Char) → List (List Char)
  | [] => []
  | [l] => [l]
  | l :: m :: ls => (l ++ ['\n']) :: withNl (m :: ls)

theorem withNl_length (ls : List (List Char)) : (withNl ls).length = ls.length := by
  induction ls with
  | nil => rfl
  | cons l ls ih => cases ls with
    | nil => rfl
    | cons m ls => simp only [withNl, List.length_cons]; rw [ih]; simp

theorem chunks_fit (k : Nat) (ls : List (List Char)) (hk : 0 < k) (hn : ∀ l ∈ ls, '\n' ∉ l) (hne : ∀ l ∈ ls, l ≠ []) (hf : FitLines k ls)
    (fuel : Nat) (hfuel : (joinSep '\n' ls).length ≤ fuel) : chunks k fuel (joinSep '\n' ls) = withNl ls := by
  induction ls generalizing fuel with
  | nil => cases fuel <;> simp [chunks, joinSep, withNl]
  | cons l ls ih =>
    cases ls with
    | nil =>
      have hl := hne l (by simp)
      have h1 : 0 < l.length := List.length_pos_iff.mpr hl
      simp only [joinSep] at hfuel ⊢
      cases fuel with
      | zero => omega
      | succ fuel =>
        simp only [chunks, if_neg hl, fgetsTake_last k l (hn l (by simp)) hf, withNl]
        cases fuel <;> simp [chunks]
    | cons m ls =>
      simp only [joinSep] at hfuel ⊢
      cases fuel with
      | zero => simp at hfuel
      | succ fuel =>
        simp only [chunks]
        rw [if_neg (by simp), fgetsTake_nl k l _ (hn l (by simp)) hf.1]
        simp only [withNl]
        rw [ih (fun x hx => hn x (by simp [hx])) (fun x hx => hne x (by simp [hx])) hf.2 fuel (by simp at hfuel ⊢; omega)]

/-- The number of chunks is at least the number of lines, and greater when a line does not fit. -/
theorem chunks_count (k : Nat) (hk : 0 < k) (n : Nat) (l : List Char) (ls : List (List Char)) (hn : ∀ x ∈ l :: ls, '\n' ∉ x) (hne : ∀ x ∈ ls, x ≠ [])
    (h0 : l ≠ [] ∨ ls ≠ []) (hlen : (joinSep '\n' (l :: ls)).length ≤ n) (fuel : Nat) (hfuel : (joinSep '\n' (l :: ls)).length ≤ fuel) :
    (l :: ls).length ≤ (chunks k fuel (joinSep '\n' (l :: ls))).length ∧
    (¬ FitLines k (l :: ls) → (l :: ls).length < (chunks k fuel (joinSep '\n' (l :: ls))).length) := by
  induction n generalizing l ls fuel with
  | zero =>
    exfalso
    cases ls with
    | nil => simp only [joinSep] at hlen; rcases h0 with h | h <;> simp_all
    | cons m ls => simp [joinSep] at hlen
  | succ n ih =>
    cases ls with
    | nil =>
      have hl : l ≠ [] := by rcases h0 with h | h <;> simp_all
      have h1 : 0 < l.length := List.length_pos_iff.mpr hl
      simp only [joinSep] at hfuel hlen ⊢
      cases fuel with
      | zero => omega
      | succ fuel =>
        simp only [chunks, if_neg hl, List.length_cons, List.length_nil]
        by_cases hf : l.length ≤ k
        · exact ⟨by omega, fun h => absurd hf h⟩
        · have e : fgetsTake k l = (l.take k, l.drop k) := by
            have := fgetsTake_long k l [] (hn l (by simp)) (by omega)
            simpa using this
          rw [e]
          have := (ih (l.drop k) [] (by
              intro x hx; simp only [List.mem_singleton] at hx; subst hx
              exact fun h => hn l (by simp) (List.mem_of_mem_drop h)) (by simp)
            (Or.inl (by simp; omega)) (by simp [joinSep]; omega) fuel (by simp [joinSep]; omega)).1
          simp only [joinSep, List.length_cons, List.length_nil] at this
          simp only []
          exact ⟨by omega, fun _ => by omega⟩
    | cons m ls =>
      simp only [joinSep] at hfuel hlen ⊢
      cases fuel with
      | zero => simp at hfuel
      | succ fuel =>
        simp only [chunks]
        rw [if_neg (by simp)]
        by_cases hf : l.length + 1 ≤ k
        · rw [fgetsTake_nl k l _ (hn l (by simp)) hf]
          have := ih m ls (fun x hx => hn x (by simp only [List.mem_cons]; right; simpa using hx)) (fun x hx => hne x (by simp [hx])) (Or.inl (hne m (by simp)))
            (by simp at hlen; omega) fuel (by simp at hfuel; omega)
          simp only [List.length_cons] at this ⊢
          refine ⟨by omega, fun h => ?_⟩
          have := this.2 (fun h' => h ⟨hf, h'⟩)
          omega
        · rw [fgetsTake_long k l _ (hn l (by simp)) (by omega)]
          have e : l.drop k ++ '\n' :: joinSep '\n' (m :: ls) = joinSep '\n' (l.drop k :: m :: ls) := rfl
          simp only [e]
          have := (ih (l.drop k) (m :: ls) (by
              intro x hx; rcases List.mem_cons.mp hx with rfl | hx
              · exact fun h => hn l (by simp) (List.mem_of_mem_drop h)
              · exact hn x (by simp only [List.mem_cons]; right; simpa using hx)) hne (Or.inr (by simp))
            (by simp [joinSep] at hlen ⊢; omega) fuel (by simp [joinSep] at hfuel ⊢; omega)).1
          simp only [List.length_cons] at this ⊢
          exact ⟨by omega, fun _ => by omega⟩

theorem chunks_infix (k : Nat) (fuel : Nat) (s : List Char) (b : List Char) (h : b ∈ chunks k fuel s) : b <:+: s ∧ b.length ≤ k := by
  induction fuel generalizing s with
  | zero => simp [chunks] at h
  | succ fuel ih =>
    unfold chunks at h
    split at h
    · simp at h
    · rcases List.mem_cons.mp h with rfl | h
      · exact ⟨⟨[], (fgetsTake k s).2, by simpa using fgetsTake_append k s⟩, fgetsTake_length k s⟩
      · obtain ⟨⟨a, c, e⟩, h2⟩ := ih _ h
        exact ⟨⟨(fgetsTake k s).1 ++ a, c, by rw [List.append_assoc, List.append_assoc, ← List.append_assoc a, e]; exact fgetsTake_append k s⟩, h2⟩

/-! ### the reading loop is a fold over the chunks when no line has too many values -/

theorem parseTokens_ok (n : Nat) (ts : List (List Char)) (acc : List (Option ℚ)) (h : acc.length + ts.length ≤ n) :
    parseTokens n ts acc = .ok (acc ++ ts.map scanFloat) := by
  induction ts generalizing acc with
  | nil => simp [parseTokens]
  | cons t ts ih =>
    simp only [List.length_cons] at h
    simp only [parseTokens, if_neg (show ¬ acc.length ≥ n by omega)]
    rw [ih _ (by simp; omega)]
    simp

/-- Fold of the callback over the parsed chunks. -/
def foldRows {S : Type} (cb : S → List (Option ℚ) → Nat → S) : Nat → List (List Char) → S → S
  | _, [], st => st
  | row, b :: bs, st => foldRows cb (row + 1) bs (cb st ((strtok b []).map scanFloat) row)

theorem readLoop_fold {S : Type} (cb : S → List (Option ℚ) → Nat → S) (fuel row : Nat) (s : List Char) (st : S)
    (h : ∀ b ∈ chunks 2047 fuel s, (strtok b []).length ≤ 256) : readLoop cb fuel row s st = (foldRows cb row (chunks 2047 fuel s) st, .ok) := by
  induction fuel generalizing row s st with
  | zero => simp [readLoop, chunks, foldRows]
  | succ fuel ih =>
    unfold chunks at h ⊢
    unfold readLoop fgets
    by_cases hs : s = []
    · simp [hs, foldRows]
    · rw [if_neg hs] at h ⊢
      have hb := h _ (List.mem_cons_self)
      have he : bufferLength - 1 = 2047 := rfl
      simp only [if_neg hs, he]
      have : parseLine valuesLength (fgetsTake 2047 s).1 = .ok ((strtok (fgetsTake 2047 s).1 []).map scanFloat) := by
        unfold parseLine
        rw [parseTokens_ok _ _ _ (by simpa [valuesLength] using hb)]
        simp
      rw [this]
      simp only [foldRows]
      exact ih _ _ _ (fun b hb => h b (List.mem_cons_of_mem _ hb))

/-! ### tokens of a chunk: values are at least ten characters long -/

/-- After a comma, no comma for ten characters. -/
def Spaced (s : List Char) : Prop := ∀ a b : List Char, s = a ++ ',' :: b → ',' ∉ b.take 10

theorem Spaced.infix {s t : List Char} (h : Spaced s) (ht : t <:+: s) : Spaced t := by
  obtain ⟨p, q, e⟩ := ht
  intro a b hab hmem
  refine h (p ++ a) (b ++ q) (by rw [← e, hab]; simp) ?_
  rw [List.take_append]
  exact List.mem_append_left _ hmem

theorem strtok_length (s cur : List Char) (hs : ';' ∉ s) : (strtok s cur).length ≤ s.count ',' + 1 := by
  induction s generalizing cur with
  | nil => unfold strtok; split <;> simp
  | cons c cs ih =>
    simp only [List.mem_cons, not_or] at hs
    unfold strtok
    by_cases hc : c = ','
    · subst hc
      have := ih [] hs.2
      rw [if_pos (by rfl), List.count_cons_self]
      split
      · omega
      · simp only [List.length_cons]; omega
    · have : isSep c = false := by simp [isSep, hc, Ne.symm hs.1]
      simp only [this]
      have := ih (cur ++ [c]) hs.2
      rw [List.count_cons]; simp [hc]; simpa using this

theorem Spaced.count (n : Nat) (s : List Char) (hn : s.length ≤ n) (h : Spaced s) : 11 * s.count ',' ≤ s.length + 10 := by
  induction n generalizing s with
  | zero => have : s = [] := by simpa using hn
            subst this; simp
  | succ n ih =>
    by_cases hm : ',' ∈ s
    · obtain ⟨a, b, e, ha⟩ := List.eq_append_cons_of_mem hm
      have hb := h a b e
      have hs : Spaced (b.drop 10) := h.infix ⟨a ++ ',' :: b.take 10, [], by rw [e]; simp⟩
      have hlen : s.length = a.length + b.length + 1 := by rw [e]; simp; omega
      have := ih (b.drop 10) (by simp; omega) hs
      have hc : s.count ',' = 1 + (b.drop 10).count ',' := by
        rw [e, List.count_append, List.count_cons, List.count_eq_zero_of_not_mem ha]
        conv_lhs => rw [← List.take_append_drop 10 b]
        rw [List.count_append, List.count_eq_zero_of_not_mem hb]
        simp; omega
      simp only [List.length_drop] at this
      by_cases hl : b.length ≤ 10
      · have : (b.drop 10) = [] := by simp; omega
        rw [hc, this]; simp; omega
      · omega
    · rw [List.count_eq_zero_of_not_mem hm]; omega

/-! ### texts of values -/

theorem sep_facts {c : Char} (h : c.isDigit = true ∨ c = '-' ∨ c = '.') : c ≠ ',' ∧ c ≠ ';' ∧ c ≠ '\n' := by
  rcases h with h | h | h
  · refine ⟨?_, ?_, ?_⟩ <;> rintro rfl <;> exact absurd h (by decide)
  · subst h; decide
  · subst h; decide

theorem showFixed_ne_sep {d : Nat} {x : ℚ} {c : Char} (h : c ∈ showFixed d x) : c ≠ ',' ∧ c ≠ ';' ∧ c ≠ '\n' := sep_facts (showFixed_chars h)

theorem showFixed_length {d : Nat} (hd : 0 < d) (x : ℚ) : d + 2 ≤ (showFixed d x).length := by
  unfold showFixed
  simp only [List.length_append, List.length_cons]
  rw [padZeros_length d _ (Nat.mod_lt _ (by positivity)) hd]
  have : 0 < (showNat ((roundHalfEven (|x| * 10 ^ d)).toNat / 10 ^ d)).length := List.length_pos_iff.mpr (showNat_ne_nil _)
  omega

theorem padZeros_digits (d n : Nat) {c : Char} (h : c ∈ padZeros d (showNat n)) : c.isDigit = true := by
  rcases List.mem_append.mp h with h | h
  · rw [(List.mem_replicate.mp h).2]; rfl
  · exact showNat_digits h

theorem takeWhile_all {p : Char → Bool} (a b : List Char) (ha : ∀ c ∈ a, p c = true) (hb : ∀ c ∈ b.head?, p c = false) :
    (a ++ b).takeWhile p = a ∧ (a ++ b).dropWhile p = b := by
  rw [List.takeWhile_append_of_pos ha, List.dropWhile_append_of_pos ha]
  cases b with
  | nil => simp
  | cons c b => have := hb c (by simp); simp [List.takeWhile_cons, List.dropWhile_cons, this]

theorem scanUFloat_parts (d n : Nat) (hd : 0 < d) (e : List Char) (he : ∀ c ∈ e.head?, c.isDigit = false) :
    scanUFloat (showNat (n / 10 ^ d) ++ '.' :: padZeros d (showNat (n % 10 ^ d)) ++ e) = some ((n : ℚ) / 10 ^ d) := by
  have h1 := takeWhile_all (p := Char.isDigit) (showNat (n / 10 ^ d)) ('.' :: padZeros d (showNat (n % 10 ^ d)) ++ e) (fun c hc => showNat_digits hc)
    (by intro c hc; simp at hc; subst hc; rfl)
  have h2 := takeWhile_all (p := Char.isDigit) (padZeros d (showNat (n % 10 ^ d))) e (fun c hc => padZeros_digits _ _ hc) he
  unfold scanUFloat
  rw [List.append_assoc, h1.1, h1.2]
  simp only [List.cons_append, h2.1]
  rw [if_neg (by simp [showNat_ne_nil]), padZeros_length d _ (Nat.mod_lt _ (by positivity)) hd]
  congr 2
  have : Nat.ofDigitChars 10 (showNat (n / 10 ^ d) ++ padZeros d (showNat (n % 10 ^ d))) 0 = n := by
    rw [Nat.ofDigitChars_append, show Nat.ofDigitChars 10 (showNat (n / 10 ^ d)) 0 = n / 10 ^ d from Nat.ofDigitChars_ten_toDigits,
      Nat.ofDigitChars_eq_ofDigitChars_zero, padZeros_length d _ (Nat.mod_lt _ (by positivity)) hd, padZeros, ofDigitChars_zeros,
      show Nat.ofDigitChars 10 (showNat (n % 10 ^ d)) 0 = n % 10 ^ d from Nat.ofDigitChars_ten_toDigits]
    exact Nat.div_add_mod n (10 ^ d)
  rw [this]

theorem scanFloat_showFixed (d : Nat) (hd : 0 < d) (x : ℚ) (e : List Char) (he : ∀ c ∈ e.head?, c.isDigit = false) :
    scanFloat (showFixed d x ++ e) = some (fixedValue d x) := by
  have hn : 0 ≤ roundHalfEven (|x| * 10 ^ d) := roundHalfEven_nonneg (by positivity)
  have hc : (((roundHalfEven (|x| * 10 ^ d)).toNat : Nat) : ℚ) = (roundHalfEven (|x| * 10 ^ d) : ℚ) := by
    have : (((roundHalfEven (|x| * 10 ^ d)).toNat : Nat) : Int) = roundHalfEven (|x| * 10 ^ d) := Int.toNat_of_nonneg hn
    exact_mod_cast this
  have hp := scanUFloat_parts d (roundHalfEven (|x| * 10 ^ d)).toNat hd e he
  rw [hc] at hp
  unfold showFixed fixedValue
  simp only []
  by_cases hx : x < 0
  · rw [if_pos hx, if_pos hx, List.append_assoc, List.append_assoc, List.singleton_append]
    unfold scanFloat
    rw [List.dropWhile_cons, if_neg (by decide)]
    simp only []
    rw [← List.append_assoc, hp]
    simp only [Option.map_some, Option.some.injEq]
    ring
  · rw [if_neg hx, if_neg hx, List.nil_append]
    cases hs : showNat ((roundHalfEven (|x| * 10 ^ d)).toNat / 10 ^ d) with
    | nil => exact absurd hs (showNat_ne_nil _)
    | cons c t =>
      have hd1 : c.isDigit = true := showNat_digits (n := (roundHalfEven (|x| * 10 ^ d)).toNat / 10 ^ d) (by rw [hs]; simp)
      rw [hs] at hp
      unfold scanFloat
      have hsp : isSpace c = false := by
        unfold isSpace
        have h1 : c ≠ ' ' := by rintro rfl; exact absurd hd1 (by decide)
        have h2 : c ≠ '\n' := by rintro rfl; exact absurd hd1 (by decide)
        have h3 : c ≠ '\t' := by rintro rfl; exact absurd hd1 (by decide)
        have h4 : c ≠ '\r' := by rintro rfl; exact absurd hd1 (by decide)
        simp [h1, h2, h3, h4]
      simp only [List.cons_append] at hp ⊢
      rw [List.dropWhile_cons, if_neg (by simp [hsp])]
      have h1 : c ≠ '-' := by rintro rfl; exact absurd hd1 (by decide)
      have h2 : c ≠ '+' := by rintro rfl; exact absurd hd1 (by decide)
      split
      · rename_i heq; injection heq with h _; exact absurd h h1
      · rename_i heq; injection heq with h _; exact absurd h h2
      · rw [hp]; simp

/-! ### tokens of one line -/

theorem strtok_run (t rest cur : List Char) (h : ∀ c ∈ t, isSep c = false) : strtok (t ++ rest) cur = strtok rest (cur ++ t) := by
  induction t generalizing cur with
  | nil => simp
  | cons c t ih =>
    simp only [List.cons_append, strtok, h c (by simp)]
    rw [if_neg (by simp), ih _ (fun c hc => h c (by simp [hc]))]
    simp

theorem strtok_join {B : Type} (f : List Char → B) (toks : List (List Char)) (e : List Char) (ht : ∀ t ∈ toks, t ≠ [] ∧ ∀ c ∈ t, isSep c = false)
    (he : ∀ c ∈ e, isSep c = false) (hf : ∀ t ∈ toks, f (t ++ e) = f t) (hne : toks ≠ []) :
    (strtok (joinSep ',' toks ++ e) []).map f = toks.map f := by
  induction toks with
  | nil => exact absurd rfl hne
  | cons t toks ih =>
    obtain ⟨h1, h2⟩ := ht t (by simp)
    cases toks with
    | nil =>
      simp only [joinSep]
      rw [strtok_run t e [] h2]
      have := strtok_run e [] t he
      rw [List.append_nil] at this
      simp only [List.nil_append]
      rw [this]
      simp [strtok, h1, hf t (by simp)]
    | cons u toks =>
      simp only [joinSep, List.append_assoc, List.cons_append]
      rw [strtok_run t _ [] h2]
      simp only [strtok, List.nil_append]
      rw [if_pos (by rfl), if_neg h1, List.map_cons, ih (fun t ht' => ht t (by simp at ht' ⊢; tauto)) (fun t ht' => hf t (by simp at ht' ⊢; tauto)) (by simp)]
      simp

theorem isSep_showFixed {d : Nat} {x : ℚ} {c : Char} (h : c ∈ showFixed d x) : isSep c = false := by
  have := showFixed_ne_sep h
  simp [isSep, this.1, this.2.1]

theorem showFixed_ne_nil (d : Nat) (hd : 0 < d) (x : ℚ) : showFixed d x ≠ [] := by
  have := showFixed_length hd x
  intro h; rw [h] at this; simp at this

/-- What the callback receives for a serialized row. -/
theorem tokens_row (row : List ℚ) (hne : row ≠ []) (e : List Char) (he : e = [] ∨ e = ['\n']) :
    (strtok (serializeRow row ++ e) []).map scanFloat = row.map (fun x => some (fixedValue 8 x)) := by
  unfold serializeRow
  have hd : ∀ c ∈ e.head?, c.isDigit = false := by rcases he with rfl | rfl <;> simp
  have hs : ∀ c ∈ e, isSep c = false := by rcases he with rfl | rfl <;> simp; rfl
  rw [strtok_join scanFloat _ e _ hs _ (by simpa using hne)]
  · rw [List.map_map]
    apply List.map_congr_left
    intro x _
    have := scanFloat_showFixed 8 (by norm_num) x [] (by simp)
    simpa using this
  · intro t ht
    obtain ⟨x, _, rfl⟩ := List.mem_map.mp ht
    exact ⟨showFixed_ne_nil 8 (by norm_num) x, fun c hc => isSep_showFixed hc⟩
  · intro t ht
    obtain ⟨x, _, rfl⟩ := List.mem_map.mp ht
    rw [scanFloat_showFixed 8 (by norm_num) x e hd]
    have := scanFloat_showFixed 8 (by norm_num) x [] (by simp)
    simpa using this.symm

/-! ### the serialized text -/

theorem mem_joinSep {sep : Char} {ls : List (List Char)} {c : Char} (h : c ∈ joinSep sep ls) : c = sep ∨ ∃ l ∈ ls, c ∈ l := by
  induction ls with
  | nil => simp [joinSep] at h
  | cons l ls ih =>
    cases ls with
    | nil => exact Or.inr ⟨l, by simp, h⟩
    | cons m ls =>
      simp only [joinSep, List.mem_append, List.mem_cons] at h
      rcases h with h | h | h
      · exact Or.inr ⟨l, by simp, h⟩
      · exact Or.inl h
      · rcases ih h with h | ⟨x, hx, hc⟩
        · exact Or.inl h
        · exact Or.inr ⟨x, List.mem_cons_of_mem _ hx, hc⟩

theorem serializeRow_chars {row : List ℚ} {c : Char} (h : c ∈ serializeRow row) : c ≠ ';' ∧ c ≠ '\n' := by
  rcases mem_joinSep h with rfl | ⟨l, hl, hc⟩
  · decide
  · obtain ⟨x, _, rfl⟩ := List.mem_map.mp hl
    have := showFixed_ne_sep hc
    exact ⟨this.2.1, this.2.2⟩

theorem serializeRow_ne_nil {row : List ℚ} (h : row ≠ []) : serializeRow row ≠ [] := by
  cases row with
  | nil => exact absurd rfl h
  | cons x row =>
    unfold serializeRow
    cases row with
    | nil => exact showFixed_ne_nil 8 (by norm_num) x
    | cons y row => simp [joinSep]

/-- Splitting a text at the first comma it contains: the comma is in the first part, or in the second. -/
theorem Spaced.append {a b : List Char} (ha : ',' ∉ a) (hb : Spaced b) : Spaced (a ++ b) := by
  intro p q e
  rcases List.append_eq_append_iff.mp e with ⟨r, h1, h2⟩ | ⟨r, h1, h2⟩
  · exact hb r q h2
  · cases r with
    | nil => simp at h2; exact hb [] q (by simpa using h2.symm)
    | cons c r =>
      injection h2 with h3 h4
      subst h3
      exact absurd (by rw [h1]; simp) ha

theorem Spaced.cons_comma {b : List Char} (h : ',' ∉ b.take 10) (hb : Spaced b) : Spaced (',' :: b) := by
  intro p q e
  cases p with
  | nil => simp at e; rw [← e]; exact h
  | cons c p => injection e with _ e; exact hb p q e

theorem take_noComma {x : ℚ} (rest : List Char) : ',' ∉ (showFixed 8 x ++ rest).take 10 := by
  rw [List.take_append_of_le_length (showFixed_length (d := 8) (by norm_num) x)]
  intro h
  exact (showFixed_ne_sep (List.mem_of_mem_take h)).1 rfl

theorem spaced_row (row : List ℚ) (hne : row ≠ []) (rest : List Char) (hr : Spaced rest) : Spaced (serializeRow row ++ rest) := by
  unfold serializeRow
  induction row with
  | nil => exact absurd rfl hne
  | cons x row ih =>
    cases row with
    | nil => exact Spaced.append (fun h => (showFixed_ne_sep h).1 rfl) hr
    | cons y row =>
      simp only [List.map_cons, joinSep, List.append_assoc]
      apply Spaced.append (fun h => (showFixed_ne_sep h).1 rfl)
      simp only [List.cons_append]
      apply Spaced.cons_comma
      · cases row with
        | nil => exact take_noComma _
        | cons z row => simp only [List.map_cons, joinSep, List.append_assoc]; exact take_noComma _
      · exact ih (by simp)

theorem spaced_serialize (X : List (List ℚ)) (hX : ∀ r ∈ X, r ≠ []) : Spaced (serialize X) := by
  unfold serialize
  induction X with
  | nil => intro a b h; simp [joinSep] at h
  | cons r X ih =>
    cases X with
    | nil =>
      have := spaced_row r (hX r (by simp)) [] (by intro a b h; simp at h)
      simpa [joinSep] using this
    | cons q X =>
      simp only [List.map_cons, joinSep]
      apply spaced_row r (hX r (by simp))
      have := Spaced.append (a := ['\n']) (by decide) (ih (fun r hr => hX r (by simp at hr ⊢; tauto)))
      simpa using this

theorem serialize_chars {X : List (List ℚ)} {c : Char} (h : c ∈ serialize X) : c ≠ ';' := by
  rcases mem_joinSep h with rfl | ⟨l, hl, hc⟩
  · decide
  · obtain ⟨r, _, rfl⟩ := List.mem_map.mp hl
    exact (serializeRow_chars hc).1

/-- No chunk of serialized data holds too many values: the value limit never triggers. -/
theorem chunk_tokens (X : List (List ℚ)) (hX : ∀ r ∈ X, r ≠ []) (fuel : Nat) : ∀ b ∈ chunks 2047 fuel (serialize X), (strtok b []).length ≤ 256 := by
  intro b hb
  obtain ⟨h1, h2⟩ := chunks_infix _ _ _ _ hb
  have hs := (spaced_serialize X hX).infix h1
  have := hs.count _ _ le_rfl
  have h3 := strtok_length b [] (fun h => serialize_chars (h1.subset h) rfl)
  omega

end Emlearn.Harness
