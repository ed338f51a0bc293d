/- Fixed-decimals text of a number: Python's `"{:.6f}".format(x)` / C's `%f`, and what a reader gets back. (Library semantics, not `/repo` code.) -/
import Verif.Text
import Mathlib.Data.Rat.Floor
import Mathlib.Algebra.Order.Floor.Ring
import Mathlib.Tactic.Linarith
import Mathlib.Tactic.Ring
import Mathlib.Tactic.FieldSimp
import Mathlib.Tactic.Positivity
namespace Emlearn

/-- Nearest integer, ties to even (correct rounding of the exact value, as Python and glibc print). -/
def roundHalfEven (y : ℚ) : Int :=
  if y - ⌊y⌋ < 1 / 2 then ⌊y⌋ else if 1 / 2 < y - ⌊y⌋ then ⌊y⌋ + 1 else if ⌊y⌋ % 2 = 0 then ⌊y⌋ else ⌊y⌋ + 1

theorem roundHalfEven_spec (y : ℚ) : |(roundHalfEven y : ℚ) - y| ≤ 1 / 2 := by
  have h1 := Int.floor_le y
  have h2 := Int.lt_floor_add_one y
  unfold roundHalfEven
  rw [abs_le]
  split_ifs <;> push_cast <;> constructor <;> linarith

theorem roundHalfEven_nonneg {y : ℚ} (h : 0 ≤ y) : 0 ≤ roundHalfEven y := by
  have := Int.floor_nonneg.mpr h
  unfold roundHalfEven
  split_ifs <;> omega

@[simp] theorem roundHalfEven_intCast (n : Int) : roundHalfEven (n : ℚ) = n := by
  simp [roundHalfEven]

/-- Digits with zeros in front up to width `d`. -/
def padZeros (d : Nat) (s : List Char) : List Char := List.replicate (d - s.length) '0' ++ s

/-- `"{:.<d>f}".format(x)`: sign, integer part, point, `d` decimals. -/
def showFixed (d : Nat) (x : ℚ) : List Char :=
  let n := (roundHalfEven (|x| * 10 ^ d)).toNat
  (if x < 0 then ['-'] else []) ++ showNat (n / 10 ^ d) ++ '.' :: padZeros d (showNat (n % 10 ^ d))

/-- Reading an unsigned decimal number with a point. -/
def readUFixed (s : List Char) : Option ℚ :=
  let i := s.takeWhile (· ≠ '.')
  let f := (s.dropWhile (· ≠ '.')).drop 1
  (readNat i).bind fun (a : Nat) => (readNat f).map fun (b : Nat) => (a : ℚ) + (b : ℚ) / 10 ^ f.length

/-- Reading a decimal number with a point. -/
def readFixed : List Char → Option ℚ
  | '-' :: s => (readUFixed s).map (fun q => -q)
  | s => readUFixed s

theorem ofDigitChars_zeros (k : Nat) (s : List Char) : Nat.ofDigitChars 10 (List.replicate k '0' ++ s) 0 = Nat.ofDigitChars 10 s 0 := by
  induction k with
  | zero => rfl
  | succ k ih => rw [List.replicate_succ, List.cons_append, Nat.ofDigitChars_cons]; simpa using ih

theorem readNat_padZeros (d n : Nat) : readNat (padZeros d (showNat n)) = some n := by
  have h := readNat_showNat n
  unfold readNat at h ⊢
  have hne : padZeros d (showNat n) ≠ [] := by simp [padZeros, showNat_ne_nil]
  have hall : (padZeros d (showNat n)).all Char.isDigit = true := by
    rw [List.all_eq_true]
    intro c hc
    rcases List.mem_append.mp hc with hc | hc
    · rw [(List.mem_replicate.mp hc).2]; rfl
    · exact showNat_digits hc
  rw [if_pos ⟨hne, hall⟩]
  rw [if_pos ⟨showNat_ne_nil n, List.all_eq_true.mpr (fun c hc => showNat_digits hc)⟩] at h
  rw [padZeros, ofDigitChars_zeros]
  exact h

theorem showNat_length_le (d n : Nat) (h : n < 10 ^ d) (hd : 0 < d) : (showNat n).length ≤ d := by
  unfold showNat
  rw [Nat.length_toDigits_le_iff (by norm_num) hd]
  exact h

/-- No leading zeros. -/
theorem showNat_no_zero (n : Nat) : ¬ ((showNat n).head? = some '0' ∧ 1 < (showNat n).length) := by
  rintro ⟨h, hl⟩
  have hr := readNat_showNat n
  cases e : showNat n with
  | nil => rw [e] at hl; simp at hl
  | cons c r =>
    rw [e] at h hl hr
    obtain rfl : c = '0' := by simpa using h
    have hl' : 0 < r.length := by simpa using hl
    have h2 : n = Nat.ofDigitChars 10 r 0 := by
      unfold readNat at hr
      split at hr
      · rw [Nat.ofDigitChars_cons] at hr; simpa using hr.symm
      · cases hr
    have hd : ∀ c ∈ r, c.isDigit = true := fun c hc => showNat_digits (n := n) (by rw [e]; simp [hc])
    have h3 : ∀ (l : List Char) (a : Nat), (∀ c ∈ l, c.isDigit = true) → Nat.ofDigitChars 10 l a < (a + 1) * 10 ^ l.length := by
      intro l
      induction l with
      | nil => intro a _; simp
      | cons c l ih =>
        intro a hc
        rw [Nat.ofDigitChars_cons]
        refine lt_of_lt_of_le (ih _ fun c hc' => hc c (by simp [hc'])) ?_
        have : c.toNat - '0'.toNat ≤ 9 := by
          have := hc c (by simp)
          simp only [Char.isDigit, Bool.and_eq_true, decide_eq_true_eq] at this
          have h9 : c.toNat ≤ 57 := this.2
          have : '0'.toNat = 48 := rfl
          omega
        rw [List.length_cons, Nat.pow_succ]
        nlinarith [Nat.pow_pos (n := l.length) (show 0 < 10 by decide)]
    have h4 := showNat_length_le r.length n (by rw [h2]; simpa using h3 r 0 hd) hl'
    rw [e, List.length_cons] at h4
    omega

theorem padZeros_length (d n : Nat) (h : n < 10 ^ d) (hd : 0 < d) : (padZeros d (showNat n)).length = d := by
  have := showNat_length_le d n h hd
  simp [padZeros]; omega

theorem takeWhile_point (a : List Char) (b : List Char) (h : '.' ∉ a) :
    (a ++ '.' :: b).takeWhile (· ≠ '.') = a ∧ ((a ++ '.' :: b).dropWhile (· ≠ '.')).drop 1 = b := by
  have : ∀ c ∈ a, (decide (c ≠ '.')) = true := fun c hc => by simp; rintro rfl; exact h hc
  constructor
  · rw [List.takeWhile_append_of_pos this]; simp
  · rw [List.dropWhile_append_of_pos this]; simp

theorem showNat_no_point (n : Nat) : '.' ∉ showNat n := by
  intro h; have := showNat_digits h; simp [Char.isDigit] at this

/-- What is read back from the text: the value rounded to `d` decimals. -/
def fixedValue (d : Nat) (x : ℚ) : ℚ := (if x < 0 then -1 else 1) * (roundHalfEven (|x| * 10 ^ d) : ℚ) / 10 ^ d

theorem readUFixed_parts (d n : Nat) (hd : 0 < d) :
    readUFixed (showNat (n / 10 ^ d) ++ '.' :: padZeros d (showNat (n % 10 ^ d))) = some ((n : ℚ) / 10 ^ d) := by
  obtain ⟨h1, h2⟩ := takeWhile_point (showNat (n / 10 ^ d)) (padZeros d (showNat (n % 10 ^ d))) (showNat_no_point _)
  unfold readUFixed
  simp only [h1, h2]
  rw [readNat_showNat, readNat_padZeros, padZeros_length d _ (Nat.mod_lt _ (by positivity)) hd]
  simp only [Option.bind_some, Option.map_some, Option.some.injEq]
  have e : (n : ℚ) = (10 ^ d : ℚ) * ((n / 10 ^ d : Nat) : ℚ) + ((n % 10 ^ d : Nat) : ℚ) := by
    have := Nat.div_add_mod n (10 ^ d)
    exact_mod_cast this.symm
  rw [eq_div_iff (by positivity)]
  rw [add_mul, div_mul_cancel₀ _ (by positivity)]
  linarith

theorem readFixed_showFixed (d : Nat) (hd : 0 < d) (x : ℚ) : readFixed (showFixed d x) = some (fixedValue d x) := by
  have hn : 0 ≤ roundHalfEven (|x| * 10 ^ d) := roundHalfEven_nonneg (by positivity)
  have hc : (((roundHalfEven (|x| * 10 ^ d)).toNat : Nat) : ℚ) = (roundHalfEven (|x| * 10 ^ d) : ℚ) := by
    have : (((roundHalfEven (|x| * 10 ^ d)).toNat : Nat) : Int) = roundHalfEven (|x| * 10 ^ d) := Int.toNat_of_nonneg hn
    exact_mod_cast this
  unfold showFixed fixedValue
  simp only []
  have hp := readUFixed_parts d (roundHalfEven (|x| * 10 ^ d)).toNat hd
  rw [hc] at hp
  by_cases hx : x < 0
  · rw [if_pos hx, if_pos hx, List.append_assoc, List.singleton_append]
    show (readUFixed _).map _ = _
    rw [hp]
    simp only [Option.map_some, Option.some.injEq]
    ring
  · rw [if_neg hx, if_neg hx, List.nil_append]
    have hne : ∀ s, showNat ((roundHalfEven (|x| * 10 ^ d)).toNat / 10 ^ d) ++ '.' :: padZeros d (showNat ((roundHalfEven (|x| * 10 ^ d)).toNat % 10 ^ d)) ≠ '-' :: s := by
      intro s h
      cases hs : showNat ((roundHalfEven (|x| * 10 ^ d)).toNat / 10 ^ d) with
      | nil => exact showNat_ne_nil _ hs
      | cons c t =>
        rw [hs] at h
        injection h with h1 _
        have := showNat_digits (n := (roundHalfEven (|x| * 10 ^ d)).toNat / 10 ^ d) (c := c) (by rw [hs]; simp)
        rw [h1] at this; simp [Char.isDigit] at this
    rw [readFixed.eq_2 _ (fun s h => hne s h), hp]
    simp

theorem fixedValue_close (d : Nat) (x : ℚ) : |fixedValue d x - x| ≤ 1 / (2 * 10 ^ d) := by
  have h := roundHalfEven_spec (|x| * 10 ^ d)
  have hp : (0 : ℚ) < 10 ^ d := by positivity
  unfold fixedValue
  rw [abs_le] at h ⊢
  obtain ⟨h1, h2⟩ := h
  have e : (1 : ℚ) / (2 * 10 ^ d) = (1 / 2) / 10 ^ d := by field_simp
  rw [e]
  split_ifs with hx
  · rw [abs_of_neg hx] at h1 h2 ⊢
    constructor
    · rw [neg_le_sub_iff_le_add, ← sub_le_iff_le_add, le_div_iff₀ hp, sub_mul, div_mul_cancel₀ _ hp.ne']; linarith
    · rw [sub_le_iff_le_add, div_le_iff₀ hp, add_mul, div_mul_cancel₀ _ hp.ne']; linarith
  · rw [abs_of_nonneg (not_lt.mp hx)] at h1 h2 ⊢
    constructor
    · rw [neg_le_sub_iff_le_add, ← sub_le_iff_le_add, le_div_iff₀ hp, sub_mul, div_mul_cancel₀ _ hp.ne']; linarith
    · rw [sub_le_iff_le_add, div_le_iff₀ hp, add_mul, div_mul_cancel₀ _ hp.ne']; linarith

/-- Numbers with at most `d` decimals survive exactly. -/
theorem fixedValue_exact (d : Nat) (n : Int) : fixedValue d ((n : ℚ) / 10 ^ d) = (n : ℚ) / 10 ^ d := by
  have hp : (0 : ℚ) < 10 ^ d := by positivity
  unfold fixedValue
  by_cases h : (n : ℚ) / 10 ^ d < 0
  · rw [if_pos h, abs_of_neg h, neg_mul ((n : ℚ) / 10 ^ d), div_mul_cancel₀ _ hp.ne', show -(n : ℚ) = ((-n : Int) : ℚ) by push_cast; rfl, roundHalfEven_intCast]
    push_cast; ring
  · rw [if_neg h, abs_of_nonneg (not_lt.mp h), div_mul_cancel₀ _ hp.ne', roundHalfEven_intCast, one_mul]

/-- Characters of the text. -/
theorem showFixed_chars {d : Nat} {x : ℚ} {c : Char} (h : c ∈ showFixed d x) : c.isDigit = true ∨ c = '-' ∨ c = '.' := by
  unfold showFixed at h
  simp only [List.mem_append, List.mem_cons] at h
  rcases h with (h | h) | h | h
  · split_ifs at h <;> simp at h; exact Or.inr (Or.inl h)
  · exact Or.inl (showNat_digits h)
  · exact Or.inr (Or.inr h)
  · rcases List.mem_append.mp h with h | h
    · rw [(List.mem_replicate.mp h).2]; exact Or.inl rfl
    · exact Or.inl (showNat_digits h)

example : String.ofList (showFixed 6 (-31415926535/10000000000)) = "-3.141593" := by decide +kernel
example : String.ofList (showFixed 6 (1/4000000)) = "0.000000" := by decide +kernel
example : String.ofList (showFixed 2 (1/1000 + 12)) = "12.00" := by decide +kernel

end Emlearn
