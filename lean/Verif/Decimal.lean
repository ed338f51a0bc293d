/- Decimal numbers with an exponent: how C reads them (specification), and how Python writes a `float` (`str`, `format`, also of `numpy.float64`): the digits are those of the shortest
decimal number that rounds to the value; finding them is not modelled, their layout is. -/
import Verif.Fixed
import Mathlib.Tactic.FieldSimp
namespace Emlearn

/-- Reading an exponent: an optional sign and digits. -/
def readExp : List Char → Option Int
  | '+' :: s => (readNat s).map fun (n : Nat) => (n : Int)
  | '-' :: s => (readNat s).map fun (n : Nat) => -(n : Int)
  | s => (readNat s).map fun (n : Nat) => (n : Int)

/-- Reading an unsigned C floating constant without suffix (C17 6.4.4.2): digits with a point, or digits, perhaps with a point, and an exponent. (`1.` and `.5` are refused.) -/
def readDec (s : List Char) : Option ℚ :=
  if 'e' ∈ s then
    let m := s.takeWhile (· ≠ 'e')
    let x := (s.dropWhile (· ≠ 'e')).drop 1
    (if '.' ∈ m then readUFixed m else (readNat m).map fun (n : Nat) => (n : ℚ)).bind fun a => (readExp x).map fun k => a * 10 ^ k
  else readUFixed s

theorem readDec_fixed {s : List Char} (h : 'e' ∉ s) : readDec s = readUFixed s := by rw [readDec, if_neg h]

/-! ### `str` of a Python float -/

/-- A finite Python float, given by its sign and its shortest decimal representation `m · 10^e` (which rounds to it). -/
structure PyFloat where
  neg : Bool
  m : Nat
  e : Int
  deriving DecidableEq, Repr

/-- The decimal number that is printed, without sign. -/
def PyFloat.mag (x : PyFloat) : ℚ := x.m * 10 ^ x.e

/-- The decimal number that is printed. -/
def PyFloat.dec (x : PyFloat) : ℚ := if x.neg then -x.mag else x.mag

/-- The text without sign. `p` is the position of the point behind the first digit: with an exponent (of at least two digits) if `p ≤ -4` or `p > 16`, else with a point and at least one digit on both sides.
(Python `float.__repr__`; `numpy.float64` uses the same limits, 1e-4 and 1e16.) -/
def PyFloat.magText (x : PyFloat) : List Char :=
  let d := showNat x.m
  let p := (d.length : Int) + x.e
  if p ≤ -4 ∨ 16 < p then
    (if d.length = 1 then d else d.take 1 ++ '.' :: d.drop 1) ++ 'e' :: (if p - 1 < 0 then '-' else '+') :: padZeros 2 (showNat (p - 1).natAbs)
  else if p ≤ 0 then '0' :: '.' :: (List.replicate (-p).toNat '0' ++ d)
  else if 0 ≤ x.e then d ++ (List.replicate x.e.toNat '0' ++ ['.', '0'])
  else d.take p.toNat ++ '.' :: d.drop p.toNat

/-- `str(x)` and `'{}'.format(x)`. -/
def PyFloat.text (x : PyFloat) : List Char := if x.neg then '-' :: x.magText else x.magText

theorem ofDigitChars_shift (l : List Char) (a : Nat) : Nat.ofDigitChars 10 l a = a * 10 ^ l.length + Nat.ofDigitChars 10 l 0 := by
  induction l generalizing a with
  | nil => simp [Nat.ofDigitChars_nil]
  | cons c l ih =>
    rw [Nat.ofDigitChars_cons, Nat.ofDigitChars_cons, ih, ih (10 * 0 + _), List.length_cons, Nat.pow_succ]
    ring

theorem readNat_append {a b : List Char} {m n : Nat} (ha : readNat a = some m) (hb : readNat b = some n) : readNat (a ++ b) = some (m * 10 ^ b.length + n) := by
  unfold readNat at ha hb ⊢
  split at ha
  · split at hb
    · rename_i h1 h2
      rw [if_pos ⟨by simp [h1.1], by rw [List.all_append, h1.2, h2.2]; rfl⟩, Nat.ofDigitChars_append, ofDigitChars_shift]
      simp only [Option.some.injEq] at ha hb ⊢
      rw [ha, hb]
    · cases hb
  · cases ha

theorem readNat_zeros (k : Nat) : readNat (List.replicate (k + 1) '0') = some 0 := by
  unfold readNat
  rw [if_pos ⟨by simp, by rw [List.all_eq_true]; intro c hc; rw [(List.mem_replicate.1 hc).2]; rfl⟩]
  have := ofDigitChars_zeros (k + 1) []
  rw [List.append_nil] at this
  rw [this]; rfl

theorem readNat_digits (s : List Char) (h0 : s ≠ []) (h : ∀ c ∈ s, c.isDigit = true) : readNat s = some (Nat.ofDigitChars 10 s 0) := by
  unfold readNat
  rw [if_pos ⟨h0, List.all_eq_true.2 h⟩]

theorem readUFixed_split {a b : List Char} {m n : Nat} (ha : readNat a = some m) (hb : readNat b = some n) : readUFixed (a ++ '.' :: b) = some ((m : ℚ) + (n : ℚ) / 10 ^ b.length) := by
  have hp : '.' ∉ a := by
    intro hc
    unfold readNat at ha
    split at ha
    · rename_i h; have := List.all_eq_true.1 h.2 _ hc; revert this; decide
    · cases ha
  obtain ⟨h1, h2⟩ := takeWhile_point a b hp
  unfold readUFixed
  simp only [h1, h2, ha, hb, Option.bind_some, Option.map_some]

/-- The digits on both sides of a point. -/
theorem digits_split (m k : Nat) (h1 : 1 ≤ k) (h2 : k < (showNat m).length) : ∃ a b, readNat ((showNat m).take k) = some a ∧ readNat ((showNat m).drop k) = some b ∧ a * 10 ^ ((showNat m).length - k) + b = m := by
  have hd : ∀ c ∈ showNat m, c.isDigit = true := fun c hc => showNat_digits hc
  have ha := readNat_digits ((showNat m).take k) (by intro h; have := congrArg List.length h; rw [List.length_take, List.length_nil] at this; omega) fun c hc => hd c (List.mem_of_mem_take hc)
  have hb := readNat_digits ((showNat m).drop k) (by intro h; have := congrArg List.length h; rw [List.length_drop, List.length_nil] at this; omega) fun c hc => hd c (List.mem_of_mem_drop hc)
  refine ⟨_, _, ha, hb, ?_⟩
  have := readNat_append ha hb
  rw [List.take_append_drop, readNat_showNat] at this
  simpa using this.symm

theorem isDigit_ne {c d : Char} (h : c.isDigit = true) (hd : d.isDigit = false) : c ≠ d := by rintro rfl; rw [h] at hd; cases hd

theorem readExp_sign (k : Int) : readExp ((if k < 0 then '-' else '+') :: padZeros 2 (showNat k.natAbs)) = some k := by
  by_cases h : k < 0
  · rw [if_pos h, readExp, readNat_padZeros]
    simp only [Option.map_some, Option.some.injEq]
    omega
  · rw [if_neg h, readExp, readNat_padZeros]
    simp only [Option.map_some, Option.some.injEq]
    omega

/-- The mantissa of a number with exponent. -/
theorem mantissa_read (m : Nat) : ((if '.' ∈ (if (showNat m).length = 1 then showNat m else (showNat m).take 1 ++ '.' :: (showNat m).drop 1) then
      readUFixed (if (showNat m).length = 1 then showNat m else (showNat m).take 1 ++ '.' :: (showNat m).drop 1)
      else (readNat (if (showNat m).length = 1 then showNat m else (showNat m).take 1 ++ '.' :: (showNat m).drop 1)).map fun (n : Nat) => (n : ℚ)) : Option ℚ)
    = some ((m : ℚ) * 10 ^ (1 - ((showNat m).length : Int))) := by
  by_cases h : (showNat m).length = 1
  · rw [if_pos h, if_neg (showNat_no_point m), readNat_showNat, h]
    simp
  · rw [if_neg h, if_pos (by simp)]
    have h0 : 0 < (showNat m).length := List.length_pos_iff.2 (showNat_ne_nil m)
    obtain ⟨a, b, ha, hb, e⟩ := digits_split m 1 le_rfl (by omega)
    rw [readUFixed_split ha hb, List.length_drop]
    have : (10 : ℚ) ^ (1 - ((showNat m).length : Int)) = 1 / 10 ^ ((showNat m).length - 1) := by
      rw [← zpow_natCast, one_div, ← zpow_neg]
      congr 1
      omega
    rw [this]
    have e2 : (m : ℚ) = a * 10 ^ ((showNat m).length - 1) + b := by exact_mod_cast e.symm
    rw [e2]
    generalize (showNat m).length - 1 = k
    field_simp

/-- C reads the number that Python has printed. -/
theorem readDec_text (x : PyFloat) : readDec x.magText = some x.mag := by
  obtain ⟨neg, m, e⟩ := x
  unfold PyFloat.magText PyFloat.mag
  simp only
  have hd : ∀ c ∈ showNat m, c.isDigit = true := fun c hc => showNat_digits hc
  have h0 : 0 < (showNat m).length := List.length_pos_iff.2 (showNat_ne_nil m)
  have he : 'e' ∉ showNat m := fun hc => isDigit_ne (hd _ hc) (by decide) rfl
  have h10 : (10 : ℚ) ≠ 0 := by norm_num
  generalize hp : ((showNat m).length : Int) + e = p
  by_cases h1 : p ≤ -4 ∨ 16 < p
  · rw [if_pos h1]
    generalize hM : (if (showNat m).length = 1 then showNat m else (showNat m).take 1 ++ '.' :: (showNat m).drop 1) = M
    have hMe : 'e' ∉ M := by
      rw [← hM]
      split
      · exact he
      · intro hc
        simp only [List.mem_append, List.mem_cons] at hc
        rcases hc with hc | hc | hc
        · exact he (List.mem_of_mem_take hc)
        · revert hc; decide
        · exact he (List.mem_of_mem_drop hc)
    have hall : ∀ c ∈ M, (decide (c ≠ 'e')) = true := fun c hc => by simp; rintro rfl; exact hMe hc
    have hmr := mantissa_read m
    rw [hM] at hmr
    unfold readDec
    rw [if_pos (by simp)]
    simp only [ne_eq, decide_not] at hall ⊢
    rw [List.takeWhile_append_of_pos hall, List.dropWhile_append_of_pos hall]
    simp only [List.takeWhile_cons, List.dropWhile_cons, decide_true, Bool.not_true, Bool.false_eq_true, if_false, List.append_nil, List.drop_succ_cons, List.drop_zero]
    rw [hmr, readExp_sign]
    simp only [Option.bind_some, Option.map_some, Option.some.injEq]
    rw [mul_assoc, ← zpow_add₀ h10]
    congr 2
    omega
  · rw [if_neg h1]
    by_cases h2 : p ≤ 0
    · rw [if_pos h2]
      have hr := readUFixed_split (a := ['0']) (b := List.replicate (-p).toNat '0' ++ showNat m) (m := 0) (n := m) (by decide +kernel) (by
        rw [readNat_digits _ (by simp [showNat_ne_nil]) (by
          intro c hc
          rcases List.mem_append.1 hc with hc | hc
          · rw [(List.mem_replicate.1 hc).2]; rfl
          · exact hd c hc), ofDigitChars_zeros]
        have := readNat_showNat m
        rw [readNat_digits _ (showNat_ne_nil m) hd] at this
        exact this)
      rw [readDec_fixed (by simp [he])]
      rw [show ('0' :: '.' :: (List.replicate (-p).toNat '0' ++ showNat m)) = ['0'] ++ '.' :: (List.replicate (-p).toNat '0' ++ showNat m) from rfl, hr]
      rw [List.length_append, List.length_replicate]
      have : (10 : ℚ) ^ e = 1 / 10 ^ ((-p).toNat + (showNat m).length) := by
        rw [← zpow_natCast, one_div, ← zpow_neg]
        congr 1
        push_cast
        omega
      rw [this]
      simp [div_eq_mul_inv]
    · rw [if_neg h2]
      by_cases h3 : 0 ≤ e
      · rw [if_pos h3]
        obtain ⟨k, rfl⟩ := Int.eq_ofNat_of_zero_le h3
        rw [readDec_fixed (by simp [he])]
        have hi : readNat (showNat m ++ List.replicate k '0') = some (m * 10 ^ k) := by
          cases k with
          | zero => simp [readNat_showNat]
          | succ k =>
            have := readNat_append (readNat_showNat m) (readNat_zeros k)
            simpa using this
        have hr := readUFixed_split (b := ['0']) (n := 0) hi (by decide +kernel)
        rw [List.append_assoc] at hr
        simp only [Int.ofNat_eq_natCast, Int.toNat_natCast] at hr ⊢
        rw [show (['.', '0'] : List Char) = '.' :: ['0'] from rfl, hr]
        simp
      · rw [if_neg h3]
        obtain ⟨a, b, ha, hb, ee⟩ := digits_split m p.toNat (by omega) (by omega)
        rw [readDec_fixed (by
          intro hc
          simp only [List.mem_append, List.mem_cons] at hc
          rcases hc with hc | hc | hc
          · exact he (List.mem_of_mem_take hc)
          · revert hc; decide
          · exact he (List.mem_of_mem_drop hc)), readUFixed_split ha hb, List.length_drop]
        have : (10 : ℚ) ^ e = 1 / 10 ^ ((showNat m).length - p.toNat) := by
          rw [← zpow_natCast, one_div, ← zpow_neg]
          congr 1
          omega
        rw [this]
        have e2 : (m : ℚ) = a * 10 ^ ((showNat m).length - p.toNat) + b := by exact_mod_cast ee.symm
        rw [e2]
        generalize (showNat m).length - p.toNat = k
        field_simp

/-- How Python prints floats. -/
example : ([⟨false, 1, -5⟩, ⟨true, 12345, -3⟩, ⟨false, 1, 16⟩, ⟨false, 1, 15⟩, ⟨false, 0, 0⟩, ⟨true, 1, -4⟩, ⟨false, 12345678901234568, 1⟩, ⟨false, 15, -6⟩, ⟨false, 25, 0⟩, ⟨false, 5, -324⟩] : List PyFloat).map PyFloat.text =
    ["1e-05", "-12.345", "1e+16", "1000000000000000.0", "0.0", "-0.0001", "1.2345678901234568e+17", "1.5e-05", "25.0", "5e-324"].map String.toList := by decide +kernel

end Emlearn
