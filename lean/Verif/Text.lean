/- Text of integers: what Python's `str(int)` / C's `%d` print and what a reader gets back.  (Library semantics, not `/repo` code.) -/
import Init.Data.List.SplitOn.Lemmas
import Init.Data.Nat.ToString
namespace Emlearn

/-- Decimal text of a natural number. -/
def showNat (n : Nat) : List Char := Nat.toDigits 10 n

/-- Decimal text of an integer (`str(i)`, `%d`). -/
def showInt (i : Int) : List Char := if i < 0 then '-' :: showNat (-i).toNat else showNat i.toNat

/-- Reading decimal digits; `none` if empty or not all digits. -/
def readNat (s : List Char) : Option Nat := if s ≠ [] ∧ s.all Char.isDigit then some (Nat.ofDigitChars 10 s 0) else none

/-- Reading a decimal integer. -/
def readInt : List Char → Option Int
  | '-' :: s => (readNat s).map (fun n => -(n : Int))
  | s => (readNat s).map (fun n => (n : Int))

theorem showNat_digits {n : Nat} {c : Char} (h : c ∈ showNat n) : c.isDigit = true :=
  Nat.isDigit_of_mem_toDigits (by omega) (by omega) h

theorem showNat_ne_nil (n : Nat) : showNat n ≠ [] := Nat.toDigits_ne_nil

theorem readNat_showNat (n : Nat) : readNat (showNat n) = some n := by
  unfold readNat
  rw [if_pos ⟨showNat_ne_nil n, List.all_eq_true.mpr (fun c hc => showNat_digits hc)⟩]
  exact congrArg some Nat.ofDigitChars_ten_toDigits

theorem readInt_showInt (i : Int) : readInt (showInt i) = some i := by
  unfold showInt
  split
  · have h0 : readInt ('-' :: showNat (-i).toNat) = (readNat (showNat (-i).toNat)).map (fun n => -(n : Int)) := rfl
    rw [h0, readNat_showNat]
    have h1 : -(((-i).toNat : Nat) : Int) = i := by omega
    exact congrArg some h1
  · rename_i h
    cases hs : showNat i.toNat with
    | nil => exact absurd hs (showNat_ne_nil _)
    | cons c s =>
      have hc : c.isDigit = true := showNat_digits (n := i.toNat) (by rw [hs]; simp)
      have hne : c ≠ '-' := by rintro rfl; simp [Char.isDigit] at hc
      have : readInt (c :: s) = (readNat (c :: s)).map (fun n => (n : Int)) := by
        unfold readInt
        split
        · rename_i h1; cases h1; exact absurd rfl hne
        · rfl
      rw [this, ← hs, readNat_showNat]
      have h1 : ((i.toNat : Nat) : Int) = i := by omega
      exact congrArg some h1

/-- The text of an integer contains digits and possibly a minus sign only. -/
theorem showInt_chars {i : Int} {c : Char} (h : c ∈ showInt i) : c.isDigit = true ∨ c = '-' := by
  unfold showInt at h
  split at h
  · simp only [List.mem_cons] at h
    rcases h with h | h
    · exact Or.inr h
    · exact Or.inl (showNat_digits h)
  · exact Or.inl (showNat_digits h)

theorem showInt_not_sep {i : Int} {c : Char} (h : c.isDigit = false) (h2 : c ≠ '-') : c ∉ showInt i := by
  intro hc
  rcases showInt_chars hc with h3 | h3
  · simp [h] at h3
  · exact h2 h3

end Emlearn
