/-
Model of `emlearn/eml_qsort.h` (Quicksort as macros).  An array of `N` elements is a function from indices to elements; every comparison and
exchange is checked against the array length (`none`: access outside the array, stack array overflow, or a loop that does not end).
`Q_UINT` arithmetic is on natural numbers: all differences taken by the code are of the form `r - l` with `l <= r`.
-/
import Mathlib.Logic.Equiv.Basic
namespace Emlearn.QSort
variable {α : Type}

/-- `Q_LESS(i, j)`: compares element `i` with element `j`.  `eml_qsort.h` 36. -/
def lessAt (lt : α → α → Bool) (N : Nat) (A : Nat → α) (i j : Nat) : Option Bool :=
  if i < N ∧ j < N then some (lt (A i) (A j)) else none

/-- Exchange of two elements. -/
def swap (A : Nat → α) (i j : Nat) : Nat → α := fun k => if k = i then A j else if k = j then A i else A k

/-- `Q_SWAP(i, j)`.  `eml_qsort.h` 37. -/
def swapAt (N : Nat) (A : Nat → α) (i j : Nat) : Option (Nat → α) :=
  if i < N ∧ j < N then some (swap A i j) else none

/-- `Q_SORT3`.  `eml_qsort.h` 44-60. -/
def sort3 (lt : α → α → Bool) (N : Nat) (A : Nat → α) (a1 a2 a3 : Nat) : Option (Nat → α) := do
  if (← lessAt lt N A a2 a1) then
    if (← lessAt lt N A a3 a2) then
      swapAt N A a1 a3
    else
      let A ← swapAt N A a1 a2
      if (← lessAt lt N A a3 a2) then swapAt N A a2 a3 else some A
  else if (← lessAt lt N A a3 a2) then
    let A ← swapAt N A a2 a3
    if (← lessAt lt N A a2 a1) then swapAt N A a1 a2 else some A
  else some A

/-- `do q_i++; while (Q_LESS(q_i, q_l));`  `eml_qsort.h` 82. -/
def scanUp (lt : α → α → Bool) (N : Nat) (A : Nat → α) (l : Nat) : Nat → Nat → Option Nat
  | 0, _ => none
  | fuel + 1, i => do
    if (← lessAt lt N A (i + 1) l) then scanUp lt N A l fuel (i + 1) else some (i + 1)

/-- `do q_j--; while (Q_LESS(q_l, q_j));` (`none` for `j = 0`, where the unsigned decrement would wrap).  `eml_qsort.h` 83. -/
def scanDown (lt : α → α → Bool) (N : Nat) (A : Nat → α) (l : Nat) : Nat → Option Nat
  | 0 => none
  | j + 1 => do
    if (← lessAt lt N A l j) then scanDown lt N A l j else some j

/-- The `while (1)` loop of `Q_PARTITION`; returns the array and the final `q_j`.  `eml_qsort.h` 81-86. -/
def partLoop (lt : α → α → Bool) (N : Nat) (l : Nat) : Nat → (Nat → α) → Nat → Nat → Option ((Nat → α) × Nat)
  | 0, _, _, _ => none
  | fuel + 1, A, i, j => do
    let i ← scanUp lt N A l N i
    let j ← scanDown lt N A l j
    if i ≥ j then some (A, j)
    else
      let A ← swapAt N A i j
      partLoop lt N l fuel A i j

/-- `Q_PARTITION`; returns the array, `q_i` and `q_j`.  `eml_qsort.h` 65-94. -/
def partition (lt : α → α → Bool) (N : Nat) (A : Nat → α) (l r : Nat) : Option ((Nat → α) × Nat × Nat) := do
  let m := l + (r - l) / 2
  let A ← sort3 lt N A (l + 1) m r
  let A ← swapAt N A l m
  let (A, j) ← partLoop lt N l N A (l + 1) r
  let A ← swapAt N A l j
  some (A, j + 1, j - 1)

/-- Inner loop of `Q_INSERTION_SORT`.  `eml_qsort.h` 109-110. -/
def insertDown (lt : α → α → Bool) (N : Nat) (l : Nat) (A : Nat → α) : Nat → Option (Nat → α)
  | 0 => some A
  | j + 1 =>
    if j + 1 > l then do
      if (← lessAt lt N A (j + 1) j) then
        let A ← swapAt N A (j + 1) j
        insertDown lt N l A j
      else some A
    else some A

/-- Outer loop of `Q_INSERTION_SORT`, `n` elements left to insert starting with element `i`.  `eml_qsort.h` 107-108. -/
def insertLoop (lt : α → α → Bool) (N : Nat) (l : Nat) : Nat → Nat → (Nat → α) → Option (Nat → α)
  | 0, _, A => some A
  | n + 1, i, A => do
    let A ← insertDown lt N l A i
    insertLoop lt N l n (i + 1) A

/-- `Q_INSERTION_SORT`.  `eml_qsort.h` 103-111. -/
def insertionSort (lt : α → α → Bool) (N : Nat) (A : Nat → α) (l r : Nat) : Option (Nat → α) :=
  insertLoop lt N l (r - l) (l + 1) A

/-- `Q_SUBFILES`: the next range and the new stack; a push onto a full stack array (`cap` frames) is `none`.  The stack array is a list, top first.
`eml_qsort.h` 156-176. -/
def subfiles (cap : Nat) (st : List (Nat × Nat)) (l1 r1 l2 r2 : Nat) : Option (Nat × Nat × List (Nat × Nat)) :=
  if l2 = r2 then some (l1, r1, st)
  else if st.length < cap then some (l2, r2, (l1, r1) :: st) else none

/-- `Q_LOOP` with an explicit stack of at most `cap` frames; `fuel` bounds the iterations.  `Q_THRESH` is 16.  `eml_qsort.h` 118, 121-152. -/
def loop (lt : α → α → Bool) (cap N : Nat) : Nat → (Nat → α) → Nat → Nat → List (Nat × Nat) → Option (Nat → α)
  | 0, _, _, _, _ => none
  | fuel + 1, A, l, r, st =>
    if r - l + 1 ≥ 16 then do
      let (A, i, j) ← partition lt N A l r
      (if j - l ≥ r - i then subfiles cap st l j i r else subfiles cap st i r l j).bind
        fun x => loop lt cap N fuel A x.1 x.2.1 x.2.2
    else do
      let A ← insertionSort lt N A l r
      match st with
      | [] => some A
      | (l', r') :: st' => loop lt cap N fuel A l' r' st'

/-- `QSORT(N, LESS, SWAP)`.  At most `N` iterations of the main loop are allowed, so a result also means termination within `N` iterations.
`eml_qsort.h` 179-185. -/
def qsort (lt : α → α → Bool) (cap N : Nat) (A : Nat → α) : Option (Nat → α) :=
  if N > 1 then loop lt cap N N A 0 (N - 1) [] else some A

end Emlearn.QSort
