/- Model of `emlearn/evaluate/size.py` 38-95: reading the output of `size -A` of GNU binutils.
Simplification: the character classes `\w`, `\s`, `\d` are those of ASCII (the tool is run with `LC_ALL=C`); an uncaught exception is `none`. -/
import Verif.Text
import Mathlib.Data.List.Infix
namespace Emlearn.Size

/-- `[\w.]`, `size.py` 56. -/
def isWord (c : Char) : Bool := c.isAlphanum || c == '_' || c == '.'

/-- `\s`, `size.py` 56: what `str.isspace` accepts in ASCII. -/
def isSp (c : Char) : Bool := (decide (9 ≤ c.toNat) && decide (c.toNat ≤ 13)) || (decide (28 ≤ c.toNat) && decide (c.toNat ≤ 32))

/-- One match of `([\w.]+)\s+(\d+)` at the beginning of the text: the two groups and what follows the match. The quantifiers are greedy; as no character is both `[\w.]` and `\s`, or both `\s` and `\d`, a shorter first or
second part can never be followed by what the expression asks for, so backtracking changes nothing. `size.py` 56-57. -/
def matchAt (l : List Char) : Option (List Char × List Char × List Char) :=
  let name := l.takeWhile isWord
  let l1 := l.dropWhile isWord
  let gap := l1.takeWhile isSp
  let l2 := l1.dropWhile isSp
  let num := l2.takeWhile Char.isDigit
  let l3 := l2.dropWhile Char.isDigit
  if name = [] ∨ gap = [] ∨ num = [] then none else some (name, num, l3)

theorem matchAt_length {l : List Char} {k d r : List Char} (h : matchAt l = some (k, d, r)) : r.length < l.length := by
  unfold matchAt at h
  simp only at h
  split at h
  · cases h
  · rename_i hn
    simp only [Option.some.injEq, Prod.mk.injEq] at h
    have h1 : l.length = (l.takeWhile isWord).length + (l.dropWhile isWord).length := by
      rw [← List.length_append, List.takeWhile_append_dropWhile]
    have h2 := (List.dropWhile_sublist isSp (l := l.dropWhile isWord)).length_le
    have h3 := (List.dropWhile_sublist Char.isDigit (l := (l.dropWhile isWord).dropWhile isSp)).length_le
    have h4 : (l.takeWhile isWord).length ≠ 0 := fun h0 => hn (.inl (List.length_eq_zero_iff.1 h0))
    rw [← h.2.2]
    omega

/-- `re.finditer(number_field_regex, stdout, re.MULTILINE)` with `m.groups()`, `size.py` 57-60: after a match the search goes on behind it, otherwise one character further. -/
def finditer (l : List Char) : List (List Char × List Char) :=
  match _h : matchAt l with
  | some (k, d, r) => (k, d) :: finditer r
  | none => match l with
    | [] => []
    | _ :: t => finditer t
termination_by l.length
decreasing_by
  · exact matchAt_length (by assumption)
  · simp

/-- `str.lower` in ASCII, `size.py` 61. -/
def lower (s : List Char) : List Char := s.map Char.toLower

/-- The dictionary `out` after the loop, `size.py` 58-61: assignments in order, newest first. `int(value)` of a nonempty run of digits. -/
def fields (l : List Char) : List (List Char × Nat) :=
  ((finditer l).map fun m => (lower m.1, Nat.ofDigitChars 10 m.2 0)).reverse

/-- `out[key]`. -/
def get (out : List (List Char × Nat)) (key : List Char) : Option Nat := (out.find? (fun e => e.1 = key)).map (·.2)

/-- `out[section] = 0` if it is missing, `size.py` 67-69. -/
def ensure (out : List (List Char × Nat)) (key : List Char) : List (List Char × Nat) :=
  if get out key = none then (key, 0) :: out else out

/-- `parse_binutils_size_a_output`, `size.py` 38-73. -/
def parse (stdout : List Char) : Option (List (List Char × Nat)) :=
  match stdout.splitOn '\n' with
  | fileLine :: headerLine :: _ =>
    if ".elf".toList <:+: fileLine ∧ "section".toList <:+: headerLine ∧ "size".toList <:+: headerLine then
      let out := ensure (ensure (ensure (fields stdout) ".rodata".toList) ".data".toList) ".bss".toList
      if get out ".text".toList ≠ none ∧ get out ".data".toList ≠ none then some out else none
    else none
  | _ => none

/-- The result of `run_binutils_size`, `size.py` 75-95: the sizes in flash and in RAM. -/
structure Sizes where
  flash : Nat
  ram : Nat
  deriving DecidableEq, Repr

/-- `run_binutils_size` on the output of the tool, `size.py` 88-95. -/
def sizes (stdout : List Char) : Option Sizes := do
  let out ← parse stdout
  let text ← get out ".text".toList
  let data ← get out ".data".toList
  let rodata ← get out ".rodata".toList
  let bss ← get out ".bss".toList
  return ⟨text + data + rodata, data + bss⟩

end Emlearn.Size
