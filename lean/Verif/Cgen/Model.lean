/- Model of the C code generation helpers: `emlearn/cgen.py`, `emlearn/creserved.py`. Texts are lists of characters, numbers are rationals (finite floats and ints). -/
import Verif.Fixed
import Verif.Trunc
import Verif.Quant.Model
namespace Emlearn.Cgen

/-! ### Literals and declarations -/

/-- `'int' in dtype` (`cgen.py` 51). -/
def hasInt : List Char → Bool
  | [] => false
  | c :: r => (match c :: r with | 'i' :: 'n' :: 't' :: _ => true | _ => false) || hasInt r

/-- `constant(val, dtype)` (`cgen.py` 42-54). `other` is `str(val)`, used for the remaining types. -/
def constant (other : ℚ → List Char) (val : ℚ) (dtype : List Char) : List Char :=
  if dtype = "float".toList then showFixed 6 val ++ ['f']
  else if hasInt dtype then showInt (trunc val)
  else other val

/-- `constant_declare(name, val, dtype)` (`cgen.py` 56-71). -/
def constantDeclare (other : ℚ → List Char) (name : List Char) (val : ℚ) (dtype : List Char) : List Char :=
  "static const ".toList ++ dtype ++ [' '] ++ name ++ " = ".toList ++ constant other val dtype ++ "; ".toList

/-- How `{size}` is formatted: a number, or `None` when neither size nor values were given. -/
def showSize : Option Int → List Char
  | none => "None".toList
  | some n => showInt n

/-- `array_declare(name, size, dtype, modifiers, values, end, indent)` (`cgen.py` 73-100). `none`: the assertion on the size fails. -/
def arrayDeclare (other : ℚ → List Char) (name : List Char) (size : Option Int) (dtype modifiers : List Char) (values : Option (List ℚ))
    (end_ indent : List Char) : Option (List Char) :=
  match values with
  | none => some (indent ++ modifiers ++ [' '] ++ dtype ++ [' '] ++ name ++ ['['] ++ showSize size ++ [']'] ++ [] ++ [';'] ++ end_)
  | some vs =>
    let size := size.getD vs.length
    if size = vs.length then
      let init := " = { ".toList ++ [',', ' '].intercalate (vs.map fun v => constant other v dtype) ++ " }".toList
      some (indent ++ modifiers ++ [' '] ++ dtype ++ [' '] ++ name ++ ['['] ++ showSize (some size) ++ [']'] ++ init ++ [';'] ++ end_)
    else none

/-- `struct_init(*args)` (`cgen.py` 16-24); the arguments are given as their `str()`. -/
def structInit (args : List (List Char)) : List Char := "{ ".toList ++ [',', ' '].intercalate args ++ " }".toList

/-- `struct_declare(name, type_name, values, modifiers)` (`cgen.py` 26-40); `modifiers` is not used. -/
def structDeclare (name typeName : List Char) (values : Option (List (List Char))) (_modifiers : List Char) : List Char :=
  let init := match values with
    | none => []
    | some vs => "= ".toList ++ structInit vs
  typeName ++ [' '] ++ name ++ init ++ [';']

/-! ### Values that may be text -/

/-- A Python value given to the helpers: a number or a string. -/
inductive PyVal where
  | num (q : ℚ)
  | str (s : List Char)

/-- ASCII whitespace removed by `int()`. -/
def isBlank (c : Char) : Bool := c == ' ' || c == '\n' || c == '\t' || c == '\r' || c == '\x0b' || c == '\x0c'

/-- Digits in groups separated by single underscores, as `int()` accepts them. -/
def readDigitGroups (s : List Char) : Option Nat :=
  if (s.splitOn '_').all (fun g => g ≠ [] ∧ g.all Char.isDigit) then some (Nat.ofDigitChars 10 (s.filter (· ≠ '_')) 0) else none

/-- `int(s)` of a string: blanks stripped, an optional sign, decimal digits (ASCII only). `none`: ValueError. -/
def pyIntOfText (s : List Char) : Option Int :=
  match ((s.dropWhile isBlank).reverse.dropWhile isBlank).reverse with
  | '-' :: r => (readDigitGroups r).map (fun (n : Nat) => -(n : Int))
  | '+' :: r => (readDigitGroups r).map (fun (n : Nat) => (n : Int))
  | r => (readDigitGroups r).map (fun (n : Nat) => (n : Int))

/-- `constant(val, dtype)` for any value (`cgen.py` 42-54); `none`: ValueError (a string formatted as a float, or `int()` of a string that is not a number).
`other` is `str(val)` for numbers. -/
def constantPy (other : ℚ → List Char) (val : PyVal) (dtype : List Char) : Option (List Char) :=
  match val with
  | .num q => some (constant other q dtype)
  | .str s => if dtype = "float".toList then none else if hasInt dtype then (pyIntOfText s).map showInt else some s

/-- `constant_declare(name, val, dtype)` for any value (`cgen.py` 56-71). -/
def constantDeclarePy (other : ℚ → List Char) (name : List Char) (val : PyVal) (dtype : List Char) : Option (List Char) :=
  (constantPy other val dtype).map fun v => "static const ".toList ++ dtype ++ [' '] ++ name ++ " = ".toList ++ v ++ "; ".toList

/-- `array_declare` with an explicit size and values of any kind (`cgen.py` 73-100). -/
def arrayDeclarePy (other : ℚ → List Char) (name : List Char) (size : Int) (dtype modifiers : List Char) (values : List PyVal) : Option (List Char) :=
  if size = values.length then
    (values.mapM fun v => constantPy other v dtype).map fun lits =>
      modifiers ++ [' '] ++ dtype ++ [' '] ++ name ++ ['['] ++ showInt size ++ [']'] ++ (" = { ".toList ++ [',', ' '].intercalate lits ++ " }".toList) ++ [';']
  else none

/-! ### Fixed-point arrays -/

/-- `FixedPointFormat` (`fixedpoint.py` 9-14). -/
structure FixFmt where
  integerBits : Nat
  fractionBits : Nat
  signBits : Nat

/-- `total_bits` (`fixedpoint.py` 16-19). -/
def FixFmt.total (f : FixFmt) : Nat := f.integerBits + f.fractionBits + f.signBits

/-- `ctype` (`fixedpoint.py` 21-32); `none`: the assertion fails. -/
def FixFmt.ctype (f : FixFmt) : Option (List Char) :=
  if f.total = 32 then some (if f.integerBits = 15 ∧ f.fractionBits = 16 ∧ f.signBits = 1 then "eml_q16_t".toList else "eml_fixed32_t".toList) else none

/-- `array_declare_fixedpoint(name, fixedpoint, values, size, modifiers)` (`cgen.py` 103-116); `none`: an exception (wrong width, no values with a format, wrong size). -/
def arrayDeclareFixedpoint (other : ℚ → List Char) (name : List Char) (fmt : Option FixFmt) (values : Option (List ℚ)) (size : Option Int) (modifiers : List Char) :
    Option (List Char) :=
  match fmt with
  | none => arrayDeclare other name size "float".toList modifiers values [] []
  | some f =>
    f.ctype.bind fun ct => values.bind fun vs =>
      arrayDeclare other name size ct modifiers (some (vs.map fun v => ((Quant.fromFloat f.fractionBits v : Int) : ℚ))) [] []

/-! ### Identifiers -/

/-- `[_a-zA-Z]` -/
def identFirst (c : Char) : Bool := c == '_' || ('a' ≤ c && c ≤ 'z') || ('A' ≤ c && c ≤ 'Z')

/-- `[_a-zA-Z0-9]` -/
def identRest (c : Char) : Bool := identFirst c || ('0' ≤ c && c ≤ '9')

/-- `re.match(r'^[_a-zA-Z][_a-zA-Z0-9]*$', s) is not None` (`cgen.py` 10, 119-129). `$` matches at the end and before a final newline. -/
def identifierIsValid : List Char → Bool
  | [] => false
  | c :: r => identFirst c && (let rest := r.dropWhile identRest; rest == [] || rest == ['\n'])

/-- The four lists of `creserved.py`; splitting the text at newlines also yields the empty word. -/
def reservedWords : List String :=
  ["", "auto", "else", "long", "switch", "break", "enum", "register", "typedef", "case", "extern", "return", "union", "char", "float", "short",
   "unsigned", "const", "for", "signed", "void", "continue", "goto", "sizeof", "volatile", "default", "if", "static", "while", "do", "int",
   "struct", "_Packed", "double", "_Imaginary",
   "inline", "restrict", "_Bool", "_Complex", "_Imaginary",
   "_Alignas", "_Alignof", "_Atomic", "_Generic", "_Noreturn", "_Static_assert", "_Thread_local",
   "alignas", "alignof", "bool", "constexpr", "false", "nullptr", "static_assert", "thread_local", "true", "typeof", "typeof_unqual",
   "_BitInt", "_Decimal128", "_Decimal32", "_Decimal64"]

/-- `identifier_is_reserved(s)` (`cgen.py` 131-141). -/
def identifierIsReserved (s : List Char) : Bool := reservedWords.any (fun w => w.toList == s)

/-- `assert_valid_identifier(s)` (`cgen.py` 143-158): `true` when it returns, `false` when it raises. -/
def assertValidIdentifier (s : List Char) : Bool :=
  if !identifierIsValid s then false else if identifierIsReserved s then false else true

end Emlearn.Cgen
