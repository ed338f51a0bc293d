/- Model of the structured logging macros, `emlearn/eml_log.h`. `none`: undefined behaviour of `printf`. -/
import Verif.Text
import Verif.Fixed
namespace Emlearn.Log

/-- An argument of `printf`: a string, an `int`, a `double`. -/
inductive Arg where
  | str (s : List Char)
  | int (i : Int)
  | flt (x : ℚ)

/-- `printf` with the directives that the macros use. A directive without a matching argument is undefined behaviour; any other directive also counts as a failure here. Arguments without directive are ignored, as in C. -/
def printf : List Char → List Arg → Option (List Char)
  | [], _ => some []
  | '%' :: '%' :: f, as => (printf f as).map ('%' :: ·)
  | '%' :: 's' :: f, .str s :: as => (printf f as).map (s ++ ·)
  | '%' :: 'd' :: f, .int i :: as => (printf f as).map (showInt i ++ ·)
  | '%' :: '.' :: '4' :: 'f' :: f, .flt x :: as => (printf f as).map (showFixed 4 x ++ ·)
  | '%' :: _, _ => none
  | c :: f, as => (printf f as).map (c :: ·)

/-- `EML_LOG_PRINTF`, `eml_log.h` 41-58: expands to nothing unless `EML_LOG_ENABLE`. -/
def logPrintf (enabled : Bool) (fmt : List Char) (args : List Arg) : Option (List Char) := if enabled then printf fmt args else some []

/-- Two outputs, one after the other. -/
def andThen (a b : Option (List Char)) : Option (List Char) := a.bind fun x => b.map (x ++ ·)

/-- The loop of `EML_LOG_PRINT_ARRAY`, `eml_log.h` 67-73, from index `i`. -/
def arrayLoop (enabled : Bool) (fmt : List Char) (len : Nat) : Nat → List Arg → Option (List Char)
  | _, [] => some []
  | i, a :: as => andThen (logPrintf enabled fmt [a]) (andThen (if i + 1 ≠ len then logPrintf enabled [','] [] else some []) (arrayLoop enabled fmt len (i + 1) as))

/-- `EML_LOG_PRINT_ARRAY`, `eml_log.h` 65-75, for an array of `len` elements. -/
def printArray (enabled : Bool) (arr : List Arg) (fmt : List Char) : Option (List Char) :=
  andThen (logPrintf enabled ['['] []) (andThen (arrayLoop enabled fmt arr.length 0 arr) (logPrintf enabled [']'] []))

/-- One use of a logging macro. -/
inductive Call where
  | begin (event : List Char)
  | add (key str : List Char)
  | addInteger (key : List Char) (i : Int)
  | addBool (key : List Char) (b : Bool)
  | addFloat (key : List Char) (x : ℚ)
  | addArray (key : List Char) (arr : List Arg) (fmt : List Char)
  | finish

/-- What a macro writes to the log, `eml_log.h` 84-114. -/
def Call.emit (enabled : Bool) : Call → Option (List Char)
  | .begin event => logPrintf enabled event []
  | .finish => logPrintf enabled ['\n'] []
  | .add key str => logPrintf enabled " %s=%s".toList [.str key, .str str]
  | .addInteger key i => logPrintf enabled " %s=%d".toList [.str key, .int i]
  | .addBool key b => logPrintf enabled " %s=%s".toList [.str key, .str (if b then "true".toList else "false".toList)]
  | .addFloat key x => logPrintf enabled " %s=%.4f".toList [.str key, .flt x]
  | .addArray key arr fmt => andThen (logPrintf enabled " %s".toList [.str key]) (printArray enabled arr fmt)

/-- The log after a sequence of macro uses. -/
def emitAll (enabled : Bool) : List Call → Option (List Char)
  | [] => some []
  | c :: cs => andThen (c.emit enabled) (emitAll enabled cs)

end Emlearn.Log
