/- Model of `emlearn/eml_vector.h`. Memory is one array of floats; a vector is a start address and a length (`EmlVector`, `eml_vector.h` 13-16).
`none` is an access outside the memory. C `int` is a mathematical integer (no overflow of `source.length + location` or `start` arithmetic). -/
import Mathlib.Algebra.Order.Field.Basic
import Mathlib.Algebra.BigOperators.Group.List.Basic
namespace Emlearn.Vector

structure Vec where
  data : Int
  length : Int
deriving DecidableEq

variable {F : Type}

def load (mem : List F) (a : Int) : Option F := if 0 ≤ a then mem[a.toNat]? else none
def store (mem : List F) (a : Int) (v : F) : Option (List F) := if 0 ≤ a ∧ a.toNat < mem.length then some (mem.set a.toNat v) else none

/-- The copy loop, `eml_vector.h` 29-31: `k` iterations remain, from index `i`. -/
def setLoop (dest source : Vec) (location : Int) : Nat → Int → List F → Option (List F)
  | 0, _, mem => some mem
  | k + 1, i, mem =>
    (load mem (source.data + (i - location))).bind fun v => (store mem (dest.data + i) v).bind fun mem => setLoop dest source location k (i + 1) mem

/-- `eml_vector_set`, `eml_vector.h` 19-33: the memory after the call and the return code. -/
def set (mem : List F) (dest source : Vec) (location : Int) : Option (List F × Int) :=
  let finalDest := source.length + location
  if finalDest > dest.length then some (mem, -1)
  else if location < 0 then some (mem, -2)
  else (setLoop dest source location (finalDest - location).toNat location mem).map fun m => (m, 0)

/-- The loop of `eml_vector_set_value`, `eml_vector.h` 38-40. -/
def setValueLoop (a : Vec) (val : F) : Nat → Int → List F → Option (List F)
  | 0, _, mem => some mem
  | k + 1, i, mem => (store mem (a.data + i) val).bind fun mem => setValueLoop a val k (i + 1) mem

/-- `eml_vector_set_value`, `eml_vector.h` 36-42. -/
def setValue (mem : List F) (a : Vec) (val : F) : Option (List F) := setValueLoop a val a.length.toNat 0 mem

/-- `eml_vector_view`, `eml_vector.h` 45-50: no check of the range. -/
def view (orig : Vec) (start stop : Int) : Vec := { data := orig.data + start, length := stop - start }

/-- The loop of `eml_signal_mean`, `eml_vector.h` 55-58. -/
def sumLoop [Add F] (mem : List F) (data : Int) : Nat → Int → F → Option F
  | 0, _, s => some s
  | k + 1, i, s => (load mem (data + i)).bind fun v => sumLoop mem data k (i + 1) (s + v)

/-- `eml_signal_mean`, `eml_vector.h` 52-61, over an exact field instead of `float`; division by zero (NaN in C) is `none`. -/
def mean [DivisionRing F] (mem : List F) (data length : Int) : Option F :=
  (sumLoop mem data length.toNat 0 0).bind fun s => if length = 0 then none else some (s / (length : F))

end Emlearn.Vector
