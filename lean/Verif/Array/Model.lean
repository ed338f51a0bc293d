/-
Model of `emlearn/eml_array.h`.  The data buffer of an array is a function from byte offsets to bytes together with its length `bufLen`; an access outside
`0..bufLen-1` is `none`.  `int`/`int64_t` products are unbounded integers (arrays of less than 2 GiB; the 64-bit product does not overflow).
-/
import Verif.Common
namespace Emlearn.EArray

/-- `EmlArray` (without the data pointer, whose target is passed separately).  `eml_array.h` 22-29. -/
structure Arr where
  dims : List Int
  nDims : Int
  valueSize : Int
  bufLen : Nat
  deriving DecidableEq, Repr

def Arr.d0 (a : Arr) : Int := a.dims.getD 0 0
def Arr.d1 (a : Arr) : Int := a.dims.getD 1 0

/-- `eml_storage_size_array`: product of the first `n_dims` dimensions times the value size, as the signed 64-bit value before conversion to `size_t`.
`eml_array.h` 31-41. -/
def storageSize (nDims : Nat) (dims : List Int) (valueSize : Int) : Int :=
  (dims.take nDims).foldl (· * ·) 1 * valueSize

/-- Conversion `int64_t -> size_t` (64 bit): negative values become huge. -/
def toSizeT (x : Int) : Int := x % 2 ^ 64

/-- The dimension-setting loop of `eml_array_init_full`: dimensions are stored one by one, a negative one aborts.  Returns the dims written and
whether all were accepted.  `eml_array.h` 61-64. -/
def setDims (old : List Int) : Nat → List Int → Nat → List Int × Bool
  | 0, _, _ => (old, true)
  | n + 1, dimensions, d =>
    let v := dimensions.getD d 0
    let new := old.set d v
    if v ≥ 0 then setDims new n dimensions (d + 1) else (new, false)

/-- `eml_array_init_full(self, n_dims, dimensions, value_size, buffer, buffer_length)`: the array afterwards and the error code.  `old` is the
previous content of `*self`.  `eml_array.h` 43-72. -/
def initFull (old : Arr) (nDims : Int) (dimensions : List Int) (valueSize : Int) (bufferLength : Nat) : Arr × EmlError :=
  if ¬ nDims ≤ 3 then (old, .sizeMismatch)
  else if ¬ nDims ≥ 1 then (old, .sizeMismatch)
  else if ¬ dimensions.getD 0 0 ≥ 1 then (old, .sizeMismatch)
  else if ¬ toSizeT (storageSize nDims.toNat dimensions valueSize) ≤ bufferLength then (old, .sizeMismatch)
  else
    let (dims, ok) := setDims [0, 0, 0] nDims.toNat dimensions 0
    if ok then (⟨dims, nDims, valueSize, bufferLength⟩, .ok)
    else ({ old with dims := dims, nDims := nDims }, .sizeMismatch)

/-- `eml_array_storage_size`.  `eml_array.h` 84-88. -/
def arrayStorageSize (a : Arr) : Int := storageSize a.nDims.toNat a.dims a.valueSize

/-- `eml_array_data_2d(self, col, row)`: byte offset of the element, `none` for `NULL`.  `eml_array.h` 92-110. -/
def data2d (a : Arr) (col row : Int) : Option Int :=
  if ¬ a.nDims = 2 then none
  else if ¬ col < a.d0 then none
  else if ¬ row < a.d1 then none
  else if ¬ col ≥ 0 then none
  else if ¬ row ≥ 0 then none
  else some (a.valueSize * (row * a.d0 + col))

/-- Buffer contents: byte at each offset. -/
abbrev Mem := Nat → Nat

/-- Store an `int16_t` (two bytes, little endian). -/
def store16 (a : Arr) (m : Mem) (off : Int) (v : Int) : Option Mem :=
  if 0 ≤ off ∧ off + 2 ≤ a.bufLen then
    some (fun k => if (k : Int) = off then (v % 256).toNat else if (k : Int) = off + 1 then (v / 256 % 256).toNat else m k)
  else none

/-- Load an `int16_t`. -/
def load16 (a : Arr) (m : Mem) (off : Int) : Option Int :=
  if 0 ≤ off ∧ off + 2 ≤ a.bufLen then some (wrap16 (m off.toNat + 256 * m (off.toNat + 1))) else none

/-- The coordinates visited by the nested loops of `eml_array_fill` and `eml_array_sum`, in order.  `eml_array.h` 119-120, 136-137. -/
def coords (a : Arr) : List (Nat × Nat) :=
  (List.range a.d0.toNat).flatMap (fun i => (List.range a.d1.toNat).map (fun j => (i, j)))

/-- `eml_array_fill(self, value)`; `conv` is `(int16_t)value` (`none`: the conversion is undefined).  `eml_array.h` 113-126. -/
def fill (a : Arr) (m : Mem) (conv : Option Int) : Option (Except EmlError Mem) :=
  if ¬ a.nDims = 2 then some (.error .unsupported)
  else if ¬ a.valueSize = 2 then some (.error .unsupported)
  else
    ((coords a).foldlM (fun (m : Mem) (c : Nat × Nat) => do
      let off ← data2d a c.1 c.2
      let v ← conv
      store16 a m off v) m).map .ok

/-- `eml_array_sum(self, out)`, in an arbitrary float arithmetic.  `eml_array.h` 129-145. -/
def sum {F : Type} (ops : FOps F) (a : Arr) (m : Mem) : Option (Except EmlError F) :=
  if ¬ a.nDims = 2 then some (.error .unsupported)
  else if ¬ a.valueSize = 2 then some (.error .unsupported)
  else
    ((coords a).foldlM (fun (s : F) (c : Nat × Nat) => do
      let off ← data2d a c.1 c.2
      let v ← load16 a m off
      some (ops.add s (ops.ofInt v))) ops.zero).map .ok

/-- `memcpy(dst + t, src + s, n)`; `none`: outside one of the buffers.  (A copy of a region onto itself, which happens for `shift = 0`, is taken as the identity.) -/
def memcpy (dst : Arr) (m : Mem) (t : Int) (src : Arr) (ms : Mem) (s : Int) (n : Int) : Option Mem :=
  if 0 ≤ t ∧ 0 ≤ s ∧ 0 ≤ n ∧ t + n ≤ dst.bufLen ∧ s + n ≤ src.bufLen then
    some (fun k => if t ≤ k ∧ (k : Int) < t + n then ms (s + (k - t)).toNat else m k)
  else none

/-- The row-copy loop shared by `eml_array_shift_rows` and `eml_array_copy_rows`: for `i = i0 .. i0+n-1` copy row `srcRow i` of the source to row `dstRow i`.  The source buffer is the
destination buffer itself when `inPlace`.  Returns the memory and the error code. -/
def copyLoop (dst : Arr) (src : Arr) (inPlace : Bool) (ms : Mem) (dstRow srcRow : Int → Int) : Nat → Int → Mem → Option (Mem × EmlError)
  | 0, _, m => some (m, .ok)
  | n + 1, i, m =>
    match data2d dst 0 (dstRow i), data2d src 0 (srcRow i) with
    | some t, some s =>
      match memcpy dst m t src (if inPlace then m else ms) s (dst.valueSize * dst.d0) with
      | some m => copyLoop dst src inPlace ms dstRow srcRow n (i + 1) m
      | none => none
    | _, _ => some (m, .postconditionFailed)

/-- `eml_array_shift_rows(self, shift)`.  `eml_array.h` 156-192. -/
def shiftRows (a : Arr) (m : Mem) (shift : Int) : Option (Mem × EmlError) :=
  if ¬ a.nDims = 2 then some (m, .unsupported)
  else if ¬ (shift.natAbs : Int) ≤ a.d1 then some (m, .sizeMismatch)
  else if ¬ shift ≤ 0 then some (m, .unsupported)
  else copyLoop a a true m (fun i => i) (fun i => i - shift) (a.d1 + shift).toNat 0 m

/-- `eml_array_copy_rows(self, start, other)`.  `eml_array.h` 195-231. -/
def copyRows (a : Arr) (m : Mem) (start : Int) (o : Arr) (mo : Mem) : Option (Mem × EmlError) :=
  if ¬ a.nDims = 2 then some (m, .unsupported)
  else if ¬ o.nDims = 2 then some (m, .unsupported)
  else if ¬ start ≥ 0 then some (m, .unsupported)
  else if ¬ o.d0 = a.d0 then some (m, .sizeMismatch)
  else if ¬ start + o.d1 ≤ a.d1 then some (m, .sizeMismatch)
  else copyLoop a o false mo (fun i => i + start) (fun i => i) o.d1.toNat 0 m

end Emlearn.EArray
