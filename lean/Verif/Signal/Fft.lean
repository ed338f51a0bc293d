/- Model of `emlearn/eml_fft.h`. Arrays are a length and the values at each index; every access is checked against the length. Generic in the arithmetic (`float` in C; exact real numbers for C48, rounded ones for C102); `size_t` is unbounded except for the 32-bit shift `1U << levels`. -/
import Verif.Common
import Mathlib.Analysis.SpecialFunctions.Trigonometric.Basic
namespace Emlearn.Fft

/-- `reverse_bits` loop, `eml_fft.h` 40-45: `k` rounds remain. -/
def revLoop : Nat → Nat → Nat → Nat
  | 0, _, result => result
  | k + 1, x, result => revLoop k (x / 2) (result * 2 + x % 2)

/-- `reverse_bits(x, n)`. -/
def reverseBits (x n : Nat) : Nat := revLoop n x 0

/-- A complex array: `real` and `imag` of the same length. -/
structure Buf (α : Type) where
  len : Nat
  re : Nat → α
  im : Nat → α

/-- `EmlFFT`, `eml_fft.h` 51-55. -/
structure Table (α : Type) where
  length : Nat
  sin : Nat → α
  cos : Nat → α

/-- `eml_fft_fill`, `eml_fft.h` 68-78, for given `cosf`, `sinf` and arguments: `arg i` is `2 * M_PI * i / n`, computed in `double` and converted to `float`. -/
def fillWith {α : Type} (cosf sinf : α → α) (arg : Nat → α) (t : Table α) (n : Nat) : EmlError × Table α :=
  if t.length = n / 2 then
    (.ok, { t with cos := fun i => if i < n / 2 then cosf (arg i) else t.cos i
                   sin := fun i => if i < n / 2 then sinf (arg i) else t.sin i })
  else (.sizeMismatch, t)

/-- `eml_fft_fill` in exact arithmetic. -/
noncomputable def fill (t : Table ℝ) (n : Nat) : EmlError × Table ℝ := fillWith Real.cos Real.sin (fun i => 2 * Real.pi * i / n) t n

/-- `for (temp = n; temp > 1; temp >>= 1) levels++`, `eml_fft.h` 95-97. -/
def levelsOf (n : Nat) : Nat := if h : n > 1 then levelsOf (n / 2) + 1 else 0
termination_by n
decreasing_by omega

/-- `for (i = start; k rounds; i++) body(i)`. -/
def forLoop {σ : Type} (body : Nat → σ → Option σ) : Nat → Nat → σ → Option σ
  | 0, _, s => some s
  | k + 1, i, s => (body i s).bind (forLoop body k (i + 1))

/-- Storing a value in an array. -/
def put {α : Type} (a : Nat → α) (i : Nat) (v : α) : Nat → α := fun j => if j = i then v else a j

/-- One step of the permutation loop, `eml_fft.h` 103-113. -/
def swapStep {α : Type} (levels i : Nat) (b : Buf α) : Option (Buf α) :=
  let j := reverseBits i levels
  if j > i then
    if i < b.len ∧ j < b.len then
      some { b with re := put (put b.re i (b.re j)) j (b.re i), im := put (put b.im i (b.im j)) j (b.im i) }
    else none
  else some b

/-- One butterfly, `eml_fft.h` 121-128. -/
def butterfly {α : Type} [Add α] [Sub α] [Mul α] [Neg α] (t : Table α) (halfsize k j : Nat) (b : Buf α) : Option (Buf α) :=
  let l := j + halfsize
  if l < b.len ∧ j < b.len ∧ k < t.length then
    let tpre := b.re l * t.cos k + b.im l * t.sin k
    let tpim := -b.re l * t.sin k + b.im l * t.cos k
    let re := put b.re l (b.re j - tpre)
    let im := put b.im l (b.im j - tpim)
    some { b with re := put re j (re j + tpre), im := put im j (im j + tpim) }
  else none

/-- Loops over blocks and butterflies for one size, `eml_fft.h` 117-130: `i` takes the values `0, size, 2*size, ... < n`, `j = i + d`, `k = d * tablestep`. -/
def stage {α : Type} [Add α] [Sub α] [Mul α] [Neg α] (t : Table α) (n size : Nat) (b : Buf α) : Option (Buf α) :=
  forLoop (fun blk => forLoop (fun d => butterfly t (size / 2) (d * (n / size)) (blk * size + d)) (size / 2) 0) ((n + size - 1) / size) 0 b

/-- `for (size = 2; size <= n; size *= 2) { ...; if (size == n) break; }`, `eml_fft.h` 116-133. -/
def stages {α : Type} [Add α] [Sub α] [Mul α] [Neg α] (t : Table α) (n : Nat) : Nat → Nat → Buf α → Option (Buf α)
  | 0, _, b => some b
  | fuel + 1, size, b =>
    if size ≤ n then (stage t n size b).bind (fun b => if size = n then some b else stages t n fuel (size * 2) b) else some b

/-- `eml_fft_forward`, `eml_fft.h` 92-135. `none`: access out of bounds or a shift by 32 or more. -/
def forward {α : Type} [Add α] [Sub α] [Mul α] [Neg α] (t : Table α) (b : Buf α) (n : Nat) : Option (EmlError × Buf α) :=
  let levels := levelsOf n
  if levels < 32 then
    if 2 ^ levels = n then
      if t.length = n / 2 then
        ((forLoop (swapStep levels) n 0 b).bind (stages t n n 2)).map (fun b => (.ok, b))
      else some (.sizeMismatch, b)
    else some (.sizeMismatch, b)
  else none

end Emlearn.Fft
