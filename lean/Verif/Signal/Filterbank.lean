/- Model of the sparse filterbank: `emlearn/signal.py` and `eml_sparse_filterbank` in `emlearn/eml_audio.h`.
Numbers are elements of `K`; `none` stands for an IndexError (Python) or an out-of-bounds access (C). -/
namespace Emlearn.Filterbank
variable {K : Type} [Zero K] [Add K] [Mul K] [DecidableEq K]

/-- `numpy.nonzero(mel)[0]`: the indices of the nonzero entries, ascending (`signal.py` 18). -/
def nonzero (mel : List K) : List Nat := (List.range mel.length).filter (fun j => decide (mel[j]? ≠ some 0))

/-- What `sparse_filterbank` returns: `starts`, `ends`, `coeffs` (`signal.py` 24). -/
structure Sparse (K : Type) where
  starts : List Nat
  ends : List Nat
  coeffs : List K

/-- `sparse_filterbank(mels)` (`signal.py` 12-24): the loop over rows with three growing lists.
`nonzero[0]` raises IndexError on a row without nonzero entry. -/
def sparseLoop : List (List K) → Sparse K → Option (Sparse K)
  | [], s => some s
  | mel :: rest, s =>
    (nonzero mel).head?.bind fun first =>
    (nonzero mel).getLast?.bind fun last =>
    sparseLoop rest
      { starts := s.starts ++ [first], ends := s.ends ++ [last], coeffs := s.coeffs ++ (nonzero mel).filterMap (fun j => mel[j]?) }

def sparseFilterbank (mels : List (List K)) : Option (Sparse K) := sparseLoop mels { starts := [], ends := [], coeffs := [] }

/-- The inner loop `for j in [start, start + k)`: `out += input[j]*lut[offset]; offset++`
(`signal.py` 71-73, `eml_audio.h` 201-206). Returns the output entry and the new offset. -/
def bandLoop (input lut : List K) : (k j offset : Nat) → (out : K) → Option (K × Nat)
  | 0, _, offset, out => some (out, offset)
  | k + 1, j, offset, out =>
    (lut[offset]?).bind fun f => (input[j]?).bind fun x => bandLoop input lut k (j + 1) (offset + 1) (out + x * f)

/-- The loop over the bands of `sparse_filterbank_reduce` (`signal.py` 70-73), `offset` carried across bands. -/
def reduceLoop (input lut : List K) : List (Nat × Nat) → (offset : Nat) → (done : List K) → Option (List K)
  | [], _, done => some done
  | (start, stop) :: rest, offset, done =>
    (bandLoop input lut (stop + 1 - start) start offset 0).bind fun r => reduceLoop input lut rest r.2 (done ++ [r.1])

/-- `sparse_filterbank_reduce(sparse, input)` (`signal.py` 64-75); `none` when the length assertion fails or an index is out of range. -/
def reduce (s : Sparse K) (input : List K) : Option (List K) :=
  if s.starts.length = s.ends.length then reduceLoop input s.coeffs (s.starts.zip s.ends) 0 [] else none

/-- The second loop of `eml_sparse_filterbank` (`eml_audio.h` 194-207) over bands `i .. i+n-1`, updating `output` in place. -/
def cLoop (input : List K) (starts stops : List Nat) (lut : List K) : (n i offset : Nat) → (output : List K) → Option (List K)
  | 0, _, _, output => some output
  | n + 1, i, offset, output =>
    (starts[i]?).bind fun start => (stops[i]?).bind fun stop => (output[i]?).bind fun o =>
    (bandLoop input lut (stop + 1 - start) start offset o).bind fun r =>
    cLoop input starts stops lut n (i + 1) r.2 (output.set i r.1)

/-- `eml_sparse_filterbank(input, output, output_length, starts, stops, lut)` (`eml_audio.h` 184-210):
zero the output, then accumulate. -/
def cFilterbank (input output : List K) (starts stops : List Nat) (lut : List K) : Option (List K) :=
  cLoop input starts stops lut output.length 0 0 (output.map fun _ => 0)

end Emlearn.Filterbank
