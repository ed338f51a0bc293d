/- Model of the benchmark data generator in `emlearn/eml_benchmark.h`. -/
namespace Emlearn.Benchmark

/-- Arithmetic of `uint32_t`: results are taken modulo 2^32. -/
def u32 (x : Nat) : Nat := x % 2 ^ 32

/-- Subtraction of `uint32_t`. -/
def u32sub (a b : Nat) : Nat := (a + (2 ^ 32 - b)) % 2 ^ 32

/-- `eml_lcg_parkmiller`, `eml_benchmark.h` 62-74: the new state, which is also the returned value. -/
def parkmiller (state : Nat) : Nat :=
  let N := 0x7fffffff
  let G := 48271
  let div := state / (N / G)
  let rem := state % (N / G)
  let a := u32 (rem * G)
  let b := u32 (div * (N % G))
  if a > b then u32sub a b else u32 (a + u32sub N b)

/-- Loop of `eml_benchmark_fill`, `eml_benchmark.h` 80-82: `k` values remain. The conversion of each value to `float` (which rounds values
above 2^24) is not modelled: the list holds the integers before conversion. -/
def fillLoop : Nat → Nat → List Nat
  | 0, _ => []
  | k + 1, state => parkmiller state :: fillLoop k (parkmiller state)

/-- `eml_benchmark_fill(values, features)`, `eml_benchmark.h` 76-84. -/
def fill (features : Nat) : List Nat := fillLoop features 1

end Emlearn.Benchmark
