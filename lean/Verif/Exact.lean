/- Exact arithmetic in a linearly ordered field as an instance of `FOps`. -/
import Verif.Common
import Mathlib.Algebra.Order.Field.Basic
import Mathlib.Data.Int.Cast.Lemmas
namespace Emlearn

/-- Exact arithmetic of a linearly ordered field. -/
def exactOps (K : Type) [Field K] [LinearOrder K] : FOps K where
  zero := 0
  one := 1
  add := (· + ·)
  mul := (· * ·)
  div := (· / ·)
  ofInt := fun i => (i : K)
  lt := fun a b => decide (a < b)

end Emlearn
