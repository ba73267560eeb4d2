import Mathlib.Algebra.Order.Field.Basic
import Mathlib.Algebra.Order.Ring.Abs
/-!
# Binary floating-point numbers, as a set of values

`IsFloat p emin x`: `x` is a value of the binary format with `p` significand bits and least
exponent `emin` (subnormals included, no largest exponent: overflow is not described).
binary64 is `p = 53`, `emin = -1074`.
-/
namespace Ufunclab.Float
variable {K : Type _} [Field K] [LinearOrder K]

def IsFloat (p : ℕ) (emin : ℤ) (x : K) : Prop :=
  ∃ m e : ℤ, |m| < 2 ^ p ∧ emin ≤ e ∧ x = (m : K) * 2 ^ e

/-- `rd` rounds to a nearest value of the format (any rule for ties). -/
def Nearest (p : ℕ) (emin : ℤ) (rd : K → K) : Prop :=
  ∀ z, IsFloat p emin (rd z) ∧ ∀ y, IsFloat p emin y → |rd z - z| ≤ |y - z|

end Ufunclab.Float
