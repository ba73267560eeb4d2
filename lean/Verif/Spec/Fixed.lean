import Mathlib.Data.Real.Basic
/-!
# Fixed-point numbers

`Fixed e x`: `x` is an integer multiple of `2^e`; with `e = 0` it is an integer, with `e = -2` an
integer number of quarters.
-/
namespace Ufunclab.Float

def Fixed {K : Type _} [Field K] (e : ℤ) (x : K) : Prop := ∃ n : ℤ, x = (n : K) * 2 ^ e

end Ufunclab.Float
