import Verif.Model.Fillnan
import Mathlib.Data.Real.Basic
/-!
# Model of the interpolation of src/fillnan1d/fillnan1d_gufunc.h, with rounding

`rl` is the rounding of `long double`, `rt` that of the element type `T`.  The counts `i` and
`k - left_index` are taken to be exact in `long double` (they are below `2^63`; true of the 80-bit and the
128-bit format, and of a 64-bit `long double` up to `2^53`).  Overflow of a conversion or of `x - left_value`
is not described.
-/
namespace Ufunclab.Fillnan

def rnd (rd : ℝ → ℝ) : XF ℝ → XF ℝ
  | .fin v => .fin (rd v)
  | v => v

/-- Line 50: `slope`, and line 53: `static_cast<T>(left_value + i*slope)`. -/
noncomputable def xlerpR (rl rt : ℝ → ℝ) (left right : XF ℝ) (i d : Nat) : XF ℝ :=
  let slope := rnd rl (XF.div (rnd rl (XF.sub right left)) (.fin (d : ℝ)))
  rnd rt (rnd rl (XF.add left (rnd rl (XF.mul (.fin (i : ℝ)) slope))))

end Ufunclab.Fillnan
