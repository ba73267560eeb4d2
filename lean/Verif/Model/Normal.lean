import Verif.Model.Elementary
import Verif.Model.Means
import Mathlib.Analysis.SpecialFunctions.Gaussian.GaussianIntegral
/-!
# Model of src/normal/normal.h

Exact real arithmetic with NaN and infinities; the library functions are the real functions with
the special values of the C standard; the constant `RECIP_SQRT2` is `1/√2`.  `erfcx` (the
generated file src/normal/erfcx_funcs.cxx) is taken here at its documented meaning
`exp(x²) erfc(x)`.
-/
namespace Ufunclab.Normal
open XF MeasureTheory

/-- The complementary error function (C `erfc`): `2/√π ∫_x^∞ exp(-t²) dt`. -/
noncomputable def erfc (x : ℝ) : ℝ := 2 / √Real.pi * ∫ t in Set.Ioi x, Real.exp (-t ^ 2)

/-- `erfcx(x) = exp(x²) erfc(x)`, as documented in src/normal/erfcx_funcs.cxx lines 6-8. -/
noncomputable def erfcx (x : ℝ) : ℝ := Real.exp (x ^ 2) * erfc x

/-- C `erfc` on all floats. -/
noncomputable def xerfc : XF ℝ → XF ℝ
  | .fin a => .fin (erfc a)
  | .pinf => .fin 0
  | .ninf => .fin 2
  | .nan => .nan

/-- `erfcx` on all floats (for `+inf` the continued fraction gives `ispi / inf = 0`). -/
noncomputable def xerfcx : XF ℝ → XF ℝ
  | .fin a => .fin (erfcx a)
  | .pinf => .fin 0
  | .ninf => .pinf
  | .nan => .nan

/-- `RECIP_SQRT2`, line 8. -/
noncomputable def recipSqrt2 : XF ℝ := .fin (1 / √2)

/-- `normal_cdf`, src/normal/normal.h lines 11-25. -/
noncomputable def cdf (x : XF ℝ) : XF ℝ :=
  if isnan x then .nan
  else
    let x2 := mul x recipSqrt2
    if gt x2 (.fin 0) then sub (.fin 1) (div (xerfc x2) (.fin 2))
    else div (xerfc (neg x2)) (.fin 2)

/-- `normal_sf`, lines 33-38. -/
noncomputable def sf (x : XF ℝ) : XF ℝ := cdf (neg x)

/-- `normal_logcdf`, lines 62-72. -/
noncomputable def logcdf (x : XF ℝ) : XF ℝ :=
  let t := mul x recipSqrt2
  if lt x (.fin (-1)) then sub (Means.xlog (div (xerfcx (neg t)) (.fin 2))) (mul t t)
  else Elementary.xlog1p (div (neg (xerfc t)) (.fin 2))

/-- `normal_logsf`, lines 79-84. -/
noncomputable def logsf (x : XF ℝ) : XF ℝ := logcdf (neg x)

end Ufunclab.Normal
