import Verif.Model.XF
import Mathlib.Analysis.SpecialFunctions.Exp
import Mathlib.Analysis.SpecialFunctions.Log.Basic
import Mathlib.Analysis.SpecialFunctions.Pow.Real
import Mathlib.Analysis.SpecialFunctions.Sqrt
/-!
# Models of src/yeo_johnson, src/logistic, src/ramp, src/semivar

Exact real arithmetic; the library functions are the real functions.  Arguments are finite
reals; a result type `XF ℝ` is used where the code returns NaN or infinity.
-/
namespace Ufunclab.Scalar
open Real

/-- C `expm1`. -/
noncomputable def expm1 (x : ℝ) : ℝ := exp x - 1
/-- C `log1p`. -/
noncomputable def log1p (x : ℝ) : ℝ := log (1 + x)

/-- `yeo_johnson`, src/yeo_johnson/yeo_johnson.h lines 7-26. -/
noncomputable def yeoJohnson (x lmbda : ℝ) : ℝ :=
  if x ≥ 0 then
    if lmbda = 0 then log1p x
    else expm1 (lmbda * log1p x) / lmbda
  else
    if lmbda = 2 then -log1p (-x)
    else -expm1 ((2 - lmbda) * log1p (-x)) / (2 - lmbda)

/-- `inv_yeo_johnson`, lines 28-60. -/
noncomputable def invYeoJohnson (x lmbda : ℝ) : XF ℝ :=
  if x ≥ 0 then
    if lmbda = 0 then .fin (expm1 x)
    else if lmbda < 0 ∧ x ≥ -1 / lmbda then
      if x > -1 / lmbda then .nan else .pinf
    else .fin (expm1 (log1p (lmbda * x) / lmbda))
  else
    if lmbda = 2 then .fin (-expm1 (-x))
    else if lmbda > 2 ∧ x ≤ 1 / (2 - lmbda) then
      if x < 1 / (2 - lmbda) then .nan else .ninf
    else .fin (-expm1 (log1p (-(2 - lmbda) * x) / (2 - lmbda)))

/-- `logistic`, src/logistic/logistic.h lines 7-11. -/
noncomputable def logistic (x : ℝ) : ℝ := 1 / (1 + exp (-x))

/-- `logistic_deriv`, lines 14-18. -/
noncomputable def logisticDeriv (x : ℝ) : ℝ := logistic x * logistic (-x)

/-- `log_logistic`, lines 21-30. -/
noncomputable def logLogistic (x : ℝ) : ℝ :=
  if x < 0 then x - log1p (exp x) else -log1p (exp (-x))

/-- `swish`, lines 33-37. -/
noncomputable def swish (x beta : ℝ) : ℝ := x * logistic (beta * x)

/-- `std_hyperbolic_ramp`, src/ramp/ramp.h lines 20-41. -/
noncomputable def stdHyperbolicRamp (x : ℝ) : ℝ :=
  if x = 0 then 1
  else
    let z := x / 2
    if z ≥ 1 then z * (1 + √(1 + 1 / (z * z)))
    else if z > 0 then z + √(z * z + 1)
    else if z > -1 then 1 / (√(z * z + 1) - z)
    else -1 / z / (√(1 + 1 / (z * z)) + 1)

/-- `hyperbolic_ramp`, lines 59-69. -/
noncomputable def hyperbolicRamp (x a : ℝ) : XF ℝ :=
  if a = 0 then (if x < 0 then .fin 0 else .fin x)
  else if a < 0 then .nan
  else .fin (a * stdHyperbolicRamp (x / a))

/-- `std_exponential_ramp`, lines 79-91 (the constant LN2 is exact). -/
noncomputable def stdExponentialRamp (x : ℝ) : ℝ :=
  if x = 0 then 1
  else if x > 0 then x + log1p ((2 : ℝ) ^ (-x)) / log 2
  else log1p ((2 : ℝ) ^ x) / log 2

/-- `exponential_ramp`, lines 94-104. -/
noncomputable def exponentialRamp (x a : ℝ) : XF ℝ :=
  if a = 0 then (if x < 0 then .fin 0 else .fin x)
  else if a < 0 then .nan
  else .fin (a * stdExponentialRamp (x / a))

/-- `semivar_exponential`, src/semivar/semivar.h lines 6-10. -/
noncomputable def semivarExponential (h nugget sill range : ℝ) : ℝ :=
  nugget + (sill - nugget) * (1 - exp (-3 * h / range))

/-- `semivar_linear`, lines 12-25. -/
noncomputable def semivarLinear (h nugget sill range : ℝ) : ℝ :=
  if h > range then sill
  else
    let slope := (sill - nugget) / range
    nugget + slope * h

/-- `semivar_spherical`, lines 27-40. -/
noncomputable def semivarSpherical (h nugget sill range : ℝ) : ℝ :=
  if h > range then sill
  else
    let hor := h / range
    nugget + (sill - nugget) * (hor / 2) * (3 - hor * hor)

/-- `semivar_parabolic`, lines 42-55. -/
noncomputable def semivarParabolic (h nugget sill range : ℝ) : ℝ :=
  if h > range then sill
  else
    let hor := h / range
    nugget + (sill - nugget) * hor * (2 - hor)

end Ufunclab.Scalar
