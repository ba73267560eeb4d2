import Verif.Model.Scalar
import Verif.Spec.Overflow
/-!
# Models of src/logistic, src/ramp, src/semivar, src/yeo_johnson and src/pow1pm1, with rounding

`rd` is the rounding of the type `T`; `ex`, `l1`, `em` are the library functions `exp`, `log1p` and `expm1`.
Negation is exact.  One zero; fused multiply-add and excess precision are not modelled.
-/
namespace Ufunclab.Scalar
open Ufunclab.Float

/-- `logistic`, src/logistic/logistic.h lines 7-11: `1 / (1 + std::exp(-x))`. -/
noncomputable def logisticR (rd ex : ℝ → ℝ) (x : ℝ) : ℝ := rd (1 / rd (1 + ex (-x)))

/-- `logistic_deriv`, lines 14-18: `logistic(x) * logistic(-x)`. -/
noncomputable def logisticDerivR (rd ex : ℝ → ℝ) (x : ℝ) : ℝ := rd (logisticR rd ex x * logisticR rd ex (-x))

/-- `log_logistic`, lines 21-30. -/
noncomputable def logLogisticR (rd ex l1 : ℝ → ℝ) (x : ℝ) : ℝ :=
  if x < 0 then rd (x - l1 (ex x)) else -l1 (ex (-x))

/-- `swish`, lines 33-37: `x * logistic(beta * x)`. -/
noncomputable def swishR (rd ex : ℝ → ℝ) (x beta : ℝ) : ℝ := rd (x * logisticR rd ex (rd (beta * x)))

/-- `logistic`, lines 7-11, in a format with largest number `Ω`; the result of `exp` is infinite beyond `Ω`. -/
noncomputable def logisticO (rd : ℝ → ℝ) (Ω : ℝ) (ex : ℝ → ℝ) (x : ℝ) : XF ℝ :=
  ov rd Ω (XF.div (.fin 1) (ov rd Ω (XF.add (.fin 1) (ov rd Ω (.fin (ex (-x)))))))

/-- `std_hyperbolic_ramp`, src/ramp/ramp.h lines 20-41.  The literal `1.0` is a `double`: for `T = float` the
operations it takes part in, and those on their results, are done in `double` (`rD`), and the value returned
is converted to `T` (`rT`); for `double` and `long double` the two are the same rounding. -/
noncomputable def stdHyperbolicRampR (rT rD : ℝ → ℝ) (x : ℝ) : ℝ :=
  if x = 0 then 1
  else
    let z := rT (x / 2)
    if z ≥ 1 then rT (rD (z * rD (1 + rD (√(rD (1 + rD (1 / rT (z * z))))))))
    else if z > 0 then rT (z + rT (√(rT (rT (z * z) + 1))))
    else if z > -1 then rT (rD (1 / rT (rT (√(rT (rT (z * z) + 1))) - z)))
    else rT (rD (rD (-1 / z) / rD (rD (√(rD (1 + rD (1 / rT (z * z))))) + 1)))

/-- `hyperbolic_ramp`, lines 59-69. -/
noncomputable def hyperbolicRampR (rT rD : ℝ → ℝ) (x a : ℝ) : XF ℝ :=
  if a = 0 then (if x < 0 then .fin 0 else .fin x)
  else if a < 0 then .nan
  else .fin (rT (a * stdHyperbolicRampR rT rD (rT (x / a))))

/-- `std_exponential_ramp`, lines 79-91: `pw y` is `pow(2.0L, y)`, `l1` is `log1p`, both for `long double`
(rounding `rL`); `ln2` is the constant `LN2`. -/
noncomputable def stdExponentialRampR (rT rL pw l1 : ℝ → ℝ) (ln2 x : ℝ) : ℝ :=
  if x = 0 then 1
  else if x > 0 then rT (rL (x + rL (l1 (pw (-x)) / ln2)))
  else rT (rL (l1 (pw x) / ln2))

/-- `exponential_ramp`, lines 94-104. -/
noncomputable def exponentialRampR (rT rL pw l1 : ℝ → ℝ) (ln2 x a : ℝ) : XF ℝ :=
  if a = 0 then (if x < 0 then .fin 0 else .fin x)
  else if a < 0 then .nan
  else .fin (rT (a * stdExponentialRampR rT rL pw l1 ln2 (rT (x / a))))

/-- `yeo_johnson`, src/yeo_johnson/yeo_johnson.h lines 7-26. -/
noncomputable def yeoJohnsonR (rd l1 em : ℝ → ℝ) (x lmbda : ℝ) : ℝ :=
  if x ≥ 0 then
    if lmbda = 0 then l1 x
    else rd (em (rd (lmbda * l1 x)) / lmbda)
  else
    if lmbda = 2 then -l1 (-x)
    else rd (-em (rd (rd (2 - lmbda) * l1 (-x))) / rd (2 - lmbda))

/-- `inv_yeo_johnson`, lines 28-60.  `log1p` is NaN below -1 and `-∞` at -1; then the quotient by the (negative)
divisor is `+∞` and so is `expm1` of it. -/
noncomputable def invYeoJohnsonR (rd l1 em : ℝ → ℝ) (x lmbda : ℝ) : XF ℝ :=
  if x ≥ 0 then
    if lmbda = 0 then .fin (em x)
    else if lmbda < 0 ∧ x ≥ rd (-1 / lmbda) then
      if x > rd (-1 / lmbda) then .nan else .pinf
    else if rd (lmbda * x) < -1 then .nan
    else if rd (lmbda * x) = -1 then .pinf
    else .fin (em (rd (l1 (rd (lmbda * x)) / lmbda)))
  else
    if lmbda = 2 then .fin (-em (-x))
    else if lmbda > 2 ∧ x ≤ rd (1 / rd (2 - lmbda)) then
      if x < rd (1 / rd (2 - lmbda)) then .nan else .ninf
    else if rd (-rd (2 - lmbda) * x) < -1 then .nan
    else if rd (-rd (2 - lmbda) * x) = -1 then .ninf
    else .fin (-em (rd (l1 (rd (-rd (2 - lmbda) * x)) / rd (2 - lmbda))))

/-- `pow1pm1`, src/pow1pm1/pow1pm1.h lines 11-18, for `x > -1`, or `x = -1` and `y = 0` (otherwise `log1p` is not
finite; not modelled). -/
noncomputable def pow1pm1R (rd l1 em : ℝ → ℝ) (x y : ℝ) : ℝ :=
  if x = -1 ∧ y = 0 then 0 else em (rd (y * l1 x))

/-- `semivar_exponential`, src/semivar/semivar.h lines 6-10. -/
noncomputable def semivarExponentialR (rd ex : ℝ → ℝ) (h nugget sill range : ℝ) : ℝ :=
  rd (nugget + rd (rd (sill - nugget) * rd (1 - ex (rd (rd (-3 * h) / range)))))

/-- `semivar_linear`, lines 12-25. -/
noncomputable def semivarLinearR (rd : ℝ → ℝ) (h nugget sill range : ℝ) : ℝ :=
  if h > range then sill
  else
    let slope := rd (rd (sill - nugget) / range)
    rd (nugget + rd (slope * h))

/-- `semivar_spherical`, lines 27-40.  The literals are of type `double`: the operations they take part in, and those
on their results, are done with `rD`, and the value is converted to `Real` (`rT`). -/
noncomputable def semivarSphericalR (rT rD : ℝ → ℝ) (h nugget sill range : ℝ) : ℝ :=
  if h > range then sill
  else
    let hor := rT (h / range)
    rT (rD (nugget + rD (rD (rT (sill - nugget) * rD (hor / 2)) * rD (3 - rT (hor * hor)))))

/-- `semivar_parabolic`, lines 42-55, likewise. -/
noncomputable def semivarParabolicR (rT rD : ℝ → ℝ) (h nugget sill range : ℝ) : ℝ :=
  if h > range then sill
  else
    let hor := rT (h / range)
    rT (rD (nugget + rD (rT (rT (sill - nugget) * hor) * rD (2 - hor))))

end Ufunclab.Scalar
