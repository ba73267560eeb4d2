import Verif.Model.Normal
/-!
# Model of src/normal/normal.h, with rounding

`rT` is the rounding of the type `T`, `rL` that of `long double`; `er`, `lg`, `l1` are the library functions
`erfc`, `log` and `log1p` of `T`, and `ecx` is the function `erfcx` of `T` (Verif/Model/Erfcx.lean).  The constant
`RECIP_SQRT2` is a `long double`: the product with it is computed in `long double` and converted to `T`.
Negation is exact.  One zero; overflow and excess precision are not modelled.
-/
namespace Ufunclab.Normal

/-- `RECIP_SQRT2`, src/normal/normal.h line 8. -/
noncomputable def recipSqrt2R (rL : ℝ → ℝ) : ℝ := rL (7071067811865475244008443621048490393 / 10 ^ 37)

/-- `T x2 = x * RECIP_SQRT2`, lines 18 and 65. -/
noncomputable def scaledR (rT rL : ℝ → ℝ) (x : ℝ) : ℝ := rT (rL (x * recipSqrt2R rL))

/-- `normal_cdf`, lines 11-25, for a number. -/
noncomputable def cdfR (rT rL er : ℝ → ℝ) (x : ℝ) : ℝ :=
  let x2 := scaledR rT rL x
  if x2 > 0 then rT (1 - rT (er x2 / 2)) else rT (er (-x2) / 2)

/-- `normal_sf`, lines 33-38. -/
noncomputable def sfR (rT rL er : ℝ → ℝ) (x : ℝ) : ℝ := cdfR rT rL er (-x)

/-- `normal_logcdf`, lines 62-72, for a number. -/
noncomputable def logcdfR (rT rL er lg l1 : ℝ → ℝ) (ecx : XF ℝ → XF ℝ) (x : ℝ) : XF ℝ :=
  let t := scaledR rT rL x
  if x < -1 then
    match ecx (.fin (-t)) with
    | .fin v => .fin (rT (lg (rT (v / 2)) - rT (t * t)))
    | .pinf => .pinf
    | .ninf => .nan
    | .nan => .nan
  else .fin (l1 (rT (-er t / 2)))

/-- `normal_logsf`, lines 79-84. -/
noncomputable def logsfR (rT rL er lg l1 : ℝ → ℝ) (ecx : XF ℝ → XF ℝ) (x : ℝ) : XF ℝ := logcdfR rT rL er lg l1 ecx (-x)

end Ufunclab.Normal
