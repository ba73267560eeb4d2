import Verif.Model.Step
/-!
# Model of `invsmoothstep3` (src/step/step.h), with rounding

`rT` is the rounding of the type `T`, `rW` that of the type in which `0.5 - sin(...)` is computed: the literal is a
`double`, so for `T = float` the subtraction is done in `double` and the result converted to `float`; for `double`
and `long double` it is done in `T`.  `sn` and `as` are the library functions `std::sin` and `std::asin` of `T`.
Finite arguments; overflow, excess precision and fused multiply-add are not modelled.
-/
namespace Ufunclab.Step

/-- `invsmoothstep3`, src/step/step.h lines 70-100, with rounding. -/
noncomputable def invsmoothstep3R (rT rW sn as : ℝ → ℝ) (y a b fa fb : ℝ) : XF ℝ :=
  if fa = fb then .nan
  else if y = fa then .fin a
  else if y = fb then .fin b
  else
    let upper := if fa < fb then fb else fa
    let lower := if fa < fb then fa else fb
    if y > upper ∨ y < lower then .nan
    else
      let t := rT (rT (y - fa) / rT (fb - fa))
      let s := rT (rW (0.5 - sn (rT (as (rT (1 - rT (2 * t))) / 3))))
      .fin (rT (a + rT (rT (b - a) * s)))

end Ufunclab.Step
