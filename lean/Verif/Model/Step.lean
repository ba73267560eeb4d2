import Verif.Model.XF
import Mathlib.Analysis.SpecialFunctions.Trigonometric.Inverse
/-! # Model of src/step/step.h

Floats are `XF ℝ` (exact reals with NaN and infinities). -/
namespace Ufunclab.Step

/-- `step`, lines 10-22. -/
noncomputable def step (x a flow fa fhigh : XF ℝ) : XF ℝ :=
  if x.lt a then flow else if x.gt a then fhigh else fa

/-- `linearstep`, lines 24-41. -/
noncomputable def linearstep (x a b fa fb : XF ℝ) : XF ℝ :=
  if a.gt b then .nan
  else if x.le a then fa
  else if x.ge b then fb
  else if a.eq b then (fa.add fb).div (.fin 2)
  else
    let u := (x.sub a).div (b.sub a)
    (fa.mul (XF.sub (.fin 1) u)).add (fb.mul u)

/-- `smoothstep3`, lines 51-68. -/
noncomputable def smoothstep3 (x a b fa fb : XF ℝ) : XF ℝ :=
  if a.gt b then .nan
  else if x.le a then fa
  else if x.ge b then fb
  else if a.eq b then (fa.add fb).div (.fin 2)
  else
    let u := (x.sub a).div (b.sub a)
    fa.add ((((fb.sub fa).mul u).mul u).mul (XF.sub (.fin 3) (XF.mul (.fin 2) u)))

/-- `smoothstep5`, lines 103-120. -/
noncomputable def smoothstep5 (x a b fa fb : XF ℝ) : XF ℝ :=
  if a.gt b then .nan
  else if x.le a then fa
  else if x.ge b then fb
  else if a.eq b then (fa.add fb).div (.fin 2)
  else
    let u := (x.sub a).div (b.sub a)
    fa.add (((((fb.sub fa).mul u).mul u).mul u).mul
      ((u.mul ((XF.mul (.fin 6) u).sub (.fin 15))).add (.fin 10)))

/-- `invsmoothstep3`, lines 70-100, on finite arguments (`sin` and `asin` are the real
functions, so the special values of the library functions are not modelled). -/
noncomputable def invsmoothstep3 (y a b fa fb : ℝ) : XF ℝ :=
  if fa = fb then .nan
  else if y = fa then .fin a
  else if y = fb then .fin b
  else
    let upper := if fa < fb then fb else fa
    let lower := if fa < fb then fa else fb
    if y > upper ∨ y < lower then .nan
    else
      let t := (y - fa) / (fb - fa)
      let s := 0.5 - Real.sin (Real.arcsin (1 - 2 * t) / 3)
      .fin (a + (b - a) * s)

/-! ## The same functions with rounding

Finite arguments; `rd` rounds every operation of type `T` (no excess precision, no fused multiply-add, no overflow). -/

/-- `linearstep`, lines 24-41, with rounding. -/
noncomputable def linearstepR (rd : ℝ → ℝ) (x a b fa fb : ℝ) : XF ℝ :=
  if a > b then .nan
  else if x ≤ a then .fin fa
  else if x ≥ b then .fin fb
  else if a = b then .fin (rd (rd (fa + fb) / 2))
  else
    let u := rd (rd (x - a) / rd (b - a))
    .fin (rd (rd (fa * rd (1 - u)) + rd (fb * u)))

/-- `smoothstep3`, lines 51-68, with rounding. -/
noncomputable def smoothstep3R (rd : ℝ → ℝ) (x a b fa fb : ℝ) : XF ℝ :=
  if a > b then .nan
  else if x ≤ a then .fin fa
  else if x ≥ b then .fin fb
  else if a = b then .fin (rd (rd (fa + fb) / 2))
  else
    let u := rd (rd (x - a) / rd (b - a))
    .fin (rd (fa + rd (rd (rd (rd (fb - fa) * u) * u) * rd (3 - rd (2 * u)))))

/-- `smoothstep5`, lines 103-120, with rounding. -/
noncomputable def smoothstep5R (rd : ℝ → ℝ) (x a b fa fb : ℝ) : XF ℝ :=
  if a > b then .nan
  else if x ≤ a then .fin fa
  else if x ≥ b then .fin fb
  else if a = b then .fin (rd (rd (fa + fb) / 2))
  else
    let u := rd (rd (x - a) / rd (b - a))
    .fin (rd (fa + rd (rd (rd (rd (rd (fb - fa) * u) * u) * u) * rd (rd (u * rd (rd (6 * u) - 15)) + 10))))

end Ufunclab.Step
