import Verif.Model.Unwrap
import Mathlib.Data.Real.Archimedean
/-!
# Model of src/unwrap/unwrap_gufunc.h, with rounding

`rd` is the rounding of the element type, `rs` that of the sum in line 22: `copysign(0.5, delta)` is a
`double` when `T` is `float`, so the sum is done in `double` then.  Overflow of the operations is not
described.  `none`: the conversion of a number to `int` that does not fit (undefined behaviour).
-/
namespace Ufunclab.Unwrap

def rndX (rd : ℝ → ℝ) : XF ℝ → XF ℝ
  | .fin v => .fin (rd v)
  | v => v

/-- `unwrap1`, lines 18-24; in line 23 the integer `q` is converted to the element type. -/
noncomputable def unwrap1R (rd rs : ℝ → ℝ) (x0 x1 period : XF ℝ) : Option (XF ℝ) :=
  let delta := rndX rd (XF.sub x1 x0)
  match toInt32 (rndX rs (XF.add (rndX rd (XF.div delta period)) (copysignHalf delta))) with
  | none => none
  | some q => some (rndX rd (XF.sub x1 (rndX rd (XF.mul (rndX rd (.fin (q : ℝ))) period))))

/-- The loop of `unwrap_core`, lines 43-56. -/
noncomputable def unwrapLoopR (rd rs : ℝ → ℝ) (period : XF ℝ) : XF ℝ → List (XF ℝ) → Option (List (XF ℝ))
  | _, [] => some []
  | x0, x1 :: xs =>
    if !XF.isfinite x1 then some (List.replicate (xs.length + 1) .nan)
    else match unwrap1R rd rs x0 x1 period with
      | none => none
      | some x1' => match unwrapLoopR rd rs period x1' xs with
        | none => none
        | some r => some (x1' :: r)

/-- `unwrap_core`, lines 26-57. -/
noncomputable def unwrapCoreR (rd rs : ℝ → ℝ) (period : XF ℝ) : List (XF ℝ) → Option (List (XF ℝ))
  | [] => some []
  | x0 :: xs => match unwrapLoopR rd rs period x0 xs with
    | none => none
    | some r => some (x0 :: r)

end Ufunclab.Unwrap
