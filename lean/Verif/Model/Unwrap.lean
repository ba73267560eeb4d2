import Verif.Model.XF
import Mathlib.Algebra.Order.Floor.Ring
/-!
# Model of src/unwrap/unwrap_gufunc.h

Exact arithmetic with NaN and infinities.  `none` stands for undefined
behaviour: the conversion of a non-finite or too large number to `int`
(32 bits) in line 22.
-/
namespace Ufunclab.Unwrap
variable {K : Type _} [Field K] [LinearOrder K] [FloorRing K]

/-- Conversion of a real number to an integer, truncating toward zero. -/
def trunc (r : K) : Int := if 0 ≤ r then ⌊r⌋ else ⌈r⌉

/-- `static_cast<int>(v)`: `none` if the truncated value is not an `int`. -/
def toInt32 : XF K → Option Int
  | .fin r => if -(2 ^ 31) ≤ trunc r ∧ trunc r < 2 ^ 31 then some (trunc r) else none
  | _ => none

/-- `std::copysign(0.5, delta)`; the sign of a NaN is irrelevant (the sum it is
used in is NaN). -/
def copysignHalf (delta : XF K) : XF K :=
  if XF.lt delta (.fin 0) then .fin (-(1 / 2)) else .fin (1 / 2)

/-- `unwrap1`, lines 18-24. -/
def unwrap1 (x0 x1 period : XF K) : Option (XF K) :=
  let delta := XF.sub x1 x0
  match toInt32 (XF.add (XF.div delta period) (copysignHalf delta)) with
  | none => none
  | some q => some (XF.sub x1 (XF.mul (.fin (q : K)) period))

/-- The loop of `unwrap_core`, lines 43-56, producing the outputs from index `k` on. -/
def unwrapLoop (period : XF K) : XF K → List (XF K) → Option (List (XF K))
  | _, [] => some []
  | x0, x1 :: xs =>
    if !XF.isfinite x1 then some (List.replicate (xs.length + 1) .nan)
    else match unwrap1 x0 x1 period with
      | none => none
      | some x1' => match unwrapLoop period x1' xs with
        | none => none
        | some r => some (x1' :: r)

/-- `unwrap_core`, lines 26-57. -/
def unwrapCore (period : XF K) : List (XF K) → Option (List (XF K))
  | [] => some []
  | x0 :: xs => match unwrapLoop period x0 xs with
    | none => none
    | some r => some (x0 :: r)

end Ufunclab.Unwrap
