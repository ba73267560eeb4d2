import Verif.Model.Vnorm
import Verif.Spec.FloatArith
/-!
# `rms` in floating point (src/vnorm/vnorm_gufunc.h)

`Vnorm.rms`, `Vnorm.crms` and `Vnorm.vdot` are generic in the arithmetic; at `Fl rd` they are the
floating-point computations.  The square root is correctly rounded.  Fused multiply-add
(contraction of `sum += x*y` by the compiler) and overflow are not modelled.
-/
namespace Ufunclab.Vnorm
open Ufunclab.Float

/-- `std::sqrt(sum/n)`, lines 120, 146, 160 and 189; `n` is converted to the type of `sum`. -/
noncomputable def rmsFin (rd : ℝ → ℝ) (s : Fl rd) (n : Nat) : Fl rd := ⟨rd (Real.sqrt (rd (s.val / rd n)))⟩

/-- The result of an arithmetic operation, rounded; NaN and infinities are not changed (no overflow). -/
def rnd (rd : ℝ → ℝ) : XF ℝ → XF ℝ
  | .fin a => .fin (rd a)
  | s => s

/-- The library function `pow` for `b ≥ 0` or NaN and `e > 0` or NaN: on finite numbers an
arbitrary function `pw`, elsewhere as `xpow`. -/
noncomputable def xpowR (pw : ℝ → ℝ → ℝ) (b e : XF ℝ) : XF ℝ :=
  match b, e with
  | .fin a, .fin r => .fin (pw a r)
  | b, e => xpow b e

/-- `vnorm_core_calc`, lines 62-110, with the rounding `r` after every operation and the library `pow`.
`r = rnd rd` and `xpowR pw` leave overflow out. -/
noncomputable def vnormR {T : Type _} (r : XF ℝ → XF ℝ) (pow : XF ℝ → XF ℝ → XF ℝ) (absf : T → XF ℝ) (x : List T) (order : XF ℝ) : XF ℝ :=
  if XF.le order (.fin 0) then .nan
  else
    let m := maxAbs absf x
    if XF.eq m (.fin 0) then .fin 0
    else
      let sum := x.foldl (fun s v =>
        if XF.isinf order then (if XF.lt s (absf v) then absf v else s)
        else if XF.eq order (.fin 1) then r (XF.add s (absf v))
        else r (XF.add s (pow (r (XF.div (absf v) m)) order))) (.fin 0)
      if XF.isinf order || XF.eq order (.fin 1) then sum
      else r (XF.mul m (pow sum (r (XF.div (.fin 1) order))))

end Ufunclab.Vnorm
