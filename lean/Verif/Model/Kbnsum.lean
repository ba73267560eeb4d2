import Verif.Model.XF
import Verif.Model.Mem
/-!
# Model of src/kbnsum/kbnsum_gufunc.h

Arithmetic with NaN and infinities on a memory.  Every addition and subtraction is the exact
one followed by the rounding `r` of the type: `r = id` is exact arithmetic, `r = rnd rd` rounds the
finite results with `rd` and leaves overflow out, and `Float.ov rd Ω` (Spec/Overflow) has both.  Only the real branch of `KBNSummer` is modelled
(kbnsum is instantiated for 'f', 'd', 'g' only).
-/
namespace Ufunclab.Kbnsum
variable {K : Type _} [Field K] [LinearOrder K]

/-- The rounding of finite results. -/
def rnd (rd : K → K) : XF K → XF K
  | .fin v => .fin (rd v)
  | v => v

/-- `a + b` in the floating-point type. -/
def fadd (r : XF K → XF K) (a b : XF K) : XF K := r (XF.add a b)

/-- `a - b` in the floating-point type. -/
def fsub (r : XF K → XF K) (a b : XF K) : XF K := r (XF.sub a b)

/-- `KBNSummer::operator+=`, lines 66-92 (real branch): `(_acc, _c)`. -/
def push (r : XF K → XF K) (s : XF K × XF K) (x : XF K) : XF K × XF K :=
  let t := fadd r s.1 x
  let c := if XF.ge (XF.abs s.1) (XF.abs x) then fadd r s.2 (fadd r (fsub r s.1 t) x)
           else fadd r s.2 (fadd r (fsub r x t) s.1)
  (t, c)

/-- Lines 122-130: the scan after an infinity was found.  `p_x[j]` is the cell at
`p + j*w`, `w` the item size: the stride is not used. -/
def infScan (r : XF K → XF K) (m : Mem (XF K)) (p w : Int) (xk : XF K) : (fuel j : Nat) → XF K
  | 0, _ => xk
  | fuel + 1, j =>
    if XF.isnan (fadd r xk (m (p + (j : Int) * w))) then .nan else infScan r m p w xk fuel (j + 1)

/-- The loop of `kbnsum_core_calc`, lines 115-135. -/
def loop (r : XF K → XF K) (m : Mem (XF K)) (p stride w : Int) : (fuel k : Nat) → XF K × XF K → XF K
  | 0, _, s => fadd r s.1 s.2
  | fuel + 1, k, s =>
    let xk := get m p stride k
    if XF.isnan xk then xk
    else if XF.isinf xk then infScan r m p w xk fuel (k + 1)
    else loop r m p stride w fuel (k + 1) (push r s xk)

/-- `kbnsum_core_calc`, lines 107-136. -/
def kbnsum (r : XF K → XF K) (m : Mem (XF K)) (p stride w : Int) (n : Nat) : XF K :=
  loop r m p stride w n 0 (.fin 0, .fin 0)

end Ufunclab.Kbnsum
