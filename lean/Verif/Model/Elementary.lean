import Verif.Model.XF
import Verif.Model.Mem
import Mathlib.Analysis.SpecialFunctions.Pow.Real
import Mathlib.Analysis.SpecialFunctions.Sqrt
/-!
# Models of src/abs_squared, src/abssq, src/hypot3, src/nan_to_num, src/pow1pm1

Exact real arithmetic with NaN and infinities; the library functions are the real functions
with the special values of the C standard.  One zero (no signed zeros).
-/
namespace Ufunclab.Elementary
open XF

/-- `abs_squared` for a real argument, src/abs_squared/abs_squared.h lines 6-10. -/
def absSquared {K : Type _} [Field K] [LinearOrder K] (x : XF K) : XF K := mul x x

/-- `abs_squared` for a complex argument (real part, imaginary part), lines 12-16. -/
def absSquaredC {K : Type _} [Field K] [LinearOrder K] (z : XF K × XF K) : XF K :=
  add (mul z.1 z.1) (mul z.2 z.2)

/-- C++17 `std::hypot(x, y, z)` for arguments that are not infinite: NaN if one is NaN. -/
noncomputable def stdHypot : XF ℝ → XF ℝ → XF ℝ → XF ℝ
  | .fin x, .fin y, .fin z => .fin (√(x * x + y * y + z * z))
  | _, _, _ => .nan

/-- `hypot3`, src/hypot3/hypot3.h lines 8-25. -/
noncomputable def hypot3 (x y z : XF ℝ) : XF ℝ :=
  if isinf x || isinf y || isinf z then .pinf
  else stdHypot x y z

/-- `nan_to_num`, src/nan_to_num/nan_to_num.h lines 6-10. -/
def nanToNum {K : Type _} (x replacement : XF K) : XF K :=
  if isnan x then replacement else x

/-- C `log1p`: NaN below -1, -inf at -1. -/
noncomputable def xlog1p : XF ℝ → XF ℝ
  | .fin a => if a < -1 then .nan else if a = -1 then .ninf else .fin (Real.log (1 + a))
  | .pinf => .pinf
  | _ => .nan

/-- C `expm1`. -/
noncomputable def xexpm1 : XF ℝ → XF ℝ
  | .fin a => .fin (Real.exp a - 1)
  | .pinf => .pinf
  | .ninf => .fin (-1)
  | .nan => .nan

/-- `pow1pm1`, src/pow1pm1/pow1pm1.h lines 11-18. -/
noncomputable def pow1pm1 (x y : XF ℝ) : XF ℝ :=
  if XF.eq x (.fin (-1)) && XF.eq y (.fin 0) then .fin 0
  else xexpm1 (mul y (xlog1p x))

/-! ## The hand-written inner loops of `abssq`

`sz` is `sizeof(Real)`; a complex number occupies the cells at `p` and `p + sz`.  The
arithmetic is any type with `+` and `*`. -/

section Abssq
variable {α : Type _} [Add α] [Mul α]

/-- `abssq_real_contig`, src/abssq/abssq_ufunc.cpp lines 19-26; `i` is the loop variable, `n`
the number of iterations left. -/
def abssqRealContig (sz pin pout : Int) : (n i : Nat) → Mem α → Mem α
  | 0, _, m => m
  | n + 1, i, m =>
    abssqRealContig sz pin pout n (i + 1) (set m pout sz i (get m pin sz i * get m pin sz i))

/-- The strided loop of `abssq_real_loop`, lines 41-44. -/
def abssqRealStrided (is os : Int) : (n : Nat) → (pin pout : Int) → Mem α → Mem α
  | 0, _, _, m => m
  | n + 1, pin, pout, m =>
    abssqRealStrided is os n (pin + is) (pout + os) (m.store pout (m pin * m pin))

/-- `abssq_real_loop`, lines 28-45. -/
def abssqReal (sz : Int) (n : Nat) (pin is pout os : Int) (m : Mem α) : Mem α :=
  if is = sz ∧ os = sz then abssqRealContig sz pin pout n 0 m
  else abssqRealStrided is os n pin pout m

/-- `abssq_complex_contig`, lines 47-54. -/
def abssqComplexContig (sz pin pout : Int) : (n i : Nat) → Mem α → Mem α
  | 0, _, m => m
  | n + 1, i, m =>
    abssqComplexContig sz pin pout n (i + 1)
      (set m pout sz i (get m pin sz (2 * i) * get m pin sz (2 * i)
        + get m pin sz (2 * i + 1) * get m pin sz (2 * i + 1)))

/-- The strided loop of `abssq_complex_loop`, lines 69-73. -/
def abssqComplexStrided (sz is os : Int) : (n : Nat) → (pin pout : Int) → Mem α → Mem α
  | 0, _, _, m => m
  | n + 1, pin, pout, m =>
    abssqComplexStrided sz is os n (pin + is) (pout + os)
      (m.store pout (m pin * m pin + m (pin + sz) * m (pin + sz)))

/-- `abssq_complex_loop`, lines 56-74. -/
def abssqComplex (sz : Int) (n : Nat) (pin is pout os : Int) (m : Mem α) : Mem α :=
  if is = 2 * sz ∧ os = sz then abssqComplexContig sz pin pout n 0 m
  else abssqComplexStrided sz is os n pin pout m

end Abssq

end Ufunclab.Elementary
