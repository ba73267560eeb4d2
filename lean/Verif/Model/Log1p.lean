import Verif.Model.XF
import Verif.Model.Mem
import Mathlib.Analysis.SpecialFunctions.Complex.Log
/-!
# Model of src/log1p/log1p_ufunc.c

Arithmetic with NaN and infinities; every arithmetic operator is the exact one followed by the
rounding `rd` of the type (`rd = id` is exact arithmetic; a finite result stays finite, so overflow
is not described).  The mathematical library functions `log`, `log1p`, `hypot`, `atan2`, `clog`
are the exact functions with the special values of the C standard.  One zero (no signed zeros).
A complex number is a pair (real part, imaginary part).
-/
namespace Ufunclab.Log1p
open XF

section DoubleDouble
variable {K : Type _} [Field K] [LinearOrder K]

/-- `doubledouble_t`, lines 169-174. -/
structure DD (K : Type _) where
  upper : K
  lower : K

/-- `two_sum_quick`, lines 176-183. -/
def twoSumQuick (rd : K → K) (x y : K) : DD K :=
  let r := rd (x + y)
  let e := rd (y - rd (r - x))
  ⟨r, e⟩

/-- `two_sum`, lines 185-193. -/
def twoSum (rd : K → K) (x y : K) : DD K :=
  let s := rd (x + y)
  let v := rd (s - x)
  let e := rd (rd (x - rd (s - v)) + rd (y - v))
  ⟨s, e⟩

/-- `double_sum`, lines 195-202. -/
def doubleSum (rd : K → K) (x y : DD K) : DD K :=
  let out := twoSum rd x.upper y.upper
  let lower := rd (out.lower + rd (x.lower + y.lower))
  twoSumQuick rd out.upper lower

/-- `split`, lines 218-228; `fma` says whether `FP_FAST_FMA` is defined. -/
def split (fma : Bool) (rd : K → K) (x : K) : DD K :=
  let t := rd ((2 ^ 27 + 1) * x)
  let upper := if fma then rd (-2 ^ 27 * x + t) else rd (t - rd (t - x))
  ⟨upper, rd (x - upper)⟩

/-- `square`, lines 230-239. -/
def square (fma : Bool) (rd : K → K) (x : K) : DD K :=
  let upper := rd (x * x)
  let s := split fma rd x
  let lower := rd (rd (rd (rd (s.upper * s.upper) - upper) + rd (rd (2 * s.upper) * s.lower))
    + rd (s.lower * s.lower))
  ⟨upper, lower⟩

/-- `xsquared_plus_2x_plus_ysquared`, lines 248-260. -/
def xsqPlus2xPlusYsq (fma : Bool) (rd : K → K) (x y : K) : K :=
  let x2 := square fma rd x
  let y2 := square fma rd y
  let twox : DD K := ⟨rd (2 * x), 0⟩
  let sum1 := doubleSum rd x2 twox
  let sum2 := doubleSum rd sum1 y2
  sum2.upper

end DoubleDouble

/-! ## Rounded arithmetic with special values, and the library functions -/

section Ops
variable {K : Type _} [Field K] [LinearOrder K]

/-- The rounding, applied to a finite result. -/
def rnd (rd : K → K) : XF K → XF K
  | .fin v => .fin (rd v)
  | v => v

def fadd (rd : K → K) (a b : XF K) : XF K := rnd rd (add a b)
def fsub (rd : K → K) (a b : XF K) : XF K := rnd rd (sub a b)
def fmul (rd : K → K) (a b : XF K) : XF K := rnd rd (mul a b)
def fdiv (rd : K → K) (a b : XF K) : XF K := rnd rd (div a b)

end Ops

/-- C `log`. -/
noncomputable def clogReal : XF ℝ → XF ℝ
  | .fin a => if a < 0 then .nan else if a = 0 then .ninf else .fin (Real.log a)
  | .pinf => .pinf
  | _ => .nan

/-- C `log1p`. -/
noncomputable def clog1p : XF ℝ → XF ℝ
  | .fin a => if a < -1 then .nan else if a = -1 then .ninf else .fin (Real.log (1 + a))
  | .pinf => .pinf
  | _ => .nan

/-- C `hypot`: `+inf` if an argument is infinite, even beside NaN. -/
noncomputable def chypot : XF ℝ → XF ℝ → XF ℝ
  | .fin x, .fin y => .fin (√(x * x + y * y))
  | x, y => if isinf x || isinf y then .pinf else .nan

/-- C `atan2(y, x)`. -/
noncomputable def catan2 : XF ℝ → XF ℝ → XF ℝ
  | .nan, _ => .nan
  | _, .nan => .nan
  | .fin y, .fin x => .fin (Complex.arg ⟨x, y⟩)
  | .fin _, .pinf => .fin 0
  | .fin y, .ninf => .fin (if y < 0 then -Real.pi else Real.pi)
  | .pinf, .fin _ => .fin (Real.pi / 2)
  | .ninf, .fin _ => .fin (-(Real.pi / 2))
  | .pinf, .pinf => .fin (Real.pi / 4)
  | .ninf, .pinf => .fin (-(Real.pi / 4))
  | .pinf, .ninf => .fin (3 * Real.pi / 4)
  | .ninf, .ninf => .fin (-(3 * Real.pi / 4))

/-- C `clog`. -/
noncomputable def cclog (z : XF ℝ × XF ℝ) : XF ℝ × XF ℝ :=
  (clogReal (chypot z.1 z.2), catan2 z.2 z.1)

/-- Complex multiplication.  Simplified: the recovery of infinities of the C standard's annex G
is left out. -/
def cmul {K : Type _} [Field K] [LinearOrder K] (rd : K → K) (a b : XF K × XF K) : XF K × XF K :=
  (fsub rd (fmul rd a.1 b.1) (fmul rd a.2 b.2), fadd rd (fmul rd a.1 b.2) (fmul rd a.2 b.1))

/-- Complex division.  Simplified: the textbook formula, no scaling and no recovery of infinities
(for an infinite dividend and an infinite divisor annex G recovers nothing). -/
def cdiv {K : Type _} [Field K] [LinearOrder K] (rd : K → K) (a b : XF K × XF K) : XF K × XF K :=
  let d := fadd rd (fmul rd b.1 b.1) (fmul rd b.2 b.2)
  (fdiv rd (fadd rd (fmul rd a.1 b.1) (fmul rd a.2 b.2)) d,
   fdiv rd (fsub rd (fmul rd a.2 b.1) (fmul rd a.1 b.2)) d)

/-! ## The two functions -/

/-- `log1p_theorem4`, lines 140-160 (and `log1pf_theorem4`, lines 118-138, for the rounding of
`float`; the `_MSC_VER` versions, lines 57-114, perform the same operations). -/
noncomputable def theorem4 (rd : ℝ → ℝ) (z : XF ℝ × XF ℝ) : XF ℝ × XF ℝ :=
  let u := (fadd rd z.1 (.fin 1), z.2)
  if XF.eq u.1 (.fin 1) && XF.eq u.2 (.fin 0) then z
  else if XF.eq (fsub rd u.1 (.fin 1)) z.1 then cclog u
  else cmul rd (cclog u) (cdiv rd z (fsub rd u.1 (.fin 1), u.2))

/-- `log1p_doubledouble`, lines 268-296.  In the innermost branch both parts are finite. -/
noncomputable def doubledouble (fma : Bool) (rd : ℝ → ℝ) (z : XF ℝ × XF ℝ) : XF ℝ × XF ℝ :=
  let x := z.1
  let y := z.2
  let lnr :=
    if gt x (.fin (-rd 2.2)) && lt x (.fin (rd 0.2)) && gt y (.fin (-rd 1.2)) && lt y (.fin (rd 1.2)) then
      if lt (XF.abs (fadd rd (fmul rd x (fadd rd (.fin 2) x)) (fmul rd y y))) (.fin (rd 0.4)) then
        match x, y with
        | .fin a, .fin b => fmul rd (.fin (1 / 2)) (clog1p (.fin (xsqPlus2xPlusYsq fma rd a b)))
        | _, _ => .nan
      else clogReal (chypot (fadd rd x (.fin 1)) y)
    else clogReal (chypot (fadd rd x (.fin 1)) y)
  (lnr, catan2 y (fadd rd x (.fin 1)))

/-- `log1pf_doubledouble`, lines 304-336: `rf` rounds to `float`, `rd` to `double`. -/
noncomputable def doubledoubleF (rf rd : ℝ → ℝ) (z : XF ℝ × XF ℝ) : XF ℝ × XF ℝ :=
  let x := z.1
  let y := z.2
  let lnr :=
    if gt x (.fin (-rf 2.2)) && lt x (.fin (rf 0.2)) && gt y (.fin (-rf 1.2)) && lt y (.fin (rf 1.2)) then
      if lt (XF.abs (fadd rf (fmul rf x (fadd rf (.fin 2) x)) (fmul rf y y))) (.fin (rf 0.4)) then
        rnd rf (fmul rd (.fin (1 / 2))
          (clog1p (fadd rd (fadd rd (fmul rd x x) (fmul rd (.fin 2) x)) (fmul rd y y))))
      else clogReal (chypot (fadd rf x (.fin 1)) y)
    else rnd rf (clogReal (chypot (fadd rf x (.fin 1)) y))
  (lnr, catan2 y (fadd rf x (.fin 1)))

/-! ## The inner loops -/

/-- The test at the head of the four loop bodies: a NaN part gives `nan + nan j`. -/
def nanGuard {K : Type _} (f : XF K × XF K → XF K × XF K) (z : XF K × XF K) : XF K × XF K :=
  if isnan z.1 || isnan z.2 then (.nan, .nan) else f z

/-- The four loops (lines 342-431), with `f` the function called: `n` iterations over the input
at `pin` and the output at `pout`; a memory cell holds one complex number. -/
def loop {α : Type _} (f : α → α) (is os : Int) : (n : Nat) → (pin pout : Int) → Mem α → Mem α
  | 0, _, _, m => m
  | n + 1, pin, pout, m => loop f is os n (pin + is) (pout + os) (m.store pout (f (m pin)))

end Ufunclab.Log1p
