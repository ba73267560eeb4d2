import Verif.Model.ErfcxTable
import Verif.Model.XF
import Mathlib.Algebra.Order.Archimedean.Real.Basic
import Mathlib.Algebra.Order.Floor.Ring
/-!
# Model of src/normal/erfcx_funcs.cxx

The three functions `erfcx(float)`, `erfcx(double)`, `erfcx(long double)` have the same body with
different constants (src/normal/generate_erfcx_code.py generates them from one template); the
constants are the fields of `Variant`.  Every arithmetic operator and every decimal literal that is
not a small integer or half-integer is followed by the rounding `rd` of the type; `ex` is the C
library's `exp` of the type.  Overflow is not described, except for the explicit `infinity()`.
-/
namespace Ufunclab.Erfcx
open XF

/-- What distinguishes the three functions. -/
structure Variant where
  /-- the `switch` of `erfcx_y100` -/
  table : List (List (ℤ × ℕ))
  /-- above this bound the continued fraction is used -/
  cfBound : ℕ
  /-- below this bound the result is infinite -/
  lower : ℤ × ℕ

/-- `float`: lines 20-658 (bounds: lines 638 and 651). -/
def floatV : Variant := ⟨tableF, 5, (-9382413, 6)⟩

/-- `double`: lines 662-1600 (bounds: lines 1580 and 1593). -/
def doubleV : Variant := ⟨tableD, 50, (-26628735713751485, 15)⟩

/-- `long double`: lines 1604-2642 (bounds: lines 2622 and 2635). -/
def longDoubleV : Variant := ⟨tableL, 100, (-10656373801210984173, 17)⟩

noncomputable section

/-- A decimal literal. -/
def lit (c : ℤ × ℕ) : ℝ := c.1 / 10 ^ c.2

/-- The nested expression `c0 + (c1 + (...)*t)*t` of each `case`. -/
def horner (rd : ℝ → ℝ) (t : ℝ) : List (ℤ × ℕ) → ℝ
  | [] => 0
  | c :: cs =>
    match cs with
    | [] => rd (lit c)
    | _ :: _ => rd (rd (lit c) + rd (horner rd t cs * t))

/-- `erfcx_y100` (lines 20-632, 662-1574, 1604-2616) for a finite argument that is not negative:
`(int) y100` is then the integer part.  A value with no `case` gives `1.0`. -/
def y100 (rd : ℝ → ℝ) (v : Variant) (y : ℝ) : ℝ :=
  match v.table[⌊y⌋.toNat]? with
  | some cs => horner rd (rd (rd (2 * y) - (2 * (⌊y⌋.toNat : ℝ) + 1))) cs
  | none => 1

/-- `ispi`, lines 642, 1584, 2626. -/
def ispi : ℤ × ℕ := (5641895835477562869480794515607725858, 37)

/-- The truncated continued fraction, lines 643, 1585, 2627. -/
def contFrac (rd : ℝ → ℝ) (x : ℝ) : ℝ :=
  rd (rd (lit ispi) / rd (x + rd ((1 / 2) / rd (x + rd (1 / rd (x + rd ((3 / 2) / rd (x + rd (2 / x)))))))))

/-- `erfcx`, lines 634-658, 1576-1600, 2618-2642, for a finite argument. -/
def finite (rd ex : ℝ → ℝ) (v : Variant) (x : ℝ) : XF ℝ :=
  if 0 < x then
    if (v.cfBound : ℝ) < x then .fin (contFrac rd x)
    else .fin (y100 rd v (rd (400 / rd (4 + x))))
  else if x < rd (lit v.lower) then .pinf
  else .fin (rd (rd (2 * ex (rd (x * x))) - y100 rd v (rd (400 / rd (4 - x)))))

/-- `erfcx`.  With `+inf` every quotient inside the continued fraction is 0 or `c/inf`, and the
result is `ispi/inf`; with NaN both comparisons are false and the result is `2*exp(NaN) - ...`,
which is NaN whatever `erfcx_y100` returns (`(int) NaN` in its `switch` is undefined behaviour in
C++; the model assumes that it selects some value). -/
def erfcx (rd ex : ℝ → ℝ) (v : Variant) : XF ℝ → XF ℝ
  | .nan => .nan
  | .ninf => .pinf
  | .pinf => div (.fin (rd (lit ispi))) (add .pinf (div (.fin (1 / 2)) .pinf))
  | .fin x => finite rd ex v x

end

end Ufunclab.Erfcx
