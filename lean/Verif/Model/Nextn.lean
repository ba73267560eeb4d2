import Verif.Model.Mem
import Verif.Model.XF
import Mathlib.Algebra.Order.Ring.Rat
/-!
# Model of src/next/next.h and src/nextn/nextn_gufunc.h

Floats of an IEEE 754 binary format: NaN, or a sign and a magnitude, where the magnitude is the
number formed by the exponent and fraction bits (so the largest, `inf`, is infinity).
`std::nextafter` is a library function: it is modelled by the bit algorithm that all C
libraries use (increment or decrement the magnitude).  The x87 80-bit format, which has an
explicit integer bit, is not covered.
-/
namespace Ufunclab.Nextn

/-- A binary interchange format: `m` fraction bits and `e ≥ 1` exponent bits. -/
structure Fmt where
  m : Nat
  e : Nat
  he : 1 ≤ e

/-- The magnitude of infinity: all exponent bits set. -/
def Fmt.inf (f : Fmt) : Nat := (2 ^ f.e - 1) * 2 ^ f.m

inductive Fl (f : Fmt) where
  | nan
  | num (neg : Bool) (mag : Nat) (h : mag ≤ f.inf)

theorem Fmt.inf_pos (f : Fmt) : 1 ≤ f.inf := by
  have h1 : 2 ≤ 2 ^ f.e := by
    calc 2 = 2 ^ 1 := rfl
      _ ≤ 2 ^ f.e := Nat.pow_le_pow_right (by omega) f.he
  exact Nat.mul_pos (by omega) (Nat.two_pow_pos _)

/-- `std::nextafter(x, +inf)`. -/
def nextUp {f : Fmt} : Fl f → Fl f
  | .nan => .nan
  | .num neg mag h =>
    if hz : mag = 0 then .num false 1 f.inf_pos
    else if neg then .num true (mag - 1) (by omega)
    else if hi : mag = f.inf then .num false mag h
    else .num false (mag + 1) (by omega)

/-- Change of sign. -/
def negate {f : Fmt} : Fl f → Fl f
  | .nan => .nan
  | .num neg mag h => .num (!neg) mag h

/-- `std::nextafter(x, -inf)`. -/
def nextDown {f : Fmt} : Fl f → Fl f
  | .nan => .nan
  | .num neg mag h =>
    if hz : mag = 0 then .num true 1 f.inf_pos
    else if neg = false then .num false (mag - 1) (by omega)
    else if hi : mag = f.inf then .num true mag h
    else .num true (mag + 1) (by omega)

/-- `next_greater`, src/next/next.h lines 10-15. -/
def nextGreater {f : Fmt} (x : Fl f) : Fl f := nextUp x
/-- `next_less`, src/next/next.h lines 17-22. -/
def nextLess {f : Fmt} (x : Fl f) : Fl f := nextDown x

/-- The loop of `nextn_greater_core_calc` (lines 31-34) and of `nextn_less_core_calc` (lines
52-55); `step` is `nextafter` towards `to`. -/
def nextnLoop {α : Type _} (step : α → α) (pout so : Int) : (fuel i : Nat) → α → Mem α → Mem α
  | 0, _, _, m => m
  | fuel + 1, i, x, m =>
    let x := step x
    nextnLoop step pout so fuel (i + 1) x (set m pout so i x)

/-- `nextn_greater_core_calc`, src/nextn/nextn_gufunc.h lines 20-35. -/
def nextnGreater {f : Fmt} (n : Nat) (px pout so : Int) (m : Mem (Fl f)) : Mem (Fl f) :=
  nextnLoop nextUp pout so n 0 (m px) m

/-- `nextn_less_core_calc`, lines 41-56. -/
def nextnLess {f : Fmt} (n : Nat) (px pout so : Int) (m : Mem (Fl f)) : Mem (Fl f) :=
  nextnLoop nextDown pout so n 0 (m px) m

end Ufunclab.Nextn
