import Verif.Model.Debye1Table
import Verif.Model.XF
import Verif.Model.Mem
import Mathlib.Algebra.Order.Archimedean.Real.Basic
import Mathlib.Algebra.Order.Round
/-!
# Model of src/debye1

Every arithmetic operator and every decimal literal is followed by the rounding `rd` of the type
`double` (`rd = id` is exact arithmetic); overflow is not described.
-/
namespace Ufunclab.Debye1
open XF

noncomputable section

/-- A decimal literal. -/
def lit (c : ℤ × ℕ) : ℝ := c.1 / 10 ^ c.2

/-- The nested expression `c0 + x*(c1 + x*(...))` that is the body of every `debye1_g_kk`
(debye1_generated.c, lines 8-846). -/
def horner (rd : ℝ → ℝ) (x : ℝ) : List (ℤ × ℕ) → ℝ
  | [] => 0
  | c :: cs =>
    match cs with
    | [] => rd (lit c)
    | _ :: _ => rd (rd (lit c) + rd (x * horner rd x cs))

/-- The conversion `(int)` of a double: towards zero (the values are far from the limits). -/
def trunc (v : ℝ) : ℤ := if v < 0 then ⌈v⌉ else ⌊v⌋

/-- `(int) (n*((x - a)/10.0))`, lines 854, 909, 964, 979. -/
def index (rd : ℝ → ℝ) (n a : ℕ) (x : ℝ) : ℤ := trunc (rd (n * rd (rd (x - a) / 10)))

/-- `switch (k) { case 0: ... case n-1: }`: `none` falls through. -/
def switch (table : List (List (ℤ × ℕ))) (k : ℤ) : Option (List (ℤ × ℕ)) :=
  if 0 ≤ k then table[k.toNat]? else none

/-- `DEBYE1_ASYMP_CONST`, line 6. -/
def asympConst : ℤ × ℕ := (16449340668482264, 16)

/-- `debye1`, lines 853-995, for a finite `x` that is not negative. -/
def finNonneg (rd : ℝ → ℝ) (x : ℝ) : ℝ :=
  match (if x < 10 then switch table0 (index rd 50 0 x) else none) with
  | some cs => horner rd x cs
  | none =>
    match (if x < 20 then switch table1 (index rd 50 10 x) else none) with
    | some cs => rd (horner rd x cs / x)
    | none =>
      match (if x < 30 then switch table2 (index rd 10 20 x) else none) with
      | some cs => rd (horner rd x cs / x)
      | none =>
        match (if x < 40 then switch table3 (index rd 10 30 x) else none) with
        | some cs => rd (horner rd x cs / x)
        | none => rd (rd (lit asympConst) / x)

/-- The rounding, applied to a finite result. -/
def rnd (rd : ℝ → ℝ) : XF ℝ → XF ℝ
  | .fin v => .fin (rd v)
  | v => v

/-- `debye1`, lines 853-995, for any `x` for which `x < 0` is false: with NaN and infinity the
other comparisons are false as well. -/
def notNeg (rd : ℝ → ℝ) : XF ℝ → XF ℝ
  | .fin x => .fin (finNonneg rd x)
  | v => rnd rd (div (.fin (rd (lit asympConst))) v)

/-- `debye1`, lines 848-995. -/
def debye1 (rd : ℝ → ℝ) (x : XF ℝ) : XF ℝ :=
  if lt x (.fin 0) then rnd rd (sub (notNeg rd (neg x)) (rnd rd (div x (.fin 2)))) else notNeg rd x

end

/-- `debye1_double_loop` and `debye1_float_loop` (debye1_ufunc.c, lines 18-44): `f` is `debye1`,
for the float loop between the conversions to double and to float. -/
def loop {α : Type _} (f : α → α) (is os : Int) : (n : Nat) → (pin pout : Int) → Mem α → Mem α
  | 0, _, _, m => m
  | n + 1, pin, pout, m => loop f is os n (pin + is) (pout + os) (m.store pout (f (m pin)))

end Ufunclab.Debye1
