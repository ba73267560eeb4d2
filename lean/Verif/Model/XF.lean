import Mathlib.Algebra.Order.Field.Basic
/-!
# Extended numbers: the special-value behaviour of IEEE floats

`XF K` is an exact ordered field `K` with NaN and two infinities.  It models
the branch structure of the C code on special values.  Simplifications: no
rounding, no overflow, one zero (treated as `+0` when it divides).
-/
namespace Ufunclab

inductive XF (K : Type _) where
  | nan
  | ninf
  | pinf
  | fin (k : K)
deriving DecidableEq

namespace XF
variable {K : Type _}

def isnan : XF K → Bool
  | nan => true
  | _ => false

def isinf : XF K → Bool
  | pinf => true
  | ninf => true
  | _ => false

def isfinite : XF K → Bool
  | fin _ => true
  | _ => false

section Order
variable [LinearOrder K]

/-- IEEE `<`. -/
def lt : XF K → XF K → Bool
  | nan, _ => false
  | _, nan => false
  | ninf, ninf => false
  | ninf, _ => true
  | _, ninf => false
  | pinf, _ => false
  | fin _, pinf => true
  | fin a, fin b => decide (a < b)

/-- IEEE `==`. -/
def eq : XF K → XF K → Bool
  | ninf, ninf => true
  | pinf, pinf => true
  | fin a, fin b => decide (a = b)
  | _, _ => false

/-- IEEE `<=`. -/
def le (a b : XF K) : Bool := lt a b || eq a b
/-- IEEE `!=`. -/
def ne (a b : XF K) : Bool := !eq a b
def gt (a b : XF K) : Bool := lt b a
def ge (a b : XF K) : Bool := le b a

end Order

section Arith
variable [Field K] [LinearOrder K]

def neg : XF K → XF K
  | nan => nan
  | ninf => pinf
  | pinf => ninf
  | fin a => fin (-a)

def add : XF K → XF K → XF K
  | nan, _ => nan
  | _, nan => nan
  | pinf, ninf => nan
  | ninf, pinf => nan
  | pinf, _ => pinf
  | _, pinf => pinf
  | ninf, _ => ninf
  | _, ninf => ninf
  | fin a, fin b => fin (a + b)

def sub (a b : XF K) : XF K := add a (neg b)

/-- Infinity times a number of the given sign. -/
def infMul (pos : Bool) (a : K) : XF K :=
  if a = 0 then nan else if decide (0 < a) = pos then pinf else ninf

def mul : XF K → XF K → XF K
  | nan, _ => nan
  | _, nan => nan
  | pinf, pinf => pinf
  | ninf, ninf => pinf
  | pinf, ninf => ninf
  | ninf, pinf => ninf
  | pinf, fin a => infMul true a
  | fin a, pinf => infMul true a
  | ninf, fin a => infMul false a
  | fin a, ninf => infMul false a
  | fin a, fin b => fin (a * b)

/-- Division; a zero divisor is `+0`. -/
def div : XF K → XF K → XF K
  | nan, _ => nan
  | _, nan => nan
  | fin a, fin b =>
    if b = 0 then (if a = 0 then nan else if 0 < a then pinf else ninf) else fin (a / b)
  | fin _, _ => fin 0
  | pinf, fin b => if b < 0 then ninf else pinf
  | ninf, fin b => if b < 0 then pinf else ninf
  | _, _ => nan

def abs : XF K → XF K
  | nan => nan
  | ninf => pinf
  | pinf => pinf
  | fin a => fin |a|

end Arith
end XF
end Ufunclab
