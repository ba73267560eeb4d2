/-! # Specification: fields of an IEEE 754 binary interchange format

A bit pattern `v` (a natural number below `2^(1+e+m)`) has `m` fraction bits, `e` exponent
bits and a sign bit. -/
namespace Ufunclab.Ieee

def fraction (m v : Nat) : Nat := v % 2 ^ m
def exponent (e m v : Nat) : Nat := v / 2 ^ m % 2 ^ e
def sign (e m v : Nat) : Nat := v / 2 ^ (e + m)

/-- NaN: all-ones exponent, non-zero fraction. -/
def IsNaN (e m v : Nat) : Prop := exponent e m v = 2 ^ e - 1 ∧ fraction m v ≠ 0
/-- Quiet: the most significant fraction bit is set. -/
def Quiet (m v : Nat) : Prop := 2 ^ (m - 1) ≤ fraction m v
/-- Signaling NaN. -/
def IsSignaling (e m v : Nat) : Prop := IsNaN e m v ∧ ¬ Quiet m v
def IsInf (e m v : Nat) : Prop := exponent e m v = 2 ^ e - 1 ∧ fraction m v = 0
def IsFinite (e m v : Nat) : Prop := exponent e m v ≠ 2 ^ e - 1

end Ufunclab.Ieee
