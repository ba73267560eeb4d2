import Verif.Model.Nextn
/-! # Specification: the value of a floating point number -/
namespace Ufunclab.Nextn

/-- `m`-bit fraction `M`, exponent field `E`: subnormal `M`, normal `(2^m + M) * 2^(E-1)`, in
units of the least subnormal. -/
def scaled (f : Fmt) (mag : Nat) : Nat :=
  let E := mag / 2 ^ f.m
  let M := mag % 2 ^ f.m
  if E = 0 then M else (2 ^ f.m + M) * 2 ^ (E - 1)

/-- The least positive subnormal, `2^(1 - bias - m)` with `bias = 2^(e-1) - 1`. -/
def ulp (f : Fmt) : ℚ := (2 : ℚ) ^ (1 - ((2 ^ (f.e - 1) - 1 : Nat) : ℤ) - (f.m : ℤ))

/-- The extended rational denoted by a float. -/
def val {f : Fmt} : Fl f → XF ℚ
  | .nan => .nan
  | .num neg mag _ =>
    if mag = f.inf then (if neg then .ninf else .pinf)
    else .fin ((if neg then -(scaled f mag : ℚ) else (scaled f mag : ℚ)) * ulp f)

end Ufunclab.Nextn
