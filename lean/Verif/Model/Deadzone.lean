import Verif.Model.XF
/-! # Model of src/deadzone/deadzone.h and src/trapezoid_pulse/trapezoid_pulse.h -/
namespace Ufunclab.Deadzone
variable {α : Type _}

/-- `deadzone`, src/deadzone/deadzone.h lines 4-16, for any comparison, subtraction and zero. -/
def deadzone (lt : α → α → Bool) (sub : α → α → α) (zero x low high : α) : α :=
  if lt x low then sub x low
  else if lt high x then sub x high
  else zero

/-- The C++ function on floats. -/
def deadzoneXF {K : Type _} [Field K] [LinearOrder K] (x low high : XF K) : XF K :=
  deadzone XF.lt XF.sub (.fin 0) x low high

/-- `trapezoid_pulse`, src/trapezoid_pulse/trapezoid_pulse.h lines 7-29. -/
def trapezoid {K : Type _} [Field K] [LinearOrder K] (x a b c d amp : XF K) : XF K :=
  if !(a.le b && b.le c && c.le d) then .nan
  else if x.le a || x.ge d then .fin 0
  else if x.ge b && x.le c then amp
  else if x.lt b then amp.mul ((x.sub a).div (b.sub a))
  else amp.mul ((d.sub x).div (d.sub c))

/-- `trapezoid_pulse`, lines 7-29, on finite arguments with every operation rounded by `rd`
(no overflow). -/
def trapezoidR {K : Type _} [Field K] [LinearOrder K] (rd : K → K) (x a b c d amp : K) : XF K :=
  if ¬ (a ≤ b ∧ b ≤ c ∧ c ≤ d) then .nan
  else if x ≤ a ∨ x ≥ d then .fin 0
  else if x ≥ b ∧ x ≤ c then .fin amp
  else if x < b then .fin (rd (amp * rd (rd (x - a) / rd (b - a))))
  else .fin (rd (amp * rd (rd (d - x) / rd (d - c))))

end Ufunclab.Deadzone
