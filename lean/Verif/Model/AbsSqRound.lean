import Verif.Model.Mem
import Verif.Spec.Overflow
/-!
# abs_squared in floating point (src/abs_squared/abs_squared.h)

Any type with `+` and `*`: at `Fl rd` the operations are rounded, at `Fo rd Ω` they overflow too.  Contraction of
`x*x + y*y` to a fused multiply-add is not modelled.
-/
namespace Ufunclab.Elementary
variable {α : Type _} [Add α] [Mul α]

/-- `abs_squared` for a real argument, lines 6-10. -/
def absSq (x : α) : α := x * x

/-- `abs_squared` for a complex argument with the parts `x` and `y`, lines 12-16. -/
def absSqC (x y : α) : α := x * x + y * y

end Ufunclab.Elementary
