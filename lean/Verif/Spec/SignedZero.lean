import Verif.Model.XF
import Mathlib.Analysis.SpecialFunctions.Exp
/-!
# The value a function has at an end of the real line
-/
namespace Ufunclab.Spec
open Filter Topology

/-- `w` is the limit of `f` along `l`: a number, or an infinity.  NaN is no limit. -/
def LimTo (f : ℝ → ℝ) (l : Filter ℝ) : XF ℝ → Prop
  | .fin a => Tendsto f l (𝓝 a)
  | .pinf => Tendsto f l atTop
  | .ninf => Tendsto f l atBot
  | .nan => False

/-- A rounding that keeps the order and the numbers 0, 1/2, 1, 2, -1. -/
structure Rounding (rd : ℝ → ℝ) : Prop where
  mono : Monotone rd
  zero : rd 0 = 0
  half : rd (1 / 2) = 1 / 2
  one : rd 1 = 1
  two : rd 2 = 2
  neg_one : rd (-1) = -1

theorem Rounding.id : Rounding (fun x => x) := ⟨monotone_id, rfl, rfl, rfl, rfl, rfl⟩

end Ufunclab.Spec
