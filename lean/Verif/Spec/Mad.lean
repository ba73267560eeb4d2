import Mathlib.Algebra.Order.Field.Basic
import Mathlib.Algebra.BigOperators.Group.List.Basic
/-! # Specification of mean absolute difference and Gini index -/
namespace Ufunclab.Spec
variable {K : Type _} [Field K] [LinearOrder K]

/-- `Σ_i Σ_j |x_i - x_j|`. -/
def pairSum (x : List K) : K := (x.map (fun a => (x.map (fun b => |a - b|)).sum)).sum

/-- Arithmetic mean. -/
def average (x : List K) : K := x.sum / (x.length : K)

/-- Mean absolute difference: over all `n^2` ordered pairs, or over the `n(n-1)`
pairs of distinct positions. -/
def meanAbsDiff (x : List K) (unbiased : Bool) : K :=
  pairSum x / (if unbiased then (x.length : K) * ((x.length : K) - 1) else (x.length : K) * (x.length : K))

end Ufunclab.Spec
