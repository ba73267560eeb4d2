import Mathlib.Analysis.SpecialFunctions.Sqrt
/-! # Distances and Heron's formula -/
namespace Ufunclab.TriArea.Spec
open Finset

/-- The euclidean distance of two points with `n` coordinates. -/
noncomputable def dist (n : Nat) (x y : Nat → ℝ) : ℝ := Real.sqrt (∑ j ∈ range n, (x j - y j) ^ 2)

/-- The area of the triangle with sides `a`, `b`, `c` (Heron). -/
noncomputable def heron (a b c : ℝ) : ℝ :=
  let s := (a + b + c) / 2
  Real.sqrt (s * (s - a) * (s - b) * (s - c))

end Ufunclab.TriArea.Spec
