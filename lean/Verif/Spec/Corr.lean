import Mathlib.Analysis.SpecialFunctions.Sqrt
/-! # Specification: Pearson correlation of the first `n` terms of two real sequences -/
namespace Ufunclab.Corr
open Finset

noncomputable def mean (n : Nat) (x : Nat → ℝ) : ℝ := (∑ i ∈ range n, x i) / n

/-- sum (x-mean x)(y-mean y) / (sqrt sum (x-mean x)^2 * sqrt sum (y-mean y)^2) -/
noncomputable def corr (n : Nat) (x y : Nat → ℝ) : ℝ :=
  (∑ i ∈ range n, (x i - mean n x) * (y i - mean n y)) /
    (Real.sqrt (∑ i ∈ range n, (x i - mean n x) ^ 2) * Real.sqrt (∑ i ∈ range n, (y i - mean n y) ^ 2))

/-- The (population) standard deviation of the first `n` terms. -/
noncomputable def sd (n : Nat) (x : Nat → ℝ) : ℝ := Real.sqrt ((∑ i ∈ range n, (x i - mean n x) ^ 2) / n)

/-- All the first `n` terms are equal. -/
def Constant (n : Nat) (x : Nat → ℝ) : Prop := ∀ i < n, ∀ j < n, x i = x j

end Ufunclab.Corr
