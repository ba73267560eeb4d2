import Mathlib.Analysis.SpecialFunctions.Gaussian.GaussianIntegral
/-!
# The scaled complementary error function

`erfcxVal x = exp(x²) · 2/√π ∫_x^∞ exp(-t²) dt`.
-/
namespace Ufunclab.Erfcx
open MeasureTheory

noncomputable def erfcxVal (x : ℝ) : ℝ :=
  Real.exp (x ^ 2) * (2 / √Real.pi * ∫ t in Set.Ioi x, Real.exp (-t ^ 2))

/-- `ex` computes `exp` with relative error at most `ε`. -/
def ExpAcc (ε : ℝ) (ex : ℝ → ℝ) : Prop := ∀ z, |ex z - Real.exp z| ≤ ε * Real.exp z

/-- The largest finite value of the type with `p` significand bits and values below `2^emax`. -/
noncomputable def maxFinite (p emax : ℕ) : ℝ := 2 ^ emax * (1 - 1 / 2 ^ p)

end Ufunclab.Erfcx
