import Mathlib.Analysis.SpecialFunctions.Gamma.Basic
/-! # Specification: the multivariate beta function -/
namespace Ufunclab.LogbetaSpec

/-- `B(x) = ∏ Γ(xᵢ) / Γ(Σ xᵢ)`. -/
noncomputable def betaFn (x : List ℝ) : ℝ := (x.map Real.Gamma).prod / Real.Gamma x.sum

end Ufunclab.LogbetaSpec
