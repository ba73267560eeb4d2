import Mathlib.Analysis.SpecialFunctions.Exp
import Mathlib.MeasureTheory.Integral.Bochner.Set
import Mathlib.MeasureTheory.Measure.Lebesgue.Basic
/-! # Specification of the exponential integral -/
namespace Ufunclab.Expint
open MeasureTheory

/-- The exponential integral `E1(x) = ∫_x^∞ exp(-t)/t dt` (Abramowitz & Stegun 5.1.1). -/
noncomputable def E1 (x : ℝ) : ℝ := ∫ t in Set.Ioi x, Real.exp (-t) / t

end Ufunclab.Expint
