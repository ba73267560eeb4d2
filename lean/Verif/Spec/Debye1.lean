import Mathlib.MeasureTheory.Integral.IntervalIntegral.Basic
import Mathlib.MeasureTheory.Measure.Lebesgue.Basic
import Mathlib.Analysis.SpecialFunctions.Exp
/-! # The Debye function of order 1 -/
namespace Ufunclab.Debye1

/-- `D1(x) = (1/x) ∫_0^x t/(e^t - 1) dt`, `D1(0) = 1`. -/
noncomputable def D1 (x : ℝ) : ℝ :=
  if x = 0 then 1 else (∫ t in (0 : ℝ)..x, t / (Real.exp t - 1)) / x

end Ufunclab.Debye1
