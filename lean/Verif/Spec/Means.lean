import Mathlib.Analysis.SpecialFunctions.Pow.Real
/-! # Specification: geometric, harmonic and power means of real vectors -/
namespace Ufunclab.MeansSpec

/-- `exp(mean(log x))`. -/
noncomputable def geo (x : List ℝ) : ℝ := Real.exp ((x.map Real.log).sum / x.length)
/-- `n / sum(1/x)`. -/
noncomputable def harm (x : List ℝ) : ℝ := x.length / (x.map fun a => 1 / a).sum
/-- `(mean(x^p))^(1/p)`. -/
noncomputable def power (p : ℝ) (x : List ℝ) : ℝ := ((x.map fun a => a ^ p).sum / x.length) ^ (1 / p)

/-- Weighted versions; the pairs are (value, weight). -/
noncomputable def geoW (x : List (ℝ × ℝ)) : ℝ := Real.exp ((x.map fun a => a.2 * Real.log a.1).sum / (x.map Prod.snd).sum)
noncomputable def harmW (x : List (ℝ × ℝ)) : ℝ := (x.map Prod.snd).sum / (x.map fun a => a.2 / a.1).sum
noncomputable def powerW (p : ℝ) (x : List (ℝ × ℝ)) : ℝ := ((x.map fun a => a.2 * a.1 ^ p).sum / (x.map Prod.snd).sum) ^ (1 / p)

/-- Admissible weights: non-negative with a positive sum. -/
def Weights (l : List (ℝ × ℝ)) : Prop := (∀ v ∈ l, 0 ≤ v.2) ∧ 0 < (l.map Prod.snd).sum

/-- Scale the values. -/
def scaled (c : ℝ) (l : List (ℝ × ℝ)) : List (ℝ × ℝ) := l.map fun v => (c * v.1, v.2)

/-- The mean of order `p`: geometric at 0. -/
noncomputable def mean (p : ℝ) (l : List (ℝ × ℝ)) : ℝ := if p = 0 then geoW l else powerW p l

/-- Weighted mean of a function of the data. -/
noncomputable def avg (l : List (ℝ × ℝ)) (f : ℝ → ℝ) : ℝ := (l.map fun v => v.2 * f v.1).sum / (l.map Prod.snd).sum

end Ufunclab.MeansSpec
