import Verif.Model.Normal
import Verif.Proof.XF
import Mathlib.Probability.Distributions.Gaussian.Real
import Mathlib.Tactic.Linarith
import Mathlib.Tactic.Ring
/-! # The complementary error function -/
namespace Ufunclab.Normal
open MeasureTheory Set

theorem integrable_exp : Integrable (fun t : ℝ => Real.exp (-t ^ 2)) := by
  have := integrable_exp_neg_mul_sq (b := 1) one_pos
  simpa using this

theorem integral_exp : ∫ t : ℝ, Real.exp (-t ^ 2) = √Real.pi := by
  have := integral_gaussian 1
  simpa using this

theorem sqrt_pi_pos : 0 < √Real.pi := Real.sqrt_pos.mpr Real.pi_pos

theorem erfc_neg (x : ℝ) : erfc (-x) = 2 - erfc x := by
  have h1 : ∫ t in Ioi (-x), Real.exp (-t ^ 2) = ∫ t in Iic x, Real.exp (-t ^ 2) := by
    rw [← integral_comp_neg_Iic x (fun t => Real.exp (-t ^ 2))]
    simp
  have h2 := intervalIntegral.integral_Iic_add_Ioi (b := x) integrable_exp.integrableOn integrable_exp.integrableOn
  rw [integral_exp] at h2
  have hp := sqrt_pi_pos
  simp only [erfc, h1]
  rw [show ∫ t in Iic x, Real.exp (-t ^ 2) = √Real.pi - ∫ t in Ioi x, Real.exp (-t ^ 2) by linarith]
  field_simp

theorem erfc_sub (x y : ℝ) (h : x < y) : erfc y < erfc x := by
  have hs : Ioc x y ∪ Ioi y = Ioi x := Ioc_union_Ioi_eq_Ioi h.le
  have h1 : ∫ t in Ioi x, Real.exp (-t ^ 2) = (∫ t in Ioc x y, Real.exp (-t ^ 2)) + ∫ t in Ioi y, Real.exp (-t ^ 2) := by
    rw [← hs, setIntegral_union (by
      rw [Set.disjoint_left]; intro a ha hb; exact absurd (mem_Ioi.mp hb) (not_lt.mpr ha.2))
      measurableSet_Ioi integrable_exp.integrableOn integrable_exp.integrableOn]
  have h2 : 0 < ∫ t in Ioc x y, Real.exp (-t ^ 2) := by
    rw [← intervalIntegral.integral_of_le h.le]
    apply intervalIntegral.intervalIntegral_pos_of_pos_on
    · exact integrable_exp.intervalIntegrable
    · intro t _; exact Real.exp_pos _
    · exact h
  have hp := sqrt_pi_pos
  simp only [erfc, h1]
  have : 0 < 2 / √Real.pi := by positivity
  nlinarith

theorem erfc_pos (x : ℝ) : 0 < erfc x := by
  have h1 := erfc_sub x (x + 1) (by linarith)
  have h2 : 0 ≤ erfc (x + 1) := by
    have hp := sqrt_pi_pos
    refine mul_nonneg (by positivity) (setIntegral_nonneg measurableSet_Ioi ?_)
    intro t _; exact (Real.exp_pos _).le
  linarith

theorem erfc_lt_two (x : ℝ) : erfc x < 2 := by
  have := erfc_pos (-x)
  rw [erfc_neg] at this
  linarith

theorem erfc_zero : erfc 0 = 1 := by
  have := erfc_neg 0
  rw [neg_zero] at this
  linarith

open ProbabilityTheory in
/-- The standard normal distribution function is `erfc(-x/√2)/2`. -/
theorem gaussian_cdf (x : ℝ) : (gaussianReal 0 1).real (Iic x) = erfc (-(x * (1 / √2))) / 2 := by
  have hp := sqrt_pi_pos
  have h2 : (0 : ℝ) < √2 := by positivity
  have hc : (0 : ℝ) < 1 / √2 := by positivity
  have hint : ∫ t in Iic x, gaussianPDFReal 0 1 t = (√(2 * Real.pi))⁻¹ * (√2 * ∫ t in Ioi (-(x * (1 / √2))), Real.exp (-t ^ 2)) := by
    have hf : ∀ t, gaussianPDFReal 0 1 t = (√(2 * Real.pi))⁻¹ * Real.exp (-((1 / √2) * (-t)) ^ 2) := by
      intro t
      rw [gaussianPDFReal]
      have e : -((1 / √2) * (-t)) ^ 2 = -(t - 0) ^ 2 / (2 * ((1 : NNReal) : ℝ)) := by
        rw [mul_pow, div_pow, Real.sq_sqrt (by norm_num)]
        simp; ring
      rw [e]; simp
    simp_rw [hf]
    rw [integral_const_mul]
    congr 1
    rw [integral_comp_neg_Iic x (fun t => Real.exp (-((1 / √2) * t) ^ 2)),
      integral_comp_mul_left_Ioi (fun t => Real.exp (-t ^ 2)) (-x) hc, smul_eq_mul,
      show (1 / √2) * (-x) = -(x * (1 / √2)) by ring, one_div, inv_inv]
  have hnn : 0 ≤ ∫ t in Iic x, gaussianPDFReal 0 1 t :=
    setIntegral_nonneg measurableSet_Iic (fun t _ => gaussianPDFReal_nonneg 0 1 t)
  rw [measureReal_def, gaussianReal_apply_eq_integral 0 (by norm_num) (Iic x),
    ENNReal.toReal_ofReal hnn, hint, erfc, Real.sqrt_mul (by norm_num)]
  field_simp

end Ufunclab.Normal
