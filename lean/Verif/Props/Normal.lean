import Verif.Proof.Normal
import Mathlib.Analysis.SpecialFunctions.Log.Basic
/-! # Property C68: the standard normal distribution functions

The specification is Mathlib's Gaussian measure `gaussianReal 0 1`. -/
namespace Ufunclab.Normal
open XF MeasureTheory ProbabilityTheory Set

theorem cdf_fin (x : ℝ) : cdf (.fin x) = .fin (erfc (-(x * (1 / √2))) / 2) := by
  have h2 : (2 : ℝ) ≠ 0 := by norm_num
  simp only [cdf, isnan_fin, Bool.false_eq_true, if_false, recipSqrt2, mul_fin, gt_fin, decide_eq_true_eq,
    neg_fin, xerfc, div_fin _ _ h2, sub_fin]
  split
  · rw [erfc_neg]; congr 1; ring
  · rfl

/-- C68: `normal_cdf(x)` is the probability of `(-∞, x]` under the standard normal law, for every
real `x` (both branches). -/
theorem C68_cdf (x : ℝ) : cdf (.fin x) = .fin ((gaussianReal 0 1).real (Iic x)) := by
  rw [cdf_fin, gaussian_cdf]

/-- C68: `normal_sf(x)` is the probability of `(x, ∞)`. -/
theorem C68_sf (x : ℝ) : sf (.fin x) = .fin ((gaussianReal 0 1).real (Ioi x)) := by
  have h : (gaussianReal 0 1).real (Ioi x) = 1 - (gaussianReal 0 1).real (Iic x) := by
    rw [← compl_Iic, probReal_compl_eq_one_sub measurableSet_Iic]
  rw [sf, neg_fin, cdf_fin, h, gaussian_cdf, show -(-x * (1 / √2)) = -(-(x * (1 / √2))) by ring,
    erfc_neg (-(x * (1 / √2)))]
  congr 1; ring

/-- C68: `normal_cdf` and `normal_sf` sum to one and reflect into one another. -/
theorem C68_complement (x : ℝ) :
    add (cdf (.fin x)) (sf (.fin x)) = .fin 1 ∧ sf (.fin x) = cdf (.fin (-x)) := by
  refine ⟨?_, rfl⟩
  rw [C68_cdf, C68_sf, add_fin, XF.fin.injEq, ← compl_Iic, probReal_compl_eq_one_sub measurableSet_Iic]
  ring

/-- C68: `normal_cdf` is strictly increasing, strictly between 0 and 1, and 1/2 at 0. -/
theorem C68_cdf_monotone (x y : ℝ) (h : x < y) : ∃ p q, cdf (.fin x) = .fin p ∧ cdf (.fin y) = .fin q ∧
    0 < p ∧ p < q ∧ q < 1 := by
  have hc : (0 : ℝ) < 1 / √2 := by positivity
  refine ⟨_, _, cdf_fin x, cdf_fin y, ?_, ?_, ?_⟩
  · have := erfc_pos (-(x * (1 / √2))); linarith
  · have := erfc_sub (-(y * (1 / √2))) (-(x * (1 / √2))) (by nlinarith); linarith
  · have := erfc_lt_two (-(y * (1 / √2))); linarith

theorem C68_cdf_zero : cdf (.fin 0) = .fin (1 / 2) := by
  rw [cdf_fin, zero_mul, neg_zero, erfc_zero]

/-- C68: `normal_logcdf` is the logarithm of the distribution function, in both branches. -/
theorem C68_logcdf (x : ℝ) : logcdf (.fin x) = .fin (Real.log ((gaussianReal 0 1).real (Iic x))) := by
  have h2 : (2 : ℝ) ≠ 0 := by norm_num
  rw [gaussian_cdf]
  simp only [logcdf, recipSqrt2, mul_fin, lt_fin, decide_eq_true_eq, neg_fin, xerfcx, xerfc, div_fin _ _ h2]
  set t := x * (1 / √2)
  split
  · have hp : 0 < erfcx (-t) / 2 := by
      have := erfc_pos (-t); have := Real.exp_pos ((-t) ^ 2); unfold erfcx; positivity
    simp only [Means.xlog, not_lt.mpr hp.le, hp.ne', if_false, sub_fin, XF.fin.injEq]
    rw [erfcx, mul_div_assoc, Real.log_mul (Real.exp_pos _).ne' (by have := erfc_pos (-t); positivity),
      Real.log_exp]
    ring
  · have h3 := erfc_pos t
    have h4 := erfc_lt_two t
    have h5 : ¬ -erfc t / 2 < -1 := by linarith
    have h6 : ¬ -erfc t / 2 = -1 := by linarith
    simp only [Elementary.xlog1p, h5, h6, if_false, XF.fin.injEq]
    rw [erfc_neg]; congr 1; ring

/-- C68: `normal_logsf` is the logarithm of the survival function. -/
theorem C68_logsf (x : ℝ) : logsf (.fin x) = .fin (Real.log ((gaussianReal 0 1).real (Ioi x))) := by
  have h := C68_sf x
  rw [sf, neg_fin, C68_cdf, XF.fin.injEq] at h
  rw [logsf, neg_fin, C68_logcdf, h]

/-- C68: so `exp(logcdf) = cdf` and `exp(logsf) = sf`, and neither logarithm is ever `-inf` or NaN
for a finite argument. -/
theorem C68_exp_log (x : ℝ) :
    Means.xexp (logcdf (.fin x)) = cdf (.fin x) ∧ Means.xexp (logsf (.fin x)) = sf (.fin x) := by
  have hp : ∀ y : ℝ, 0 < (gaussianReal 0 1).real (Iic y) := by
    intro y; rw [gaussian_cdf]; have := erfc_pos (-(y * (1 / √2))); positivity
  have hsf := C68_sf x
  have h : (gaussianReal 0 1).real (Ioi x) = (gaussianReal 0 1).real (Iic (-x)) := by
    rw [sf, neg_fin, C68_cdf, XF.fin.injEq] at hsf; exact hsf.symm
  rw [C68_logcdf, C68_logsf, C68_cdf, C68_sf, Means.xexp, Means.xexp, Real.exp_log (hp x), h,
    Real.exp_log (hp (-x))]
  exact ⟨rfl, rfl⟩

theorem inf_mul_c : infMul true (1 / √2 : ℝ) = .pinf ∧ infMul false (1 / √2 : ℝ) = .ninf := by
  have hc : (0 : ℝ) < 1 / √2 := by positivity
  constructor <;> simp only [infMul, hc.ne', hc, if_false, decide_true] <;> simp

/-- C68: the limits: at `-inf` and `+inf` the functions return 0, 1, `-inf`, 0 as they should, and NaN
gives NaN. -/
theorem C68_special :
    cdf .ninf = .fin 0 ∧ cdf .pinf = .fin 1 ∧ cdf .nan = .nan ∧
    sf .ninf = .fin 1 ∧ sf .pinf = .fin 0 ∧ sf .nan = .nan ∧
    logcdf .ninf = .ninf ∧ logcdf .pinf = .fin 0 ∧ logcdf .nan = .nan ∧
    logsf .ninf = .fin 0 ∧ logsf .pinf = .ninf ∧ logsf .nan = .nan := by
  obtain ⟨h1, h2⟩ := inf_mul_c
  have h3 : ¬ (0 : ℝ) < -1 := by norm_num
  have h4 : (0 : ℝ) ≠ -1 := by norm_num
  simp only [one_div] at h1 h2
  simp [sf, logsf, cdf, logcdf, recipSqrt2, XF.mul, h1, h2, XF.gt, XF.lt, XF.neg, XF.isnan, xerfc, xerfcx,
    XF.sub, XF.div, XF.add, Means.xlog, Elementary.xlog1p]

/-- Non-vacuity: at 0 the logarithm is that of one half, through the second branch; at -2 the first
branch is taken. -/
example : logcdf (.fin 0) = .fin (Real.log (1 / 2)) ∧
    logcdf (.fin (-2)) = .fin (Real.log ((gaussianReal 0 1).real (Iic (-2)))) := by
  refine ⟨?_, C68_logcdf _⟩
  have h := C68_cdf_zero
  rw [C68_cdf, XF.fin.injEq] at h
  rw [C68_logcdf, h]

end Ufunclab.Normal
