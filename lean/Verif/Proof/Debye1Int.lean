import Verif.Spec.Debye1
import Mathlib.Analysis.Calculus.DSlope
import Mathlib.MeasureTheory.Integral.IntervalIntegral.FundThmCalculus
import Mathlib.Analysis.Calculus.MeanValue
import Mathlib.Analysis.Calculus.Deriv.MeanValue
import Mathlib.Analysis.Calculus.Deriv.Pow
import Mathlib.Analysis.SpecialFunctions.ExpDeriv
import Mathlib.Tactic.Linarith
import Mathlib.Tactic.Positivity
import Mathlib.Tactic.FieldSimp
import Mathlib.Tactic.Ring
/-! # The integral of t/(exp t - 1) -/
namespace Ufunclab.Debye1
open Real

noncomputable def f (t : ℝ) : ℝ := if t = 0 then 1 else t / (exp t - 1)

theorem exp_sub_one_ne {t : ℝ} (ht : t ≠ 0) : exp t - 1 ≠ 0 := by
  intro h
  exact ht ((exp_eq_one_iff t).1 (by linarith))

theorem f_eq (t : ℝ) : f t = (dslope exp 0 t)⁻¹ := by
  by_cases h : t = 0
  · subst h; simp [f, dslope_same]
  · rw [f, if_neg h, dslope_of_ne _ h, slope_def_field, exp_zero, sub_zero, inv_div]

theorem dslope_ne (t : ℝ) : dslope exp 0 t ≠ 0 := by
  by_cases h : t = 0
  · subst h; simp [dslope_same]
  · rw [dslope_of_ne _ h, slope_def_field, exp_zero, sub_zero]
    exact div_ne_zero (exp_sub_one_ne h) h

theorem continuous_f : Continuous f := by
  have : f = fun t => (dslope exp 0 t)⁻¹ := funext f_eq
  rw [this]
  refine Continuous.inv₀ ?_ dslope_ne
  rw [continuous_iff_continuousAt]
  intro t
  by_cases h : t = 0
  · subst h; exact continuousAt_dslope_same.2 differentiableAt_exp
  · exact (continuousAt_dslope_of_ne h).2 continuous_exp.continuousAt

theorem f_pos (t : ℝ) : 0 < f t := by
  rw [f]
  split_ifs with h
  · norm_num
  · rcases lt_or_gt_of_ne h with h1 | h1
    · exact div_pos_of_neg_of_neg h1 (by linarith [exp_lt_one_iff.2 h1])
    · exact div_pos h1 (by linarith [one_lt_exp_iff.2 h1])

theorem f_le_one {t : ℝ} (ht : 0 ≤ t) : f t ≤ 1 := by
  rw [f]
  split_ifs with h
  · exact le_rfl
  · have h1 : 0 < t := lt_of_le_of_ne ht (Ne.symm h)
    have h2 := add_one_le_exp t
    rw [div_le_one (by linarith [one_lt_exp_iff.2 h1])]
    linarith

noncomputable def F (x : ℝ) : ℝ := ∫ t in (0 : ℝ)..x, f t

theorem hasDerivAt_F (x : ℝ) : HasDerivAt F (f x) x :=
  intervalIntegral.integral_hasDerivAt_right (continuous_f.intervalIntegrable _ _)
    (continuous_f.stronglyMeasurableAtFilter _ _) continuous_f.continuousAt

theorem F_zero : F 0 = 0 := by simp [F]

theorem integral_eq_F (x : ℝ) : ∫ t in (0 : ℝ)..x, t / (exp t - 1) = F x := by
  apply intervalIntegral.integral_congr_ae
  have : ∀ᵐ t : ℝ, t ≠ 0 := by
    rw [MeasureTheory.ae_iff]; simp
  filter_upwards [this] with t ht _
  rw [f, if_neg ht]

theorem D1_eq {x : ℝ} (hx : x ≠ 0) : D1 x = F x / x := by rw [D1, if_neg hx, integral_eq_F]

theorem D1_zero : D1 0 = 1 := by simp [D1]

/-- Comparison of `F` with a function of almost the same derivative. -/
theorem F_compare {H G : ℝ → ℝ} {a b δ : ℝ} (hH : ∀ x ∈ Set.Icc a b, HasDerivAt H (G x) x)
    (hG : ∀ x ∈ Set.Icc a b, |f x - G x| ≤ δ) {x y : ℝ} (hx : x ∈ Set.Icc a b) (hy : y ∈ Set.Icc a b) :
    |(F y - H y) - (F x - H x)| ≤ δ * |y - x| := by
  have := (convex_Icc a b).norm_image_sub_le_of_norm_hasDerivWithin_le (f := fun x => F x - H x)
    (f' := fun x => f x - G x) (C := δ)
    (fun x hx => ((hasDerivAt_F x).sub (hH x hx)).hasDerivWithinAt) (fun x hx => hG x hx) hx hy
  simpa [Real.norm_eq_abs] using this

theorem F_mono : StrictMono F := strictMono_of_deriv_pos (fun x => by rw [(hasDerivAt_F x).deriv]; exact f_pos x)

theorem F_sub_le {x y : ℝ} (hx : 0 ≤ x) (hy : 0 ≤ y) : |F y - F x| ≤ |y - x| := by
  have := (convex_Ici (0 : ℝ)).norm_image_sub_le_of_norm_hasDerivWithin_le (f := F) (f' := f) (C := 1)
    (fun x _ => (hasDerivAt_F x).hasDerivWithinAt)
    (fun x hx => by rw [Real.norm_eq_abs, abs_of_pos (f_pos x)]; exact f_le_one hx) hx hy
  simpa [Real.norm_eq_abs] using this

/-- The reflection formula. -/
theorem D1_neg {x : ℝ} (hx : 0 < x) : D1 (-x) = D1 x + x / 2 := by
  rw [D1_eq (neg_ne_zero.2 hx.ne'), D1_eq hx.ne']
  have key : ∀ y : ℝ, F (-y) + F y + y ^ 2 / 2 = 0 := by
    intro y
    have hd : ∀ y : ℝ, HasDerivAt (fun y => F (-y) + F y + y ^ 2 / 2) 0 y := by
      intro y
      have h1 : HasDerivAt (fun y => F (-y)) (f (-y) * (-1)) y :=
        HasDerivAt.comp y (hasDerivAt_F (-y)) (hasDerivAt_neg y)
      have h2 : HasDerivAt (fun y : ℝ => y ^ 2 / 2) y y := by
        have := (hasDerivAt_pow 2 y).div_const 2
        simpa using this
      refine ((h1.add (hasDerivAt_F y)).add h2).congr_deriv ?_
      by_cases h : y = 0
      · subst h; simp
      · have hp := exp_pos y
        have e1 := exp_sub_one_ne h
        have e2 := exp_sub_one_ne (neg_ne_zero.2 h)
        rw [f, f, if_neg (neg_ne_zero.2 h), if_neg h]
        have e3 : exp (-y) - 1 = -(exp y - 1) / exp y := by
          rw [exp_neg]; field_simp; ring
        rw [e3]
        field_simp
        ring
    have := is_const_of_deriv_eq_zero (fun y => (hd y).differentiableAt) (fun y => (hd y).deriv) y 0
    simpa [F_zero] using this
  have h := key x
  have : F (-x) = -(F x + x ^ 2 / 2) := by linarith
  rw [this]
  field_simp

end Ufunclab.Debye1
