import Verif.Spec.Expint
import Mathlib.MeasureTheory.Integral.IntegralEqImproper
import Mathlib.MeasureTheory.Integral.ExpDecay
import Mathlib.Analysis.SpecialFunctions.ImproperIntegrals
import Mathlib.Tactic.Linarith
import Mathlib.Tactic.FieldSimp
import Mathlib.Tactic.Ring
import Mathlib.Tactic.Positivity
/-! # The continued fraction of E1: integrals behind it -/
namespace Ufunclab.Expint
open MeasureTheory Set Filter Topology

/-- `∫_1^∞ e^{-xu} ((u-1)/u)^k / u du`. -/
noncomputable def A (x : ℝ) (k : Nat) : ℝ := ∫ u in Ioi (1 : ℝ), Real.exp (-x * u) * ((u - 1) / u) ^ k / u
/-- `∫_1^∞ e^{-xu} ((u-1)/u)^k du`. -/
noncomputable def B (x : ℝ) (k : Nat) : ℝ := ∫ u in Ioi (1 : ℝ), Real.exp (-x * u) * ((u - 1) / u) ^ k

variable {x : ℝ}

theorem w_mem {u : ℝ} (hu : 1 < u) : 0 < (u - 1) / u ∧ (u - 1) / u < 1 := by
  have : 0 < u := by linarith
  refine ⟨div_pos (by linarith) this, ?_⟩
  rw [div_lt_one this]; linarith

theorem intB (hx : 0 < x) (k : Nat) : IntegrableOn (fun u : ℝ => Real.exp (-x * u) * ((u - 1) / u) ^ k) (Ioi 1) := by
  have hg : IntegrableOn (fun u : ℝ => Real.exp (-x * u)) (Ioi 1) := exp_neg_integrableOn_Ioi 1 hx
  refine Integrable.mono' hg ?_ ?_
  · refine ContinuousOn.aestronglyMeasurable ?_ measurableSet_Ioi
    intro u hu
    have hu' : (1 : ℝ) < u := hu
    have : u ≠ 0 := by linarith
    fun_prop (disch := assumption)
  · refine (ae_restrict_iff' measurableSet_Ioi).2 (Eventually.of_forall fun u hu => ?_)
    have hw := w_mem (show 1 < u from hu)
    rw [Real.norm_of_nonneg (by have := hw.1; positivity)]
    have : ((u - 1) / u) ^ k ≤ 1 := pow_le_one₀ hw.1.le hw.2.le
    nlinarith [Real.exp_pos (-x * u)]

theorem intA (hx : 0 < x) (k : Nat) : IntegrableOn (fun u : ℝ => Real.exp (-x * u) * ((u - 1) / u) ^ k / u) (Ioi 1) := by
  refine Integrable.mono' (intB hx k) ?_ ?_
  · refine ContinuousOn.aestronglyMeasurable ?_ measurableSet_Ioi
    intro u hu
    have hu' : (1 : ℝ) < u := hu
    have : u ≠ 0 := by linarith
    fun_prop (disch := assumption)
  · refine (ae_restrict_iff' measurableSet_Ioi).2 (Eventually.of_forall fun u hu => ?_)
    have hu' : (1 : ℝ) < u := hu
    have hw := (w_mem hu').1
    have hp : 0 ≤ Real.exp (-x * u) * ((u - 1) / u) ^ k := by positivity
    rw [Real.norm_of_nonneg (by positivity)]
    exact div_le_self hp hu'.le

theorem A_pos (hx : 0 < x) (k : Nat) : 0 < A x k := by
  refine (setIntegral_pos_iff_support_of_nonneg_ae ?_ (intA hx k)).2 ?_
  · refine (ae_restrict_iff' measurableSet_Ioi).2 (Eventually.of_forall fun u hu => ?_)
    have hu' : (1 : ℝ) < u := hu
    have hw := (w_mem hu').1
    have : (0 : ℝ) ≤ Real.exp (-x * u) * ((u - 1) / u) ^ k / u := by positivity
    exact this
  · have : Ioi (1 : ℝ) ⊆ Function.support (fun u : ℝ => Real.exp (-x * u) * ((u - 1) / u) ^ k / u) := by
      intro u hu
      have hu' : (1 : ℝ) < u := hu
      have hw := (w_mem hu').1
      have : (0 : ℝ) < Real.exp (-x * u) * ((u - 1) / u) ^ k / u := by positivity
      exact this.ne'
    rw [inter_eq_right.2 this, Real.volume_Ioi]
    exact ENNReal.coe_lt_top

theorem B_rec (hx : 0 < x) (k : Nat) : B x k = A x k + B x (k + 1) := by
  rw [A, B, B, ← integral_add (intA hx k) (intB hx (k + 1))]
  refine setIntegral_congr_fun measurableSet_Ioi fun u hu => ?_
  have hu' : (1 : ℝ) < u := hu
  have : u ≠ 0 := by linarith
  simp only [pow_succ]
  field_simp
  ring

theorem xB_rec (hx : 0 < x) (k : Nat) : x * B x (k + 1) = (k + 1) * (A x k - A x (k + 1)) := by
  have hd : ∀ u ∈ Ici (1 : ℝ), HasDerivAt (fun u : ℝ => Real.exp (-x * u) * ((u - 1) / u) ^ (k + 1))
      ((k + 1) * (Real.exp (-x * u) * ((u - 1) / u) ^ k / u - Real.exp (-x * u) * ((u - 1) / u) ^ (k + 1) / u)
        - x * (Real.exp (-x * u) * ((u - 1) / u) ^ (k + 1))) u := by
    intro u hu
    have hu' : (1 : ℝ) ≤ u := hu
    have hu0 : u ≠ 0 := by linarith
    have h1 : HasDerivAt (fun u : ℝ => Real.exp (-x * u)) (Real.exp (-x * u) * (-x)) u := by
      simpa using ((hasDerivAt_id u).const_mul (-x)).exp
    have h2 : HasDerivAt (fun u : ℝ => (u - 1) / u) ((1 * u - (u - 1) * 1) / u ^ 2) u :=
      ((hasDerivAt_id u).sub_const 1).div (hasDerivAt_id u) hu0
    have h3 := h1.mul (h2.pow (k + 1))
    refine h3.congr_deriv ?_
    simp only [Nat.add_sub_cancel, Pi.pow_apply]
    push_cast
    simp only [pow_succ]
    field_simp
    ring
  have hi : IntegrableOn (fun u : ℝ => (k + 1) * (Real.exp (-x * u) * ((u - 1) / u) ^ k / u - Real.exp (-x * u) * ((u - 1) / u) ^ (k + 1) / u)
        - x * (Real.exp (-x * u) * ((u - 1) / u) ^ (k + 1))) (Ioi 1) :=
    (((intA hx k).sub (intA hx (k + 1))).const_mul _).sub ((intB hx (k + 1)).const_mul _)
  have ht : Tendsto (fun u : ℝ => Real.exp (-x * u) * ((u - 1) / u) ^ (k + 1)) atTop (𝓝 0) := by
    have he : Tendsto (fun u : ℝ => Real.exp (-x * u)) atTop (𝓝 0) := by
      refine Real.tendsto_exp_atBot.comp ?_
      have := (tendsto_id (α := ℝ) (x := atTop)).const_mul_atTop_of_neg (show -x < 0 by linarith)
      exact this
    refine squeeze_zero' ?_ ?_ he
    · filter_upwards [eventually_gt_atTop 1] with u hu
      have := (w_mem hu).1
      positivity
    · filter_upwards [eventually_gt_atTop 1] with u hu
      have hw := w_mem hu
      have : ((u - 1) / u) ^ (k + 1) ≤ 1 := pow_le_one₀ hw.1.le hw.2.le
      nlinarith [Real.exp_pos (-x * u)]
  have h := integral_Ioi_of_hasDerivAt_of_tendsto' hd hi ht
  have hi1 : IntegrableOn (fun u : ℝ => ((k : ℝ) + 1) * (Real.exp (-x * u) * ((u - 1) / u) ^ k / u - Real.exp (-x * u) * ((u - 1) / u) ^ (k + 1) / u)) (Ioi 1) :=
    ((intA hx k).sub (intA hx (k + 1))).const_mul _
  rw [integral_sub hi1 ((intB hx (k + 1)).const_mul _),
    integral_const_mul, integral_const_mul, integral_sub (intA hx k) (intA hx (k + 1))] at h
  simp only [sub_self, zero_div, zero_pow (Nat.succ_ne_zero k), mul_zero] at h
  rw [A, A, B]
  linarith

theorem B_zero (hx : 0 < x) : x * B x 0 = Real.exp (-x) := by
  have : B x 0 = Real.exp (-x) / x := by
    rw [B]
    simp only [pow_zero, mul_one]
    rw [integral_exp_mul_Ioi (by linarith) 1]
    simp [neg_div_neg_eq]
  rw [this]; field_simp

theorem A_zero (hx : 0 < x) : A x 0 = E1 x := by
  rw [A, E1]
  have := integral_comp_mul_left_Ioi' (fun t : ℝ => Real.exp (-t) / t) 1 hx
  rw [mul_one] at this
  rw [← this, smul_eq_mul, ← integral_const_mul]
  refine setIntegral_congr_fun measurableSet_Ioi fun u hu => ?_
  have hu' : (1 : ℝ) < u := hu
  have : u ≠ 0 := by linarith
  simp only [pow_zero, mul_one]
  rw [neg_mul]
  field_simp

theorem E1_pos (hx : 0 < x) : 0 < E1 x := by rw [← A_zero hx]; exact A_pos hx 0

theorem kA (hx : 0 < x) (k : Nat) : (k + 1) * A x k = (k + 1) * A x (k + 1) + x * B x (k + 1) := by
  rw [xB_rec hx k]; ring

theorem B_pos (hx : 0 < x) (k : Nat) : 0 < B x k := by
  refine (setIntegral_pos_iff_support_of_nonneg_ae ?_ (intB hx k)).2 ?_
  · refine (ae_restrict_iff' measurableSet_Ioi).2 (Eventually.of_forall fun u hu => ?_)
    have hu' : (1 : ℝ) < u := hu
    have hw := (w_mem hu').1
    have : (0 : ℝ) ≤ Real.exp (-x * u) * ((u - 1) / u) ^ k := by positivity
    exact this
  · have : Ioi (1 : ℝ) ⊆ Function.support (fun u : ℝ => Real.exp (-x * u) * ((u - 1) / u) ^ k) := by
      intro u hu
      have hu' : (1 : ℝ) < u := hu
      have hw := (w_mem hu').1
      have : (0 : ℝ) < Real.exp (-x * u) * ((u - 1) / u) ^ k := by positivity
      exact this.ne'
    rw [inter_eq_right.2 this, Real.volume_Ioi]
    exact ENNReal.coe_lt_top

theorem xB_le (hx : 0 < x) (k : Nat) : x * B x (k + 1) ≤ (k + 1) * A x k := by
  rw [xB_rec hx k]
  have := A_pos hx (k + 1)
  have : (0 : ℝ) ≤ (k + 1) * A x (k + 1) := by positivity
  nlinarith

end Ufunclab.Expint
