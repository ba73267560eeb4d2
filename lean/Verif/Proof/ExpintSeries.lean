import Verif.Proof.ExpintCF
import Verif.Model.Expint
import Verif.Proof.XF
import Verif.Proof.EulerConst
import Mathlib.NumberTheory.Harmonic.GammaDeriv
import Mathlib.MeasureTheory.Integral.DominatedConvergence
import Mathlib.Analysis.SpecialFunctions.Pow.Asymptotics
import Mathlib.Analysis.Calculus.Deriv.MeanValue
/-! # E1 near 0: the logarithm and the power series -/
namespace Ufunclab.Expint
open MeasureTheory Set Filter Topology Real

local notation "γ" => Real.eulerMascheroniConstant

/-- `∫_0^∞ e^{-t} log t dt = -γ`. -/
theorem integral_log_exp : ∫ t in Ioi (0 : ℝ), Real.log t * Real.exp (-t) = -γ := by
  have h1 := Complex.hasDerivAt_GammaIntegral (s := 1) (by simp)
  have h2 : HasDerivAt Complex.GammaIntegral (-γ : ℂ) 1 := by
    refine Complex.hasDerivAt_Gamma_one.congr_of_eventuallyEq ?_
    have : {s : ℂ | 0 < s.re} ∈ 𝓝 (1 : ℂ) := (isOpen_lt continuous_const Complex.continuous_re).mem_nhds (by simp)
    filter_upwards [this] with s hs using (Complex.Gamma_eq_integral hs).symm
  have h3 := h1.unique h2
  simp only [sub_self, Complex.cpow_zero, one_mul] at h3
  have h4 : (∫ t in Ioi (0 : ℝ), ((Real.log t : ℂ) * (Real.exp (-t) : ℂ))) = ((∫ t in Ioi (0 : ℝ), Real.log t * Real.exp (-t) : ℝ) : ℂ) := by
    rw [← integral_complex_ofReal]
    simp only [Complex.ofReal_mul]
  rw [h4] at h3
  exact_mod_cast h3

theorem integrable_log_exp : IntegrableOn (fun t : ℝ => Real.log t * Real.exp (-t)) (Ioi 0) := by
  by_contra h
  have h1 := integral_undef h
  rw [integral_log_exp] at h1
  have := Real.one_half_lt_eulerMascheroniConstant
  linarith

theorem integrable_E1 {x : ℝ} (hx : 0 < x) : IntegrableOn (fun t : ℝ => Real.exp (-t) / t) (Ioi x) := by
  have hg : IntegrableOn (fun t : ℝ => Real.exp (-1 * t) / x) (Ioi x) := (exp_neg_integrableOn_Ioi x one_pos).div_const x
  refine Integrable.mono' hg ?_ ?_
  · refine ContinuousOn.aestronglyMeasurable ?_ measurableSet_Ioi
    intro u hu
    have hu' : x < u := hu
    have : u ≠ 0 := by linarith
    fun_prop (disch := assumption)
  · refine (ae_restrict_iff' measurableSet_Ioi).2 (Eventually.of_forall fun u hu => ?_)
    have hu' : x < u := hu
    have hu0 : 0 < u := by linarith
    rw [Real.norm_of_nonneg (by positivity), neg_one_mul]
    exact div_le_div_of_nonneg_left (Real.exp_pos _).le hx hu'.le

theorem E1_parts {x : ℝ} (hx : 0 < x) :
    E1 x = -Real.log x * Real.exp (-x) + ∫ t in Ioi x, Real.log t * Real.exp (-t) := by
  have hd : ∀ u ∈ Ici x, HasDerivAt (fun u : ℝ => Real.log u * Real.exp (-u))
      (Real.exp (-u) / u - Real.log u * Real.exp (-u)) u := by
    intro u hu
    have hu' : x ≤ u := hu
    have hu0 : u ≠ 0 := by linarith
    have h1 : HasDerivAt (fun u : ℝ => Real.exp (-u)) (Real.exp (-u) * (-1)) u := by
      simpa using (hasDerivAt_neg u).exp
    refine ((Real.hasDerivAt_log hu0).mul h1).congr_deriv ?_
    field_simp
    ring
  have hl : IntegrableOn (fun t : ℝ => Real.log t * Real.exp (-t)) (Ioi x) :=
    integrable_log_exp.mono_set (Ioi_subset_Ioi hx.le)
  have ht : Tendsto (fun u : ℝ => Real.log u * Real.exp (-u)) atTop (𝓝 0) := by
    have h1 : Tendsto (fun u : ℝ => u ^ 1 * Real.exp (-u)) atTop (𝓝 0) := Real.tendsto_pow_mul_exp_neg_atTop_nhds_zero 1
    refine squeeze_zero' ?_ ?_ h1
    · filter_upwards [eventually_ge_atTop 1] with u hu
      have := Real.log_nonneg hu
      positivity
    · filter_upwards [eventually_ge_atTop 1] with u hu
      have := Real.log_le_sub_one_of_pos (show 0 < u by linarith)
      have := Real.exp_pos (-u)
      nlinarith
  have h := integral_Ioi_of_hasDerivAt_of_tendsto' hd ((integrable_E1 hx).sub hl) ht
  rw [integral_sub (integrable_E1 hx) hl] at h
  rw [E1]
  linarith

theorem phi_tendsto : Tendsto (fun x => E1 x + Real.log x) (𝓝[>] 0) (𝓝 (-γ)) := by
  have h1 : Tendsto (fun x : ℝ => ∫ t in Ioi x, Real.log t * Real.exp (-t)) (𝓝[>] 0) (𝓝 (-γ)) := by
    have := (integrable_log_exp.continuousOn_Ici_primitive_Ioi) 0 self_mem_Ici
    rw [ContinuousWithinAt, integral_log_exp] at this
    exact this.mono_left (nhdsWithin_mono _ Ioi_subset_Ici_self)
  have h2 : Tendsto (fun x : ℝ => Real.log x * (1 - Real.exp (-x))) (𝓝[>] 0) (𝓝 0) := by
    have h := tendsto_log_mul_rpow_nhdsGT_zero zero_lt_one
    simp only [Real.rpow_one] at h
    rw [tendsto_zero_iff_norm_tendsto_zero] at h ⊢
    refine squeeze_zero' (Eventually.of_forall fun _ => norm_nonneg _) ?_ h
    filter_upwards [self_mem_nhdsWithin] with x hx
    have hx' : (0 : ℝ) < x := hx
    rw [norm_mul, norm_mul]
    refine mul_le_mul_of_nonneg_left ?_ (norm_nonneg _)
    have e1 : Real.exp (-x) ≤ 1 := Real.exp_le_one_iff.2 (by linarith)
    have e2 := Real.add_one_le_exp (-x)
    rw [Real.norm_of_nonneg (by linarith), Real.norm_of_nonneg hx'.le]
    linarith
  have h3 := h2.add h1
  rw [zero_add] at h3
  refine h3.congr' ?_
  filter_upwards [self_mem_nhdsWithin] with x hx
  rw [E1_parts hx]
  ring

theorem E1_deriv {x : ℝ} (hx : 0 < x) : HasDerivAt E1 (-(Real.exp (-x) / x)) x := by
  have hc : ContinuousOn (fun t : ℝ => Real.exp (-t) / t) (Ioi 0) := by
    intro u hu
    have hu' : (0 : ℝ) < u := hu
    have : u ≠ 0 := by linarith
    fun_prop (disch := assumption)
  have hi : IntervalIntegrable (fun t : ℝ => Real.exp (-t) / t) volume 1 x := by
    refine ContinuousOn.intervalIntegrable (hc.mono ?_)
    intro u hu
    have := hu.1
    have hm : 0 < min 1 x := lt_min one_pos hx
    exact hm.trans_le this
  have h1 : HasDerivAt (fun y => ∫ t in (1 : ℝ)..y, Real.exp (-t) / t) (Real.exp (-x) / x) x := by
    refine intervalIntegral.integral_hasDerivAt_right hi ?_ (hc.continuousAt (Ioi_mem_nhds hx))
    exact hc.stronglyMeasurableAtFilter isOpen_Ioi x hx
  have h2 := h1.const_sub (E1 1)
  refine h2.congr_of_eventuallyEq ?_
  filter_upwards [Ioi_mem_nhds hx] with y hy
  have := intervalIntegral.integral_Ioi_sub_Ioi' (integrable_E1 one_pos) (integrable_E1 (show (0 : ℝ) < y from hy))
  rw [E1, E1, ← this]
  ring

/-- The polynomial of the series branch: `Σ_{k<n} (-1)^k x^{k+1}/((k+1)(k+1)!)`. -/
noncomputable def Q (n : Nat) (x : ℝ) : ℝ := ∑ k ∈ Finset.range n, (-1) ^ k * x ^ (k + 1) / ((k + 1) * ((k + 1).factorial : ℝ))

theorem Q_deriv (n : Nat) {x : ℝ} (hx : 0 < x) :
    HasDerivAt (Q n) ((1 - ∑ k ∈ Finset.range (n + 1), (-x) ^ k / (k.factorial : ℝ)) / x) x := by
  have h : HasDerivAt (Q n) (∑ k ∈ Finset.range n, (-1) ^ k * (((k + 1 : ℕ) : ℝ) * x ^ k) / ((k + 1) * ((k + 1).factorial : ℝ))) x := by
    have : Q n = fun y => ∑ k ∈ Finset.range n, (-1) ^ k * y ^ (k + 1) / ((k + 1) * ((k + 1).factorial : ℝ)) := rfl
    rw [this]
    refine HasDerivAt.fun_sum fun k _ => ?_
    have := ((hasDerivAt_pow (k + 1) x).const_mul ((-1) ^ k)).div_const ((k + 1) * ((k + 1).factorial : ℝ))
    simpa using this
  refine h.congr_deriv ?_
  rw [Finset.sum_range_succ']
  simp only [pow_zero, Nat.factorial_zero, Nat.cast_one, div_one]
  rw [eq_div_iff hx.ne', Finset.sum_mul]
  have : ∀ k ∈ Finset.range n, (-1) ^ k * (((k + 1 : ℕ) : ℝ) * x ^ k) / ((k + 1) * ((k + 1).factorial : ℝ)) * x =
      -((-x) ^ (k + 1) / ((k + 1).factorial : ℝ)) := by
    intro k _
    have : (0 : ℝ) < (k : ℝ) + 1 := by positivity
    have : ((k + 1).factorial : ℝ) ≠ 0 := by positivity
    push_cast
    rw [neg_pow x (k + 1), pow_succ, pow_succ]
    field_simp
  rw [Finset.sum_congr rfl this, Finset.sum_neg_distrib]
  ring

/-- Truncating the series. -/
theorem series_bound (n : Nat) {x : ℝ} (hx : 0 < x) (h1 : x ≤ 1) :
    |E1 x - (-γ - Real.log x + Q n x)| ≤ ((n + 1).succ / ((n + 1).factorial * (n + 1 : ℕ)) : ℝ) / (n + 1) * x ^ (n + 1) := by
  set c : ℝ := ((n + 1).succ / ((n + 1).factorial * (n + 1 : ℕ)) : ℝ) with hc
  have hc0 : 0 ≤ c := by positivity
  -- the derivative of the difference
  have hder : ∀ y ∈ Ioc (0 : ℝ) 1, HasDerivAt (fun y => E1 y + Real.log y - Q n y)
      ((∑ k ∈ Finset.range (n + 1), (-y) ^ k / (k.factorial : ℝ) - Real.exp (-y)) / y) y := by
    intro y hy
    have h := ((E1_deriv hy.1).add (Real.hasDerivAt_log hy.1.ne')).sub (Q_deriv n hy.1)
    refine h.congr_deriv ?_
    have := hy.1.ne'
    field_simp
    ring
  have hbd : ∀ y ∈ Ioc (0 : ℝ) 1, |(∑ k ∈ Finset.range (n + 1), (-y) ^ k / (k.factorial : ℝ) - Real.exp (-y)) / y| ≤ c * y ^ n := by
    intro y hy
    have hb := Real.exp_bound (x := -y) (by rw [abs_neg, abs_of_pos hy.1]; exact hy.2) (n := n + 1) (by omega)
    rw [abs_neg, abs_of_pos hy.1, ← hc] at hb
    rw [abs_div, abs_of_pos hy.1, abs_sub_comm, div_le_iff₀ hy.1]
    refine hb.trans (le_of_eq ?_)
    rw [pow_succ]; ring
  have hpow : ∀ y : ℝ, HasDerivAt (fun y : ℝ => c / (n + 1) * y ^ (n + 1)) (c * y ^ n) y := by
    intro y
    have := (hasDerivAt_pow (n + 1) y).const_mul (c / (n + 1))
    refine this.congr_deriv ?_
    have : (n : ℝ) + 1 ≠ 0 := by positivity
    rw [Nat.add_sub_cancel]; push_cast; field_simp
  have hQ0 : Tendsto (Q n) (𝓝[>] 0) (𝓝 0) := by
    have hcont : Continuous (Q n) := by unfold Q; fun_prop
    have := hcont.tendsto 0
    have e : Q n 0 = 0 := by unfold Q; simp
    rw [e] at this
    exact this.mono_left nhdsWithin_le_nhds
  have hP0 : Tendsto (fun y : ℝ => c / (n + 1) * y ^ (n + 1)) (𝓝[>] 0) (𝓝 0) := by
    have hcont : Continuous (fun y : ℝ => c / (n + 1) * y ^ (n + 1)) := by fun_prop
    have := hcont.tendsto 0
    simp only [ne_eq, Nat.succ_ne_zero, not_false_eq_true, zero_pow, mul_zero] at this
    exact this.mono_left nhdsWithin_le_nhds
  have hconv : Convex ℝ (Ioc (0 : ℝ) 1) := convex_Ioc 0 1
  -- upper
  have hanti : AntitoneOn (fun y => E1 y + Real.log y - Q n y - c / (n + 1) * y ^ (n + 1)) (Ioc 0 1) := by
    refine antitoneOn_of_hasDerivWithinAt_nonpos hconv (f' := fun y => (∑ k ∈ Finset.range (n + 1), (-y) ^ k / (k.factorial : ℝ) - Real.exp (-y)) / y - c * y ^ n) ?_ ?_ ?_
    · exact fun y hy => ((hder y hy).sub (hpow y)).continuousAt.continuousWithinAt
    · exact fun y hy => ((hder y (interior_subset hy)).sub (hpow y)).hasDerivWithinAt
    · intro y hy
      have := (abs_le.1 (hbd y (interior_subset hy))).2
      linarith
  have hmono : MonotoneOn (fun y => E1 y + Real.log y - Q n y + c / (n + 1) * y ^ (n + 1)) (Ioc 0 1) := by
    refine monotoneOn_of_hasDerivWithinAt_nonneg hconv (f' := fun y => (∑ k ∈ Finset.range (n + 1), (-y) ^ k / (k.factorial : ℝ) - Real.exp (-y)) / y + c * y ^ n) ?_ ?_ ?_
    · exact fun y hy => ((hder y hy).add (hpow y)).continuousAt.continuousWithinAt
    · exact fun y hy => ((hder y (interior_subset hy)).add (hpow y)).hasDerivWithinAt
    · intro y hy
      have := (abs_le.1 (hbd y (interior_subset hy))).1
      linarith
  have l1 : Tendsto (fun y => E1 y + Real.log y - Q n y - c / (n + 1) * y ^ (n + 1)) (𝓝[>] 0) (𝓝 (-γ)) := by
    have := (phi_tendsto.sub hQ0).sub hP0
    rwa [sub_zero, sub_zero] at this
  have l2 : Tendsto (fun y => E1 y + Real.log y - Q n y + c / (n + 1) * y ^ (n + 1)) (𝓝[>] 0) (𝓝 (-γ)) := by
    have := (phi_tendsto.sub hQ0).add hP0
    rwa [sub_zero, add_zero] at this
  have hev : ∀ᶠ y in 𝓝[>] (0 : ℝ), 0 < y ∧ y ≤ x := by
    filter_upwards [Ioc_mem_nhdsGT hx] with y hy using hy
  have u1 : E1 x + Real.log x - Q n x - c / (n + 1) * x ^ (n + 1) ≤ -γ := by
    refine ge_of_tendsto l1 ?_
    filter_upwards [hev] with y hy
    exact hanti ⟨hy.1, hy.2.trans h1⟩ ⟨hx, h1⟩ hy.2
  have u2 : -γ ≤ E1 x + Real.log x - Q n x + c / (n + 1) * x ^ (n + 1) := by
    refine le_of_tendsto l2 ?_
    filter_upwards [hev] with y hy
    exact hmono ⟨hy.1, hy.2.trans h1⟩ ⟨hx, h1⟩ hy.2
  rw [abs_le]
  constructor <;> linarith

end Ufunclab.Expint
