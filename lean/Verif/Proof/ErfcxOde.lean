import Verif.Proof.Normal
import Mathlib.Analysis.Calculus.Deriv.MeanValue
import Mathlib.MeasureTheory.Integral.IntervalIntegral.FundThmCalculus
import Mathlib.Analysis.SpecialFunctions.ExpDeriv
import Mathlib.Topology.Order.MonotoneConvergence
/-! # The differential equation of `erfcx`, and comparison with approximations -/
namespace Ufunclab.Erfcx
open Real MeasureTheory Set Filter Topology
open Ufunclab.Normal (erfc)

noncomputable section

/-- The function approximated. -/
abbrev E : ℝ → ℝ := Normal.erfcx

/-- `1/√π`. -/
def c : ℝ := 1 / √π

theorem c_pos : 0 < c := by have := Normal.sqrt_pi_pos; unfold c; positivity

theorem hasDerivAt_erfc (x : ℝ) : HasDerivAt erfc (-(2 * c) * exp (-x ^ 2)) x := by
  have hcont : Continuous fun t : ℝ => exp (-t ^ 2) := by fun_prop
  have h1 : HasDerivAt (fun y => ∫ t in (0 : ℝ)..y, exp (-t ^ 2)) (exp (-x ^ 2)) x :=
    (hcont.integral_hasStrictDerivAt 0 x).hasDerivAt
  have e : erfc = fun y => 2 / √π * ((∫ t in Ioi (0 : ℝ), exp (-t ^ 2)) - ∫ t in (0 : ℝ)..y, exp (-t ^ 2)) := by
    funext y
    have h := intervalIntegral.integral_interval_add_Ioi (a := 0) (b := y) Normal.integrable_exp.integrableOn
      Normal.integrable_exp.integrableOn
    unfold Normal.erfc
    rw [← h]; ring
  rw [e]
  have h2 := ((h1.const_sub (∫ t in Ioi (0 : ℝ), exp (-t ^ 2))).const_mul (2 / √π))
  refine h2.congr_deriv ?_
  unfold c; ring

theorem hasDerivAt_sq_exp (x : ℝ) : HasDerivAt (fun y : ℝ => exp (y ^ 2)) (2 * x * exp (x ^ 2)) x := by
  have h := (hasDerivAt_pow 2 x).exp
  refine h.congr_deriv ?_
  simp; ring

theorem hasDerivAt_neg_sq_exp (x : ℝ) : HasDerivAt (fun y : ℝ => exp (-y ^ 2)) (-(2 * x) * exp (-x ^ 2)) x := by
  have h := (hasDerivAt_pow 2 x).neg.exp
  refine h.congr_deriv ?_
  simp; ring

/-- The differential equation. -/
theorem hasDerivAt_E (x : ℝ) : HasDerivAt E (2 * x * E x - 2 * c) x := by
  have h := (hasDerivAt_sq_exp x).mul (hasDerivAt_erfc x)
  refine h.congr_deriv ?_
  have e : exp (x ^ 2) * exp (-x ^ 2) = 1 := by rw [← exp_add]; simp
  show _ = 2 * x * (exp (x ^ 2) * erfc x) - 2 * c
  linear_combination (-(2 * c)) * e

theorem E_pos (x : ℝ) : 0 < E x := mul_pos (exp_pos _) (Normal.erfc_pos x)

theorem E_zero : E 0 = 1 := by simp [E, Normal.erfcx, Normal.erfc_zero]

theorem E_neg (x : ℝ) : E (-x) = 2 * exp (x ^ 2) - E x := by
  simp only [E, Normal.erfcx, Normal.erfc_neg, neg_sq]; ring

theorem E_mul_exp (x : ℝ) : E x * exp (-x ^ 2) = erfc x := by
  have e : exp (x ^ 2) * exp (-x ^ 2) = 1 := by rw [← exp_add]; simp
  simp only [E, Normal.erfcx]; linear_combination (erfc x) * e

theorem exp_neg_sq_tendsto : Tendsto (fun x : ℝ => exp (-x ^ 2)) atTop (𝓝 0) :=
  tendsto_exp_atBot.comp (tendsto_neg_atTop_atBot.comp (tendsto_pow_atTop (by norm_num)))

theorem erfc_tendsto : Tendsto erfc atTop (𝓝 0) := by
  have h : Tendsto (fun y : ℝ => ∫ t in (0 : ℝ)..y, exp (-t ^ 2)) atTop (𝓝 (∫ t in Ioi (0 : ℝ), exp (-t ^ 2))) :=
    intervalIntegral_tendsto_integral_Ioi 0 Normal.integrable_exp.integrableOn tendsto_id
  have e : erfc = fun y => 2 / √π * ((∫ t in Ioi (0 : ℝ), exp (-t ^ 2)) - ∫ t in (0 : ℝ)..y, exp (-t ^ 2)) := by
    funext y
    have h := intervalIntegral.integral_interval_add_Ioi (a := 0) (b := y) Normal.integrable_exp.integrableOn
      Normal.integrable_exp.integrableOn
    unfold Normal.erfc
    rw [← h]; ring
  rw [e]
  have h2 := (h.const_sub (∫ t in Ioi (0 : ℝ), exp (-t ^ 2))).const_mul (2 / √π)
  simpa using h2

/-- Comparison on a half line: an upper solution. -/
theorem le_of_residual {Φ Φ' : ℝ → ℝ} {a κ B : ℝ} (hd : ∀ x ∈ Ici a, HasDerivAt Φ (Φ' x) x)
    (hB : ∀ x ∈ Ici a, |Φ x| ≤ B) (hr : ∀ x ∈ Ici a, 0 ≤ Φ' x - 2 * x * Φ x + κ * (2 * c)) :
    ∀ x ∈ Ici a, Φ x ≤ κ * E x := by
  set h : ℝ → ℝ := fun x => (Φ x - κ * E x) * exp (-x ^ 2) with hh
  have hder : ∀ x ∈ Ici a, HasDerivAt h ((Φ' x - 2 * x * Φ x + κ * (2 * c)) * exp (-x ^ 2)) x := by
    intro x hx
    have h1 := ((hd x hx).sub ((hasDerivAt_E x).const_mul κ)).mul (hasDerivAt_neg_sq_exp x)
    refine h1.congr_deriv ?_
    simp only [Pi.sub_apply]
    ring
  have hmono : MonotoneOn h (Ici a) := by
    refine monotoneOn_of_deriv_nonneg (convex_Ici a) (fun x hx => (hder x hx).continuousAt.continuousWithinAt)
      (fun x hx => ?_) (fun x hx => ?_)
    · exact (hder x (interior_subset hx)).differentiableAt.differentiableWithinAt
    · have hx := interior_subset hx
      rw [(hder x hx).deriv]
      exact mul_nonneg (hr x hx) (exp_pos _).le
  have hlim : Tendsto h atTop (𝓝 0) := by
    have h1 : Tendsto (fun x => Φ x * exp (-x ^ 2)) atTop (𝓝 0) := by
      have hb : Tendsto (fun x : ℝ => B * exp (-x ^ 2)) atTop (𝓝 0) := by
        simpa using exp_neg_sq_tendsto.const_mul B
      refine squeeze_zero_norm' ?_ hb
      filter_upwards [eventually_ge_atTop a] with x hx
      rw [norm_mul, Real.norm_eq_abs, Real.norm_eq_abs, abs_of_pos (exp_pos _)]
      exact mul_le_mul_of_nonneg_right (hB x hx) (exp_pos _).le
    have h2 : Tendsto (fun x => κ * erfc x) atTop (𝓝 0) := by simpa using erfc_tendsto.const_mul κ
    have h3 := h1.sub h2
    rw [sub_zero] at h3
    refine h3.congr fun x => ?_
    simp only [hh]
    rw [sub_mul, mul_assoc κ, E_mul_exp]
  intro x hx
  have hle : h x ≤ 0 := by
    refine ge_of_tendsto hlim ?_
    filter_upwards [eventually_ge_atTop x] with y hy
    exact hmono hx (le_trans hx hy) hy
  have := exp_pos (-x ^ 2)
  by_contra hc
  push Not at hc
  have : 0 < h x := mul_pos (by linarith) this
  linarith

/-- Comparison on a half line: a lower solution. -/
theorem ge_of_residual {Φ Φ' : ℝ → ℝ} {a κ B : ℝ} (hd : ∀ x ∈ Ici a, HasDerivAt Φ (Φ' x) x)
    (hB : ∀ x ∈ Ici a, |Φ x| ≤ B) (hr : ∀ x ∈ Ici a, Φ' x - 2 * x * Φ x + κ * (2 * c) ≤ 0) :
    ∀ x ∈ Ici a, κ * E x ≤ Φ x := by
  intro x hx
  have := le_of_residual (Φ := fun x => -Φ x) (Φ' := fun x => -Φ' x) (a := a) (κ := -κ) (B := B)
    (fun x hx => (hd x hx).neg) (fun x hx => by rw [abs_neg]; exact hB x hx)
    (fun x hx => by have := hr x hx; linarith) x hx
  linarith

/-! ## Bounds from simple rational functions -/

theorem E_le_inv {x : ℝ} (hx : 0 < x) : E x ≤ c / x := by
  have hd : ∀ y ∈ Ici x, HasDerivAt (fun y : ℝ => c / y) (-c / y ^ 2) y := by
    intro y hy
    have hy0 : y ≠ 0 := (lt_of_lt_of_le hx hy).ne'
    have h := (hasDerivAt_inv hy0).const_mul c
    refine h.congr_deriv ?_
    ring
  have h := ge_of_residual (κ := 1) (B := c / x) hd (fun y hy => ?_) (fun y hy => ?_) x (mem_Ici.mpr le_rfl)
  · linarith
  · have hy0 : 0 < y := lt_of_lt_of_le hx hy
    have := c_pos
    rw [abs_of_pos (by positivity)]
    exact div_le_div_of_nonneg_left c_pos.le hx hy
  · have hy0 : 0 < y := lt_of_lt_of_le hx hy
    have := c_pos
    have e : -c / y ^ 2 - 2 * y * (c / y) + 1 * (2 * c) = -(c / y ^ 2) := by field_simp; ring
    rw [e]
    have : 0 < c / y ^ 2 := by positivity
    linarith

theorem E_ge_rat {x : ℝ} (hx : 0 ≤ x) : c * (x + 4) / (x ^ 2 + 4 * x + 3) ≤ E x := by
  have hc := c_pos
  have hd : ∀ y ∈ Ici (0 : ℝ), HasDerivAt (fun y : ℝ => c * (y + 4) / (y ^ 2 + 4 * y + 3))
      (c * (-y ^ 2 - 8 * y - 13) / (y ^ 2 + 4 * y + 3) ^ 2) y := by
    intro y hy
    have hy0 : 0 ≤ y := hy
    have hq : y ^ 2 + 4 * y + 3 ≠ 0 := by positivity
    have h1 : HasDerivAt (fun y : ℝ => c * (y + 4)) (c * 1) y := ((hasDerivAt_id y).add_const 4).const_mul c
    have h2 : HasDerivAt (fun y : ℝ => y ^ 2 + 4 * y + 3) (2 * y + 4) y := by
      have := ((hasDerivAt_pow 2 y).add ((hasDerivAt_id y).const_mul 4)).add_const 3
      refine this.congr_deriv ?_
      simp
    refine (h1.div h2 hq).congr_deriv ?_
    congr 1; ring
  have h := le_of_residual (κ := 1) (B := 2 * c) hd (fun y hy => ?_) (fun y hy => ?_) x (mem_Ici.mpr hx)
  · linarith
  · have hy0 : 0 ≤ y := hy
    rw [abs_of_nonneg (by positivity), div_le_iff₀ (by positivity)]
    nlinarith [mul_nonneg hc.le hy0, mul_nonneg hc.le (sq_nonneg y)]
  · have hy0 : 0 ≤ y := hy
    have hq : 0 < y ^ 2 + 4 * y + 3 := by positivity
    have e : c * (-y ^ 2 - 8 * y - 13) / (y ^ 2 + 4 * y + 3) ^ 2 - 2 * y * (c * (y + 4) / (y ^ 2 + 4 * y + 3)) + 1 * (2 * c)
        = c * (5 * y ^ 2 + 16 * y + 5) / (y ^ 2 + 4 * y + 3) ^ 2 := by
      field_simp; ring
    rw [e]; positivity

theorem E_antitone {x y : ℝ} (hx : 0 ≤ x) (hxy : x ≤ y) : E y ≤ E x := by
  have : AntitoneOn E (Ici 0) := by
    refine antitoneOn_of_deriv_nonpos (convex_Ici 0) (fun x _ => (hasDerivAt_E x).continuousAt.continuousWithinAt)
      (fun x _ => (hasDerivAt_E x).differentiableAt.differentiableWithinAt) (fun x hx => ?_)
    rw [interior_Ici] at hx
    have hx : 0 < x := hx
    rw [(hasDerivAt_E x).deriv]
    have h := E_le_inv hx
    rw [le_div_iff₀ hx] at h
    linarith
  exact this hx (le_trans hx hxy) hxy

/-- `(4 + x)^6 erfcx x` increases: the condition number in `y = 4/(4 + x)` is at most 6. -/
theorem pow_mul_E_mono {x y : ℝ} (hx : 0 ≤ x) (hxy : x ≤ y) : (4 + x) ^ 6 * E x ≤ (4 + y) ^ 6 * E y := by
  have hder : ∀ x : ℝ, HasDerivAt (fun x => (4 + x) ^ 6 * E x) (6 * (4 + x) ^ 5 * E x + (4 + x) ^ 6 * (2 * x * E x - 2 * c)) x := by
    intro x
    have h1 : HasDerivAt (fun x : ℝ => (4 + x) ^ 6) (6 * (4 + x) ^ 5) x := by
      have := ((hasDerivAt_id x).const_add 4).pow 6
      refine this.congr_deriv ?_
      simp
    exact h1.mul (hasDerivAt_E x)
  have : MonotoneOn (fun x => (4 + x) ^ 6 * E x) (Ici 0) := by
    refine monotoneOn_of_deriv_nonneg (convex_Ici 0) (fun x _ => (hder x).continuousAt.continuousWithinAt)
      (fun x _ => (hder x).differentiableAt.differentiableWithinAt) (fun x hx => ?_)
    rw [interior_Ici] at hx
    have hx : 0 < x := hx
    rw [(hder x).deriv]
    have h := E_ge_rat hx.le
    rw [div_le_iff₀ (by positivity)] at h
    have e : 6 * (4 + x) ^ 5 * E x + (4 + x) ^ 6 * (2 * x * E x - 2 * c)
        = 2 * (4 + x) ^ 5 * (E x * (x ^ 2 + 4 * x + 3) - c * (x + 4)) := by ring
    rw [e]
    exact mul_nonneg (by positivity) (by linarith)
  exact this hx (le_trans hx hxy) hxy

/-! ## The continued fraction -/

/-- Its value in exact arithmetic. -/
def cf (x : ℝ) : ℝ := c * (4 * x ^ 4 + 18 * x ^ 2 + 8) / (4 * x ^ 5 + 20 * x ^ 3 + 15 * x)

theorem hasDerivAt_cf {x : ℝ} (hx : 0 < x) :
    HasDerivAt cf (c * ((16 * x ^ 3 + 36 * x) * (4 * x ^ 5 + 20 * x ^ 3 + 15 * x) -
      (4 * x ^ 4 + 18 * x ^ 2 + 8) * (20 * x ^ 4 + 60 * x ^ 2 + 15)) / (4 * x ^ 5 + 20 * x ^ 3 + 15 * x) ^ 2) x := by
  have hq : 4 * x ^ 5 + 20 * x ^ 3 + 15 * x ≠ 0 := by positivity
  have h1 : HasDerivAt (fun y : ℝ => c * (4 * y ^ 4 + 18 * y ^ 2 + 8)) (c * (16 * x ^ 3 + 36 * x)) x := by
    have := ((((hasDerivAt_pow 4 x).const_mul 4).add ((hasDerivAt_pow 2 x).const_mul 18)).add_const 8).const_mul c
    refine this.congr_deriv ?_
    push_cast
    congr 1; ring
  have h2 : HasDerivAt (fun y : ℝ => 4 * y ^ 5 + 20 * y ^ 3 + 15 * y) (20 * x ^ 4 + 60 * x ^ 2 + 15) x := by
    have := (((hasDerivAt_pow 5 x).const_mul 4).add ((hasDerivAt_pow 3 x).const_mul 20)).add ((hasDerivAt_id x).const_mul 15)
    refine this.congr_deriv ?_
    simp; ring
  refine (h1.div h2 hq).congr_deriv ?_
  congr 1; ring

theorem cf_residual {x κ : ℝ} (hx : 0 < x) :
    c * ((16 * x ^ 3 + 36 * x) * (4 * x ^ 5 + 20 * x ^ 3 + 15 * x) -
      (4 * x ^ 4 + 18 * x ^ 2 + 8) * (20 * x ^ 4 + 60 * x ^ 2 + 15)) / (4 * x ^ 5 + 20 * x ^ 3 + 15 * x) ^ 2
      - 2 * x * cf x + κ * (2 * c) = 2 * c * ((κ - 1) - 60 / (4 * x ^ 5 + 20 * x ^ 3 + 15 * x) ^ 2) := by
  unfold cf
  have hq : 0 < 4 * x ^ 5 + 20 * x ^ 3 + 15 * x := by positivity
  obtain ⟨q, hqq⟩ : ∃ q, q = 4 * x ^ 5 + 20 * x ^ 3 + 15 * x := ⟨_, rfl⟩
  have hk : (16 * x ^ 3 + 36 * x) * q - (4 * x ^ 4 + 18 * x ^ 2 + 8) * (20 * x ^ 4 + 60 * x ^ 2 + 15)
      - 2 * x * (4 * x ^ 4 + 18 * x ^ 2 + 8) * q + 2 * q ^ 2 = -120 := by rw [hqq]; ring
  rw [← hqq] at hq ⊢
  have hq' : q ≠ 0 := hq.ne'
  have e : c * ((16 * x ^ 3 + 36 * x) * q - (4 * x ^ 4 + 18 * x ^ 2 + 8) * (20 * x ^ 4 + 60 * x ^ 2 + 15)) / q ^ 2
      - 2 * x * (c * (4 * x ^ 4 + 18 * x ^ 2 + 8) / q) + κ * (2 * c)
      = c * ((16 * x ^ 3 + 36 * x) * q - (4 * x ^ 4 + 18 * x ^ 2 + 8) * (20 * x ^ 4 + 60 * x ^ 2 + 15)
      - 2 * x * (4 * x ^ 4 + 18 * x ^ 2 + 8) * q + 2 * q ^ 2) / q ^ 2 + (κ - 1) * (2 * c) := by
    field_simp; ring
  rw [e, hk]
  field_simp; ring

theorem cf_bound {a : ℝ} (ha : 0 < a) {x : ℝ} (hx : x ∈ Ici a) : |cf x| ≤ c * (4 / a + 1 * (8 / (15 * a))) := by
  have hx : a ≤ x := hx
  have hx0 : 0 < x := lt_of_lt_of_le ha hx
  have hc := c_pos
  unfold cf
  rw [abs_of_pos (by positivity), mul_div_assoc]
  refine mul_le_mul_of_nonneg_left ?_ hc.le
  have h1 : (4 * x ^ 4 + 18 * x ^ 2 + 8) / (4 * x ^ 5 + 20 * x ^ 3 + 15 * x) ≤ 1 / x := by
    rw [div_le_div_iff₀ (by positivity) hx0]
    nlinarith [pow_pos hx0 3]
  have h2 : 1 / x ≤ 1 / a := one_div_le_one_div_of_le ha hx
  have h3 : 0 < 8 / (15 * a) := by positivity
  have h4 : 1 / a ≤ 4 / a := by gcongr; norm_num
  linarith

theorem E_le_cf {x : ℝ} (hx : 0 < x) : E x ≤ cf x := by
  have := ge_of_residual (κ := 1) (fun y hy => hasDerivAt_cf (lt_of_lt_of_le hx hy)) (fun y hy => cf_bound hx hy)
    (fun y hy => by
      have hy0 : 0 < y := lt_of_lt_of_le hx hy
      rw [cf_residual hy0]
      have hc := c_pos
      have : 0 < 60 / (4 * y ^ 5 + 20 * y ^ 3 + 15 * y) ^ 2 := by positivity
      nlinarith) x (mem_Ici.mpr le_rfl)
  linarith

theorem cf_le {x : ℝ} (hx : 0 < x) : cf x ≤ (1 + 60 / (4 * x ^ 5 + 20 * x ^ 3 + 15 * x) ^ 2) * E x := by
  refine le_of_residual (fun y hy => hasDerivAt_cf (lt_of_lt_of_le hx hy)) (fun y hy => cf_bound hx hy)
    (fun y hy => ?_) x (mem_Ici.mpr le_rfl)
  have hxy : x ≤ y := hy
  have hy0 : 0 < y := lt_of_lt_of_le hx hy
  rw [cf_residual hy0]
  have hc := c_pos
  have : 60 / (4 * y ^ 5 + 20 * y ^ 3 + 15 * y) ^ 2 ≤ 60 / (4 * x ^ 5 + 20 * x ^ 3 + 15 * x) ^ 2 := by
    gcongr
  nlinarith

/-! ## Comparison on a cell of the piecewise approximation -/

/-- `erfcx` as a function of `t` in the cell `k`. -/
def G (k : ℕ) (t : ℝ) : ℝ := E (800 / (t + (2 * k + 1)) - 4)

theorem hasDerivAt_X {s : ℝ} (m : ℝ) (hs : 0 < s + m) :
    HasDerivAt (fun t : ℝ => 800 / (t + m) - 4) (-800 / (s + m) ^ 2) s := by
  have h1 : HasDerivAt (fun t : ℝ => t + m) 1 s := (hasDerivAt_id s).add_const m
  have h := ((h1.inv hs.ne').const_mul 800).sub_const 4
  refine (h.congr_deriv ?_)
  ring

/-- If `s³ Q' + 6400 (200 - s) Q ≤ κ 1600 s c` in the cell and `Q ≤ κ erfcx` at its left end, then
`Q ≤ κ erfcx` in the cell. -/
theorem cell_le {k : ℕ} (hk : 1 ≤ k) {Q Q' : ℝ → ℝ} {κ : ℝ} (hd : ∀ t, HasDerivAt Q (Q' t) t)
    (hr : ∀ t ∈ Icc (-1 : ℝ) 1, (t + (2 * k + 1)) ^ 3 * Q' t + 6400 * (200 - (t + (2 * k + 1))) * Q t ≤
      κ * (1600 * (t + (2 * k + 1)) * c))
    (h0 : Q (-1) ≤ κ * G k (-1)) : ∀ t ∈ Icc (-1 : ℝ) 1, Q t ≤ κ * G k t := by
  have hk' : (1 : ℝ) ≤ k := by exact_mod_cast hk
  set X : ℝ → ℝ := fun t => 800 / (t + (2 * k + 1)) - 4 with hX
  set h : ℝ → ℝ := fun t => (Q t - κ * G k t) * exp (-X t ^ 2) with hh
  have hs : ∀ t ∈ Icc (-1 : ℝ) 1, 0 < t + (2 * (k : ℝ) + 1) := fun t ht => by have := ht.1; linarith
  have hder : ∀ t ∈ Icc (-1 : ℝ) 1, HasDerivAt h (((t + (2 * k + 1)) ^ 3 * Q' t + 6400 * (200 - (t + (2 * k + 1))) * Q t
      - κ * (1600 * (t + (2 * k + 1)) * c)) / (t + (2 * k + 1)) ^ 3 * exp (-X t ^ 2)) t := by
    intro t ht
    have hst := hs t ht
    have hx := hasDerivAt_X (2 * (k : ℝ) + 1) hst
    have hG : HasDerivAt (G k) ((2 * X t * G k t - 2 * c) * (-800 / (t + (2 * k + 1)) ^ 2)) t :=
      HasDerivAt.comp t (hasDerivAt_E (X t)) hx
    have hμ : HasDerivAt (fun t => exp (-X t ^ 2)) (-(2 * X t) * exp (-X t ^ 2) * (-800 / (t + (2 * k + 1)) ^ 2)) t :=
      HasDerivAt.comp t (hasDerivAt_neg_sq_exp (X t)) hx
    have h1 := ((hd t).sub (hG.const_mul κ)).mul hμ
    refine h1.congr_deriv ?_
    simp only [Pi.sub_apply]
    have hXt : X t = 800 / (t + (2 * k + 1)) - 4 := rfl
    set s := t + (2 * (k : ℝ) + 1)
    set g := G k t
    set μ := exp (-X t ^ 2)
    rw [hXt]
    have hs0 : s ≠ 0 := hst.ne'
    field_simp
    ring
  have hanti : AntitoneOn h (Icc (-1) 1) := by
    refine antitoneOn_of_deriv_nonpos (convex_Icc _ _) (fun t ht => (hder t ht).continuousAt.continuousWithinAt)
      (fun t ht => ?_) (fun t ht => ?_)
    · exact (hder t (interior_subset ht)).differentiableAt.differentiableWithinAt
    · have ht := interior_subset ht
      rw [(hder t ht).deriv]
      refine mul_nonpos_of_nonpos_of_nonneg (div_nonpos_of_nonpos_of_nonneg ?_ (pow_pos (hs t ht) 3).le) (exp_pos _).le
      have := hr t ht; linarith
  intro t ht
  have h1 := hanti (left_mem_Icc.mpr (by norm_num)) ht ht.1
  have h2 : h (-1) ≤ 0 := mul_nonpos_of_nonpos_of_nonneg (by linarith) (exp_pos _).le
  by_contra hc
  push Not at hc
  have : 0 < h t := mul_pos (by linarith) (exp_pos _)
  linarith

theorem cell_ge {k : ℕ} (hk : 1 ≤ k) {Q Q' : ℝ → ℝ} {κ : ℝ} (hd : ∀ t, HasDerivAt Q (Q' t) t)
    (hr : ∀ t ∈ Icc (-1 : ℝ) 1, κ * (1600 * (t + (2 * k + 1)) * c) ≤
      (t + (2 * k + 1)) ^ 3 * Q' t + 6400 * (200 - (t + (2 * k + 1))) * Q t)
    (h0 : κ * G k (-1) ≤ Q (-1)) : ∀ t ∈ Icc (-1 : ℝ) 1, κ * G k t ≤ Q t := by
  intro t ht
  have := cell_le hk (Q := fun t => -Q t) (Q' := fun t => -Q' t) (κ := -κ) (fun t => (hd t).neg)
    (fun t ht => by have := hr t ht; linarith) (by linarith) t ht
  linarith

end

end Ufunclab.Erfcx
