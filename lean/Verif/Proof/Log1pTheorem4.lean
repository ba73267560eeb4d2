import Verif.Proof.Log1p
import Mathlib.Analysis.SpecialFunctions.Complex.LogBounds
/-! # Accuracy of log1p_theorem4 -/
namespace Ufunclab.Log1p
open Ufunclab.Float XF Complex

/-! ## The formula `log(u) z / (u - 1)` in exact arithmetic -/

/-- The logarithm is at least `log(1 + |z|)` in modulus. -/
theorem norm_log_ge {z : ℂ} (h : 1 + z ≠ 0) : Real.log (1 + ‖z‖) ≤ ‖log (1 + z)‖ := by
  have h1 := norm_exp_sub_sum_le_exp_norm_sub_sum (log (1 + z)) 1
  simp only [Finset.range_one, Finset.sum_singleton, pow_zero, Nat.factorial_zero, Nat.cast_one, div_one] at h1
  rw [exp_log h, add_sub_cancel_left] at h1
  rw [Real.log_le_iff_le_exp (by positivity)]
  linarith

theorem log_small {z : ℂ} (h : 1 + z ≠ 0) (hz : ‖z‖ ≤ 1 / 2) : 0.8 * ‖z‖ ≤ ‖log (1 + z)‖ := by
  refine le_trans ?_ ((Real.le_log_one_add_of_nonneg (norm_nonneg z)).trans (norm_log_ge h))
  rw [le_div_iff₀ (by positivity)]
  nlinarith [norm_nonneg z]

theorem log_large {z : ℂ} (h : 1 + z ≠ 0) (hz : 1 / 2 ≤ ‖z‖) : 0.4 ≤ ‖log (1 + z)‖ := by
  refine le_trans ?_ ((Real.le_log_one_add_of_nonneg (norm_nonneg z)).trans (norm_log_ge h))
  rw [le_div_iff₀ (by positivity)]
  linarith

theorem one_add_ne {z : ℂ} {r : ℝ} (hz : ‖z‖ ≤ r) (hr : r < 1) : 1 + z ∈ slitPlane := by
  apply mem_slitPlane_of_norm_lt_one
  linarith

theorem hasDerivAt_phi {z : ℂ} (h : 1 + z ∈ slitPlane) : HasDerivAt (fun z => log (1 + z) - z) (-z / (1 + z)) z := by
  have h1 := ((hasDerivAt_id z).const_add 1).clog (by simpa using h)
  have h2 := h1.sub (hasDerivAt_id z)
  refine h2.congr_deriv ?_
  have := slitPlane_ne_zero h
  simp only [id]
  field_simp
  ring

theorem phi_lip {z w : ℂ} {r : ℝ} (hr : r < 1) (hz : ‖z‖ ≤ r) (hw : ‖w‖ ≤ r) :
    ‖(log (1 + z) - z) - (log (1 + w) - w)‖ ≤ r / (1 - r) * ‖z - w‖ := by
  have hr0 : 0 ≤ r := (norm_nonneg z).trans hz
  refine Convex.norm_image_sub_le_of_norm_hasDerivWithin_le (f := fun z => log (1 + z) - z) (f' := fun z => -z / (1 + z))
    (s := Metric.closedBall 0 r) (fun x hx => ?_) (fun x hx => ?_) (convex_closedBall 0 r) ?_ ?_
  · exact (hasDerivAt_phi (one_add_ne (by simpa using hx) hr)).hasDerivWithinAt
  · have hx' : ‖x‖ ≤ r := by simpa using hx
    rw [norm_div, norm_neg]
    have h1 : 1 - r ≤ ‖1 + x‖ := by
      have := norm_sub_norm_le (1 : ℂ) (-x)
      rw [norm_one, norm_neg, sub_neg_eq_add] at this
      linarith
    exact div_le_div₀ hr0 hx' (by linarith) h1
  · simpa using hw
  · simpa using hz

/-- Small arguments. -/
theorem formula_small {z w : ℂ} {D : ℝ} (hw0 : w ≠ 0) (hz : ‖z‖ ≤ 1 / 2) (h1 : ‖w - z‖ ≤ D) (hD : D ≤ 1 / 1000) (h2 : ‖w - z‖ ≤ ‖z‖) :
    ‖log (1 + w) * (z / w) - log (1 + z)‖ ≤ 7.8 * D * ‖log (1 + z)‖ := by
  have hD0 : 0 ≤ D := (norm_nonneg _).trans h1
  have hne : 1 + z ≠ 0 := slitPlane_ne_zero (one_add_ne hz (by norm_num))
  have hl := log_small hne hz
  have hwz : ‖w‖ ≤ ‖z‖ + ‖w - z‖ := by
    calc ‖w‖ = ‖z + (w - z)‖ := by congr 1; ring
      _ ≤ _ := norm_add_le _ _
  have hz0 := norm_nonneg z
  have hwn : 0 < ‖w‖ := norm_pos_iff.mpr hw0
  obtain ⟨r, hr⟩ : ∃ r, r = max ‖z‖ ‖w‖ := ⟨_, rfl⟩
  have hzr : ‖z‖ ≤ r := hr ▸ le_max_left _ _
  have hwr : ‖w‖ ≤ r := hr ▸ le_max_right _ _
  have hr1 : r ≤ 0.501 := by rw [hr]; apply max_le <;> linarith
  have hr2 : r ≤ 2 * ‖z‖ := by rw [hr]; apply max_le <;> linarith
  have hr0 : 0 ≤ r := hz0.trans hzr
  have hp := phi_lip (by linarith) hzr hwr
  have hq := norm_log_one_add_sub_self_le (z := w) (by linarith)
  have e : log (1 + w) * (z / w) - log (1 + z) =
      -((((log (1 + z) - z) - (log (1 + w) - w)) * w + (log (1 + w) - w) * (w - z)) / w) := by
    field_simp
    ring
  rw [e, norm_neg, norm_div, div_le_iff₀ hwn]
  have hp' : ‖(log (1 + z) - z) - (log (1 + w) - w)‖ ≤ 2.01 * r * D := by
    refine hp.trans ?_
    rw [norm_sub_rev]
    refine mul_le_mul ?_ h1 (norm_nonneg _) (by positivity)
    rw [div_le_iff₀ (by linarith)]
    nlinarith
  have hq' : ‖log (1 + w) - w‖ ≤ 1.01 * r * ‖w‖ := by
    refine hq.trans ?_
    have : (1 - ‖w‖)⁻¹ ≤ 2.01 := by
      rw [show (2.01 : ℝ) = (1 / 2.01)⁻¹ by norm_num]
      exact inv_anti₀ (by norm_num) (by norm_num; linarith)
    have h3 : ‖w‖ ^ 2 * (1 - ‖w‖)⁻¹ ≤ ‖w‖ ^ 2 * 2.01 := mul_le_mul_of_nonneg_left this (by positivity)
    nlinarith
  calc ‖((log (1 + z) - z) - (log (1 + w) - w)) * w + (log (1 + w) - w) * (w - z)‖
      ≤ ‖((log (1 + z) - z) - (log (1 + w) - w)) * w‖ + ‖(log (1 + w) - w) * (w - z)‖ := norm_add_le _ _
    _ ≤ 2.01 * r * D * ‖w‖ + 1.01 * r * ‖w‖ * D := by
        rw [norm_mul, norm_mul]
        exact add_le_add (mul_le_mul_of_nonneg_right hp' hwn.le)
          (mul_le_mul hq' h1 (norm_nonneg _) (by positivity))
    _ = 3.02 * r * D * ‖w‖ := by ring
    _ ≤ _ := by
        refine mul_le_mul_of_nonneg_right ?_ hwn.le
        have h3 : r * D ≤ 2 * ‖z‖ * D := mul_le_mul_of_nonneg_right hr2 hD0
        have h4 : ‖z‖ * D ≤ 1.25 * ‖log (1 + z)‖ * D := mul_le_mul_of_nonneg_right (by linarith) hD0
        have h5 : 0 ≤ D * ‖log (1 + z)‖ := by positivity
        linarith

/-- Two complex logarithms whose arguments differ by a relative perturbation of the real part. -/
theorem log_perturb {X X' y u : ℝ} (hu0 : 0 ≤ u) (hu1 : u ≤ 1 / 1000) (h : |X' - X| ≤ u * |X|) (h0 : ¬(X = 0 ∧ y = 0)) :
    ¬(X' = 0 ∧ y = 0) ∧ ‖log ⟨X', y⟩ - log ⟨X, y⟩‖ ≤ 1.01 * u + 2 * u * ‖log ⟨X, y⟩‖ := by
  have hp := sq_add_sq_pos h0
  have hX' : X' * X' ≤ (1 + u) ^ 2 * (X * X) ∧ (1 - u) ^ 2 * (X * X) ≤ X' * X' := by
    rw [← abs_mul_abs_self X, ← abs_mul_abs_self X']
    have h1 : |X'| ≤ (1 + u) * |X| := by
      have := abs_add_le (X' - X) X
      rw [sub_add_cancel] at this
      linarith
    have h2 : (1 - u) * |X| ≤ |X'| := by
      have := abs_add_le (X - X') X'
      rw [sub_add_cancel, abs_sub_comm] at this
      linarith
    have h3 := abs_nonneg X
    have h4 := abs_nonneg X'
    constructor
    · calc |X'| * |X'| ≤ ((1 + u) * |X|) * ((1 + u) * |X|) := mul_self_le_mul_self h4 h1
        _ = _ := by ring
    · calc (1 - u) ^ 2 * (|X| * |X|) = ((1 - u) * |X|) * ((1 - u) * |X|) := by ring
        _ ≤ _ := mul_self_le_mul_self (by nlinarith) h2
  have hy := mul_self_nonneg y
  have hXX := mul_self_nonneg X
  have g1 : X' * X' + y * y ≤ (1 + u) ^ 2 * (X * X + y * y) := by
    have : 1 * (y * y) ≤ (1 + u) ^ 2 * (y * y) := mul_le_mul_of_nonneg_right (by nlinarith) hy
    linarith [hX'.1]
  have g2 : (1 - u) ^ 2 * (X * X + y * y) ≤ X' * X' + y * y := by
    have : (1 - u) ^ 2 * (y * y) ≤ 1 * (y * y) := mul_le_mul_of_nonneg_right (by nlinarith) hy
    linarith [hX'.2]
  have hp' : 0 < X' * X' + y * y := lt_of_lt_of_le (mul_pos (by nlinarith) hp) g2
  refine ⟨fun c => by rw [c.1, c.2] at hp'; norm_num at hp', ?_⟩
  have e : ∀ X : ℝ, log ⟨X, y⟩ = ⟨Real.log (√(X * X + y * y)), arg ⟨X, y⟩⟩ := by
    intro X
    have := clog_one_add (X - 1) y
    rw [show (1 : ℂ) + ⟨X - 1, y⟩ = ⟨X, y⟩ by apply Complex.ext <;> simp] at this
    rw [this, sub_add_cancel]
  have him := arg_err (y := y) hu0 (by linarith) h
  have him2 : |arg ⟨X, y⟩| ≤ ‖log ⟨X, y⟩‖ := by
    have := abs_im_le_norm (log ⟨X, y⟩)
    rwa [log_im] at this
  refine (norm_le_abs_re_add_abs_im _).trans (add_le_add ?_ ?_)
  · rw [e, e, sub_re]
    show |Real.log (√(X' * X' + y * y)) - Real.log (√(X * X + y * y))| ≤ _
    rw [log_hypot, log_hypot]
    have l1 : Real.log (X' * X' + y * y) ≤ 2 * u + Real.log (X * X + y * y) := by
      refine (Real.log_le_log hp' g1).trans ?_
      rw [Real.log_mul (by positivity) hp.ne', Real.log_pow]
      have := Real.log_le_sub_one_of_pos (show 0 < 1 + u by linarith)
      push_cast
      linarith
    have l2 : Real.log (X * X + y * y) - 2.02 * u ≤ Real.log (X' * X' + y * y) := by
      refine le_trans ?_ (Real.log_le_log (mul_pos (by nlinarith) hp) g2)
      rw [Real.log_mul (by nlinarith) hp.ne', Real.log_pow]
      have h1 := Real.one_sub_inv_le_log_of_pos (show 0 < 1 - u by linarith)
      have h2 : (1 - u)⁻¹ ≤ 1 + 1.01 * u := by
        rw [inv_le_iff_one_le_mul₀ (by linarith)]
        nlinarith
      push_cast
      linarith
    rw [abs_le]
    constructor <;> linarith
  · rw [sub_im, log_im, log_im]
    exact him.trans (mul_le_mul_of_nonneg_left him2 (by positivity))

/-- Large arguments. -/
theorem formula_large {z w L : ℂ} {u : ℝ} (hu0 : 0 ≤ u) (hu1 : u ≤ 1 / 10 ^ 6) (hne : 1 + z ≠ 0) (hz : 1 / 2 ≤ ‖z‖)
    (hwz : ‖w - z‖ ≤ 4.1 * u * ‖z‖) (hL : ‖L - log (1 + z)‖ ≤ 1.01 * u + 2 * u * ‖log (1 + z)‖) :
    ‖L - log (1 + z)‖ ≤ 4.6 * u * ‖log (1 + z)‖ ∧ w ≠ 0 ∧ ‖L * (z / w) - log (1 + z)‖ ≤ 8.9 * u * ‖log (1 + z)‖ := by
  have hl := log_large hne hz
  have h1 : ‖L - log (1 + z)‖ ≤ 4.6 * u * ‖log (1 + z)‖ := by nlinarith
  have hw : ‖z‖ ≤ ‖w‖ + ‖w - z‖ := by
    calc ‖z‖ = ‖w - (w - z)‖ := by congr 1; ring
      _ ≤ _ := norm_sub_le _ _
  have hz0 : 0 < ‖z‖ := by linarith
  have hw' : 0.999 * ‖z‖ ≤ ‖w‖ := by nlinarith
  have hw0 : 0 < ‖w‖ := by linarith
  have hw1 : w ≠ 0 := norm_pos_iff.mp hw0
  refine ⟨h1, hw1, ?_⟩
  have e : L * (z / w) - log (1 + z) = (L - log (1 + z)) - L * ((w - z) / w) := by
    field_simp
    ring
  have h2 : ‖(w - z) / w‖ ≤ 4.11 * u := by
    rw [norm_div, div_le_iff₀ hw0]
    nlinarith
  have h3 : ‖L‖ ≤ 1.001 * ‖log (1 + z)‖ := by
    have : ‖L‖ ≤ ‖L - log (1 + z)‖ + ‖log (1 + z)‖ := by
      calc ‖L‖ = ‖(L - log (1 + z)) + log (1 + z)‖ := by congr 1; ring
        _ ≤ _ := norm_add_le _ _
    nlinarith [norm_nonneg (log (1 + z))]
  rw [e]
  refine (norm_sub_le _ _).trans ?_
  rw [norm_mul]
  have h4 : ‖L‖ * ‖(w - z) / w‖ ≤ 1.001 * ‖log (1 + z)‖ * (4.11 * u) := mul_le_mul h3 h2 (norm_nonneg _) (by positivity)
  have h5 : 0 ≤ u * ‖log (1 + z)‖ := by positivity
  nlinarith

/-! ## Complex multiplication and division with rounding -/

structure RdC (u η : ℝ) (rd : ℝ → ℝ) : Prop where
  err : ∀ z, |rd z - z| ≤ u * |z| + η
  u0 : 0 ≤ u
  u1 : u ≤ 1 / 10 ^ 6
  η0 : 0 ≤ η
  η1 : η ≤ u / 10 ^ 3

variable {u η : ℝ} {rd : ℝ → ℝ}

theorem dot_add (R : RdC u η rd) (a b : ℝ) : |rd (rd a + rd b) - (a + b)| ≤ 2.01 * u * (|a| + |b|) + 3.01 * η := by
  obtain ⟨h, hu0, hu1, hη, -⟩ := R
  have h1 := h a
  have h2 := h b
  have h3 := h (rd a + rd b)
  have ha := abs_nonneg a
  have hb := abs_nonneg b
  have e : |(rd a + rd b) - (a + b)| ≤ u * |a| + u * |b| + 2 * η := by
    calc |(rd a + rd b) - (a + b)| = |(rd a - a) + (rd b - b)| := by congr 1; ring
      _ ≤ _ := abs_add_le _ _
      _ ≤ _ := by linarith
  have f : |rd a + rd b| ≤ |a| + |b| + (u * |a| + u * |b| + 2 * η) := by
    calc |rd a + rd b| = |(a + b) + ((rd a + rd b) - (a + b))| := by congr 1; ring
      _ ≤ _ := abs_add_le _ _
      _ ≤ _ := by linarith [abs_add_le a b]
  calc |rd (rd a + rd b) - (a + b)| = |(rd (rd a + rd b) - (rd a + rd b)) + ((rd a + rd b) - (a + b))| := by congr 1; ring
    _ ≤ _ := abs_add_le _ _
    _ ≤ u * |rd a + rd b| + η + (u * |a| + u * |b| + 2 * η) := by linarith
    _ ≤ u * (|a| + |b| + (u * |a| + u * |b| + 2 * η)) + η + (u * |a| + u * |b| + 2 * η) := by
        have := mul_le_mul_of_nonneg_left f hu0
        linarith
    _ ≤ _ := by
        have h5 : 0 ≤ u * |a| := by positivity
        have h6 : 0 ≤ u * |b| := by positivity
        have k1 : u * (u * |a|) ≤ 1 / 10 ^ 6 * (u * |a|) := mul_le_mul_of_nonneg_right hu1 h5
        have k2 : u * (u * |b|) ≤ 1 / 10 ^ 6 * (u * |b|) := mul_le_mul_of_nonneg_right hu1 h6
        have k3 : u * η ≤ 1 / 10 ^ 6 * η := mul_le_mul_of_nonneg_right hu1 hη
        linarith

theorem dot_sub (R : RdC u η rd) (a b : ℝ) : |rd (rd a - rd b) - (a - b)| ≤ 2.01 * u * (|a| + |b|) + 3.01 * η := by
  obtain ⟨h, hu0, hu1, hη, -⟩ := R
  have h1 := h a
  have h2 := h b
  have h3 := h (rd a - rd b)
  have ha := abs_nonneg a
  have hb := abs_nonneg b
  have e : |(rd a - rd b) - (a - b)| ≤ u * |a| + u * |b| + 2 * η := by
    calc |(rd a - rd b) - (a - b)| = |(rd a - a) - (rd b - b)| := by congr 1; ring
      _ ≤ _ := abs_sub _ _
      _ ≤ _ := by linarith
  have f : |rd a - rd b| ≤ |a| + |b| + (u * |a| + u * |b| + 2 * η) := by
    calc |rd a - rd b| = |(a - b) + ((rd a - rd b) - (a - b))| := by congr 1; ring
      _ ≤ _ := abs_add_le _ _
      _ ≤ _ := by linarith [abs_sub a b]
  calc |rd (rd a - rd b) - (a - b)| = |(rd (rd a - rd b) - (rd a - rd b)) + ((rd a - rd b) - (a - b))| := by congr 1; ring
    _ ≤ _ := abs_add_le _ _
    _ ≤ u * |rd a - rd b| + η + (u * |a| + u * |b| + 2 * η) := by linarith
    _ ≤ u * (|a| + |b| + (u * |a| + u * |b| + 2 * η)) + η + (u * |a| + u * |b| + 2 * η) := by
        have := mul_le_mul_of_nonneg_left f hu0
        linarith
    _ ≤ _ := by
        have h5 : 0 ≤ u * |a| := by positivity
        have h6 : 0 ≤ u * |b| := by positivity
        have k1 : u * (u * |a|) ≤ 1 / 10 ^ 6 * (u * |a|) := mul_le_mul_of_nonneg_right hu1 h5
        have k2 : u * (u * |b|) ≤ 1 / 10 ^ 6 * (u * |b|) := mul_le_mul_of_nonneg_right hu1 h6
        have k3 : u * η ≤ 1 / 10 ^ 6 * η := mul_le_mul_of_nonneg_right hu1 hη
        linarith

/-- Cauchy's inequality for the terms of a complex product. -/
theorem cauchy (a b c d : ℝ) : |a * c| + |b * d| ≤ ‖(⟨a, b⟩ : ℂ)‖ * ‖(⟨c, d⟩ : ℂ)‖ := by
  rw [norm_eq_sqrt_sq_add_sq, norm_eq_sqrt_sq_add_sq, ← Real.sqrt_mul (by positivity)]
  apply Real.le_sqrt_of_sq_le
  rw [abs_mul, abs_mul]
  have h : (|a| * |d| - |b| * |c|) ^ 2 ≥ 0 := sq_nonneg _
  have e : ∀ t : ℝ, |t| ^ 2 = t ^ 2 := fun t => sq_abs t
  show (|a| * |c| + |b| * |d|) ^ 2 ≤ (a ^ 2 + b ^ 2) * (c ^ 2 + d ^ 2)
  rw [← e a, ← e b, ← e c, ← e d]
  nlinarith

/-- The rounded product. -/
noncomputable def mulR (rd : ℝ → ℝ) (a b : ℂ) : ℂ :=
  ⟨rd (rd (a.re * b.re) - rd (a.im * b.im)), rd (rd (a.re * b.im) + rd (a.im * b.re))⟩

theorem mulR_err (R : RdC u η rd) (a b : ℂ) : ‖mulR rd a b - a * b‖ ≤ 4.02 * u * (‖a‖ * ‖b‖) + 6.02 * η := by
  have h1 := dot_sub R (a.re * b.re) (a.im * b.im)
  have h2 := dot_add R (a.re * b.im) (a.im * b.re)
  have c1 := cauchy a.re a.im b.re b.im
  have c2 := cauchy a.re a.im b.im b.re
  have hn : ‖(⟨b.im, b.re⟩ : ℂ)‖ = ‖b‖ := by
    rw [norm_eq_sqrt_sq_add_sq, norm_eq_sqrt_sq_add_sq, add_comm]
  rw [hn] at c2
  rw [show (⟨a.re, a.im⟩ : ℂ) = a from rfl] at c1 c2
  rw [show (⟨b.re, b.im⟩ : ℂ) = b from rfl] at c1
  have hu := R.u0
  have k1 := mul_le_mul_of_nonneg_left c1 hu
  have k2 := mul_le_mul_of_nonneg_left c2 hu
  refine (norm_le_abs_re_add_abs_im _).trans ?_
  rw [sub_re, sub_im, mul_re, mul_im]
  show |rd (rd (a.re * b.re) - rd (a.im * b.im)) - _| + |rd (rd (a.re * b.im) + rd (a.im * b.re)) - _| ≤ _
  linarith

/-- The rounded quotient. -/
noncomputable def divR (rd : ℝ → ℝ) (a b : ℂ) : ℂ :=
  ⟨rd (rd (rd (a.re * b.re) + rd (a.im * b.im)) / rd (rd (b.re * b.re) + rd (b.im * b.im))),
   rd (rd (rd (a.im * b.re) - rd (a.re * b.im)) / rd (rd (b.re * b.re) + rd (b.im * b.im)))⟩

set_option maxHeartbeats 1000000 in
theorem divR_err (R : RdC u η rd) {z w : ℂ} (hw : w ≠ 0) (hη : 64 * η ≤ u * ‖w‖ ^ 2) (hwz : ‖w‖ ≤ 2 * ‖z‖) :
    0 < rd (rd (w.re * w.re) + rd (w.im * w.im)) ∧ ‖divR rd z w - z / w‖ ≤ 8.5 * u * ‖z / w‖ := by
  obtain ⟨D, hD⟩ : ∃ D, D = ‖w‖ ^ 2 := ⟨_, rfl⟩
  have hwn : 0 < ‖w‖ := norm_pos_iff.mpr hw
  have hD0 : 0 < D := by rw [hD]; positivity
  have hDe : w.re * w.re + w.im * w.im = D := by rw [hD, ← normSq_eq_norm_sq, normSq_apply]
  have hu0 := R.u0
  have hu1 := R.u1
  have hη0 := R.η0
  have h1 := dot_add R (w.re * w.re) (w.im * w.im)
  rw [abs_of_nonneg (mul_self_nonneg w.re), abs_of_nonneg (mul_self_nonneg w.im), hDe] at h1
  obtain ⟨d, hd⟩ : ∃ d, d = rd (rd (w.re * w.re) + rd (w.im * w.im)) := ⟨_, rfl⟩
  rw [← hd] at h1
  rw [← hD] at hη
  have hd1 : |d - D| ≤ 2.06 * u * D := by
    refine h1.trans ?_
    linarith
  have huD : u * D ≤ 1 / 10 ^ 6 * D := mul_le_mul_of_nonneg_right hu1 hD0.le
  have hdlow : 0.999 * D ≤ d := by linarith [(abs_le.mp hd1).1]
  have hd0 : 0 < d := by linarith
  rw [← hd]
  refine ⟨hd0, ?_⟩
  -- numerator
  obtain ⟨n, hn⟩ : ∃ n : ℂ, n = ⟨rd (rd (z.re * w.re) + rd (z.im * w.im)), rd (rd (z.im * w.re) - rd (z.re * w.im))⟩ := ⟨_, rfl⟩
  obtain ⟨N, hN⟩ : ∃ N : ℂ, N = z * (starRingEnd ℂ) w := ⟨_, rfl⟩
  have hNn : ‖N‖ = ‖z‖ * ‖w‖ := by rw [hN, norm_mul, norm_conj]
  have hNq : z / w = N / (D : ℂ) := by
    rw [hN, hD, eq_div_iff (by simpa using hw), div_mul_eq_mul_div, div_eq_iff hw]
    push_cast
    rw [← conj_mul']
    ring
  have e1 := dot_add R (z.re * w.re) (z.im * w.im)
  have e2 := dot_sub R (z.im * w.re) (z.re * w.im)
  have c1 := cauchy z.re z.im w.re w.im
  have c2 := cauchy z.im z.re w.re w.im
  have hsw : ‖(⟨z.im, z.re⟩ : ℂ)‖ = ‖z‖ := by
    rw [norm_eq_sqrt_sq_add_sq, norm_eq_sqrt_sq_add_sq, add_comm]
  rw [hsw] at c2
  rw [show (⟨z.re, z.im⟩ : ℂ) = z from rfl] at c1
  rw [show (⟨w.re, w.im⟩ : ℂ) = w from rfl] at c1 c2
  have hzw : ‖w‖ ^ 2 ≤ 2 * (‖z‖ * ‖w‖) := by nlinarith
  have hnN : ‖n - N‖ ≤ 4.22 * u * (‖z‖ * ‖w‖) := by
    refine (norm_le_abs_re_add_abs_im _).trans ?_
    have hre : (n - N).re = rd (rd (z.re * w.re) + rd (z.im * w.im)) - (z.re * w.re + z.im * w.im) := by
      rw [hn, hN]; simp [mul_re]
    have him : (n - N).im = rd (rd (z.im * w.re) - rd (z.re * w.im)) - (z.im * w.re - z.re * w.im) := by
      rw [hn, hN]; simp [mul_im]; ring
    rw [hre, him]
    have k1 := mul_le_mul_of_nonneg_left c1 hu0
    have k2 := mul_le_mul_of_nonneg_left c2 hu0
    have k3 := mul_le_mul_of_nonneg_left hzw hu0
    rw [← hD] at k3
    linarith
  -- quotient
  have hA : 0 < ‖z‖ * ‖w‖ := mul_pos (by linarith) hwn
  obtain ⟨A, hAd⟩ : ∃ A, A = ‖z‖ * ‖w‖ := ⟨_, rfl⟩
  rw [← hAd] at hA hnN hNn
  have hdc : (d : ℂ) ≠ 0 := by exact_mod_cast hd0.ne'
  have hDc : (D : ℂ) ≠ 0 := by exact_mod_cast hD0.ne'
  have hQ : ‖z / w‖ = A / D := by rw [hNq, norm_div, hNn, norm_real, Real.norm_of_nonneg hD0.le]
  have hq : ‖n / (d : ℂ) - z / w‖ ≤ 6.4 * u * (A / D) := by
    have e : n / (d : ℂ) - z / w = (n - N) / d - N / D * (((d - D : ℝ) : ℂ) / d) := by
      rw [hNq]; push_cast
      field_simp
      ring
    rw [e]
    refine (norm_sub_le _ _).trans ?_
    rw [norm_div, norm_mul, norm_div, norm_div, hNn, norm_real, norm_real, norm_real, Real.norm_of_nonneg hD0.le,
      Real.norm_of_nonneg hd0.le, Real.norm_eq_abs]
    have q1 : ‖n - N‖ / d ≤ 4.23 * u * (A / D) := by
      rw [div_le_iff₀ hd0]
      refine hnN.trans ?_
      have : A ≤ 1.0011 * (A / D * d) := by
        have : A = A / D * D := by rw [div_mul_cancel₀ _ hD0.ne']
        have h5 : 0 < A / D := by positivity
        nlinarith
      have := mul_le_mul_of_nonneg_left this hu0
      nlinarith
    have q2 : |d - D| / d ≤ 2.07 * u := by
      rw [div_le_iff₀ hd0]
      refine hd1.trans ?_
      have := mul_le_mul_of_nonneg_left hdlow hu0
      nlinarith
    have q3 : A / D * (|d - D| / d) ≤ A / D * (2.07 * u) := mul_le_mul_of_nonneg_left q2 (by positivity)
    have : 0 ≤ u * (A / D) := by positivity
    linarith
  have hQ0 : 0 < A / D := by positivity
  have hQh : 1 / 2 ≤ A / D := by
    rw [le_div_iff₀ hD0, hD]; linarith
  have r1 := R.err (n.re / d)
  have r2 := R.err (n.im / d)
  have hfin : divR rd z w - n / (d : ℂ) = ⟨rd (n.re / d) - n.re / d, rd (n.im / d) - n.im / d⟩ := by
    have e1 : (n / (d : ℂ)).re = n.re / d := by simp
    have e2 : (n / (d : ℂ)).im = n.im / d := by simp
    apply Complex.ext
    · rw [sub_re, e1, hn, hd]; rfl
    · rw [sub_im, e2, hn, hd]; rfl
  have hre : |n.re / d| ≤ ‖n / (d : ℂ)‖ := by
    have := abs_re_le_norm (n / (d : ℂ)); simpa using this
  have him : |n.im / d| ≤ ‖n / (d : ℂ)‖ := by
    have := abs_im_le_norm (n / (d : ℂ)); simpa using this
  have hnd : ‖n / (d : ℂ)‖ ≤ 1.001 * (A / D) := by
    have : ‖n / (d : ℂ)‖ ≤ ‖n / (d : ℂ) - z / w‖ + ‖z / w‖ := by
      calc ‖n / (d : ℂ)‖ = ‖(n / (d : ℂ) - z / w) + z / w‖ := by congr 1; ring
        _ ≤ _ := norm_add_le _ _
    rw [hQ] at this
    have := mul_le_mul_of_nonneg_right hu1 hQ0.le
    linarith
  have hlast : ‖divR rd z w - n / (d : ℂ)‖ ≤ 2.01 * u * (A / D) := by
    rw [hfin]
    refine (norm_le_abs_re_add_abs_im _).trans ?_
    show |rd (n.re / d) - n.re / d| + |rd (n.im / d) - n.im / d| ≤ _
    have k1 := mul_le_mul_of_nonneg_left (hre.trans hnd) hu0
    have k2 := mul_le_mul_of_nonneg_left (him.trans hnd) hu0
    have k3 := R.η1
    have k4 := mul_le_mul_of_nonneg_left hQh hu0
    linarith
  rw [hQ]
  calc ‖divR rd z w - z / w‖ = ‖(divR rd z w - n / (d : ℂ)) + (n / (d : ℂ) - z / w)‖ := by congr 1; ring
    _ ≤ _ := norm_add_le _ _
    _ ≤ _ := by
      have : 0 ≤ u * (A / D) := by positivity
      linarith

/-- The rounded formula against the exact one. -/
theorem round_err (R : RdC u η rd) {z w L : ℂ} (hw : w ≠ 0) (hη : 64 * η ≤ u * ‖w‖ ^ 2) (hwz : ‖w‖ ≤ 2 * ‖z‖) :
    ‖mulR rd L (divR rd z w) - L * (z / w)‖ ≤ 12.6 * u * ‖L * (z / w)‖ + 6.02 * η := by
  have h1 := (divR_err R hw hη hwz).2
  have h2 := mulR_err R L (divR rd z w)
  have hu0 := R.u0
  have h3 : ‖divR rd z w‖ ≤ 1.001 * ‖z / w‖ := by
    have : ‖divR rd z w‖ ≤ ‖divR rd z w - z / w‖ + ‖z / w‖ := by
      calc ‖divR rd z w‖ = ‖(divR rd z w - z / w) + z / w‖ := by congr 1; ring
        _ ≤ _ := norm_add_le _ _
    have := mul_le_mul_of_nonneg_right R.u1 (norm_nonneg (z / w))
    have := norm_nonneg (z / w)
    linarith
  calc ‖mulR rd L (divR rd z w) - L * (z / w)‖
      = ‖(mulR rd L (divR rd z w) - L * divR rd z w) + L * (divR rd z w - z / w)‖ := by congr 1; ring
    _ ≤ _ := norm_add_le _ _
    _ ≤ (4.02 * u * (‖L‖ * (1.001 * ‖z / w‖)) + 6.02 * η) + ‖L‖ * (8.5 * u * ‖z / w‖) := by
        rw [norm_mul L (_ - _)]
        have k1 := mul_le_mul_of_nonneg_left h3 (norm_nonneg L)
        have k2 := mul_le_mul_of_nonneg_left k1 hu0
        have k3 := mul_le_mul_of_nonneg_left h1 (norm_nonneg L)
        linarith
    _ ≤ _ := by
        rw [norm_mul]
        have : 0 ≤ u * (‖L‖ * ‖z / w‖) := by positivity
        nlinarith

/-! ## The function -/

theorem theorem4_fin (rd : ℝ → ℝ) (x y : ℝ) (h0 : ¬(rd (x + 1) = 0 ∧ y = 0)) :
    (rd (x + 1) = 1 ∧ y = 0 → theorem4 rd (.fin x, .fin y) = (.fin x, .fin y)) ∧
    (¬(rd (x + 1) = 1 ∧ y = 0) → rd (rd (x + 1) - 1) = x →
      theorem4 rd (.fin x, .fin y) = (.fin (log ⟨rd (x + 1), y⟩).re, .fin (log ⟨rd (x + 1), y⟩).im)) ∧
    (¬(rd (x + 1) = 1 ∧ y = 0) → rd (rd (x + 1) - 1) ≠ x →
      0 < rd (rd (rd (rd (x + 1) - 1) * rd (rd (x + 1) - 1)) + rd (y * y)) →
      theorem4 rd (.fin x, .fin y) =
        (.fin (mulR rd (log ⟨rd (x + 1), y⟩) (divR rd ⟨x, y⟩ ⟨rd (rd (x + 1) - 1), y⟩)).re,
         .fin (mulR rd (log ⟨rd (x + 1), y⟩) (divR rd ⟨x, y⟩ ⟨rd (rd (x + 1) - 1), y⟩)).im)) := by
  have hp := sq_add_sq_pos h0
  have hq : 0 < √(rd (x + 1) * rd (x + 1) + y * y) := Real.sqrt_pos.2 hp
  have hl : cclog (.fin (rd (x + 1)), .fin y) = (.fin (log ⟨rd (x + 1), y⟩).re, .fin (log ⟨rd (x + 1), y⟩).im) := by
    have e := clog_one_add (rd (x + 1) - 1) y
    rw [show (1 : ℂ) + ⟨rd (x + 1) - 1, y⟩ = ⟨rd (x + 1), y⟩ by apply Complex.ext <;> simp, sub_add_cancel] at e
    rw [e]
    simp [cclog, chypot, clogReal, catan2, not_lt.2 hq.le, hq.ne']
  refine ⟨fun c => ?_, fun c c' => ?_, fun c c' hd => ?_⟩
  · simp [theorem4, fadd, rnd, c.1, c.2]
  · have c1 : (XF.eq (.fin (rd (x + 1))) (.fin (1 : ℝ)) && XF.eq (.fin y) (.fin (0 : ℝ))) = false := by
      rw [Bool.eq_false_iff]; intro h; apply c; simpa using h
    simp only [theorem4, fadd, fsub, add_fin, sub_fin, rnd, c1, Bool.false_eq_true, if_false, hl]
    rw [if_pos (by simp [c'])]
  · have c1 : (XF.eq (.fin (rd (x + 1))) (.fin (1 : ℝ)) && XF.eq (.fin y) (.fin (0 : ℝ))) = false := by
      rw [Bool.eq_false_iff]; intro h; apply c; simpa using h
    simp only [theorem4, fadd, fsub, add_fin, sub_fin, rnd, c1, Bool.false_eq_true, if_false, hl]
    rw [if_neg (by simp [c'])]
    simp only [cdiv, cmul, fadd, fsub, fmul, fdiv, add_fin, sub_fin, mul_fin, rnd]
    rw [div_fin _ _ hd.ne', div_fin _ _ hd.ne']
    rfl

theorem RdC.of_nearest {p : ℕ} {emin : ℤ} (h : Nearest p emin rd) (hp : 24 ≤ p) (he : emin ≤ -3 * p - 6) :
    RdC (1 / 2 ^ p) (2 ^ emin / 2) rd := by
  refine ⟨fun z => ?_, by positivity, ?_, by positivity, ?_⟩
  · have := h.error (by omega) z
    rwa [one_div]
  · refine (one_div_le_one_div_of_le (by positivity) (pow_le_pow_right₀ (by norm_num) hp)).trans (by norm_num)
  · have h1 : (2 : ℝ) ^ emin ≤ 2 ^ (-(p : ℤ) + -10) := zpow_le_zpow_right₀ (by norm_num) (by omega)
    rw [zpow_add₀ (by norm_num), zpow_neg, zpow_natCast, ← one_div] at h1
    have h2 : (0 : ℝ) < ((2 : ℝ) ^ p)⁻¹ := by positivity
    norm_num at h1 ⊢
    linarith

set_option maxHeartbeats 1000000 in
theorem theorem4_err {p : ℕ} {emin : ℤ} (h : Nearest p emin rd) (hp : 24 ≤ p) (he : emin ≤ -3 * p - 6) {x y : ℝ}
    (hx : IsFloat p emin x) (h0 : ¬(x = -1 ∧ y = 0)) (hy : y = 0 ∨ 32 * 2 ^ p * 2 ^ emin ≤ y ^ 2 ∨ rd (x + 1) ≠ 1) :
    ∃ r i, theorem4 rd (.fin x, .fin y) = (.fin r, .fin i) ∧
      ‖(⟨r, i⟩ : ℂ) - log (1 + ⟨x, y⟩)‖ ≤ 25 / 2 ^ p * ‖log (1 + ⟨x, y⟩)‖ + 4 * 2 ^ emin := by
  have R := RdC.of_nearest h hp he
  obtain ⟨w, hwd⟩ : ∃ w : ℝ, w = 1 / 2 ^ p := ⟨_, rfl⟩
  obtain ⟨η, hηd⟩ : ∃ η : ℝ, η = 2 ^ emin / 2 := ⟨_, rfl⟩
  rw [← hwd, ← hηd] at R
  have hu0 := R.u0
  have hu1 := R.u1
  have hη0 := R.η0
  have hwpos : 0 < w := by rw [hwd]; positivity
  have h1f : IsFloat p emin (1 : ℝ) := by
    simpa using isFloat_zpow (K := ℝ) (p := p) (emin := emin) (by omega) (e := 0) (by omega)
  have hX : |rd (x + 1) - (x + 1)| ≤ w * |x + 1| := by
    have := h.rel_error (by omega) (hx.grid.add h1f.grid)
    rwa [← one_div, ← hwd] at this
  have h0' : ¬(x + 1 = 0 ∧ y = 0) := fun c => h0 ⟨by linarith [c.1], c.2⟩
  have hne : (1 : ℂ) + ⟨x, y⟩ ≠ 0 := by
    intro c
    apply h0'
    have c1 := congrArg re c
    have c2 := congrArg im c
    simp at c1 c2
    exact ⟨by linarith, c2⟩
  have hz1 : (1 : ℂ) + ⟨x, y⟩ = ⟨x + 1, y⟩ := by apply Complex.ext <;> simp [add_comm]
  obtain ⟨hX0, hLp⟩ := log_perturb (y := y) hu0 (by linarith) hX h0'
  rw [← hz1] at hLp
  obtain ⟨t1, t2, t3⟩ := theorem4_fin rd x y hX0
  obtain ⟨X', hX'⟩ : ∃ X', X' = rd (x + 1) := ⟨_, rfl⟩
  have hX'f : IsFloat p emin X' := hX' ▸ (h (x + 1)).1
  have hxX : |X' - (x + 1)| ≤ |x| := by
    have := (h (x + 1)).2 1 h1f
    rw [← hX', show (1 : ℝ) - (x + 1) = -x by ring, abs_neg] at this
    exact this
  rw [← hX'] at hX hX0 hLp t1 t2 t3 hy
  obtain ⟨a, ha⟩ : ∃ a, a = rd (X' - 1) := ⟨_, rfl⟩
  rw [← ha] at t2 t3
  obtain ⟨z, hz⟩ : ∃ z : ℂ, z = ⟨x, y⟩ := ⟨_, rfl⟩
  have hxz : |x| ≤ ‖z‖ := by have := abs_re_le_norm z; rwa [hz] at this ⊢
  have hyz : |y| ≤ ‖z‖ := by have := abs_im_le_norm z; rwa [hz] at this ⊢
  obtain ⟨W, hW⟩ : ∃ W : ℂ, W = ⟨a, y⟩ := ⟨_, rfl⟩
  have hWz : ‖W - z‖ = |a - x| := by
    rw [hW, hz, show (⟨a, y⟩ : ℂ) - ⟨x, y⟩ = ((a - x : ℝ) : ℂ) by apply Complex.ext <;> simp, norm_real, Real.norm_eq_abs]
  have haW : |a| ≤ ‖W‖ := by have := abs_re_le_norm W; rwa [hW] at this ⊢
  have hyW : |y| ≤ ‖W‖ := by have := abs_im_le_norm W; rwa [hW] at this ⊢
  rw [← hz] at t3 hne hLp ⊢
  rw [← hW] at t3
  obtain ⟨L, hL⟩ : ∃ L, L = log ⟨X', y⟩ := ⟨_, rfl⟩
  rw [← hL] at t2 t3 hLp
  rw [show (25 : ℝ) / 2 ^ p = 25 * w by rw [hwd]; ring, show (4 : ℝ) * 2 ^ emin = 8 * η by rw [hηd]; ring]
  have hl0 := norm_nonneg (log (1 + z))
  have hwl : 0 ≤ w * ‖log (1 + z)‖ := by positivity
  have hx1 : |x + 1| ≤ ‖z‖ + 1 := by
    have := abs_add_le x 1
    rw [abs_one] at this
    linarith
  -- the rounded formula, given the exact one
  have fin3 : ¬(X' = 1 ∧ y = 0) → a ≠ x → W ≠ 0 → 64 * η ≤ w * ‖W‖ ^ 2 → ‖W‖ ≤ 2 * ‖z‖ →
      ‖L * (z / W) - log (1 + z)‖ ≤ 11.75 * w * ‖log (1 + z)‖ →
      ∃ r i, theorem4 rd (.fin x, .fin y) = (.fin r, .fin i) ∧
        ‖(⟨r, i⟩ : ℂ) - log (1 + z)‖ ≤ 25 * w * ‖log (1 + z)‖ + 8 * η := by
    intro c c' hW0 hη hWn hf
    have hd := (divR_err R hW0 hη hWn).1
    have hr := round_err (L := L) R hW0 hη hWn
    refine ⟨_, _, t3 c c' (by rw [hW] at hd; exact hd), ?_⟩
    have k1 : ‖L * (z / W)‖ ≤ 1.001 * ‖log (1 + z)‖ := by
      have : ‖L * (z / W)‖ ≤ ‖L * (z / W) - log (1 + z)‖ + ‖log (1 + z)‖ := by
        calc ‖L * (z / W)‖ = ‖(L * (z / W) - log (1 + z)) + log (1 + z)‖ := by congr 1; ring
          _ ≤ _ := norm_add_le _ _
      have := mul_le_mul_of_nonneg_right hu1 hl0
      linarith
    have k2 := mul_le_mul_of_nonneg_left k1 hu0
    calc ‖mulR rd L (divR rd z W) - log (1 + z)‖
        = ‖(mulR rd L (divR rd z W) - L * (z / W)) + (L * (z / W) - log (1 + z))‖ := by congr 1; ring
      _ ≤ _ := norm_add_le _ _
      _ ≤ _ := by linarith
  rcases le_total ‖z‖ (1 / 2) with hsmall | hlarge
  · -- small arguments: the difference `u - 1` is exact
    have hxs : |x| ≤ 1 / 2 := hxz.trans hsmall
    obtain ⟨x1, x2⟩ := abs_le.mp hxs
    have hX15 : w * |x + 1| ≤ w * 1.5 := by
      refine mul_le_mul_of_nonneg_left ?_ hu0
      rw [abs_le]; constructor <;> linarith
    have hXb := abs_le.mp (hX.trans hX15)
    have hhalf : IsFloat p emin (1 / 2 : ℝ) := by
      have := isFloat_zpow (K := ℝ) (p := p) (emin := emin) (by omega) (e := -1) (by omega)
      norm_num at this ⊢
      exact this
    have hX'2 : 1 / 2 ≤ X' := by rw [hX']; exact h.mono_float hhalf (by linarith)
    have hae : a = X' - 1 := by
      rw [ha]
      refine h.exact ?_
      rw [show X' - 1 = X' + -1 by ring]
      refine add_exact_of_small (by omega) hX'f h1f.neg ?_ ?_
      · rw [abs_of_pos (show 0 < X' by linarith), abs_le]; constructor <;> linarith
      · rw [abs_neg, abs_one, abs_le]; constructor <;> linarith
    have hWz1 : ‖W - z‖ ≤ 1.5 * w := by
      rw [hWz, hae, show X' - 1 - x = X' - (x + 1) by ring]
      linarith [hX.trans hX15]
    have hWz2 : ‖W - z‖ ≤ ‖z‖ := by
      rw [hWz, hae, show X' - 1 - x = X' - (x + 1) by ring]
      linarith
    have hWn : ‖W‖ ≤ 2 * ‖z‖ := by
      have : ‖W‖ ≤ ‖z‖ + ‖W - z‖ := by
        calc ‖W‖ = ‖z + (W - z)‖ := by congr 1; ring
          _ ≤ _ := norm_add_le _ _
      linarith
    by_cases c : X' = 1 ∧ y = 0
    · refine ⟨_, _, t1 c, ?_⟩
      have hxw : ‖z‖ ≤ 1.5 * w := by
        have : a = 0 := by rw [hae, c.1]; ring
        have hW0 : W = 0 := by rw [hW, this, c.2]; rfl
        rw [hW0, zero_sub, norm_neg] at hWz1
        exact hWz1
      rw [show (⟨x, y⟩ : ℂ) = z from hz.symm, norm_sub_rev]
      have h3 := norm_log_one_add_sub_self_le (z := z) (by linarith)
      have h4 : (1 - ‖z‖)⁻¹ ≤ 2 := by
        rw [show (2 : ℝ) = (1 / 2)⁻¹ by norm_num]
        exact inv_anti₀ (by norm_num) (by linarith)
      have h5 : ‖z‖ ^ 2 * (1 - ‖z‖)⁻¹ ≤ ‖z‖ ^ 2 * 2 := mul_le_mul_of_nonneg_left h4 (by positivity)
      have h6 := log_small hne hsmall
      have h7 : ‖z‖ ^ 2 ≤ 1.5 * w * ‖z‖ := by rw [sq]; exact mul_le_mul_of_nonneg_right hxw (norm_nonneg z)
      have h8 := mul_le_mul_of_nonneg_left h6 hu0
      linarith
    · by_cases c' : a = x
      · refine ⟨_, _, t2 c c', ?_⟩
        have hXe : X' = x + 1 := by linarith
        have : L = log (1 + z) := by rw [hL, hz, hz1, hXe]
        rw [show (⟨L.re, L.im⟩ : ℂ) = L from rfl, this, sub_self, norm_zero]
        positivity
      · have hW0 : W ≠ 0 := by
          intro hc
          rw [hW] at hc
          have e1 := congrArg re hc
          have e2 := congrArg im hc
          simp at e1 e2
          exact c ⟨by linarith, e2⟩
        have hη : 64 * η ≤ w * ‖W‖ ^ 2 := by
          by_cases hX1 : X' = 1
          · have hyn : y ≠ 0 := fun e => c ⟨hX1, e⟩
            have hy2 : 32 * 2 ^ p * 2 ^ emin ≤ y ^ 2 := by
              rcases hy with e | e | e
              · exact absurd e hyn
              · exact e
              · exact absurd hX1 e
            have h3 : y ^ 2 ≤ ‖W‖ ^ 2 := by rw [← sq_abs y]; exact pow_le_pow_left₀ (abs_nonneg y) hyW 2
            have h4 : w * (32 * 2 ^ p * 2 ^ emin) ≤ w * ‖W‖ ^ 2 := mul_le_mul_of_nonneg_left (hy2.trans h3) hu0
            refine le_trans (le_of_eq ?_) h4
            rw [hηd, hwd]
            have : (2 : ℝ) ^ p ≠ 0 := by positivity
            field_simp
            norm_num
          · -- `u - 1` is a non-zero multiple of `2^-p`
            have hg : OnGrid (-(p : ℤ)) X' := by
              have := hX'f.big_grid (k := -(p : ℤ) - 1) (by
                rw [← zpow_natCast, ← zpow_add₀ (by norm_num), abs_of_pos (show 0 < X' by linarith)]
                rw [show (p : ℤ) + (-p - 1) = -1 by ring]
                norm_num
                linarith)
              rwa [sub_add_cancel] at this
            have hg1 : OnGrid (-(p : ℤ)) (1 : ℝ) := by
              refine OnGrid.mono (k := 0) (by omega) ⟨1, by simp⟩
            obtain ⟨n, hn⟩ := hg.sub hg1
            have hpp : (0 : ℝ) < 2 ^ (-(p : ℤ)) := zpow_pos (by norm_num) _
            have hn0 : n ≠ 0 := by
              rintro rfl
              apply hX1
              simp at hn
              linarith
            have hn1 : (1 : ℝ) ≤ |(n : ℝ)| := by exact_mod_cast Int.one_le_abs hn0
            have haw : w ≤ |a| := by
              rw [hae, hn, abs_mul, abs_of_pos hpp]
              have : w = 2 ^ (-(p : ℤ)) := by rw [hwd, zpow_neg, zpow_natCast, one_div]
              rw [this]
              exact le_mul_of_one_le_left hpp.le hn1
            have h3 : w ^ 2 ≤ ‖W‖ ^ 2 := pow_le_pow_left₀ hu0 (haw.trans haW) 2
            refine le_trans ?_ (mul_le_mul_of_nonneg_left h3 hu0)
            have h4 : (2 : ℝ) ^ emin ≤ 2 ^ (-(p : ℤ) + (-p + (-p + -6))) := zpow_le_zpow_right₀ (by norm_num) (by omega)
            rw [zpow_add₀ (by norm_num), zpow_add₀ (by norm_num), zpow_add₀ (by norm_num), zpow_neg, zpow_natCast, ← one_div,
              ← hwd] at h4
            rw [hηd]
            norm_num at h4
            nlinarith
        have hf := formula_small (z := z) (w := W) (D := 1.5 * w) hW0 hsmall hWz1 (by linarith) hWz2
        have hLW : L = log (1 + W) := by
          rw [hL, hW, hae]; congr 1; apply Complex.ext <;> simp
        rw [← hLW] at hf
        exact fin3 c c' hW0 hη hWn (hf.trans (by linarith))
  · -- large arguments
    have hax : |a - x| ≤ 4.1 * w * ‖z‖ := by
      have h3 := R.err (X' - 1)
      rw [← ha] at h3
      have h4 : |X' - 1| ≤ |x| + |X' - (x + 1)| := by
        calc |X' - 1| = |x + (X' - (x + 1))| := by congr 1; ring
          _ ≤ _ := abs_add_le _ _
      have h5 : |a - x| ≤ |a - (X' - 1)| + |X' - (x + 1)| := by
        calc |a - x| = |(a - (X' - 1)) + (X' - (x + 1))| := by congr 1; ring
          _ ≤ _ := abs_add_le _ _
      have h6 : w * |x + 1| ≤ w * (‖z‖ + 1) := mul_le_mul_of_nonneg_left hx1 hu0
      have h7 : w * |X' - 1| ≤ w * (‖z‖ + w * (‖z‖ + 1)) := mul_le_mul_of_nonneg_left (by linarith) hu0
      have h8 : w * (w * (‖z‖ + 1)) ≤ 1 / 10 ^ 6 * (w * (‖z‖ + 1)) := mul_le_mul_of_nonneg_right hu1 (by positivity)
      have h9 : w * (1 / 2) ≤ w * ‖z‖ := mul_le_mul_of_nonneg_left hlarge hu0
      have h10 := R.η1
      linarith
    obtain ⟨g1, hW0, g2⟩ := formula_large (w := W) (L := L) hu0 hu1 hne hlarge (by rw [hWz]; exact hax) hLp
    have c : ¬(X' = 1 ∧ y = 0) := by
      rintro ⟨c1, c2⟩
      have hx0 : ‖z‖ ≤ |x| := by
        rw [hz, c2, show (⟨x, 0⟩ : ℂ) = (x : ℂ) from rfl, norm_real, Real.norm_eq_abs]
      rw [c1, show (1 : ℝ) - (x + 1) = -x by ring, abs_neg] at hX
      have h6 : w * |x + 1| ≤ w * (‖z‖ + 1) := mul_le_mul_of_nonneg_left hx1 hu0
      have h7 : w * (‖z‖ + 1) ≤ 1 / 10 ^ 6 * (‖z‖ + 1) := mul_le_mul_of_nonneg_right hu1 (by positivity)
      linarith
    by_cases c' : a = x
    · refine ⟨_, _, t2 c c', ?_⟩
      rw [show (⟨L.re, L.im⟩ : ℂ) = L from rfl]
      linarith
    · have hWb : ‖W‖ ≤ ‖z‖ + ‖W - z‖ ∧ ‖z‖ ≤ ‖W‖ + ‖W - z‖ := by
        constructor
        · calc ‖W‖ = ‖z + (W - z)‖ := by congr 1; ring
            _ ≤ _ := norm_add_le _ _
        · calc ‖z‖ = ‖W - (W - z)‖ := by congr 1; ring
            _ ≤ _ := norm_sub_le _ _
      have h7 : w * ‖z‖ ≤ 1 / 10 ^ 6 * ‖z‖ := mul_le_mul_of_nonneg_right hu1 (norm_nonneg z)
      rw [hWz] at hWb
      refine fin3 c c' hW0 ?_ (by linarith [hWb.1]) (by linarith)
      have h8 : 0.49 ≤ ‖W‖ := by linarith [hWb.2]
      have h9 : 0.24 ≤ ‖W‖ ^ 2 := by nlinarith
      have h10 := mul_le_mul_of_nonneg_left h9 hu0
      have h11 := R.η1
      linarith

end Ufunclab.Log1p
