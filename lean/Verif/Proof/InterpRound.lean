import Verif.Proof.StepRound
import Verif.Props.LinearInterp
/-! # Rounding error of the two interpolation formulas -/
namespace Ufunclab.LinearInterp
open Float Step

variable {p : ℕ} {emin : ℤ} {rd : ℝ → ℝ}

theorem lerp_abs_le {fa fb T M : ℝ} (hfa : |fa| ≤ M) (hfb : |fb| ≤ M) (hT0 : 0 ≤ T) (hT1 : T ≤ 1) :
    |fa + (fb - fa) * T| ≤ M := by
  rw [show fa + (fb - fa) * T = fa * (1 - T) + fb * T by ring]
  calc |fa * (1 - T) + fb * T| ≤ |fa| * (1 - T) + |fb| * T := by
        refine le_trans (abs_add_le _ _) (le_of_eq ?_)
        rw [abs_mul, abs_mul, abs_of_nonneg hT0, abs_of_nonneg (sub_nonneg.2 hT1)]
    _ ≤ M * (1 - T) + M * T := add_le_add (mul_le_mul_of_nonneg_right hfa (by linarith)) (mul_le_mul_of_nonneg_right hfb hT0)
    _ = M := by ring

/-- `f0 + r*(f1 - f0)` with `r` the rounded ratio. -/
theorem fast_round (h : Nearest p emin rd) (hp : 11 ≤ p) (he : emin ≤ -2 * p) {x x0 x1 f0 f1 M : ℝ}
    (fx : IsFloat p emin x) (fx0 : IsFloat p emin x0) (fx1 : IsFloat p emin x1) (ff0 : IsFloat p emin f0) (ff1 : IsFloat p emin f1)
    (h0 : x0 < x) (h1 : x < x1) (hM0 : |f0| ≤ M) (hM1 : |f1| ≤ M) :
    |rd (f0 + rd (rd (rd (x - x0) / rd (x1 - x0)) * rd (f1 - f0))) - (f0 + (f1 - f0) * ((x - x0) / (x1 - x0)))| ≤
      12 * (2 ^ p)⁻¹ * M + 2 ^ emin := by
  have hp1 : 1 ≤ p := by omega
  obtain ⟨r0, r1, re⟩ := ratio_round h hp he (fx.grid.sub fx0.grid) (fx1.grid.sub fx0.grid) (by linarith) (by linarith) (by linarith)
  have ht0 : 0 ≤ (x - x0) / (x1 - x0) := div_nonneg (by linarith) (by linarith)
  have ht1 : (x - x0) / (x1 - x0) ≤ 1 := (div_le_one (by linarith)).2 (by linarith)
  have hd := h.rel_error hp1 (ff1.grid.sub ff0.grid)
  have hD : |f1 - f0| ≤ 2 * M := le_trans (abs_sub _ _) (by linarith)
  have hM : 0 ≤ M := le_trans (abs_nonneg _) hM0
  have hu := unit_le hp
  have hu0 : (0 : ℝ) ≤ (2 ^ p)⁻¹ := by positivity
  have hη : (0 : ℝ) < 2 ^ emin := by positivity
  have hd2 : |rd (f1 - f0) - (f1 - f0)| ≤ (2 ^ p)⁻¹ * (2 * M) := le_trans hd (mul_le_mul_of_nonneg_left hD hu0)
  have hY : |rd (f1 - f0)| ≤ 2 * M + (2 ^ p)⁻¹ * (2 * M) := by
    calc |rd (f1 - f0)| = |(rd (f1 - f0) - (f1 - f0)) + (f1 - f0)| := by ring_nf
      _ ≤ |rd (f1 - f0) - (f1 - f0)| + |f1 - f0| := abs_add_le _ _
      _ ≤ _ := by linarith
  have hm := mul_round h hp1 re hd2 (show |(x - x0) / (x1 - x0)| ≤ 1 by rw [abs_of_nonneg ht0]; exact ht1) hY
  have hz := lerp_abs_le hM0 hM1 ht0 ht1
  rw [mul_comm ((x - x0) / (x1 - x0))] at hm
  rw [show ∀ b c : ℝ, b - c = f0 + b - (f0 + c) by intros; ring] at hm
  refine le_trans (add_round h hp1 ff0 (h _).1 hm hz) ?_
  generalize ((2 : ℝ) ^ p)⁻¹ = u at *
  generalize (2 : ℝ) ^ emin = η at *
  clear hm re hd hd2 hY
  have a1 : 0 ≤ u * M := mul_nonneg hu0 hM
  have a2 : u * (u * M) ≤ 1 / 2048 * (u * M) := mul_le_mul_of_nonneg_right hu a1
  have a5 : 0 ≤ u * (u * M) := mul_nonneg hu0 a1
  have a3 : u * (u * (u * M)) ≤ 1 / 2048 * (u * (u * M)) := mul_le_mul_of_nonneg_right hu a5
  have a7 : 0 ≤ u * (u * (u * M)) := mul_nonneg hu0 a5
  have a8 : u * (u * (u * (u * M))) ≤ 1 / 2048 * (u * (u * (u * M))) := mul_le_mul_of_nonneg_right hu a7
  have a4 : u * η ≤ 1 / 2048 * η := mul_le_mul_of_nonneg_right hu hη.le
  ring_nf at a1 a2 a3 a4 a5 a7 a8 ⊢
  linarith

set_option maxHeartbeats 1000000 in
/-- `f0 + slope*(x - x0)` with the rounded slope. -/
theorem slope_round (h : Nearest p emin rd) (hp : 11 ≤ p) (he : emin ≤ -2 * p) {x x0 x1 f0 f1 M : ℝ}
    (fx : IsFloat p emin x) (fx0 : IsFloat p emin x0) (fx1 : IsFloat p emin x1) (ff0 : IsFloat p emin f0) (ff1 : IsFloat p emin f1)
    (h0 : x0 < x) (h1 : x < x1) (hM0 : |f0| ≤ M) (hM1 : |f1| ≤ M) :
    |rd (f0 + rd (rd (rd (f1 - f0) / rd (x1 - x0)) * rd (x - x0))) - (f0 + (f1 - f0) * ((x - x0) / (x1 - x0)))| ≤
      12 * (2 ^ p)⁻¹ * M + 2 ^ emin * (1 + (x - x0)) := by
  have hp1 : 1 ≤ p := by omega
  have ht0 : 0 ≤ (x - x0) / (x1 - x0) := div_nonneg (by linarith) (by linarith)
  have ht1 : (x - x0) / (x1 - x0) ≤ 1 := (div_le_one (by linarith)).2 (by linarith)
  have hd := h.rel_error hp1 (ff1.grid.sub ff0.grid)
  have hw := h.rel_error hp1 (fx1.grid.sub fx0.grid)
  have hv := h.rel_error hp1 (fx.grid.sub fx0.grid)
  have hD : |f1 - f0| ≤ 2 * M := le_trans (abs_sub _ _) (by linarith)
  have hM : 0 ≤ M := le_trans (abs_nonneg _) hM0
  have hu := unit_le hp
  have hu0 : (0 : ℝ) ≤ (2 ^ p)⁻¹ := by positivity
  have hη : (0 : ℝ) < 2 ^ emin := by positivity
  have hσ := h.error hp1 (rd (f1 - f0) / rd (x1 - x0))
  have hz := lerp_abs_le hM0 hM1 ht0 ht1
  have hW : 0 < x1 - x0 := by linarith
  have hV : 0 < x - x0 := by linarith
  rw [abs_of_pos hW] at hw
  rw [abs_of_pos hV] at hv
  have hw' := abs_le.1 hw
  -- the slope
  have hwpos : 0.999 * (x1 - x0) ≤ rd (x1 - x0) := by nlinarith
  have hwp : 0 < rd (x1 - x0) := by nlinarith
  have hq : |rd (f1 - f0) / rd (x1 - x0) - (f1 - f0) / (x1 - x0)| ≤ 2.003 * (2 ^ p)⁻¹ * (|f1 - f0| / (x1 - x0)) := by
    have e : rd (f1 - f0) / rd (x1 - x0) - (f1 - f0) / (x1 - x0) =
        ((rd (f1 - f0) - (f1 - f0)) * (x1 - x0) - (f1 - f0) * (rd (x1 - x0) - (x1 - x0))) / (rd (x1 - x0) * (x1 - x0)) := by
      rw [div_sub_div _ _ hwp.ne' hW.ne']; ring
    rw [e, abs_div, abs_of_pos (mul_pos hwp hW), div_le_iff₀ (mul_pos hwp hW)]
    have e2 : 2.003 * (2 ^ p)⁻¹ * (|f1 - f0| / (x1 - x0)) * (rd (x1 - x0) * (x1 - x0)) = 2.003 * (2 ^ p)⁻¹ * |f1 - f0| * rd (x1 - x0) := by
      field_simp
    rw [e2]
    calc |(rd (f1 - f0) - (f1 - f0)) * (x1 - x0) - (f1 - f0) * (rd (x1 - x0) - (x1 - x0))|
        ≤ |(rd (f1 - f0) - (f1 - f0)) * (x1 - x0)| + |(f1 - f0) * (rd (x1 - x0) - (x1 - x0))| := abs_sub _ _
      _ = |rd (f1 - f0) - (f1 - f0)| * (x1 - x0) + |f1 - f0| * |rd (x1 - x0) - (x1 - x0)| := by rw [abs_mul, abs_mul, abs_of_pos hW]
      _ ≤ (2 ^ p)⁻¹ * |f1 - f0| * (x1 - x0) + |f1 - f0| * ((2 ^ p)⁻¹ * (x1 - x0)) :=
          add_le_add (mul_le_mul_of_nonneg_right hd hW.le) (mul_le_mul_of_nonneg_left hw (abs_nonneg _))
      _ = 2 * ((2 ^ p)⁻¹ * |f1 - f0|) * (x1 - x0) := by ring
      _ ≤ 2.003 * (2 ^ p)⁻¹ * |f1 - f0| * rd (x1 - x0) := by
          have := mul_le_mul_of_nonneg_left (show (1 - 1 / 2048) * (x1 - x0) ≤ rd (x1 - x0) by nlinarith)
            (show 0 ≤ 2.003 * ((2 ^ p)⁻¹ * |f1 - f0|) by positivity)
          nlinarith [mul_nonneg (mul_nonneg hu0 (abs_nonneg (f1 - f0))) hW.le]
  have hS : |(f1 - f0) / (x1 - x0)| = |f1 - f0| / (x1 - x0) := by rw [abs_div, abs_of_pos hW]
  rw [← hS] at hq
  have hσ2 : |rd (rd (f1 - f0) / rd (x1 - x0)) - (f1 - f0) / (x1 - x0)| ≤ 3.01 * (2 ^ p)⁻¹ * |(f1 - f0) / (x1 - x0)| + 2 ^ emin / 2 := by
    have hqa : |rd (f1 - f0) / rd (x1 - x0)| ≤ |(f1 - f0) / (x1 - x0)| + 2.003 * (2 ^ p)⁻¹ * |(f1 - f0) / (x1 - x0)| := by
      have := abs_sub_abs_le_abs_sub (rd (f1 - f0) / rd (x1 - x0)) ((f1 - f0) / (x1 - x0))
      linarith
    have h3 := mul_le_mul_of_nonneg_left hqa hu0
    have := abs_sub_le (rd (rd (f1 - f0) / rd (x1 - x0))) (rd (f1 - f0) / rd (x1 - x0)) ((f1 - f0) / (x1 - x0))
    generalize |(f1 - f0) / (x1 - x0)| = S at *
    have hS0 : 0 ≤ S := by rw [hS]; positivity
    generalize ((2 : ℝ) ^ p)⁻¹ = u at *
    have a1 : u * (u * S) ≤ 1 / 2048 * (u * S) := mul_le_mul_of_nonneg_right hu (mul_nonneg hu0 hS0)
    nlinarith [mul_nonneg hu0 hS0]
  -- the increment
  have hSv : |(f1 - f0) / (x1 - x0)| * (x - x0) ≤ 2 * M := by
    rw [hS, div_mul_eq_mul_div, mul_div_assoc]
    calc |f1 - f0| * ((x - x0) / (x1 - x0)) ≤ 2 * M * 1 := mul_le_mul hD ht1 ht0 (by linarith)
      _ = _ := by ring
  have hve : |rd (x - x0)| ≤ (1 + (2 ^ p)⁻¹) * (x - x0) := by
    have := abs_sub_abs_le_abs_sub (rd (x - x0)) (x - x0)
    rw [abs_of_pos hV] at this
    linarith
  have hm := h.error hp1 (rd (rd (f1 - f0) / rd (x1 - x0)) * rd (x - x0))
  have hz2 : (f1 - f0) * ((x - x0) / (x1 - x0)) = (f1 - f0) / (x1 - x0) * (x - x0) := by ring
  rw [hz2] at hz ⊢
  have hS0 : 0 ≤ |(f1 - f0) / (x1 - x0)| := abs_nonneg _
  have hmul : |rd (rd (f1 - f0) / rd (x1 - x0)) * rd (x - x0) - (f1 - f0) / (x1 - x0) * (x - x0)| ≤
      8.04 * (2 ^ p)⁻¹ * M + 0.501 * 2 ^ emin * (x - x0) := by
    generalize rd (rd (f1 - f0) / rd (x1 - x0)) = σ at *
    generalize (f1 - f0) / (x1 - x0) = S at *
    generalize rd (x - x0) = v' at *
    generalize x - x0 = v at *
    have e1 : |σ * v' - S * v| ≤ |σ - S| * |v'| + |S| * |v' - v| := by
      rw [← abs_mul, ← abs_mul, show σ * v' - S * v = (σ - S) * v' + S * (v' - v) by ring]
      exact abs_add_le _ _
    have e2 := mul_le_mul hσ2 hve (abs_nonneg _) (by positivity)
    have e3 := mul_le_mul_of_nonneg_left hv hS0
    generalize ((2 : ℝ) ^ p)⁻¹ = u at *
    generalize (2 : ℝ) ^ emin = η at *
    have a1 : u * (|S| * v) ≤ u * (2 * M) := mul_le_mul_of_nonneg_left hSv hu0
    have a2 : 0 ≤ u * (|S| * v) := mul_nonneg hu0 (mul_nonneg hS0 hV.le)
    have a3 : u * (u * (|S| * v)) ≤ 1 / 2048 * (u * (|S| * v)) := mul_le_mul_of_nonneg_right hu a2
    have a4 : u * (η * v) ≤ 1 / 2048 * (η * v) := mul_le_mul_of_nonneg_right hu (mul_nonneg hη.le hV.le)
    have a5 : 0 ≤ η * v := mul_nonneg hη.le hV.le
    have a6 : 0 ≤ u * M := mul_nonneg hu0 hM
    linarith
  have hma : |rd (rd (f1 - f0) / rd (x1 - x0)) * rd (x - x0)| ≤ 2 * M + (8.04 * (2 ^ p)⁻¹ * M + 0.501 * 2 ^ emin * (x - x0)) := by
    have := abs_sub_abs_le_abs_sub (rd (rd (f1 - f0) / rd (x1 - x0)) * rd (x - x0)) ((f1 - f0) / (x1 - x0) * (x - x0))
    rw [abs_mul ((f1 - f0) / (x1 - x0)), abs_of_pos hV] at this
    linarith
  have hm2 : |rd (rd (rd (f1 - f0) / rd (x1 - x0)) * rd (x - x0)) - (f1 - f0) / (x1 - x0) * (x - x0)| ≤
      10.1 * (2 ^ p)⁻¹ * M + 0.502 * 2 ^ emin * (x - x0) + 0.5 * 2 ^ emin := by
    have e1 := abs_sub_le (rd (rd (rd (f1 - f0) / rd (x1 - x0)) * rd (x - x0))) (rd (rd (f1 - f0) / rd (x1 - x0)) * rd (x - x0))
      ((f1 - f0) / (x1 - x0) * (x - x0))
    have e2 := mul_le_mul_of_nonneg_left hma hu0
    generalize x - x0 = v at *
    clear hσ hσ2 hq hw hv hd hve
    generalize ((2 : ℝ) ^ p)⁻¹ = u at *
    generalize (2 : ℝ) ^ emin = η at *
    have a6 : 0 ≤ u * M := mul_nonneg hu0 hM
    have a3 : u * (u * M) ≤ 1 / 2048 * (u * M) := mul_le_mul_of_nonneg_right hu a6
    have a4 : u * (η * v) ≤ 1 / 2048 * (η * v) := mul_le_mul_of_nonneg_right hu (mul_nonneg hη.le hV.le)
    have a5 : 0 ≤ η * v := mul_nonneg hη.le hV.le
    linarith
  rw [show ∀ b c : ℝ, b - c = f0 + b - (f0 + c) by intros; ring] at hm2
  refine le_trans (add_round h hp1 ff0 (h _).1 hm2 hz) ?_
  clear hm2 hm hma hmul hσ hσ2 hq hw hv hd hve
  generalize x - x0 = v at *
  generalize ((2 : ℝ) ^ p)⁻¹ = u at *
  generalize (2 : ℝ) ^ emin = η at *
  have a6 : 0 ≤ u * M := mul_nonneg hu0 hM
  have a3 : u * (u * M) ≤ 1 / 2048 * (u * M) := mul_le_mul_of_nonneg_right hu a6
  have a4 : u * (η * v) ≤ 1 / 2048 * (η * v) := mul_le_mul_of_nonneg_right hu (mul_nonneg hη.le hV.le)
  have a5 : 0 ≤ η * v := mul_nonneg hη.le hV.le
  have a7 : u * η ≤ 1 / 2048 * η := mul_le_mul_of_nonneg_right hu hη.le
  linarith

end Ufunclab.LinearInterp
