import Mathlib.Analysis.SpecialFunctions.Complex.Arg
import Mathlib.Analysis.SpecialFunctions.Complex.Log
import Mathlib.Analysis.SpecialFunctions.Trigonometric.ArctanDeriv
import Mathlib.Analysis.Calculus.Deriv.MeanValue
/-! # How the argument and the logarithm of the modulus react to an error of the real part -/
namespace Ufunclab.Log1p
open Real

theorem arctan_sub_le {a b : ℝ} (ha : 0 ≤ a) (hab : a ≤ b) : arctan b - arctan a ≤ 1 / (1 + a ^ 2) * (b - a) := by
  apply Convex.image_sub_le_mul_sub_of_deriv_le (convex_Icc a b) continuous_arctan.continuousOn
    differentiable_arctan.differentiableOn _ a ⟨le_rfl, hab⟩ b ⟨hab, le_rfl⟩ hab
  intro x hx
  rw [interior_Icc] at hx
  rw [Real.deriv_arctan]
  exact one_div_le_one_div_of_le (by positivity) (by nlinarith [hx.1])

theorem le_arctan {a : ℝ} (ha : 0 ≤ a) : 1 / (1 + a ^ 2) * a ≤ arctan a := by
  have := Convex.mul_sub_le_image_sub_of_le_deriv (convex_Icc 0 a) continuous_arctan.continuousOn
    differentiable_arctan.differentiableOn (C := 1 / (1 + a ^ 2)) (fun x hx => by
      rw [interior_Icc] at hx
      rw [Real.deriv_arctan]
      exact one_div_le_one_div_of_le (by positivity) (by nlinarith [hx.1, hx.2])) 0 ⟨le_rfl, ha⟩ a ⟨ha, le_rfl⟩ ha
  simpa using this

/-- A relative change of the argument of `arctan` changes the value relatively by no more. -/
theorem arctan_rel {a b q : ℝ} (ha : 0 ≤ a) (hab : a ≤ b) (hb : b ≤ (1 + q) * a) :
    arctan b - arctan a ≤ q * arctan a := by
  have h1 := arctan_sub_le ha hab
  have h2 := le_arctan ha
  rcases eq_or_lt_of_le ha with rfl | ha
  · have : b = 0 := by linarith
    simp [this]
  · have hq : 0 ≤ q := by nlinarith
    have h3 : 1 / (1 + a ^ 2) * (b - a) ≤ 1 / (1 + a ^ 2) * (q * a) :=
      mul_le_mul_of_nonneg_left (by linarith) (by positivity)
    have h4 : q * (1 / (1 + a ^ 2) * a) ≤ q * arctan a := mul_le_mul_of_nonneg_left h2 hq
    linarith [show q * (1 / (1 + a ^ 2) * a) = 1 / (1 + a ^ 2) * (q * a) by ring]

theorem arg_of_re_pos {X y : ℝ} (hX : 0 < X) : Complex.arg ⟨X, y⟩ = arctan (y / X) := by
  have h := Complex.tan_arg ⟨X, y⟩
  have hlt : |Complex.arg ⟨X, y⟩| < π / 2 := Complex.abs_arg_lt_pi_div_two_iff.2 (.inl hX)
  rw [abs_lt] at hlt
  rw [← h, arctan_tan hlt.1 hlt.2]

/-- Positive real part, non-negative imaginary part. -/
theorem arg_err_pos {X X' y u : ℝ} (hX : 0 < X) (hy : 0 ≤ y) (hu1 : u ≤ 1 / 2)
    (h : |X' - X| ≤ u * X) : 0 < X' ∧ |arctan (y / X') - arctan (y / X)| ≤ 2 * u * arctan (y / X) := by
  obtain ⟨h1, h2⟩ := abs_le.1 h
  have hX' : 0 < X' := by nlinarith
  have hu0 : 0 ≤ u := by
    by_contra hc
    have := abs_nonneg (X' - X)
    nlinarith
  refine ⟨hX', ?_⟩
  have ha : 0 ≤ y / X := by positivity
  have ha' : 0 ≤ y / X' := by positivity
  have hat := arctan_nonneg.2 ha
  rcases le_total X' X with hc | hc
  · have hab : y / X ≤ y / X' := div_le_div_of_nonneg_left hy hX' hc
    rw [abs_of_nonneg (sub_nonneg.2 (arctan_mono hab))]
    apply arctan_rel ha hab
    rw [div_le_iff₀ hX']
    have : (1 + 2 * u) * (y / X) * X' = y * ((1 + 2 * u) * (X' / X)) := by ring
    rw [this]
    apply le_mul_of_one_le_right hy
    rw [← mul_div_assoc, one_le_div hX]
    nlinarith
  · have hab : y / X' ≤ y / X := div_le_div_of_nonneg_left hy hX hc
    rw [abs_of_nonpos (sub_nonpos.2 (arctan_mono hab)), neg_sub]
    have : arctan (y / X) - arctan (y / X') ≤ u * arctan (y / X') := by
      apply arctan_rel ha' hab
      rw [div_le_iff₀ hX]
      have : (1 + u) * (y / X') * X = y * ((1 + u) * (X / X')) := by ring
      rw [this]
      apply le_mul_of_one_le_right hy
      rw [← mul_div_assoc, one_le_div hX']
      linarith
    have h3 := arctan_mono hab
    nlinarith

/-- A relative error `u` of the real part changes the argument relatively by at most `2u`. -/
theorem arg_err {X X' y u : ℝ} (hu0 : 0 ≤ u) (hu1 : u ≤ 1 / 2) (h : |X' - X| ≤ u * |X|) :
    |Complex.arg ⟨X', y⟩ - Complex.arg ⟨X, y⟩| ≤ 2 * u * |Complex.arg ⟨X, y⟩| := by
  -- non-negative imaginary part first
  have key : ∀ y : ℝ, 0 < y → |Complex.arg ⟨X', y⟩ - Complex.arg ⟨X, y⟩| ≤ 2 * u * |Complex.arg ⟨X, y⟩| := by
    intro y hy
    rcases lt_trichotomy X 0 with hX | hX | hX
    · have h' : |-X' - -X| ≤ u * -X := by
        rw [show -X' - -X = -(X' - X) by ring, abs_neg]; rwa [abs_of_neg hX] at h
      have hp := arg_err_pos (X := -X) (X' := -X') (y := y) (by linarith) hy.le hu1 h'
      have e : ∀ Z : ℝ, Z < 0 → Complex.arg ⟨Z, y⟩ = π - arctan (y / -Z) := by
        intro Z hZ
        have h1 := Complex.arg_neg_eq_arg_sub_pi_of_im_pos (x := ⟨Z, y⟩) hy
        have h2 : (-(⟨Z, y⟩ : ℂ)) = ⟨-Z, -y⟩ := by apply Complex.ext <;> simp
        rw [h2, arg_of_re_pos (by linarith), neg_div, arctan_neg] at h1
        linarith
      rw [e X hX, e X' (by linarith [hp.1])]
      have hlt := arctan_lt_pi_div_two (y / -X)
      have h0 : 0 ≤ arctan (y / -X) := arctan_nonneg.2 (div_nonneg hy.le (by linarith))
      rw [show π - arctan (y / -X') - (π - arctan (y / -X)) = -(arctan (y / -X') - arctan (y / -X)) by ring, abs_neg,
        abs_of_nonneg (a := π - arctan (y / -X)) (by linarith [pi_pos])]
      refine hp.2.trans (mul_le_mul_of_nonneg_left (by linarith) (by linarith))
    · rw [hX, abs_zero, mul_zero] at h
      have hX' : X' = 0 := by
        have := abs_eq_zero.1 (le_antisymm h (abs_nonneg _)); linarith
      rw [hX, hX', sub_self, abs_zero]
      positivity
    · rw [abs_of_pos hX] at h
      have hp := arg_err_pos hX hy.le hu1 h
      rw [arg_of_re_pos hX, arg_of_re_pos hp.1, abs_of_nonneg (a := arctan (y / X)) (arctan_nonneg.2 (by positivity))]
      exact hp.2
  rcases lt_trichotomy y 0 with hy | hy | hy
  · have e : ∀ Z : ℝ, Complex.arg ⟨Z, y⟩ = -Complex.arg ⟨Z, -y⟩ := by
      intro Z
      have h1 := Complex.arg_conj ⟨Z, -y⟩
      have h2 : (starRingEnd ℂ) ⟨Z, -y⟩ = ⟨Z, y⟩ := by apply Complex.ext <;> simp
      rw [h2, if_neg] at h1
      · exact h1
      · rw [Complex.arg_eq_pi_iff]
        rintro ⟨-, h3⟩
        simp at h3; linarith
    have := key (-y) (by linarith)
    rw [e X, e X', abs_neg]
    rw [show -Complex.arg ⟨X', -y⟩ - -Complex.arg ⟨X, -y⟩ = -(Complex.arg ⟨X', -y⟩ - Complex.arg ⟨X, -y⟩) by ring, abs_neg]
    exact this
  · have hs : Complex.arg ⟨X', y⟩ = Complex.arg ⟨X, y⟩ := by
      subst hy
      have e : ∀ Z : ℝ, (⟨Z, 0⟩ : ℂ) = (Z : ℂ) := fun Z => rfl
      rw [e, e]
      rcases lt_or_ge X 0 with hX | hX
      · rw [abs_of_neg hX] at h
        have := abs_le.1 h
        rw [Complex.arg_ofReal_of_neg hX, Complex.arg_ofReal_of_neg (by nlinarith)]
      · rw [abs_of_nonneg hX] at h
        have := abs_le.1 h
        rw [Complex.arg_ofReal_of_nonneg hX, Complex.arg_ofReal_of_nonneg (by nlinarith)]
    rw [hs, sub_self, abs_zero]; positivity
  · exact key y hy

/-- `log` of nearby positive numbers. -/
theorem log_err {a b : ℝ} (ha : 0 < a) (hb : 0 < b) {c : ℝ} (hc : 0 < c) (hca : c ≤ a) (hcb : c ≤ b) :
    |log a - log b| ≤ |a - b| / c := by
  have key : ∀ a b : ℝ, c ≤ a → c ≤ b → log a - log b ≤ |a - b| / c := by
    intro a b h1 h2
    have hb : 0 < b := by linarith
    rw [← log_div (by linarith) (by linarith)]
    refine (log_le_sub_one_of_pos (div_pos (by linarith) hb)).trans ?_
    rw [show a / b - 1 = (a - b) / b by field_simp]
    calc (a - b) / b ≤ |a - b| / b := div_le_div_of_nonneg_right (le_abs_self _) hb.le
      _ ≤ _ := div_le_div_of_nonneg_left (abs_nonneg _) hc h2
  rw [abs_le]
  constructor
  · have := key b a hcb hca
    rw [abs_sub_comm] at this
    linarith
  · exact key a b hca hcb

/-- The modulus after a relative error `u` of the real part. -/
theorem hypot_err {X X' y u : ℝ} (hu0 : 0 ≤ u) (hu1 : u ≤ 1) (h : |X' - X| ≤ u * |X|) :
    |√(X' * X' + y * y) - √(X * X + y * y)| ≤ u * √(X * X + y * y) := by
  have hX : |X'| ≤ (1 + u) * |X| := by
    have := abs_sub_abs_le_abs_sub X' X; linarith
  have hX2 : (1 - u) * |X| ≤ |X'| := by
    have := abs_sub_abs_le_abs_sub X X'
    rw [abs_sub_comm] at this; linarith
  have hn : 0 ≤ X * X + y * y := add_nonneg (mul_self_nonneg _) (mul_self_nonneg _)
  have hx := abs_nonneg X
  have hu3 : 0 ≤ 1 - u := by linarith
  have e1 : √(X' * X' + y * y) ≤ (1 + u) * √(X * X + y * y) := by
    apply sqrt_le_iff.2
    refine ⟨by positivity, ?_⟩
    rw [mul_pow, sq_sqrt hn, ← abs_mul_abs_self X', ← abs_mul_abs_self X]
    have := mul_le_mul hX hX (abs_nonneg _) (by positivity)
    nlinarith [mul_self_nonneg y, mul_nonneg hu0 (mul_self_nonneg y), mul_nonneg (mul_nonneg hu0 hu0) (mul_self_nonneg y)]
  have e2 : (1 - u) * √(X * X + y * y) ≤ √(X' * X' + y * y) := by
    apply le_sqrt_of_sq_le
    rw [mul_pow, sq_sqrt hn, ← abs_mul_abs_self X', ← abs_mul_abs_self X]
    have h1 := mul_le_mul hX2 hX2 (by positivity) (abs_nonneg _)
    have h2 : (1 - u) ^ 2 * (y * y) ≤ 1 * (y * y) := by
      apply mul_le_mul_of_nonneg_right _ (mul_self_nonneg y)
      nlinarith
    nlinarith
  rw [abs_le]; constructor <;> linarith

end Ufunclab.Log1p
