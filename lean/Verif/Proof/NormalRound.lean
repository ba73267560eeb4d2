import Verif.Model.NormalRound
import Verif.Proof.Close
import Verif.Proof.ErfcxOverflow
import Verif.Props.RampRound
import Verif.Props.Normal
/-!
# How `erfc` and `erfcx` pass on errors of their arguments
-/
namespace Ufunclab.Normal
open Real Set Ufunclab.Float Ufunclab.Erfcx
variable {p P : ℕ} {emin Emin : ℤ} {rT rL : ℝ → ℝ} {a b : ℝ}

theorem erfc_anti (h : a ≤ b) : erfc b ≤ erfc a := by
  rcases h.eq_or_lt with rfl | h
  · rfl
  · exact (erfc_sub _ _ h).le

theorem erfc_exp_mono {κ A : ℝ} (hA : ∀ z, A < z → 2 * c ≤ (2 * z + κ) * E z) (ha : A ≤ a) (hab : a ≤ b) :
    erfc a * exp (a ^ 2 + κ * a) ≤ erfc b * exp (b ^ 2 + κ * b) := by
  have hder : ∀ z : ℝ, HasDerivAt (fun z => erfc z * exp (z ^ 2 + κ * z))
      (-(2 * c) * exp (-z ^ 2) * exp (z ^ 2 + κ * z) + erfc z * (exp (z ^ 2 + κ * z) * (2 * z + κ))) z := by
    intro z
    have h1 : HasDerivAt (fun z : ℝ => z ^ 2 + κ * z) (2 * z + κ) z := by
      have := (hasDerivAt_pow 2 z).add ((hasDerivAt_id z).const_mul κ)
      refine this.congr_deriv ?_
      simp
    exact (hasDerivAt_erfc z).mul h1.exp
  have : MonotoneOn (fun z => erfc z * exp (z ^ 2 + κ * z)) (Ici A) := by
    refine monotoneOn_of_deriv_nonneg (convex_Ici A) (fun x _ => (hder x).continuousAt.continuousWithinAt)
      (fun x _ => (hder x).differentiableAt.differentiableWithinAt) (fun z hz => ?_)
    rw [interior_Ici] at hz
    rw [(hder z).deriv]
    have h1 : exp (z ^ 2 + κ * z) = exp (z ^ 2) * exp (κ * z) := exp_add _ _
    have h2 : exp (-z ^ 2) * exp (z ^ 2) = 1 := by rw [← exp_add]; simp
    have h3 := hA z hz
    have h4 : -(2 * c) * exp (-z ^ 2) * exp (z ^ 2 + κ * z) + erfc z * (exp (z ^ 2 + κ * z) * (2 * z + κ))
        = exp (κ * z) * ((2 * z + κ) * E z - 2 * c) := by
      simp only [E, erfcx]
      rw [h1]
      linear_combination (-(2 * c) * exp (κ * z)) * h2
    rw [h4]
    exact mul_nonneg (exp_pos _).le (by linarith)
  exact this ha (ha.trans hab) hab

theorem c_le : c ≤ 0.5642 := by
  have := (abs_le.1 c_bounds).2
  have e : (cN : ℝ) / 10 ^ 30 + 1 / 10 ^ 21 ≤ 0.5642 := by norm_num [cN]
  linarith

theorem slope_nonneg {z : ℝ} (hz : 0 ≤ z) : 2 * c ≤ (2 * z + 2) * E z := by
  have h := E_ge_rat hz
  rw [div_le_iff₀ (by positivity)] at h
  have := c_pos
  have := E_pos z
  nlinarith [mul_nonneg hz this.le, mul_nonneg hz c_pos.le]

theorem slope_neg {z : ℝ} (hz : -1 ≤ z) : 2 * c ≤ (2 * z + 4) * E z := by
  rcases le_or_gt 0 z with h | h
  · have := slope_nonneg h
    have := E_pos z
    linarith
  · have h1 := E_anti_all h.le
    rw [E_zero] at h1
    have := c_le
    nlinarith

theorem close_of_slope {κ A : ℝ} (hA : ∀ z, A < z → 2 * c ≤ (2 * z + κ) * E z) (ha : A ≤ a) (hb : A ≤ b) :
    Close (|a - b| * (a + b + κ)) (erfc a) (erfc b) := by
  have key : ∀ {x y : ℝ}, A ≤ x → x ≤ y → Close ((y - x) * (x + y + κ)) (erfc x) (erfc y) := by
    intro x y hx hxy
    refine ⟨erfc_pos x, erfc_pos y, ?_⟩
    have h1 := erfc_exp_mono hA hx hxy
    have h2 := log_le_log (mul_pos (erfc_pos x) (exp_pos _)) h1
    rw [log_mul (erfc_pos x).ne' (exp_pos _).ne', log_mul (erfc_pos y).ne' (exp_pos _).ne', log_exp, log_exp] at h2
    have h3 := log_le_log (erfc_pos y) (erfc_anti hxy)
    rw [abs_of_nonneg (by linarith)]
    linarith
  rcases le_total a b with h | h
  · rw [abs_of_nonpos (by linarith), neg_sub]
    exact key ha h
  · rw [abs_of_nonneg (by linarith), add_comm a b]
    exact (key hb h).symm

/-- The relative error of `erfc` on the nonnegative numbers. -/
theorem close_erfc (ha : 0 ≤ a) (hb : 0 ≤ b) : Close (|a - b| * (a + b + 2)) (erfc a) (erfc b) :=
  close_of_slope (fun _ hz => slope_nonneg (le_of_lt hz)) ha hb

/-- The same from -1 on. -/
theorem close_erfc4 (ha : -1 ≤ a) (hb : -1 ≤ b) : Close (|a - b| * (a + b + 4)) (erfc a) (erfc b) :=
  close_of_slope (fun _ hz => slope_neg (le_of_lt hz)) ha hb

/-- The relative error of `erfcx` is at most six times that of its argument. -/
theorem close_E {t : ℝ} (h : Close t a b) : Close (6 * t) (E a) (E b) := by
  have key : ∀ {x y : ℝ}, 0 < x → x ≤ y → |log (E x) - log (E y)| ≤ 6 * |log (4 + x) - log (4 + y)| := by
    intro x y hx hxy
    have h1 := log_le_log (mul_pos (by positivity) (E_pos x)) (pow_mul_E_mono hx.le hxy)
    rw [log_mul (by positivity) (E_pos x).ne', log_mul (by have : 0 < 4 + y := by linarith
                                                           positivity) (E_pos y).ne', log_pow, log_pow] at h1
    have h2 := log_le_log (E_pos y) (E_antitone hx.le hxy)
    have h3 := log_le_log (by linarith : 0 < 4 + x) (by linarith : 4 + x ≤ 4 + y)
    rw [abs_of_nonneg (by linarith), abs_of_nonpos (by linarith)]
    push_cast at h1
    linarith
  have h4 := (h.const_add (by norm_num : (0 : ℝ) ≤ 4)).2.2
  refine ⟨E_pos a, E_pos b, ?_⟩
  rcases le_total a b with hab | hab
  · exact (key h.1 hab).trans (by linarith)
  · have := key h.2.1 hab
    rw [abs_sub_comm, abs_sub_comm (log (4 + b))] at this
    exact this.trans (by linarith)

/-- The absolute error of `erfc` on the nonnegative numbers. -/
theorem erfc_abs (ha : 0 ≤ a) (hab : a ≤ b) : erfc a - erfc b ≤ 2 * c * exp (-a ^ 2) * (b - a) := by
  have hder : ∀ z : ℝ, HasDerivAt (fun z => erfc z + 2 * c * exp (-a ^ 2) * z)
      (-(2 * c) * exp (-z ^ 2) + 2 * c * exp (-a ^ 2)) z := by
    intro z
    have := (hasDerivAt_erfc z).add ((hasDerivAt_id z).const_mul (2 * c * exp (-a ^ 2)))
    refine this.congr_deriv ?_
    ring
  have : MonotoneOn (fun z => erfc z + 2 * c * exp (-a ^ 2) * z) (Ici a) := by
    refine monotoneOn_of_deriv_nonneg (convex_Ici a) (fun x _ => (hder x).continuousAt.continuousWithinAt)
      (fun x _ => (hder x).differentiableAt.differentiableWithinAt) (fun z hz => ?_)
    rw [interior_Ici] at hz
    have hz : a < z := hz
    rw [(hder z).deriv]
    have h1 : exp (-z ^ 2) ≤ exp (-a ^ 2) := exp_le_exp.2 (by nlinarith)
    have := mul_le_mul_of_nonneg_left h1 c_pos.le
    linarith
  have h := this (mem_Ici.2 (le_refl a)) (mem_Ici.2 hab) hab
  simp only at h
  linarith

theorem mul_exp_neg_sq (a : ℝ) : a * exp (-a ^ 2) ≤ 1 / 2 := by
  have h1 := add_one_le_exp (a ^ 2)
  rw [exp_neg, ← div_eq_mul_inv, div_le_div_iff₀ (exp_pos _) (by norm_num)]
  nlinarith [sq_nonneg (a - 1)]

/-! ### The argument -/

theorem sqrt_near : |(7071067811865475244008443621048490393 / 10 ^ 37 : ℝ) - 1 / √2| ≤ 1 / 10 ^ 37 := by
  have h : (1 / √2 : ℝ) = √(1 / 2) := by rw [Real.sqrt_div (by norm_num), Real.sqrt_one]
  have h1 : (7071067811865475244008443621048490392 / 10 ^ 37 : ℝ) ≤ 1 / √2 := by
    rw [h]
    apply Real.le_sqrt_of_sq_le
    norm_num
  have h2 : 1 / √2 ≤ (7071067811865475244008443621048490394 / 10 ^ 37 : ℝ) := by
    rw [h]
    apply Real.sqrt_le_iff.2
    norm_num
  rw [abs_le]
  constructor <;> norm_num at * <;> linarith

theorem recip_near (hL : Nearest P Emin rL) (hP : 16 ≤ P) (hP' : P ≤ 113) (hE : Emin + P ≤ -1) :
    |recipSqrt2R rL - 1 / √2| ≤ 1.01 * (2 ^ P)⁻¹ * (1 / √2) := by
  have h1 := sqrt_near
  have h2 := TriArea.rel_normal hL (by omega) (z := 7071067811865475244008443621048490393 / 10 ^ 37) (by
    rw [abs_of_pos (by norm_num), ← zpow_natCast, ← zpow_add₀ (by norm_num)]
    calc (2 : ℝ) ^ ((P : ℤ) + Emin) ≤ 2 ^ (-1 : ℤ) := zpow_le_zpow_right₀ (by norm_num) (by omega)
      _ ≤ _ := by norm_num)
  have h3 : ((2 : ℝ) ^ 113)⁻¹ ≤ (2 ^ P)⁻¹ := inv_anti₀ (by positivity) (pow_le_pow_right₀ (by norm_num) hP')
  have u0 : (0 : ℝ) < (2 ^ P)⁻¹ := by positivity
  change |recipSqrt2R rL - _| ≤ _ at h2
  generalize ((2 : ℝ) ^ P)⁻¹ = U at *
  rw [abs_of_pos (show (0 : ℝ) < 7071067811865475244008443621048490393 / 10 ^ 37 by norm_num)] at h2
  have h4 := abs_sub_le (recipSqrt2R rL) (7071067811865475244008443621048490393 / 10 ^ 37) (1 / √2)
  have h5 := (abs_le.1 h1).2
  generalize (1 / √2 : ℝ) = s at *
  have h6 : (7 / 10 : ℝ) ≤ s := by
    have := (abs_le.1 h1).2
    norm_num at this ⊢; linarith
  have h7 : U * (7071067811865475244008443621048490393 / 10 ^ 37) ≤ U * (s + 1 / 10 ^ 37) :=
    mul_le_mul_of_nonneg_left (by linarith) u0.le
  have h8 : 1 / 10 ^ 37 ≤ 0.0015 * U := by norm_num at h3 ⊢; linarith
  have h9 : U * (7 / 10) ≤ U * s := mul_le_mul_of_nonneg_left h6 u0.le
  have h10 : U * (1 / 10 ^ 37) ≤ 0.0001 * U := by norm_num; linarith
  linarith

/-- The relative error of the scaled argument: one rounding to `T`, and in `long double` that of the constant and that of
the product. -/
noncomputable def argErr (p P : ℕ) : ℝ := 1.01 * (2 ^ p)⁻¹ + 2.1 * (2 ^ P)⁻¹

theorem scaled_error (hT : Nearest p emin rT) (hL : Nearest P Emin rL) (hp : 16 ≤ p) (hP : p ≤ P) (hP' : P ≤ 113) (hE : Emin ≤ emin)
    (hEP : Emin + P ≤ -1) (x : ℝ) :
    |scaledR rT rL x - x * (1 / √2)| ≤ argErr p P * |x * (1 / √2)| + 1.01 * 2 ^ emin := by
  have h1 := recip_near hL (by omega) hP' hEP
  have h2 := hL.error (by omega) (x * recipSqrt2R rL)
  have h3 := hT.error (by omega) (rL (x * recipSqrt2R rL))
  change |scaledR rT rL x - _| ≤ _ at h3
  have U1 := Scalar.U_le hP
  have H1 := Scalar.H_le hE
  have H0 := two_zpow_pos (K := ℝ) Emin
  obtain ⟨u0, u1⟩ := Scalar.u_small' (show 10 ≤ p by omega)
  have U0 : (0 : ℝ) < (2 ^ P)⁻¹ := by positivity
  have e1 : |x * recipSqrt2R rL - x * (1 / √2)| ≤ 1.01 * (2 ^ P)⁻¹ * |x * (1 / √2)| := by
    rw [← mul_sub, abs_mul, abs_mul, abs_of_pos (show (0 : ℝ) < 1 / √2 by positivity)]
    calc _ ≤ |x| * _ := mul_le_mul_of_nonneg_left h1 (abs_nonneg x)
      _ = _ := by ring
  unfold argErr
  generalize scaledR rT rL x = t at *
  generalize rL (x * recipSqrt2R rL) = w at *
  generalize x * recipSqrt2R rL = v at *
  generalize x * (1 / √2) = y at *
  generalize ((2 : ℝ) ^ p)⁻¹ = u at *
  generalize ((2 : ℝ) ^ P)⁻¹ = U at *
  generalize (2 : ℝ) ^ emin = η at *
  generalize (2 : ℝ) ^ Emin = H at *
  clear * - h2 h3 e1 U1 H1 H0 u0 u1 U0
  have y0 := abs_nonneg y
  have k1 : |v| ≤ |y| + |v - y| := by have := abs_sub_abs_le_abs_sub v y; linarith
  have k2 : |w| ≤ |v| + |w - v| := by have := abs_sub_abs_le_abs_sub w v; linarith
  have m1 := mul_nonneg U0.le y0
  have m2 : U * |y| ≤ 1 / 1024 * |y| := mul_le_mul_of_nonneg_right (by linarith) y0
  have k3 : |v| ≤ 1.001 * |y| := by linarith
  have k4 := mul_le_mul_of_nonneg_left k3 U0.le
  have k5 : |w| ≤ 1.003 * |y| + H / 2 := by linarith
  have k6 := mul_le_mul_of_nonneg_left k5 u0.le
  have k7 : u * H ≤ 1 / 1024 * H := mul_le_mul_of_nonneg_right u1 H0.le
  have t1 := abs_sub_le t w y
  have t2 := abs_sub_le w v y
  have m3 := mul_nonneg u0.le y0
  linarith

end Ufunclab.Normal
