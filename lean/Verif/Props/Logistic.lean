import Verif.Model.Scalar
import Mathlib.Analysis.SpecialFunctions.ExpDeriv
import Mathlib.Analysis.Calculus.Deriv.Inv
import Mathlib.Analysis.SpecialFunctions.Log.Base
import Mathlib.Tactic.Linarith
import Mathlib.Tactic.FieldSimp
import Mathlib.Tactic.Ring
import Mathlib.Tactic.Positivity
/-! # Properties C53 (logistic), C54 (ramps), C55 (semivariograms) -/
namespace Ufunclab.Scalar
open Real

/-- C53: values in (0,1), strictly increasing, `logistic(-x) = 1 - logistic(x)`. -/
theorem C53_logistic (x : ℝ) :
    0 < logistic x ∧ logistic x < 1 ∧ logistic (-x) = 1 - logistic x ∧ StrictMono logistic := by
  have h := exp_pos (-x)
  refine ⟨by unfold logistic; positivity, ?_, ?_, ?_⟩
  · unfold logistic; rw [div_lt_one (by positivity)]; linarith
  · unfold logistic
    rw [neg_neg, exp_neg]
    have := exp_pos x
    field_simp; ring
  · intro a b hab
    unfold logistic
    apply one_div_lt_one_div_of_lt
    · have := exp_pos (-b); linarith
    · have := exp_lt_exp.2 (neg_lt_neg hab); linarith

/-- C53: `log_logistic = log(logistic)` in both branches, and it is negative. -/
theorem C53_log_logistic (x : ℝ) : logLogistic x = log (logistic x) ∧ logLogistic x < 0 := by
  have e : logLogistic x = log (logistic x) := by
    unfold logLogistic logistic log1p
    have h := exp_pos (-x)
    have h' := exp_pos x
    rw [one_div, log_inv]
    split_ifs with hx
    · have : 1 + exp (-x) = exp (-x) * (1 + exp x) := by
        rw [mul_add, ← exp_add]; simp; ring
      rw [this, log_mul h.ne' (by positivity), log_exp]; ring
    · rfl
  refine ⟨e, ?_⟩
  rw [e]
  obtain ⟨h0, h1, _, _⟩ := C53_logistic x
  exact log_neg h0 h1

/-- C53: `logistic_deriv` is the derivative of `logistic`. -/
theorem C53_deriv (x : ℝ) : HasDerivAt logistic (logisticDeriv x) x := by
  have hp : (1 + exp (-x)) ≠ 0 := by have := exp_pos (-x); positivity
  have h1 : HasDerivAt (fun t => exp (-t)) (exp (-x) * (-1)) x := (hasDerivAt_neg x).exp
  have h2 := (h1.const_add 1).inv hp
  refine (h2.congr_deriv ?_).congr_of_eventuallyEq (Filter.Eventually.of_forall fun t => ?_)
  · unfold logisticDeriv logistic
    rw [neg_neg, exp_neg]
    have := exp_pos x
    field_simp
    ring
  · simp [logistic]

/-- C53: `swish(x, 0) = x/2`; `swish(x, b) = x*logistic(b x)` lies between 0 and `x`. -/
theorem C53_swish (x b : ℝ) :
    swish x 0 = x / 2 ∧ swish x b = x * logistic (b * x) ∧ (0 < x → 0 < swish x b ∧ swish x b < x) ∧
    (x < 0 → x < swish x b ∧ swish x b < 0) := by
  obtain ⟨h0, h1, _, _⟩ := C53_logistic (b * x)
  refine ⟨?_, rfl, ?_, ?_⟩
  · simp [swish, logistic]; norm_num; ring
  · intro hx; simp only [swish]; constructor <;> nlinarith
  · intro hx; simp only [swish]; constructor <;> nlinarith

/-! ### C54 -/

theorem std_hyp (x : ℝ) : stdHyperbolicRamp x = (x + √(x ^ 2 + 4)) / 2 := by
  have key : ∀ z : ℝ, x / 2 = z → (x + √(x ^ 2 + 4)) / 2 = z + √(z * z + 1) := by
    intro z hz
    have : x ^ 2 + 4 = 2 ^ 2 * (z * z + 1) := by rw [← hz]; ring
    rw [this, sqrt_mul (by positivity), sqrt_sq (by norm_num), ← hz]; ring
  rw [key _ rfl]
  unfold stdHyperbolicRamp
  by_cases h0 : x = 0
  · simp [h0]
  rw [if_neg h0]
  have hz0 : x / 2 ≠ 0 := by positivity
  simp only
  generalize hz : x / 2 = z at *
  have hs : √(1 + 1 / (z * z)) = √(z * z + 1) / |z| := by
    rw [show 1 + 1 / (z * z) = (z * z + 1) / z ^ 2 by field_simp, sqrt_div (by have := mul_self_nonneg z; linarith), sqrt_sq_eq_abs]
  have hpos : 0 < √(z * z + 1) - z := by
    have : |z| < √(z * z + 1) := by
      rw [← sqrt_sq_eq_abs]; exact sqrt_lt_sqrt (sq_nonneg z) (by nlinarith)
    linarith [le_abs_self z]
  have hsq : √(z * z + 1) * √(z * z + 1) = z * z + 1 := mul_self_sqrt (by have := mul_self_nonneg z; linarith)
  split_ifs with h1 h2 h3
  · rw [hs, abs_of_pos (by linarith)]; field_simp
  · rfl
  · rw [div_eq_iff hpos.ne']; linarith
  · have hzn : z < 0 := by linarith [not_lt.1 h3]
    rw [hs, abs_of_neg hzn]
    have e : √(z * z + 1) / -z + 1 = (√(z * z + 1) - z) / -z := by field_simp; ring
    rw [e, div_div_eq_mul_div, div_eq_iff hpos.ne']
    rw [show -1 / z * -z = 1 by field_simp]
    linarith

/-- C54: all branches of `hyperbolic_ramp` compute `(x + sqrt(x^2 + 4 a^2))/2` for `a > 0`;
at `a = 0` the result is `max(x, 0)`; a negative `a` gives NaN. -/
theorem C54_hyperbolic (x a : ℝ) :
    (0 < a → hyperbolicRamp x a = .fin ((x + √(x ^ 2 + 4 * a ^ 2)) / 2)) ∧
    hyperbolicRamp x 0 = .fin (max x 0) ∧ (a < 0 → hyperbolicRamp x a = .nan) := by
  refine ⟨?_, ?_, ?_⟩
  · intro ha
    unfold hyperbolicRamp
    rw [if_neg ha.ne', if_neg (not_lt.2 ha.le), std_hyp]
    congr 1
    have : (x / a) ^ 2 + 4 = (x ^ 2 + 4 * a ^ 2) / a ^ 2 := by field_simp
    rw [this, sqrt_div (by positivity), sqrt_sq ha.le]
    field_simp
  · unfold hyperbolicRamp
    rw [if_pos rfl]
    split_ifs with h
    · rw [max_eq_right h.le]
    · rw [max_eq_left (not_lt.1 h)]
  · intro ha
    unfold hyperbolicRamp
    rw [if_neg ha.ne, if_pos ha]

/-- C54: the smooth hyperbolic ramp exceeds `max(x,0)`, by at most `a`, and increases strictly. -/
theorem C54_hyperbolic_shape (a : ℝ) (ha : 0 < a) :
    ∃ g : ℝ → ℝ, (∀ x, hyperbolicRamp x a = .fin (g x)) ∧ StrictMono g ∧ g 0 = a ∧
      ∀ x, max x 0 < g x ∧ g x ≤ max x 0 + a := by
  refine ⟨_, fun x => (C54_hyperbolic x a).1 ha, ?_, ?_, ?_⟩
  · intro x y h
    -- x ↦ x + sqrt(x²+c) strictly increasing
    have hc : 0 < 4 * a ^ 2 := by positivity
    have hx : |x| < √(x ^ 2 + 4 * a ^ 2) := by
      rw [← sqrt_sq_eq_abs]; exact sqrt_lt_sqrt (sq_nonneg _) (by linarith)
    have hy : |y| < √(y ^ 2 + 4 * a ^ 2) := by
      rw [← sqrt_sq_eq_abs]; exact sqrt_lt_sqrt (sq_nonneg _) (by linarith)
    have sx := sq_sqrt (show 0 ≤ x ^ 2 + 4 * a ^ 2 by positivity)
    have sy := sq_sqrt (show 0 ≤ y ^ 2 + 4 * a ^ 2 by positivity)
    have ax := abs_lt.1 hx
    have ay := abs_lt.1 hy
    simp only
    set p := √(x ^ 2 + 4 * a ^ 2)
    set q := √(y ^ 2 + 4 * a ^ 2)
    have hpq : 0 < p + q := by linarith [abs_nonneg x, abs_nonneg y]
    have : (q - p) * (p + q) = (y - x) * (x + y) := by nlinarith
    have : 0 < (y - x) * (p + q + (x + y)) := mul_pos (by linarith) (by linarith)
    have : 0 < ((y + q) - (x + p)) * (p + q) := by nlinarith
    have := pos_of_mul_pos_left this hpq.le
    linarith
  · rw [show (0:ℝ) ^ 2 + 4 * a ^ 2 = (2 * a) ^ 2 by ring, sqrt_sq (by positivity)]; ring
  · intro x
    have h1 : |x| < √(x ^ 2 + 4 * a ^ 2) := by
      rw [← sqrt_sq_eq_abs]; exact sqrt_lt_sqrt (sq_nonneg _) (by have := pow_pos ha 2; linarith)
    have h2 : √(x ^ 2 + 4 * a ^ 2) ≤ |x| + 2 * a := by
      apply sqrt_le_iff.2
      refine ⟨by positivity, ?_⟩
      nlinarith [sq_abs x, abs_nonneg x, mul_nonneg (abs_nonneg x) ha.le]
    rcases le_total x 0 with h | h
    · rw [max_eq_right h]; rw [abs_of_nonpos h] at h1 h2; constructor <;> linarith
    · rw [max_eq_left h]; rw [abs_of_nonneg h] at h1 h2; constructor <;> linarith

theorem std_exp (x : ℝ) : stdExponentialRamp x = logb 2 (1 + 2 ^ x) := by
  unfold stdExponentialRamp logb log1p
  have h2 : (0:ℝ) < 2 := by norm_num
  have hl : log 2 ≠ 0 := (log_pos (by norm_num)).ne'
  have hp := rpow_pos_of_pos h2 x
  split_ifs with h0 h1
  · rw [h0, rpow_zero]; norm_num [hl]
  · have hp' := rpow_pos_of_pos h2 (-x)
    have : (1:ℝ) + 2 ^ x = 2 ^ x * (1 + 2 ^ (-x)) := by
      rw [mul_add, ← rpow_add h2]; simp; ring
    rw [this, log_mul hp.ne' (by positivity), log_rpow h2]
    field_simp
  · rfl

/-- C54: all branches of `exponential_ramp` compute `a*log2(1 + 2^(x/a))` for `a > 0`; at `a = 0`
the result is `max(x, 0)`; a negative `a` gives NaN. -/
theorem C54_exponential (x a : ℝ) :
    (0 < a → exponentialRamp x a = .fin (a * logb 2 (1 + 2 ^ (x / a)))) ∧
    exponentialRamp x 0 = .fin (max x 0) ∧ (a < 0 → exponentialRamp x a = .nan) := by
  refine ⟨?_, ?_, ?_⟩
  · intro ha
    unfold exponentialRamp
    rw [if_neg ha.ne', if_neg (not_lt.2 ha.le), std_exp]
  · unfold exponentialRamp
    rw [if_pos rfl]
    split_ifs with h
    · rw [max_eq_right h.le]
    · rw [max_eq_left (not_lt.1 h)]
  · intro ha
    unfold exponentialRamp
    rw [if_neg ha.ne, if_pos ha]

/-- C54: the exponential ramp exceeds `max(x,0)` and increases strictly. -/
theorem C54_exponential_shape (a : ℝ) (ha : 0 < a) :
    ∃ g : ℝ → ℝ, (∀ x, exponentialRamp x a = .fin (g x)) ∧ StrictMono g ∧ g 0 = a ∧ ∀ x, max x 0 < g x := by
  have h2 : (0:ℝ) < 2 := by norm_num
  have h12 : (1:ℝ) < 2 := by norm_num
  refine ⟨_, fun x => (C54_exponential x a).1 ha, ?_, ?_, ?_⟩
  · intro x y h
    apply mul_lt_mul_of_pos_left _ ha
    have hp := rpow_pos_of_pos h2 (x / a)
    apply logb_lt_logb h12 (by positivity)
    have := rpow_lt_rpow_of_exponent_lt h12 (div_lt_div_of_pos_right h ha)
    linarith
  · rw [zero_div, rpow_zero]; norm_num
  · intro x
    have hp := rpow_pos_of_pos h2 (x / a)
    apply max_lt
    · have : x / a < logb 2 (1 + 2 ^ (x / a)) := by
        rw [lt_logb_iff_rpow_lt h12 (by positivity)]; linarith
      rw [div_lt_iff₀ ha] at this; linarith
    · exact mul_pos ha (logb_pos h12 (by linarith))

/-! ### C55 -/

/-- A model semivariogram: `nugget` at zero distance, non-decreasing and between `nugget` and
`sill` (for `nugget ≤ sill`). -/
structure IsSemivar (g : ℝ → ℝ) (nugget sill : ℝ) : Prop where
  zero : g 0 = nugget
  mono : ∀ h h', 0 ≤ h → h ≤ h' → g h ≤ g h'
  le : ∀ h, 0 ≤ h → g h ≤ sill

/-- ... with a finite range, where the sill is reached continuously. -/
structure ReachesSill (g : ℝ → ℝ) (sill range : ℝ) : Prop where
  at_range : g range = sill
  beyond : ∀ h, range < h → g h = sill

/-- C55: the exponential model; the sill is approached but not reached. -/
theorem C55_exponential (nugget sill range : ℝ) (hs : nugget ≤ sill) (hr : 0 < range) :
    IsSemivar (fun h => semivarExponential h nugget sill range) nugget sill ∧
    (nugget < sill → ∀ h, semivarExponential h nugget sill range < sill) := by
  refine ⟨⟨by simp [semivarExponential], ?_, ?_⟩, ?_⟩
  · intro h h' _ hh
    simp only [semivarExponential]
    have : exp (-3 * h' / range) ≤ exp (-3 * h / range) :=
      exp_le_exp.2 (div_le_div_of_nonneg_right (by linarith) hr.le)
    nlinarith
  · intro h _
    simp only [semivarExponential]
    have := exp_pos (-3 * h / range)
    nlinarith
  · intro hlt h
    simp only [semivarExponential]
    have := exp_pos (-3 * h / range)
    nlinarith

theorem semivar_of {P : ℝ → ℝ} (nugget sill range : ℝ) (hs : nugget ≤ sill) (hr : 0 < range)
    (g : ℝ → ℝ) (hg : ∀ h, g h = if h > range then sill else nugget + (sill - nugget) * P (h / range))
    (h0 : P 0 = 0) (h1 : P 1 = 1) (hm : ∀ u v, 0 ≤ u → u ≤ v → v ≤ 1 → P u ≤ P v) :
    IsSemivar g nugget sill ∧ ReachesSill g sill range := by
  have hd : 0 ≤ sill - nugget := sub_nonneg.2 hs
  refine ⟨⟨?_, ?_, ?_⟩, ⟨?_, ?_⟩⟩
  · rw [hg, if_neg (not_lt.2 hr.le)]; simp [h0]
  · intro h h' hh hle
    rw [hg, hg]
    by_cases a : h > range
    · rw [if_pos a, if_pos (by linarith)]
    · rw [if_neg a]
      have ha := not_lt.1 a
      have hu0 : 0 ≤ h / range := div_nonneg hh hr.le
      have hu1 : h / range ≤ 1 := (div_le_one hr).2 ha
      by_cases b : h' > range
      · rw [if_pos b]
        have := hm _ 1 hu0 hu1 le_rfl
        rw [h1] at this; nlinarith
      · rw [if_neg b]
        have := hm _ _ hu0 (div_le_div_of_nonneg_right hle hr.le) ((div_le_one hr).2 (not_lt.1 b))
        nlinarith
  · intro h hh
    rw [hg]
    split_ifs with a
    · exact le_rfl
    · have := hm _ 1 (div_nonneg hh hr.le) ((div_le_one hr).2 (not_lt.1 a)) le_rfl
      rw [h1] at this; nlinarith
  · rw [hg, if_neg (lt_irrefl _), div_self hr.ne', h1]; ring
  · intro h hh; rw [hg, if_pos hh]

/-- C55: the linear model. -/
theorem C55_linear (nugget sill range : ℝ) (hs : nugget ≤ sill) (hr : 0 < range) :
    IsSemivar (fun h => semivarLinear h nugget sill range) nugget sill ∧
    ReachesSill (fun h => semivarLinear h nugget sill range) sill range := by
  apply semivar_of (P := id) nugget sill range hs hr
  · intro h; simp only [semivarLinear, id]; split_ifs
    · rfl
    · field_simp
  · rfl
  · rfl
  · intro u v _ h _; exact h

/-- C55: the spherical model. -/
theorem C55_spherical (nugget sill range : ℝ) (hs : nugget ≤ sill) (hr : 0 < range) :
    IsSemivar (fun h => semivarSpherical h nugget sill range) nugget sill ∧
    ReachesSill (fun h => semivarSpherical h nugget sill range) sill range := by
  apply semivar_of (P := fun u => u / 2 * (3 - u * u)) nugget sill range hs hr
  · intro h; simp only [semivarSpherical]; split_ifs
    · rfl
    · ring
  · simp
  · norm_num
  · intro u v h0 h h1
    have : v / 2 * (3 - v * v) - u / 2 * (3 - u * u) = (v - u) / 2 * (3 - (u * u + u * v + v * v)) := by ring
    have h3 : 0 ≤ 3 - (u * u + u * v + v * v) := by nlinarith
    have := mul_nonneg (by linarith : 0 ≤ (v - u) / 2) h3
    linarith

/-- C55: the parabolic model. -/
theorem C55_parabolic (nugget sill range : ℝ) (hs : nugget ≤ sill) (hr : 0 < range) :
    IsSemivar (fun h => semivarParabolic h nugget sill range) nugget sill ∧
    ReachesSill (fun h => semivarParabolic h nugget sill range) sill range := by
  apply semivar_of (P := fun u => u * (2 - u)) nugget sill range hs hr
  · intro h; simp only [semivarParabolic]; split_ifs
    · rfl
    · ring
  · simp
  · norm_num
  · intro u v h0 h h1
    nlinarith

/-- C55: the closed forms of the four models for `h ≤ range`, `t = h/range`: exponential
`1-exp(-3t)`, linear `t`, spherical `(3t - t^3)/2`, parabolic `1-(1-t)^2`, each scaled from
`nugget` to `sill`. -/
theorem C55_formula (h nugget sill range : ℝ) (hr : 0 < range) (hh : h ≤ range) :
    semivarExponential h nugget sill range = nugget + (sill - nugget) * (1 - exp (-(3 * (h / range)))) ∧
    semivarLinear h nugget sill range = nugget + (sill - nugget) * (h / range) ∧
    semivarSpherical h nugget sill range = nugget + (sill - nugget) * ((3 * (h / range) - (h / range) ^ 3) / 2) ∧
    semivarParabolic h nugget sill range = nugget + (sill - nugget) * (1 - (1 - h / range) ^ 2) := by
  have hn : ¬ h > range := not_lt.2 hh
  refine ⟨?_, ?_, ?_, ?_⟩
  · simp only [semivarExponential]; congr 4; ring
  · simp only [semivarLinear, if_neg hn]; ring
  · simp only [semivarSpherical, if_neg hn]; ring
  · simp only [semivarParabolic, if_neg hn]; ring

/-! ### Non-vacuity -/
example : logistic 0 = 1 / 2 := by norm_num [logistic]
example : hyperbolicRamp 3 2 = .fin 4 := by
  rw [(C54_hyperbolic 3 2).1 (by norm_num), show (3:ℝ) ^ 2 + 4 * 2 ^ 2 = 5 ^ 2 by norm_num, sqrt_sq (by norm_num)]
  norm_num
example : semivarSpherical 1 0 16 2 = 11 := by
  rw [(C55_formula 1 0 16 2 (by norm_num) (by norm_num)).2.2.1]; norm_num

end Ufunclab.Scalar
