import Verif.Model.ScalarRound
import Verif.Proof.Close
import Verif.Proof.Overflow
import Verif.Props.MeansRound
import Verif.Props.Logistic
import Mathlib.Analysis.Complex.ExponentialBounds
/-!
# C97: logistic, logistic_deriv, log_logistic and swish in floating point

`rd` rounds to a nearest number of precision `p` with least positive number `2^emin`; `exp` and `log1p` are
library functions of relative error `ε` and `ε'` (up to underflow).
-/
namespace Ufunclab.Scalar
open Real Ufunclab.Float Ufunclab.Means
variable {p : ℕ} {emin : ℤ} {rd ex l1 : ℝ → ℝ} {ε ε' : ℝ}

/-- A library `log1p` on nonnegative numbers: relative error at most `ε`, up to underflow. -/
structure GoodLog1p (emin : ℤ) (ε : ℝ) (l1 : ℝ → ℝ) : Prop where
  nonneg : ∀ a, 0 ≤ a → 0 ≤ l1 a
  error : ∀ a, 0 ≤ a → |l1 a - Real.log (1 + a)| ≤ ε * Real.log (1 + a) + 2 ^ emin

theorem u_small (hp : 8 ≤ p) : (0 : ℝ) < (2 ^ p)⁻¹ ∧ ((2 : ℝ) ^ p)⁻¹ ≤ 1 / 256 := by
  refine ⟨by positivity, ?_⟩
  have : (2 : ℝ) ^ 8 ≤ 2 ^ p := pow_le_pow_right₀ (by norm_num) hp
  rw [inv_le_comm₀ (by positivity) (by norm_num)]
  norm_num at *; linarith

theorem η_small (he : emin ≤ -10) : (0 : ℝ) < 2 ^ emin ∧ (2 : ℝ) ^ emin ≤ 1 / 1000 := by
  refine ⟨two_zpow_pos emin, ?_⟩
  calc (2 : ℝ) ^ emin ≤ 2 ^ (-10 : ℤ) := zpow_le_zpow_right₀ (by norm_num) he
    _ ≤ _ := by norm_num

/-- The denominator. -/
theorem denom_close (h : Nearest p emin rd) (hex : GoodExp emin ε ex) (hp : 8 ≤ p) (he : emin ≤ -10) (hep : emin + p ≤ 0) (hε0 : 0 ≤ ε)
    (hε : ε ≤ 1 / 1000) (x : ℝ) : Close (1.02 * (ε + 2 ^ emin + (2 ^ p)⁻¹)) (rd (1 + ex (-x))) (1 + exp (-x)) := by
  obtain ⟨η0, η1⟩ := η_small he
  have E0 := exp_pos (-x)
  have c1 : Close (1.02 * (ε + 2 ^ emin)) (1 + ex (-x)) (1 + exp (-x)) := by
    refine close_of_rel (by linarith) (by linarith) ?_
    rw [add_sub_add_left_eq_sub]
    have e1 := hex.error (-x)
    have e2 := mul_nonneg hε0 E0.le
    have e3 := mul_nonneg η0.le E0.le
    have e4 : (ε + 2 ^ emin) * (1 + exp (-x)) = ε + 2 ^ emin + ε * exp (-x) + 2 ^ emin * exp (-x) := by ring
    rw [e4]
    linarith
  have c2 : Close (1.02 * (2 ^ p)⁻¹) (rd (1 + ex (-x))) (1 + ex (-x)) := by
    apply close_round h (by omega)
    have := hex.nonneg (-x)
    rw [pow_zpow]
    have : (2 : ℝ) ^ ((p : ℤ) + emin) ≤ 1 := zpow_le_one_of_nonpos₀ (by norm_num) (by omega)
    linarith
  exact (c2.trans c1).mono (by linarith)

/-- C97: the relative error of logistic, up to underflow. -/
theorem C97_logistic_accuracy (h : Nearest p emin rd) (hex : GoodExp emin ε ex) (hp : 8 ≤ p) (he : emin ≤ -10) (hep : emin + p ≤ 0) (hε0 : 0 ≤ ε)
    (hε : ε ≤ 1 / 1000) (x : ℝ) :
    |logisticR rd ex x - logistic x| ≤ 1.05 * (ε + 2 * (2 ^ p)⁻¹ + 2 ^ emin) * logistic x + 2 ^ emin / 2 := by
  have c := (denom_close h hex hp he hep hε0 hε x).inv
  obtain ⟨u0, u1⟩ := u_small hp
  obtain ⟨η0, η1⟩ := η_small he
  have e1 := c.rel (by linarith)
  have e2 := h.error (by omega) (1 / rd (1 + ex (-x)))
  have f0 : 0 < logistic x := (C53_logistic x).1
  have ef : (1 + exp (-x))⁻¹ = logistic x := by rw [logistic, one_div]
  rw [ef] at e1
  rw [one_div, abs_of_pos c.1] at e2
  show |rd (1 / rd (1 + ex (-x))) - _| ≤ _
  rw [one_div]
  generalize (rd (1 + ex (-x)))⁻¹ = D at *
  generalize logistic x = f at *
  have e3 := abs_sub_le (rd D) D f
  have e4 : D ≤ 1.01 * f := by
    have : 1.02 * (1.02 * (ε + 2 ^ emin + (2 ^ p)⁻¹)) * f ≤ 0.01 * f := mul_le_mul_of_nonneg_right (by linarith) f0.le
    linarith [(abs_le.1 e1).2]
  have e5 := mul_le_mul_of_nonneg_left e4 u0.le
  have p1 := mul_nonneg hε0 f0.le
  have p2 := mul_nonneg u0.le f0.le
  have p3 := mul_nonneg η0.le f0.le
  generalize ((2 : ℝ) ^ p)⁻¹ = u at *
  generalize (2 : ℝ) ^ emin = η at *
  have e6 : 1.02 * (1.02 * (ε + η + u)) * f = 1.0404 * (ε * f) + 1.0404 * (η * f) + 1.0404 * (u * f) := by ring
  have e7 : 1.05 * (ε + 2 * u + η) * f = 1.05 * (ε * f) + 2.1 * (u * f) + 1.05 * (η * f) := by ring
  have e8 : u * (1.01 * f) = 1.01 * (u * f) := by ring
  rw [e7]
  rw [e6] at e1
  rw [e8] at e5
  linarith

/-- C97: logistic stays in [0, 1]. -/
theorem C97_logistic_range (h : Nearest p emin rd) (hp : 1 ≤ p) (he : emin ≤ 0) (h0 : ∀ y, 0 ≤ ex y) (x : ℝ) :
    0 ≤ logisticR rd ex x ∧ logisticR rd ex x ≤ 1 := by
  have f1 : IsFloat p emin (1 : ℝ) := isFloat_one hp he
  have d1 : 1 ≤ rd (1 + ex (-x)) := h.mono_float f1 (by linarith [h0 (-x)])
  constructor
  · exact h.mono_float isFloat_zero (by positivity)
  · exact h.mono_float' f1 (by rw [div_le_one (by linarith)]; exact d1)

/-- C97: logistic is nondecreasing if the library's `exp` is. -/
theorem C97_logistic_monotone (h : Nearest p emin rd) (hp : 1 ≤ p) (he : emin ≤ 0) (h0 : ∀ y, 0 ≤ ex y) (hm : Monotone ex) :
    Monotone (logisticR rd ex) := by
  intro x y hxy
  have f1 : IsFloat p emin (1 : ℝ) := isFloat_one hp he
  have d1 : 1 ≤ rd (1 + ex (-y)) := h.mono_float f1 (by linarith [h0 (-y)])
  apply h.monotone
  apply one_div_le_one_div_of_le (by linarith)
  apply h.monotone
  have := hm (by linarith : -y ≤ -x)
  linarith

/-- C97: `logistic(0) = 1/2`. -/
theorem C97_logistic_zero (h : Nearest p emin rd) (hp : 1 ≤ p) (he : emin ≤ -1) (h0 : ex 0 = 1) : logisticR rd ex 0 = 1 / 2 := by
  have f2 : IsFloat p emin (2 : ℝ) := by simpa using isFloat_zpow (K := ℝ) (p := p) hp (emin := emin) (e := 1) (by omega)
  have fh : IsFloat p emin (1 / 2 : ℝ) := by
    have := isFloat_zpow (K := ℝ) (p := p) hp (emin := emin) (e := -1) (by omega)
    norm_num at this ⊢; exact this
  unfold logisticR
  rw [neg_zero, h0, show (1 : ℝ) + 1 = 2 by norm_num, h.exact f2, h.exact fh]

/-- C97: logistic_deriv is an even function, bit for bit, and never negative. -/
theorem C97_logistic_deriv_even (h : Nearest p emin rd) (hp : 1 ≤ p) (he : emin ≤ 0) (h0 : ∀ y, 0 ≤ ex y) (x : ℝ) :
    logisticDerivR rd ex (-x) = logisticDerivR rd ex x ∧ 0 ≤ logisticDerivR rd ex x ∧ logisticDerivR rd ex x ≤ 1 := by
  have r1 := C97_logistic_range h hp he h0 x
  have r2 := C97_logistic_range h hp he h0 (-x)
  refine ⟨?_, h.mono_float isFloat_zero (mul_nonneg r1.1 r2.1), h.mono_float' (isFloat_one hp he) (mul_le_one₀ r1.2 r2.1 r2.2)⟩
  unfold logisticDerivR
  rw [neg_neg, mul_comm]

/-- C97: the relative error of logistic_deriv, up to underflow. -/
theorem C97_logistic_deriv_accuracy (h : Nearest p emin rd) (hex : GoodExp emin ε ex) (hp : 8 ≤ p) (he : emin ≤ -10) (hep : emin + p ≤ 0)
    (hε0 : 0 ≤ ε) (hε : ε ≤ 1 / 1000) (x : ℝ) :
    |logisticDerivR rd ex x - logisticDeriv x| ≤ 2.2 * (ε + 3 * (2 ^ p)⁻¹ + 2 ^ emin) * logisticDeriv x + 2 * 2 ^ emin := by
  obtain ⟨u0, u1⟩ := u_small hp
  obtain ⟨η0, η1⟩ := η_small he
  have e1 := C97_logistic_accuracy h hex hp he hep hε0 hε x
  have e2 := C97_logistic_accuracy h hex hp he hep hε0 hε (-x)
  have r1 := C97_logistic_range h (by omega) (by omega) hex.nonneg x
  have r2 := C97_logistic_range h (by omega) (by omega) hex.nonneg (-x)
  obtain ⟨f1, f1', _, _⟩ := C53_logistic x
  obtain ⟨f2, f2', _, _⟩ := C53_logistic (-x)
  have e3 := h.error (by omega) (logisticR rd ex x * logisticR rd ex (-x))
  show |rd _ - logistic x * logistic (-x)| ≤ _ * (logistic x * logistic (-x)) + _
  generalize logisticR rd ex x = a at *
  generalize logisticR rd ex (-x) = b at *
  generalize logistic x = f at *
  generalize logistic (-x) = g at *
  generalize ((2 : ℝ) ^ p)⁻¹ = u at *
  generalize (2 : ℝ) ^ emin = η at *
  obtain ⟨A, hA⟩ : ∃ A, A = 1.05 * (ε + 2 * u + η) := ⟨_, rfl⟩
  rw [← hA] at e1 e2
  have A0 : 0 ≤ A := by rw [hA]; linarith
  have A1 : A ≤ 1 / 80 := by rw [hA]; linarith
  have fg : 0 < f * g := mul_pos f1 f2
  have fg1 : f * g ≤ 1 := mul_le_one₀ f1'.le f2.le f2'.le
  have t1 : |a * b - f * g| ≤ a * |b - g| + g * |a - f| := by
    calc |a * b - f * g| = |a * (b - g) + g * (a - f)| := by congr 1; ring
      _ ≤ _ := abs_add_le _ _
      _ = _ := by rw [abs_mul, abs_mul, abs_of_nonneg r1.1, abs_of_pos f2]
  have a1 : a ≤ (1 + A) * f + η / 2 := by linarith [(abs_le.1 e1).2]
  have t2 : a * |b - g| ≤ a * (A * g) + η / 2 := by
    have := mul_le_mul_of_nonneg_left e2 r1.1
    have : a * (η / 2) ≤ η / 2 := mul_le_of_le_one_left (by linarith) r1.2
    linarith
  have t3 : a * (A * g) ≤ (1 + A) * A * (f * g) + A * (η / 2) := by
    have := mul_le_mul_of_nonneg_right a1 (mul_nonneg A0 f2.le)
    have : η / 2 * (A * g) ≤ A * (η / 2) := by
      have := mul_le_of_le_one_right (mul_nonneg A0 (by linarith : 0 ≤ η / 2)) f2'.le
      linarith
    linarith
  have t4 : g * |a - f| ≤ A * (f * g) + η / 2 := by
    have := mul_le_mul_of_nonneg_left e1 f2.le
    have : g * (η / 2) ≤ η / 2 := mul_le_of_le_one_left (by linarith) f2'.le
    linarith
  have t5 : A * (η / 2) ≤ 1 / 80 * (η / 2) := mul_le_mul_of_nonneg_right A1 (by linarith)
  have t6 : (1 + A) * A * (f * g) ≤ (1 + 1 / 80) * A * (f * g) :=
    mul_le_mul_of_nonneg_right (mul_le_mul_of_nonneg_right (by linarith) A0) fg.le
  have t7 : |a * b - f * g| ≤ 2.02 * A * (f * g) + 1.01 * η := by
    have := mul_nonneg A0 fg.le
    linarith
  have t8 : a * b ≤ 1.03 * (f * g) + 1.01 * η := by
    have : 2.02 * A * (f * g) ≤ 0.03 * (f * g) := mul_le_mul_of_nonneg_right (by linarith) fg.le
    linarith [(abs_le.1 t7).2]
  rw [abs_of_nonneg (mul_nonneg r1.1 r2.1)] at e3
  have t9 := mul_le_mul_of_nonneg_left t8 u0.le
  have t10 : u * η ≤ 1 / 256 * η := mul_le_mul_of_nonneg_right u1 η0.le
  have t11 := abs_sub_le (rd (a * b)) (a * b) (f * g)
  have t12 : 2.02 * A * (f * g) + u * (1.03 * (f * g)) ≤ 2.2 * (ε + 3 * u + η) * (f * g) := by
    have : 2.02 * A * (f * g) + u * (1.03 * (f * g)) = (2.02 * A + 1.03 * u) * (f * g) := by ring
    rw [this, hA]
    exact mul_le_mul_of_nonneg_right (by linarith) fg.le
  linarith

/-- `log1p` of a library `exp`. -/
theorem softplus_error (hex : GoodExp emin ε ex) (hl : GoodLog1p emin ε' l1) (he : emin ≤ -10) (hε0 : 0 ≤ ε) (hε : ε ≤ 1 / 1000)
    (hε0' : 0 ≤ ε') (hε' : ε' ≤ 1 / 1000) (y : ℝ) :
    |l1 (ex y) - Real.log (1 + exp y)| ≤ 1.05 * (ε + ε') * Real.log (1 + exp y) + 2.1 * 2 ^ emin := by
  obtain ⟨η0, η1⟩ := η_small he
  have E0 := exp_pos y
  have a0 := hex.nonneg y
  have e0 := hex.error y
  have e1 := hl.error (ex y) a0
  -- a number with a purely relative error nearby
  obtain ⟨E1, q1, q2⟩ : ∃ E1, |E1 - exp y| ≤ ε * exp y ∧ |ex y - E1| ≤ 2 ^ emin := by
    have k := mul_nonneg hε0 E0.le
    obtain ⟨h1, h2⟩ := abs_le.1 e0
    rcases le_total (ex y) (exp y + ε * exp y) with l | l
    · rcases le_total (exp y - ε * exp y) (ex y) with l' | l'
      · exact ⟨ex y, abs_le.2 ⟨by linarith, by linarith⟩, by simpa using η0.le⟩
      · exact ⟨exp y - ε * exp y, abs_le.2 ⟨by linarith, by linarith⟩, abs_le.2 ⟨by linarith, by linarith⟩⟩
    · exact ⟨exp y + ε * exp y, abs_le.2 ⟨by linarith, by linarith⟩, abs_le.2 ⟨by linarith, by linarith⟩⟩
  have c := close_of_rel E0 (by linarith) q1
  have c2 := c.log1p.rel (by linarith)
  have lip : |Real.log (1 + ex y) - Real.log (1 + E1)| ≤ 2 ^ emin := by
    have key : ∀ {s t : ℝ}, 0 ≤ s → 0 ≤ t → Real.log (1 + s) - Real.log (1 + t) ≤ |s - t| := by
      intro s t hs ht
      rw [← Real.log_div (by linarith) (by linarith)]
      calc Real.log ((1 + s) / (1 + t)) ≤ (1 + s) / (1 + t) - 1 := log_le_sub_one_of_pos (by positivity)
        _ = (s - t) / (1 + t) := by field_simp; ring
        _ ≤ |s - t| / (1 + t) := div_le_div_of_nonneg_right (le_abs_self _) (by linarith)
        _ ≤ _ := div_le_self (abs_nonneg _) (by linarith)
    rw [abs_le]
    have k1 := key a0 c.1.le
    have k2 := key c.1.le a0
    rw [abs_sub_comm E1] at k2
    constructor <;> linarith
  have L0 : 0 < Real.log (1 + exp y) := log_pos (by linarith)
  generalize Real.log (1 + exp y) = L at *
  generalize Real.log (1 + E1) = L1 at *
  generalize Real.log (1 + ex y) = L2 at *
  generalize (2 : ℝ) ^ emin = η at *
  have p1 := mul_nonneg hε0 L0.le
  have p2 := mul_nonneg hε0' L0.le
  have b1 : L2 ≤ 1.002 * L + η := by
    have : 1.02 * (1.02 * ε) * L ≤ 0.002 * L := mul_le_mul_of_nonneg_right (by linarith) L0.le
    linarith [(abs_le.1 c2).2, (abs_le.1 lip).2]
  have b2 := mul_le_mul_of_nonneg_left b1 hε0'
  have b3 : ε' * η ≤ 1 / 1000 * η := mul_le_mul_of_nonneg_right hε' η0.le
  have b4 := abs_sub_le (l1 (ex y)) L2 L
  have b5 := abs_sub_le L2 L1 L
  have b6 : 1.02 * (1.02 * ε) * L = 1.0404 * (ε * L) := by ring
  have b7 : 1.05 * (ε + ε') * L = 1.05 * (ε * L) + 1.05 * (ε' * L) := by ring
  rw [b6] at c2
  rw [b7]
  linarith

/-- C97: the relative error of log_logistic, up to underflow: also where logistic is near 0 or 1. -/
theorem C97_log_logistic_accuracy (h : Nearest p emin rd) (hex : GoodExp emin ε ex) (hl : GoodLog1p emin ε' l1) (hp : 8 ≤ p) (he : emin ≤ -10)
    (hε0 : 0 ≤ ε) (hε : ε ≤ 1 / 1000) (hε0' : 0 ≤ ε') (hε' : ε' ≤ 1 / 1000) (x : ℝ) :
    |logLogisticR rd ex l1 x - Real.log (logistic x)| ≤ 1.1 * ((2 ^ p)⁻¹ + ε + ε') * |Real.log (logistic x)| + 3 * 2 ^ emin ∧
      logLogisticR rd ex l1 x ≤ 0 := by
  obtain ⟨u0, u1⟩ := u_small hp
  obtain ⟨η0, η1⟩ := η_small he
  rw [← (C53_log_logistic x).1]
  unfold logLogisticR logLogistic log1p
  split_ifs with hx
  · have e1 := softplus_error hex hl he hε0 hε hε0' hε' x
    have e2 := h.error (by omega) (x - l1 (ex x))
    have v0 := hl.nonneg (ex x) (hex.nonneg x)
    have L0 : 0 < Real.log (1 + exp x) := log_pos (by linarith [exp_pos x])
    refine ⟨?_, h.mono_float' isFloat_zero (by linarith)⟩
    generalize Real.log (1 + exp x) = L at *
    generalize l1 (ex x) = v at *
    rw [abs_of_neg (by linarith : x - v < 0)] at e2
    rw [abs_of_neg (by linarith : x - L < 0)]
    generalize ((2 : ℝ) ^ p)⁻¹ = u at *
    generalize (2 : ℝ) ^ emin = η at *
    have b1 : v ≤ 1.003 * L + 2.1 * η := by
      have : 1.05 * (ε + ε') * L ≤ 0.003 * L := mul_le_mul_of_nonneg_right (by linarith) L0.le
      linarith [(abs_le.1 e1).2]
    have b2 := mul_le_mul_of_nonneg_left b1 u0.le
    have b3 : u * η ≤ 1 / 256 * η := mul_le_mul_of_nonneg_right u1 η0.le
    have b4 : |rd (x - v) - (x - L)| ≤ |rd (x - v) - (x - v)| + |v - L| := by
      calc _ ≤ |rd (x - v) - (x - v)| + |(x - v) - (x - L)| := abs_sub_le _ _ _
        _ = _ := by congr 1; rw [abs_sub_comm v]; congr 1; ring
    have p1 := mul_nonneg hε0 L0.le
    have p2 := mul_nonneg hε0' L0.le
    have p3 := mul_nonneg u0.le L0.le
    have p4 : 0 ≤ u * (-x) := mul_nonneg u0.le (by linarith)
    have p5 : 0 ≤ ε * (-x) := mul_nonneg hε0 (by linarith)
    have p6 : 0 ≤ ε' * (-x) := mul_nonneg hε0' (by linarith)
    have b6 : 1.1 * (u + ε + ε') * -(x - L) = 1.1 * (u * -x) + 1.1 * (ε * -x) + 1.1 * (ε' * -x) + 1.1 * (u * L) + 1.1 * (ε * L) + 1.1 * (ε' * L) := by
      ring
    have b7 : u * -(x - v) = u * -x + u * v := by ring
    have b8 : 1.05 * (ε + ε') * L = 1.05 * (ε * L) + 1.05 * (ε' * L) := by ring
    rw [b6]
    rw [b7] at e2
    rw [b8] at e1
    linarith
  · have e1 := softplus_error hex hl he hε0 hε hε0' hε' (-x)
    have L0 : 0 < Real.log (1 + exp (-x)) := log_pos (by linarith [exp_pos (-x)])
    refine ⟨?_, by linarith [hl.nonneg (ex (-x)) (hex.nonneg (-x))]⟩
    rw [abs_neg, abs_of_pos L0, neg_sub_neg, abs_sub_comm]
    have := mul_nonneg (by linarith : 0 ≤ 1.1 * (2 ^ p)⁻¹ + 0.05 * (ε + ε')) L0.le
    linarith

/-- C97: the error of swish: relative, with the rounding of `beta * x` amplified by `|beta x|`. -/
theorem C97_swish_accuracy (h : Nearest p emin rd) (hex : GoodExp emin ε ex) (hp : 8 ≤ p) (he : emin ≤ -10) (hep : emin + p ≤ 0)
    (hε0 : 0 ≤ ε) (hε : ε ≤ 1 / 1000) (x beta : ℝ) (hb : (2 ^ p)⁻¹ * |beta * x| ≤ 1 / 100) :
    |swishR rd ex x beta - swish x beta| ≤
      1.1 * ((2 ^ p)⁻¹ * |beta * x| + ε + 3 * (2 ^ p)⁻¹ + 2 * 2 ^ emin) * |swish x beta| + (|x| + 1) * 2 ^ emin := by
  obtain ⟨u0, u1⟩ := u_small hp
  obtain ⟨η0, η1⟩ := η_small he
  have e1 := h.error (by omega) (beta * x)
  have e2 := C97_logistic_accuracy h hex hp he hep hε0 hε (rd (beta * x))
  have f0 : 0 < logistic (beta * x) := (C53_logistic _).1
  have c : Close ((2 ^ p)⁻¹ * |beta * x| + 2 ^ emin / 2) (logistic (rd (beta * x))) (logistic (beta * x)) := by
    have := ((close_exp (-rd (beta * x)) (-(beta * x))).const_add (c := 1) (by norm_num)).inv
    simp only [logistic, one_div]
    refine this.mono ?_
    rw [neg_sub_neg, abs_sub_comm]; exact e1
  have c2 := c.rel (by linarith)
  have e3 := h.error (by omega) (x * logisticR rd ex (rd (beta * x)))
  show |rd _ - x * logistic (beta * x)| ≤ _ * |x * logistic (beta * x)| + _
  generalize logistic (rd (beta * x)) = f1 at *
  generalize logistic (beta * x) = f at *
  generalize logisticR rd ex (rd (beta * x)) = y at *
  generalize (2 ^ p)⁻¹ * |beta * x| = w at *
  generalize ((2 : ℝ) ^ p)⁻¹ = u at *
  generalize (2 : ℝ) ^ emin = η at *
  have w0 : 0 ≤ w + η / 2 := c.nonneg
  obtain ⟨A, hA⟩ : ∃ A, A = 1.05 * (ε + 2 * u + η) := ⟨_, rfl⟩
  rw [← hA] at e2
  have A0 : 0 ≤ A := by rw [hA]; linarith
  have A1 : A ≤ 1 / 80 := by rw [hA]; linarith
  have g1 : f1 ≤ 1.011 * f := by
    have : 1.02 * (w + η / 2) * f ≤ 0.011 * f := mul_le_mul_of_nonneg_right (by linarith) f0.le
    linarith [(abs_le.1 c2).2]
  have g2 : |y - f| ≤ (1.02 * (w + η / 2) + 1.011 * A) * f + η / 2 := by
    have := abs_sub_le y f1 f
    have := mul_le_mul_of_nonneg_left g1 A0
    linarith
  have g3 : |y| ≤ 1.03 * f + η / 2 := by
    have : (1.02 * (w + η / 2) + 1.011 * A) * f ≤ 0.03 * f := mul_le_mul_of_nonneg_right (by linarith) f0.le
    have : |y| ≤ |y - f| + f := by
      calc |y| = |(y - f) + f| := by congr 1; ring
        _ ≤ |y - f| + |f| := abs_add_le _ _
        _ = _ := by rw [abs_of_pos f0]
    linarith
  rw [abs_mul] at e3
  rw [abs_mul, abs_of_pos f0]
  have x0 := abs_nonneg x
  generalize hX : |x| = X at *
  have m1 : |x * y - x * f| ≤ (1.02 * (w + η / 2) + 1.011 * A) * (X * f) + X * (η / 2) := by
    rw [← mul_sub, abs_mul, hX]
    have := mul_le_mul_of_nonneg_left g2 x0
    linarith
  have m2 : u * (X * |y|) ≤ u * (1.03 * (X * f)) + u * (X * (η / 2)) := by
    have := mul_le_mul_of_nonneg_left (mul_le_mul_of_nonneg_left g3 x0) u0.le
    linarith
  have m3 : u * (X * (η / 2)) ≤ 1 / 256 * (X * (η / 2)) := mul_le_mul_of_nonneg_right u1 (by positivity)
  have m4 : (1.02 * (w + η / 2) + 1.011 * A) * (X * f) + u * (1.03 * (X * f)) ≤ 1.1 * (w + ε + 3 * u + 2 * η) * (X * f) := by
    have : (1.02 * (w + η / 2) + 1.011 * A) * (X * f) + u * (1.03 * (X * f)) = (1.02 * (w + η / 2) + 1.011 * A + 1.03 * u) * (X * f) := by ring
    rw [this, hA]
    refine mul_le_mul_of_nonneg_right ?_ (by positivity)
    linarith
  have m5 := abs_sub_le (rd (x * y)) (x * y) (x * f)
  have m6 : 0 ≤ X * η := by positivity
  have m7 : (X + 1) * η = X * η + η := by ring
  rw [m7]
  linarith

/-- C97: swish keeps the sign of `x` and does not exceed it in magnitude; `swish(x, 0) = x/2` up to one
rounding (exactly, if `exp(0) = 1`). -/
theorem C97_swish_range (h : Nearest p emin rd) (hp : 1 ≤ p) (he : emin ≤ 0) (h0 : ∀ y, 0 ≤ ex y) (x beta : ℝ) (fx : IsFloat p emin x) :
    (0 ≤ x → 0 ≤ swishR rd ex x beta ∧ swishR rd ex x beta ≤ x) ∧ (x ≤ 0 → x ≤ swishR rd ex x beta ∧ swishR rd ex x beta ≤ 0) := by
  have r := C97_logistic_range h hp he h0 (rd (beta * x))
  unfold swishR
  constructor
  · intro hx
    exact ⟨h.mono_float isFloat_zero (mul_nonneg hx r.1), h.mono_float' fx (mul_le_of_le_one_right hx r.2)⟩
  · intro hx
    refine ⟨h.mono_float fx ?_, h.mono_float' isFloat_zero (mul_nonpos_of_nonpos_of_nonneg hx r.1)⟩
    have := mul_le_mul_of_nonpos_left r.2 hx
    linarith

theorem C97_swish_half (h : Nearest p emin rd) (hp : 1 ≤ p) (he : emin ≤ -1) (h0 : ex 0 = 1) (x : ℝ) :
    swishR rd ex x 0 = rd (x / 2) := by
  unfold swishR
  rw [zero_mul, h.round_zero, C97_logistic_zero h hp he h0, mul_one_div]

/-- C97: with overflow, logistic is as above while `exp(-x)` is in the range. -/
theorem C97_logistic_in_range (h : Nearest p emin rd) (hp : 1 ≤ p) (he : emin ≤ 0) {Ω : ℝ} (hΩ : IsFloat p emin Ω) (h1 : 1 ≤ Ω)
    (h0 : ∀ y, 0 ≤ ex y) (fe : ∀ y, IsFloat p emin (ex y)) (x : ℝ) (hx : 1 + ex (-x) ≤ Ω) :
    logisticO rd Ω ex x = .fin (logisticR rd ex x) := by
  have d0 := h0 (-x)
  have f1 : IsFloat p emin (1 : ℝ) := isFloat_one hp he
  have d1 : 1 ≤ rd (1 + ex (-x)) := h.mono_float f1 (by linarith)
  unfold logisticO
  rw [ov_le h hΩ (by rw [abs_of_nonneg d0]; linarith), h.exact (fe _), XF.add_fin, ov_le h hΩ (by rw [abs_of_nonneg (by linarith)]; exact hx),
    XF.div_fin _ _ (by linarith), ov_le h hΩ]
  · rfl
  · rw [abs_of_nonneg (by positivity), div_le_iff₀ (by linarith)]
    nlinarith

/-- C97 fails with overflow: in double precision `logistic(x)` is 0 for `x = -720`, where `exp(720)` overflows,
although the value `exp(-720)` is more than a thousand times the least positive number. -/
theorem C97_logistic_overflow_violated (h : Nearest 53 (-1074) rd) (hex : GoodExp (-1074) (1 / 1000) ex) :
    logisticO rd maxDouble ex (-720) = .fin 0 ∧ (1000 : ℝ) * 2 ^ (-1074 : ℤ) ≤ logistic (-720) := by
  have b1 : (2 : ℝ) ^ (1025 : ℤ) ≤ exp 720 := by
    have h1 : (2 : ℝ) ≤ exp (7 / 10) := by
      have := Real.log_two_lt_d9
      rw [← Real.log_le_iff_le_exp (by norm_num)]
      linarith
    have h2 : (2 : ℝ) ^ (1025 : ℕ) ≤ exp (7 / 10) ^ (1025 : ℕ) := pow_le_pow_left₀ (by norm_num) h1 _
    rw [← exp_nat_mul] at h2
    have h3 : exp ((1025 : ℕ) * (7 / 10)) ≤ exp 720 := exp_le_exp.2 (by norm_num)
    have h4 : ((2 : ℝ) ^ (1025 : ℤ)) = 2 ^ (1025 : ℕ) := zpow_natCast 2 1025
    rw [h4]
    exact h2.trans h3
  have b2 : exp 720 ≤ (2 : ℝ) ^ (1063 : ℤ) := by
    have h1 : exp (678 / 1000 : ℝ) ≤ 2 := by
      have := Real.log_two_gt_d9
      rw [← Real.le_log_iff_exp_le (by norm_num)]
      linarith
    have h2 := pow_le_pow_left₀ (exp_pos _).le h1 1063
    rw [← exp_nat_mul] at h2
    have h3 : exp 720 ≤ exp ((1063 : ℕ) * (678 / 1000 : ℝ)) := exp_le_exp.2 (by norm_num)
    have h4 : ((2 : ℝ) ^ (1063 : ℤ)) = 2 ^ (1063 : ℕ) := zpow_natCast 2 1063
    rw [h4]
    exact h3.trans h2
  constructor
  · have b3 : (2 : ℝ) ^ (1024 : ℤ) ≤ ex 720 := by
      have e := (abs_le.1 (hex.error 720)).1
      have z : (2 : ℝ) ^ (-1074 : ℤ) ≤ 1 := zpow_le_one_of_nonpos₀ (by norm_num) (by norm_num)
      have w : (2 : ℝ) ^ (1025 : ℤ) = 2 * 2 ^ (1024 : ℤ) := by
        rw [show (1025 : ℤ) = 1 + 1024 by norm_num, zpow_add₀ (by norm_num)]; norm_num
      have v : (2 : ℝ) ^ (10 : ℤ) ≤ 2 ^ (1024 : ℤ) := zpow_le_zpow_right₀ (by norm_num) (by norm_num)
      rw [show (2 : ℝ) ^ (10 : ℤ) = 1024 by norm_num] at v
      rw [w] at b1
      clear w b2
      generalize (2 : ℝ) ^ (-1074 : ℤ) = η at *
      generalize (2 : ℝ) ^ (1024 : ℤ) = W at *
      linarith
    unfold logisticO
    rw [neg_neg, ov_pos h (by norm_num) (by norm_num) maxDouble_lt b3]
    show ov rd maxDouble (XF.div (.fin 1) .pinf) = _
    have : XF.div (.fin (1 : ℝ)) .pinf = .fin 0 := rfl
    rw [this, ov_fin (by rw [h.round_zero, abs_zero]; exact (by positivity : (0 : ℝ) ≤ 2 ^ (1023 : ℤ)).trans maxDouble_ge), h.round_zero]
  · unfold logistic
    rw [neg_neg, le_div_iff₀ (by positivity)]
    have v : (1 : ℝ) ≤ 2 ^ (1063 : ℤ) := one_le_zpow₀ (by norm_num) (by norm_num)
    have w : (2 : ℝ) ^ (-1074 : ℤ) * 2 ^ (1063 : ℤ) = 2 ^ (-11 : ℤ) := by rw [← zpow_add₀ (by norm_num)]; norm_num
    have η0 : (0 : ℝ) < 2 ^ (-1074 : ℤ) := two_zpow_pos _
    have t : (2 : ℝ) ^ (-11 : ℤ) = 1 / 2048 := by norm_num
    rw [t] at w
    clear t b1
    generalize (2 : ℝ) ^ (-1074 : ℤ) = η at *
    generalize (2 : ℝ) ^ (1063 : ℤ) = W at *
    have : η * (1 + exp 720) ≤ η * (W + W) := mul_le_mul_of_nonneg_left (by linarith) η0.le
    nlinarith

/-! ### Non-vacuity: doubles with correctly rounded library functions -/

theorem goodExp_round (h : Nearest p emin rd) (hp : 1 ≤ p) : GoodExp emin (2 ^ p)⁻¹ (fun y => rd (exp y)) :=
  ⟨fun y => h.mono_float isFloat_zero (exp_pos y).le, fun y => by
    have := h.error hp (exp y)
    rw [abs_of_pos (exp_pos y)] at this
    linarith [two_zpow_pos (K := ℝ) emin]⟩

theorem goodLog1p_round (h : Nearest p emin rd) (hp : 1 ≤ p) : GoodLog1p emin (2 ^ p)⁻¹ (fun y => rd (Real.log (1 + y))) :=
  ⟨fun y hy => h.mono_float isFloat_zero (log_nonneg (by linarith)), fun y hy => by
    have := h.error hp (Real.log (1 + y))
    rw [abs_of_nonneg (log_nonneg (by linarith))] at this
    linarith [two_zpow_pos (K := ℝ) emin]⟩

example : ∃ rd ex l1 : ℝ → ℝ, Nearest 53 (-1074) rd ∧ GoodExp (-1074) (2 ^ 53)⁻¹ ex ∧ GoodLog1p (-1074) (2 ^ 53)⁻¹ l1 ∧
    logisticR rd ex 0 = 1 / 2 ∧
    |logLogisticR rd ex l1 (-3) - Real.log (logistic (-3))| ≤ 1.1 * ((2 ^ 53)⁻¹ + (2 ^ 53)⁻¹ + (2 ^ 53)⁻¹) * |Real.log (logistic (-3))| + 3 * 2 ^ (-1074 : ℤ) := by
  obtain ⟨rd, h⟩ := exists_nearest (K := ℝ) (p := 53) (by norm_num) (-1074)
  have g1 := goodExp_round h (by norm_num)
  have g2 := goodLog1p_round h (by norm_num)
  refine ⟨rd, _, _, h, g1, g2, C97_logistic_zero h (by norm_num) (by norm_num) ?_, ?_⟩
  · show rd (exp 0) = 1
    rw [exp_zero, h.exact (isFloat_one (by norm_num) (by norm_num))]
  · exact (C97_log_logistic_accuracy h g1 g2 (by norm_num) (by norm_num) (by positivity) (by norm_num) (by positivity) (by norm_num) (-3)).1

end Ufunclab.Scalar
