import Verif.Props.SpecialFinite
/-!
# C126: the ramp functions and the variogram models with infinities, NaN and signed zeros
-/
namespace Ufunclab.SZ
open SF Spec Filter Topology

/-- The ramp functions at the infinities, for a finite positive parameter, and NaN. -/
theorem C126_ramp {rd : ℝ → ℝ} (h : Rounding rd) (a ln2 : ℝ) (ha : 0 < a) (hl : 0 < ln2) :
    hyperbolicRamp rd .pinf (.fin a) = .pinf ∧ hyperbolicRamp rd .ninf (.fin a) = .fin 0 ∧
    exponentialRamp rd ln2 .pinf (.fin a) = .pinf ∧ exponentialRamp rd ln2 .ninf (.fin a) = .fin 0 ∧
    hyperbolicRamp rd .nan (.fin a) = .nan ∧ exponentialRamp rd ln2 .nan (.fin a) = .nan ∧
    (∀ x, hyperbolicRamp rd x .nan = .nan ∧ exponentialRamp rd ln2 x .nan = .nan) := by
  have e0 : ¬ SF.eq (.fin a) (.fin 0 : SF ℝ) = true := by simp [SF.eq, forget, XF.eq, ha.ne']
  have e1 : ¬ SF.lt (.fin a) (.fin 0 : SF ℝ) = true := by simp [SF.lt, forget, XF.lt, not_lt.2 ha.le]
  have hd1 : ∀ c : ℝ, 0 < c → div rd .pinf (.fin c) = .pinf := fun c hc => by
    simp [div, forget, hc.ne', XF.div, not_lt.2 hc.le, SF.round]
  have hd2 : ∀ c : ℝ, 0 < c → div rd .ninf (.fin c) = .ninf := fun c hc => by
    simp [div, forget, hc.ne', XF.div, not_lt.2 hc.le, SF.round]
  have hd3 : ∀ w, div rd .nan w = .nan := by
    intro w
    by_cases h : w.forget = .fin 0 <;> simp [div, h, forget, XF.div, SF.round]
  have hd4 : ∀ w, div rd w .nan = .nan := by intro w; cases w <;> simp [div, forget, XF.div, SF.round]
  have hm1 : mul rd (.fin a) .pinf = .pinf := by simp [mul, forget, XF.mul, XF.infMul, ha.ne', ha, SF.round]
  have hm2 : mul rd (.fin a) (.fin 0) = .fin 0 := by simp [mul, forget, XF.mul, SF.zero, signbit, not_lt.2 ha.le]
  have hm3 : ∀ w, mul rd w .nan = .nan := by intro w; cases w <;> simp [mul, forget, XF.mul, SF.round]
  have hs : sqrt (.fin 1) = .fin 1 := by
    have : ¬ (1 : ℝ) < 0 := by norm_num
    simp [sqrt, this]
  have one_zero : add rd (.fin 1) (.fin 0) = .fin 1 := by simp [add, forget, XF.add, SF.round, rs, h.one]
  have one_one : add rd (.fin 1) (.fin 1) = .fin 2 := by
    have : (1 : ℝ) + 1 = 2 := by norm_num
    simp [add, forget, XF.add, SF.round, rs, this, h.two]
  have s1 : stdHyperbolicRamp rd .pinf = .pinf := by
    unfold stdHyperbolicRamp
    rw [if_neg (by simp [SF.eq, forget, XF.eq])]
    simp only [hd1 2 two_pos]
    rw [if_pos (by simp [SF.le, forget, XF.le, XF.lt])]
    have : div rd (.fin 1) (mul rd .pinf .pinf) = .fin 0 := by
      simp [mul, forget, XF.mul, SF.round, div, XF.div, SF.zero, signbit]
    rw [this, one_zero, hs, one_one]
    simp [mul, forget, XF.mul, XF.infMul, SF.round]
  have s2 : stdHyperbolicRamp rd .ninf = .fin 0 := by
    unfold stdHyperbolicRamp
    rw [if_neg (by simp [SF.eq, forget, XF.eq])]
    simp only [hd2 2 two_pos]
    rw [if_neg (by simp [SF.le, forget, XF.le, XF.lt, XF.eq]), if_neg (by simp [SF.lt, forget, XF.lt]),
      if_neg (by simp [SF.lt, forget, XF.lt])]
    have : div rd (.fin 1) (mul rd .ninf .ninf) = .fin 0 := by
      simp [mul, forget, XF.mul, SF.round, div, XF.div, SF.zero, signbit]
    rw [this, one_zero, hs, one_one]
    have h1 : (-1 : ℝ) < 0 := by norm_num
    have e : div rd (.fin (-1)) (.ninf) = .fin 0 := by simp [div, forget, XF.div, SF.zero, signbit]
    rw [e]
    have h2 : ¬ (2 : ℝ) < 0 := by norm_num
    simp [div, forget, XF.div, SF.zero, signbit]
  have l0 : log1p (.fin 0) = .fin 0 := by
    have : ¬ (1 : ℝ) < 0 := by norm_num
    simp [log1p, this]
  have z0 : div rd (.fin 0) (.fin ln2) = .fin 0 := by
    simp [div, forget, XF.div, hl.ne', SF.zero, signbit, not_lt.2 hl.le]
  have s3 : stdExponentialRamp rd ln2 .pinf = .pinf := by
    unfold stdExponentialRamp
    rw [if_neg (by simp [SF.eq, forget, XF.eq]), if_pos (by simp [SF.lt, forget, XF.lt]),
      show pow2 (neg .pinf) = .fin 0 from rfl, l0, z0]
    simp [add, forget, XF.add, SF.round]
  have s4 : stdExponentialRamp rd ln2 .ninf = .fin 0 := by
    unfold stdExponentialRamp
    rw [if_neg (by simp [SF.eq, forget, XF.eq]), if_neg (by simp [SF.lt, forget, XF.lt]),
      show pow2 .ninf = .fin 0 from rfl, l0, z0]
  have s5 : stdHyperbolicRamp rd .nan = .nan := by
    unfold stdHyperbolicRamp
    rw [if_neg (by simp [SF.eq, forget, XF.eq])]
    simp only [hd3]
    rw [if_neg (by simp [SF.le, forget, XF.le, XF.lt, XF.eq]), if_neg (by simp [SF.lt, forget, XF.lt]),
      if_neg (by simp [SF.lt, forget, XF.lt]), hd4, hd3]
  have s6 : stdExponentialRamp rd ln2 .nan = .nan := by
    unfold stdExponentialRamp
    rw [if_neg (by simp [SF.eq, forget, XF.eq]), if_neg (by simp [SF.lt, forget, XF.lt]),
      show log1p (pow2 .nan) = .nan from rfl, hd3]
  have n0 : ¬ SF.eq (.nan) (.fin 0 : SF ℝ) = true := by simp [SF.eq, forget, XF.eq]
  have n1 : ¬ SF.lt (.nan) (.fin 0 : SF ℝ) = true := by simp [SF.lt, forget, XF.lt]
  refine ⟨?_, ?_, ?_, ?_, ?_, ?_, fun x => ⟨?_, ?_⟩⟩
  · rw [hyperbolicRamp, if_neg e0, if_neg e1, hd1 a ha, s1, hm1]
  · rw [hyperbolicRamp, if_neg e0, if_neg e1, hd2 a ha, s2, hm2]
  · rw [exponentialRamp, if_neg e0, if_neg e1, hd1 a ha, s3, hm1]
  · rw [exponentialRamp, if_neg e0, if_neg e1, hd2 a ha, s4, hm2]
  · rw [hyperbolicRamp, if_neg e0, if_neg e1, hd3, s5, hm3]
  · rw [exponentialRamp, if_neg e0, if_neg e1, hd3, s6, hm3]
  · rw [hyperbolicRamp, if_neg n0, if_neg n1, hd4, s5, hm3]
  · rw [exponentialRamp, if_neg n0, if_neg n1, hd4, s6, hm3]

example : hyperbolicRamp id .ninf (.fin 3) = .fin 0 := (C126_ramp Rounding.id 3 1 (by norm_num) (by norm_num)).2.1

/-- They are the limits of the ramp functions. -/
theorem C126_ramp_limits (a : ℝ) (ha : 0 < a) :
    ∃ f g : ℝ → ℝ, (∀ x, Scalar.hyperbolicRamp x a = .fin (f x)) ∧ (∀ x, Scalar.exponentialRamp x a = .fin (g x)) ∧
      LimTo f atTop (hyperbolicRamp id .pinf (.fin a)).forget ∧
      LimTo f atBot (hyperbolicRamp id .ninf (.fin a)).forget ∧
      LimTo g atTop (exponentialRamp id (Real.log 2) .pinf (.fin a)).forget ∧
      LimTo g atBot (exponentialRamp id (Real.log 2) .ninf (.fin a)).forget := by
  have hl : 0 < Real.log 2 := Real.log_pos (by norm_num)
  obtain ⟨e1, e2, e3, e4, -⟩ := C126_ramp (rd := id) Rounding.id a _ ha hl
  refine ⟨fun x => (x + √(x ^ 2 + 4 * a ^ 2)) / 2, fun x => a * Real.logb 2 (1 + 2 ^ (x / a)),
    fun x => (Scalar.C54_hyperbolic x a).1 ha, fun x => (Scalar.C54_exponential x a).1 ha, ?_, ?_, ?_, ?_⟩
  · rw [e1]
    refine tendsto_atTop_mono (fun x => ?_) tendsto_id
    have : x ≤ √(x ^ 2 + 4 * a ^ 2) := Real.le_sqrt_of_sq_le (by nlinarith [sq_nonneg a])
    simp only [id]; linarith
  · rw [e2]
    have t : Tendsto (fun x : ℝ => a ^ 2 / (-x)) atBot (𝓝 0) := tendsto_const_nhds.div_atTop tendsto_neg_atBot_atTop
    refine squeeze_zero' ?_ ?_ t
    · filter_upwards with x
      have : -x ≤ √(x ^ 2 + 4 * a ^ 2) := Real.le_sqrt_of_sq_le (by nlinarith [sq_nonneg a])
      linarith
    · filter_upwards [eventually_lt_atBot (0 : ℝ)] with x hx
      have h1 : √(x ^ 2 + 4 * a ^ 2) ≤ -x + 2 * a ^ 2 / (-x) := by
        refine Real.sqrt_le_iff.2 ⟨by have : 0 < -x := by linarith
                                      positivity, ?_⟩
        have hx' : x ≠ 0 := hx.ne
        have : (-x + 2 * a ^ 2 / (-x)) ^ 2 = x ^ 2 + 4 * a ^ 2 + (2 * a ^ 2 / (-x)) ^ 2 := by field_simp; ring
        rw [this]; nlinarith [sq_nonneg (2 * a ^ 2 / (-x))]
      have h2 : a ^ 2 / (-x) = 2 * a ^ 2 / (-x) / 2 := by ring
      rw [h2]; linarith
  · rw [e3]
    refine tendsto_atTop_mono (fun x => ?_) tendsto_id
    have h2 : (0 : ℝ) < 2 := by norm_num
    have hp := Real.rpow_pos_of_pos h2 (x / a)
    have : x / a ≤ Real.logb 2 (1 + 2 ^ (x / a)) := by
      rw [Real.le_logb_iff_rpow_le (by norm_num) (by linarith)]
      linarith
    have := mul_le_mul_of_nonneg_left this ha.le
    rwa [mul_div_cancel₀ _ ha.ne'] at this
  · rw [e4]
    have t1 : Tendsto (fun x : ℝ => (2 : ℝ) ^ (x / a)) atBot (𝓝 0) := by
      have h := (Real.tendsto_exp_atBot).comp ((tendsto_id.atBot_div_const ha).const_mul_atBot hl)
      refine h.congr fun x => ?_
      rw [Real.rpow_def_of_pos (by norm_num)]; rfl
    have t2 : Tendsto (fun x : ℝ => a * Real.logb 2 (1 + 2 ^ (x / a))) atBot (𝓝 (a * (Real.log (1 + 0) / Real.log 2))) :=
      (((tendsto_const_nhds.add t1).log (by norm_num)).div_const _).const_mul a
    rw [add_zero, Real.log_one, zero_div, mul_zero] at t2
    exact t2

/-- With a parameter of zero, of either sign, the ramp is `max(x, 0)`; only there a negative zero
comes out, for the argument `-0`. -/
theorem C126_ramp_zero (rd : ℝ → ℝ) (ln2 : ℝ) (s : Bool) (x : SF ℝ) :
    hyperbolicRamp rd x (SF.zero s) = (if SF.lt x (.fin 0) then .fin 0 else x) ∧
    exponentialRamp rd ln2 x (SF.zero s) = (if SF.lt x (.fin 0) then .fin 0 else x) := by
  have e : SF.eq (SF.zero s : SF ℝ) (.fin 0) = true := by cases s <;> simp [SF.eq, SF.zero, forget, XF.eq]
  exact ⟨by rw [hyperbolicRamp, if_pos e], by rw [exponentialRamp, if_pos e]⟩

/-- At an infinite distance every variogram model has the value of the sill, in floating point as well
(for values with `nugget + (sill - nugget)` exact in the exponential model). -/
theorem C126_semivar_inf {rd : ℝ → ℝ} (h : Rounding rd) (n s r : ℝ) (hr : 0 < r)
    (hs : rd (n + rd (rd (s - n))) = s) (hs0 : s ≠ 0) (hd : rd (s - n) ≠ 0) :
    semivarExponential rd .pinf (.fin n) (.fin s) (.fin r) = .fin s ∧
    semivarLinear rd .pinf (.fin n) (.fin s) (.fin r) = .fin s ∧
    semivarSpherical rd .pinf (.fin n) (.fin s) (.fin r) = .fin s ∧
    semivarParabolic rd .pinf (.fin n) (.fin s) (.fin r) = .fin s := by
  have hlt : SF.lt (.fin r) (.pinf : SF ℝ) = true := by simp [SF.lt, forget, XF.lt]
  refine ⟨?_, by rw [semivarLinear, if_pos hlt], by rw [semivarSpherical, if_pos hlt],
    by rw [semivarParabolic, if_pos hlt]⟩
  have h3 : ¬ (0 : ℝ) < -3 := by norm_num
  have e1 : mul rd (.fin (-3)) .pinf = .ninf := by
    simp [mul, forget, XF.mul, XF.infMul, h3, SF.round]
  have e2 : div rd .ninf (.fin r) = .ninf := by simp [div, forget, hr.ne', XF.div, not_lt.2 hr.le, SF.round]
  have e3 : sub rd (.fin 1) (exp .ninf) = .fin 1 := by
    simp [sub, exp, neg, add, forget, XF.add, SF.round, rs, h.one]
  have e4 : sub rd (.fin s) (.fin n) = .fin (rd (s - n)) := by
    by_cases h0 : n = 0
    · subst h0
      rw [sub_zero] at hd
      simp [sub, neg, add, forget, XF.add, SF.round, rs, hd]
    · simp [sub, neg, h0, add, forget, XF.add, SF.round, rs, ← sub_eq_add_neg, hd]
  rw [semivarExponential, e1, e2, e3, e4]
  by_cases hz : rd (rd (s - n)) = 0
  · by_cases hneg : rd (s - n) < 0
    · have : mul rd (.fin (rd (s - n))) (.fin 1) = .nz := by
        simp [mul, forget, XF.mul, hd, rs, hz, hneg]
      rw [this]
      rw [hz] at hs
      simp [add, forget, XF.add, SF.round, rs, show rd n = s by simpa using hs, hs0]
    · have : mul rd (.fin (rd (s - n))) (.fin 1) = .fin 0 := by
        simp [mul, forget, XF.mul, hd, rs, hz, hneg]
      rw [this]
      rw [hz] at hs
      simp [add, forget, XF.add, SF.round, rs, show rd n = s by simpa using hs, hs0]
  · have : mul rd (.fin (rd (s - n))) (.fin 1) = .fin (rd (rd (s - n))) := by
      simp [mul, forget, XF.mul, hd, rs, hz]
    rw [this]
    simp [add, forget, XF.add, SF.round, rs, hs, hs0]

example : semivarExponential id .pinf (.fin 1) (.fin 3) (.fin 2) = .fin 3 :=
  (C126_semivar_inf Rounding.id 1 3 2 (by norm_num) (by norm_num) (by norm_num) (by norm_num)).1

/-- semivar_exponential sees the sign of a zero range: with `+0` a positive distance gives the sill, with
`-0` minus infinity.  The other three models give the sill for both. -/
theorem C126_semivar_negzero_violated {rd : ℝ → ℝ} (h : Rounding rd) (x n s : ℝ) (hx : 0 < x) (h3 : rd (-3 * x) < 0)
    (hd : 0 < rd (s - n)) :
    semivarExponential rd (.fin x) (.fin n) (.fin s) .nz = .ninf ∧
    semivarLinear rd (.fin x) (.fin n) (.fin s) .nz = .fin s ∧
    semivarSpherical rd (.fin x) (.fin n) (.fin s) .nz = .fin s ∧
    semivarParabolic rd (.fin x) (.fin n) (.fin s) .nz = .fin s ∧
    (semivarExponential rd (.fin x) (.fin n) (.fin s) (.fin 0)).forget = .fin (rd (n + rd (rd (s - n)))) := by
  have hlt : SF.lt (.nz) (.fin x : SF ℝ) = true := by simp [SF.lt, forget, XF.lt, hx]
  have m3 : -3 * x ≠ 0 := by intro e; rw [e, h.zero] at h3; exact lt_irrefl _ h3
  have e1 : mul rd (.fin (-3)) (.fin x) = .fin (rd (-3 * x)) := by
    have : x ≠ 0 := hx.ne'
    simp only [mul, forget, XF.mul, m3, if_false, rs]
    rw [if_neg (fun e => h3.ne e.1)]
  have e2 : div rd (.fin (rd (-3 * x))) .nz = .pinf := by
    generalize rd (-3 * x) = q at h3
    simp [div, forget, h3.ne, signbit, h3, SF.inf]
  have e2' : div rd (.fin (rd (-3 * x))) (.fin 0) = .ninf := by
    generalize rd (-3 * x) = q at h3
    simp [div, forget, h3.ne, signbit, h3, SF.inf]
  have e3 : sub rd (.fin 1) (exp .pinf) = .ninf := by simp [sub, exp, neg, add, forget, XF.add, SF.round]
  have e3' : sub rd (.fin 1) (exp .ninf) = .fin 1 := by
    simp [sub, exp, neg, add, forget, XF.add, SF.round, rs, h.one]
  have e4 : sub rd (.fin s) (.fin n) = .fin (rd (s - n)) := by
    by_cases h0 : n = 0
    · subst h0
      rw [sub_zero] at hd
      simp [sub, neg, add, forget, XF.add, SF.round, rs, hd.ne']
    · simp [sub, neg, h0, add, forget, XF.add, SF.round, rs, ← sub_eq_add_neg, hd.ne']
  refine ⟨?_, by rw [semivarLinear, if_pos hlt], by rw [semivarSpherical, if_pos hlt],
    by rw [semivarParabolic, if_pos hlt], ?_⟩
  · rw [semivarExponential, e1, e2, e3, e4]
    have : mul rd (.fin (rd (s - n))) .ninf = .ninf := by
      simp [mul, forget, XF.mul, XF.infMul, hd.ne', hd, SF.round]
    rw [this]
    simp [add, forget, XF.add, SF.round]
  · rw [semivarExponential, e1, e2', e3', e4, forget_add h.zero, forget_mul h.zero]
    simp [forget, Log1p.fadd, Log1p.fmul, XF.mul, XF.add, Log1p.rnd]

example : semivarExponential id (.fin 1) (.fin 0) (.fin 1) .nz = .ninf :=
  (C126_semivar_negzero_violated Rounding.id 1 0 1 one_pos (by norm_num) (by norm_num)).1

end Ufunclab.SZ
