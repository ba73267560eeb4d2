import Verif.Proof.SignedZero
import Verif.Spec.SignedZero
import Verif.Props.Logistic
import Mathlib.Analysis.SpecialFunctions.Log.Basic
/-!
# C126: infinities, NaN and signed zeros in the scalar functions
-/
namespace Ufunclab.SZ
open SF Spec Filter Topology

/-- On finite arguments, in exact arithmetic, the functions with special values are the functions of
Model/Scalar (the sign of a zero result apart). -/
theorem C126_finite_logistic (x b : ℝ) :
    (logistic id (.fin x)).forget = .fin (Scalar.logistic x) ∧
    (logisticDeriv id (.fin x)).forget = .fin (Scalar.logisticDeriv x) ∧
    (logLogistic id (.fin x)).forget = .fin (Scalar.logLogistic x) ∧
    (swish id (.fin x) (.fin b)).forget = .fin (Scalar.swish x b) := by
  have key : ∀ y : SF ℝ, ∀ v : ℝ, y.forget = .fin v → (logistic id y).forget = .fin (Scalar.logistic v) := by
    intro y v hv
    have he : (exp (neg y)).forget = .fin (Real.exp (-v)) := by
      cases y with
      | fin a =>
        simp only [forget, XF.fin.injEq] at hv
        subst hv
        by_cases h : a = 0 <;> simp [neg, h, exp, forget]
      | nz => simp only [forget, XF.fin.injEq] at hv; subst hv; simp [neg, exp, forget]
      | _ => simp [forget] at hv
    have ha : (add id (.fin 1) (exp (neg y))).forget = .fin (1 + Real.exp (-v)) := by
      rw [forget_add rfl, he]; simp [forget, Log1p.fadd, XF.add]
    have hp : 1 + Real.exp (-v) ≠ 0 := by positivity
    have hne : add id (.fin 1) (exp (neg y)) ≠ .nz := by
      intro h; rw [h] at ha; simp only [forget, XF.fin.injEq] at ha; exact hp ha.symm
    unfold logistic
    rw [forget_div rfl _ hne, ha]
    simp [forget, Log1p.fdiv, XF.div, hp, Scalar.logistic]
  refine ⟨key _ _ rfl, ?_, ?_, ?_⟩
  · unfold logisticDeriv
    rw [forget_mul rfl, key _ _ rfl, key (neg (.fin x)) (-x) (by rw [forget_neg]; rfl)]
    simp [Log1p.fmul, XF.mul, Scalar.logisticDeriv]
  · unfold logLogistic Scalar.logLogistic
    by_cases hx : x < 0
    · have h1 : ¬ Real.exp x < -1 := by have := Real.exp_pos x; linarith
      have h2 : Real.exp x ≠ -1 := by have := Real.exp_pos x; linarith
      rw [if_pos (show SF.lt (.fin x) (.fin 0) = true by simp [SF.lt, forget, XF.lt, hx]), if_pos hx, forget_sub rfl]
      simp [forget, exp, log1p, h1, h2, Log1p.fsub, XF.sub, XF.add, XF.neg, Scalar.log1p, sub_eq_add_neg]
    · rw [if_neg (show ¬ SF.lt (.fin x) (.fin 0) = true by simpa [SF.lt, forget, XF.lt] using hx), if_neg hx]
      have h1 : ¬ Real.exp (-x) < -1 := by have := Real.exp_pos (-x); linarith
      have h2 : Real.exp (-x) ≠ -1 := by have := Real.exp_pos (-x); linarith
      have he : exp (neg (.fin x)) = .fin (Real.exp (-x)) := by
        by_cases h : x = 0 <;> simp [neg, h, exp]
      rw [forget_neg, he]
      simp [log1p, h1, h2, forget, XF.neg, Scalar.log1p]
  · unfold swish
    rw [forget_mul rfl, key (mul id (.fin b) (.fin x)) (b * x) (by rw [forget_mul rfl]; simp [forget, Log1p.fmul, XF.mul])]
    simp [forget, Log1p.fmul, XF.mul, Scalar.swish]

/-- At the infinities logistic, logistic_deriv and log_logistic have their limits, whatever the rounding;
logistic(inf) is exactly 1. -/
theorem C126_logistic {rd : ℝ → ℝ} (h : Rounding rd) :
    logistic rd .pinf = .fin 1 ∧ logistic rd .ninf = .fin 0 ∧ logisticDeriv rd .pinf = .fin 0 ∧
    logisticDeriv rd .ninf = .fin 0 ∧ logLogistic rd .pinf = .nz ∧ logLogistic rd .ninf = .ninf ∧
    logistic rd .nan = .nan ∧ logisticDeriv rd .nan = .nan ∧ logLogistic rd .nan = .nan := by
  have a1 : logistic rd .pinf = .fin 1 := by
    simp [logistic, neg, exp, add, forget, XF.add, SF.round, rs, h.one, div, XF.div]
  have a2 : logistic rd .ninf = .fin 0 := by
    simp [logistic, neg, exp, add, forget, XF.add, SF.round, div, XF.div, SF.zero, signbit]
  have a3 : logistic rd .nan = .nan := by
    simp [logistic, neg, exp, add, forget, XF.add, SF.round, div, XF.div]
  refine ⟨a1, a2, ?_, ?_, ?_, ?_, a3, ?_, ?_⟩
  · simp [logisticDeriv, neg, a1, a2, mul, forget, XF.mul, SF.zero, signbit]
  · simp [logisticDeriv, neg, a1, a2, mul, forget, XF.mul, SF.zero, signbit]
  · have e : ¬ (1 : ℝ) < 0 := by norm_num
    simp [logLogistic, SF.lt, forget, XF.lt, neg, exp, log1p, e]
  · have e : ¬ (1 : ℝ) < 0 := by norm_num
    simp [logLogistic, SF.lt, forget, XF.lt, exp, log1p, e, sub, neg, add, XF.add, SF.round]
  · simp [logisticDeriv, neg, a3, mul, forget, XF.mul, SF.round]
  · simp [logLogistic, SF.lt, forget, XF.lt, neg, exp, log1p]

example : Rounding (fun x => x) := Rounding.id

/-- Those values are the limits of the functions on the real numbers. -/
theorem C126_logistic_limits :
    LimTo Scalar.logistic atTop (logistic id .pinf).forget ∧
    LimTo Scalar.logistic atBot (logistic id .ninf).forget ∧
    LimTo Scalar.logisticDeriv atTop (logisticDeriv id .pinf).forget ∧
    LimTo Scalar.logisticDeriv atBot (logisticDeriv id .ninf).forget ∧
    LimTo Scalar.logLogistic atTop (logLogistic id .pinf).forget ∧
    LimTo Scalar.logLogistic atBot (logLogistic id .ninf).forget := by
  obtain ⟨e1, e2, e3, e4, e5, e6, -⟩ := C126_logistic (rd := id) Rounding.id
  rw [e1, e2, e3, e4, e5, e6]
  have t1 : Tendsto Scalar.logistic atTop (𝓝 1) := by
    have : Tendsto (fun x : ℝ => 1 / (1 + Real.exp (-x))) atTop (𝓝 (1 / (1 + 0))) :=
      tendsto_const_nhds.div (tendsto_const_nhds.add (Real.tendsto_exp_neg_atTop_nhds_zero)) (by norm_num)
    rw [add_zero, div_one] at this
    exact this
  have t2 : Tendsto Scalar.logistic atBot (𝓝 0) := by
    have : Tendsto (fun x : ℝ => 1 / (1 + Real.exp (-x))) atBot (𝓝 0) :=
      tendsto_const_nhds.div_atTop (tendsto_atTop_add_const_left _ _ (Real.tendsto_exp_atTop.comp tendsto_neg_atBot_atTop))
    exact this
  have t3 : Tendsto (fun x => Scalar.logistic (-x)) atTop (𝓝 0) := t2.comp tendsto_neg_atTop_atBot
  have t4 : Tendsto (fun x => Scalar.logistic (-x)) atBot (𝓝 1) := t1.comp tendsto_neg_atBot_atTop
  refine ⟨t1, t2, ?_, ?_, ?_, ?_⟩
  · have := t1.mul t3
    simp only [one_mul, mul_one, zero_mul, mul_zero] at this
    exact this
  · have := t2.mul t4
    simp only [one_mul, mul_one, zero_mul, mul_zero] at this
    exact this
  · have : Tendsto (fun x => Real.log (Scalar.logistic x)) atTop (𝓝 (Real.log 1)) := t1.log (by norm_num)
    rw [Real.log_one] at this
    exact this.congr fun x => (Scalar.C53_log_logistic x).1.symm
  · refine tendsto_atBot_mono (fun x => ?_) tendsto_id
    by_cases hx : x < 0
    · have : 0 ≤ Real.log (1 + Real.exp x) := Real.log_nonneg (by have := Real.exp_pos x; linarith)
      simp only [Scalar.logLogistic, hx, if_true, Scalar.log1p, id]; linarith
    · have := (Scalar.C53_log_logistic x).2
      simp only [id]; linarith [not_lt.1 hx]

/-- swish at the infinities and with an infinite beta.  NaN goes through; an infinity on the side
where the function grows gives the infinity. -/
theorem C126_swish {rd : ℝ → ℝ} (h : Rounding rd) (b : ℝ) :
    (0 < b → swish rd .pinf (.fin b) = .pinf) ∧ (b < 0 → swish rd .ninf (.fin b) = .ninf) ∧
    (∀ y, swish rd .nan y = .nan) ∧ (∀ x, swish rd x .nan = .nan) ∧
    (∀ x, 0 < x → rd x = x → swish rd (.fin x) .pinf = .fin x ∧ swish rd (.fin x) .ninf = .fin 0) ∧
    (∀ x, x < 0 → rd x = x → swish rd (.fin x) .pinf = .nz ∧ swish rd (.fin x) .ninf = .fin x) := by
  obtain ⟨e1, e2, _, _, _, _, e3, -⟩ := C126_logistic h
  refine ⟨fun hb => ?_, fun hb => ?_, fun y => ?_, fun x => ?_, fun x hx hr => ?_, fun x hx hr => ?_⟩
  · have : mul rd (.fin b) .pinf = .pinf := by simp [mul, forget, XF.mul, XF.infMul, hb.ne', hb, SF.round]
    rw [swish, this, e1]
    simp [mul, forget, XF.mul, XF.infMul, SF.round]
  · have : mul rd (.fin b) .ninf = .pinf := by simp [mul, forget, XF.mul, XF.infMul, hb.ne, not_lt.2 hb.le, SF.round]
    rw [swish, this, e1]
    simp [mul, forget, XF.mul, XF.infMul, SF.round]
  · simp [swish, mul, forget, XF.mul, SF.round]
  · have : mul rd .nan x = .nan := by simp [mul, forget, XF.mul, SF.round]
    rw [swish, this, e3]
    cases x <;> simp [mul, forget, XF.mul, SF.round]
  · have p1 : mul rd .pinf (.fin x) = .pinf := by simp [mul, forget, XF.mul, XF.infMul, hx.ne', hx, SF.round]
    have p2 : mul rd .ninf (.fin x) = .ninf := by simp [mul, forget, XF.mul, XF.infMul, hx.ne', hx, SF.round]
    rw [swish, swish, p1, p2, e1, e2]
    constructor
    · simp [mul, forget, XF.mul, hx.ne', rs, hr]
    · simp [mul, forget, XF.mul, SF.zero, signbit, hx, not_lt.2 hx.le]
  · have p1 : mul rd .pinf (.fin x) = .ninf := by simp [mul, forget, XF.mul, XF.infMul, hx.ne, not_lt.2 hx.le, SF.round]
    have p2 : mul rd .ninf (.fin x) = .pinf := by simp [mul, forget, XF.mul, XF.infMul, hx.ne, not_lt.2 hx.le, SF.round]
    rw [swish, swish, p1, p2, e1, e2]
    constructor
    · simp [mul, forget, XF.mul, SF.zero, signbit, hx]
    · simp [mul, forget, XF.mul, hx.ne, rs, hr]

/-- swish(-inf, beta) with beta > 0 is NaN, although swish tends to 0 there. -/
theorem C126_swish_violated {rd : ℝ → ℝ} (h : Rounding rd) (b : ℝ) (hb : 0 < b) :
    swish rd .ninf (.fin b) = .nan ∧ LimTo (fun x => Scalar.swish x b) atBot (.fin 0) := by
  obtain ⟨e1, e2, -⟩ := C126_logistic h
  constructor
  · have : mul rd (.fin b) .ninf = .ninf := by simp [mul, forget, XF.mul, XF.infMul, hb.ne', hb, SF.round]
    rw [swish, this, e2]
    simp [mul, forget, XF.mul, XF.infMul, SF.round]
  · have h1 : Tendsto (fun x : ℝ => x * Real.exp (-x)) atTop (𝓝 0) := by
      simpa using Real.tendsto_pow_mul_exp_neg_atTop_nhds_zero 1
    have h2 : Tendsto (fun x : ℝ => b * -x) atBot atTop := tendsto_neg_atBot_atTop.const_mul_atTop hb
    have h3 := (h1.comp h2).const_mul (b⁻¹)
    rw [mul_zero] at h3
    refine squeeze_zero_norm' ?_ h3
    filter_upwards [eventually_le_atBot (0 : ℝ)] with x hx
    have hp := Real.exp_pos (-(b * x))
    simp only [Scalar.swish, Scalar.logistic, Function.comp, Real.norm_eq_abs, abs_mul, abs_of_nonpos hx]
    have e : b⁻¹ * (b * -x * Real.exp (-(b * -x))) = -x * Real.exp (b * x) := by
      field_simp
    rw [e, abs_of_pos (by positivity)]
    refine mul_le_mul_of_nonneg_left ?_ (by linarith)
    rw [div_le_iff₀ (by positivity)]
    have : Real.exp (b * x) * Real.exp (-(b * x)) = 1 := by rw [← Real.exp_add]; simp
    nlinarith [Real.exp_pos (b * x)]

example : swish id .ninf (.fin 1) = .nan := (C126_swish_violated Rounding.id 1 one_pos).1

end Ufunclab.SZ
