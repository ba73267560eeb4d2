import Verif.Props.SpecialValues
import Verif.Props.YeoJohnson
/-!
# C126: yeo_johnson, inv_yeo_johnson and pow1pm1 with infinities, NaN and signed zeros
-/
namespace Ufunclab.SZ
open SF Spec Filter Topology

/-- A zero keeps its sign through yeo_johnson, whatever lambda and the rounding. -/
theorem C126_yeo_johnson_zero (rd : ℝ → ℝ) (l : ℝ) (s : Bool) :
    yeoJohnson rd (SF.zero s) (.fin l) = SF.zero s := by
  have h0 : SF.le (.fin 0) (SF.zero s : SF ℝ) = true := by cases s <;> simp [SF.le, SF.zero, forget, XF.le, XF.lt, XF.eq]
  have h1 : log1p (SF.zero s) = SF.zero s := by
    have e : ¬ (1 : ℝ) < 0 := by norm_num
    cases s <;> simp [SF.zero, log1p, e]
  have h2 : ∀ t, expm1 (SF.zero t) = SF.zero t := by intro t; cases t <;> simp [SF.zero, expm1]
  unfold yeoJohnson
  rw [if_pos h0, h1]
  by_cases hl : l = 0
  · rw [if_pos (by simp [SF.eq, forget, XF.eq, hl])]
  · rw [if_neg (by simp [SF.eq, forget, XF.eq, hl])]
    have h3 : mul rd (.fin l) (SF.zero s) = SF.zero (decide (l < 0) != s) := by
      cases s <;> simp [SF.zero, mul, forget, XF.mul, signbit]
    rw [h3, h2]
    have h4 : ∀ t, div rd (SF.zero t) (.fin l) = SF.zero (t != decide (l < 0)) := by
      intro t
      cases t <;> simp [SF.zero, div, forget, XF.div, signbit, hl]
    rw [h4]
    cases s <;> by_cases hn : l < 0 <;> simp [hn]

/-- yeo_johnson at the infinities, for every finite lambda. -/
theorem C126_yeo_johnson_inf {rd : ℝ → ℝ} (l : ℝ) :
    (0 ≤ l → yeoJohnson rd .pinf (.fin l) = .pinf) ∧
    (l < 0 → yeoJohnson rd .pinf (.fin l) = div rd (.fin (-1)) (.fin l)) ∧
    (l = 2 ∨ 0 < rd (2 - l) → yeoJohnson rd .ninf (.fin l) = .ninf) ∧
    (l ≠ 2 → rd (2 - l) < 0 → yeoJohnson rd .ninf (.fin l) = div rd (.fin 1) (.fin (rd (2 - l)))) := by
  have hp : SF.le (.fin 0) (.pinf : SF ℝ) = true := by simp [SF.le, forget, XF.le, XF.lt]
  have hn : ¬ SF.le (.fin 0) (.ninf : SF ℝ) = true := by simp [SF.le, forget, XF.le, XF.lt, XF.eq]
  have hs : rd (2 - l) ≠ 0 → sub rd (.fin 2) (.fin l) = .fin (rd (2 - l)) := by
    intro h
    by_cases h0 : l = 0
    · simp only [sub, neg, h0, if_true, add, forget, XF.add, SF.round, rs]
      rw [h0, sub_zero] at h
      simp [h]
    · simp [sub, neg, h0, add, forget, XF.add, SF.round, rs, ← sub_eq_add_neg, h]
  have hd : ∀ c : ℝ, 0 < c → div rd (.pinf) (.fin c) = .pinf := by
    intro c hc; simp [div, forget, hc.ne', XF.div, not_lt.2 hc.le, SF.round]
  have hd' : ∀ c : ℝ, 0 < c → div rd (.ninf) (.fin c) = .ninf := by
    intro c hc; simp [div, forget, hc.ne', XF.div, not_lt.2 hc.le, SF.round]
  have hm : ∀ c : ℝ, 0 < c → mul rd (.fin c) .pinf = .pinf := by
    intro c hc; simp [mul, forget, XF.mul, XF.infMul, hc.ne', hc, SF.round]
  have hm' : ∀ c : ℝ, c < 0 → mul rd (.fin c) .pinf = .ninf := by
    intro c hc; simp [mul, forget, XF.mul, XF.infMul, hc.ne, not_lt.2 hc.le, SF.round]
  refine ⟨fun h => ?_, fun h => ?_, fun h => ?_, fun h2 h => ?_⟩
  · unfold yeoJohnson
    rw [if_pos hp]
    rcases h.eq_or_lt with h | h
    · rw [if_pos (by simp [SF.eq, forget, XF.eq, ← h])]; rfl
    · rw [if_neg (by simp [SF.eq, forget, XF.eq, h.ne']), show log1p .pinf = .pinf from rfl, hm l h,
        show expm1 .pinf = .pinf from rfl, hd l h]
  · unfold yeoJohnson
    rw [if_pos hp, if_neg (by simp [SF.eq, forget, XF.eq, h.ne]), show log1p .pinf = .pinf from rfl, hm' l h]
    rfl
  · unfold yeoJohnson
    rw [if_neg hn]
    by_cases h2 : l = 2
    · rw [if_pos (by simp [SF.eq, forget, XF.eq, h2])]; rfl
    · have h := h.resolve_left h2
      rw [if_neg (by simp [SF.eq, forget, XF.eq, h2]), hs h.ne', show neg (.ninf : SF ℝ) = .pinf from rfl,
        show log1p .pinf = .pinf from rfl, hm _ h, show neg (expm1 .pinf) = (.ninf : SF ℝ) from rfl, hd' _ h]
  · unfold yeoJohnson
    rw [if_neg hn, if_neg (by simp [SF.eq, forget, XF.eq, h2]), hs h.ne, show neg (.ninf : SF ℝ) = .pinf from rfl,
      show log1p .pinf = .pinf from rfl, hm' _ h]
    norm_num [expm1, neg]

example : yeoJohnson id .pinf (.fin (-2)) = .fin (1 / 2) := by
  rw [(C126_yeo_johnson_inf (rd := id) (-2)).2.1 (by norm_num)]
  norm_num [div, forget, XF.div, rs]

/-- These values are the limits of the transform. -/
theorem C126_yeo_johnson_limits (l : ℝ) :
    LimTo (fun x => Scalar.yeoJohnson x l) atTop (yeoJohnson id .pinf (.fin l)).forget ∧
    LimTo (fun x => Scalar.yeoJohnson x l) atBot (yeoJohnson id .ninf (.fin l)).forget := by
  obtain ⟨a1, a2, a3, a4⟩ := C126_yeo_johnson_inf (rd := id) l
  have tl : Tendsto (fun x : ℝ => Real.log (1 + x)) atTop atTop :=
    Real.tendsto_log_atTop.comp (tendsto_atTop_add_const_left _ _ tendsto_id)
  have te : Tendsto (fun x : ℝ => Real.exp x - 1) atTop atTop :=
    tendsto_atTop_add_const_right _ (-1) Real.tendsto_exp_atTop
  have tb : Tendsto (fun x : ℝ => Real.exp x - 1) atBot (𝓝 (-1)) := by
    simpa using (Real.tendsto_exp_atBot).sub_const (1 : ℝ)
  have tn : Tendsto (fun x : ℝ => Real.log (1 + -x)) atBot atTop := tl.comp tendsto_neg_atBot_atTop
  constructor
  · have ev : ∀ᶠ x : ℝ in atTop, 0 ≤ x := eventually_ge_atTop 0
    rcases lt_trichotomy l 0 with h | h | h
    · rw [a2 h]
      have e : (div id (.fin (-1)) (.fin l)).forget = .fin (-1 / l) := by
        rw [forget_div rfl _ (by simp)]; simp [forget, Log1p.fdiv, XF.div, h.ne]
      rw [e]
      refine ((tb.comp (tl.const_mul_atTop_of_neg h)).div_const l).congr' ?_
      filter_upwards [ev] with x hx
      simp [Scalar.yeoJohnson, hx, h.ne, Scalar.expm1, Scalar.log1p]
    · rw [a1 h.ge]
      refine tl.congr' ?_
      filter_upwards [ev] with x hx
      simp [Scalar.yeoJohnson, hx, h, Scalar.log1p]
    · rw [a1 h.le]
      refine ((te.comp (tl.const_mul_atTop h)).atTop_div_const h).congr' ?_
      filter_upwards [ev] with x hx
      simp [Scalar.yeoJohnson, hx, h.ne', Scalar.expm1, Scalar.log1p]
  · have ev : ∀ᶠ x : ℝ in atBot, x < 0 := eventually_lt_atBot 0
    rcases lt_trichotomy l 2 with h | h | h
    · rw [a3 (.inr (by simp; linarith))]
      have hc : 0 < 2 - l := by linarith
      refine (tendsto_neg_atTop_atBot.comp ((te.comp (tn.const_mul_atTop hc)).atTop_div_const hc)).congr' ?_
      filter_upwards [ev] with x hx
      simp [Scalar.yeoJohnson, not_le.2 hx, h.ne, Scalar.expm1, Scalar.log1p, neg_div]
      ring
    · rw [a3 (.inl h)]
      refine (tendsto_neg_atTop_atBot.comp tn).congr' ?_
      filter_upwards [ev] with x hx
      simp [Scalar.yeoJohnson, not_le.2 hx, h, Scalar.log1p]
    · have hc : 2 - l < 0 := by linarith
      rw [a4 h.ne' hc]
      have e : (div id (.fin 1) (.fin (id (2 - l)))).forget = .fin (1 / (2 - l)) := by
        rw [forget_div rfl _ (by simp)]; simp [forget, Log1p.fdiv, XF.div, hc.ne]
      rw [e]
      have := ((tb.comp (tn.const_mul_atTop_of_neg hc)).neg).div_const (2 - l)
      rw [neg_neg] at this
      refine this.congr' ?_
      filter_upwards [ev] with x hx
      simp [Scalar.yeoJohnson, not_le.2 hx, h.ne', Scalar.expm1, Scalar.log1p]

/-- inv_yeo_johnson takes the values at the infinities back to the infinities, whatever the
rounding, and the infinities to the infinities where the transform has no finite bound; an argument
beyond a finite bound gives NaN. -/
theorem C126_inv_yeo_johnson {rd : ℝ → ℝ} (l : ℝ) :
    (0 ≤ l → invYeoJohnson rd .pinf (.fin l) = .pinf) ∧
    (l < 0 → rd (-1 / l) ≠ 0 → invYeoJohnson rd .pinf (.fin l) = .nan) ∧
    (l < 0 → 0 < rd (-1 / l) → invYeoJohnson rd (yeoJohnson rd .pinf (.fin l)) (.fin l) = .pinf) ∧
    (∀ l', invYeoJohnson rd .nan l' = .nan) := by
  have hp : SF.le (.fin 0) (.pinf : SF ℝ) = true := by simp [SF.le, forget, XF.le, XF.lt]
  have hdiv : l < 0 → 0 < rd (-1 / l) ∨ rd (-1 / l) ≠ 0 → div rd (.fin (-1)) (.fin l) = .fin (rd (-1 / l)) := by
    intro h h'
    have hl : ¬ l = 0 := h.ne
    have h1 : -1 / l ≠ 0 := div_ne_zero (by norm_num) hl
    have h2 : ¬ -1 / l < 0 := not_lt.2 (div_nonneg_of_nonpos (by norm_num) h.le)
    have h3 : rd (-1 / l) ≠ 0 := h'.elim (fun h => h.ne') id
    simp [div, forget, XF.div, hl, rs, h3]
  refine ⟨fun h => ?_, fun h h' => ?_, fun h h' => ?_, fun l' => ?_⟩
  · unfold invYeoJohnson
    rw [if_pos hp]
    rcases h.eq_or_lt with h | h
    · rw [if_pos (by simp [SF.eq, forget, XF.eq, ← h])]; rfl
    · rw [if_neg (by simp [SF.eq, forget, XF.eq, h.ne']),
        if_neg (by simp [SF.lt, forget, XF.lt, not_lt.2 h.le])]
      have h1 : mul rd (.fin l) .pinf = .pinf := by simp [mul, forget, XF.mul, XF.infMul, h.ne', h, SF.round]
      rw [h1]
      have h2 : div rd (log1p .pinf) (.fin l) = .pinf := by
        simp [log1p, div, forget, h.ne', XF.div, not_lt.2 h.le, SF.round]
      rw [h2]; rfl
  · unfold invYeoJohnson
    rw [if_pos hp, if_neg (by simp [SF.eq, forget, XF.eq, h.ne]), hdiv h (.inr h'),
      if_pos (by simp [SF.lt, SF.le, forget, XF.lt, XF.le, h]), if_pos (by simp [SF.lt, forget, XF.lt])]
  · rw [(C126_yeo_johnson_inf l).2.1 h]
    unfold invYeoJohnson
    rw [hdiv h (.inl h'), if_pos (by simp [SF.le, forget, XF.le, XF.lt, h']),
      if_neg (by simp [SF.eq, forget, XF.eq, h.ne]),
      if_pos (by simp [SF.lt, SF.le, forget, XF.lt, XF.le, XF.eq, h]), if_neg (by simp [SF.lt, forget, XF.lt])]
  · have hnn : ¬ SF.le (.fin 0) (.nan : SF ℝ) = true := by simp [SF.le, forget, XF.le, XF.lt, XF.eq]
    unfold invYeoJohnson
    rw [if_neg hnn]
    have h2 : ∀ y, SF.le (.nan : SF ℝ) y = false := by intro y; cases y <;> simp [SF.le, forget, XF.le, XF.lt, XF.eq]
    simp only [h2, Bool.and_false, Bool.false_eq_true, if_false]
    have h3 : ∀ w, mul rd w .nan = .nan := by intro w; cases w <;> simp [mul, forget, XF.mul, SF.round]
    have h4 : ∀ w, div rd .nan w = .nan := by
      intro w
      by_cases h : w.forget = .fin 0 <;> simp [div, h, forget, XF.div, SF.round]
    rw [h3]
    split_ifs
    · simp [neg, expm1]
    · simp [log1p, h4, neg, expm1]

example : invYeoJohnson id .pinf (.fin (-2)) = .nan :=
  (C126_inv_yeo_johnson (rd := id) (-2)).2.1 (by norm_num) (by norm_num)

/-- The sign of a zero through pow1pm1: that of x times that of y. -/
theorem C126_pow1pm1_zero (rd : ℝ → ℝ) (s : Bool) (y : ℝ) :
    pow1pm1 rd (SF.zero s) (.fin y) = SF.zero (decide (y < 0) != s) := by
  have h1 : log1p (SF.zero s) = SF.zero s := by
    have e : ¬ (1 : ℝ) < 0 := by norm_num
    cases s <;> simp [SF.zero, log1p, e]
  have h0 : SF.eq (SF.zero s : SF ℝ) (.fin (-1)) = false := by cases s <;> simp [SF.zero, SF.eq, forget, XF.eq]
  unfold pow1pm1
  rw [h0, Bool.false_and, if_neg (by simp), h1]
  have h3 : mul rd (.fin y) (SF.zero s) = SF.zero (decide (y < 0) != s) := by
    cases s <;> simp [SF.zero, mul, forget, XF.mul, signbit]
  rw [h3]
  cases (decide (y < 0) != s) <;> simp [SF.zero, expm1]

/-- The sign apart, pow1pm1 is the function of Model/Elementary. -/
theorem C126_pow1pm1 (x y : SF ℝ) : (pow1pm1 id x y).forget = Elementary.pow1pm1 x.forget y.forget := by
  unfold pow1pm1 Elementary.pow1pm1
  have h1 : SF.eq x (.fin (-1)) = XF.eq x.forget (.fin (-1)) := rfl
  have h2 : SF.eq y (.fin 0) = XF.eq y.forget (.fin 0) := rfl
  rw [h1, h2]
  split_ifs
  · rfl
  · rw [forget_expm1, forget_mul rfl, forget_log1p]
    simp [Log1p.fmul]

end Ufunclab.SZ
