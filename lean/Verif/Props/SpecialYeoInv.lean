import Verif.Props.SpecialFinite
/-!
# C126: inv_yeo_johnson at negative arguments and at zeros, swish at zeros
-/
namespace Ufunclab.SZ
open SF Spec

/-- inv_yeo_johnson at minus infinity and at the lower bound of the transform. -/
theorem C126_inv_yeo_johnson_neg {rd : ℝ → ℝ} (l : ℝ) :
    (l = 2 ∨ l < 2 ∧ 0 < rd (2 - l) → invYeoJohnson rd .ninf (.fin l) = .ninf) ∧
    (2 < l → rd (2 - l) < 0 → rd (1 / rd (2 - l)) ≠ 0 → invYeoJohnson rd .ninf (.fin l) = .nan) ∧
    (2 < l → rd (2 - l) < 0 → rd (1 / rd (2 - l)) < 0 →
      invYeoJohnson rd (yeoJohnson rd .ninf (.fin l)) (.fin l) = .ninf) := by
  have hn : ¬ SF.le (.fin 0) (.ninf : SF ℝ) = true := by simp [SF.le, forget, XF.le, XF.lt, XF.eq]
  have hs : rd (2 - l) ≠ 0 → sub rd (.fin 2) (.fin l) = .fin (rd (2 - l)) := by
    intro h
    by_cases h0 : l = 0
    · simp only [sub, neg, h0, if_true, add, forget, XF.add, SF.round, rs]
      rw [h0, sub_zero] at h
      simp [h]
    · simp [sub, neg, h0, add, forget, XF.add, SF.round, rs, ← sub_eq_add_neg, h]
  have hdiv : rd (2 - l) < 0 → rd (1 / rd (2 - l)) ≠ 0 →
      div rd (.fin 1) (.fin (rd (2 - l))) = .fin (rd (1 / rd (2 - l))) := by
    intro h1 h2
    generalize rd (2 - l) = c at h1 h2
    have h3 : ¬ c = 0 := h1.ne
    rw [one_div] at h2
    simp [div, forget, XF.div, h3, rs, h2]
  refine ⟨fun h => ?_, fun h h1 h2 => ?_, fun h h1 h2 => ?_⟩
  · unfold invYeoJohnson
    rw [if_neg hn]
    rcases h with h | ⟨h, h1⟩
    · rw [if_pos (by simp [SF.eq, forget, XF.eq, h])]; rfl
    · rw [if_neg (by simp [SF.eq, forget, XF.eq, h.ne]), if_neg (by simp [SF.lt, forget, XF.lt, not_lt.2 h.le]),
        hs h1.ne']
      generalize rd (2 - l) = c at h1
      have e1 : mul rd (neg (.fin c)) .ninf = .pinf := by
        simp [neg, h1.ne', mul, forget, XF.mul, XF.infMul, not_lt.2 h1.le, SF.round]
      have e2 : div rd (log1p .pinf) (.fin c) = .pinf := by
        simp [log1p, div, forget, h1.ne', XF.div, not_lt.2 h1.le, SF.round]
      rw [e1, e2]; rfl
  · unfold invYeoJohnson
    rw [if_neg hn, if_neg (by simp [SF.eq, forget, XF.eq, h.ne']), hs h1.ne, hdiv h1 h2,
      if_pos (by simp [SF.lt, SF.le, forget, XF.lt, XF.le, h]), if_pos (by simp [SF.lt, forget, XF.lt])]
  · rw [(C126_yeo_johnson_inf l).2.2.2 h.ne' h1, hdiv h1 h2.ne]
    unfold invYeoJohnson
    rw [hs h1.ne, hdiv h1 h2.ne, if_neg (fun e => absurd (((rep_fin 0).le (rep_fin _)).1 e) (not_le.2 h2)),
      if_neg (by simp [SF.eq, forget, XF.eq, h.ne']),
      if_pos (by simp [SF.lt, SF.le, forget, XF.lt, XF.le, XF.eq, h]), if_neg (by simp [SF.lt, forget, XF.lt])]

example : invYeoJohnson id (yeoJohnson id .ninf (.fin 4)) (.fin 4) = .ninf :=
  (C126_inv_yeo_johnson_neg (rd := id) 4).2.2 (by norm_num) (by norm_num) (by norm_num)

/-- A zero keeps its sign through inv_yeo_johnson. -/
theorem C126_inv_yeo_johnson_zero (rd : ℝ → ℝ) (l : ℝ) (hl : l < 0 → 0 < rd (-1 / l)) (s : Bool) :
    invYeoJohnson rd (SF.zero s) (.fin l) = SF.zero s := by
  have h0 : SF.le (.fin 0) (SF.zero s : SF ℝ) = true := by cases s <;> simp [SF.le, SF.zero, forget, XF.le, XF.lt, XF.eq]
  have h1 : ∀ t, log1p (SF.zero t) = SF.zero t := by
    have e : ¬ (1 : ℝ) < 0 := by norm_num
    intro t; cases t <;> simp [SF.zero, log1p, e]
  have h2 : ∀ t, expm1 (SF.zero t) = SF.zero t := by intro t; cases t <;> simp [SF.zero, expm1]
  have fz : (SF.zero s : SF ℝ).forget = .fin 0 := forget_zero s
  unfold invYeoJohnson
  rw [if_pos h0]
  by_cases h : l = 0
  · rw [if_pos (by simp [SF.eq, forget, XF.eq, h]), h2]
  · rw [if_neg (by simp [SF.eq, forget, XF.eq, h])]
    have hc : ¬ (SF.lt (.fin l) (.fin 0) && SF.le (div rd (.fin (-1)) (.fin l)) (SF.zero s)) = true := by
      rw [Bool.and_eq_true]
      rintro ⟨e1, e2⟩
      have hneg : l < 0 := by simpa [SF.lt, forget, XF.lt] using e1
      have hq := hl hneg
      have e3 : div rd (.fin (-1)) (.fin l) = .fin (rd (-1 / l)) := by
        simp [div, forget, XF.div, h, rs, hq.ne']
      rw [e3] at e2
      exact absurd (((rep_fin _).le (show Rep (SF.zero s) 0 from fz)).1 e2) (not_le.2 hq)
    rw [if_neg hc]
    have h3 : mul rd (.fin l) (SF.zero s) = SF.zero (decide (l < 0) != s) := by
      cases s <;> simp [SF.zero, mul, forget, XF.mul, signbit]
    have h4 : ∀ t, div rd (SF.zero t) (.fin l) = SF.zero (t != decide (l < 0)) := by
      intro t
      cases t <;> simp [SF.zero, div, forget, XF.div, signbit, h]
    rw [h3, h1, h4, h2]
    cases s <;> by_cases hn : l < 0 <;> simp [hn]

/-- A zero keeps its sign through swish, for a finite beta. -/
theorem C126_swish_zero {rd : ℝ → ℝ} (h : Rounding rd) (b : ℝ) (s : Bool) :
    swish rd (SF.zero s) (.fin b) = SF.zero s := by
  have h3 : ∃ t, mul rd (.fin b) (SF.zero s) = SF.zero t := by
    refine ⟨decide (b < 0) != s, ?_⟩
    cases s <;> simp [SF.zero, mul, forget, XF.mul, signbit]
  obtain ⟨t, h3⟩ := h3
  have h5 : exp (neg (SF.zero t)) = .fin 1 := by cases t <;> simp [SF.zero, neg, exp]
  have h6 : add rd (.fin 1) (.fin 1) = .fin 2 := by
    have : (1 : ℝ) + 1 = 2 := by norm_num
    simp [add, forget, XF.add, SF.round, rs, this, h.two]
  have h7 : div rd (.fin 1) (.fin 2) = .fin (1 / 2) := by
    have e := h.half
    rw [one_div] at e
    simp [div, forget, XF.div, rs, e]
  rw [swish, h3, logistic, h5, h6, h7]
  cases s <;> simp [SF.zero, mul, forget, XF.mul, signbit] <;> norm_num

/-- -0 in, -0 out. -/
example : swish id .nz (.fin (-1)) = .nz := C126_swish_zero Rounding.id (-1) true

end Ufunclab.SZ
