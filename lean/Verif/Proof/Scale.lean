import Verif.Spec.Scale
import Verif.Proof.XF
import Mathlib.Algebra.Order.Field.Basic
import Mathlib.Algebra.Order.Ring.Abs
import Mathlib.Tactic.Ring
import Mathlib.Tactic.Linarith
import Mathlib.Tactic.FieldSimp
/-! # Multiplying numbers with NaN and infinities by a constant -/
namespace Ufunclab.XF
variable {K : Type _} [Field K] [LinearOrder K] [IsStrictOrderedRing K] {s t : K}
open Ufunclab.Float

theorem scale_one (a : XF K) : scale 1 a = a := by
  cases a <;> simp [scale, mul, infMul]

theorem scale_neg_one (a : XF K) : scale (-1) a = neg a := by
  have : ¬ ((0 : K) < -1) := by linarith [zero_lt_one (α := K)]
  cases a <;> simp [scale, mul, infMul, neg, this]

theorem scale_fin (s a : K) : scale s (.fin a) = .fin (s * a) := rfl

theorem scale_add (hs : s ≠ 0) (a b : XF K) : add (scale s a) (scale s b) = scale s (add a b) := by
  rcases lt_or_gt_of_ne hs with h | h
  · cases a <;> cases b <;> simp [scale, mul, infMul, add, hs, h, not_lt.2 h.le, mul_add]
  · cases a <;> cases b <;> simp [scale, mul, infMul, add, hs, h, mul_add]

theorem scale_neg (hs : s ≠ 0) (a : XF K) : neg (scale s a) = scale s (neg a) := by
  rcases lt_or_gt_of_ne hs with h | h
  · cases a <;> simp [scale, mul, infMul, neg, hs, h, not_lt.2 h.le]
  · cases a <;> simp [scale, mul, infMul, neg, hs, h]

theorem scale_sub (hs : s ≠ 0) (a b : XF K) : sub (scale s a) (scale s b) = scale s (sub a b) := by
  rw [sub, scale_neg hs, scale_add hs, sub]

theorem scale_mul_left (hs : s ≠ 0) (a b : XF K) : mul (scale s a) b = scale s (mul a b) := by
  rcases lt_or_gt_of_ne hs with h | h
  · cases a <;> cases b <;> simp [scale, mul, infMul, hs, not_lt.2 h.le, mul_assoc]
    all_goals split_ifs <;> simp_all [mul, infMul, hs, not_lt.2 h.le]
    all_goals first
      | nlinarith
      | (rename_i k h0 h1 h2; exact absurd h1 (not_le.2 (mul_pos_of_neg_of_neg h (lt_of_le_of_ne h2 h0))))
  · cases a <;> cases b <;> simp [scale, mul, infMul, hs, h, mul_assoc]
    all_goals split_ifs <;> simp_all [mul, infMul, hs]

theorem mul_comm' (a b : XF K) : mul a b = mul b a := by
  cases a <;> cases b <;> simp [mul, mul_comm]

theorem scale_mul_right (hs : s ≠ 0) (a b : XF K) : mul a (scale s b) = scale s (mul a b) := by
  rw [mul_comm', scale_mul_left hs, mul_comm' b]

theorem scale_scale (hs : s ≠ 0) (ht : t ≠ 0) (a : XF K) : scale s (scale t a) = scale (s * t) a := by
  have := scale_mul_left hs (.fin t) a
  rw [scale_fin] at this
  exact this.symm

theorem scale_div_left (hs : s ≠ 0) (a b : XF K) : div (scale s a) b = scale s (div a b) := by
  rcases lt_or_gt_of_ne hs with h | h
  · cases a <;> cases b <;> simp [scale, mul, infMul, div, hs, not_lt.2 h.le]
    all_goals split_ifs <;> simp_all [mul, infMul, hs, not_lt.2 h.le, mul_div_assoc, mul_pos_iff]
    all_goals (rename_i h0 h1 h2; exact h0 (le_antisymm h2 h1))
  · cases a <;> cases b <;> simp [scale, mul, infMul, div, hs, h]
    all_goals split_ifs <;> simp_all [mul, infMul, hs, mul_div_assoc]

theorem scale_div_right (hs : 0 < s) (a b : XF K) : div a (scale s b) = scale s⁻¹ (div a b) := by
  have h' : s⁻¹ ≠ 0 := (inv_pos.2 hs).ne'
  cases a <;> cases b <;> simp [scale, mul, infMul, div, hs, hs.ne']
  all_goals split_ifs <;> simp_all [mul, infMul, hs.ne']
  all_goals first
    | (rename_i h1 h2; exact absurd h1 (not_lt.2 (mul_nonneg hs.le h2)))
    | (rename_i h1 h2; exact absurd h2 (not_lt.2 h1))
    | (rename_i k l h0; have := hs.ne'; field_simp)

theorem scale_div (hs : 0 < s) (a b : XF K) : div (scale s a) (scale s b) = div a b := by
  rw [scale_div_left hs.ne', scale_div_right hs, scale_scale hs.ne' (inv_pos.2 hs).ne', mul_inv_cancel₀ hs.ne', scale_one]

theorem scale_abs (hs : s ≠ 0) (a : XF K) : abs (scale s a) = scale |s| (abs a) := by
  have h1 : |s| ≠ 0 := abs_ne_zero.2 hs
  have h2 : 0 < |s| := abs_pos.2 hs
  cases a <;> simp [scale, mul, infMul, abs, hs, h1, h2, abs_mul]
  all_goals split_ifs <;> rfl

theorem scale_lt (hs : 0 < s) (a b : XF K) : lt (scale s a) (scale s b) = lt a b := by
  cases a <;> cases b <;> simp [scale, mul, infMul, lt, hs, hs.ne']

theorem scale_eq (hs : s ≠ 0) (a b : XF K) : eq (scale s a) (scale s b) = eq a b := by
  rcases lt_or_gt_of_ne hs with h | h
  · cases a <;> cases b <;> simp [scale, mul, infMul, eq, hs, not_lt.2 h.le]
  · cases a <;> cases b <;> simp [scale, mul, infMul, eq, hs, h]

theorem scale_le (hs : 0 < s) (a b : XF K) : le (scale s a) (scale s b) = le a b := by
  rw [le, scale_lt hs, scale_eq hs.ne', le]

theorem scale_lt_neg (hs : s < 0) (a b : XF K) : lt (scale s a) (scale s b) = lt b a := by
  cases a <;> cases b <;> simp [scale, mul, infMul, lt, hs, hs.ne, not_lt.2 hs.le]

theorem scale_isnan (hs : s ≠ 0) (a : XF K) : isnan (scale s a) = isnan a := by
  cases a <;> simp [scale, mul, infMul, isnan, hs]
  all_goals split_ifs <;> simp_all

theorem scale_isinf (hs : s ≠ 0) (a : XF K) : isinf (scale s a) = isinf a := by
  cases a <;> simp [scale, mul, infMul, isinf, hs]
  all_goals split_ifs <;> simp_all

theorem scale_isfinite (hs : s ≠ 0) (a : XF K) : isfinite (scale s a) = isfinite a := by
  cases a <;> simp [scale, mul, infMul, isfinite, hs]
  all_goals split_ifs <;> simp_all

theorem scale_zero (s : K) : scale s (.fin 0) = .fin 0 := by simp [scale, mul]

end Ufunclab.XF

namespace Ufunclab.Float
variable {K : Type _} [Field K] {rd : K → K} {s t : K}

theorem Commutes.mul (h : Commutes rd s) (h' : Commutes rd t) : Commutes rd (s * t) := by
  intro z; rw [mul_assoc, h, h', mul_assoc]

theorem Commutes.one : Commutes rd 1 := by intro z; simp

theorem Commutes.inv (h : Commutes rd s) (hs : s ≠ 0) : Commutes rd s⁻¹ := by
  intro z
  have := h (s⁻¹ * z)
  rw [mul_inv_cancel_left₀ hs] at this
  rw [this, inv_mul_cancel_left₀ hs]

end Ufunclab.Float
