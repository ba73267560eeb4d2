import Verif.Model.Deadzone
import Verif.Proof.XF
import Mathlib.Algebra.Order.Field.Basic
import Mathlib.Algebra.Order.Group.MinMax
import Mathlib.Algebra.Order.Ring.Rat
import Mathlib.Tactic.Linarith
import Mathlib.Tactic.NormNum
/-! # Properties C48 (deadzone) and C49 (trapezoid_pulse) -/
namespace Ufunclab.Deadzone
variable {K : Type _} [Field K] [LinearOrder K] [IsStrictOrderedRing K]

/-- C48: on finite arguments with `low ≤ high`, `x - deadzone(x)` is `x` clipped to
`[low, high]`. -/
theorem C48_value (x low high : K) (h : low ≤ high) :
    deadzoneXF (.fin x) (.fin low) (.fin high) = .fin (x - max low (min x high)) := by
  simp only [deadzoneXF, deadzone, XF.lt_fin, XF.sub_fin, decide_eq_true_eq]
  split_ifs with h1 h2
  · rw [min_eq_left (by linarith), max_eq_left h1.le]
  · rw [min_eq_right h2.le, max_eq_right h]
  · rw [min_eq_left (not_lt.1 h2), max_eq_right (not_lt.1 h1), sub_self]

/-- C48: the value is zero exactly on `[low, high]`, negative below and positive above. -/
theorem C48_sign (x low high : K) (h : low ≤ high) :
    ∃ y, deadzoneXF (.fin x) (.fin low) (.fin high) = .fin y ∧
      (y = 0 ↔ low ≤ x ∧ x ≤ high) ∧ (y < 0 ↔ x < low) ∧ (0 < y ↔ high < x) := by
  simp only [deadzoneXF, deadzone, XF.lt_fin, XF.sub_fin, decide_eq_true_eq]
  split_ifs with h1 h2
  · refine ⟨_, rfl, ⟨fun e => ?_, fun e => ?_⟩, ⟨fun e => ?_, fun e => ?_⟩, ⟨fun e => ?_, fun e => ?_⟩⟩ <;>
      first | (constructor <;> linarith) | linarith [e.1, e.2] | linarith
  · refine ⟨_, rfl, ⟨fun e => ?_, fun e => ?_⟩, ⟨fun e => ?_, fun e => ?_⟩, ⟨fun e => ?_, fun e => ?_⟩⟩ <;>
      first | (constructor <;> linarith) | linarith [e.1, e.2] | linarith
  · refine ⟨_, rfl, ⟨fun _ => ⟨not_lt.1 h1, not_lt.1 h2⟩, fun _ => rfl⟩, ⟨fun e => absurd e (lt_irrefl _), fun e => absurd e h1⟩,
      ⟨fun e => absurd e (lt_irrefl _), fun e => absurd e h2⟩⟩

/-- C48: non-decreasing and 1-Lipschitz in `x`. -/
theorem C48_monotone_lipschitz (x x' low high : K) (h : low ≤ high) (hx : x ≤ x') :
    ∃ y y', deadzoneXF (.fin x) (.fin low) (.fin high) = .fin y ∧
      deadzoneXF (.fin x') (.fin low) (.fin high) = .fin y' ∧ y ≤ y' ∧ y' - y ≤ x' - x := by
  refine ⟨_, _, C48_value x low high h, C48_value x' low high h, ?_, ?_⟩
  · rcases le_total x high with a | a <;> rcases le_total x' high with b | b <;>
      simp only [min_eq_left, min_eq_right, a, b] <;>
      rcases le_total low x with c | c <;> rcases le_total low x' with d | d <;>
      simp only [max_eq_left, max_eq_right, c, d, h] <;> linarith
  · have := min_le_min_right high hx
    have := max_le_max_left low this
    linarith

/-- C48: with correctly rounded subtraction (any monotone rounding that fixes 0) the result is
still non-decreasing in `x`, non-positive below `low`, non-negative above `high`, zero in
between. -/
theorem C48_rounded (rnd : K → K) (hm : Monotone rnd) (h0 : rnd 0 = 0) (low high : K) (h : low ≤ high) :
    let f := fun x => deadzone (fun a b => decide (a < b)) (fun a b => rnd (a - b)) 0 x low high
    Monotone f ∧ (∀ x, x ≤ low → f x ≤ 0) ∧ (∀ x, high ≤ x → 0 ≤ f x) ∧ ∀ x, low ≤ x → x ≤ high → f x = 0 := by
  intro f
  have neg : ∀ t, t ≤ 0 → rnd t ≤ 0 := fun t ht => h0 ▸ hm ht
  have pos : ∀ t, 0 ≤ t → 0 ≤ rnd t := fun t ht => h0 ▸ hm ht
  refine ⟨?_, ?_, ?_, ?_⟩
  · intro x x' hx
    simp only [f, deadzone, decide_eq_true_eq]
    split_ifs with a b c d e g
    · exact hm (by linarith)
    · exact (neg _ (by linarith)).trans (pos _ (by linarith))
    · exact neg _ (by linarith)
    · linarith
    · exact hm (by linarith)
    · linarith
    · linarith
    · exact pos _ (by linarith)
    · exact le_rfl
  · intro x hx
    simp only [f, deadzone, decide_eq_true_eq]
    split_ifs with a b
    · exact neg _ (by linarith)
    · linarith
    · exact le_rfl
  · intro x hx
    simp only [f, deadzone, decide_eq_true_eq]
    split_ifs with a b
    · linarith
    · exact pos _ (by linarith)
    · exact le_rfl
  · intro x h1 h2
    simp only [f, deadzone, decide_eq_true_eq]
    rw [if_neg (not_lt.2 h1), if_neg (not_lt.2 h2)]

omit [IsStrictOrderedRing K] in
/-- C48, special value: a NaN sample is not propagated; it gives 0. -/
theorem C48_nan_violated (low high : XF K) : deadzoneXF .nan low high = .fin 0 := by
  cases low <;> cases high <;> rfl

/-- C49: ordered finite parameters.  Zero outside `(a, d)`, `amp` on `[b, c]` inside, linear
ramps between.  All divisors are non-zero (the results are finite). -/
theorem C49_value (x a b c d amp : K) (h1 : a ≤ b) (h2 : b ≤ c) (h3 : c ≤ d) :
    (x ≤ a ∨ d ≤ x → trapezoid (.fin x) (.fin a) (.fin b) (.fin c) (.fin d) (.fin amp) = .fin 0) ∧
    (a < x → x < d → b ≤ x → x ≤ c →
      trapezoid (.fin x) (.fin a) (.fin b) (.fin c) (.fin d) (.fin amp) = .fin amp) ∧
    (a < x → x < b →
      trapezoid (.fin x) (.fin a) (.fin b) (.fin c) (.fin d) (.fin amp) = .fin (amp * ((x - a) / (b - a)))) ∧
    (c < x → x < d →
      trapezoid (.fin x) (.fin a) (.fin b) (.fin c) (.fin d) (.fin amp) = .fin (amp * ((d - x) / (d - c)))) := by
  have hv : ¬ ((!(XF.le (.fin a) (.fin b) && XF.le (.fin b) (.fin c) && XF.le (.fin c) (.fin d))) = true) := by
    simp [h1, h2, h3]
  unfold trapezoid
  rw [if_neg hv]
  simp only [XF.le_fin, XF.ge_fin, XF.lt_fin, Bool.or_eq_true, Bool.and_eq_true, decide_eq_true_eq, XF.sub_fin]
  refine ⟨?_, ?_, ?_, ?_⟩
  · intro h; rw [if_pos h]
  · intro p q r s
    rw [if_neg (by rintro (h | h) <;> linarith), if_pos ⟨r, s⟩]
  · intro p q
    rw [if_neg (by rintro (h | h) <;> linarith), if_neg (by rintro ⟨h, _⟩; linarith), if_pos q,
      XF.div_fin _ _ (by linarith), XF.mul_fin]
  · intro p q
    rw [if_neg (by rintro (h | h) <;> linarith), if_neg (by rintro ⟨_, h⟩; linarith), if_neg (by linarith),
      XF.div_fin _ _ (by linarith), XF.mul_fin]

/-- C49: the value always is `t * amp` with `0 ≤ t ≤ 1`, so it lies between 0 and `amp`. -/
theorem C49_range (x a b c d amp : K) (h1 : a ≤ b) (h2 : b ≤ c) (h3 : c ≤ d) :
    ∃ t, 0 ≤ t ∧ t ≤ 1 ∧
      trapezoid (.fin x) (.fin a) (.fin b) (.fin c) (.fin d) (.fin amp) = .fin (amp * t) := by
  obtain ⟨e1, e2, e3, e4⟩ := C49_value x a b c d amp h1 h2 h3
  by_cases ho : x ≤ a ∨ d ≤ x
  · exact ⟨0, le_rfl, zero_le_one, by rw [e1 ho, mul_zero]⟩
  push Not at ho
  rcases lt_or_ge x b with hb | hb
  · refine ⟨_, ?_, ?_, e3 ho.1 hb⟩
    · apply div_nonneg <;> linarith
    · rw [div_le_one (by linarith)]; linarith
  rcases le_or_gt x c with hc | hc
  · exact ⟨1, zero_le_one, le_rfl, by rw [e2 ho.1 ho.2 hb hc, mul_one]⟩
  · refine ⟨_, ?_, ?_, e4 hc ho.2⟩
    · apply div_nonneg <;> linarith
    · rw [div_le_one (by linarith)]; linarith

omit [IsStrictOrderedRing K] in
/-- C49: parameters that are not ordered (in particular a NaN among them) give NaN, whatever
`x`, even infinite. -/
theorem C49_invalid (x a b c d amp : XF K) (h : ¬ (a.le b = true ∧ b.le c = true ∧ c.le d = true)) :
    trapezoid x a b c d amp = .nan := by
  unfold trapezoid
  rw [if_pos]
  revert h
  cases a.le b <;> cases b.le c <;> cases c.le d <;> simp

omit [IsStrictOrderedRing K] in
/-- C49: a NaN abscissa gives NaN. -/
theorem C49_nan (a b c d amp : XF K) : trapezoid .nan a b c d amp = .nan := by
  have l : ∀ b : XF K, XF.le .nan b = false := by intro b; cases b <;> rfl
  have g : ∀ b : XF K, XF.ge .nan b = false := by intro b; cases b <;> rfl
  have t : ∀ b : XF K, XF.lt .nan b = false := by intro b; cases b <;> rfl
  have s : ∀ b : XF K, XF.sub b .nan = .nan := by intro b; cases b <;> rfl
  have e : ∀ b : XF K, XF.div .nan b = .nan := by intro b; cases b <;> rfl
  have m : ∀ b : XF K, XF.mul b .nan = .nan := by intro b; cases b <;> rfl
  simp [trapezoid, l, g, t, s, e, m]

/-! ### Non-vacuity -/
example : deadzoneXF (.fin (5 : Rat)) (.fin (-1)) (.fin 2) = .fin 3 := by
  rw [C48_value _ _ _ (by norm_num)]; norm_num
example : trapezoid (.fin (1 : Rat)) (.fin 0) (.fin 2) (.fin 3) (.fin 4) (.fin 10) = .fin 5 := by
  rw [(C49_value 1 0 2 3 4 10 (by norm_num) (by norm_num) (by norm_num)).2.2.1 (by norm_num) (by norm_num)]; norm_num

end Ufunclab.Deadzone
