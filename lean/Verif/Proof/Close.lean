import Verif.Proof.TriAreaRound
import Mathlib.Analysis.SpecialFunctions.Log.Deriv
import Mathlib.Analysis.SpecialFunctions.Sqrt
import Mathlib.Analysis.Convex.SpecificFunctions.Basic
/-!
# Relative errors as differences of logarithms
-/
namespace Ufunclab.Float
open Real
variable {p : ℕ} {emin : ℤ} {rd : ℝ → ℝ} {a b c d s t : ℝ}

/-- `a` and `b` are positive and their logarithms differ by at most `t`. -/
def Close (t a b : ℝ) : Prop := 0 < a ∧ 0 < b ∧ |log a - log b| ≤ t

theorem Close.refl (ha : 0 < a) : Close 0 a a := ⟨ha, ha, by simp⟩
theorem Close.nonneg (h : Close t a b) : 0 ≤ t := (abs_nonneg _).trans h.2.2
theorem Close.symm (h : Close t a b) : Close t b a := ⟨h.2.1, h.1, by rw [abs_sub_comm]; exact h.2.2⟩
theorem Close.mono (h : Close s a b) (hst : s ≤ t) : Close t a b := ⟨h.1, h.2.1, h.2.2.trans hst⟩
theorem Close.trans (h : Close s a b) (h' : Close t b c) : Close (s + t) a c :=
  ⟨h.1, h'.2.1, (abs_sub_le _ (log b) _).trans (add_le_add h.2.2 h'.2.2)⟩

theorem Close.mul (h : Close s a b) (h' : Close t c d) : Close (s + t) (a * c) (b * d) := by
  refine ⟨mul_pos h.1 h'.1, mul_pos h.2.1 h'.2.1, ?_⟩
  rw [log_mul h.1.ne' h'.1.ne', log_mul h.2.1.ne' h'.2.1.ne']
  calc _ = |(log a - log b) + (log c - log d)| := by congr 1; ring
    _ ≤ _ := abs_add_le _ _
    _ ≤ _ := add_le_add h.2.2 h'.2.2

theorem Close.inv (h : Close t a b) : Close t a⁻¹ b⁻¹ := by
  refine ⟨inv_pos.2 h.1, inv_pos.2 h.2.1, ?_⟩
  rw [log_inv, log_inv]
  calc _ = |-(log a - log b)| := by congr 1; ring
    _ ≤ _ := by rw [abs_neg]; exact h.2.2

theorem Close.div (h : Close s a b) (h' : Close t c d) : Close (s + t) (a / c) (b / d) := by
  rw [div_eq_mul_inv, div_eq_mul_inv]; exact h.mul h'.inv

theorem Close.sqrt (h : Close t a b) : Close (t / 2) (√a) (√b) := by
  refine ⟨Real.sqrt_pos.2 h.1, Real.sqrt_pos.2 h.2.1, ?_⟩
  rw [Real.log_sqrt h.1.le, Real.log_sqrt h.2.1.le, ← sub_div, abs_div, abs_two]
  exact div_le_div_of_nonneg_right h.2.2 (by norm_num)

theorem close_iff : Close t a b ↔ 0 < a ∧ 0 < b ∧ a ≤ exp t * b ∧ b ≤ exp t * a := by
  constructor
  · rintro ⟨ha, hb, h⟩
    obtain ⟨h1, h2⟩ := abs_le.1 h
    refine ⟨ha, hb, ?_, ?_⟩
    · rw [← log_le_log_iff ha (by positivity), log_mul (exp_pos t).ne' hb.ne', log_exp]; linarith
    · rw [← log_le_log_iff hb (by positivity), log_mul (exp_pos t).ne' ha.ne', log_exp]; linarith
  · rintro ⟨ha, hb, h1, h2⟩
    refine ⟨ha, hb, ?_⟩
    rw [← log_le_log_iff ha (by positivity), log_mul (exp_pos t).ne' hb.ne', log_exp] at h1
    rw [← log_le_log_iff hb (by positivity), log_mul (exp_pos t).ne' ha.ne', log_exp] at h2
    rw [abs_le]; constructor <;> linarith

theorem Close.add (h : Close t a b) (h' : Close t c d) : Close t (a + c) (b + d) := by
  rw [close_iff] at *
  refine ⟨add_pos h.1 h'.1, add_pos h.2.1 h'.2.1, ?_, ?_⟩ <;> rw [mul_add]
  · exact add_le_add h.2.2.1 h'.2.2.1
  · exact add_le_add h.2.2.2 h'.2.2.2

/-- Adding something nonnegative and exact. -/
theorem Close.const_add (h : Close t a b) (hc : 0 ≤ c) : Close t (c + a) (c + b) := by
  rcases hc.eq_or_lt with rfl | hc
  · simpa using h
  · exact ((Close.refl hc).mono h.nonneg).add h

theorem close_exp (x y : ℝ) : Close |x - y| (exp x) (exp y) := ⟨exp_pos x, exp_pos y, by rw [log_exp, log_exp]⟩

/-- From a relative error. -/
theorem close_of_rel {e : ℝ} (hb : 0 < b) (he : e ≤ 1 / 100) (h : |a - b| ≤ e * b) : Close (1.02 * e) a b := by
  have e0 : 0 ≤ e := by
    by_contra hn
    have := mul_neg_of_neg_of_pos (not_le.1 hn) hb
    linarith [abs_nonneg (a - b)]
  obtain ⟨h1, h2⟩ := abs_le.1 h
  have ha : 0 < a := by
    have := mul_le_mul_of_nonneg_right he hb.le
    linarith
  have h3 := add_one_le_exp (1.02 * e)
  rw [close_iff]
  refine ⟨ha, hb, ?_, ?_⟩
  · have := mul_le_mul_of_nonneg_right h3 hb.le
    have : e * b ≤ 1.02 * e * b := by have := mul_nonneg e0 hb.le; linarith
    linarith
  · have h4 := mul_le_mul_of_nonneg_right h3 ha.le
    have h5 : (1 - e) * b ≤ a := by linarith
    have h6 := mul_le_mul_of_nonneg_left h5 (by linarith : 0 ≤ 1.02 * e + 1)
    have h7 : 1 ≤ (1.02 * e + 1) * (1 - e) := by nlinarith
    have h8 := mul_le_mul_of_nonneg_right h7 hb.le
    linarith

/-- To a relative error. -/
theorem Close.rel (h : Close t a b) (ht : t ≤ 1 / 50) : |a - b| ≤ 1.02 * t * b := by
  have t0 := h.nonneg
  obtain ⟨ha, hb, h1, h2⟩ := close_iff.1 h
  have e1 : exp t ≤ 1 + 1.02 * t := by
    have := (abs_le.1 (Real.abs_exp_sub_one_sub_id_le (x := t) (by rw [abs_of_nonneg t0]; linarith))).2
    have : t ^ 2 ≤ 1 / 50 * t := by rw [sq]; exact mul_le_mul_of_nonneg_right ht t0
    linarith
  have e2 : 1 - t ≤ exp (-t) := by linarith [add_one_le_exp (-t)]
  rw [abs_le]
  constructor
  · have h3 : exp (-t) * b ≤ a := by
      have := mul_le_mul_of_nonneg_left h2 (exp_pos (-t)).le
      rwa [← mul_assoc, ← exp_add, neg_add_cancel, exp_zero, one_mul] at this
    have := mul_le_mul_of_nonneg_right e2 hb.le
    have : t * b ≤ 1.02 * t * b := by have := mul_nonneg t0 hb.le; linarith
    linarith
  · have := mul_le_mul_of_nonneg_right e1 hb.le
    linarith

/-- A relative and an absolute error, one after the other. -/
theorem split_error {e η : ℝ} (he : 0 ≤ e) (hη : 0 ≤ η) (h : |a - b| ≤ e * |b| + η) : ∃ m, |m - b| ≤ e * |b| ∧ |a - m| ≤ η := by
  have k := mul_nonneg he (abs_nonneg b)
  obtain ⟨h1, h2⟩ := abs_le.1 h
  rcases le_total a (b + e * |b|) with l | l
  · rcases le_total (b - e * |b|) a with l' | l'
    · exact ⟨a, abs_le.2 ⟨by linarith, by linarith⟩, by simpa using hη⟩
    · exact ⟨b - e * |b|, abs_le.2 ⟨by linarith, by linarith⟩, abs_le.2 ⟨by linarith, by linarith⟩⟩
  · exact ⟨b + e * |b|, abs_le.2 ⟨by linarith, by linarith⟩, abs_le.2 ⟨by linarith, by linarith⟩⟩

/-- Rounding a normal number. -/
theorem close_round (h : Nearest p emin rd) (hp : 7 ≤ p) (hz : 2 ^ p * 2 ^ emin ≤ a) : Close (1.02 * (2 ^ p)⁻¹) (rd a) a := by
  have ha : 0 < a := lt_of_lt_of_le (mul_pos (by positivity) (two_zpow_pos emin)) hz
  refine close_of_rel ha ?_ (by simpa [abs_of_pos ha] using TriArea.rel_normal h (by omega) (z := a) (by rwa [abs_of_pos ha]))
  have : (2 : ℝ) ^ 7 ≤ 2 ^ p := pow_le_pow_right₀ (by norm_num) hp
  rw [inv_le_comm₀ (by positivity) (by norm_num)]
  norm_num at *; linarith

/-- A small absolute error of something added to a number from 1 on. -/
theorem close_abs {e : ℝ} (hb : 1 ≤ b) (he : e ≤ 1 / 100) (h : |a - b| ≤ e) : Close (1.02 * e) a b :=
  close_of_rel (by linarith) he (h.trans (by
    have : 0 ≤ e := (abs_nonneg _).trans h
    exact le_mul_of_one_le_right this hb))

/-- `log1p` does not increase relative errors. -/
theorem Close.log1p (h : Close t a b) : Close t (Real.log (1 + a)) (Real.log (1 + b)) := by
  have key : ∀ {x y : ℝ}, 0 < x → 0 < y → x ≤ exp t * y → Real.log (1 + x) ≤ exp t * Real.log (1 + y) := by
    intro x y hx hy hxy
    have ht : 1 ≤ exp t := one_le_exp h.nonneg
    have c := one_add_mul_self_le_rpow_one_add (s := y) (by linarith) ht
    calc Real.log (1 + x) ≤ Real.log (1 + exp t * y) := log_le_log (by linarith) (by linarith)
      _ ≤ Real.log ((1 + y) ^ exp t) := log_le_log (by positivity) c
      _ = _ := log_rpow (by linarith) _
  rw [close_iff] at h ⊢
  exact ⟨log_pos (by linarith [h.1]), log_pos (by linarith [h.2.1]), key h.1 h.2.1 h.2.2.1, key h.2.1 h.1 h.2.2.2⟩

/-! ### Numbers of either sign -/

/-- `a` and `b` have the same sign (neither is 0) and the logarithms of their magnitudes differ by at most `t`. -/
def SClose (t a b : ℝ) : Prop := 0 < a * b ∧ Close t |a| |b|

theorem Close.sclose (h : Close t a b) : SClose t a b :=
  ⟨mul_pos h.1 h.2.1, by rw [abs_of_pos h.1, abs_of_pos h.2.1]; exact h⟩

theorem SClose.nonneg (h : SClose t a b) : 0 ≤ t := h.2.nonneg
theorem SClose.mono (h : SClose s a b) (hst : s ≤ t) : SClose t a b := ⟨h.1, h.2.mono hst⟩
theorem SClose.ne (h : SClose t a b) : b ≠ 0 := by rintro rfl; simpa using h.1
theorem SClose.refl (ha : a ≠ 0) : SClose 0 a a := ⟨mul_self_pos.2 ha, Close.refl (abs_pos.2 ha)⟩
theorem SClose.neg (h : SClose t a b) : SClose t (-a) (-b) := ⟨by rw [neg_mul_neg]; exact h.1, by rw [abs_neg, abs_neg]; exact h.2⟩

theorem SClose.trans (h : SClose s a b) (h' : SClose t b c) : SClose (s + t) a c := by
  refine ⟨?_, h.2.trans h'.2⟩
  have h1 := mul_pos h.1 h'.1
  have h2 : 0 < b * b := mul_self_pos.2 h.ne
  have h3 : a * b * (b * c) = a * c * (b * b) := by ring
  rw [h3] at h1
  exact pos_of_mul_pos_left h1 h2.le

theorem SClose.mul (h : SClose s a b) (h' : SClose t c d) : SClose (s + t) (a * c) (b * d) := by
  refine ⟨?_, by rw [abs_mul, abs_mul]; exact h.2.mul h'.2⟩
  have h1 := mul_pos h.1 h'.1
  have h3 : a * b * (c * d) = a * c * (b * d) := by ring
  rwa [h3] at h1

theorem SClose.inv (h : SClose t a b) : SClose t a⁻¹ b⁻¹ :=
  ⟨by rw [← mul_inv]; exact inv_pos.2 h.1, by rw [abs_inv, abs_inv]; exact h.2.inv⟩

theorem SClose.div (h : SClose s a b) (h' : SClose t c d) : SClose (s + t) (a / c) (b / d) := by
  rw [div_eq_mul_inv, div_eq_mul_inv]; exact h.mul h'.inv

theorem SClose.abs_sub (h : SClose t a b) : |a - b| = abs (|a| - |b|) := by
  rcases pos_and_pos_or_neg_and_neg_of_mul_pos h.1 with ⟨h1, h2⟩ | ⟨h1, h2⟩
  · rw [abs_of_pos h1, abs_of_pos h2]
  · rw [abs_of_neg h1, abs_of_neg h2, neg_sub_neg, abs_sub_comm]

theorem SClose.rel (h : SClose t a b) (ht : t ≤ 1 / 50) : |a - b| ≤ 1.02 * t * |b| := by
  rw [h.abs_sub]; exact h.2.rel ht

theorem sclose_of_rel {e : ℝ} (hb : b ≠ 0) (he : e ≤ 1 / 100) (h : |a - b| ≤ e * |b|) : SClose (1.02 * e) a b := by
  rcases lt_or_gt_of_ne hb with hb | hb
  · have c : Close (1.02 * e) (-a) (-b) := close_of_rel (by linarith) he (by
      rw [neg_sub_neg, abs_sub_comm, ← abs_of_neg hb]; exact h)
    simpa using c.sclose.neg
  · rw [abs_of_pos hb] at h
    exact (close_of_rel hb he h).sclose

theorem sclose_round (h : Nearest p emin rd) (hp : 7 ≤ p) (hz : 2 ^ p * 2 ^ emin ≤ |a|) : SClose (1.02 * (2 ^ p)⁻¹) (rd a) a := by
  have ha : 0 < |a| := lt_of_lt_of_le (mul_pos (by positivity) (two_zpow_pos emin)) hz
  refine sclose_of_rel (abs_pos.1 ha) ?_ (TriArea.rel_normal h (by omega) hz)
  have : (2 : ℝ) ^ 7 ≤ 2 ^ p := pow_le_pow_right₀ (by norm_num) hp
  rw [inv_le_comm₀ (by positivity) (by norm_num)]
  norm_num at *; linarith

/-- An error with an absolute part, for a number that is not subnormal. -/
theorem sclose_lib {e : ℝ} (hp : 8 ≤ p) (he : e ≤ 1 / 1000) (hz : 2 ^ p * 2 ^ emin ≤ |b|) (h : |a - b| ≤ e * |b| + 2 ^ emin) :
    SClose (1.02 * (e + (2 ^ p)⁻¹)) a b := by
  have hb : 0 < |b| := lt_of_lt_of_le (mul_pos (by positivity) (two_zpow_pos emin)) hz
  refine sclose_of_rel (abs_pos.1 hb) ?_ (h.trans ?_)
  · have : (2 : ℝ) ^ 8 ≤ 2 ^ p := pow_le_pow_right₀ (by norm_num) hp
    have : ((2 : ℝ) ^ p)⁻¹ ≤ 1 / 256 := by
      rw [inv_le_comm₀ (by positivity) (by norm_num)]
      norm_num at *; linarith
    linarith
  · have := mul_le_mul_of_nonneg_left hz (by positivity : (0 : ℝ) ≤ (2 ^ p)⁻¹)
    rw [← mul_assoc, inv_mul_cancel₀ (by positivity), one_mul] at this
    linarith

/-- `1 - exp(-v)` does not increase relative errors. -/
theorem Close.oneSubExp (h : Close t a b) : Close t (1 - exp (-a)) (1 - exp (-b)) := by
  have key : ∀ {x y : ℝ}, 0 < x → 0 < y → x ≤ exp t * y → 1 - exp (-x) ≤ exp t * (1 - exp (-y)) := by
    intro x y hx hy hxy
    have ht : 1 ≤ exp t := one_le_exp h.nonneg
    have c := one_add_mul_self_le_rpow_one_add (s := exp (-y) - 1) (by linarith [exp_pos (-y)]) ht
    rw [add_sub_cancel, ← exp_mul] at c
    have : exp (-y * exp t) ≤ exp (-x) := exp_le_exp.2 (by linarith)
    linarith
  have pos : ∀ {x : ℝ}, 0 < x → 0 < 1 - exp (-x) := fun {x} hx => by
    have : exp (-x) < 1 := by rw [← exp_zero]; exact exp_lt_exp.2 (by linarith)
    linarith
  rw [close_iff] at h ⊢
  exact ⟨pos h.1, pos h.2.1, key h.1 h.2.1 h.2.2.1, key h.2.1 h.1 h.2.2.2⟩

/-- `expm1` increases relative errors by the absolute error of the argument at most. -/
theorem SClose.expm1 (h : SClose t a b) : SClose (t + |a - b|) (exp a - 1) (exp b - 1) := by
  rcases pos_and_pos_or_neg_and_neg_of_mul_pos h.1 with ⟨h1, h2⟩ | ⟨h1, h2⟩
  · have c := h.2
    rw [abs_of_pos h1, abs_of_pos h2] at c
    have c2 := c.oneSubExp.mul (close_exp a b)
    have e : ∀ x : ℝ, (1 - exp (-x)) * exp x = exp x - 1 := fun x => by
      rw [sub_mul, ← exp_add, neg_add_cancel, exp_zero, one_mul]
    rw [e, e] at c2
    exact c2.sclose
  · have c := h.2
    rw [abs_of_neg h1, abs_of_neg h2] at c
    have c2 := c.oneSubExp
    rw [neg_neg, neg_neg] at c2
    have := c2.sclose.neg
    rw [neg_sub, neg_sub] at this
    exact this.mono (by linarith [abs_nonneg (a - b)])

/-- `log1p` for negative arguments `-b`: the errors increase near -1. -/
theorem Close.log1pNeg (h : Close t a b) (hb : b < 1) (ht : t * (b / (1 - b)) ≤ 1 / 200) (ht' : t ≤ 1 / 50) :
    a < 1 ∧ Close (t * (1 + 1.05 * (b / (1 - b)))) (-Real.log (1 - a)) (-Real.log (1 - b)) := by
  have hb0 := h.2.1
  have d : 0 < 1 - b := by linarith
  have r := h.rel ht'
  have t0 := h.nonneg
  have k0 : 0 ≤ b / (1 - b) := by positivity
  have e1 : |(1 - a) - (1 - b)| ≤ 1.02 * t * (b / (1 - b)) * (1 - b) := by
    rw [show (1 - a) - (1 - b) = -(a - b) by ring, abs_neg]
    calc _ ≤ _ := r
      _ = _ := by field_simp
  have c := close_of_rel d (by linarith) e1
  refine ⟨by linarith [c.1], ?_⟩
  have c2 := (h.div c).log1p
  have f : ∀ x : ℝ, x < 1 → Real.log (1 + x / (1 - x)) = -Real.log (1 - x) := by
    intro x hx
    have : 1 + x / (1 - x) = (1 - x)⁻¹ := by
      have : 1 - x ≠ 0 := by linarith
      field_simp; ring
    rw [this, log_inv]
  rw [f a (by linarith [c.1]), f b hb] at c2
  refine c2.mono ?_
  have := mul_nonneg t0 k0
  linarith

/-- `log1p` on `(-1, ∞)`. -/
theorem SClose.log1p (h : SClose t a b) (hb : -1 < b) (ht : t * (max 0 (-b) / (1 + b)) ≤ 1 / 200) (ht' : t ≤ 1 / 50) :
    -1 < a ∧ SClose (t * (1 + 1.05 * (max 0 (-b) / (1 + b)))) (Real.log (1 + a)) (Real.log (1 + b)) := by
  rcases pos_and_pos_or_neg_and_neg_of_mul_pos h.1 with ⟨h1, h2⟩ | ⟨h1, h2⟩
  · have c := h.2
    rw [abs_of_pos h1, abs_of_pos h2] at c
    rw [max_eq_left (by linarith), zero_div, mul_zero, add_zero, mul_one]
    exact ⟨by linarith, c.log1p.sclose⟩
  · have c := h.2
    rw [abs_of_neg h1, abs_of_neg h2] at c
    rw [max_eq_right (by linarith)] at ht ⊢
    obtain ⟨c1, c2⟩ := c.log1pNeg (by linarith) (by rw [sub_neg_eq_add]; exact ht) ht'
    refine ⟨by linarith, ?_⟩
    rw [sub_neg_eq_add, sub_neg_eq_add] at c2
    have := c2.sclose.neg
    rwa [neg_neg, neg_neg] at this

/-- The magnitude of a close number is nearly as large. -/
theorem SClose.large (h : SClose t a b) (ht : t ≤ 1 / 50) {N : ℝ} (hN : 0 ≤ N) (hb : 2 * N ≤ |b|) : 1.9 * N ≤ |a| := by
  have r := h.rel ht
  have : |b| ≤ |a| + |a - b| := by
    have := abs_sub_abs_le_abs_sub b a
    rw [abs_sub_comm] at this
    linarith
  have := mul_le_mul_of_nonneg_right (show 1.02 * t ≤ 1 / 25 by linarith) (abs_nonneg b)
  linarith

theorem abs_expm1_ge (v : ℝ) : min |v| 1 / 2 ≤ |exp v - 1| := by
  rcases le_or_gt 0 v with hv | hv
  · have := add_one_le_exp v
    rw [abs_of_nonneg hv, abs_of_nonneg (by linarith)]
    have := min_le_left v 1
    have : 0 ≤ min v 1 := le_min hv (by norm_num)
    linarith
  · have e1 : exp v < 1 := by rw [← exp_zero]; exact exp_lt_exp.2 hv
    rw [abs_of_neg hv, abs_of_neg (by linarith)]
    have e2 := add_one_le_exp (-v)
    rw [exp_neg] at e2
    have e3 : exp v ≤ (1 - v)⁻¹ := by
      rw [le_inv_comm₀ (exp_pos v) (by linarith)]; linarith
    have e4 : (1 - v)⁻¹ = 1 - -v / (1 - v) := by
      have : 1 - v ≠ 0 := by linarith
      field_simp; ring
    have e5 : min (-v) 1 / 2 ≤ -v / (1 - v) := by
      rw [div_le_div_iff₀ (by norm_num) (by linarith)]
      rcases le_total (-v) 1 with h | h
      · rw [min_eq_left h]; nlinarith
      · rw [min_eq_right h]; linarith
    linarith

theorem abs_log1p_ge {v : ℝ} (hv : -1 < v) : min |v| 1 / 2 ≤ |Real.log (1 + v)| := by
  have l := one_sub_inv_le_log_of_pos (show 0 < 1 + v by linarith)
  have l2 := log_le_sub_one_of_pos (show 0 < 1 + v by linarith)
  rcases le_or_gt 0 v with h | h
  · rw [abs_of_nonneg h, abs_of_nonneg (log_nonneg (by linarith))]
    refine le_trans ?_ l
    have e4 : 1 - (1 + v)⁻¹ = v / (1 + v) := by
      have : 1 + v ≠ 0 := by linarith
      field_simp; ring
    rw [e4, div_le_div_iff₀ (by norm_num) (by linarith)]
    rcases le_total v 1 with h | h
    · rw [min_eq_left h]; nlinarith
    · rw [min_eq_right h]; linarith
  · rw [abs_of_neg h, abs_of_neg (by linarith), min_eq_left (by linarith)]
    linarith

end Ufunclab.Float
