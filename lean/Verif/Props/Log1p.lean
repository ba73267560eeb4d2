import Verif.Proof.Log1pTheorem4
/-! # Property C71: log1p_doubledouble and log1p_theorem4 -/
set_option exponentiation.threshold 3000
namespace Ufunclab.Log1p
open Ufunclab.Float XF
attribute [local irreducible] u53 eta

/-! ## Accuracy in floating point -/

/-- C71: with double precision arithmetic (any nearest rounding, with or without a fused
multiply-add in the splitting), for every finite `z = x + iy` other than -1, both parts of
`log1p_doubledouble(z)` have a small relative error with respect to the principal logarithm of
`1 + z`, even on the circle `|1 + z| = 1` where the real part vanishes: there the absolute error is
of the order of the *square* of the roundoff. -/
theorem C71_doubledouble {rd : ℝ → ℝ} (h : Nearest 53 (-1074) rd) (fma : Bool) {x y : ℝ}
    (hx : IsFloat 53 (-1074) x) (hy : IsFloat 53 (-1074) y) (h0 : ¬(x = -1 ∧ y = 0)) :
    ∃ r i, doubledouble fma rd (.fin x, .fin y) = (.fin r, .fin i) ∧
      |r - (Complex.log (1 + ⟨x, y⟩)).re| ≤
        8 / 2 ^ 53 * |(Complex.log (1 + ⟨x, y⟩)).re| + 1 / 2 ^ 95 * min 1 (x * x + 2 * |x| + y * y) + 1 / 2 ^ 790 ∧
      |i - (Complex.log (1 + ⟨x, y⟩)).im| ≤ 2 / 2 ^ 53 * |(Complex.log (1 + ⟨x, y⟩)).im| := by
  classical
  rw [doubledouble_fin, clog_one_add]
  have hc := crude53 h
  have hX : |rd (x + 1) - (x + 1)| ≤ u53 ℝ * |x + 1| := rel53 h hx (by simpa using isFloat_zpow (by norm_num) (e := 0) (by norm_num))
  have hu0 : (0 : ℝ) ≤ u53 ℝ := by rw [u53]; positivity
  have hu1 : u53 ℝ ≤ 1 / 1000 := by rw [u53]; norm_num
  have h0' : ¬(x + 1 = 0 ∧ y = 0) := fun c => h0 ⟨by linarith [c.1], c.2⟩
  have hM0 : 0 ≤ x * x + 2 * |x| + y * y := by
    have := mul_self_nonneg x; have := mul_self_nonneg y; have := abs_nonneg x; linarith
  have harg : |Complex.arg ⟨rd (x + 1), y⟩ - Complex.arg ⟨x + 1, y⟩| ≤ 2 / 2 ^ 53 * |Complex.arg ⟨x + 1, y⟩| := by
    refine (arg_err hu0 (by linarith) hX).trans (le_of_eq ?_)
    rw [u53]; ring
  by_cases hn : Near rd x y ∧ Near2 rd x y
  · rw [if_pos hn]
    have hE := near_E hc hn.1 hn.2
    obtain ⟨hxb, hyb⟩ := near_bounds hc hn.1
    have hMb : x * x + 2 * |x| + y * y ≤ 12 := by
      rw [← abs_mul_abs_self x, ← abs_mul_abs_self y]
      have := abs_nonneg x; have := abs_nonneg y
      nlinarith
    have hS := xsq_err h fma hx hy
    set M := x * x + 2 * |x| + y * y
    set b := 80 * (u53 ℝ * u53 ℝ) * M + 5 * eta ℝ with hb
    have hη : (0 : ℝ) < eta ℝ := by rw [eta]; positivity
    have hb0 : 0 ≤ b := by positivity
    have hb1 : b ≤ 1 / 1000 := by
      have h1 : 80 * (u53 ℝ * u53 ℝ) * M ≤ 80 * (u53 ℝ * u53 ℝ) * 12 := mul_le_mul_of_nonneg_left hMb (by positivity)
      have h2 : 80 * (u53 ℝ * u53 ℝ) * 12 + 5 * eta ℝ ≤ 1 / 1000 := by rw [u53, eta]; norm_num
      linarith
    obtain ⟨hs1, hs2⟩ := near_err (a := u53 ℝ) (b := b) (S := xsqPlus2xPlusYsq fma rd x y) hu0 hb0 hE (by linarith)
      (by linarith)
    set S := xsqPlus2xPlusYsq fma rd x y
    have hl : clog1p (.fin S) = .fin (Real.log (1 + S)) := by
      simp [clog1p, not_lt.2 hs1.le, hs1.ne']
    refine ⟨rd (1 / 2 * Real.log (1 + S)), _, by rw [hl, mul_fin, rnd], ?_, harg⟩
    have hr := err53 h (1 / 2 * Real.log (1 + S))
    set v := 1 / 2 * Real.log (1 + S)
    set w := Real.log (√((x + 1) * (x + 1) + y * y))
    have hvw : |v| ≤ |w| + |v - w| := by
      calc |v| = |w + (v - w)| := by ring_nf
        _ ≤ _ := abs_add_le _ _
    have huw : 0 ≤ u53 ℝ * |w| := by positivity
    have huvw : u53 ℝ * |v - w| ≤ 0.01 * (u53 ℝ * |w|) + 0.01 * b := by
      have h1 := mul_le_mul_of_nonneg_left hs2 hu0
      have h2 := mul_le_mul_of_nonneg_right hu1 huw
      have h3 := mul_le_mul_of_nonneg_right hu1 hb0
      linarith
    have huv := mul_le_mul_of_nonneg_left hvw hu0
    have hfin : |rd v - w| ≤ 4 * (u53 ℝ * |w|) + 1.1 * b + eta ℝ := by
      calc |rd v - w| = |(rd v - v) + (v - w)| := by ring_nf
        _ ≤ |rd v - v| + |v - w| := abs_add_le _ _
        _ ≤ _ := by linarith
    have hbm : 1.1 * b + eta ℝ ≤ 1 / 2 ^ 95 * min 1 M + 1 / 2 ^ 790 := by
      have h1 : M ≤ 12 * min 1 M := by
        rcases min_cases (1 : ℝ) M with c | c <;> rw [c.1] <;> linarith
      have h2 : 1.1 * (80 * (u53 ℝ * u53 ℝ) * M) ≤ 1.1 * (80 * (u53 ℝ * u53 ℝ) * (12 * min 1 M)) := by
        have := mul_le_mul_of_nonneg_left h1 (show (0 : ℝ) ≤ 80 * (u53 ℝ * u53 ℝ) by positivity)
        linarith
      have h3 : (1.1 : ℝ) * (80 * (u53 ℝ * u53 ℝ) * 12) ≤ 1 / 2 ^ 95 := by rw [u53]; norm_num
      have h4 : (7 : ℝ) * eta ℝ ≤ 1 / 2 ^ 790 := by rw [eta]; norm_num
      have h5 : (0 : ℝ) ≤ min 1 M := le_min (by norm_num) hM0
      have h6 := mul_le_mul_of_nonneg_right h3 h5
      rw [hb]; linarith
    have hu8 : 8 / 2 ^ 53 * |w| = 8 * (u53 ℝ * |w|) := by rw [u53]; ring
    rw [hu8]; linarith
  · rw [if_neg hn]
    obtain ⟨hp, he⟩ := far_err hu0 hu1 hX (far_E hc hn) h0'
    refine ⟨Real.log (√(rd (x + 1) * rd (x + 1) + y * y)), _, ?_, ?_, harg⟩
    · simp [clogReal, not_lt.2 hp.le, hp.ne']
    · refine he.trans ?_
      have h5 : (0 : ℝ) ≤ min 1 (x * x + 2 * |x| + y * y) := le_min (by norm_num) hM0
      have : 8 * u53 ℝ = 8 / 2 ^ 53 := by rw [u53]; ring
      rw [this]
      have : (0 : ℝ) ≤ 1 / 2 ^ 95 * min 1 (x * x + 2 * |x| + y * y) + 1 / 2 ^ 790 :=
        add_nonneg (mul_nonneg (by norm_num) h5) (by norm_num)
      linarith

/-- The hypotheses are met: double precision rounding exists, and `-1/4 + 3i/4` (near the circle)
is made of doubles. -/
example : ∃ rd : ℝ → ℝ, Nearest 53 (-1074) rd ∧ IsFloat 53 (-1074) (-1 / 4 : ℝ) ∧
    IsFloat 53 (-1074) (3 / 4 : ℝ) ∧ ¬((-1 / 4 : ℝ) = -1 ∧ (3 / 4 : ℝ) = 0) := by
  obtain ⟨rd, h⟩ := exists_nearest (K := ℝ) (p := 53) (by norm_num) (-1074)
  exact ⟨rd, h, ⟨-1, -2, by norm_num, by norm_num, by norm_num⟩, ⟨3, -2, by norm_num, by norm_num, by norm_num⟩,
    by norm_num⟩

/-- C71: `log1p_theorem4` in floating point (double: `p = 53`, `emin = -1074`; float: 24 and -149).
As a complex number the result has a relative error of at most `25 · 2^-p` for every finite `z`
other than -1.  (Only the modulus of the error is bounded: the real part alone loses its accuracy
where it vanishes, which is what `log1p_doubledouble` repairs.  The quotient is modelled by the
textbook formula, which underflows when `z` is tiny and `1 + x` rounds to 1; these arguments, `0 <
|y| < 2^-507` for double, are left out.) -/
theorem C71_theorem4 {p : ℕ} {emin : ℤ} {rd : ℝ → ℝ} (h : Nearest p emin rd) (hp : 24 ≤ p) (he : emin ≤ -3 * p - 6)
    {x y : ℝ} (hx : IsFloat p emin x) (h0 : ¬(x = -1 ∧ y = 0))
    (hy : y = 0 ∨ 32 * 2 ^ p * 2 ^ emin ≤ y ^ 2 ∨ rd (x + 1) ≠ 1) :
    ∃ r i, theorem4 rd (.fin x, .fin y) = (.fin r, .fin i) ∧
      ‖(⟨r, i⟩ : ℂ) - Complex.log (1 + ⟨x, y⟩)‖ ≤ 25 / 2 ^ p * ‖Complex.log (1 + ⟨x, y⟩)‖ + 4 * 2 ^ emin :=
  theorem4_err h hp he hx h0 hy

/-- The hypotheses are met in double precision at a point of the third branch: `2^-60 + i/4`, where
`1 + x` rounds to 1. -/
example : ∃ rd : ℝ → ℝ, Nearest 53 (-1074) rd ∧ (-1074 : ℤ) ≤ -3 * (53 : ℕ) - 6 ∧
    IsFloat 53 (-1074) (1 / 2 ^ 60 : ℝ) ∧ (32 : ℝ) * 2 ^ 53 * 2 ^ (-1074 : ℤ) ≤ (1 / 4) ^ 2 := by
  obtain ⟨rd, h⟩ := exists_nearest (K := ℝ) (p := 53) (by norm_num) (-1074)
  exact ⟨rd, h, by norm_num, ⟨1, -60, by norm_num, by norm_num, by norm_num⟩, by norm_num⟩

/-- C71: the single precision function: `rf` rounds to `float`, `rd` to `double`. -/
theorem C71_doubledouble_single {rf rd : ℝ → ℝ} (hf : Nearest 24 (-149) rf) (h : Nearest 53 (-1074) rd) {x y : ℝ}
    (hx : IsFloat 24 (-149) x) (h0 : ¬(x = -1 ∧ y = 0)) :
    ∃ r i, doubledoubleF rf rd (.fin x, .fin y) = (.fin r, .fin i) ∧
      |r - (Complex.log (1 + ⟨x, y⟩)).re| ≤
        10 / 2 ^ 24 * |(Complex.log (1 + ⟨x, y⟩)).re| + 1 / 2 ^ 46 * min 1 (x * x + 2 * |x| + y * y) + 1 / 2 ^ 149 ∧
      |i - (Complex.log (1 + ⟨x, y⟩)).im| ≤ 2 / 2 ^ 24 * |(Complex.log (1 + ⟨x, y⟩)).im| := by
  classical
  rw [doubledoubleF_fin, clog_one_add]
  have hc := crude24 hf
  have hX : |rf (x + 1) - (x + 1)| ≤ 1 / 2 ^ 24 * |x + 1| := by
    rw [one_div]
    exact hf.rel_error (by norm_num) (hx.grid.add
      (isFloat_zpow (K := ℝ) (p := 24) (emin := -149) (by norm_num) (e := 0) (by norm_num)).grid)
  have h0' : ¬(x + 1 = 0 ∧ y = 0) := fun c => h0 ⟨by linarith [c.1], c.2⟩
  have hM0 : 0 ≤ x * x + 2 * |x| + y * y := by
    have := mul_self_nonneg x; have := mul_self_nonneg y; have := abs_nonneg x; linarith
  have harg : |Complex.arg ⟨rf (x + 1), y⟩ - Complex.arg ⟨x + 1, y⟩| ≤ 2 / 2 ^ 24 * |Complex.arg ⟨x + 1, y⟩| :=
    (arg_err (by norm_num) (by norm_num) hX).trans (le_of_eq (by ring))
  set w := Real.log (√((x + 1) * (x + 1) + y * y)) with hw
  have hw0 := abs_nonneg w
  have h5 : (0 : ℝ) ≤ min 1 (x * x + 2 * |x| + y * y) := le_min (by norm_num) hM0
  have hpos : (0 : ℝ) ≤ 1 / 2 ^ 46 * min 1 (x * x + 2 * |x| + y * y) := by positivity
  by_cases hn : Near rf x y ∧ Near2 rf x y
  · rw [if_pos hn.1, if_pos hn.2]
    have hE := near_E hc hn.1 hn.2
    obtain ⟨hxb, hyb⟩ := near_bounds hc hn.1
    have hMb : x * x + 2 * |x| + y * y ≤ 12 := by
      rw [← abs_mul_abs_self x, ← abs_mul_abs_self y]
      have := abs_nonneg x; have := abs_nonneg y
      nlinarith
    have hS := naive_err h hxb hyb
    set M := x * x + 2 * |x| + y * y
    set S := rd (rd (rd (x * x) + rd (2 * x)) + rd (y * y))
    have hu0 : (0 : ℝ) ≤ u53 ℝ := by rw [u53]; positivity
    have hη : (0 : ℝ) < eta ℝ := by rw [eta]; positivity
    have hη1 : eta ℝ ≤ 1 / 2 ^ 160 := by rw [eta]; norm_num
    have hu1 : u53 ℝ ≤ 1 / 2 ^ 53 := by rw [u53]
    set b := 4 * u53 ℝ * M + 6 * eta ℝ with hb
    have hb0 : 0 ≤ b := by positivity
    have h1 : M ≤ 12 * min 1 M := by
      rcases min_cases (1 : ℝ) M with c | c <;> rw [c.1] <;> linarith
    have hbm : b ≤ 48 / 2 ^ 53 * min 1 M + 6 / 2 ^ 160 := by
      have h2 : 4 * u53 ℝ * M ≤ 4 * (1 / 2 ^ 53) * (12 * min 1 M) :=
        mul_le_mul (by linarith) h1 hM0 (by norm_num)
      rw [hb]; linarith
    have hb1 : b ≤ 1 / 1000 := by
      have : min 1 M ≤ 1 := min_le_left _ _
      have : (48 : ℝ) / 2 ^ 53 * min 1 M ≤ 48 / 2 ^ 53 * 1 := mul_le_mul_of_nonneg_left this (by norm_num)
      have : (48 : ℝ) / 2 ^ 53 * 1 + 6 / 2 ^ 160 ≤ 1 / 1000 := by norm_num
      linarith
    obtain ⟨hs1, hs2⟩ := near_err (a := 0) (b := b) (S := S) le_rfl hb0 hE (by linarith) (by linarith)
    have hl : clog1p (.fin S) = .fin (Real.log (1 + S)) := by
      simp [clog1p, not_lt.2 hs1.le, hs1.ne']
    refine ⟨rf (rd (1 / 2 * Real.log (1 + S))), _, by rw [hl, mul_fin, rnd, rnd], ?_, harg⟩
    set v := 1 / 2 * Real.log (1 + S)
    have hr := err53 h v
    have hr2 := err24 hf (rd v)
    have hs3 : |v - w| ≤ b := by rw [← hw] at hs2; linarith
    have hv : |v| ≤ |w| + b := by
      calc |v| = |w + (v - w)| := by ring_nf
        _ ≤ _ := (abs_add_le _ _).trans (by linarith)
    have hr' : |rd v - v| ≤ 1 / 2 ^ 53 * (|w| + b) + 1 / 2 ^ 160 := by
      have := mul_le_mul hu1 hv (abs_nonneg _) (by norm_num)
      linarith
    have hrv : |rd v| ≤ |v| + |rd v - v| := by
      calc |rd v| = |v + (rd v - v)| := by ring_nf
        _ ≤ _ := abs_add_le _ _
    have ht : |rf (rd v) - w| ≤ |rf (rd v) - rd v| + |rd v - v| + |v - w| := by
      calc |rf (rd v) - w| = |(rf (rd v) - rd v) + (rd v - v) + (v - w)| := by ring_nf
        _ ≤ _ := abs_add_three _ _ _
    have hk : |rf (rd v) - w| ≤ 2 / 2 ^ 24 * |w| + 1.001 * b + 1.001 / 2 ^ 150 := by
      norm_num at hr' hr2 ⊢
      linarith
    refine hk.trans ?_
    norm_num at hbm ⊢
    linarith
  · obtain ⟨hp, he⟩ := far_err (by norm_num) (by norm_num) hX (far_E hc hn) h0'
    have hl : clogReal (.fin (√(rf (x + 1) * rf (x + 1) + y * y))) =
        .fin (Real.log (√(rf (x + 1) * rf (x + 1) + y * y))) := by
      simp [clogReal, not_lt.2 hp.le, hp.ne']
    set v := Real.log (√(rf (x + 1) * rf (x + 1) + y * y))
    rw [← hw] at he
    rw [hl]
    by_cases hn1 : Near rf x y
    · have hn2 : ¬Near2 rf x y := fun c => hn ⟨hn1, c⟩
      rw [if_pos hn1, if_neg hn2]
      refine ⟨v, _, rfl, ?_, harg⟩
      have : (0 : ℝ) ≤ 1 / 2 ^ 149 := by norm_num
      have : 8 * (1 / 2 ^ 24) * |w| ≤ 10 / 2 ^ 24 * |w| := mul_le_mul_of_nonneg_right (by norm_num) hw0
      linarith
    · rw [if_neg hn1]
      refine ⟨rf v, _, rfl, ?_, harg⟩
      have hr := err24 hf v
      have hv : |v| ≤ |w| + |v - w| := by
        calc |v| = |w + (v - w)| := by ring_nf
          _ ≤ _ := abs_add_le _ _
      have ht : |rf v - w| ≤ |rf v - v| + |v - w| := by
        calc |rf v - w| = |(rf v - v) + (v - w)| := by ring_nf
          _ ≤ _ := abs_add_le _ _
      norm_num at he hr hpos ⊢
      linarith

/-! ## The error-free transformations -/

/-- C71: `two_sum` is error-free for all floats of any format with at least 3 significand bits. -/
theorem C71_two_sum {p : ℕ} {emin : ℤ} {rd : ℝ → ℝ} (h : Nearest p emin rd) (hp : 3 ≤ p) {x y : ℝ}
    (hx : IsFloat p emin x) (hy : IsFloat p emin y) :
    (twoSum rd x y).upper = rd (x + y) ∧ (twoSum rd x y).upper + (twoSum rd x y).lower = x + y :=
  ⟨rfl, twoSum_exact h hp hx hy⟩

/-- C71: `two_sum_quick` is error-free when the first operand is not the smaller. -/
theorem C71_two_sum_quick {p : ℕ} {emin : ℤ} {rd : ℝ → ℝ} (h : Nearest p emin rd) (hp : 1 ≤ p) {x y : ℝ}
    (hx : IsFloat p emin x) (hy : IsFloat p emin y) (hxy : |y| ≤ |x|) :
    (twoSumQuick rd x y).upper = rd (x + y) ∧ (twoSumQuick rd x y).upper + (twoSumQuick rd x y).lower = x + y :=
  ⟨rfl, twoSumQuick_exact h hp hx hy hxy⟩

/-- C71: `square` of a double of magnitude at least `2^-485` is error-free when compiled without a
fast fused multiply-add; with one, the error is at most `2^-103` of the square. -/
theorem C71_square {rd : ℝ → ℝ} (h : Nearest 53 (-1074) rd) (fma : Bool) {x : ℝ} (hx : IsFloat 53 (-1074) x)
    (hb : 1 / 2 ^ 485 ≤ |x|) :
    (square fma rd x).upper = rd (x * x) ∧
    (fma = false → (square fma rd x).upper + (square fma rd x).lower = x * x) ∧
    |(square fma rd x).upper + (square fma rd x).lower - x * x| ≤ 1 / 2 ^ 103 * (x * x) := by
  obtain ⟨h1, h2⟩ := square_big h fma hx hb
  refine ⟨rfl, h1, h2.trans (le_of_eq ?_)⟩
  rw [u53]; norm_num

/-! ## Exact arithmetic -/

/-- C71: evaluated exactly, `log1p_doubledouble` is the principal logarithm of `1 + z`. -/
theorem C71_doubledouble_exact (fma : Bool) (x y : ℝ) (h0 : ¬(x = -1 ∧ y = 0)) :
    doubledouble fma id (.fin x, .fin y) =
      (.fin (Complex.log (1 + ⟨x, y⟩)).re, .fin (Complex.log (1 + ⟨x, y⟩)).im) := by
  classical
  have h0' : ¬(x + 1 = 0 ∧ y = 0) := fun c => h0 ⟨by linarith [c.1], c.2⟩
  have hp := sq_add_sq_pos h0'
  have hs : xsqPlus2xPlusYsq fma id x y = x * x + 2 * x + y * y := by
    cases fma <;> simp [xsqPlus2xPlusYsq, square, split, doubleSum, twoSum, twoSumQuick] <;> ring
  rw [doubledouble_fin, clog_one_add, hs]
  have hl : clog1p (.fin (x * x + 2 * x + y * y)) = .fin (Real.log ((x + 1) * (x + 1) + y * y)) := by
    have h1 : -1 < x * x + 2 * x + y * y := by linarith [one_add_E x y]
    simp [clog1p, not_lt.2 h1.le, h1.ne', one_add_E]
  have hq : 0 < √((x + 1) * (x + 1) + y * y) := Real.sqrt_pos.2 hp
  have hl2 : clogReal (.fin (√((x + 1) * (x + 1) + y * y))) = .fin (Real.log (√((x + 1) * (x + 1) + y * y))) := by
    simp [clogReal, not_lt.2 hq.le, hq.ne']
  simp only [id]
  rw [hl, hl2, mul_fin, rnd, log_hypot]
  split_ifs <;> simp <;> ring

/-- C71: so is `log1pf_doubledouble`. -/
theorem C71_doubledouble_single_exact (x y : ℝ) (h0 : ¬(x = -1 ∧ y = 0)) :
    doubledoubleF id id (.fin x, .fin y) =
      (.fin (Complex.log (1 + ⟨x, y⟩)).re, .fin (Complex.log (1 + ⟨x, y⟩)).im) := by
  classical
  have h0' : ¬(x + 1 = 0 ∧ y = 0) := fun c => h0 ⟨by linarith [c.1], c.2⟩
  have hp := sq_add_sq_pos h0'
  rw [doubledoubleF_fin, clog_one_add]
  have hl : clog1p (.fin (x * x + 2 * x + y * y)) = .fin (Real.log ((x + 1) * (x + 1) + y * y)) := by
    have h1 : -1 < x * x + 2 * x + y * y := by linarith [one_add_E x y]
    simp [clog1p, not_lt.2 h1.le, h1.ne', one_add_E]
  have hq : 0 < √((x + 1) * (x + 1) + y * y) := Real.sqrt_pos.2 hp
  have hl2 : clogReal (.fin (√((x + 1) * (x + 1) + y * y))) = .fin (Real.log (√((x + 1) * (x + 1) + y * y))) := by
    simp [clogReal, not_lt.2 hq.le, hq.ne']
  simp only [id]
  rw [hl, hl2, mul_fin, rnd, rnd, rnd, log_hypot]
  split_ifs <;> simp <;> ring

/-- C71: `log1p_theorem4` is exact whenever `1 + x` is: for every rounding that keeps `x` and
`1 + x` (in particular for all doubles in `[-2, -1/2]` and for exact arithmetic). -/
theorem C71_theorem4_exact (rd : ℝ → ℝ) (x y : ℝ) (hx : rd x = x) (hx1 : rd (x + 1) = x + 1)
    (h0 : ¬(x = -1 ∧ y = 0)) :
    theorem4 rd (.fin x, .fin y) =
      (.fin (Complex.log (1 + ⟨x, y⟩)).re, .fin (Complex.log (1 + ⟨x, y⟩)).im) := by
  have h0' : ¬(x + 1 = 0 ∧ y = 0) := fun c => h0 ⟨by linarith [c.1], c.2⟩
  have hp := sq_add_sq_pos h0'
  have hq : 0 < √((x + 1) * (x + 1) + y * y) := Real.sqrt_pos.2 hp
  have hl2 : clogReal (.fin (√((x + 1) * (x + 1) + y * y))) = .fin (Real.log (√((x + 1) * (x + 1) + y * y))) := by
    simp [clogReal, not_lt.2 hq.le, hq.ne']
  rw [clog_one_add]
  simp only [theorem4, fadd, fsub, add_fin, sub_fin, rnd, hx1, eq_fin, add_sub_cancel_right, hx, decide_true,
    if_true, cclog, chypot, catan2, hl2]
  split_ifs with h
  · have h1 : x = 0 ∧ y = 0 := by simpa using h
    obtain ⟨rfl, rfl⟩ := h1
    have : Complex.arg ⟨1, 0⟩ = 0 := Complex.arg_one
    simp [this]
  · rfl

/-- Every double in `[-2, -1/2]` qualifies. -/
example {rd : ℝ → ℝ} (h : Nearest 53 (-1074) rd) {x : ℝ} (hx : IsFloat 53 (-1074) x) (h1 : -2 ≤ x) (h2 : x ≤ -1 / 2) :
    rd x = x ∧ rd (x + 1) = x + 1 := by
  have h1f : IsFloat 53 (-1074) (1 : ℝ) := by
    simpa using isFloat_zpow (K := ℝ) (p := 53) (emin := -1074) (by norm_num) (e := 0) (by norm_num)
  refine ⟨h.exact hx, h.exact (add_exact_of_small (by norm_num) hx h1f ?_ ?_)⟩ <;>
  · try rw [abs_one]
    try rw [abs_of_neg (show x < 0 by linarith)]
    rw [abs_le]; constructor <;> linarith

/-! ## Special values -/

/-- C71: at `z = -1` the result is `-inf + 0j`. -/
theorem C71_minus_one {rd : ℝ → ℝ} (h : Nearest 53 (-1074) rd) (fma : Bool) :
    doubledouble fma rd (.fin (-1), .fin 0) = (.ninf, .fin 0) ∧
    theorem4 rd (.fin (-1), .fin 0) = (.ninf, .fin 0) := by
  classical
  have r0 : rd 0 = 0 := h.exact isFloat_zero
  have r1 : rd (-1) = -1 := h.exact (by
    simpa using (isFloat_zpow (K := ℝ) (p := 53) (emin := -1074) (by norm_num) (e := 0) (by norm_num)).neg)
  have ha : Complex.arg ⟨0, 0⟩ = 0 := Complex.arg_zero
  constructor
  · have hn : ¬(Near rd (-1) 0 ∧ Near2 rd (-1) 0) := by
      rintro ⟨n1, n2⟩
      have := near_E (crude53 h) n1 n2
      norm_num at this
    rw [doubledouble_fin, if_neg hn]
    simp [r0, clogReal, ha]
  · simp [theorem4, fadd, fsub, rnd, r0, r1, cclog, chypot, clogReal, catan2, ha]

/-- C71: an infinite part gives `+inf` and the limiting angle, in every rounding that keeps 0. -/
theorem C71_doubledouble_infinite (fma : Bool) (rd : ℝ → ℝ) (a : ℝ) :
    doubledouble fma rd (.pinf, .fin a) = (.pinf, .fin 0) ∧
    doubledouble fma rd (.ninf, .fin a) = (.pinf, .fin (if a < 0 then -Real.pi else Real.pi)) ∧
    doubledouble fma rd (.fin a, .pinf) = (.pinf, .fin (Real.pi / 2)) ∧
    doubledouble fma rd (.fin a, .ninf) = (.pinf, .fin (-(Real.pi / 2))) ∧
    doubledouble fma rd (.pinf, .pinf) = (.pinf, .fin (Real.pi / 4)) ∧
    doubledouble fma rd (.pinf, .ninf) = (.pinf, .fin (-(Real.pi / 4))) ∧
    doubledouble fma rd (.ninf, .pinf) = (.pinf, .fin (3 * Real.pi / 4)) ∧
    doubledouble fma rd (.ninf, .ninf) = (.pinf, .fin (-(3 * Real.pi / 4))) := by
  refine ⟨?_, ?_, ?_, ?_, ?_, ?_, ?_, ?_⟩ <;>
    simp [doubledouble, fadd, add, gt, lt, rnd, chypot, isinf, clogReal, catan2]

theorem C71_doubledouble_single_infinite (rf rd : ℝ → ℝ) (a : ℝ) :
    doubledoubleF rf rd (.pinf, .fin a) = (.pinf, .fin 0) ∧
    doubledoubleF rf rd (.ninf, .fin a) = (.pinf, .fin (if a < 0 then -Real.pi else Real.pi)) ∧
    doubledoubleF rf rd (.fin a, .pinf) = (.pinf, .fin (Real.pi / 2)) ∧
    doubledoubleF rf rd (.fin a, .ninf) = (.pinf, .fin (-(Real.pi / 2))) ∧
    doubledoubleF rf rd (.pinf, .pinf) = (.pinf, .fin (Real.pi / 4)) ∧
    doubledoubleF rf rd (.pinf, .ninf) = (.pinf, .fin (-(Real.pi / 4))) ∧
    doubledoubleF rf rd (.ninf, .pinf) = (.pinf, .fin (3 * Real.pi / 4)) ∧
    doubledoubleF rf rd (.ninf, .ninf) = (.pinf, .fin (-(3 * Real.pi / 4))) := by
  refine ⟨?_, ?_, ?_, ?_, ?_, ?_, ?_, ?_⟩ <;>
    simp [doubledoubleF, fadd, add, gt, lt, rnd, chypot, isinf, clogReal, catan2]

/-- C71: for an infinite real part `log1p_theorem4` gives the same. -/
theorem C71_theorem4_infinite_real (rd : ℝ → ℝ) (a : ℝ) :
    theorem4 rd (.pinf, .fin a) = (.pinf, .fin 0) ∧
    theorem4 rd (.ninf, .fin a) = (.pinf, .fin (if a < 0 then -Real.pi else Real.pi)) := by
  refine ⟨?_, ?_⟩ <;>
    simp [theorem4, fadd, fsub, add, sub, neg, rnd, chypot, isinf, clogReal, catan2, cclog, XF.eq]

/-- C71 is violated by `log1p_theorem4` at `x + inf j` when `1 + x` rounds to 1 and `x` is not 0:
the quotient `z / (u - 1)` divides infinity by infinity, and the result is `nan + nan j` instead of
`inf + (pi/2) j`. -/
theorem C71_theorem4_infinite_imag_violated (rd : ℝ → ℝ) (x : ℝ) (hx : x ≠ 0) (h1 : rd (x + 1) = 1) (h0 : rd 0 = 0) :
    theorem4 rd (.fin x, .pinf) = (.nan, .nan) := by
  have e : XF.eq (.pinf : XF ℝ) (.fin 0) = false := rfl
  have e2 : XF.eq (.fin (0 : ℝ)) (.fin x) = false := by simp [Ne.symm hx]
  have hc : cclog ((.fin 1, .pinf) : XF ℝ × XF ℝ) = (.pinf, .fin (Real.pi / 2)) := by
    simp [cclog, chypot, isinf, clogReal, catan2]
  have hd : cdiv rd ((.fin x, .pinf) : XF ℝ × XF ℝ) (.fin 0, .pinf) = (.nan, .nan) := by
    simp [cdiv, fdiv, fadd, fsub, fmul, add, sub, mul, div, neg, rnd, infMul, h0]
  simp only [theorem4, fadd, fsub, add_fin, sub_fin, rnd, h1, sub_self, h0, e, e2, Bool.and_false, Bool.false_eq_true,
    if_false, hc, hd]
  simp [cmul, fsub, fadd, fmul, sub, add, neg, mul, rnd]

/-- In double precision `x = 2^-60` is such a number. -/
example {rd : ℝ → ℝ} (h : Nearest 53 (-1074) rd) : rd (1 / 2 ^ 60 + 1) = 1 ∧ rd 0 = 0 := by
  refine ⟨?_, h.exact isFloat_zero⟩
  have h1f : IsFloat 53 (-1074) (1 : ℝ) := by
    simpa using isFloat_zpow (K := ℝ) (p := 53) (emin := -1074) (by norm_num) (e := 0) (by norm_num)
  by_contra hne
  have hb := (h (1 / 2 ^ 60 + 1)).2 1 h1f
  rw [show |(1 : ℝ) - (1 / 2 ^ 60 + 1)| = 1 / 2 ^ 60 by rw [abs_sub_comm]; norm_num] at hb
  have hf := (h (1 / 2 ^ 60 + 1)).1
  set r := rd (1 / 2 ^ 60 + 1)
  have a := abs_le.1 hb
  -- a float in (0.5, 2) lies on the grid 2^-53
  have hr : (1 : ℝ) ≤ r := by norm_num at a ⊢; linarith
  have hr0 : |r| = r := abs_of_pos (by linarith)
  have g : OnGrid (-52) r := by
    have := hf.big_grid (k := -53) (by rw [hr0]; norm_num; linarith)
    simpa using this
  obtain ⟨n, hn⟩ := g
  have h2 : (2 : ℝ) ^ (-52 : ℤ) = 1 / 2 ^ 52 := by norm_num
  rw [h2] at hn
  rw [hn] at a hr hne
  have i1 : (2 ^ 52 : ℝ) ≤ n := by norm_num at hr ⊢; linarith
  have i2 : (n : ℝ) < 2 ^ 52 + 1 := by norm_num at a ⊢; linarith
  have j1 : (2 ^ 52 : ℤ) ≤ n := by exact_mod_cast i1
  have j2 : n < 2 ^ 52 + 1 := by exact_mod_cast i2
  have : n = 2 ^ 52 := by omega
  apply hne; rw [this]; norm_num

/-! ## The loops -/

/-- C71: a NaN part gives `nan + nan j` and any other element goes to the function. -/
theorem C71_nan (f : XF ℝ × XF ℝ → XF ℝ × XF ℝ) (x y : XF ℝ) :
    (x = .nan ∨ y = .nan → nanGuard f (x, y) = (.nan, .nan)) ∧
    (x ≠ .nan → y ≠ .nan → nanGuard f (x, y) = f (x, y)) := by
  cases x <;> cases y <;> simp [nanGuard, isnan]

/-- C71: the loops are elementwise: for every length, strides and memory in which no output element
lies on a later input element, output `j` is the function of input `j`, and nothing else is
written. -/
theorem C71_loop {α : Type _} (f : α → α) (n : Nat) (pin is pout os : Int) (m : Mem α) (hos : os ≠ 0)
    (h : ∀ i j, i < j → j < n → pout + (i : Int) * os ≠ pin + (j : Int) * is) :
    elems (loop f is os n pin pout m) pout os n = (elems m pin is n).map f ∧
    ∀ b, (∀ i < n, b ≠ pout + (i : Int) * os) → loop f is os n pin pout m b = m b := by
  refine ⟨?_, fun b hb => loop_frame _ _ _ _ _ _ _ _ hb⟩
  apply List.ext_getElem
  · simp
  · intro j h1 h2
    rw [elems_getElem, List.getElem_map, elems_getElem]
    exact loop_get f is os hos n pin pout m h j (by simpa using h1)

/-- In place. -/
example (f : ℤ → ℤ) (n : Nat) (p : Int) (m : Mem ℤ) :
    elems (loop f 16 16 n p p m) p 16 n = (elems m p 16 n).map f :=
  (C71_loop f n p 16 p 16 m (by omega) (by intro i j h _ he; omega)).1

end Ufunclab.Log1p
