import Verif.Proof.Elementary
import Mathlib.Analysis.SpecialFunctions.Pow.Continuity
import Mathlib.Analysis.Complex.Basic
/-! # Property C67: abs_squared, abssq, hypot3, nan_to_num, pow1pm1 -/
namespace Ufunclab.Elementary
open XF

/-! ## abs_squared and abssq -/

/-- C67: for every complex number, `abs_squared` is the square of the modulus. -/
theorem C67_abs_squared (z : ℂ) : absSquaredC (.fin z.re, .fin z.im) = .fin (‖z‖ ^ 2) := by
  simp only [absSquaredC, mul_fin, add_fin, Complex.sq_norm, Complex.normSq_apply]

/-- C67: a real argument gives the same value as the complex number with imaginary part zero. -/
theorem C67_abs_squared_real (x : ℝ) :
    absSquared (.fin x) = .fin (|x| ^ 2) ∧ absSquaredC (.fin x, .fin 0) = absSquared (.fin x) := by
  simp [absSquared, absSquaredC, sq]

/-- C67: no input gives a negative number: the result is NaN exactly when some part is NaN,
`+inf` when some part is infinite and none is NaN, and a non-negative number otherwise. -/
theorem C67_abs_squared_special (a b : XF ℝ) :
    (absSquaredC (a, b) = .nan ↔ a = .nan ∨ b = .nan) ∧
    (absSquaredC (a, b) = .pinf ↔ a ≠ .nan ∧ b ≠ .nan ∧ (isinf a ∨ isinf b)) ∧
    absSquaredC (a, b) ≠ .ninf ∧ (∀ r, absSquaredC (a, b) = .fin r → 0 ≤ r) := by
  cases a <;> cases b <;> simp [absSquaredC, XF.mul, XF.add, isinf]
  exact add_nonneg (mul_self_nonneg _) (mul_self_nonneg _)

/-- C67 fails for infinite numbers with a NaN part: the modulus is infinite (C99 and NumPy),
`abs_squared` gives NaN. -/
theorem C67_abs_squared_inf_nan_violated :
    absSquaredC ((.pinf, .nan) : XF ℝ × XF ℝ) = .nan := rfl

/-- C67: the `abssq` real loop.  For every length, stride and memory in which no output
element lies on a later input element (so disjoint and in-place calls), every output element is
the square of the input element and nothing else is written; both paths of the code. -/
theorem C67_abssq_real {α : Type _} [Add α] [Mul α] (sz : Int) (n : Nat) (pin is pout os : Int)
    (m : Mem α) (hos : os ≠ 0)
    (h : ∀ i j, i < j → j < n → pout + (i : Int) * os ≠ pin + (j : Int) * is) :
    elems (abssqReal sz n pin is pout os m) pout os n = (elems m pin is n).map (fun x => x * x) ∧
    ∀ b, (∀ i < n, b ≠ pout + (i : Int) * os) → abssqReal sz n pin is pout os m b = m b := by
  rw [abssqReal_eq]
  refine ⟨?_, fun b hb => realStrided_frame _ _ _ _ _ _ _ hb⟩
  apply List.ext_getElem
  · simp
  · intro j h1 h2
    rw [elems_getElem, List.getElem_map, elems_getElem]
    exact realStrided_get is os hos n pin pout m h j (by simpa using h1)

/-- C67: the `abssq` complex loop, likewise. -/
theorem C67_abssq_complex {α : Type _} [Add α] [Mul α] (sz : Int) (n : Nat) (pin is pout os : Int)
    (m : Mem α) (hos : os ≠ 0)
    (h : ∀ i j, i < j → j < n → pout + (i : Int) * os ≠ pin + (j : Int) * is ∧
      pout + (i : Int) * os ≠ pin + sz + (j : Int) * is) :
    elems (abssqComplex sz n pin is pout os m) pout os n =
      List.zipWith (fun re im => re * re + im * im) (elems m pin is n) (elems m (pin + sz) is n) ∧
    ∀ b, (∀ i < n, b ≠ pout + (i : Int) * os) → abssqComplex sz n pin is pout os m b = m b := by
  rw [abssqComplex_eq]
  refine ⟨?_, fun b hb => complexStrided_frame _ _ _ _ _ _ _ _ hb⟩
  apply List.ext_getElem
  · simp
  · intro j h1 h2
    rw [elems_getElem, List.getElem_zipWith, elems_getElem, elems_getElem]
    exact complexStrided_get sz is os hos n pin pout m h j (by simpa using h1)

/-- In place, strides of 8 bytes: the hypotheses of the real theorem hold. -/
example (n : Nat) (p : Int) (m : Mem ℤ) :
    elems (abssqReal 8 n p 8 p 8 m) p 8 n = (elems m p 8 n).map (fun x => x * x) :=
  (C67_abssq_real 8 n p 8 p 8 m (by omega) (by intro i j h _ he; omega)).1

/-- A complex array and a disjoint output after it. -/
example (n : Nat) (p : Int) (m : Mem ℤ) :
    elems (abssqComplex 8 n p 16 (p + n * 16) 8 m) (p + n * 16) 8 n =
      List.zipWith (fun re im => re * re + im * im) (elems m p 16 n) (elems m (p + 8) 16 n) :=
  (C67_abssq_complex 8 n p 16 _ 8 m (by omega) (by
    intro i j h h2; constructor <;> intro he <;> omega)).1

/-! ## hypot3 -/

/-- C67: `hypot3` of finite numbers is the Euclidean norm. -/
theorem C67_hypot3 (x y z : ℝ) : ∃ r, hypot3 (.fin x) (.fin y) (.fin z) = .fin r ∧
    0 ≤ r ∧ r ^ 2 = x ^ 2 + y ^ 2 + z ^ 2 := by
  refine ⟨√(x * x + y * y + z * z), by simp [hypot3, isinf, stdHypot], Real.sqrt_nonneg _, ?_⟩
  rw [Real.sq_sqrt (add_nonneg (add_nonneg (mul_self_nonneg _) (mul_self_nonneg _)) (mul_self_nonneg _))]; ring

/-- C67: `hypot3` is `+inf` exactly when some argument is infinite (even beside NaN), NaN exactly
when none is infinite and one is NaN. -/
theorem C67_hypot3_special (x y z : XF ℝ) :
    (hypot3 x y z = .pinf ↔ isinf x ∨ isinf y ∨ isinf z) ∧
    (hypot3 x y z = .nan ↔ ¬(isinf x ∨ isinf y ∨ isinf z) ∧ (x = .nan ∨ y = .nan ∨ z = .nan)) := by
  cases x <;> cases y <;> cases z <;> simp [hypot3, isinf, stdHypot]

/-- C67: `hypot3` does not depend on the order or the signs of its arguments. -/
theorem C67_hypot3_symm (x y z : XF ℝ) :
    hypot3 x y z = hypot3 y x z ∧ hypot3 x y z = hypot3 x z y ∧
    hypot3 (neg x) y z = hypot3 x y z := by
  cases x <;> cases y <;> cases z <;> simp [hypot3, isinf, stdHypot, neg] <;>
    constructor <;> ring_nf

/-- C67: homogeneity and the triangle inequality are those of a norm. -/
theorem C67_hypot3_norm (c x y z u v w : ℝ) :
    hypot3 (.fin (c * x)) (.fin (c * y)) (.fin (c * z)) = mul (.fin |c|) (hypot3 (.fin x) (.fin y) (.fin z)) ∧
    le (hypot3 (.fin (x + u)) (.fin (y + v)) (.fin (z + w)))
      (add (hypot3 (.fin x) (.fin y) (.fin z)) (hypot3 (.fin u) (.fin v) (.fin w))) = true := by
  simp only [hypot3, isinf, stdHypot, Bool.or_self, Bool.false_eq_true, if_false, mul_fin, add_fin,
    le_fin, decide_eq_true_eq, XF.fin.injEq]
  constructor
  · rw [show c * x * (c * x) + c * y * (c * y) + c * z * (c * z) = c ^ 2 * (x * x + y * y + z * z) by ring,
      Real.sqrt_mul (by positivity), Real.sqrt_sq_eq_abs]
  · have hA : 0 ≤ x * x + y * y + z * z :=
      add_nonneg (add_nonneg (mul_self_nonneg _) (mul_self_nonneg _)) (mul_self_nonneg _)
    have hB : 0 ≤ u * u + v * v + w * w :=
      add_nonneg (add_nonneg (mul_self_nonneg _) (mul_self_nonneg _)) (mul_self_nonneg _)
    apply Real.sqrt_le_iff.mpr
    refine ⟨by positivity, ?_⟩
    have h1 := Real.sq_sqrt hA
    have h2 := Real.sq_sqrt hB
    have h3 : x * u + y * v + z * w ≤ √(x * x + y * y + z * z) * √(u * u + v * v + w * w) := by
      rw [← Real.sqrt_mul hA]
      apply Real.le_sqrt_of_sq_le
      nlinarith [sq_nonneg (x * v - y * u), sq_nonneg (x * w - z * u), sq_nonneg (y * w - z * v)]
    nlinarith

example : hypot3 (.fin 2) (.fin 3) (.fin 6) = .fin 7 := by
  simp only [hypot3, isinf, stdHypot, Bool.or_self, Bool.false_eq_true, if_false, XF.fin.injEq]
  rw [show (2 : ℝ) * 2 + 3 * 3 + 6 * 6 = 7 ^ 2 by norm_num]
  exact Real.sqrt_sq (by norm_num)

/-! ## nan_to_num -/

/-- C67: `nan_to_num` replaces exactly NaN. -/
theorem C67_nan_to_num {K : Type _} (x r : XF K) :
    (x = .nan → nanToNum x r = r) ∧ (x ≠ .nan → nanToNum x r = x) := by
  cases x <;> simp [nanToNum, isnan]

/-- C67: with a replacement that is not NaN no NaN is left, and a second call changes nothing. -/
theorem C67_nan_to_num_idem {K : Type _} (x r s : XF K) (hr : r ≠ .nan) :
    nanToNum x r ≠ .nan ∧ nanToNum (nanToNum x r) s = nanToNum x r := by
  cases x <;> cases r <;> simp_all [nanToNum, isnan]

example : nanToNum (.nan : XF ℚ) (.fin 3) = .fin 3 ∧ nanToNum (.ninf : XF ℚ) (.fin 3) = .ninf := by
  simp [nanToNum, isnan]

/-! ## pow1pm1 -/

/-- C67: for `x > -1` and every real `y`, `pow1pm1(x, y) = (1 + x)^y - 1`. -/
theorem C67_pow1pm1 (x y : ℝ) (hx : -1 < x) :
    pow1pm1 (.fin x) (.fin y) = .fin ((1 + x) ^ y - 1) := by
  have h0 : ¬ x = -1 := by linarith
  have h1 : ¬ x < -1 := by linarith
  simp only [pow1pm1, eq_fin, decide_eq_true_eq, h0, decide_false, Bool.false_and, Bool.false_eq_true,
    if_false, xlog1p, h1, mul_fin, xexpm1, XF.fin.injEq]
  rw [Real.rpow_def_of_pos (by linarith), mul_comm]

/-- C67: at `x = -1` the value is that of `0^y - 1`: `0` for `y = 0`, `-1` for `y > 0`, `+inf` for `y < 0`;
below `-1` it is NaN. -/
theorem C67_pow1pm1_boundary (x y : ℝ) :
    (pow1pm1 (.fin (-1)) (.fin 0) = .fin 0) ∧
    (0 < y → pow1pm1 (.fin (-1)) (.fin y) = .fin (-1)) ∧
    (y < 0 → pow1pm1 (.fin (-1)) (.fin y) = .pinf) ∧
    (x < -1 → pow1pm1 (.fin x) (.fin y) = .nan) := by
  refine ⟨by simp [pow1pm1], ?_, ?_, ?_⟩
  · intro h
    have h0 : ¬ y = 0 := by linarith
    simp [pow1pm1, h0, xlog1p, XF.mul, infMul, h, xexpm1]
  · intro h
    have h0 : ¬ y = 0 := by linarith
    have h1 : ¬ 0 < y := by linarith
    simp [pow1pm1, h0, xlog1p, XF.mul, infMul, h1, xexpm1]
  · intro h
    have h0 : ¬ x = -1 := by linarith
    simp [pow1pm1, h0, xlog1p, h, XF.mul, xexpm1]

/-- C67: an infinite exponent gives the limit of `(1+x)^y - 1`. -/
theorem C67_pow1pm1_inf_exponent (x : ℝ) :
    (0 < x → pow1pm1 (.fin x) .pinf = .pinf ∧ pow1pm1 (.fin x) .ninf = .fin (-1)) ∧
    (-1 < x → x < 0 → pow1pm1 (.fin x) .pinf = .fin (-1) ∧ pow1pm1 (.fin x) .ninf = .pinf) := by
  constructor
  · intro h
    have h1 : ¬ x < -1 := by linarith
    have h2 : ¬ x = -1 := by linarith
    have h3 : 0 < Real.log (1 + x) := Real.log_pos (by linarith)
    constructor <;> simp [pow1pm1, XF.eq, xlog1p, h1, h2, XF.mul, infMul, h3, h3.ne', xexpm1]
  · intro h h'
    have h1 : ¬ x < -1 := by linarith
    have h2 : ¬ x = -1 := by linarith
    have h3 : Real.log (1 + x) < 0 := Real.log_neg (by linarith) (by linarith)
    have h4 : ¬ 0 < Real.log (1 + x) := by linarith
    constructor <;> simp [pow1pm1, XF.eq, xlog1p, h1, h2, XF.mul, infMul, h4, h3.ne, xexpm1]

/-- C67: `pow1pm1(·, 1/y)` undoes `pow1pm1(·, y)`. -/
theorem C67_pow1pm1_inverse (x y : ℝ) (hx : -1 < x) (hy : y ≠ 0) :
    pow1pm1 (pow1pm1 (.fin x) (.fin y)) (.fin (1 / y)) = .fin x := by
  have hp : 0 < (1 + x) ^ y := Real.rpow_pos_of_pos (by linarith) y
  rw [C67_pow1pm1 x y hx, C67_pow1pm1 _ _ (by linarith), XF.fin.injEq,
    show 1 + ((1 + x) ^ y - 1) = (1 + x) ^ y by ring, ← Real.rpow_mul (by linarith), mul_one_div,
    div_self hy, Real.rpow_one]
  ring

/-- C67: strictly increasing in `x` for a positive exponent. -/
theorem C67_pow1pm1_monotone (x x' y : ℝ) (hx : -1 < x) (h : x < x') (hy : 0 < y) :
    lt (pow1pm1 (.fin x) (.fin y)) (pow1pm1 (.fin x') (.fin y)) = true := by
  rw [C67_pow1pm1 x y hx, C67_pow1pm1 x' y (by linarith), lt_fin, decide_eq_true_eq]
  have := Real.rpow_lt_rpow (by linarith : (0 : ℝ) ≤ 1 + x) (by linarith : 1 + x < 1 + x') hy
  linarith

/-- C67 fails at infinity: `(1 + inf)^0 - 1` is `0` (IEEE `pow`), the code gives NaN; likewise
`(1 + 0)^inf - 1`. -/
theorem C67_pow1pm1_inf_violated :
    pow1pm1 .pinf (.fin 0) = .nan ∧ pow1pm1 (.fin 0) .pinf = .nan := by
  constructor <;> simp [pow1pm1, XF.eq, xlog1p, XF.mul, infMul, xexpm1]
  norm_num

example : pow1pm1 (.fin 2) (.fin 2) = .fin 8 := by
  rw [C67_pow1pm1 2 2 (by norm_num)]
  norm_num

end Ufunclab.Elementary
