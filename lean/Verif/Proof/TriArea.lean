import Verif.Model.TriArea
import Mathlib.Algebra.Order.BigOperators.Ring.Finset
import Mathlib.Tactic.Ring
import Mathlib.Tactic.Linarith
namespace Ufunclab.TriArea
open Finset

theorem sumSqDiff_sum (p : Int → Nat → ℝ) (i1 i2 : Int) (fuel k : Nat) (s : ℝ) :
    sumSqDiff p i1 i2 fuel k s = s + ∑ j ∈ range fuel, (p i2 (k + j) - p i1 (k + j)) ^ 2 := by
  induction fuel generalizing k s with
  | zero => simp [sumSqDiff]
  | succ f ih =>
    simp only [sumSqDiff, ih, sum_range_succ', Nat.add_zero]
    rw [add_assoc, ← sq, add_comm ((p i2 k - p i1 k) ^ 2)]
    congr 2
    apply sum_congr rfl
    intro j _
    rw [show k + 1 + j = k + (j + 1) by omega]

theorem normDiff_eq (n : Nat) (p : Int → Nat → ℝ) (i1 i2 : Int) :
    normDiff n p i1 i2 = Real.sqrt (∑ j ∈ range n, (p i2 j - p i1 j) ^ 2) := by
  simp [normDiff, sumSqDiff_sum]

theorem kahan_poly (a b c : ℝ) :
    (a + (b + c)) * (c - (a - b)) * (c + (a - b)) * (a + (b - c)) =
      4 * (a ^ 2 * b ^ 2) - (a ^ 2 + b ^ 2 - c ^ 2) ^ 2 := by ring

theorem kahan_sort (a b c : ℝ) :
    kahan (sort3 a b c).1 (sort3 a b c).2.1 (sort3 a b c).2.2 = kahan a b c := by
  unfold sort3 kahan
  split_ifs <;> simp only <;> split_ifs <;> simp only <;> congr 2 <;> ring

/-- Gram determinant of two vectors. -/
def gram (n : Nat) (u v : Nat → ℝ) : ℝ :=
  (∑ j ∈ range n, u j ^ 2) * (∑ j ∈ range n, v j ^ 2) - (∑ j ∈ range n, u j * v j) ^ 2

theorem gram_nonneg (n : Nat) (u v : Nat → ℝ) : 0 ≤ gram n u v := by
  have := sum_mul_sq_le_sq_mul_sq (range n) u v
  unfold gram; linarith

theorem area_eq (n : Nat) (p : Int → Nat → ℝ) (i0 i1 i2 : Int) :
    triAreaCommon n p i0 i1 i2 =
      Real.sqrt (gram n (fun j => p i1 j - p i0 j) (fun j => p i2 j - p i0 j)) / 2 := by
  unfold triAreaCommon
  simp only [kahan_sort]
  have sq' : ∀ i j, normDiff n p i j ^ 2 = ∑ k ∈ range n, (p j k - p i k) ^ 2 := by
    intro i j
    rw [normDiff_eq, Real.sq_sqrt (sum_nonneg (fun k _ => sq_nonneg _))]
  have hc : ∑ k ∈ range n, (p i2 k - p i1 k) ^ 2 =
      ∑ k ∈ range n, (p i1 k - p i0 k) ^ 2 + ∑ k ∈ range n, (p i2 k - p i0 k) ^ 2 -
        2 * ∑ k ∈ range n, (p i1 k - p i0 k) * (p i2 k - p i0 k) := by
    rw [mul_sum, ← sum_add_distrib, ← sum_sub_distrib]
    apply sum_congr rfl
    intro k _; ring
  unfold kahan
  simp only []
  rw [kahan_poly, sq', sq', sq', hc]
  have : 4 * ((∑ k ∈ range n, (p i1 k - p i0 k) ^ 2) * ∑ k ∈ range n, (p i2 k - p i0 k) ^ 2) -
      (∑ k ∈ range n, (p i1 k - p i0 k) ^ 2 + ∑ k ∈ range n, (p i2 k - p i0 k) ^ 2 -
        (∑ k ∈ range n, (p i1 k - p i0 k) ^ 2 + ∑ k ∈ range n, (p i2 k - p i0 k) ^ 2 -
        2 * ∑ k ∈ range n, (p i1 k - p i0 k) * (p i2 k - p i0 k))) ^ 2 =
      2 ^ 2 * gram n (fun j => p i1 j - p i0 j) (fun j => p i2 j - p i0 j) := by
    unfold gram; ring
  rw [this, Real.sqrt_mul (by positivity), Real.sqrt_sq (by norm_num)]
  ring

theorem gram_swap (n : Nat) (u v : Nat → ℝ) : gram n u v = gram n v u := by
  unfold gram
  have : ∑ j ∈ range n, u j * v j = ∑ j ∈ range n, v j * u j := sum_congr rfl (fun j _ => mul_comm _ _)
  rw [this]; ring

/-- Shear: replacing `(u, v)` by `(-u, v - u)` does not change the Gram determinant. -/
theorem gram_shift (n : Nat) (u v : Nat → ℝ) :
    gram n (fun j => - u j) (fun j => v j - u j) = gram n u v := by
  unfold gram
  have h1 : ∑ j ∈ range n, (v j - u j) ^ 2 =
      ∑ j ∈ range n, v j ^ 2 + ∑ j ∈ range n, u j ^ 2 - 2 * ∑ j ∈ range n, u j * v j := by
    rw [mul_sum, ← sum_add_distrib, ← sum_sub_distrib]
    apply sum_congr rfl
    intro k _; ring
  have h2 : ∑ j ∈ range n, (- u j) * (v j - u j) =
      ∑ j ∈ range n, u j ^ 2 - ∑ j ∈ range n, u j * v j := by
    rw [← sum_sub_distrib]
    apply sum_congr rfl
    intro k _; ring
  have h3 : ∑ j ∈ range n, (- u j) ^ 2 = ∑ j ∈ range n, u j ^ 2 := by simp
  rw [h1, h2, h3]; ring

theorem lagrange (n : Nat) (u v : Nat → ℝ) :
    ∑ i ∈ range n, ∑ j ∈ range n, (u i * v j - u j * v i) ^ 2 = 2 * gram n u v := by
  have h : ∀ i j, (u i * v j - u j * v i) ^ 2 =
      u i ^ 2 * v j ^ 2 + v i ^ 2 * u j ^ 2 - 2 * ((u i * v i) * (u j * v j)) := by intros; ring
  simp only [h, sum_sub_distrib, sum_add_distrib, ← mul_sum, ← sum_mul]
  unfold gram; ring

theorem gram_zero_iff (n : Nat) (u v : Nat → ℝ) :
    gram n u v = 0 ↔ ∀ i < n, ∀ j < n, u i * v j = u j * v i := by
  constructor
  · intro h i hi j hj
    have hl := lagrange n u v
    rw [h, mul_zero] at hl
    rw [sum_eq_zero_iff_of_nonneg (fun i _ => sum_nonneg (fun j _ => sq_nonneg _))] at hl
    have h2 := hl i (mem_range.2 hi)
    rw [sum_eq_zero_iff_of_nonneg (fun j _ => sq_nonneg _)] at h2
    have h3 := h2 j (mem_range.2 hj)
    have h4 : u i * v j - u j * v i = 0 := by simpa using h3
    linarith
  · intro h
    have hl := lagrange n u v
    have : ∑ i ∈ range n, ∑ j ∈ range n, (u i * v j - u j * v i) ^ 2 = 0 := by
      apply sum_eq_zero; intro i hi
      apply sum_eq_zero; intro j hj
      rw [h i (mem_range.1 hi) j (mem_range.1 hj)]; ring
    linarith

end Ufunclab.TriArea
