import Verif.Proof.TriArea
/-! # Properties C44 (tri_area) and C45 (tri_area_indexed) -/
namespace Ufunclab.TriArea
open Finset

/-- C44: the area is non-negative and `(2*area)^2` is the Gram determinant
`|u|^2 |v|^2 - (u.v)^2` of the edge vectors `u = p1 - p0`, `v = p2 - p0`, in any
dimension `n`. -/
theorem C44_area (n : Nat) (p : Int → Nat → ℝ) :
    0 ≤ triArea n p ∧
    (2 * triArea n p) ^ 2 = (∑ j ∈ range n, (p 1 j - p 0 j) ^ 2) * (∑ j ∈ range n, (p 2 j - p 0 j) ^ 2)
      - (∑ j ∈ range n, (p 1 j - p 0 j) * (p 2 j - p 0 j)) ^ 2 := by
  have hg := gram_nonneg n (fun j => p 1 j - p 0 j) (fun j => p 2 j - p 0 j)
  rw [triArea, area_eq]
  refine ⟨by positivity, ?_⟩
  rw [mul_div_cancel₀ _ (by norm_num), Real.sq_sqrt hg]; rfl

/-- C44: in the plane this is the shoelace formula. -/
theorem C44_plane (p : Int → Nat → ℝ) :
    triArea 2 p = |(p 1 0 - p 0 0) * (p 2 1 - p 0 1) - (p 1 1 - p 0 1) * (p 2 0 - p 0 0)| / 2 := by
  rw [triArea, area_eq]
  congr 1
  rw [← Real.sqrt_sq_eq_abs]
  congr 1
  simp only [gram, sum_range_succ, sum_range_zero]; ring

/-- C44: permuting the three points does not change the area. -/
theorem C44_permutation (n : Nat) (p : Int → Nat → ℝ) (i0 i1 i2 : Int) :
    triAreaCommon n p i0 i2 i1 = triAreaCommon n p i0 i1 i2 ∧
    triAreaCommon n p i1 i0 i2 = triAreaCommon n p i0 i1 i2 := by
  constructor
  · rw [area_eq, area_eq, gram_swap]
  · rw [area_eq, area_eq]
    have := gram_shift n (fun j => p i1 j - p i0 j) (fun j => p i2 j - p i0 j)
    rw [← this]
    congr 3 <;> funext j <;> ring

/-- C44: translation invariance; scaling by `c` multiplies the area by `c^2`. -/
theorem C44_translate_scale (n : Nat) (p : Int → Nat → ℝ) (t : Nat → ℝ) (c : ℝ) :
    triArea n (fun i k => p i k + t k) = triArea n p ∧
    triArea n (fun i k => c * p i k) = c ^ 2 * triArea n p := by
  constructor
  · simp only [triArea, area_eq]
    congr 3 <;> funext j <;> ring
  · simp only [triArea, area_eq]
    have : gram n (fun j => c * p 1 j - c * p 0 j) (fun j => c * p 2 j - c * p 0 j) =
        (c ^ 2) ^ 2 * gram n (fun j => p 1 j - p 0 j) (fun j => p 2 j - p 0 j) := by
      simp only [gram, ← mul_sub, mul_pow]
      have e : ∀ j, c * (p 1 j - p 0 j) * (c * (p 2 j - p 0 j)) =
        c ^ 2 * ((p 1 j - p 0 j) * (p 2 j - p 0 j)) := by intro j; ring
      simp only [e, ← mul_sum]; ring
    rw [this, Real.sqrt_mul (by positivity), Real.sqrt_sq (by positivity)]; ring

/-- C44: the area is zero exactly when the edge vectors are parallel (the points are
collinear or coincide). -/
theorem C44_zero_iff (n : Nat) (p : Int → Nat → ℝ) :
    triArea n p = 0 ↔ ∃ s t : ℝ, (s ≠ 0 ∨ t ≠ 0) ∧
      ∀ k < n, s * (p 1 k - p 0 k) + t * (p 2 k - p 0 k) = 0 := by
  have h1 : triArea n p = 0 ↔ gram n (fun j => p 1 j - p 0 j) (fun j => p 2 j - p 0 j) = 0 := by
    rw [triArea, area_eq, div_eq_zero_iff, or_iff_left (by norm_num),
      Real.sqrt_eq_zero (gram_nonneg _ _ _)]
  rw [h1, gram_zero_iff]
  constructor
  · intro h
    by_cases hu : ∀ i < n, p 1 i - p 0 i = 0
    · exact ⟨1, 0, .inl one_ne_zero, fun k hk => by simp [hu k hk]⟩
    · push Not at hu
      obtain ⟨i, hi, hne⟩ := hu
      refine ⟨-(p 2 i - p 0 i), p 1 i - p 0 i, .inr hne, fun k hk => ?_⟩
      have := h i hi k hk
      linarith
  · rintro ⟨s, t, hst, h⟩ i hi j hj
    have a := h i hi
    have b := h j hj
    rcases hst with hs | ht
    · have : s * ((p 1 i - p 0 i) * (p 2 j - p 0 j) - (p 1 j - p 0 j) * (p 2 i - p 0 i)) = 0 := by
        linear_combination (p 2 j - p 0 j) * a - (p 2 i - p 0 i) * b
      have := (mul_eq_zero.1 this).resolve_left hs
      linarith
    · have : t * ((p 1 i - p 0 i) * (p 2 j - p 0 j) - (p 1 j - p 0 j) * (p 2 i - p 0 i)) = 0 := by
        linear_combination (p 1 i - p 0 i) * b - (p 1 j - p 0 j) * a
      have := (mul_eq_zero.1 this).resolve_left ht
      linarith

/-- C44: when the formula is evaluated the lengths are in decreasing order, as Kahan's
analysis requires, and are a rearrangement of the three side lengths. -/
theorem C44_sides_sorted (a b c : ℝ) :
    (sort3 a b c).1 ≥ (sort3 a b c).2.1 ∧ (sort3 a b c).2.1 ≥ (sort3 a b c).2.2 ∧
    List.Perm [(sort3 a b c).1, (sort3 a b c).2.1, (sort3 a b c).2.2] [a, b, c] := by
  unfold sort3
  split_ifs with h1 <;> simp only <;> split_ifs with h2 h3 <;> simp only
  · refine ⟨by linarith, by linarith, ?_⟩
    exact (List.Perm.cons c (List.Perm.swap a b [])).trans
      ((List.Perm.swap a c [b]).trans (List.Perm.cons a (List.Perm.swap b c [])))
  · refine ⟨by linarith, by linarith, ?_⟩
    exact (List.Perm.cons b (List.Perm.swap a c [])).trans (List.Perm.swap a b [c])
  · refine ⟨by linarith, by linarith, List.Perm.swap a b [c]⟩
  · refine ⟨by linarith, by linarith, ?_⟩
    exact (List.Perm.swap a c [b]).trans (List.Perm.cons a (List.Perm.swap b c []))
  · exact ⟨by linarith, by linarith, List.Perm.cons a (List.Perm.swap b c [])⟩
  · exact ⟨by linarith, by linarith, List.Perm.refl _⟩

/-- Spec: Python indexing of an axis of length `m`. -/
def pyIndex (i m : Int) : Option Int :=
  if 0 ≤ i ∧ i < m then some i else if -m ≤ i ∧ i < 0 then some (i + m) else none

/-- C45: `get_index` is Python indexing with -1 for an invalid index; a valid one is in
`[0, m)`. -/
theorem C45_get_index (i m : Int) (hm : 0 ≤ m) :
    (∀ j, pyIndex i m = some j → getIndex i m = j ∧ 0 ≤ j ∧ j < m) ∧
    (pyIndex i m = none → getIndex i m = -1) := by
  unfold pyIndex getIndex
  constructor
  · intro j hj
    simp only
    split_ifs at hj with h1 h2
    · simp at hj; subst hj
      rw [if_neg (by omega : ¬ i < 0), if_neg (by omega)]; omega
    · simp at hj; subst hj
      rw [if_pos h2.2, if_neg (by omega)]; omega
  · intro hj
    simp only
    split_ifs at hj with h1 h2
    by_cases h : i < 0
    · rw [if_pos h, if_pos (by omega)]
    · rw [if_neg h, if_pos (by omega)]

/-- C45: the area of the triangle of the three selected points when all indices are
valid Python indices; NaN otherwise. -/
theorem C45_indexed (m : Int) (hm : 0 ≤ m) (n : Nat) (p : Int → Nat → ℝ) (i0 i1 i2 : Int) :
    (∀ j0 j1 j2, pyIndex i0 m = some j0 → pyIndex i1 m = some j1 → pyIndex i2 m = some j2 →
      triAreaIndexed m n p i0 i1 i2 =
        .fin (triArea n (fun k => if k = 0 then p j0 else if k = 1 then p j1 else p j2))) ∧
    (pyIndex i0 m = none ∨ pyIndex i1 m = none ∨ pyIndex i2 m = none →
      triAreaIndexed m n p i0 i1 i2 = .nan) := by
  constructor
  · intro j0 j1 j2 h0 h1 h2
    obtain ⟨a0, b0, c0⟩ := (C45_get_index i0 m hm).1 j0 h0
    obtain ⟨a1, b1, c1⟩ := (C45_get_index i1 m hm).1 j1 h1
    obtain ⟨a2, b2, c2⟩ := (C45_get_index i2 m hm).1 j2 h2
    simp only [triAreaIndexed, a0, a1, a2]
    rw [if_neg (by omega), triArea, area_eq, area_eq]
    simp
  · intro h
    simp only [triAreaIndexed]
    rw [if_pos]
    rcases h with h | h | h
    · exact .inl ((C45_get_index i0 m hm).2 h)
    · exact .inr (.inl ((C45_get_index i1 m hm).2 h))
    · exact .inr (.inr ((C45_get_index i2 m hm).2 h))

/-- C45: no access outside the array: the result depends only on `p[i, k]` with
`0 ≤ i < m` and `k < n`. -/
theorem C45_in_bounds (m : Int) (n : Nat) (p q : Int → Nat → ℝ) (i0 i1 i2 : Int)
    (h : ∀ i k, 0 ≤ i → i < m → k < n → p i k = q i k) :
    triAreaIndexed m n p i0 i1 i2 = triAreaIndexed m n q i0 i1 i2 := by
  simp only [triAreaIndexed]
  have hb : ∀ i, getIndex i m ≠ -1 → 0 ≤ getIndex i m ∧ getIndex i m < m := by
    intro i
    unfold getIndex
    simp only
    split_ifs <;> omega
  by_cases hc : getIndex i0 m = -1 ∨ getIndex i1 m = -1 ∨ getIndex i2 m = -1
  · rw [if_pos hc, if_pos hc]
  · rw [if_neg hc, if_neg hc]
    push Not at hc
    have hn : ∀ i j, getIndex i m ≠ -1 → getIndex j m ≠ -1 →
        normDiff n p (getIndex i m) (getIndex j m) = normDiff n q (getIndex i m) (getIndex j m) := by
      intro i j hi hj
      rw [normDiff_eq, normDiff_eq]
      congr 1
      apply sum_congr rfl
      intro k hk
      rw [h _ k (hb i hi).1 (hb i hi).2 (mem_range.1 hk), h _ k (hb j hj).1 (hb j hj).2 (mem_range.1 hk)]
    simp only [triAreaCommon, hn _ _ hc.1 hc.2.1, hn _ _ hc.1 hc.2.2, hn _ _ hc.2.1 hc.2.2]

/-! ### Non-vacuity: the 3-4-5 triangle; indices -1, 0, 1 of 3 points -/
example : triArea 2 (fun i k => if i = 1 ∧ k = 0 then 3 else if i = 2 ∧ k = 1 then 4 else 0) = 6 := by
  rw [C44_plane]; norm_num
example : pyIndex (-1) 3 = some 2 ∧ pyIndex 3 3 = none ∧ pyIndex (-4) 3 = none := by decide

end Ufunclab.TriArea
