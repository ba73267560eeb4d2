import Verif.Proof.Mad
import Mathlib.Algebra.Order.Field.Rat
import Mathlib.Algebra.Field.Rat
import Mathlib.Tactic.NormNum
/-! # Properties C38 and C39: mad, gini, rmad (specification in Spec/Mad.lean) -/
namespace Ufunclab.Mad
open Spec
variable {K : Type _} [Field K] [LinearOrder K] [IsStrictOrderedRing K]

theorem length_pos {x : List K} (hne : x ≠ []) : (0 : K) < (x.length : K) := by
  have : 0 < x.length := List.length_pos_iff.2 hne
  exact_mod_cast this

/-- C38: `mad` is the mean absolute difference over all pairs. -/
theorem C38_mad (x : List K) (hne : x ≠ []) : mad x false = .fin (meanAbsDiff x false) := by
  have hn := length_pos hne
  obtain ⟨h1, _⟩ := unnormalizedMad_spec x
  simp only [mad, Bool.false_eq_true, if_false, h1]
  rw [XF.div_fin _ _ (by positivity)]
  simp [meanAbsDiff]

/-- C38: unbiased `mad`, for at least two elements. -/
theorem C38_mad_unbiased (x : List K) (hlen : 2 ≤ x.length) :
    mad x true = .fin (meanAbsDiff x true) := by
  have hn : (2 : K) ≤ (x.length : K) := by exact_mod_cast hlen
  obtain ⟨h1, _⟩ := unnormalizedMad_spec x
  have h3 : (x.length : K) - 1 ≠ 0 := by
    intro h; linarith
  simp only [mad, if_true, h1]
  rw [XF.div_fin _ _ (by positivity), XF.div_fin _ _ h3]
  simp [meanAbsDiff, div_div]

/-- C38: the unbiased mad of one element is NaN. -/
theorem C38_mad_unbiased_one (a : K) : mad [a] true = .nan := by
  simp [mad, unnormalizedMad, sort, scan, XF.div]

/-- C38: `gini` is half the relative mean absolute difference. -/
theorem C38_gini (x : List K) (unbiased : Bool) (hlen : if unbiased then 2 ≤ x.length else x ≠ [])
    (hsum : x.sum ≠ 0) :
    gini x unbiased = .fin (meanAbsDiff x unbiased / (2 * average x)) := by
  obtain ⟨h1, h2⟩ := unnormalizedMad_spec x
  have h1' : (unnormalizedMad x).1 = pairSum x / 2 := by rw [← h1]; ring
  cases unbiased with
  | false =>
    have hn := length_pos (by simpa using hlen : x ≠ [])
    have hd : (x.length : K) * x.sum ≠ 0 := mul_ne_zero hn.ne' hsum
    simp only [gini, h2, h1', Bool.false_eq_true, if_false]
    rw [if_neg (fun h => hd h.2), if_neg hd]
    simp only [meanAbsDiff, average, Bool.false_eq_true, if_false]
    congr 1; field_simp
  | true =>
    have hn : (2 : K) ≤ (x.length : K) := by exact_mod_cast (by simpa using hlen : 2 ≤ x.length)
    have h3 : (x.length : K) - 1 ≠ 0 := by intro h; linarith
    have hn0 : (x.length : K) ≠ 0 := by intro h; linarith
    have hd : ((x.length : K) - 1) * x.sum ≠ 0 := mul_ne_zero h3 hsum
    simp only [gini, h2, h1', if_true]
    rw [if_neg (fun h => hd h.2), if_neg hd]
    simp only [meanAbsDiff, average, if_true]
    congr 1; field_simp

/-- C38: `rmad` is the mean absolute difference over the mean. -/
theorem C38_rmad (x : List K) (unbiased : Bool) (hlen : if unbiased then 2 ≤ x.length else x ≠ [])
    (hsum : x.sum ≠ 0) :
    rmad x unbiased = .fin (meanAbsDiff x unbiased / average x) := by
  have hne : x ≠ [] := by rintro rfl; simp at hsum
  have hn := length_pos hne
  have ha : average x ≠ 0 := div_ne_zero hsum hn.ne'
  simp only [rmad, C38_gini x unbiased hlen hsum, XF.isnan_fin, Bool.not_false, if_true, XF.mul_fin]
  congr 1; field_simp

/-- C38: a zero sum gives NaN if all elements are equal and `+inf` otherwise. -/
theorem C38_zero_sum (x : List K) (unbiased : Bool) (hsum : x.sum = 0) :
    gini x unbiased = (if ∀ a ∈ x, ∀ b ∈ x, a = b then .nan else .pinf) ∧
    rmad x unbiased = gini x unbiased := by
  obtain ⟨h1, h2⟩ := unnormalizedMad_spec x
  have h1' : (unnormalizedMad x).1 = pairSum x / 2 := by rw [← h1]; ring
  have hz : (unnormalizedMad x).1 = 0 ↔ ∀ a ∈ x, ∀ b ∈ x, a = b := by
    rw [h1', ← pairSum_eq_zero]; simp
  have hg : gini x unbiased = (if ∀ a ∈ x, ∀ b ∈ x, a = b then .nan else .pinf) := by
    by_cases h : ∀ a ∈ x, ∀ b ∈ x, a = b
    · rw [if_pos h]
      cases unbiased <;> simp [gini, h2, hsum, hz.2 h]
    · rw [if_neg h]
      have : (unnormalizedMad x).1 ≠ 0 := fun h' => h (hz.1 h')
      cases unbiased <;> simp [gini, h2, hsum, this]
  refine ⟨hg, ?_⟩
  rw [rmad, hg]
  split_ifs <;> simp_all [XF.isnan, XF.mul, XF.infMul]

/-- C38: all three are invariant under permutation of the data. -/
theorem C38_permutation (x y : List K) (h : x.Perm y) (unbiased : Bool) :
    mad x unbiased = mad y unbiased ∧ gini x unbiased = gini y unbiased ∧
      rmad x unbiased = rmad y unbiased := by
  obtain ⟨a1, a2⟩ := unnormalizedMad_spec x
  obtain ⟨b1, b2⟩ := unnormalizedMad_spec y
  have e1 : unnormalizedMad x = unnormalizedMad y := by
    apply Prod.ext
    · have : 2 * (unnormalizedMad x).1 = 2 * (unnormalizedMad y).1 := by
        rw [a1, b1, pairSum_perm h]
      linarith
    · rw [a2, b2, h.sum_eq]
  have eg : gini x unbiased = gini y unbiased := by simp only [gini, e1, h.length_eq]
  exact ⟨by simp only [mad, e1, h.length_eq], eg, by simp only [rmad, eg]⟩

/-- C39: for non-negative data with a positive sum the biased Gini index is between
0 and `(n-1)/n`. -/
theorem C39_range (x : List K) (hnn : ∀ a ∈ x, 0 ≤ a) (hsum : 0 < x.sum) :
    ∃ g, gini x false = .fin g ∧ 0 ≤ g ∧ g ≤ ((x.length : K) - 1) / (x.length : K) ∧ g < 1 := by
  have hne : x ≠ [] := by rintro rfl; simp at hsum
  have hn := length_pos hne
  refine ⟨_, C38_gini x false (by simpa using hne) hsum.ne', ?_⟩
  have he : meanAbsDiff x false / (2 * average x) = pairSum x / (2 * (x.length : K) * x.sum) := by
    simp only [meanAbsDiff, average, Bool.false_eq_true, if_false]; field_simp
  rw [he]
  have hle : pairSum x / (2 * (x.length : K) * x.sum) ≤ ((x.length : K) - 1) / (x.length : K) := by
    rw [div_le_div_iff₀ (by positivity) hn]
    have := mul_le_mul_of_nonneg_right (pairSum_le x hnn) hn.le
    linarith
  refine ⟨div_nonneg (pairSum_nonneg x) (by positivity), hle, lt_of_le_of_lt hle ?_⟩
  rw [div_lt_one hn]; linarith

/-- C39: the unbiased Gini index of non-negative data with positive sum is between
0 and 1. -/
theorem C39_range_unbiased (x : List K) (hnn : ∀ a ∈ x, 0 ≤ a) (hsum : 0 < x.sum)
    (hlen : 2 ≤ x.length) :
    ∃ g, gini x true = .fin g ∧ 0 ≤ g ∧ g ≤ 1 := by
  have hn : (2 : K) ≤ (x.length : K) := by exact_mod_cast hlen
  have h3 : (0 : K) < (x.length : K) - 1 := by linarith
  have hn0 : (0 : K) < (x.length : K) := by linarith
  refine ⟨_, C38_gini x true (by simpa using hlen) hsum.ne', ?_⟩
  have he : meanAbsDiff x true / (2 * average x) = pairSum x / (2 * ((x.length : K) - 1) * x.sum) := by
    simp only [meanAbsDiff, average, if_true]; field_simp
  rw [he]
  refine ⟨div_nonneg (pairSum_nonneg x) (by positivity), ?_⟩
  rw [div_le_one (by positivity)]
  linarith [pairSum_le x hnn]

/-- C39: gini is zero exactly when all elements are equal. -/
theorem C39_zero_iff (x : List K) (unbiased : Bool) (hlen : if unbiased then 2 ≤ x.length else x ≠ [])
    (hsum : x.sum ≠ 0) :
    gini x unbiased = .fin 0 ↔ ∀ a ∈ x, ∀ b ∈ x, a = b := by
  have hne : x ≠ [] := by rintro rfl; simp at hsum
  have hn := length_pos hne
  have ha : average x ≠ 0 := div_ne_zero hsum hn.ne'
  rw [C38_gini x unbiased hlen hsum, ← pairSum_eq_zero]
  simp only [XF.fin.injEq, div_eq_zero_iff, meanAbsDiff, mul_eq_zero, ha, OfNat.ofNat_ne_zero,
    or_self, or_false]
  cases unbiased with
  | false => simp [hn.ne', hne]
  | true =>
    have hn2 : (2 : K) ≤ (x.length : K) := by exact_mod_cast (by simpa using hlen : 2 ≤ x.length)
    have h3 : (x.length : K) - 1 ≠ 0 := by intro h; linarith
    have : (x.length : K) * ((x.length : K) - 1) ≠ 0 := mul_ne_zero hn.ne' h3
    simp only [if_true, this, or_false]

/-- C39: gini does not change when all data are multiplied by `c > 0`. -/
theorem C39_scale (x : List K) (c : K) (hc : 0 < c) (unbiased : Bool) :
    gini (x.map (c * ·)) unbiased = gini x unbiased := by
  obtain ⟨a1, a2⟩ := unnormalizedMad_spec (x.map (c * ·))
  obtain ⟨b1, b2⟩ := unnormalizedMad_spec x
  rw [pairSum_smul c hc.le, ← b1] at a1
  have e1 : (unnormalizedMad (x.map (c * ·))).1 = c * (unnormalizedMad x).1 := by
    have : 2 * (unnormalizedMad (x.map (c * ·))).1 = 2 * (c * (unnormalizedMad x).1) := by
      rw [a1]; ring
    linarith
  have e2 : (unnormalizedMad (x.map (c * ·))).2 = c * (unnormalizedMad x).2 := by
    rw [a2, b2, List.sum_map_mul_left]; simp
  simp only [gini, e1, e2, List.length_map]
  generalize (x.length : K) = n
  have hk : ∀ k : K, c * (unnormalizedMad x).1 / (k * (c * (unnormalizedMad x).2)) =
      (unnormalizedMad x).1 / (k * (unnormalizedMad x).2) := by
    intro k
    rw [mul_left_comm k, mul_div_mul_left _ _ hc.ne']
  cases unbiased <;>
    simp only [Bool.false_eq_true, if_false, if_true, hk, mul_eq_zero, hc.ne', false_or]

/-! ### Non-vacuity: x = [4, 0, 2] (Σ|..| = 16, n = 3, mean = 2) -/
example : mad [(4 : ℚ), 0, 2] false = .fin (16 / 9) := by
  rw [C38_mad _ (by simp)]; norm_num [meanAbsDiff, pairSum]
example : gini [(4 : ℚ), 0, 2] true = .fin (2 / 3) := by
  rw [C38_gini _ true (by simp) (by norm_num)]; norm_num [meanAbsDiff, pairSum, average]
example : (∀ a ∈ [(4 : ℚ), 0, 2], 0 ≤ a) ∧ 0 < [(4 : ℚ), 0, 2].sum := by norm_num

end Ufunclab.Mad
