import Verif.Proof.Corr
/-! # Property C46: pearson_corr -/
namespace Ufunclab.Corr
open Finset

theorem two_const (x : Nat → ℝ) : Constant 2 x ↔ x 0 = x 1 := by
  constructor
  · intro h; exact h 0 (by omega) 1 (by omega)
  · intro h i hi j hj
    rcases (by omega : i = 0 ∨ i = 1) with rfl | rfl <;> rcases (by omega : j = 0 ∨ j = 1) with rfl | rfl <;>
      simp [h]

theorem corr_two (x y : Nat → ℝ) (hx : x 0 ≠ x 1) (hy : y 0 ≠ y 1) :
    corr 2 x y = if (x 0 < x 1 ∧ y 0 < y 1) ∨ (x 0 > x 1 ∧ y 0 > y 1) then 1 else -1 := by
  have s : ∀ z : Nat → ℝ, Real.sqrt (∑ i ∈ range 2, (z i - mean 2 z) ^ 2) = |z 0 - z 1| / Real.sqrt 2 := by
    intro z
    have : ∑ i ∈ range 2, (z i - mean 2 z) ^ 2 = (z 0 - z 1) ^ 2 / 2 := by
      simp [mean, sum_range_succ]; ring
    rw [this, Real.sqrt_div (sq_nonneg _), Real.sqrt_sq_eq_abs]
  have c : ∑ i ∈ range 2, (x i - mean 2 x) * (y i - mean 2 y) = (x 0 - x 1) * (y 0 - y 1) / 2 := by
    simp [mean, sum_range_succ]; ring
  rw [corr, s, s, c]
  have h2 : Real.sqrt 2 * Real.sqrt 2 = 2 := Real.mul_self_sqrt (by norm_num)
  rw [div_mul_div_comm, h2]
  rcases lt_or_gt_of_ne hx with a | a <;> rcases lt_or_gt_of_ne hy with b | b
  · rw [if_pos (.inl ⟨a, b⟩), abs_of_neg (by linarith), abs_of_neg (by linarith)]
    have : x 0 - x 1 ≠ 0 := by linarith
    have : y 0 - y 1 ≠ 0 := by linarith
    field_simp
  · rw [if_neg (by rintro (⟨_, h⟩ | ⟨h, _⟩) <;> linarith), abs_of_neg (by linarith), abs_of_pos (by linarith)]
    have : x 0 - x 1 ≠ 0 := by linarith
    have : y 0 - y 1 ≠ 0 := by linarith
    field_simp
  · rw [if_neg (by rintro (⟨h, _⟩ | ⟨_, h⟩) <;> linarith), abs_of_pos (by linarith), abs_of_neg (by linarith)]
    have : x 0 - x 1 ≠ 0 := by linarith
    have : y 0 - y 1 ≠ 0 := by linarith
    field_simp
  · rw [if_pos (.inr ⟨a, b⟩), abs_of_pos (by linarith), abs_of_pos (by linarith)]
    have : x 0 - x 1 ≠ 0 := by linarith
    have : y 0 - y 1 ≠ 0 := by linarith
    field_simp

/-- C46: on finite data of length `n ≥ 2` the result is Pearson's coefficient when
neither input is constant, and NaN otherwise.  Includes the two-element special case. -/
theorem C46_value (n : Nat) (hn : 2 ≤ n) (m : Mem (XF ℝ)) (px xs py ys : Int) (x y : Nat → ℝ)
    (hx : ∀ i < n, get m px xs i = .fin (x i)) (hy : ∀ i < n, get m py ys i = .fin (y i)) :
    (¬ Constant n x → ¬ Constant n y → pearson n m px xs py ys = .fin (corr n x y)) ∧
    (Constant n x ∨ Constant n y → pearson n m px xs py ys = .nan) := by
  rcases eq_or_ne n 2 with rfl | h2
  · have hx0 : m px = .fin (x 0) := by have := hx 0 (by omega); simpa [get] using this
    have hy0 : m py = .fin (y 0) := by have := hy 0 (by omega); simpa [get] using this
    rw [two_const, two_const]
    simp only [pearson, hx0, hy0, hx 1 (by omega), hy 1 (by omega)]
    simp only [show ¬ (2 = 1) by omega, if_false, if_true, XF.isfinite_fin, XF.eq_fin, Bool.not_true, Bool.false_or,
      decide_eq_true_eq, XF.lt_fin, XF.gt_fin, Bool.or_eq_true, Bool.and_eq_true]
    constructor
    · intro a b
      rw [if_neg a, if_neg b, corr_two x y a b]
      by_cases hc : (x 0 < x 1 ∧ y 0 < y 1) ∨ (x 0 > x 1 ∧ y 0 > y 1)
      · rw [if_pos hc, if_pos hc]
      · rw [if_neg hc, if_neg hc]
    · rintro (h | h)
      · rw [if_pos h]
      · rw [if_pos h]; split_ifs <;> rfl
  · have := general_fin n (by omega) x y
    simp only [pearson, if_neg h2, if_neg (by omega : ¬ n = 1)]
    rw [general_congr n (by omega) _ (fun i => .fin (x i)) _ (fun i => .fin (y i)) hx hy]
    exact ⟨this.2, this.1⟩

/-- C46: the integer core computes the same coefficient. -/
theorem C46_value_int (n : Nat) (hn : 2 ≤ n) (m : Mem Int) (px xs py ys : Int) :
    let x : Nat → ℝ := fun i => ((get m px xs i : Int) : ℝ)
    let y : Nat → ℝ := fun i => ((get m py ys i : Int) : ℝ)
    (¬ Constant n x → ¬ Constant n y → pearsonInt n m px xs py ys = .fin (corr n x y)) ∧
    (Constant n x ∨ Constant n y → pearsonInt n m px xs py ys = .nan) := by
  intro x y
  rcases eq_or_ne n 2 with rfl | h2
  · have hx0 : x 0 = (m px : ℝ) := by simp [x, get]
    have hy0 : y 0 = (m py : ℝ) := by simp [y, get]
    have hx1 : x 1 = ((get m px xs 1 : Int) : ℝ) := rfl
    have hy1 : y 1 = ((get m py ys 1 : Int) : ℝ) := rfl
    rw [two_const, two_const]
    have cx : x 0 = x 1 ↔ m px = get m px xs 1 := by rw [hx0, hx1]; exact Int.cast_inj
    have cy : y 0 = y 1 ↔ m py = get m py ys 1 := by rw [hy0, hy1]; exact Int.cast_inj
    simp only [pearsonInt, show ¬ (2 = 1) by omega, if_false, if_true]
    constructor
    · intro a b
      rw [if_neg (fun h => a (cx.2 h)), if_neg (fun h => b (cy.2 h)), corr_two x y a b]
      have e : ((x 0 < x 1 ∧ y 0 < y 1) ∨ (x 0 > x 1 ∧ y 0 > y 1)) ↔
        ((m px < get m px xs 1 ∧ m py < get m py ys 1) ∨ (m px > get m px xs 1 ∧ m py > get m py ys 1)) := by
        rw [hx0, hx1, hy0, hy1]; simp only [gt_iff_lt, Int.cast_lt]
      by_cases hc : (x 0 < x 1 ∧ y 0 < y 1) ∨ (x 0 > x 1 ∧ y 0 > y 1)
      · rw [if_pos hc, if_pos (e.1 hc)]
      · rw [if_neg hc, if_neg (fun h => hc (e.2 h))]
    · rintro (h | h)
      · rw [if_pos (cx.1 h)]
      · rw [if_pos (cy.1 h)]; split_ifs <;> rfl
  · have := general_fin n (by omega) x y
    simp only [pearsonInt, if_neg h2, if_neg (by omega : ¬ n = 1)]
    exact ⟨this.2, this.1⟩

/-- C46: any NaN or infinity among the data gives NaN, for every length. -/
theorem C46_nonfinite (n : Nat) (hn : 2 ≤ n) (m : Mem (XF ℝ)) (px xs py ys : Int)
    (h : (∃ i < n, (get m px xs i).isfinite = false) ∨ (∃ i < n, (get m py ys i).isfinite = false)) :
    pearson n m px xs py ys = .nan := by
  rcases eq_or_ne n 2 with rfl | h2
  · have gx : get m px xs 0 = m px := by simp [get]
    have gy : get m py ys 0 = m py := by simp [get]
    simp only [pearson, show ¬ (2 = 1) by omega, if_false, if_true]
    rcases h with ⟨i, hi, h⟩ | ⟨i, hi, h⟩
    · rw [if_pos]
      rcases (by omega : i = 0 ∨ i = 1) with rfl | rfl
      · rw [gx] at h; simp [h]
      · simp [h]
    · split_ifs with a b c
      · rfl
      · rfl
      all_goals
        exfalso; apply b
        rcases (by omega : i = 0 ∨ i = 1) with rfl | rfl
        · rw [gy] at h; simp [h]
        · simp [h]
  · simp only [pearson, if_neg h2, if_neg (by omega : ¬ n = 1)]
    exact general_nonfin n (by omega) _ _ h

/-- C46: lengths 0 and 1 are rejected before the core is called. -/
theorem C46_length (n : Int) : processCoreDims n = true ↔ 2 ≤ n := by
  simp [processCoreDims]

/-- C46: the coefficient is in [-1, 1]. -/
theorem C46_range (n : Nat) (x y : Nat → ℝ) : -1 ≤ corr n x y ∧ corr n x y ≤ 1 := by
  rw [← abs_le, corr, abs_div, abs_of_nonneg (by positivity : 0 ≤ Real.sqrt _ * Real.sqrt _)]
  apply div_le_one_of_le₀ _ (by positivity)
  rw [← Real.sqrt_mul (sum_nonneg (fun i _ => sq_nonneg _)), ← Real.sqrt_sq_eq_abs]
  exact Real.sqrt_le_sqrt (sum_mul_sq_le_sq_mul_sq _ _ _)

/-- C46: symmetric in its arguments. -/
theorem C46_symmetric (n : Nat) (x y : Nat → ℝ) : corr n x y = corr n y x := by
  unfold corr
  congr 1
  · exact sum_congr rfl (fun i _ => mul_comm _ _)
  · exact mul_comm _ _

theorem mean_affine (n : Nat) (hn : n ≠ 0) (x : Nat → ℝ) (a b : ℝ) :
    mean n (fun i => a * x i + b) = a * mean n x + b := by
  have : (n : ℝ) ≠ 0 := by exact_mod_cast hn
  simp only [mean, sum_add_distrib, ← mul_sum, sum_const, card_range, nsmul_eq_mul]
  field_simp

theorem sumsq_affine (n : Nat) (hn : n ≠ 0) (x : Nat → ℝ) (a b : ℝ) :
    ∑ i ∈ range n, ((a * x i + b) - mean n (fun i => a * x i + b)) ^ 2 =
      a ^ 2 * ∑ i ∈ range n, (x i - mean n x) ^ 2 := by
  rw [mean_affine n hn, mul_sum]
  exact sum_congr rfl (fun i _ => by ring)

/-- C46: a positive affine map of one argument does not change the coefficient, a
negative one negates it. -/
theorem C46_affine_invariant (n : Nat) (hn : 2 ≤ n) (x y : Nat → ℝ) (a b : ℝ) :
    (0 < a → corr n (fun i => a * x i + b) y = corr n x y) ∧
    (a < 0 → corr n (fun i => a * x i + b) y = - corr n x y) := by
  have hn0 : n ≠ 0 := by omega
  have hc : ∑ i ∈ range n, ((a * x i + b) - mean n (fun i => a * x i + b)) * (y i - mean n y) =
      a * ∑ i ∈ range n, (x i - mean n x) * (y i - mean n y) := by
    rw [mean_affine n hn0, mul_sum]
    exact sum_congr rfl (fun i _ => by ring)
  unfold corr
  rw [hc, sumsq_affine n hn0, Real.sqrt_mul (sq_nonneg a), Real.sqrt_sq_eq_abs]
  constructor
  · intro h
    rw [abs_of_pos h, mul_assoc, mul_div_mul_left _ _ h.ne']
  · intro h
    rw [abs_of_neg h, mul_assoc, neg_mul, ← neg_div_neg_eq, neg_neg, ← mul_neg, mul_div_mul_left _ _ h.ne, neg_div]

/-- C46: for non-constant inputs the coefficient is +1 (-1) exactly when `y` is an
increasing (decreasing) affine function of `x`. -/
theorem C46_extreme_iff (n : Nat) (hn : 2 ≤ n) (x y : Nat → ℝ) (hx : ¬ Constant n x) (hy : ¬ Constant n y) :
    (corr n x y = 1 ↔ ∃ a b : ℝ, 0 < a ∧ ∀ i < n, y i = a * x i + b) ∧
    (corr n x y = -1 ↔ ∃ a b : ℝ, a < 0 ∧ ∀ i < n, y i = a * x i + b) := by
  have hn0 : n ≠ 0 := by omega
  have px := (sumsq_pos_iff n hn0 x).2 hx
  have py := (sumsq_pos_iff n hn0 y).2 hy
  have qx := Real.sqrt_pos.2 px
  have qy := Real.sqrt_pos.2 py
  have ex := Real.sq_sqrt px.le
  have ey := Real.sq_sqrt py.le
  -- if |corr| = s with s² = 1, y is affine in x with slope s*σy/σx
  have fwd : ∀ s : ℝ, s ^ 2 = 1 → corr n x y = s →
      ∃ b, ∀ i < n, y i = (s * Real.sqrt (∑ i ∈ range n, (y i - mean n y) ^ 2) /
        Real.sqrt (∑ i ∈ range n, (x i - mean n x) ^ 2)) * x i + b := by
    intro s hs h
    set A := Real.sqrt (∑ i ∈ range n, (x i - mean n x) ^ 2) with hA
    set B := Real.sqrt (∑ i ∈ range n, (y i - mean n y) ^ 2) with hB
    have hC : ∑ i ∈ range n, (x i - mean n x) * (y i - mean n y) = s * (A * B) := by
      unfold corr at h
      rw [← hA, ← hB] at h
      rw [← h]; field_simp
    have hz : ∑ i ∈ range n, (A * (y i - mean n y) - s * B * (x i - mean n x)) ^ 2 = 0 := by
      have : ∀ i, (A * (y i - mean n y) - s * B * (x i - mean n x)) ^ 2 =
          A ^ 2 * (y i - mean n y) ^ 2 + (s ^ 2 * B ^ 2) * (x i - mean n x) ^ 2
            - (2 * A * s * B) * ((x i - mean n x) * (y i - mean n y)) := by intro i; ring
      simp only [this, sum_sub_distrib, sum_add_distrib, ← mul_sum]
      rw [hC, ← ex, ← ey, hs]
      linear_combination (-2 * A ^ 2 * B ^ 2) * hs
    rw [sum_eq_zero_iff_of_nonneg (fun i _ => sq_nonneg _)] at hz
    refine ⟨mean n y - s * B / A * mean n x, fun i hi => ?_⟩
    have := hz i (mem_range.2 hi)
    have h0 : A * (y i - mean n y) - s * B * (x i - mean n x) = 0 := by simpa using this
    have hA0 : A ≠ 0 := qx.ne'
    field_simp
    linarith
  have bwd : ∀ a b : ℝ, (∀ i < n, y i = a * x i + b) → corr n x y = corr n x (fun i => a * x i + b) := by
    intro a b h
    have hm : mean n y = mean n (fun i => a * x i + b) := by
      unfold mean; rw [sum_congr rfl (fun i hi => h i (mem_range.1 hi))]
    unfold corr
    rw [← hm]
    rw [sum_congr rfl (fun i hi => by rw [h i (mem_range.1 hi)] : ∀ i ∈ range n,
        (x i - mean n x) * (y i - mean n y) = (x i - mean n x) * (a * x i + b - mean n y)),
      sum_congr rfl (fun i hi => by rw [h i (mem_range.1 hi)] : ∀ i ∈ range n,
        (y i - mean n y) ^ 2 = (a * x i + b - mean n y) ^ 2)]
  have self : corr n x x = 1 := by
    unfold corr
    rw [← sq, ex, div_eq_one_iff_eq px.ne']
    exact sum_congr rfl (fun i _ => by ring)
  constructor
  · constructor
    · intro h
      obtain ⟨b, hb⟩ := fwd 1 (by norm_num) h
      exact ⟨_, b, by positivity, hb⟩
    · rintro ⟨a, b, ha, h⟩
      rw [bwd a b h, C46_symmetric, (C46_affine_invariant n hn x x a b).1 ha, self]
  · constructor
    · intro h
      obtain ⟨b, hb⟩ := fwd (-1) (by norm_num) h
      refine ⟨_, b, ?_, hb⟩
      rw [neg_one_mul, neg_div]
      exact neg_lt_zero.2 (by positivity)
    · rintro ⟨a, b, ha, h⟩
      rw [bwd a b h, C46_symmetric, (C46_affine_invariant n hn x x a b).2 ha, self]

/-! ### Non-vacuity: x = 0,1,2,... and y = 5 - 2x on three points -/
example : pearson 3 (fun a => if a < 100 then .fin (a : ℝ) else .fin (5 - 2 * ((a : ℝ) - 100))) 0 1 100 1 = .fin (-1) := by
  have hx : ¬ Constant 3 (fun i => (i : ℝ)) := by
    intro h; have := h 0 (by omega) 1 (by omega); norm_num at this
  have hy : ¬ Constant 3 (fun i => 5 - 2 * (i : ℝ)) := by
    intro h; have := h 0 (by omega) 1 (by omega); norm_num at this
  have hc : corr 3 (fun i => (i : ℝ)) (fun i => 5 - 2 * (i : ℝ)) = -1 :=
    (C46_extreme_iff 3 (by norm_num) _ _ hx hy).2.2 ⟨-2, 5, by norm_num, fun i _ => by ring⟩
  rw [← hc]
  refine (C46_value 3 (by norm_num) _ 0 1 100 1 (fun i => (i : ℝ)) (fun i => 5 - 2 * (i : ℝ)) ?_ ?_).1 hx hy
  · intro i hi
    simp only [get]
    rw [if_pos (by omega)]; push_cast; congr 1; ring
  · intro i hi
    simp only [get]
    rw [if_neg (by omega)]; push_cast; congr 1; ring

end Ufunclab.Corr
