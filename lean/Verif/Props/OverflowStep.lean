import Verif.Model.StepOverflow
import Verif.Proof.Overflow
import Verif.Props.StepRound
/-!
# C88: overflow in the interpolating functions

`ov rd Ω` rounds and replaces what is beyond `Ω`, the largest number of the format, by an infinity.
-/
namespace Ufunclab.Step
open Ufunclab.Float LinearInterp
variable {p : ℕ} {emin : ℤ} {rd : ℝ → ℝ} {Ω : ℝ}

/-- C88: without rounding the models are those of C47, C49 and C50. -/
theorem C88_exact_arithmetic (x a b fa fb : XF ℝ) :
    linearstepO id x a b fa fb = linearstep x a b fa fb ∧ smoothstep3O id x a b fa fb = smoothstep3 x a b fa fb ∧
    smoothstep5O id x a b fa fb = smoothstep5 x a b fa fb := ⟨rfl, rfl, rfl⟩

/-- The rounded ratio is a number between 0 and 1. -/
theorem ratio_in_range (h : Nearest p emin rd) (hp : 1 ≤ p) (he : emin ≤ 0) {s t : ℝ} (hs : 0 ≤ s) (hst : s ≤ t) (ht : 0 < rd t) :
    0 ≤ rd (rd s / rd t) ∧ rd (rd s / rd t) ≤ 1 := by
  have s0 : 0 ≤ rd s := h.mono_float isFloat_zero hs
  have s1 : rd s ≤ rd t := h.monotone hst
  exact ⟨h.mono_float isFloat_zero (div_nonneg s0 ht.le), h.mono_float' (isFloat_one hp he) ((div_le_one ht).2 s1)⟩

/-- The difference of two different numbers is not rounded to 0. -/
theorem sub_round_pos (h : Nearest p emin rd) (hp : 1 ≤ p) {a b : ℝ} (ha : IsFloat p emin a) (hb : IsFloat p emin b) (hab : a < b) : 0 < rd (b - a) := by
  have := h.rel_error hp (hb.grid.sub ha.grid)
  rw [abs_of_pos (sub_pos.2 hab)] at this
  have hu : ((2 : ℝ) ^ p)⁻¹ ≤ 1 / 2 := by
    rw [one_div]
    exact inv_anti₀ (by norm_num) (by simpa using pow_le_pow_right₀ (by norm_num : (1 : ℝ) ≤ 2) hp)
  have := (abs_le.1 this).1
  nlinarith

/-- The ratio `(x - a)/(b - a)` computed with overflow. -/
theorem ratio_ov (h : Nearest p emin rd) (hp : 1 ≤ p) (he : emin ≤ 0) (hΩ : IsFloat p emin Ω) (h1 : 1 ≤ Ω) {s t : ℝ} (hs : 0 ≤ s) (hst : s ≤ t)
    (ht : 0 < rd t) (htΩ : t ≤ Ω) :
    ov rd Ω ((ov rd Ω (.fin s)).div (ov rd Ω (.fin t))) = .fin (rd (rd s / rd t)) := by
  rw [ov_le h hΩ (by rw [abs_of_nonneg hs]; linarith), ov_le h hΩ (by rw [abs_of_nonneg (hs.trans hst)]; exact htΩ), XF.div_fin _ _ ht.ne']
  obtain ⟨r0, r1⟩ := ratio_in_range h hp he hs hst ht
  exact ov_fin (by rw [abs_of_nonneg r0]; linarith)

theorem ov_id (z : ℝ) : ov rd Ω (.fin z) = ov id Ω (.fin (rd z)) := rfl

theorem outside (x a b fa fb : ℝ) (hx : ¬ (a < x ∧ x < b)) (r : XF ℝ → XF ℝ) (rd : ℝ → ℝ) :
    linearstepO r (.fin x) (.fin a) (.fin b) (.fin fa) (.fin fb) = linearstepR rd x a b fa fb ∧
    smoothstep3O r (.fin x) (.fin a) (.fin b) (.fin fa) (.fin fb) = smoothstep3R rd x a b fa fb ∧
    smoothstep5O r (.fin x) (.fin a) (.fin b) (.fin fa) (.fin fb) = smoothstep5R rd x a b fa fb := by
  simp only [linearstepO, linearstepR, smoothstep3O, smoothstep3R, smoothstep5O, smoothstep5R, XF.gt_fin, XF.le_fin, XF.ge_fin, decide_eq_true_eq,
    gt_iff_lt, ge_iff_le]
  by_cases h : b < a
  · simp [h]
  by_cases ha : x ≤ a
  · simp [h, ha]
  by_cases hb : b ≤ x
  · simp [h, ha, hb]
  · exact absurd ⟨not_le.1 ha, not_le.1 hb⟩ hx

/-- The magnitude of a product with a factor of at most 1. -/
theorem abs_mul_le_left {y w B : ℝ} (hy : |y| ≤ B) (hw : |w| ≤ 1) : |y * w| ≤ B := by
  rw [abs_mul]
  calc |y| * |w| ≤ |y| * 1 := mul_le_mul_of_nonneg_left hw (abs_nonneg _)
    _ ≤ B := by linarith

/-- C88: `linearstep` of finite numbers overflows only in the last addition, if the width of the step is
in the range: the result is the one without overflow, or the infinity if that is beyond `Ω`. -/
theorem C88_linearstep (h : Nearest p emin rd) (hp : 1 ≤ p) (he : emin ≤ 0) (hΩ : IsFloat p emin Ω) (h1 : 1 ≤ Ω) (x a b fa fb : ℝ)
    (ha : IsFloat p emin a) (hb : IsFloat p emin b) (hfa : |fa| ≤ Ω) (hfb : |fb| ≤ Ω) (hw : b - a ≤ Ω) :
    linearstepO (ov rd Ω) (.fin x) (.fin a) (.fin b) (.fin fa) (.fin fb) =
      if a < x ∧ x < b then ov id Ω (linearstepR rd x a b fa fb) else linearstepR rd x a b fa fb := by
  split_ifs with hx
  swap
  · exact (outside x a b fa fb hx _ rd).1
  obtain ⟨i1, i2, i3, i4⟩ := inside x a b hx.1 hx.2
  have ht := sub_round_pos h hp ha hb (hx.1.trans hx.2)
  have e := ratio_ov h hp he hΩ h1 (s := x - a) (t := b - a) (by linarith) (by linarith) ht hw
  obtain ⟨r0, r1⟩ := ratio_in_range h hp he (s := x - a) (t := b - a) (by linarith) (by linarith) ht
  simp only [linearstepO, linearstepR, XF.gt_fin, XF.le_fin, XF.ge_fin, XF.eq_fin, XF.sub_fin, decide_eq_true_eq, gt_iff_lt, ge_iff_le, if_neg i1, if_neg i2,
    if_neg i3, if_neg i4, e]
  generalize rd (rd (x - a) / rd (b - a)) = u at *
  have w0 : 0 ≤ rd (1 - u) := h.mono_float isFloat_zero (by linarith)
  have w1 : rd (1 - u) ≤ 1 := h.mono_float' (isFloat_one hp he) (by linarith)
  rw [ov_fin (z := 1 - u) (by rw [abs_of_nonneg w0]; linarith), XF.mul_fin, XF.mul_fin,
    ov_le h hΩ (abs_mul_le_left hfa (by rw [abs_of_nonneg w0]; exact w1)), ov_le h hΩ (abs_mul_le_left hfb (by rw [abs_of_nonneg r0]; exact r1)), XF.add_fin]
  rfl

/-! ### Doubles: the convex combination stays in the range -/

theorem maxDouble_eq : maxDouble = (2 ^ 53 - 1) * 2 ^ (971 : ℤ) := rfl

theorem top_lt (h : Nearest 53 (-1074) rd) {u : ℝ} (fu : IsFloat 53 (-1074) u) (hu : 0 < u) : rd (maxDouble * u) < 2 ^ 53 * 2 ^ (971 : ℤ) * u := by
  have hg : OnGrid (-1074) (maxDouble * u) := by
    obtain ⟨n, rfl⟩ := fu.grid
    obtain ⟨m, hm⟩ : OnGrid 0 maxDouble := OnGrid.mono (k := 971) (by norm_num) ⟨2 ^ 53 - 1, by rw [maxDouble_eq]; push_cast; ring⟩
    exact ⟨m * n, by rw [hm]; push_cast; ring⟩
  have e := h.rel_error (by norm_num) hg
  rw [maxDouble_eq] at *
  have ht : (0 : ℝ) < 2 ^ (971 : ℤ) := by positivity
  generalize (2 : ℝ) ^ (971 : ℤ) = t at *
  have htu : 0 < t * u := by positivity
  rw [abs_of_pos (show 0 < (2 ^ 53 - 1) * t * u by rw [mul_assoc]; exact mul_pos (by norm_num) htu)] at e
  have := (abs_le.1 e).2
  generalize rd ((2 ^ 53 - 1) * t * u) = B at *
  clear * - this htu
  rw [mul_assoc] at this ⊢
  generalize t * u = s at *
  norm_num at *
  linarith

theorem top_le (h : Nearest 53 (-1074) rd) {u : ℝ} (fu : IsFloat 53 (-1074) u) (hu : 1 / 2 < u) :
    rd (maxDouble * u) ≤ 2 ^ 53 * 2 ^ (971 : ℤ) * u - 2 ^ (971 : ℤ) := by
  have h1 := top_lt h fu (by linarith)
  have hu' : 2 ^ 53 * (2 : ℝ) ^ (-54 : ℤ) ≤ |u| := by rw [abs_of_pos (by linarith)]; norm_num; linarith
  obtain ⟨n, hn⟩ := fu.big_grid hu'
  have ht : (0 : ℝ) < 2 ^ (971 : ℤ) := by positivity
  have e970 : (2 : ℝ) ^ (970 : ℤ) = 2 ^ (971 : ℤ) / 2 := by
    rw [show (970 : ℤ) = 971 - 1 by norm_num, zpow_sub_one₀ (by norm_num)]; ring
  have hu2 : 1 / 2 + 1 / 2 ^ 53 ≤ u := by
    rw [hn] at hu ⊢
    norm_num at hu ⊢
    have : 4503599627370496 < n := by
      by_contra hc
      have : (n : ℝ) ≤ 4503599627370496 := by exact_mod_cast not_lt.1 hc
      linarith
    have : (4503599627370497 : ℝ) ≤ n := by exact_mod_cast this
    linarith
  have h2 : 2 ^ 53 * (2 : ℝ) ^ (970 : ℤ) ≤ |maxDouble * u| := by
    have hv : 2 ^ 52 ≤ (2 ^ 53 - 1) * u := by
      clear * - hu2
      norm_num at *
      linarith
    rw [maxDouble_eq, e970, show ((2 : ℝ) ^ 53 - 1) * 2 ^ (971 : ℤ) * u = (2 ^ 53 - 1) * u * 2 ^ (971 : ℤ) by ring,
      abs_of_pos (mul_pos (by linarith [show (0 : ℝ) < 2 ^ 52 by norm_num]) ht),
      show (2 : ℝ) ^ 53 * (2 ^ (971 : ℤ) / 2) = 2 ^ 52 * 2 ^ (971 : ℤ) by ring]
    exact mul_le_mul_of_nonneg_right hv ht.le
  obtain ⟨m, hm⟩ := (h _).1.big_grid (h.big (by norm_num) (by norm_num) h2)
  have e : 2 ^ 53 * 2 ^ (971 : ℤ) * u = (n : ℝ) * 2 ^ (971 : ℤ) := by
    rw [hn]
    rw [show (-54 : ℤ) + 1 = -53 by norm_num, show (2 : ℝ) ^ (-53 : ℤ) = 1 / 2 ^ 53 by norm_num]
    ring
  rw [show (970 : ℤ) + 1 = 971 by norm_num] at hm
  rw [e, hm] at h1 ⊢
  have : m < n := by
    have := lt_of_mul_lt_mul_right h1 ht.le
    exact_mod_cast this
  have : (m : ℝ) ≤ n - 1 := by
    have : m ≤ n - 1 := by omega
    exact_mod_cast this
  have := mul_le_mul_of_nonneg_right this ht.le
  rwa [sub_mul, one_mul] at this

theorem Nearest.flip (h : Nearest p emin rd) : Nearest p emin (fun z => -rd (-z)) := by
  intro z
  refine ⟨(h _).1.neg, fun f hf => ?_⟩
  have := (h (-z)).2 (-f) hf.neg
  rw [show -rd (-z) - z = -(rd (-z) - -z) by ring, abs_neg, show f - z = -(-f - -z) by ring, abs_neg]
  exact this

theorem half_max : IsFloat 53 (-1074) (maxDouble * (1 / 2)) :=
  ⟨2 ^ 53 - 1, 970, by norm_num, by norm_num, by
    rw [maxDouble_eq, show (971 : ℤ) = 970 + 1 by norm_num, zpow_add_one₀ (by norm_num)]
    push_cast; ring⟩

/-- The rounded weights `1 - u` and `u` of the largest double. -/
theorem weights_lt (h : Nearest 53 (-1074) rd) {u w : ℝ} (fu : IsFloat 53 (-1074) u) (fw : IsFloat 53 (-1074) w) (hu0 : 0 ≤ u) (hw0 : 0 ≤ w) (hw1 : w ≤ 1)
    (he : w ≤ 1 - u + 1 / 2 ^ 54) (hx : 1 / 2 ≤ u → w = 1 - u) :
    rd (maxDouble * w) + rd (maxDouble * u) < (2 ^ 53 - 1 / 2) * 2 ^ (971 : ℤ) := by
  have ht : (0 : ℝ) < 2 ^ (971 : ℤ) := by positivity
  have r0 : rd (maxDouble * 0) = 0 := by rw [mul_zero]; exact h.exact isFloat_zero
  have bu : rd (maxDouble * u) ≤ 2 ^ 53 * 2 ^ (971 : ℤ) * u := by
    rcases hu0.eq_or_lt with c | c
    · rw [← c, r0, mul_zero]
    · exact (top_lt h fu c).le
  have bw : rd (maxDouble * w) ≤ 2 ^ 53 * 2 ^ (971 : ℤ) * w := by
    rcases hw0.eq_or_lt with c | c
    · rw [← c, r0, mul_zero]
    · exact (top_lt h fw c).le
  have rh : rd (maxDouble * (1 / 2)) = (2 ^ 52 - 1 / 2) * 2 ^ (971 : ℤ) := by
    rw [h.exact half_max, maxDouble_eq]; ring
  have hM : 0 ≤ maxDouble := le_trans (by positivity) maxDouble_ge
  rcases lt_trichotomy u (1 / 2) with c | c | c
  · rcases le_or_gt w (1 / 2) with d | d
    · have a1 : rd (maxDouble * w) ≤ rd (maxDouble * (1 / 2)) := h.monotone (mul_le_mul_of_nonneg_left d hM)
      rw [rh] at a1
      generalize (2 : ℝ) ^ (971 : ℤ) = t at *
      generalize rd (maxDouble * w) = A at *
      generalize rd (maxDouble * u) = B at *
      have : t * u < t * (1 / 2) := mul_lt_mul_of_pos_left c ht
      clear * - a1 bu this
      norm_num at *
      linarith
    · have a1 := top_le h fw d
      rcases hu0.eq_or_lt with c0 | c0
      · have a2 : rd (maxDouble * w) ≤ maxDouble := h.mono_float' isFloat_maxDouble (mul_le_of_le_one_right hM hw1)
        rw [← c0, r0, add_zero]
        refine lt_of_le_of_lt a2 ?_
        rw [maxDouble_eq]
        exact mul_lt_mul_of_pos_right (by norm_num) ht
      · have b1 := top_lt h fu c0
        have : 2 ^ (971 : ℤ) * w ≤ 2 ^ (971 : ℤ) * (1 - u + 1 / 2 ^ 54) := mul_le_mul_of_nonneg_left he ht.le
        generalize (2 : ℝ) ^ (971 : ℤ) = t at *
        generalize rd (maxDouble * w) = A at *
        generalize rd (maxDouble * u) = B at *
        clear * - a1 b1 this
        norm_num at *
        linarith
  · rw [hx c.ge, c, show (1 : ℝ) - 1 / 2 = 1 / 2 by norm_num, rh]
    generalize (2 : ℝ) ^ (971 : ℤ) = t at *
    clear * - ht
    norm_num
    linarith
  · have b1 := top_le h fu c
    rw [hx c.le] at bw ⊢
    generalize (2 : ℝ) ^ (971 : ℤ) = t at *
    generalize rd (maxDouble * (1 - u)) = A at *
    generalize rd (maxDouble * u) = B at *
    clear * - bw b1 ht
    norm_num at *
    linarith

/-- A number less than half a step above the largest double is rounded to at most that. -/
theorem round_le_max (h : Nearest 53 (-1074) rd) {z : ℝ} (hz : z < (2 ^ 53 - 1 / 2) * 2 ^ (971 : ℤ)) : rd z ≤ maxDouble := by
  rcases le_or_gt z maxDouble with c | c
  · exact h.mono_float' isFloat_maxDouble c
  have ht : (0 : ℝ) < 2 ^ (971 : ℤ) := by positivity
  have h1 : maxDouble ≤ rd z := h.mono_float isFloat_maxDouble c.le
  have h2 := (h z).2 _ isFloat_maxDouble
  have e970 : 2 ^ 53 * (2 : ℝ) ^ (970 : ℤ) = 2 ^ 52 * 2 ^ (971 : ℤ) := by
    rw [show (970 : ℤ) = 971 - 1 by norm_num, zpow_sub_one₀ (by norm_num)]; ring
  have hM : 2 ^ 52 * 2 ^ (971 : ℤ) ≤ maxDouble := by
    rw [maxDouble_eq]; exact mul_le_mul_of_nonneg_right (by norm_num) ht.le
  obtain ⟨m, hm⟩ := (h z).1.big_grid (k := 970) (by
    rw [e970, abs_of_nonneg (le_trans (by positivity) (hM.trans h1))]; exact hM.trans h1)
  rw [show (970 : ℤ) + 1 = 971 by norm_num] at hm
  have h3 : rd z < 2 ^ 53 * 2 ^ (971 : ℤ) := by
    rw [abs_sub_comm maxDouble, abs_of_pos (sub_pos.2 c)] at h2
    have := (abs_le.1 h2).2
    rw [maxDouble_eq] at *
    generalize (2 : ℝ) ^ (971 : ℤ) = t at *
    clear * - this hz
    norm_num at *
    linarith
  rw [hm] at h3 ⊢
  have : m < 2 ^ 53 := by
    have := lt_of_mul_lt_mul_right h3 ht.le
    exact_mod_cast this
  rw [maxDouble_eq]
  refine mul_le_mul_of_nonneg_right ?_ ht.le
  have : m ≤ 2 ^ 53 - 1 := by omega
  exact_mod_cast this

theorem combination_le (h : Nearest 53 (-1074) rd) {u w fa fb : ℝ} (fu : IsFloat 53 (-1074) u) (fw : IsFloat 53 (-1074) w) (hu0 : 0 ≤ u)
    (hw0 : 0 ≤ w) (hw1 : w ≤ 1) (he : w ≤ 1 - u + 1 / 2 ^ 54) (hx : 1 / 2 ≤ u → w = 1 - u) (ha : |fa| ≤ maxDouble) (hb : |fb| ≤ maxDouble) :
    rd (rd (fa * w) + rd (fb * u)) ≤ maxDouble := by
  apply round_le_max h
  refine lt_of_le_of_lt ?_ (weights_lt h fu fw hu0 hw0 hw1 he hx)
  exact add_le_add (h.monotone (mul_le_mul_of_nonneg_right (le_of_abs_le ha) hw0)) (h.monotone (mul_le_mul_of_nonneg_right (le_of_abs_le hb) hu0))

/-- C88: in double precision, `linearstep` of finite numbers never overflows, if the width of the step is a
finite double: the result is that of arithmetic without overflow, for all values at the two ends. -/
theorem C88_linearstep_double (h : Nearest 53 (-1074) rd) (x a b fa fb : ℝ)
    (ha : IsFloat 53 (-1074) a) (hb : IsFloat 53 (-1074) b) (hfa : |fa| ≤ maxDouble) (hfb : |fb| ≤ maxDouble) (hw : b - a ≤ maxDouble) :
    linearstepO (ov rd maxDouble) (.fin x) (.fin a) (.fin b) (.fin fa) (.fin fb) = linearstepR rd x a b fa fb := by
  have h1 : 1 ≤ maxDouble := le_trans (one_le_zpow₀ (by norm_num) (by norm_num)) maxDouble_ge
  rw [C88_linearstep h (by norm_num) (by norm_num) isFloat_maxDouble h1 x a b fa fb ha hb hfa hfb hw]
  split_ifs with hx
  swap
  · rfl
  obtain ⟨i1, i2, i3, i4⟩ := inside x a b hx.1 hx.2
  have ht := sub_round_pos h (by norm_num) ha hb (hx.1.trans hx.2)
  obtain ⟨r0, r1⟩ := ratio_in_range h (by norm_num) (by norm_num) (s := x - a) (t := b - a) (by linarith) (by linarith) ht
  simp only [linearstepR, gt_iff_lt, ge_iff_le, if_neg i1, if_neg i2, if_neg i3, if_neg i4]
  have fu := (h (rd (x - a) / rd (b - a))).1
  generalize rd (rd (x - a) / rd (b - a)) = u at *
  have w0 : 0 ≤ rd (1 - u) := h.mono_float isFloat_zero (by linarith)
  have w1 : rd (1 - u) ≤ 1 := h.mono_float' (isFloat_one (by norm_num) (by norm_num)) (by linarith)
  have he : rd (1 - u) ≤ 1 - u + 1 / 2 ^ 54 := by
    have := h.half (by norm_num) (k := -53) (by norm_num) (z := 1 - u) (by rw [abs_of_nonneg (by linarith)]; norm_num; linarith)
    have := (abs_le.1 this).2
    norm_num at this ⊢
    linarith
  have hx : 1 / 2 ≤ u → rd (1 - u) = 1 - u := by
    intro hu
    apply h.exact
    have hg : OnGrid (-54 + 1) u := fu.big_grid (k := -54) (by rw [abs_of_nonneg r0]; norm_num; linarith)
    rw [show (-54 : ℤ) + 1 = -53 by norm_num] at hg
    have h1 : OnGrid (-53) (1 : ℝ) := ⟨2 ^ 53, by norm_num⟩
    exact isFloat_of_grid (by norm_num) (by norm_num) (h1.sub hg) (by rw [abs_of_nonneg (by linarith)]; norm_num; linarith)
  have e1 := combination_le h fu (h _).1 r0 w0 w1 he hx hfa hfb
  have e2 := combination_le (Nearest.flip h) (fa := -fa) (fb := -fb) fu (h (1 - u)).1 r0 w0 w1 he hx (by rwa [abs_neg]) (by rwa [abs_neg])
  simp only [neg_mul, neg_neg, neg_add_rev] at e2
  rw [add_comm (rd (fb * u))] at e2
  exact ov_fin (rd := id) (abs_le.2 ⟨by simpa using neg_le_neg e2, e1⟩)

/-! ### Numbers up to a power of two -/

theorem ov_two (h : Nearest p emin rd) (hp : 1 ≤ p) {k : ℤ} (hk : emin ≤ k) (hkΩ : 2 ^ k ≤ Ω) {z : ℝ} (hz : |z| ≤ 2 ^ k) :
    ov rd Ω (.fin z) = .fin (rd z) ∧ |rd z| ≤ 2 ^ k := by
  have := abs_round_le h (isFloat_zpow hp hk) hz
  exact ⟨ov_fin (this.trans hkΩ), this⟩

theorem two_zpow_mul (k j : ℤ) : (2 : ℝ) ^ k * 2 ^ j = 2 ^ (k + j) := (zpow_add₀ (by norm_num) _ _).symm

theorem abs_mul_two {y w : ℝ} {k j : ℤ} (hy : |y| ≤ 2 ^ k) (hw : |w| ≤ 2 ^ j) : |y * w| ≤ 2 ^ (k + j) := by
  rw [abs_mul, ← two_zpow_mul]
  exact mul_le_mul hy hw (abs_nonneg _) (by positivity)

theorem abs_sub_two {y w : ℝ} {k : ℤ} (hy : |y| ≤ 2 ^ k) (hw : |w| ≤ 2 ^ k) : |y - w| ≤ 2 ^ (k + 1) := by
  refine (abs_sub _ _).trans ?_
  rw [zpow_add_one₀ (by norm_num)]; linarith

theorem abs_add_two {y w : ℝ} {k : ℤ} (hy : |y| ≤ 2 ^ k) (hw : |w| ≤ 2 ^ k) : |y + w| ≤ 2 ^ (k + 1) := by
  refine (abs_add_le _ _).trans ?_
  rw [zpow_add_one₀ (by norm_num)]; linarith

/-- C88: `smoothstep3` and `smoothstep5` of numbers of magnitude at most `2^m` do not overflow if `2^(m+7)` is in
the range (`m = 1016` for doubles). -/
theorem C88_smoothstep (h : Nearest p emin rd) (hp : 1 ≤ p) (he : emin ≤ 0) (hΩ : IsFloat p emin Ω) (m : ℕ) (hm : 2 ^ (m + 7) ≤ Ω) (x a b fa fb : ℝ)
    (ha : IsFloat p emin a) (hb : IsFloat p emin b) (hax : |a| ≤ 2 ^ m) (hbx : |b| ≤ 2 ^ m) (hfa : |fa| ≤ 2 ^ m) (hfb : |fb| ≤ 2 ^ m) :
    smoothstep3O (ov rd Ω) (.fin x) (.fin a) (.fin b) (.fin fa) (.fin fb) = smoothstep3R rd x a b fa fb ∧
    smoothstep5O (ov rd Ω) (.fin x) (.fin a) (.fin b) (.fin fa) (.fin fb) = smoothstep5R rd x a b fa fb := by
  by_cases hx : a < x ∧ x < b
  swap
  · exact (outside x a b fa fb hx _ rd).2
  rw [← zpow_natCast] at hm hax hbx hfa hfb
  push_cast at hm
  generalize hM : (m : ℤ) = M at *
  have hM0 : 0 ≤ M := by omega
  have hΩk : ∀ k : ℤ, k ≤ M + 7 → (2 : ℝ) ^ k ≤ Ω := fun k hk => (zpow_le_zpow_right₀ (by norm_num) hk).trans hm
  have h1 : 1 ≤ Ω := by simpa using hΩk 0 (by omega)
  have V : ∀ {z : ℝ} (k : ℤ), 0 ≤ k → k ≤ M + 7 → |z| ≤ 2 ^ k → ov rd Ω (.fin z) = .fin (rd z) ∧ |rd z| ≤ 2 ^ k :=
    fun k hk hk' hz => ov_two h hp (by omega) (hΩk k hk') hz
  obtain ⟨i1, i2, i3, i4⟩ := inside x a b hx.1 hx.2
  have ht := sub_round_pos h hp ha hb (hx.1.trans hx.2)
  have hw : b - a ≤ Ω := (le_abs_self _).trans ((abs_sub_two hbx hax).trans (hΩk _ (by omega)))
  have e := ratio_ov h hp he hΩ h1 (s := x - a) (t := b - a) (by linarith) (by linarith) ht hw
  obtain ⟨r0, r1⟩ := ratio_in_range h hp he (s := x - a) (t := b - a) (by linarith) (by linarith) ht
  simp only [smoothstep3O, smoothstep3R, smoothstep5O, smoothstep5R, XF.gt_fin, XF.le_fin, XF.ge_fin, XF.eq_fin, XF.sub_fin, decide_eq_true_eq,
    gt_iff_lt, ge_iff_le, if_neg i1, if_neg i2, if_neg i3, if_neg i4, e]
  generalize rd (rd (x - a) / rd (b - a)) = u at *
  have hu : |u| ≤ 2 ^ (0 : ℤ) := by rw [abs_of_nonneg r0]; simpa using r1
  obtain ⟨d1, d2⟩ := V (M + 1) (by omega) (by omega) (abs_sub_two hfb hfa)
  obtain ⟨g1, g2⟩ := V (M + 1 + 0) (by omega) (by omega) (abs_mul_two d2 hu)
  obtain ⟨k1, k2⟩ := V (M + 1 + 0 + 0) (by omega) (by omega) (abs_mul_two g2 hu)
  obtain ⟨l1, l2⟩ := V (M + 1 + 0 + 0 + 0) (by omega) (by omega) (abs_mul_two k2 hu)
  constructor
  · obtain ⟨w1, w2⟩ := V 1 (by omega) (by omega) (show |2 * u| ≤ 2 ^ (1 : ℤ) by rw [abs_of_nonneg (by linarith)]; norm_num; linarith)
    have w3 : 0 ≤ rd (2 * u) := h.mono_float isFloat_zero (by linarith)
    have w4 : rd (2 * u) ≤ 2 := by rw [abs_of_nonneg w3] at w2; simpa using w2
    obtain ⟨v1, v2⟩ := V 2 (by omega) (by omega) (show |3 - rd (2 * u)| ≤ 2 ^ (2 : ℤ) by rw [abs_of_nonneg (by linarith)]; norm_num; linarith)
    obtain ⟨q1, q2⟩ := V (M + 1 + 0 + 0 + 2) (by omega) (by omega) (abs_mul_two k2 v2)
    obtain ⟨s1, -⟩ := V (M + 1 + 0 + 0 + 2 + 1) (by omega) (by omega) (abs_add_two (hfa.trans (zpow_le_zpow_right₀ (by norm_num) (by omega))) q2)
    simp only [XF.mul_fin, XF.sub_fin, XF.add_fin, d1, g1, k1, w1, v1, q1, s1]
  · have n6 : (6 : ℝ) ≤ 2 ^ (3 : ℤ) := by norm_num
    obtain ⟨w1, w2⟩ := V 3 (by omega) (by omega) (show |6 * u| ≤ 2 ^ (3 : ℤ) by rw [abs_of_nonneg (by linarith)]; norm_num; linarith)
    have w3 : 0 ≤ rd (6 * u) := h.mono_float isFloat_zero (by linarith)
    have w4 : rd (6 * u) ≤ 8 := by rw [abs_of_nonneg w3] at w2; norm_num at w2; exact w2
    obtain ⟨v1, v2⟩ := V 4 (by omega) (by omega) (show |rd (6 * u) - 15| ≤ 2 ^ (4 : ℤ) by
      rw [abs_of_nonpos (by linarith)]; norm_num; linarith)
    obtain ⟨y1, y2⟩ := V (0 + 4) (by omega) (by omega) (abs_mul_two hu v2)
    obtain ⟨z1, z2⟩ := V (0 + 4 + 1) (by omega) (by omega) (abs_add_two y2 (show |(10 : ℝ)| ≤ 2 ^ (0 + 4 : ℤ) by norm_num))
    obtain ⟨q1, q2⟩ := V (M + 1 + 0 + 0 + 0 + (0 + 4 + 1)) (by omega) (by omega) (abs_mul_two l2 z2)
    obtain ⟨s1, -⟩ := V (M + 1 + 0 + 0 + 0 + (0 + 4 + 1) + 1) (by omega) (by omega)
      (abs_add_two (hfa.trans (zpow_le_zpow_right₀ (by norm_num) (by omega))) q2)
    simp only [XF.mul_fin, XF.sub_fin, XF.add_fin, d1, g1, k1, l1, w1, v1, y1, z1, q1, s1]

end Ufunclab.Step

namespace Ufunclab.Deadzone
open Ufunclab.Float Step
variable {p : ℕ} {emin : ℤ} {rd : ℝ → ℝ} {Ω : ℝ}

/-- C88: without rounding the model is that of C49. -/
theorem C88_trapezoid_exact_arithmetic (x a b c d amp : XF ℝ) : trapezoidO id x a b c d amp = trapezoid x a b c d amp := rfl

/-- C88: `trapezoid_pulse` of finite numbers does not overflow if the widths of its two ramps are in the range. -/
theorem C88_trapezoid (h : Nearest p emin rd) (hp : 1 ≤ p) (he : emin ≤ 0) (hΩ : IsFloat p emin Ω) (h1 : 1 ≤ Ω) (x a b c d amp : ℝ)
    (ha : IsFloat p emin a) (hb : IsFloat p emin b) (hc : IsFloat p emin c) (hd : IsFloat p emin d) (hamp : |amp| ≤ Ω) (hw : b - a ≤ Ω) (hw' : d - c ≤ Ω) :
    trapezoidO (ov rd Ω) (.fin x) (.fin a) (.fin b) (.fin c) (.fin d) (.fin amp) = trapezoidR rd x a b c d amp := by
  simp only [trapezoidO, trapezoidR, XF.le_fin, XF.ge_fin, XF.lt_fin, XF.sub_fin, Bool.not_eq_true', Bool.and_eq_false_iff, Bool.or_eq_true, Bool.and_eq_true,
    decide_eq_true_eq, decide_eq_false_iff_not, not_and_or, or_assoc]
  by_cases h0 : ¬ a ≤ b ∨ ¬ b ≤ c ∨ ¬ c ≤ d
  · rw [if_pos h0, if_pos h0]
  rw [if_neg h0, if_neg h0]
  push Not at h0
  by_cases h2 : x ≤ a ∨ x ≥ d
  · rw [if_pos h2, if_pos h2]
  rw [if_neg h2, if_neg h2]
  push Not at h2
  by_cases h3 : x ≥ b ∧ x ≤ c
  · rw [if_pos h3, if_pos h3]
  rw [if_neg h3, if_neg h3]
  by_cases h4 : x < b
  · rw [if_pos h4, if_pos h4]
    have ht := sub_round_pos h hp ha hb (h2.1.trans h4)
    rw [ratio_ov h hp he hΩ h1 (s := x - a) (t := b - a) (by linarith) (by linarith) ht hw, XF.mul_fin]
    obtain ⟨r0, r1⟩ := ratio_in_range h hp he (s := x - a) (t := b - a) (by linarith) (by linarith) ht
    exact ov_le h hΩ (abs_mul_le_left hamp (by rw [abs_of_nonneg r0]; exact r1))
  · rw [if_neg h4, if_neg h4]
    have h5 : c < x := by
      by_contra hc'
      exact h3 ⟨not_lt.1 h4, not_lt.1 hc'⟩
    have ht := sub_round_pos h hp hc hd (h5.trans h2.2)
    rw [ratio_ov h hp he hΩ h1 (s := d - x) (t := d - c) (by linarith) (by linarith) ht hw', XF.mul_fin]
    obtain ⟨r0, r1⟩ := ratio_in_range h hp he (s := d - x) (t := d - c) (by linarith) (by linarith) ht
    exact ov_le h hΩ (abs_mul_le_left hamp (by rw [abs_of_nonneg r0]; exact r1))

end Ufunclab.Deadzone

namespace Ufunclab.LinearInterp
open Ufunclab.Float Step
variable {p : ℕ} {emin : ℤ} {rd : ℝ → ℝ} {Ω : ℝ}

/-- C88: without rounding the model is that of C47. -/
theorem C88_interp_exact_arithmetic (x : XF ℝ) (xp fp : List (XF ℝ)) : interpOneO id x xp fp = interpOne x xp fp := by
  simp only [interpOneO, interpOne, id]
  cases xp[0]? <;> cases xp[xp.length - 1]? <;> try rfl
  cases search x xp with
  | none => rfl
  | some k =>
    cases h1 : xp[k]? <;> cases h2 : fp[k]? <;> simp only [h1, h2]
    cases xp[k + 1]? <;> cases fp[k + 1]? <;> rfl

/-- What both loops compute, given the place found by the search. -/
theorem interpO_of_search (r : XF ℝ → XF ℝ) (rd : ℝ → ℝ) (x : ℝ) (a f : List ℝ) (hf : f.length = a.length)
    (hs : a.Pairwise (· < ·)) (hn : 0 < a.length) (hlo : a[0] ≤ x) (hhi : x ≤ a[a.length - 1]) :
    ∃ k, ∃ hk : k < a.length,
    ((a[k] = x ∧ interpOneO r (.fin x) (a.map .fin) (f.map .fin) = some (.fin (f[k]'(by omega))) ∧
      fastOneO r (.fin x) (a.map .fin) (f.map .fin) = some (.fin (f[k]'(by omega))) ∧
      interpOneR rd x a f = some (.fin (f[k]'(by omega))) ∧ fastOneR rd x a f = some (.fin (f[k]'(by omega)))) ∨
     (∃ hk' : k + 1 < a.length, a[k] < x ∧ x < a[k + 1] ∧
       interpOneO r (.fin x) (a.map .fin) (f.map .fin) = some (r (.add (.fin f[k])
        (r (.mul (r (.div (r (.fin (f[k + 1] - f[k]))) (r (.fin (a[k + 1] - a[k]))))) (r (.fin (x - a[k]))))))) ∧
       fastOneO r (.fin x) (a.map .fin) (f.map .fin) = some (r (.add (.fin f[k])
        (r (.mul (r (.div (r (.fin (x - a[k]))) (r (.fin (a[k + 1] - a[k]))))) (r (.fin (f[k + 1] - f[k]))))))) ∧
       interpOneR rd x a f = some (.fin (rd (f[k] + rd (rd (rd (f[k + 1] - f[k]) / rd (a[k + 1] - a[k])) * rd (x - a[k]))))) ∧
       fastOneR rd x a f = some (.fin (rd (f[k] + rd (rd (rd (x - a[k]) / rd (a[k + 1] - a[k])) * rd (f[k + 1] - f[k]))))))) := by
  obtain ⟨k, hk, e, h⟩ := search_sorted x a hs hn hlo hhi
  refine ⟨k, hk, ?_⟩
  have hlen : (a.map (XF.fin (K := ℝ))).length = a.length := List.length_map ..
  have g0 : (a.map (XF.fin (K := ℝ)))[0]? = some (.fin a[0]) := by rw [List.getElem?_map, List.getElem?_eq_getElem hn]; rfl
  have gl : (a.map (XF.fin (K := ℝ)))[a.length - 1]? = some (.fin a[a.length - 1]) := by
    rw [List.getElem?_map, List.getElem?_eq_getElem (by omega)]; rfl
  have gk : (a.map (XF.fin (K := ℝ)))[k]? = some (.fin a[k]) := by rw [List.getElem?_map, List.getElem?_eq_getElem hk]; rfl
  have fk : (f.map (XF.fin (K := ℝ)))[k]? = some (.fin (f[k]'(by omega))) := by rw [List.getElem?_map, List.getElem?_eq_getElem (by omega)]; rfl
  have hc : ¬ ((XF.lt (.fin x) (.fin a[0]) || XF.gt (.fin x) (.fin a[a.length - 1])) = true) := by
    simp only [XF.lt_fin, XF.gt_fin, Bool.or_eq_true, decide_eq_true_eq, not_or, not_lt]
    exact ⟨hlo, hhi⟩
  have hl : ¬ a.length < 1 := by omega
  have g0' : a[0]? = some a[0] := List.getElem?_eq_getElem _
  have gl' : a[a.length - 1]? = some (a[a.length - 1]) := List.getElem?_eq_getElem _
  have gkr : a[k]? = some a[k] := List.getElem?_eq_getElem _
  have fkr : f[k]? = some (f[k]'(by omega)) := List.getElem?_eq_getElem _
  have hc' : ¬ (x < a[0] ∨ x > a[a.length - 1]) := by
    rw [not_or]; exact ⟨not_lt.2 hlo, not_lt.2 hhi⟩
  rcases h with h | ⟨hk', h1, h2⟩
  · left
    have hx : XF.eq (.fin x) (.fin a[k]) = true := by rw [XF.eq_fin, h]; simp
    refine ⟨h, ?_, ?_, ?_, ?_⟩
    · simp only [interpOneO, hlen, g0, gl, if_neg hc, if_neg hl, e, gk, fk, if_pos hx]
    · simp only [fastOneO, hlen, g0, gl, if_neg hc, e, gk, fk, if_pos hx]
    · simp only [interpOneR, g0', gl', hc', hl, e, gkr, fkr, h, if_false, if_true]
    · simp only [fastOneR, g0', gl', hc', e, gkr, fkr, h, if_false, if_true, Option.map_some]
  · right
    have hx : ¬ XF.eq (.fin x) (.fin a[k]) = true := by rw [XF.eq_fin]; simpa using h1.ne'
    have gk' : (a.map (XF.fin (K := ℝ)))[k + 1]? = some (.fin a[k + 1]) := by rw [List.getElem?_map, List.getElem?_eq_getElem hk']; rfl
    have fk' : (f.map (XF.fin (K := ℝ)))[k + 1]? = some (.fin (f[k + 1]'(by omega))) := by rw [List.getElem?_map, List.getElem?_eq_getElem (by omega)]; rfl
    have gkr' : a[k + 1]? = some a[k + 1] := List.getElem?_eq_getElem _
    have fkr' : f[k + 1]? = some (f[k + 1]'(by omega)) := List.getElem?_eq_getElem _
    refine ⟨hk', h1, h2, ?_, ?_, ?_, ?_⟩
    · simp only [interpOneO, hlen, g0, gl, if_neg hc, if_neg hl, e, gk, fk, gk', fk', if_neg hx, XF.sub_fin]
    · simp only [fastOneO, hlen, g0, gl, if_neg hc, e, gk, fk, gk', fk', if_neg hx, XF.sub_fin]
    · simp only [interpOneR, g0', gl', hc', hl, e, gkr, fkr, gkr', fkr', h1.ne', if_false]
    · simp only [fastOneR, g0', gl', hc', e, gkr, fkr, gkr', fkr', h1.ne', if_false]

/-- Outside the table both loops return NaN. -/
theorem interpO_outside (r : XF ℝ → XF ℝ) (rd : ℝ → ℝ) (x : ℝ) (a f : List ℝ) (hn : 0 < a.length) (hx : x < a[0] ∨ x > a[a.length - 1]) :
    interpOneO r (.fin x) (a.map .fin) (f.map .fin) = interpOneR rd x a f ∧ fastOneO r (.fin x) (a.map .fin) (f.map .fin) = fastOneR rd x a f := by
  have hlen : (a.map (XF.fin (K := ℝ))).length = a.length := List.length_map ..
  have g0 : (a.map (XF.fin (K := ℝ)))[0]? = some (.fin a[0]) := by rw [List.getElem?_map, List.getElem?_eq_getElem hn]; rfl
  have gl : (a.map (XF.fin (K := ℝ)))[a.length - 1]? = some (.fin a[a.length - 1]) := by
    rw [List.getElem?_map, List.getElem?_eq_getElem (by omega)]; rfl
  have g0' : a[0]? = some a[0] := List.getElem?_eq_getElem _
  have gl' : a[a.length - 1]? = some (a[a.length - 1]) := List.getElem?_eq_getElem _
  have hc : (XF.lt (.fin x) (.fin a[0]) || XF.gt (.fin x) (.fin a[a.length - 1])) = true := by
    simpa only [XF.lt_fin, XF.gt_fin, Bool.or_eq_true, decide_eq_true_eq] using hx
  have hl : ¬ a.length < 1 := by omega
  constructor
  · simp only [interpOneO, interpOneR, hlen, g0, gl, g0', gl', if_pos hc, if_pos hx, if_neg hl]
  · simp only [fastOneO, fastOneR, hlen, g0, gl, g0', gl', if_pos hc, if_pos hx]

/-- C88: `linear_interp1d` for a table and a point used for several function values does not overflow if
all numbers are of magnitude at most `2^m` and `2^(m+2)` is in the range. -/
theorem C88_interp_shared (h : Nearest p emin rd) (hp : 1 ≤ p) (he : emin ≤ 0) (hΩ : IsFloat p emin Ω) (m : ℕ) (hm : 2 ^ (m + 2) ≤ Ω)
    (x : ℝ) (a f : List ℝ) (hf : f.length = a.length) (hs : a.Pairwise (· < ·)) (hn : 0 < a.length) (ha : ∀ z ∈ a, IsFloat p emin z)
    (ham : ∀ z ∈ a, |z| ≤ 2 ^ m) (hfm : ∀ z ∈ f, |z| ≤ 2 ^ m) :
    fastOneO (ov rd Ω) (.fin x) (a.map .fin) (f.map .fin) = fastOneR rd x a f := by
  by_cases hx : x < a[0] ∨ x > a[a.length - 1]
  · exact (interpO_outside _ rd x a f hn hx).2
  push Not at hx
  obtain ⟨k, hk, ⟨-, -, e1, -, e2⟩ | ⟨hk', h1, h2, -, e1, -, e2⟩⟩ := interpO_of_search (ov rd Ω) rd x a f hf hs hn hx.1 hx.2
  · rw [e1, e2]
  rw [e1, e2]
  have a0 := ha _ (List.getElem_mem (l := a) (n := k) (by omega))
  have a1 := ha _ (List.getElem_mem (l := a) (n := k + 1) (by omega))
  have m0 := ham _ (List.getElem_mem (l := a) (n := k) (by omega))
  have m1 := ham _ (List.getElem_mem (l := a) (n := k + 1) (by omega))
  have n0 := hfm _ (List.getElem_mem (l := f) (n := k) (by omega))
  have n1 := hfm _ (List.getElem_mem (l := f) (n := k + 1) (by omega))
  rw [← zpow_natCast] at hm m0 m1 n0 n1
  push_cast at hm
  have hΩk : ∀ k : ℤ, k ≤ m + 2 → (2 : ℝ) ^ k ≤ Ω := fun k hk => (zpow_le_zpow_right₀ (by norm_num) hk).trans hm
  have h1' : 1 ≤ Ω := by simpa using hΩk 0 (by omega)
  have ht := sub_round_pos h hp a0 a1 (h1.trans h2)
  have hw : a[k + 1] - a[k] ≤ Ω := (le_abs_self _).trans ((abs_sub_two m1 m0).trans (hΩk _ (by omega)))
  rw [ratio_ov h hp he hΩ h1' (s := x - a[k]) (t := a[k + 1] - a[k]) (by linarith) (by linarith) ht hw]
  obtain ⟨r0, r1⟩ := ratio_in_range h hp he (s := x - a[k]) (t := a[k + 1] - a[k]) (by linarith) (by linarith) ht
  obtain ⟨d1, d2⟩ := ov_two h hp (by omega) (hΩk (m + 1) (by omega)) (abs_sub_two n1 n0)
  rw [d1, XF.mul_fin, mul_comm]
  obtain ⟨q1, q2⟩ := ov_two h hp (by omega) (hΩk (m + 1) (by omega)) (abs_mul_le_left d2 (show |rd (rd (x - a[k]) / rd (a[k + 1] - a[k]))| ≤ 1 by
    rw [abs_of_nonneg r0]; exact r1))
  rw [q1, XF.add_fin]
  obtain ⟨s1, -⟩ := ov_two h hp (by omega) (hΩk (m + 1 + 1) (by omega)) (abs_add_two (n0.trans (zpow_le_zpow_right₀ (by norm_num) (by omega))) q2)
  rw [s1]

/-- C88 (`linear_interp1d`, general path): no overflow if all numbers are of magnitude at most `2^m`, the slopes
between neighbouring points at most `2^c`, and `2^(m+3)` and `2^(c+2)` are in the range. -/
theorem C88_interp_partial (h : Nearest p emin rd) (hp : 1 ≤ p) (he : emin ≤ 0) (m c : ℕ) (hm : 2 ^ (m + 3) ≤ Ω) (hc : 2 ^ (c + 2) ≤ Ω)
    (x : ℝ) (a f : List ℝ) (hf : f.length = a.length) (hs : a.Pairwise (· < ·)) (hn : 0 < a.length) (ha : ∀ z ∈ a, IsFloat p emin z)
    (ham : ∀ z ∈ a, |z| ≤ 2 ^ m) (hfm : ∀ z ∈ f, |z| ≤ 2 ^ m)
    (hsl : ∀ k, ∀ hk : k + 1 < a.length, |f[k + 1] - f[k]| ≤ 2 ^ c * (a[k + 1] - a[k])) :
    interpOneO (ov rd Ω) (.fin x) (a.map .fin) (f.map .fin) = interpOneR rd x a f := by
  by_cases hx : x < a[0] ∨ x > a[a.length - 1]
  · exact (interpO_outside _ rd x a f hn hx).1
  push Not at hx
  obtain ⟨k, hk, ⟨-, e1, -, e2, -⟩ | ⟨hk', h1, h2, e1, -, e2, -⟩⟩ := interpO_of_search (ov rd Ω) rd x a f hf hs hn hx.1 hx.2
  · rw [e1, e2]
  rw [e1, e2]
  have a0 := ha _ (List.getElem_mem (l := a) (n := k) (by omega))
  have a1 := ha _ (List.getElem_mem (l := a) (n := k + 1) (by omega))
  have m0 := ham _ (List.getElem_mem (l := a) (n := k) (by omega))
  have m1 := ham _ (List.getElem_mem (l := a) (n := k + 1) (by omega))
  have n0 := hfm _ (List.getElem_mem (l := f) (n := k) (by omega))
  have n1 := hfm _ (List.getElem_mem (l := f) (n := k + 1) (by omega))
  have hsk := hsl k hk'
  have hrel := h.rel_error hp (a1.grid.sub a0.grid)
  have ht := sub_round_pos h hp a0 a1 (h1.trans h2)
  rw [← zpow_natCast] at hm hc hsk m0 m1 n0 n1
  push_cast at hm hc
  have hΩk : ∀ k : ℤ, k ≤ m + 3 → (2 : ℝ) ^ k ≤ Ω := fun k hk => (zpow_le_zpow_right₀ (by norm_num) hk).trans hm
  generalize a[k] = x0 at *
  generalize a[k + 1] = x1 at *
  generalize f[k] = f0 at *
  generalize f[k + 1] = f1 at *
  have hu : ((2 : ℝ) ^ p)⁻¹ ≤ 1 / 2 := by
    rw [one_div]
    exact inv_anti₀ (by norm_num) (by simpa using pow_le_pow_right₀ (by norm_num : (1 : ℝ) ≤ 2) hp)
  have hW : (x1 - x0) / 2 ≤ rd (x1 - x0) := by
    rw [abs_of_pos (show 0 < x1 - x0 by linarith)] at hrel
    have := (abs_le.1 hrel).1
    nlinarith
  obtain ⟨d1, d2⟩ := ov_two h hp (by omega) (hΩk (m + 1) (by omega)) (abs_sub_two n1 n0)
  obtain ⟨w1, -⟩ := ov_two h hp (by omega) (hΩk (m + 1) (by omega)) (abs_sub_two m1 m0)
  have hxx : |x - x0| ≤ 2 ^ ((m : ℤ) + 1) := by
    refine le_trans ?_ (abs_sub_two m1 m0)
    rw [abs_of_pos (by linarith), abs_of_pos (by linarith)]; linarith
  obtain ⟨y1, -⟩ := ov_two h hp (by omega) (hΩk (m + 1) (by omega)) hxx
  have hX0 : 0 ≤ rd (x - x0) := h.mono_float isFloat_zero (by linarith)
  have hX1 : rd (x - x0) ≤ rd (x1 - x0) := h.monotone (by linarith)
  have hD := h.abs_le_two (f1 - f0)
  have hslope : |rd (f1 - f0) / rd (x1 - x0)| ≤ 2 ^ ((c : ℤ) + 2) := by
    rw [abs_div, abs_of_pos ht, div_le_iff₀ ht, zpow_add₀ (by norm_num)]
    have : (2 : ℝ) ^ (c : ℤ) * (x1 - x0) ≤ 2 ^ (c : ℤ) * (2 * rd (x1 - x0)) := mul_le_mul_of_nonneg_left (by linarith) (by positivity)
    generalize (2 : ℝ) ^ (c : ℤ) = C at *
    norm_num
    linarith
  obtain ⟨s1, -⟩ := ov_two h hp (by omega) hc hslope
  have hprod : |rd (rd (f1 - f0) / rd (x1 - x0)) * rd (x - x0)| ≤ 2 ^ ((m : ℤ) + 1 + 1) := by
    have hS := h.abs_le_two (rd (f1 - f0) / rd (x1 - x0))
    rw [abs_div, abs_of_pos ht] at hS
    rw [abs_mul, abs_of_nonneg hX0, zpow_add_one₀ (by norm_num)]
    calc _ ≤ 2 * (|rd (f1 - f0)| / rd (x1 - x0)) * rd (x1 - x0) := mul_le_mul hS hX1 hX0 (by positivity)
      _ = |rd (f1 - f0)| * 2 := by field_simp
      _ ≤ _ := mul_le_mul_of_nonneg_right d2 (by norm_num)
  obtain ⟨q1, q2⟩ := ov_two h hp (by omega) (hΩk (m + 1 + 1) (by omega)) hprod
  obtain ⟨t1, -⟩ := ov_two h hp (by omega) (hΩk (m + 1 + 1 + 1) (by omega)) (abs_add_two (n0.trans (zpow_le_zpow_right₀ (by norm_num) (by omega))) q2)
  rw [d1, w1, y1, XF.div_fin _ _ ht.ne', s1, XF.mul_fin, q1, XF.add_fin, t1]

end Ufunclab.LinearInterp

/-! ### Where the functions overflow although the result is in the range -/

namespace Ufunclab.Step
open Ufunclab.Float LinearInterp
variable {rd : ℝ → ℝ}

theorem pow_1024 : (2 : ℝ) ^ (1023 : ℤ) - -2 ^ (1023 : ℤ) = 2 ^ (1024 : ℤ) := by
  rw [show (1024 : ℤ) = 1023 + 1 by norm_num, zpow_add_one₀ (by norm_num)]; ring

theorem ov_exact (h : Nearest 53 (-1074) rd) {z : ℝ} (hz : IsFloat 53 (-1074) z) (hm : |z| ≤ maxDouble) : ov rd maxDouble (.fin z) = .fin z := by
  rw [ov_fin (by rw [h.exact hz]; exact hm), h.exact hz]

theorem ov_zero (h : Nearest 53 (-1074) rd) : ov rd maxDouble (.fin 0) = .fin 0 :=
  ov_exact h isFloat_zero (by rw [abs_zero]; exact le_trans (by positivity) maxDouble_ge)

theorem ov_one (h : Nearest 53 (-1074) rd) : ov rd maxDouble (.fin 1) = .fin 1 :=
  ov_exact h (isFloat_one (by norm_num) (by norm_num)) (by rw [abs_one]; exact le_trans (one_le_zpow₀ (by norm_num) (by norm_num)) maxDouble_ge)

theorem ov_1024 (h : Nearest 53 (-1074) rd) : ov rd maxDouble (.fin (2 ^ (1024 : ℤ))) = .pinf :=
  ov_pos h (by norm_num) (by norm_num) maxDouble_lt le_rfl

theorem pos_1023 : (0 : ℝ) < 2 ^ (1023 : ℤ) := by positivity

/-- C88 fails for wide steps: in double precision `linearstep(0, -2^1023, 2^1023, 0, 1)` is 0, not 1/2,
because the width overflows; and in the upper half of the widest step the result is NaN. -/
theorem C88_linearstep_violated (h : Nearest 53 (-1074) rd) :
    linearstepO (ov rd maxDouble) (.fin 0) (.fin (-2 ^ (1023 : ℤ))) (.fin (2 ^ (1023 : ℤ))) (.fin 0) (.fin 1) = .fin 0 ∧
    linearstep (.fin 0) (.fin (-2 ^ (1023 : ℤ))) (.fin (2 ^ (1023 : ℤ))) (.fin 0) (.fin 1) = .fin (1 / 2) ∧
    linearstepO (ov rd maxDouble) (.fin (2 ^ (1023 : ℤ))) (.fin (-maxDouble)) (.fin maxDouble) (.fin 0) (.fin 1) = .nan := by
  have hp := pos_1023
  have e23 := ov_exact h (isFloat_zpow (by norm_num) (show (-1074 : ℤ) ≤ 1023 by norm_num)) (by rw [abs_of_pos hp]; exact maxDouble_ge)
  refine ⟨?_, ?_, ?_⟩
  · obtain ⟨i1, i2, i3, i4⟩ := inside 0 (-2 ^ (1023 : ℤ)) (2 ^ (1023 : ℤ)) (neg_neg_of_pos hp) hp
    simp only [linearstepO, XF.gt_fin, XF.le_fin, XF.ge_fin, XF.eq_fin, XF.sub_fin, decide_eq_true_eq, if_neg i1, if_neg i2,
      if_neg i3, if_neg i4, pow_1024, ov_1024 h, zero_sub, neg_neg, e23]
    simp only [XF.div, ov_zero h, XF.sub_fin, sub_zero, ov_one h, XF.mul_fin, mul_zero, zero_mul, XF.add_fin, add_zero]
  · obtain ⟨i1, i2, i3, i4⟩ := inside 0 (-2 ^ (1023 : ℤ)) (2 ^ (1023 : ℤ)) (neg_neg_of_pos hp) hp
    simp only [linearstep, XF.gt_fin, XF.le_fin, XF.ge_fin, XF.eq_fin, XF.sub_fin, decide_eq_true_eq, if_neg i1, if_neg i2,
      if_neg i3, if_neg i4]
    rw [XF.div_fin _ _ (by rw [pow_1024]; positivity), XF.sub_fin, XF.mul_fin, XF.mul_fin, XF.add_fin]
    congr 1
    generalize (2 : ℝ) ^ (1023 : ℤ) = t at hp
    rw [show t - -t = 2 * t by ring]
    field_simp
    ring
  · have hM : (2 : ℝ) ^ (1023 : ℤ) < maxDouble := by
      rw [maxDouble_eq, show (1023 : ℤ) = 52 + 971 by norm_num, zpow_add₀ (by norm_num)]
      exact mul_lt_mul_of_pos_right (by norm_num) (by positivity)
    have hM0 : 0 < maxDouble := hp.trans hM
    have e1 : ov rd maxDouble (.fin (2 ^ (1023 : ℤ) - -maxDouble)) = .pinf :=
      ov_pos h (by norm_num) (by norm_num) maxDouble_lt (by rw [← pow_1024]; linarith)
    have e2 : ov rd maxDouble (.fin (maxDouble - -maxDouble)) = .pinf :=
      ov_pos h (by norm_num) (by norm_num) maxDouble_lt (by rw [← pow_1024]; linarith)
    obtain ⟨i1, i2, i3, i4⟩ := inside (2 ^ (1023 : ℤ)) (-maxDouble) maxDouble ((neg_neg_of_pos hM0).trans hp) hM
    simp only [linearstepO, XF.gt_fin, XF.le_fin, XF.ge_fin, XF.eq_fin, XF.sub_fin, decide_eq_true_eq, if_neg i1, if_neg i2,
      if_neg i3, if_neg i4, e1, e2]
    simp [XF.div, ov, XF.sub, XF.add, XF.mul, XF.neg]

/-- C88 fails for steps between large values: `smoothstep3(0, -1, 1, -2^1023, 2^1023)` is inf, not 0. -/
theorem C88_smoothstep3_violated (h : Nearest 53 (-1074) rd) :
    smoothstep3O (ov rd maxDouble) (.fin 0) (.fin (-1)) (.fin 1) (.fin (-2 ^ (1023 : ℤ))) (.fin (2 ^ (1023 : ℤ))) = .pinf ∧
    smoothstep3 (.fin 0) (.fin (-1)) (.fin 1) (.fin (-2 ^ (1023 : ℤ))) (.fin (2 ^ (1023 : ℤ))) = .fin 0 := by
  have hM : (4 : ℝ) ≤ maxDouble := le_trans (by
    rw [show (4 : ℝ) = 2 ^ (2 : ℤ) by norm_num]; exact zpow_le_zpow_right₀ (by norm_num) (by norm_num)) maxDouble_ge
  have f2 : IsFloat 53 (-1074) (2 : ℝ) := by simpa using isFloat_zpow (K := ℝ) (p := 53) (by norm_num) (show (-1074 : ℤ) ≤ 1 by norm_num)
  have fh : IsFloat 53 (-1074) (1 / 2 : ℝ) := by simpa using isFloat_zpow (K := ℝ) (p := 53) (by norm_num) (show (-1074 : ℤ) ≤ -1 by norm_num)
  have e2 := ov_exact h f2 (by rw [abs_of_pos (by norm_num)]; linarith)
  have eh := ov_exact h fh (by rw [abs_of_pos (by norm_num)]; linarith)
  obtain ⟨i1, i2, i3, i4⟩ := inside (0 : ℝ) (-1) 1 (by norm_num) (by norm_num)
  refine ⟨?_, ?_⟩
  · simp only [smoothstep3O, XF.gt_fin, XF.le_fin, XF.ge_fin, XF.eq_fin, XF.sub_fin, decide_eq_true_eq, if_neg i1, if_neg i2,
      if_neg i3, if_neg i4, pow_1024, ov_1024 h]
    rw [show (0 : ℝ) - -1 = 1 by norm_num, show (1 : ℝ) - -1 = 2 by norm_num, ov_one h, e2, XF.div_fin _ _ (by norm_num), eh, XF.mul_fin, show (2 : ℝ) * (1 / 2) = 1 by norm_num, ov_one h, XF.sub_fin, show (3 : ℝ) - 1 = 2 by norm_num, e2]
    norm_num [XF.mul, XF.infMul, ov, XF.add]
  · simp only [smoothstep3, XF.gt_fin, XF.le_fin, XF.ge_fin, XF.eq_fin, XF.sub_fin, decide_eq_true_eq, if_neg i1, if_neg i2,
      if_neg i3, if_neg i4]
    rw [XF.div_fin _ _ (by norm_num)]
    simp only [XF.mul_fin, XF.sub_fin, XF.add_fin]
    congr 1
    generalize (2 : ℝ) ^ (1023 : ℤ) = t
    ring

end Ufunclab.Step

namespace Ufunclab.LinearInterp
open Ufunclab.Float Step
variable {rd : ℝ → ℝ}

/-- C88 fails for steep tables on the general path: for the table `0 → 0`, `2^-1073 → 1` the value at
`2^-1074` is inf, because the slope overflows; for a shared table it is the correct 1/2. -/
theorem C88_interp_violated (h : Nearest 53 (-1074) rd) :
    interpOneO (ov rd maxDouble) (.fin (2 ^ (-1074 : ℤ))) [.fin 0, .fin (2 ^ (-1073 : ℤ))] [.fin 0, .fin 1] = some .pinf ∧
    fastOneO (ov rd maxDouble) (.fin (2 ^ (-1074 : ℤ))) [.fin 0, .fin (2 ^ (-1073 : ℤ))] [.fin 0, .fin 1] = some (.fin (1 / 2)) ∧
    interpOne (.fin ((2 : ℝ) ^ (-1074 : ℤ))) [.fin 0, .fin (2 ^ (-1073 : ℤ))] [.fin 0, .fin 1] = some (.fin (1 / 2)) := by
  have hq : (0 : ℝ) < 2 ^ (-1074 : ℤ) := by positivity
  have hr : (2 : ℝ) ^ (-1073 : ℤ) = 2 * 2 ^ (-1074 : ℤ) := by
    rw [show (-1073 : ℤ) = -1074 + 1 by norm_num, zpow_add_one₀ (by norm_num)]; ring
  have hM : (1 : ℝ) ≤ maxDouble := le_trans (one_le_zpow₀ (by norm_num) (by norm_num)) maxDouble_ge
  have l1 : (2 : ℝ) ^ (-1074 : ℤ) ≤ 1 := zpow_le_one_of_nonpos₀ (by norm_num) (by norm_num)
  have l2 : (2 : ℝ) ^ (-1073 : ℤ) ≤ 1 := zpow_le_one_of_nonpos₀ (by norm_num) (by norm_num)
  have e74 := ov_exact h (isFloat_zpow (by norm_num) (show (-1074 : ℤ) ≤ -1074 by norm_num)) (by rw [abs_of_pos hq]; linarith)
  have e73 := ov_exact h (isFloat_zpow (by norm_num) (show (-1074 : ℤ) ≤ -1073 by norm_num)) (by rw [abs_of_pos (by positivity)]; linarith)
  have fh : IsFloat 53 (-1074) (1 / 2 : ℝ) := by simpa using isFloat_zpow (K := ℝ) (p := 53) (by norm_num) (show (-1074 : ℤ) ≤ -1 by norm_num)
  have eh := ov_exact h fh (by rw [abs_of_pos (by norm_num)]; linarith)
  have es : ov rd maxDouble (.fin (1 / 2 ^ (-1073 : ℤ))) = .pinf := by
    rw [one_div, ← zpow_neg]
    exact ov_pos h (by norm_num) (by norm_num) maxDouble_lt (zpow_le_zpow_right₀ (by norm_num) (by norm_num))
  have hs : ([0, 2 ^ (-1073 : ℤ)] : List ℝ).Pairwise (· < ·) := by
    simp only [List.pairwise_cons, List.mem_singleton, forall_eq, List.not_mem_nil, false_imp_iff, implies_true, List.Pairwise.nil, and_true]
    positivity
  have hlo : ([0, 2 ^ (-1073 : ℤ)] : List ℝ)[0] ≤ 2 ^ (-1074 : ℤ) := hq.le
  have hhi : 2 ^ (-1074 : ℤ) ≤ ([0, 2 ^ (-1073 : ℤ)] : List ℝ)[1] := by
    show (2 : ℝ) ^ (-1074 : ℤ) ≤ 2 ^ (-1073 : ℤ)
    linarith
  have hx := C88_interp_exact_arithmetic (.fin ((2 : ℝ) ^ (-1074 : ℤ))) [.fin 0, .fin (2 ^ (-1073 : ℤ))] [.fin 0, .fin 1]
  obtain ⟨k, hk, hh⟩ := interpO_of_search (ov rd maxDouble) id (2 ^ (-1074 : ℤ)) [0, 2 ^ (-1073 : ℤ)] [0, 1] rfl hs (by simp) hlo hhi
  obtain ⟨k', hk', hh'⟩ := interpO_of_search id id (2 ^ (-1074 : ℤ)) [0, 2 ^ (-1073 : ℤ)] [0, 1] rfl hs (by simp) hlo hhi
  have hne : ([0, 2 ^ (-1073 : ℤ)] : List ℝ)[1] ≠ 2 ^ (-1074 : ℤ) := by
    show (2 : ℝ) ^ (-1073 : ℤ) ≠ 2 ^ (-1074 : ℤ)
    rw [hr]; intro hc; linarith
  have key : interpOneO (ov rd maxDouble) (.fin (2 ^ (-1074 : ℤ))) [.fin 0, .fin (2 ^ (-1073 : ℤ))] [.fin 0, .fin 1] = some .pinf ∧
      fastOneO (ov rd maxDouble) (.fin (2 ^ (-1074 : ℤ))) [.fin 0, .fin (2 ^ (-1073 : ℤ))] [.fin 0, .fin 1] = some (.fin (1 / 2)) := by
    rcases k with _ | _ | k
    · rcases hh with ⟨hc, -⟩ | ⟨_, -, -, r1, r2, -⟩
      · exact absurd hc hq.ne
      · simp only [List.map_cons, List.map_nil, List.getElem_cons_zero, List.getElem_cons_succ, zero_add, sub_zero] at r1 r2
        rw [r1, r2, ov_one h, e73, e74, XF.div_fin _ _ (by positivity), XF.div_fin _ _ (by positivity), es,
          show (2 : ℝ) ^ (-1074 : ℤ) / 2 ^ (-1073 : ℤ) = 1 / 2 by rw [hr]; field_simp, eh, XF.mul_fin, mul_one, eh, XF.add_fin, zero_add, eh]
        refine ⟨?_, rfl⟩
        simp [XF.mul, XF.infMul, ov, XF.add]
    · rcases hh with ⟨hc, -⟩ | ⟨hc, -⟩
      · exact absurd hc hne
      · simp at hc
    · simp at hk
  refine ⟨key.1, key.2, ?_⟩
  rw [← hx]
  rcases k' with _ | _ | k
  · rcases hh' with ⟨hc, -⟩ | ⟨_, -, -, r1, -⟩
    · exact absurd hc hq.ne
    · simp only [List.map_cons, List.map_nil, List.getElem_cons_zero, List.getElem_cons_succ, zero_add, sub_zero, id] at r1
      rw [show (id : XF ℝ → XF ℝ) = fun z => z from rfl] at *
      rw [r1, XF.div_fin _ _ (by positivity), XF.mul_fin, XF.add_fin, hr]
      congr 2
      field_simp
      ring
  · rcases hh' with ⟨hc, -⟩ | ⟨hc, -⟩
    · exact absurd hc hne
    · simp at hc
  · simp at hk'

end Ufunclab.LinearInterp

/-! ### Non-vacuity: double precision -/
namespace Ufunclab.Step
open Ufunclab.Float LinearInterp

example : ∃ rd : ℝ → ℝ, Nearest 53 (-1074) rd ∧
    linearstepO (ov rd maxDouble) (.fin 1) (.fin 0) (.fin 6) (.fin maxDouble) (.fin maxDouble) = linearstepR rd 1 0 6 maxDouble maxDouble ∧
    smoothstep3O (ov rd maxDouble) (.fin 1) (.fin 0) (.fin 6) (.fin 11) (.fin 7) = smoothstep3R rd 1 0 6 11 7 ∧
    interpOneO (ov rd maxDouble) (.fin 1) [.fin 0, .fin 6] [.fin 11, .fin 7] = interpOneR rd 1 [0, 6] [11, 7] ∧
    fastOneO (ov rd maxDouble) (.fin 1) [.fin 0, .fin 6] [.fin 11, .fin 7] = fastOneR rd 1 [0, 6] [11, 7] := by
  obtain ⟨rd, h⟩ := exists_nearest (K := ℝ) (p := 53) (by norm_num) (-1074)
  have f := isFloat53
  have f0 : IsFloat 53 (-1074) (0 : ℝ) := isFloat_zero
  have f6 : IsFloat 53 (-1074) (6 : ℝ) := by exact_mod_cast f 6 (by norm_num)
  have hM : (2 : ℝ) ^ (20 : ℕ) ≤ maxDouble := le_trans (by
    rw [← zpow_natCast]; exact zpow_le_zpow_right₀ (by norm_num) (by norm_num)) maxDouble_ge
  have hM0 : 0 ≤ maxDouble := le_trans (by norm_num) hM
  have ha : ∀ z ∈ ([0, 6] : List ℝ), IsFloat 53 (-1074) z := by simp [f0, f6]
  have hs : ([0, 6] : List ℝ).Pairwise (· < ·) := by norm_num
  have h5 : (2 : ℝ) ^ (4 + 7) ≤ maxDouble := le_trans (by norm_num) hM
  refine ⟨rd, h, C88_linearstep_double h 1 0 6 _ _ f0 f6 (abs_of_nonneg hM0).le (abs_of_nonneg hM0).le (le_trans (by norm_num) hM),
    (C88_smoothstep h (by norm_num) (by norm_num) isFloat_maxDouble 4 h5 1 0 6 11 7 f0 f6 (by norm_num) (by norm_num) (by norm_num) (by norm_num)).1,
    C88_interp_partial h (by norm_num) (by norm_num) 4 1 (le_trans (by norm_num) hM) (le_trans (by norm_num) hM) 1 [0, 6] [11, 7] rfl hs (by simp) ha
      ?_ ?_ ?_,
    C88_interp_shared h (by norm_num) (by norm_num) isFloat_maxDouble 4 (le_trans (by norm_num) hM) 1 [0, 6] [11, 7] rfl hs (by simp) ha ?_ ?_⟩
  · norm_num
  · norm_num
  · intro k hk
    have : k = 0 := by simp at hk; omega
    subst this
    norm_num
  · norm_num
  · norm_num

end Ufunclab.Step
