import Verif.Proof.Debye1
import Verif.Proof.Log1p
import Verif.Proof.XF
/-!
# C72: debye1 computes the Debye function of order 1 for every real argument

`D1 x = (1/x) ∫_0^x t/(e^t - 1) dt`.  The 120 coefficient lists of the generated source are
checked against the integral by the kernel, cell by cell; the selection of the cell and the
evaluation are those of the C code, in any arithmetic that rounds to nearest.
-/
namespace Ufunclab.Debye1
open XF Real Ufunclab.Float

set_option exponentiation.threshold 3000

/-- The error in any arithmetic with bounded relative and absolute errors. -/
theorem all_error {rd : ℝ → ℝ} {u η : ℝ} (h : Rd u η rd) (hu0 : 0 ≤ u) (hu : u ≤ 1.2 / 10 ^ 16) (hη : 0 ≤ η) (hη' : η ≤ 1 / 10 ^ 60)
    (hr0 : rd 0 = 0) (hr1 : rd 1 = 1) (x : ℝ) :
    ∃ v, debye1 rd (.fin x) = .fin v ∧ |v - D1 x| ≤ (bound u |x| + 5 * u) * D1 x + 4 * η := by
  rcases lt_or_ge x 0 with hx | hx
  · have hlt : lt (.fin x : XF ℝ) (.fin 0) = true := by simp [hx]
    refine ⟨rd (finNonneg rd (-x) - rd (x / 2)), ?_, ?_⟩
    · rw [debye1, if_pos hlt]
      simp [neg_fin, notNeg, rnd, div_fin, sub_fin]
    · have hax : |x| = -x := abs_of_neg hx
      rw [hax]
      have h1 := nonneg_error h hu0 hu hη hη' hr0 hr1 (x := -x) (by linarith)
      have hD := D1_neg (x := -x) (by linarith)
      rw [neg_neg] at hD
      have hDp := D1_pos_of (x := -x) (by linarith)
      set B := bound u (-x) with hB
      set D := D1 (-x) with hDd
      have h2 := h (x / 2)
      rw [abs_div, hax, abs_of_pos (show (0 : ℝ) < 2 by norm_num)] at h2
      set y := -x / 2 with hy
      have hy0 : 0 < y := by rw [hy]; linarith
      have hDx : D1 x = D + y := hD
      have hC0 : (5 : ℝ) ≤ if -x < 2.9 ∨ 18.1 < -x then 5 else 130 := by split_ifs <;> norm_num
      have hC1 : (if -x < 2.9 ∨ 18.1 < -x then (5 : ℝ) else 130) ≤ 130 := by split_ifs <;> norm_num
      have hBv : B = 9.2 / 10 ^ 15 + 18 * u * (if -x < 2.9 ∨ 18.1 < -x then 5 else 130) := rfl
      generalize (if -x < 2.9 ∨ 18.1 < -x then (5 : ℝ) else 130) = C at hC0 hC1 hBv
      have huC : u * C ≤ 1.2 / 10 ^ 16 * 130 := mul_le_mul hu hC1 (by linarith) (by norm_num)
      have huC5 : 5 * u ≤ u * C := by rw [mul_comm u C]; exact mul_le_mul_of_nonneg_right hC0 hu0
      have hB0 : 5 * u ≤ B := by rw [hBv]; norm_num; linarith
      have hB1 : B ≤ 1 / 10 := by rw [hBv]; norm_num at huC ⊢; linarith
      set a := finNonneg rd (-x) with ha
      have h3 := h (a - rd (x / 2))
      have hxy : x / 2 = -y := by rw [hy]; ring
      have hs : |(a - rd (x / 2)) - D1 x| ≤ B * D + u * y + 2 * η := by
        calc |(a - rd (x / 2)) - D1 x| = |(a - D) + -(rd (x / 2) - x / 2)| := by rw [hDx, hxy]; congr 1; ring
          _ ≤ _ := abs_add_le _ _
          _ ≤ _ := by rw [abs_neg]; linarith
      have hBD : B * D ≤ 1 / 10 * D := mul_le_mul_of_nonneg_right hB1 hDp.le
      have huy : u * y ≤ 1 / 10 * y := mul_le_mul_of_nonneg_right (by norm_num at hu ⊢; linarith) hy0.le
      have hsum : |a - rd (x / 2)| ≤ 1.1 * (D + y) + 2 * η := by
        calc |a - rd (x / 2)| = |((a - rd (x / 2)) - D1 x) + D1 x| := by congr 1; ring
          _ ≤ _ := abs_add_le _ _
          _ ≤ (B * D + u * y + 2 * η) + (D + y) := by rw [hDx, abs_of_pos (by linarith : 0 < D + y), ← hDx]; exact add_le_add hs le_rfl
          _ ≤ _ := by linarith
      have h4 : u * |a - rd (x / 2)| ≤ u * (1.1 * (D + y) + 2 * η) := mul_le_mul_of_nonneg_left hsum hu0
      have huη : u * η ≤ 1 / 10 * η := mul_le_mul_of_nonneg_right (by norm_num at hu ⊢; linarith) hη
      have hBy : u * y ≤ B * y := mul_le_mul_of_nonneg_right (by linarith) hy0.le
      have huDy : 0 ≤ u * (D + y) := by positivity
      calc |rd (a - rd (x / 2)) - D1 x| = |(rd (a - rd (x / 2)) - (a - rd (x / 2))) + ((a - rd (x / 2)) - D1 x)| := by
            congr 1; ring
        _ ≤ _ := abs_add_le _ _
        _ ≤ (u * (1.1 * (D + y) + 2 * η) + η) + (B * D + u * y + 2 * η) := add_le_add (h3.trans (add_le_add h4 le_rfl)) hs
        _ ≤ _ := by rw [hDx]; linarith
  · have hlt : lt (.fin x : XF ℝ) (.fin 0) = false := by simp [hx]
    refine ⟨finNonneg rd x, ?_, ?_⟩
    · rw [debye1, hlt]
      simp [notNeg]
    · rw [abs_of_nonneg hx]
      have := nonneg_error h hu0 hu hη hη' hr0 hr1 hx
      have hp : 0 ≤ u * D1 x := mul_nonneg hu0 (D1_pos x).le
      linarith

/-- **C72, rounding.** In double precision the relative error is below `2e-14` for `|x| < 2.9` and
for `|x| > 18.1`, and below `2.8e-13` everywhere; where the value itself is below the normal range
an absolute error of one unit remains. -/
theorem C72_accuracy {rd : ℝ → ℝ} (h : Nearest 53 (-1074) rd) (x : ℝ) :
    ∃ v, debye1 rd (.fin x) = .fin v ∧
      |v - D1 x| ≤ (if |x| < 2.9 ∨ 18.1 < |x| then 2 / 10 ^ 14 else 2.8 / 10 ^ 13) * D1 x + 1 / 2 ^ 1073 := by
  have h1 : IsFloat 53 (-1074) (1 : ℝ) := ⟨1, 0, by norm_num, by norm_num, by norm_num⟩
  obtain ⟨v, hv, hb⟩ := all_error (rd_double h) (by positivity) (by norm_num) (by positivity)
    (by norm_num) h.round_zero (h.exact h1) x
  refine ⟨v, hv, hb.trans (add_le_add (mul_le_mul_of_nonneg_right ?_ (D1_pos x).le) (by norm_num))⟩
  unfold bound
  split_ifs <;> norm_num

example : ∃ rd : ℝ → ℝ, Nearest 53 (-1074) rd := exists_nearest (by norm_num) _

/-- **C72, exact arithmetic.** The polynomials themselves are within `1e-14`. -/
theorem C72_exact (x : ℝ) : ∃ v, debye1 id (.fin x) = .fin v ∧ |v - D1 x| ≤ 1 / 10 ^ 14 * D1 x := by
  obtain ⟨v, hv, hb⟩ := all_error rd_id le_rfl (by norm_num) le_rfl (by norm_num) rfl rfl x
  refine ⟨v, hv, hb.trans ?_⟩
  have : bound 0 |x| + 5 * 0 ≤ 1 / 10 ^ 14 := by unfold bound; norm_num
  have := mul_le_mul_of_nonneg_right this (D1_pos x).le
  linarith

/-- **C72, the single-precision loop**: the double result, rounded. -/
theorem C72_single {rf rd : ℝ → ℝ} (hf : Nearest 24 (-149) rf) (h : Nearest 53 (-1074) rd) (x : ℝ) :
    ∃ v, rnd rf (debye1 rd (.fin x)) = .fin v ∧ |v - D1 x| ≤ 6 / 10 ^ 8 * D1 x + 1 / 2 ^ 149 := by
  obtain ⟨v, hv, hb⟩ := C72_accuracy h x
  refine ⟨rf v, by rw [hv]; rfl, ?_⟩
  have h1 := hf.error (by norm_num) v
  have h2 : (2 : ℝ) ^ (-149 : ℤ) = 1 / 2 ^ 149 := Log1p.zpow_neg_nat 149
  rw [h2] at h1
  have hD := D1_pos x
  have hb' : |v - D1 x| ≤ 2.8 / 10 ^ 13 * D1 x + 1 / 2 ^ 1073 := by
    refine hb.trans (add_le_add (mul_le_mul_of_nonneg_right ?_ hD.le) le_rfl)
    split_ifs <;> norm_num
  have h3 : |v| ≤ (2.8 / 10 ^ 13 * D1 x + 1 / 2 ^ 1073) + D1 x := by
    calc |v| = |(v - D1 x) + D1 x| := by congr 1; ring
      _ ≤ _ := abs_add_le _ _
      _ ≤ _ := by rw [abs_of_pos hD]; exact add_le_add hb' le_rfl
  calc |rf v - D1 x| = |(rf v - v) + (v - D1 x)| := by congr 1; ring
    _ ≤ _ := abs_add_le _ _
    _ ≤ _ := add_le_add h1 hb'
    _ ≤ _ := by
      have h4 : (1 : ℝ) / 2 ^ 1073 ≤ 1 / 2 ^ 149 / 10 := by norm_num
      norm_num at h3 h4 ⊢
      linarith

/-- **C72, zero.** The value at zero is exactly one. -/
theorem C72_zero {rd : ℝ → ℝ} (h0 : rd 0 = 0) (h1 : rd 1 = 1) : debye1 rd (.fin 0) = .fin 1 := by
  have hlt : lt (.fin 0 : XF ℝ) (.fin 0) = false := by simp
  rw [debye1, hlt]
  simp [notNeg, finNonneg_zero h0 h1]

/-- **C72, the limits**: NaN gives NaN, `+inf` gives zero and `-inf` gives `+inf`. -/
theorem C72_limits {rd : ℝ → ℝ} (h : Nearest 53 (-1074) rd) :
    debye1 rd .nan = .nan ∧ debye1 rd .pinf = .fin 0 ∧ debye1 rd .ninf = .pinf := by
  have h0 : rd 0 = 0 := h.round_zero
  have hc : 0 < rd (lit asympConst) := by
    have := (abs_le.1 (rd_double h (lit asympConst))).1
    have hl : lit asympConst = 1.6449340668482264 := by rw [lit, asympConst]; norm_num
    rw [hl, abs_of_pos (by norm_num : (0 : ℝ) < 1.6449340668482264)] at this
    rw [hl]
    norm_num at this ⊢
    linarith
  refine ⟨?_, ?_, ?_⟩
  · simp [debye1, notNeg, XF.lt, XF.div, rnd]
  · simp [debye1, notNeg, XF.lt, XF.div, rnd, h0]
  · simp [debye1, notNeg, XF.lt, XF.div, XF.neg, XF.sub, XF.add, rnd, h0, show ¬ ((2 : ℝ) < 0) by norm_num]

/-- The limits are those of `D1`: it tends to zero like `1/x`. -/
theorem C72_limit_value {x : ℝ} (hx : 39.9 ≤ x) : |x * D1 x - 1.6449340668482264| ≤ 2 / 10 ^ 15 := by
  have hx0 : x ≠ 0 := by norm_num at hx; linarith
  have h := F_tail hx
  have hl : lit asympConst = 1.6449340668482264 := by rw [lit, asympConst]; norm_num
  rw [hl] at h
  rw [D1_eq hx0, mul_div_cancel₀ _ hx0]
  exact h.trans (by norm_num)

theorem loop_eq {α : Type _} (f : α → α) (is os : Int) (n : Nat) (pin pout : Int) (m : Mem α) :
    loop f is os n pin pout m = Log1p.loop f is os n pin pout m := by
  induction n generalizing pin pout m with
  | zero => rfl
  | succ n ih => rw [loop, Log1p.loop, ih]

/-- **C72, the loop**: every output element is the function of the input element at the same index,
nothing else is written. -/
theorem C72_loop {α : Type _} (f : α → α) (n : Nat) (pin is pout os : Int) (m : Mem α) (hos : os ≠ 0)
    (h : ∀ i j, i < j → j < n → pout + (i : Int) * os ≠ pin + (j : Int) * is) :
    elems (loop f is os n pin pout m) pout os n = (elems m pin is n).map f ∧
    ∀ b, (∀ i < n, b ≠ pout + (i : Int) * os) → loop f is os n pin pout m b = m b := by
  rw [loop_eq]
  refine ⟨?_, fun b hb => Log1p.loop_frame _ _ _ _ _ _ _ _ hb⟩
  apply List.ext_getElem
  · simp
  · intro j h1 h2
    rw [elems_getElem, List.getElem_map, elems_getElem]
    exact Log1p.loop_get f is os hos n pin pout m h j (by simpa using h1)

/-- In place. -/
example (f : ℤ → ℤ) (n : Nat) (p : Int) (m : Mem ℤ) :
    elems (loop f 8 8 n p p m) p 8 n = (elems m p 8 n).map f :=
  (C72_loop f n p 8 p 8 m (by omega) (by intro i j h _ he; omega)).1

end Ufunclab.Debye1
