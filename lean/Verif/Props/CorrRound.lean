import Verif.Proof.CorrRound
import Verif.Props.Corr
/-!
# Property C81: pearson_corr in floating-point arithmetic

`rd` rounds to a nearest number of the format with `p` significand bits and least exponent `emin`
(any rule for ties); for doubles `p = 53`, `emin = -1074`.  Overflow is not described.
-/
namespace Ufunclab.Corr
open Ufunclab.Float Finset
variable {p : ℕ} {emin : ℤ} {rd : ℝ → ℝ}

/-! ## No rounding -/

theorem rnd_id (v : XF ℝ) : rnd id v = v := by cases v <;> rfl

theorem generalR_id (n : Nat) (x y : Nat → XF ℝ) : generalR id n x y = general n x y := by
  have a : ∀ (x : Nat → XF ℝ) f k m c, meanLoopR id x f k m c = meanLoop x f k m c := by
    intro x f; induction f with
    | zero => intros; rfl
    | succ f ih => intro k m c; simp only [meanLoopR, meanLoop, rnd_id, ih]
  have b : ∀ (x : Nat → XF ℝ) μ f k M, maxabsLoopR id x μ f k M = maxabsLoop x μ f k M := by
    intro x μ f; induction f with
    | zero => intros; rfl
    | succ f ih => intro k M; simp only [maxabsLoopR, maxabsLoop, rnd_id, ih]
  have c : ∀ (x : Nat → XF ℝ) μ D f k s c, normLoopR id x μ D f k s c = normLoop x μ D f k s c := by
    intro x μ D f; induction f with
    | zero => intros; rfl
    | succ f ih => intro k s c; simp only [normLoopR, normLoop, rnd_id, ih]
  have d : ∀ (x y : Nat → XF ℝ) μ D ν E f k r, rLoopR id x y μ D ν E f k r = rLoop x y μ D ν E f k r := by
    intro x y μ D ν E f; induction f with
    | zero => intros; rfl
    | succ f ih => intro k r; simp only [rLoopR, rLoop, rnd_id, ih]
  simp only [generalR, general, stridedMeanR, stridedMean, deltaMaxabsR, deltaMaxabs, deltaNormR, deltaNorm, rnd_id, a, b, c, d]
  rfl

/-- Without rounding the rounded models are those of C46. -/
theorem C81_exact_arithmetic (n : Nat) (px xs py ys : Int) :
    (∀ m : Mem (XF ℝ), pearsonR id n m px xs py ys = pearson n m px xs py ys) ∧
    (∀ m : Mem Int, pearsonIntR id n m px xs py ys = pearsonInt n m px xs py ys) := by
  refine ⟨fun m => ?_, fun m => ?_⟩
  · simp only [pearsonR, pearson, generalR_id]
  · simp only [pearsonIntR, pearsonInt, generalR_id, id]

/-! ## Two pairs -/

/-- C81: with two pairs no arithmetic is done, so the result is exactly Pearson's coefficient, 1 or
-1, or NaN, whatever the rounding. -/
theorem C81_two (m : Mem (XF ℝ)) (px xs py ys : Int) : pearsonR rd 2 m px xs py ys = pearson 2 m px xs py ys := by
  simp only [pearsonR, pearson, show ¬ (2 = 1) by omega, if_false, if_true]

/-! ## When the result is NaN -/

/-- C81: for finite floating-point data of any size, down to the subnormal numbers, the result is
NaN exactly when one of the two inputs is constant: the test for a zero spread is exact in spite of
the rounding of the mean. -/
theorem C81_nan (h : Nearest p emin rd) (hp : 10 ≤ p) (he : emin ≤ -2 * p) (n : ℕ) (hn2 : 2 ≤ n) (hn : 100 * (n : ℝ) ≤ 2 ^ p)
    (m : Mem (XF ℝ)) (px xs py ys : Int) (x y : Nat → ℝ)
    (hx : ∀ i < n, get m px xs i = .fin (x i)) (hy : ∀ i < n, get m py ys i = .fin (y i))
    (fx : ∀ i < n, IsFloat p emin (x i)) (fy : ∀ i < n, IsFloat p emin (y i)) :
    (Constant n x ∨ Constant n y → pearsonR rd n m px xs py ys = .nan) ∧
    (¬ Constant n x → ¬ Constant n y → ∃ r, pearsonR rd n m px xs py ys = .fin r) := by
  rcases eq_or_ne n 2 with rfl | h2
  · rw [C81_two]
    have := C46_value 2 le_rfl m px xs py ys x y hx hy
    exact ⟨this.2, fun a b => ⟨_, this.1 a b⟩⟩
  · simp only [pearsonR, if_neg h2, if_neg (by omega : ¬ n = 1)]
    rw [generalR_congr n (by omega) _ (fun i => .fin (x i)) _ (fun i => .fin (y i)) hx hy]
    exact generalR_nan h hp he n (by omega) hn x y fx fy

/-! ## Range -/

/-- C81 (range, partial): the result lies in `[-1 - e, 1 + e]` with `e = (1.04 n + 18) u`, `u = 2^-p`,
when both inputs have two elements that differ by at least `2^(emin+p+1)` (about 1e-307 for doubles).
Missing: `e = 0`, which is false, and the data with a smaller spread, for which it is false too. -/
theorem C81_range_partial (h : Nearest p emin rd) (hp : 10 ≤ p) (he : emin ≤ -2 * p) (n : ℕ) (hn2 : 2 ≤ n) (hn : 100 * (n : ℝ) ≤ 2 ^ p)
    (m : Mem (XF ℝ)) (px xs py ys : Int) (x y : Nat → ℝ)
    (hx : ∀ i < n, get m px xs i = .fin (x i)) (hy : ∀ i < n, get m py ys i = .fin (y i))
    (sx : ∃ i < n, ∃ j < n, 2 * (2 ^ emin * 2 ^ p) ≤ x i - x j) (sy : ∃ i < n, ∃ j < n, 2 * (2 ^ emin * 2 ^ p) ≤ y i - y j) :
    ∃ r, pearsonR rd n m px xs py ys = .fin r ∧ |r| ≤ 1 + (1.04 * n + 18) * (2 ^ p)⁻¹ := by
  have hnc : ∀ z : Nat → ℝ, (∃ i < n, ∃ j < n, 2 * (2 ^ emin * 2 ^ p) ≤ z i - z j) → ¬ Constant n z := by
    rintro z ⟨i, hi, j, hj, hz⟩ hc
    rw [hc i hi j hj, sub_self] at hz
    have : (0 : ℝ) < 2 * (2 ^ emin * 2 ^ p) := by positivity
    linarith
  rcases eq_or_ne n 2 with rfl | h2
  · rw [C81_two]
    refine ⟨_, (C46_value 2 le_rfl m px xs py ys x y hx hy).1 (hnc x sx) (hnc y sy), ?_⟩
    have := abs_le.2 (C46_range 2 x y)
    have : (0 : ℝ) ≤ (1.04 * (2 : ℕ) + 18) * (2 ^ p)⁻¹ := by positivity
    linarith
  · simp only [pearsonR, if_neg h2, if_neg (by omega : ¬ n = 1)]
    rw [generalR_congr n (by omega) _ (fun i => .fin (x i)) _ (fun i => .fin (y i)) hx hy]
    obtain ⟨r, e, hr, _⟩ := generalR_error h hp he n hn x y sx sy
    refine ⟨r, e, ?_⟩
    have hd := devCorr_le (rd := rd) n x y (cmean rd n x) (cmean rd n y)
    generalize devCorr rd n x y _ _ = d at *
    calc |r| = |d + (r - d)| := by congr 1; ring
      _ ≤ _ := abs_add_le _ _
      _ ≤ _ := by linarith

/-! ## Accuracy -/

/-- C81 (accuracy, partial): the result is Pearson's coefficient of the data up to
`(1.04 n + 18) u + 55.2 u (Mx / sd x + My / sd y)`, where `Mx`, `My` bound the absolute values and `sd`
is the standard deviation.  Missing: spreads and sizes at the bottom of the exponent range. -/
theorem C81_accuracy_partial (h : Nearest p emin rd) (hp : 10 ≤ p) (he : emin ≤ -2 * p) (n : ℕ) (hn2 : 2 ≤ n) (hn : 100 * (n : ℝ) ≤ 2 ^ p)
    (m : Mem (XF ℝ)) (px xs py ys : Int) (x y : Nat → ℝ)
    (hx : ∀ i < n, get m px xs i = .fin (x i)) (hy : ∀ i < n, get m py ys i = .fin (y i))
    (sx : ∃ i < n, ∃ j < n, 2 * (2 ^ emin * 2 ^ p) ≤ x i - x j) (sy : ∃ i < n, ∃ j < n, 2 * (2 ^ emin * 2 ^ p) ≤ y i - y j)
    (Mx My : ℝ) (bx : ∀ i < n, |x i| ≤ Mx) (bY : ∀ i < n, |y i| ≤ My) (tx : 2 ^ emin * (2 ^ p) ^ 2 ≤ Mx) (ty : 2 ^ emin * (2 ^ p) ^ 2 ≤ My) :
    ∃ r, pearsonR rd n m px xs py ys = .fin r ∧
      |r - corr n x y| ≤ (1.04 * n + 18) * (2 ^ p)⁻¹ + 55.2 * (2 ^ p)⁻¹ * (Mx / sd n x + My / sd n y) := by
  have hnc : ∀ z : Nat → ℝ, (∃ i < n, ∃ j < n, 2 * (2 ^ emin * 2 ^ p) ≤ z i - z j) → ¬ Constant n z := by
    rintro z ⟨i, hi, j, hj, hz⟩ hc
    rw [hc i hi j hj, sub_self] at hz
    have : (0 : ℝ) < 2 * (2 ^ emin * 2 ^ p) := by positivity
    linarith
  have hMx : 0 ≤ Mx := le_trans (by positivity) tx
  have hMy : 0 ≤ My := le_trans (by positivity) ty
  rcases eq_or_ne n 2 with rfl | h2
  · rw [C81_two]
    refine ⟨_, (C46_value 2 le_rfl m px xs py ys x y hx hy).1 (hnc x sx) (hnc y sy), ?_⟩
    rw [sub_self, abs_zero]
    have : 0 ≤ Mx / sd 2 x := div_nonneg hMx (Real.sqrt_nonneg _)
    have : 0 ≤ My / sd 2 y := div_nonneg hMy (Real.sqrt_nonneg _)
    positivity
  · simp only [pearsonR, if_neg h2, if_neg (by omega : ¬ n = 1)]
    rw [generalR_congr n (by omega) _ (fun i => .fin (x i)) _ (fun i => .fin (y i)) hx hy]
    obtain ⟨r, e, hr, p1, p2⟩ := generalR_error h hp he n hn x y sx sy
    refine ⟨r, e, ?_⟩
    have p3 := (sumsq_pos_iff n (by omega) x).2 (hnc x sx)
    have p4 := (sumsq_pos_iff n (by omega) y).2 (hnc y sy)
    have hd := devCorr_close (rd := rd) n x y (cmean rd n x) (cmean rd n y) _ _ p1 p2 p3 p4
      (cmean_error h hp he n (by omega) hn x Mx bx tx) (cmean_error h hp he n (by omega) hn y My bY ty) (by positivity) (by positivity)
    have e1 : 2 * (27.6 * ((2 ^ p)⁻¹ * Mx) / sd n x) + 2 * (27.6 * ((2 ^ p)⁻¹ * My) / sd n y) =
      55.2 * (2 ^ p)⁻¹ * (Mx / sd n x + My / sd n y) := by ring
    calc |r - corr n x y| ≤ |r - devCorr rd n x y (cmean rd n x) (cmean rd n y)| + |devCorr rd n x y (cmean rd n x) (cmean rd n y) - corr n x y| :=
        abs_sub_le _ _ _
      _ ≤ _ := by rw [← e1]; exact add_le_add hr hd

/-! ## The integer types -/

/-- C81: the integer core, on integers that the result type represents exactly (at most `2^p` in
absolute value): NaN exactly for constant inputs, otherwise within the bound, whose spread and size
conditions hold for all integers. -/
theorem C81_int (h : Nearest p emin rd) (hp : 10 ≤ p) (he : emin ≤ -2 * p) (n : ℕ) (hn2 : 2 ≤ n) (hn : 100 * (n : ℝ) ≤ 2 ^ p)
    (m : Mem Int) (px xs py ys : Int) (bx : ∀ i < n, |get m px xs i| ≤ 2 ^ p) (bY : ∀ i < n, |get m py ys i| ≤ 2 ^ p) :
    let x : Nat → ℝ := fun i => ((get m px xs i : Int) : ℝ)
    let y : Nat → ℝ := fun i => ((get m py ys i : Int) : ℝ)
    (Constant n x ∨ Constant n y → pearsonIntR rd n m px xs py ys = .nan) ∧
    (¬ Constant n x → ¬ Constant n y → ∃ r, pearsonIntR rd n m px xs py ys = .fin r ∧ |r| ≤ 1 + (1.04 * n + 18) * (2 ^ p)⁻¹ ∧
      ∀ Mx My : ℝ, (∀ i < n, |x i| ≤ Mx) → (∀ i < n, |y i| ≤ My) →
        |r - corr n x y| ≤ (1.04 * n + 18) * (2 ^ p)⁻¹ + 55.2 * (2 ^ p)⁻¹ * (Mx / sd n x + My / sd n y)) := by
  intro x y
  have hfl : ∀ v : Int, |v| ≤ 2 ^ p → IsFloat p emin (v : ℝ) := by
    intro v hv
    have : IsFloat p emin ((v.natAbs : ℕ) : ℝ) := Mad.isFloat_nat (by omega) (by omega) (by zify; exact hv)
    rcases Int.natAbs_eq v with e | e
    · have e' : (v : ℝ) = ((v.natAbs : ℕ) : ℝ) := by rw [← Int.cast_natCast, ← e]
      rw [e']; exact this
    · have e' : (v : ℝ) = -((v.natAbs : ℕ) : ℝ) := by rw [← Int.cast_natCast, ← Int.cast_neg, ← e]
      rw [e']; exact this.neg
  have fx : ∀ i < n, IsFloat p emin (x i) := fun i hi => hfl _ (bx i hi)
  have fy : ∀ i < n, IsFloat p emin (y i) := fun i hi => hfl _ (bY i hi)
  -- the same data, as floating-point numbers in memory
  set M : Mem (XF ℝ) := fun a => .fin (if a < n then x a.toNat else y (a - n).toNat) with hM
  have gx : ∀ i < n, get M 0 1 i = .fin (x i) := by
    intro i hi
    simp only [get, hM]
    rw [if_pos (by omega)]; congr 2; omega
  have gy : ∀ i < n, get M n 1 i = .fin (y i) := by
    intro i hi
    simp only [get, hM]
    rw [if_neg (by omega)]; congr 2; omega
  have hsame : pearsonIntR rd n m px xs py ys = pearsonR rd n M 0 1 n 1 := by
    rcases eq_or_ne n 2 with rfl | h2
    · rw [C81_two]
      have a := C46_value_int 2 le_rfl m px xs py ys
      have b := C46_value 2 le_rfl M 0 1 (2 : ℕ) 1 x y gx gy
      have e : pearsonIntR rd 2 m px xs py ys = pearsonInt 2 m px xs py ys := by
        simp only [pearsonIntR, pearsonInt, show ¬ (2 = 1) by omega, if_false, if_true]
      rw [e]
      by_cases c1 : Constant 2 x
      · rw [a.2 (.inl c1), b.2 (.inl c1)]
      · by_cases c2 : Constant 2 y
        · rw [a.2 (.inr c2), b.2 (.inr c2)]
        · rw [a.1 c1 c2, b.1 c1 c2]
    · simp only [pearsonIntR, pearsonR, if_neg h2, if_neg (by omega : ¬ n = 1)]
      apply generalR_congr n (by omega)
      · intro i hi; rw [gx i hi, h.exact (fx i hi)]
      · intro i hi; rw [gy i hi, h.exact (fy i hi)]
  have h1 := C81_nan h hp he n hn2 hn M 0 1 n 1 x y gx gy fx fy
  have hlow : (2 : ℝ) ^ emin * (2 ^ p) ^ 2 ≤ 1 := by
    have e : ((2 : ℝ) ^ p) ^ 2 = 2 ^ (2 * (p : ℤ)) := by rw [mul_comm, zpow_mul, zpow_natCast]; norm_cast
    rw [e, ← zpow_add₀ (by norm_num)]
    exact zpow_le_one_of_nonpos₀ (by norm_num) (by omega)
  have hlow' : 2 * ((2 : ℝ) ^ emin * 2 ^ p) ≤ 1 := by
    have e : 2 * ((2 : ℝ) ^ emin * 2 ^ p) ≤ 2 ^ p * (2 ^ emin * 2 ^ p) := by
      apply mul_le_mul_of_nonneg_right _ (by positivity)
      calc (2 : ℝ) = 2 ^ 1 := by norm_num
        _ ≤ _ := pow_le_pow_right₀ (by norm_num) (by omega)
    calc _ ≤ _ := e
      _ = 2 ^ emin * (2 ^ p) ^ 2 := by ring
      _ ≤ 1 := hlow
  have spread : ∀ (f : Nat → Int), ¬ Constant n (fun i => (f i : ℝ)) → ∃ i < n, ∃ j < n, 2 * (2 ^ emin * 2 ^ p) ≤ ((f i : ℝ)) - f j := by
    intro f hc
    unfold Constant at hc
    push Not at hc
    obtain ⟨i, hi, j, hj, hne⟩ := hc
    have hne' : f i ≠ f j := by exact_mod_cast hne
    rcases lt_or_gt_of_ne hne' with c | c
    · refine ⟨j, hj, i, hi, hlow'.trans ?_⟩
      have : (f i : ℝ) + 1 ≤ f j := by exact_mod_cast c
      linarith
    · refine ⟨i, hi, j, hj, hlow'.trans ?_⟩
      have : (f j : ℝ) + 1 ≤ f i := by exact_mod_cast c
      linarith
  have size : ∀ (f : Nat → Int) (B : ℝ), ¬ Constant n (fun i => (f i : ℝ)) → (∀ i < n, |((f i : ℤ) : ℝ)| ≤ B) → 1 ≤ B := by
    intro f B hc hB
    by_contra hlt
    apply hc
    have z : ∀ i < n, f i = 0 := by
      intro i hi
      have h1 := hB i hi
      have h2 : |((f i : ℤ) : ℝ)| < 1 := by linarith
      exact Int.abs_lt_one_iff.1 (by exact_mod_cast h2)
    intro i hi j hj
    simp only [z i hi, z j hj]
  rw [hsame]
  refine ⟨h1.1, fun c1 c2 => ?_⟩
  have s1 := spread _ c1
  have s2 := spread _ c2
  obtain ⟨r, hr, hr1⟩ := C81_range_partial h hp he n hn2 hn M 0 1 n 1 x y gx gy s1 s2
  refine ⟨r, hr, hr1, ?_⟩
  intro Mx My b1 b2
  obtain ⟨r', e', hr'⟩ := C81_accuracy_partial h hp he n hn2 hn M 0 1 n 1 x y gx gy s1 s2 Mx My b1 b2
    (hlow.trans (size _ Mx c1 b1)) (hlow.trans (size _ My c2 b2))
  rw [hr] at e'
  rw [XF.fin.injEq] at e'
  rw [e']; exact hr'

/-! ## Counterexamples: the result can exceed 1 -/

/-- Three elements, step by step. -/
theorem three (x : Nat → ℝ) (mean D N : ℝ) (hD : D ≠ 0) (hN : N ≠ 0) (hrd : ∀ k : Nat, rd ((k : ℝ) + 1) ≠ 0)
    (e1 : cmean rd 3 x = mean) (e2 : D = max |dev rd x mean 0| (max |dev rd x mean 1| |dev rd x mean 2|)) (S : ℝ) (hS : 0 ≤ S)
    (e3 : kahan rd 0 0 [zsq rd x mean D 0, zsq rd x mean D 1, zsq rd x mean D 2] = S) (e4 : rd (D * rd (Real.sqrt S)) = N) :
    generalR rd 3 (fun k => .fin (x k)) (fun k => .fin (x k)) =
      .fin (rsum rd 0 ([0, 1, 2].map fun k => rd (rd (dev rd x mean k / N) * rd (dev rd x mean k / N)))) := by
  have hm : stridedMeanR rd 3 (fun k => .fin (x k)) = .fin mean := by
    rw [← e1]; exact meanLoopR_fin hrd x 3 0 0 0 0 0
  obtain ⟨D', d1, d2, d3, i, hi, d4⟩ := deltaMaxabsR_fin (rd := rd) 3 (by norm_num) x mean
  have hDD : D' = D := by
    apply le_antisymm
    · rw [d4, e2]
      rcases (by omega : i = 0 ∨ i = 1 ∨ i = 2) with rfl | rfl | rfl
      · exact le_max_left _ _
      · exact (le_max_left _ _).trans (le_max_right _ _)
      · exact (le_max_right _ _).trans (le_max_right _ _)
    · rw [e2]
      exact max_le (d3 0 (by norm_num)) (max_le (d3 1 (by norm_num)) (d3 2 (by norm_num)))
  rw [hDD] at d1
  have hN' : deltaNormR rd 3 (fun k => .fin (x k)) (.fin mean) (.fin D) = .fin N := by
    unfold deltaNormR
    rw [normLoopR_fin x mean D hD]
    have e : (List.range' 0 3).map (zsq rd x mean D) = [zsq rd x mean D 0, zsq rd x mean D 1, zsq rd x mean D 2] := rfl
    rw [e, e3, xsqrt, if_neg (not_lt.2 hS), rnd_fin, XF.mul_fin, rnd_fin, e4]
  have ex : XF.eq (.fin D) (.fin 0) = false := by simp [hD]
  unfold generalR
  simp only [hm, d1, ex, hN', Bool.false_eq_true, if_false]
  rw [rLoopR_fin x x mean N mean N hN hN]
  rfl

/-- The first three terms of a sequence. -/
def seq3 (a b c : ℝ) : Nat → ℝ
  | 0 => a
  | 1 => b
  | _ => c

/-- C81 (violated): the correlation of the doubles 0, 0, 3 with themselves is `1 + 2^-52`, more than 1,
whatever the rule for ties. -/
theorem C81_range_violated (h : Nearest 53 (-1074) rd) (m : Mem (XF ℝ)) (px xs : Int)
    (h0 : get m px xs 0 = .fin 0) (h1 : get m px xs 1 = .fin 0) (h2 : get m px xs 2 = .fin 3) :
    pearsonR rd 3 m px xs px xs = .fin (1 + 2 ^ (-52 : ℤ)) := by
  have hx : ∀ i < 3, get m px xs i = .fin (seq3 0 0 3 i) := by
    intro i hi
    rcases (by omega : i = 0 ∨ i = 1 ∨ i = 2) with rfl | rfl | rfl
    · exact h0
    · exact h1
    · exact h2
  simp only [pearsonR, show ¬ (3 = 1) by omega, show ¬ (3 = 2) by omega, if_false]
  rw [generalR_congr 3 (by omega) _ (fun i => .fin (seq3 0 0 3 i)) _ (fun i => .fin (seq3 0 0 3 i)) hx hx]
  have hk1 : ∀ k : Nat, rd ((k : ℝ) + 1) ≠ 0 := by
    intro k hc
    have f1 : IsFloat 53 (-1074) (1 : ℝ) := isFloat_one (by omega) (by omega)
    have := h.mono_float f1 (show (1 : ℝ) ≤ (k : ℝ) + 1 by linarith [Nat.cast_nonneg (α := ℝ) k])
    rw [hc] at this; linarith
  have ex : ∀ (v : ℝ) (a : ℤ), |a| < 2 ^ 53 → v = a * 2 ^ (-2 : ℤ) → rd v = v := fun v a ha hv => h.exact ⟨a, -2, ha, by norm_num, hv⟩
  have r0 : rd 0 = 0 := h.round_zero
  have r1 : rd 1 = 1 := ex 1 4 (by norm_num) (by norm_num)
  have r2 : rd 2 = 2 := ex 2 8 (by norm_num) (by norm_num)
  have r3 : rd 3 = 3 := ex 3 12 (by norm_num) (by norm_num)
  have rm1 : rd (-1) = -1 := ex (-1) (-4) (by norm_num) (by norm_num)
  have rmh : rd (-1 / 2) = -1 / 2 := ex _ (-2) (by norm_num) (by norm_num)
  have rh : rd (1 / 2) = 1 / 2 := ex _ 2 (by norm_num) (by norm_num)
  have rq : rd (1 / 4) = 1 / 4 := ex _ 1 (by norm_num) (by norm_num)
  have rt : rd (3 / 2) = 3 / 2 := ex _ 6 (by norm_num) (by norm_num)
  have dm : ∀ k, dev rd (seq3 0 0 3) 1 k = if k ≤ 1 then -1 else 2 := by
    intro k
    rcases k with _ | _ | k
    · simp only [dev, seq3]; norm_num [rm1]
    · simp only [dev, seq3]; norm_num [rm1]
    · simp only [dev, seq3]; norm_num [r2]
  have hmean : cmean rd 3 (seq3 0 0 3) = 1 := by
    have e : (List.range' 0 3).map (seq3 0 0 3) = [0, 0, 3] := rfl
    simp only [cmean, e, Meanvar.loop, Meanvar.compensatedUpdate]
    norm_num [r0, r1, r2, r3]
  have hz : ∀ k, zsq rd (seq3 0 0 3) 1 2 k = if k ≤ 1 then 1 / 4 else 1 := by
    intro k
    rw [zsq, dm]
    by_cases hk : k ≤ 1
    · rw [if_pos hk, if_pos hk, rmh]
      rw [show (-1 / 2 : ℝ) * (-1 / 2) = 1 / 4 by norm_num, rq]
    · rw [if_neg hk, if_neg hk, div_self (by norm_num), r1, one_mul, r1]
  have hkah : kahan rd 0 0 [zsq rd (seq3 0 0 3) 1 2 0, zsq rd (seq3 0 0 3) 1 2 1, zsq rd (seq3 0 0 3) 1 2 2] = 3 / 2 := by
    have z0 := hz 0
    have z1 := hz 1
    have z2 := hz 2
    norm_num at z0 z1 z2 rq rh
    simp only [z0, z1, z2, kahan, Meanvar.compensatedUpdate]
    norm_num [r0, r1, rq, rh, rt]
  have hq : rd (Real.sqrt (3 / 2)) = (5515760546423086 : ℤ) * 2 ^ (-53 + 1 : ℤ) := by
    have lo : (5515760546423086 : ℝ) * 2 ^ (-52 : ℤ) - 2 ^ (-54 : ℤ) < Real.sqrt (3 / 2) := by
      apply Real.lt_sqrt_of_sq_lt; norm_num
    have hi : Real.sqrt (3 / 2) < (5515760546423086 : ℝ) * 2 ^ (-52 : ℤ) + 2 ^ (-53 : ℤ) := by
      rw [Real.sqrt_lt' (by norm_num)]; norm_num
    have s1 : (1 : ℝ) ≤ Real.sqrt (3 / 2) := by rw [Real.one_le_sqrt]; norm_num
    generalize Real.sqrt (3 / 2) = t at *
    apply h.pin (by norm_num) _ _ (by norm_num) (by norm_num)
    · rw [abs_of_nonneg (by linarith)]; norm_num; linarith
    · clear ex rm1 rmh rh rq rt dm hmean hz hkah hk1
      rw [abs_lt]; norm_num at *; constructor <;> linarith
  have hN : rd (2 * rd (Real.sqrt (3 / 2))) = 5515760546423086 * 2 ^ (-51 : ℤ) := by
    rw [hq, h.exact ⟨5515760546423086, -51, by norm_num, by norm_num, by norm_num⟩]; norm_num
  rw [three (seq3 0 0 3) 1 2 (5515760546423086 * 2 ^ (-51 : ℤ)) (by norm_num) (by norm_num) hk1 hmean
    (by rw [dm, dm, dm]; norm_num) (3 / 2) (by norm_num) hkah hN]
  have pa : rd (-1 / (5515760546423086 * 2 ^ (-51 : ℤ))) = ((-7354347395230783 : ℤ) : ℝ) * 2 ^ (-55 + 1 : ℤ) := by
    apply h.pin (by norm_num) _ _ (by norm_num) (by norm_num)
    · norm_num [abs_of_pos, abs_of_neg]
    · rw [abs_lt]; norm_num
  have pb : rd (2 / (5515760546423086 * 2 ^ (-51 : ℤ))) = ((7354347395230783 : ℤ) : ℝ) * 2 ^ (-54 + 1 : ℤ) := by
    apply h.pin (by norm_num) _ _ (by norm_num) (by norm_num)
    · norm_num [abs_of_pos, abs_of_neg]
    · rw [abs_lt]; norm_num
  have pc : rd ((((-7354347395230783 : ℤ) : ℝ) * 2 ^ (-55 + 1 : ℤ)) * (((-7354347395230783 : ℤ) : ℝ) * 2 ^ (-55 + 1 : ℤ))) =
      ((6004799503160663 : ℤ) : ℝ) * 2 ^ (-56 + 1 : ℤ) := by
    apply h.pin (by norm_num) _ _ (by norm_num) (by norm_num)
    · norm_num [abs_of_pos, abs_of_neg]
    · rw [abs_lt]; norm_num
  have pd : rd ((((7354347395230783 : ℤ) : ℝ) * 2 ^ (-54 + 1 : ℤ)) * (((7354347395230783 : ℤ) : ℝ) * 2 ^ (-54 + 1 : ℤ))) =
      ((6004799503160663 : ℤ) : ℝ) * 2 ^ (-54 + 1 : ℤ) := by
    apply h.pin (by norm_num) _ _ (by norm_num) (by norm_num)
    · norm_num [abs_of_pos, abs_of_neg]
    · rw [abs_lt]; norm_num
  have d0 := dm 0
  have d1 := dm 1
  have d2 := dm 2
  norm_num only [if_true, if_false] at d0 d1 d2
  simp only [List.map, d0, d1, d2, pa, pb, pc, pd, rsum]
  rw [zero_add, h.exact (x := ((6004799503160663 : ℤ) : ℝ) * 2 ^ (-56 + 1 : ℤ)) ⟨6004799503160663, -55, by norm_num, by norm_num, by norm_num⟩,
    h.exact (x := ((6004799503160663 : ℤ) : ℝ) * 2 ^ (-56 + 1 : ℤ) + ((6004799503160663 : ℤ) : ℝ) * 2 ^ (-56 + 1 : ℤ))
      ⟨6004799503160663, -54, by norm_num, by norm_num, by norm_num⟩,
    h.pin (by norm_num) 4503599627370497 (-53) (by norm_num) (by norm_num) (by norm_num [abs_of_pos]) (by rw [abs_lt]; norm_num)]
  norm_num

/-- C81 (violated): the correlation of the doubles `-2^-1074`, `2^-1074`, 0 with themselves is 2. -/
theorem C81_underflow_violated (h : Nearest 53 (-1074) rd) (m : Mem (XF ℝ)) (px xs : Int)
    (h0 : get m px xs 0 = .fin (-2 ^ (-1074 : ℤ))) (h1 : get m px xs 1 = .fin (2 ^ (-1074 : ℤ))) (h2 : get m px xs 2 = .fin 0) :
    pearsonR rd 3 m px xs px xs = .fin 2 := by
  obtain ⟨η, hη⟩ : ∃ η : ℝ, η = 2 ^ (-1074 : ℤ) := ⟨_, rfl⟩
  rw [← hη] at h0 h1
  have hη0 : 0 < η := by rw [hη]; positivity
  have hx : ∀ i < 3, get m px xs i = .fin (seq3 (-η) η 0 i) := by
    intro i hi
    rcases (by omega : i = 0 ∨ i = 1 ∨ i = 2) with rfl | rfl | rfl
    · exact h0
    · exact h1
    · exact h2
  simp only [pearsonR, show ¬ (3 = 1) by omega, show ¬ (3 = 2) by omega, if_false]
  rw [generalR_congr 3 (by omega) _ (fun i => .fin (seq3 (-η) η 0 i)) _ (fun i => .fin (seq3 (-η) η 0 i)) hx hx]
  have hk1 : ∀ k : Nat, rd ((k : ℝ) + 1) ≠ 0 := by
    intro k hc
    have f1 : IsFloat 53 (-1074) (1 : ℝ) := isFloat_one (by omega) (by omega)
    have := h.mono_float f1 (show (1 : ℝ) ≤ (k : ℝ) + 1 by linarith [Nat.cast_nonneg (α := ℝ) k])
    rw [hc] at this; linarith
  have ex : ∀ (v : ℝ) (a : ℤ), |a| < 2 ^ 53 → v = a → rd v = v := fun v a ha hv => h.exact ⟨a, 0, ha, by norm_num, by simpa using hv⟩
  have r0 : rd 0 = 0 := h.round_zero
  have r1 : rd 1 = 1 := ex 1 1 (by norm_num) (by norm_num)
  have r2 : rd 2 = 2 := ex 2 2 (by norm_num) (by norm_num)
  have r3 : rd 3 = 3 := ex 3 3 (by norm_num) (by norm_num)
  have rm1 : rd (-1) = -1 := ex (-1) (-1) (by norm_num) (by norm_num)
  have fη : IsFloat 53 (-1074) η := ⟨1, -1074, by norm_num, by norm_num, by rw [hη]; simp⟩
  have rη : rd η = η := h.exact fη
  have rmη : rd (-η) = -η := h.exact fη.neg
  have r2η : rd (2 * η) = 2 * η := h.exact fη.two_mul
  have hmean : cmean rd 3 (seq3 (-η) η 0) = 0 := by
    have e : (List.range' 0 3).map (seq3 (-η) η 0) = [-η, η, 0] := rfl
    have e2 : η + η = 2 * η := by ring
    have e3 : 2 * η / 2 = η := by ring
    simp only [cmean, e, Meanvar.loop, Meanvar.compensatedUpdate]
    norm_num [r0, r1, r2, r3, rη, rmη, e2, r2η, e3]
  have d0 : dev rd (seq3 (-η) η 0) 0 0 = -η := by simp [dev, seq3, rmη]
  have d1 : dev rd (seq3 (-η) η 0) 0 1 = η := by simp [dev, seq3, rη]
  have d2 : dev rd (seq3 (-η) η 0) 0 2 = 0 := by simp [dev, seq3, r0]
  have q0 : -η / η = -1 := by field_simp
  have q1 : η / η = 1 := by field_simp
  have hkah : kahan rd 0 0 [zsq rd (seq3 (-η) η 0) 0 η 0, zsq rd (seq3 (-η) η 0) 0 η 1, zsq rd (seq3 (-η) η 0) 0 η 2] = 2 := by
    simp only [zsq, d0, d1, d2, q0, q1, kahan, Meanvar.compensatedUpdate]
    norm_num [r0, r1, r2, rm1]
  have hq1 : rd (Real.sqrt 2) < 3 / 2 := by
    have : rd (Real.sqrt 2) ≤ 1449 / 1024 := by
      apply h.mono_float' (f := 1449 / 1024) ⟨1449, -10, by norm_num, by norm_num, by norm_num⟩
      rw [Real.sqrt_le_left (by norm_num)]; norm_num
    exact lt_of_le_of_lt this (by norm_num)
  have hq2 : 1 ≤ rd (Real.sqrt 2) := by
    apply h.mono_float (f := 1) (isFloat_one (by norm_num) (by norm_num))
    rw [Real.one_le_sqrt]; norm_num
  have hN : rd (η * rd (Real.sqrt 2)) = η := by
    generalize rd (Real.sqrt 2) = q at *
    obtain ⟨g, hg⟩ := (h (η * q)).1.grid
    have a1 := (h (η * q)).2 η fη
    rw [abs_sub_comm η, abs_of_nonneg (by nlinarith : 0 ≤ η * q - η)] at a1
    rw [← hη] at hg
    rw [hg] at a1 ⊢
    have a2 := abs_le.1 a1
    have b1 : ((g : ℝ) - 2) * η < 0 := by nlinarith
    have b2 : 0 < (g : ℝ) * η := by nlinarith
    have c1 : (g : ℝ) < 2 := by by_contra hc; nlinarith
    have c2 : (0 : ℝ) < g := by by_contra hc; nlinarith
    have : g = 1 := by
      have : g < 2 := by exact_mod_cast c1
      have : 0 < g := by exact_mod_cast c2
      omega
    rw [this]; simp
  rw [three (seq3 (-η) η 0) 0 η η hη0.ne' hη0.ne' hk1 hmean
    (by rw [d0, d1, d2]; simp [abs_of_pos hη0, hη0.le]) 2 (by norm_num) hkah hN]
  simp only [List.map, d0, d1, d2, q0, q1, rsum]
  norm_num [r0, r1, r2, rm1]

/-! ### Non-vacuity: doubles, 1 2 4 and 3 5 4 -/
example : ∃ rd : ℝ → ℝ, Nearest 53 (-1074) rd := exists_nearest (by norm_num) _

theorem low_double : (2 : ℝ) * (2 ^ (-1074 : ℤ) * 2 ^ 53) ≤ 1 ∧ (2 : ℝ) ^ (-1074 : ℤ) * (2 ^ 53) ^ 2 ≤ 1 := by
  have e1 : (2 : ℝ) * (2 ^ (-1074 : ℤ) * 2 ^ 53) = 2 ^ (-1020 : ℤ) := by
    rw [← zpow_natCast, ← zpow_add₀ (by norm_num), ← zpow_one_add₀ (by norm_num)]; norm_num
  have e2 : (2 : ℝ) ^ (-1074 : ℤ) * (2 ^ 53) ^ 2 = 2 ^ (-968 : ℤ) := by
    rw [← pow_mul, ← zpow_natCast, ← zpow_add₀ (by norm_num)]; norm_num
  rw [e1, e2]
  exact ⟨zpow_le_one_of_nonpos₀ (by norm_num) (by norm_num), zpow_le_one_of_nonpos₀ (by norm_num) (by norm_num)⟩

example (h : Nearest 53 (-1074) rd) (m : Mem (XF ℝ)) (hx : ∀ i < 3, get m 0 1 i = .fin (seq3 1 2 4 i))
    (hy : ∀ i < 3, get m 3 1 i = .fin (seq3 3 5 4 i)) :
    ∃ r, pearsonR rd 3 m 0 1 3 1 = .fin r ∧ |r - corr 3 (seq3 1 2 4) (seq3 3 5 4)| ≤
      (1.04 * (3 : ℕ) + 18) * (2 ^ 53)⁻¹ + 55.2 * (2 ^ 53)⁻¹ * (4 / sd 3 (seq3 1 2 4) + 5 / sd 3 (seq3 3 5 4)) := by
  have hb : ∀ (a b c M : ℝ), |a| ≤ M → |b| ≤ M → |c| ≤ M → ∀ i < 3, |seq3 a b c i| ≤ M := by
    intro a b c M h1 h2 h3 i hi
    rcases (by omega : i = 0 ∨ i = 1 ∨ i = 2) with rfl | rfl | rfl
    · exact h1
    · exact h2
    · exact h3
  refine C81_accuracy_partial h (by norm_num) (by norm_num) 3 (by norm_num) (by norm_num) m 0 1 3 1 _ _ hx hy
    ⟨1, by norm_num, 0, by norm_num, low_double.1.trans (by norm_num [seq3])⟩ ⟨1, by norm_num, 0, by norm_num, low_double.1.trans (by norm_num [seq3])⟩
    4 5 (hb _ _ _ _ (by norm_num) (by norm_num) (by norm_num)) (hb _ _ _ _ (by norm_num) (by norm_num) (by norm_num))
    (low_double.2.trans (by norm_num)) (low_double.2.trans (by norm_num))

end Ufunclab.Corr
