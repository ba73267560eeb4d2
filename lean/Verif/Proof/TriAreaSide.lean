import Verif.Proof.TriAreaRound
import Mathlib.Analysis.SpecialFunctions.Exponential
import Mathlib.Analysis.Complex.Exponential
namespace Ufunclab.TriArea
open Finset Float Spec

variable {p : ℕ} {emin : ℤ} {rd : ℝ → ℝ}

/-! ### The sum of squares -/

theorem sumSq_bounds (h : Nearest p emin rd) (hp : 1 ≤ p) (x : Int → Nat → ℝ) (hx : ∀ i k, IsFloat p emin (x i k)) (i1 i2 : Int)
    (fuel k : Nat) (s S : ℝ) (hs : IsFloat p emin s)
    (h0 : 0 ≤ s) (hS0 : 0 ≤ S)
    (hlo : (1 - (2 ^ p)⁻¹) ^ (k + 3) * S - k * (2 ^ emin / 2) ≤ s)
    (hhi : s ≤ (1 + (2 ^ p)⁻¹) ^ (k + 3) * S + k * (2 ^ emin / 2) * (1 + (2 ^ p)⁻¹) ^ k) :
    let T := S + ∑ j ∈ range fuel, (x i2 (k + j) - x i1 (k + j)) ^ 2
    let r := sumSqDiffR rd x i1 i2 fuel k s
    (1 - (2 ^ p)⁻¹) ^ (k + fuel + 3) * T - (k + fuel) * (2 ^ emin / 2) ≤ r
      ∧ r ≤ (1 + (2 ^ p)⁻¹) ^ (k + fuel + 3) * T + (k + fuel) * (2 ^ emin / 2) * (1 + (2 ^ p)⁻¹) ^ (k + fuel) ∧ 0 ≤ r := by
  obtain ⟨u, hu⟩ : ∃ u : ℝ, u = (2 ^ p)⁻¹ := ⟨_, rfl⟩
  obtain ⟨η, hη⟩ : ∃ η : ℝ, η = 2 ^ emin / 2 := ⟨_, rfl⟩
  have hu0 : 0 ≤ u := by rw [hu]; positivity
  have hu1 : u ≤ 1 := by rw [hu]; exact inv_le_one_of_one_le₀ (one_le_pow₀ (by norm_num))
  have hη0 : 0 ≤ η := by rw [hη]; positivity
  rw [← hu, ← hη] at hlo hhi
  rw [← hu, ← hη]
  induction fuel generalizing k s S with
  | zero =>
    simp only [range_zero, sum_empty, add_zero, sumSqDiffR, Nat.cast_zero]
    exact ⟨hlo, hhi, h0⟩
  | succ f ih =>
    obtain ⟨d, hd⟩ : ∃ d, d = x i2 k - x i1 k := ⟨_, rfl⟩
    have hdx : |rd d - d| ≤ u * |d| := by
      rw [hu, hd]; exact h.rel_error hp ((hx i2 k).grid.sub (hx i1 k).grid)
    have hsq : Within u 2 (rd d * rd d) (d ^ 2) := by
      have h1 : abs (abs (rd d) - abs d) ≤ u * abs (abs d) := by
        rw [abs_abs]; exact le_trans (abs_abs_sub_abs_le_abs_sub _ _) hdx
      have h2 := Within.of_err hu0 hu1 (abs_nonneg d) h1
      have := h2.mul hu0 hu1 h2
      rwa [abs_mul_abs_self, abs_mul_abs_self, ← sq d] at this
    have hr := h.error hp (rd d * rd d)
    have hq0 : 0 ≤ rd d * rd d := mul_self_nonneg _
    rw [abs_of_nonneg hq0, ← hu, ← hη, abs_le] at hr
    have ht0 : 0 ≤ rd (rd d * rd d) := h.mono_float isFloat_zero hq0
    have hsum := h.rel_error hp (hs.grid.add (h (rd d * rd d)).1.grid)
    have hst : 0 ≤ s + rd (rd d * rd d) := by linarith
    rw [abs_of_nonneg hst, ← hu, abs_le] at hsum
    have hlo2 := hsq.lo
    have hhi2 := hsq.hi
    have hd2 : 0 ≤ d ^ 2 := sq_nonneg d
    have hu1' : 0 ≤ 1 - u := by linarith
    have hu2' : 0 ≤ 1 + u := by linarith
    have key := ih (k + 1) (rd (s + rd (rd d * rd d))) (S + d ^ 2) (h _).1 (h.mono_float isFloat_zero hst) (by linarith) ?_ ?_
    · have e : S + d ^ 2 + ∑ j ∈ range f, (x i2 (k + 1 + j) - x i1 (k + 1 + j)) ^ 2
          = S + ∑ j ∈ range (f + 1), (x i2 (k + j) - x i1 (k + j)) ^ 2 := by
        rw [sum_range_succ', hd, add_zero, add_assoc, add_comm ((x i2 k - x i1 k) ^ 2)]
        congr 2
        apply sum_congr rfl
        intro j _
        rw [show k + 1 + j = k + (j + 1) by omega]
      rw [e] at key
      have e2 : k + 1 + f = k + (f + 1) := by omega
      simp only [sumSqDiffR, ← hd]
      rw [e2] at key
      push_cast at key ⊢
      have e3 : (k : ℝ) + 1 + f = k + (f + 1) := by ring
      rw [e3] at key
      exact key
    · -- upper
      have a1 : rd (rd d * rd d) ≤ (1 + u) ^ 3 * d ^ 2 + η := by
        have := mul_le_mul_of_nonneg_left hhi2 hu2'
        have e : (1 + u) ^ 3 * d ^ 2 = (1 + u) * ((1 + u) ^ 2 * d ^ 2) := by ring
        rw [e]; linarith [hr.2]
      have a2 : (1 + u) ^ 3 * d ^ 2 ≤ (1 + u) ^ (k + 3) * d ^ 2 :=
        mul_le_mul_of_nonneg_right (pow_le_pow_right₀ (by linarith) (by omega)) hd2
      have a6 : η ≤ η * (1 + u) ^ k := le_mul_of_one_le_right hη0 (one_le_pow₀ (by linarith))
      have a3 : s + rd (rd d * rd d) ≤ (1 + u) ^ (k + 3) * (S + d ^ 2) + (k + 1) * η * (1 + u) ^ k := by
        have e : (k + 1) * η * (1 + u) ^ k = k * η * (1 + u) ^ k + η * (1 + u) ^ k := by ring
        rw [mul_add, e]; linarith
      have a4 := mul_le_mul_of_nonneg_left a3 hu2'
      have e : (1 + u) ^ (k + 1 + 3) * (S + d ^ 2) + ((k + 1 : ℕ) : ℝ) * η * (1 + u) ^ (k + 1)
          = (1 + u) * ((1 + u) ^ (k + 3) * (S + d ^ 2) + (k + 1) * η * (1 + u) ^ k) := by push_cast; ring
      rw [e]
      linarith [hsum.2]
    · -- lower
      have a1 : (1 - u) ^ 3 * d ^ 2 - η ≤ rd (rd d * rd d) := by
        have := mul_le_mul_of_nonneg_left hlo2 hu1'
        have e : (1 - u) ^ 3 * d ^ 2 = (1 - u) * ((1 - u) ^ 2 * d ^ 2) := by ring
        rw [e]; linarith [hr.1]
      have a2 : (1 - u) ^ (k + 3) * d ^ 2 ≤ (1 - u) ^ 3 * d ^ 2 :=
        mul_le_mul_of_nonneg_right (pow_le_pow_of_le_one hu1' (by linarith) (by omega)) hd2
      have a3 : (1 - u) ^ (k + 3) * (S + d ^ 2) - (k * η + η) ≤ s + rd (rd d * rd d) := by
        rw [mul_add]; linarith
      have a4 := mul_le_mul_of_nonneg_left a3 hu1'
      have e : (1 - u) ^ (k + 1 + 3) * (S + d ^ 2) = (1 - u) * ((1 - u) ^ (k + 3) * (S + d ^ 2)) := by ring
      have a5 : 0 ≤ u * (k * η + η) := by positivity
      rw [e]; push_cast
      linarith [hsum.1]

theorem pow_upper (u : ℝ) (hu0 : 0 ≤ u) (m : Nat) (hm : m * u ≤ 1 / 100) : (1 + u) ^ m ≤ 1 + 1.01 * (m * u) := by
  have h1 : (1 + u) ^ m ≤ Real.exp (m * u) := by
    rw [Real.exp_nat_mul]
    exact pow_le_pow_left₀ (by linarith) (by linarith [Real.add_one_le_exp u]) m
  have h0 : 0 ≤ m * u := by positivity
  have h2 := Real.abs_exp_sub_one_sub_id_le (x := m * u) (by rw [abs_of_nonneg h0]; linarith)
  have h3 := le_of_abs_le h2
  nlinarith

theorem sumSqDiffR_zero (h : Nearest p emin rd) (x : Int → Nat → ℝ) (i1 i2 : Int) (fuel k : Nat)
    (hz : ∀ j < fuel, x i2 (k + j) - x i1 (k + j) = 0) : sumSqDiffR rd x i1 i2 fuel k 0 = 0 := by
  induction fuel generalizing k with
  | zero => rfl
  | succ f ih =>
    have h0 := hz 0 (by omega)
    rw [add_zero] at h0
    simp only [sumSqDiffR, h0, h.round_zero, mul_zero, add_zero]
    apply ih
    intro j hj
    have := hz (j + 1) (by omega)
    rwa [show k + (j + 1) = k + 1 + j by omega] at this

set_option maxHeartbeats 1000000 in
/-- The computed length of a side. -/
theorem side_round (h : Nearest p emin rd) (hp : 11 ≤ p) (n : Nat) (hn : (n + 3 : ℝ) * (2 ^ p)⁻¹ ≤ 1 / 100) (x : Int → Nat → ℝ)
    (hx : ∀ i k, IsFloat p emin (x i k)) (i1 i2 : Int) (hemin : emin ≤ -2 * p)
    (hbig : Spec.dist n (x i1) (x i2) = 0 ∨ n * (2 ^ p * 2 ^ emin) ≤ Spec.dist n (x i1) (x i2) ^ 2) :
    |normDiffR rd n x i1 i2 - Spec.dist n (x i1) (x i2)| ≤ (0.52 * n + 4) * (2 ^ p)⁻¹ * Spec.dist n (x i1) (x i2) := by
  obtain ⟨D, hD⟩ : ∃ D, D = Spec.dist n (x i1) (x i2) := ⟨_, rfl⟩
  have hS0 : 0 ≤ ∑ j ∈ range n, (x i1 j - x i2 j) ^ 2 := sum_nonneg (fun j _ => sq_nonneg _)
  have hD2 : D ^ 2 = ∑ j ∈ range n, (x i2 j - x i1 j) ^ 2 := by
    rw [hD, Spec.dist, Real.sq_sqrt hS0]
    exact sum_congr rfl fun j _ => by ring
  have hD0 : 0 ≤ D := by rw [hD]; exact Real.sqrt_nonneg _
  rw [← hD] at hbig ⊢
  rcases hbig with hz | hbig
  · have hall : ∀ j < n, x i2 (0 + j) - x i1 (0 + j) = 0 := by
      rw [hz] at hD2
      have := (sum_eq_zero_iff_of_nonneg (fun j _ => sq_nonneg (x i2 j - x i1 j))).1 (by rw [← hD2]; norm_num : ∑ j ∈ range n, (x i2 j - x i1 j) ^ 2 = 0)
      intro j hj
      have := this j (mem_range.2 hj)
      rw [zero_add]
      exact pow_eq_zero_iff (by norm_num) |>.1 this
    rw [normDiffR, sumSqDiffR_zero h x i1 i2 n 0 hall, Real.sqrt_zero, h.round_zero, hz]
    simp
  rcases eq_or_lt_of_le hD0 with hz | hDpos
  · rw [← hz] at hD2
    have hall : ∀ j < n, x i2 (0 + j) - x i1 (0 + j) = 0 := by
      have := (sum_eq_zero_iff_of_nonneg (fun j _ => sq_nonneg (x i2 j - x i1 j))).1 (by rw [← hD2]; norm_num : ∑ j ∈ range n, (x i2 j - x i1 j) ^ 2 = 0)
      intro j hj
      have := this j (mem_range.2 hj)
      rw [zero_add]
      exact pow_eq_zero_iff (by norm_num) |>.1 this
    rw [normDiffR, sumSqDiffR_zero h x i1 i2 n 0 hall, Real.sqrt_zero, h.round_zero, ← hz]
    simp
  obtain ⟨b1, b2, b3⟩ := sumSq_bounds h (by omega) x hx i1 i2 n 0 0 0 isFloat_zero le_rfl le_rfl (by simp) (by simp)
  simp only [zero_add, Nat.cast_zero] at b1 b2
  rw [← hD2] at b1 b2
  generalize hr : sumSqDiffR rd x i1 i2 n 0 0 = r at *
  obtain ⟨u, hu⟩ : ∃ u : ℝ, u = (2 ^ p)⁻¹ := ⟨_, rfl⟩
  have hpu : (2 : ℝ) ^ p * u = 1 := by rw [hu]; exact mul_inv_cancel₀ (by positivity)
  have hu0 : 0 < u := by rw [hu]; positivity
  have hu2 : u ≤ 1 / 2048 := by
    rw [hu, inv_eq_one_div]
    apply one_div_le_one_div_of_le (by norm_num)
    calc (2048 : ℝ) = 2 ^ 11 := by norm_num
      _ ≤ 2 ^ p := pow_le_pow_right₀ (by norm_num) hp
  obtain ⟨M, hM⟩ : ∃ M : ℝ, M = 2 ^ emin := ⟨_, rfl⟩
  have hM0 : 0 < M := by rw [hM]; positivity
  rw [← hu, ← hM] at b1 b2
  rw [← hu] at hn ⊢
  rw [← hM] at hbig
  have hn0 : (0 : ℝ) ≤ n := Nat.cast_nonneg n
  have hnM : n * M ≤ u * D ^ 2 := by
    have := mul_le_mul_of_nonneg_left hbig hu0.le
    calc n * M = u * (n * (2 ^ p * M)) := by
          rw [show u * (n * (2 ^ p * M)) = (2 ^ p * u) * (n * M) by ring, hpu, one_mul]
      _ ≤ _ := this
  have pu := pow_upper u hu0.le (n + 3) (by push_cast; exact hn)
  have pu' := pow_upper u hu0.le n (by nlinarith)
  push_cast at pu
  have pl := one_add_mul_le_pow (show (-2 : ℝ) ≤ -u by linarith) (n + 3)
  rw [← sub_eq_add_neg] at pl
  push_cast at pl
  have hnu : n * u ≤ 1 / 100 := by nlinarith
  have hDD : 0 ≤ D ^ 2 := sq_nonneg D
  -- the sum of squares
  obtain ⟨g, hg⟩ : ∃ g : ℝ, g = (1.01 * n + 3.6) * u := ⟨_, rfl⟩
  have hg0 : 0 ≤ g := by rw [hg]; positivity
  have hgs : g ≤ 1 / 80 := by rw [hg]; nlinarith
  have hup : r ≤ (1 + g) * D ^ 2 := by
    have m1 := mul_le_mul_of_nonneg_right pu hDD
    have m2 : (n : ℝ) * (M / 2) * (1 + u) ^ n ≤ u * D ^ 2 / 2 * (1.02) := by
      have : (1 + u) ^ n ≤ 1.02 := by linarith
      calc (n : ℝ) * (M / 2) * (1 + u) ^ n = (n * M) / 2 * (1 + u) ^ n := by ring
        _ ≤ u * D ^ 2 / 2 * 1.02 := mul_le_mul (by linarith) this (by positivity) (by positivity)
    have : 0 ≤ u * D ^ 2 := by positivity
    rw [hg]; linarith
  have hlow : (1 - g) * D ^ 2 ≤ r := by
    have m1 := mul_le_mul_of_nonneg_right pl hDD
    have : 0 ≤ u * D ^ 2 := by positivity
    have : 0 ≤ n * (u * D ^ 2) := by positivity
    rw [hg]; linarith
  -- the square root
  have hrs : |Real.sqrt r - D| ≤ 0.505 * g * D := by
    have hq := Real.sqrt_nonneg r
    have hq2 := Real.sq_sqrt b3
    rw [abs_le]
    constructor
    · have hle : (1 - 0.505 * g) * D ≤ Real.sqrt r := by
        apply Real.le_sqrt_of_sq_le
        refine le_trans ?_ hlow
        rw [mul_pow]
        apply mul_le_mul_of_nonneg_right _ hDD
        nlinarith
      linarith
    · have hle : Real.sqrt r ≤ (1 + 0.505 * g) * D := by
        apply Real.sqrt_le_iff.2 ⟨by positivity, ?_⟩
        refine le_trans hup ?_
        rw [mul_pow]
        apply mul_le_mul_of_nonneg_right _ hDD
        nlinarith
      linarith
  -- its rounding: the root is well above the underflow threshold
  have hround : |rd (Real.sqrt r) - Real.sqrt r| ≤ u * Real.sqrt r := by
    have hq := Real.sqrt_nonneg r
    rcases Nat.eq_zero_or_pos n with hn0' | hnpos
    · subst hn0'
      simp at hD2
      exact absurd hD2 (by linarith)
    have hn1 : (1 : ℝ) ≤ n := by exact_mod_cast hnpos
    have := rel_normal h (by omega) (z := Real.sqrt r) (by
      rw [abs_of_nonneg hq]
      apply Real.le_sqrt_of_sq_le
      refine le_trans ?_ hlow
      have e1 : (2 : ℝ) ^ p * 2 ^ emin ≤ D ^ 2 := by
        rw [← hM]
        have : (2 : ℝ) ^ p * M ≤ n * (2 ^ p * M) := le_mul_of_one_le_left (by positivity) hn1
        linarith
      have e2 : (2 : ℝ) ^ p * 2 ^ emin ≤ 1 / 2048 := by
        have : (2 : ℝ) ^ p * 2 ^ emin ≤ u := by
          rw [hu, pow_zpow, ← zpow_natCast, ← zpow_neg]
          exact zpow_le_zpow_right₀ (by norm_num) (by omega)
        linarith
      have e3 : (0 : ℝ) ≤ 2 ^ p * 2 ^ emin := by positivity
      generalize (2 : ℝ) ^ p * 2 ^ emin = N at *
      nlinarith)
    rwa [abs_of_nonneg hq, ← hu] at this
  have hq := Real.sqrt_nonneg r
  rw [normDiffR, hr]
  have t1 : Real.sqrt r ≤ 1.01 * D := by
    have := (abs_le.1 hrs).2
    nlinarith
  calc |rd (Real.sqrt r) - D| ≤ |rd (Real.sqrt r) - Real.sqrt r| + |Real.sqrt r - D| := abs_sub_le _ _ _
    _ ≤ u * (1.01 * D) + 0.505 * g * D := by
        have := mul_le_mul_of_nonneg_left t1 hu0.le
        linarith
    _ ≤ (0.52 * n + 4) * u * D := by
        rw [hg]
        have : 0 ≤ u * D := by positivity
        have : 0 ≤ n * (u * D) := by positivity
        nlinarith

end Ufunclab.TriArea
