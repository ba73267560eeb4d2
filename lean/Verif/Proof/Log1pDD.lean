import Verif.Model.Log1p
import Verif.Proof.Float2
/-! # The double-double functions of log1p: error-free transformations -/
namespace Ufunclab.Log1p
open Ufunclab.Float
variable {K : Type _} [Field K] [LinearOrder K] [IsStrictOrderedRing K]
variable {p : ℕ} {emin : ℤ} {rd : K → K}

theorem twoSum_floats (h : Nearest p emin rd) (x y : K) :
    IsFloat p emin (twoSum rd x y).upper ∧ IsFloat p emin (twoSum rd x y).lower := ⟨(h _).1, (h _).1⟩

theorem twoSumQuick_floats (h : Nearest p emin rd) (x y : K) :
    IsFloat p emin (twoSumQuick rd x y).upper ∧ IsFloat p emin (twoSumQuick rd x y).lower := ⟨(h _).1, (h _).1⟩

/-- Fast2Sum as written in `two_sum_quick`. -/
theorem twoSumQuick_exact (h : Nearest p emin rd) (hp : 1 ≤ p) {x y : K} (hx : IsFloat p emin x)
    (hy : IsFloat p emin y) (hxy : |y| ≤ |x|) :
    (twoSumQuick rd x y).upper + (twoSumQuick rd x y).lower = x + y := by
  obtain ⟨h1, h2⟩ := fast2sum_floats h hp hx hy hxy
  simp only [twoSumQuick]
  rw [h.exact h1, show y - (rd (x + y) - x) = -(rd (x + y) - (x + y)) by ring, h.exact h2.neg]
  ring

/-- Knuth's TwoSum: no condition on the magnitudes. -/
theorem twoSum_exact [Archimedean K] (h : Nearest p emin rd) (hp : 3 ≤ p) {a b : K} (ha : IsFloat p emin a)
    (hb : IsFloat p emin b) : (twoSum rd a b).upper + (twoSum rd a b).lower = a + b := by
  have hp1 : 1 ≤ p := by omega
  simp only [twoSum]
  set s := rd (a + b) with hs
  have hsf : IsFloat p emin s := (h _).1
  have hef : IsFloat p emin (s - (a + b)) := add_err_float h hp1 ha hb
  set v := rd (s - a) with hv
  have hvf : IsFloat p emin v := (h _).1
  -- it suffices that the three subtractions are exact
  suffices hmain : IsFloat p emin (s - v) ∧ IsFloat p emin (a - (s - v)) ∧ IsFloat p emin (b - v) by
    obtain ⟨m1, m2, m3⟩ := hmain
    rw [h.exact m1, h.exact m2, h.exact m3, show a - (s - v) + (b - v) = -(s - (a + b)) by ring, h.exact hef.neg]
    ring
  by_cases hδ : s = a + b
  · have : v = b := by rw [hv, hδ, show a + b - a = b by ring]; exact h.exact hb
    rw [this, hδ, show a + b - b = a by ring, sub_self, sub_self]
    exact ⟨ha, isFloat_zero, isFloat_zero⟩
  rcases le_total |b| |a| with hba | hab
  · obtain ⟨h1, h2⟩ := fast2sum_floats h hp1 ha hb hba
    have : v = s - a := h.exact h1
    rw [this, show s - (s - a) = a by ring, sub_self, show b - (s - a) = -(s - (a + b)) by ring]
    exact ⟨ha, isFloat_zero, hef.neg⟩
  · -- |a| ≤ |s|, otherwise the sum is exact
    have hb0 : b ≠ 0 := by
      rintro rfl
      rw [abs_zero] at hab
      have ha0 : a = 0 := abs_eq_zero.1 (le_antisymm hab (abs_nonneg _))
      exact hδ (by rw [hs, ha0, add_zero]; exact h.round_zero)
    have has : |a| ≤ |s| := by
      by_contra hc
      push Not at hc
      have : |a + b| ≤ |a| := by
        by_contra hc2
        push Not at hc2
        exact absurd (h.abs_mono_float ha.abs hc2.le) (not_le.2 hc)
      exact hδ (h.exact (add_exact_of_small hp1 ha hb this (this.trans hab)))
    have hsa := fast2sum_floats h hp1 hsf ha.neg (by rwa [abs_neg])
    rw [← sub_eq_add_neg] at hsa
    refine ⟨by simpa using hsa.1.neg, by
      rw [show a - (s - v) = rd (s - a) - (s - a) by rw [← hv]; ring]; exact hsa.2, ?_⟩
    -- b - v
    obtain ⟨k, hk, gk, lk, hn⟩ := hb.normal hp1 hb0
    have hpp : (2 : K) ^ p = 2 * 2 ^ (p - 1) := by
      obtain ⟨q, rfl⟩ : ∃ q, p = q + 1 := ⟨p - 1, by omega⟩
      rw [Nat.add_sub_cancel, pow_succ]; ring
    have hp4 : (4 : K) ≤ 2 ^ (p - 1) := by
      calc (4 : K) = 2 ^ 2 := by norm_num
        _ ≤ _ := pow_le_pow_right₀ (by norm_num) (by omega)
    have hpos := two_zpow_pos (K := K) k
    have hδ1 : |s - (a + b)| ≤ 2 ^ k := by
      have hz : |a + b| ≤ 2 ^ p * 2 ^ (k + 1) := by
        rw [zpow_add_one₀ (by norm_num)]
        calc |a + b| ≤ |a| + |b| := abs_add_le _ _
          _ ≤ _ := by linarith
      have := h.half hp1 (by omega) hz
      rw [zpow_add_one₀ (by norm_num)] at this
      linarith
    have hv1 : |v - (s - a)| ≤ |s - (a + b)| := by
      have := (h (s - a)).2 b hb
      rw [show b - (s - a) = -(s - (a + b)) by ring, abs_neg] at this
      exact this
    have hbv : |b - v| ≤ 2 * 2 ^ k := by
      calc |b - v| = |(-(v - (s - a))) + (-(s - (a + b)))| := by ring_nf
        _ ≤ |v - (s - a)| + |s - (a + b)| := by
          refine (abs_add_le _ _).trans ?_
          rw [abs_neg, abs_neg]
        _ ≤ _ := by linarith
    rcases hn with rfl | hn
    · exact isFloat_of_grid hp1 le_rfl (hb.grid.sub hvf.grid) (by nlinarith)
    · -- v lies on the grid 2^(k-1)
      by_cases hke : k = emin
      · subst hke
        exact isFloat_of_grid hp1 le_rfl (hb.grid.sub hvf.grid) (by nlinarith)
      have hk2 : (2 : K) ^ k = 2 ^ (k - 2) * 4 := by
        rw [show k = (k - 2) + 2 by ring, zpow_add₀ (by norm_num)]; norm_num
      have hk1 : (2 : K) ^ k = 2 ^ (k - 1) * 2 := by
        rw [show k = (k - 1) + 1 by ring, zpow_add_one₀ (by norm_num)]; norm_num
      have hvb : 2 ^ p * 2 ^ (k - 2) ≤ |v| := by
        have : |b| ≤ |v| + |b - v| := by
          calc |b| = |v + (b - v)| := by ring_nf
            _ ≤ _ := abs_add_le _ _
        have e : (2 : K) ^ p * 2 ^ (k - 2) = 2 ^ (p - 1) * 2 ^ k / 2 := by rw [hpp, hk2]; ring
        rw [e]
        nlinarith
      have gv := hvf.big_grid hvb
      rw [show k - 2 + 1 = k - 1 by ring] at gv
      exact isFloat_of_grid hp1 (by omega) ((OnGrid.mono (by omega) gk).sub gv) (by
        rw [hk1] at hbv
        have := two_zpow_pos (K := K) (k - 1)
        nlinarith)

/-! ## Dekker's splitting and square (binary64) -/

theorem zpow_add_nat (k : ℤ) (n : ℕ) : (2 : K) ^ (k + (n : ℤ)) = 2 ^ n * 2 ^ k := by
  rw [zpow_add₀ (by norm_num), zpow_natCast, mul_comm]

theorem zpow_two_mul (k : ℤ) : (2 : K) ^ (2 * k) = 2 ^ k * 2 ^ k := by
  rw [two_mul, zpow_add₀ (by norm_num)]

theorem onGrid_mul {j k : ℤ} {x y : K} : OnGrid j x → OnGrid k y → OnGrid (j + k) (x * y) := by
  rintro ⟨a, rfl⟩ ⟨b, rfl⟩
  exact ⟨a * b, by rw [zpow_add₀ (by norm_num)]; push_cast; ring⟩

theorem onGrid_zpow {j k : ℤ} (h : k ≤ j) : OnGrid k ((2 : K) ^ j) := OnGrid.mono h ⟨1, by simp⟩

theorem nearest_negate (h : Nearest p emin rd) : Nearest p emin (fun z => -rd (-z)) := by
  intro z
  refine ⟨(h _).1.neg, fun y hy => ?_⟩
  have := (h (-z)).2 (-y) hy.neg
  rw [show rd (-z) - -z = -(-rd (-z) - z) by ring, abs_neg, show -y - -z = -(y - z) by ring, abs_neg] at this
  exact this

/-- What the splitting gives: `upper` on the coarse grid, `lower` the exact remainder. -/
structure SplitOk (fma : Bool) (k : ℤ) (x : K) (s : DD K) : Prop where
  grid : OnGrid (k + 27) s.upper
  upper_le : |s.upper| ≤ 2 ^ 53 * 2 ^ k
  lower_eq : s.lower = x - s.upper
  lower_le : |x - s.upper| ≤ 2 ^ 27 * 2 ^ k
  lower_le' : fma = false → |x - s.upper| ≤ 2 ^ 26 * 2 ^ k

theorem split_pos [Archimedean K] (h : Nearest 53 emin rd) (fma : Bool) {k : ℤ} (hk : emin ≤ k) {x : K}
    (gx : OnGrid k x) (hx1 : 2 ^ 52 * 2 ^ k ≤ x) (hx2 : x < 2 ^ 53 * 2 ^ k) :
    SplitOk fma k x (split fma rd x) := by
  have hc : (0 : K) < 2 ^ k := two_zpow_pos k
  have z26 : (2 : K) ^ (k + 26) = 2 ^ 26 * 2 ^ k := zpow_add_nat k 26
  have z27 : (2 : K) ^ (k + 27) = 2 ^ 27 * 2 ^ k := zpow_add_nat k 27
  have z28 : (2 : K) ^ (k + 28) = 2 ^ 28 * 2 ^ k := zpow_add_nat k 28
  -- x ≤ (2^53 - 1) 2^k; and x = 2^52 2^k or x ≥ (2^52 + 1) 2^k
  obtain ⟨hx3, hx4⟩ : x ≤ (2 ^ 53 - 1) * 2 ^ k ∧ (x = 2 ^ 52 * 2 ^ k ∨ (2 ^ 52 + 1) * 2 ^ k ≤ x) := by
    obtain ⟨n, rfl⟩ := gx
    have h1 : (2 : K) ^ 52 ≤ n := le_of_mul_le_mul_right hx1 hc
    have h2 : (n : K) < 2 ^ 53 := lt_of_mul_lt_mul_right hx2 hc.le
    have h1' : (2 : ℤ) ^ 52 ≤ n := by exact_mod_cast h1
    have h2' : n < 2 ^ 53 := by exact_mod_cast h2
    constructor
    · apply mul_le_mul_of_nonneg_right _ hc.le
      have : n ≤ 2 ^ 53 - 1 := by omega
      exact_mod_cast this
    · rcases eq_or_lt_of_le h1' with e | e
      · left; rw [← e]; norm_num
      · right
        apply mul_le_mul_of_nonneg_right _ hc.le
        have : (2 : ℤ) ^ 52 + 1 ≤ n := by omega
        exact_mod_cast this
  set t := rd ((2 ^ 27 + 1) * x) with ht
  have hv0 : (0 : K) ≤ (2 ^ 27 + 1) * x := by nlinarith
  have ht0 : 0 ≤ t := h.mono_float isFloat_zero hv0
  have ht1 : |t - (2 ^ 27 + 1) * x| ≤ 2 ^ 27 * 2 ^ k := by
    have := h.half (by norm_num) (k := k + 28) (by omega) (z := (2 ^ 27 + 1) * x) (by
      rw [abs_of_nonneg hv0, z28]; nlinarith)
    rw [z28] at this
    refine this.trans (le_of_eq (by ring))
  have ht2 : OnGrid (k + 27) t := by
    have h1 := h.big (by norm_num) (k := k + 26) (by omega) (z := (2 ^ 27 + 1) * x) (by
      rw [abs_of_nonneg hv0, z26]; nlinarith)
    have := ((h ((2 ^ 27 + 1) * x)).1).big_grid h1
    rwa [show k + 26 + 1 = k + 27 by ring] at this
  obtain ⟨ht3, ht4⟩ := abs_le.1 ht1
  have gx27 : OnGrid (k + 27) (2 ^ 27 * x) := by
    obtain ⟨n, rfl⟩ := gx
    exact ⟨n, by rw [z27]; ring⟩
  have g53 : OnGrid (k + 27) ((2 : K) ^ 53 * 2 ^ k) := by
    rw [← zpow_add_nat k 53]; exact onGrid_zpow (by push_cast; omega)
  -- a multiple of 2^(k+27) within 2^(k+27) of x is at most 2^53 2^k
  have hup : ∀ u : K, OnGrid (k + 27) u → |x - u| ≤ 2 ^ 27 * 2 ^ k → |u| ≤ 2 ^ 53 * 2 ^ k := by
    intro u hu hxu
    obtain ⟨e1, e2⟩ := abs_le.1 hxu
    have hu0 : 0 ≤ u := by nlinarith
    rw [abs_of_nonneg hu0]
    obtain ⟨n, rfl⟩ := hu
    rw [z27] at e1 ⊢
    have : (n : K) * 2 ^ 27 < 2 ^ 53 + 2 ^ 27 := by
      apply lt_of_mul_lt_mul_right _ hc.le
      nlinarith
    have h2 : n * 2 ^ 27 < 2 ^ 53 + 2 ^ 27 := by exact_mod_cast this
    have h3 : n ≤ 2 ^ 26 := by omega
    have h4 : (n : K) ≤ 2 ^ 26 := by exact_mod_cast h3
    nlinarith
  -- the lower part is exact
  have hlo : ∀ u : K, OnGrid (k + 27) u → |x - u| ≤ 2 ^ 27 * 2 ^ k → rd (x - u) = x - u := by
    intro u hu hxu
    apply h.exact
    exact isFloat_of_grid (by norm_num) hk (gx.sub (OnGrid.mono (by omega) hu)) (by nlinarith)
  cases fma with
  | true =>
    have hhi : rd (-2 ^ 27 * x + t) = t - 2 ^ 27 * x := by
      rw [show -2 ^ 27 * x + t = t - 2 ^ 27 * x by ring]
      apply h.exact
      apply isFloat_of_grid (by norm_num) (k := k + 27) (by omega) (ht2.sub gx27)
      rw [z27, abs_le]; constructor <;> nlinarith
    have hxu : |x - (t - 2 ^ 27 * x)| ≤ 2 ^ 27 * 2 ^ k := by
      rw [show x - (t - 2 ^ 27 * x) = -(t - (2 ^ 27 + 1) * x) by ring, abs_neg]; exact ht1
    simp only [split, ← ht, if_true, hhi]
    exact ⟨ht2.sub gx27, hup _ (ht2.sub gx27) hxu, hlo _ (ht2.sub gx27) hxu, hxu, by simp⟩
  | false =>
    have htx : 0 ≤ t - x := by nlinarith
    have hd0 : |rd (t - x) - (t - x)| ≤ 2 ^ 26 * 2 ^ k := by
      have := h.half (by norm_num) (k := k + 27) (by omega) (z := t - x) (by
        rw [abs_of_nonneg htx, z27]; nlinarith)
      rw [z27] at this
      refine this.trans (le_of_eq (by ring))
    have hd1 : OnGrid (k + 27) (rd (t - x)) := by
      have hlow : 2 ^ 79 * 2 ^ k ≤ t - x := by
        rcases hx4 with rfl | hx4
        · have : t = (2 ^ 27 + 1) * (2 ^ 52 * 2 ^ k) := by
            apply h.exact
            apply isFloat_of_grid (by norm_num) (k := k + 52) (by omega)
            · exact ⟨2 ^ 27 + 1, by rw [show ((52 : ℤ)) = ((52 : ℕ) : ℤ) by rfl, zpow_add_nat]; push_cast; ring⟩
            · rw [abs_of_nonneg hv0, show ((52 : ℤ)) = ((52 : ℕ) : ℤ) by rfl, zpow_add_nat]; nlinarith
          rw [this]; nlinarith
        · nlinarith
      have h1 := h.big (by norm_num) (k := k + 26) (by omega) (z := t - x) (by
        rw [abs_of_nonneg htx, z26]; nlinarith)
      have := ((h (t - x)).1).big_grid h1
      rwa [show k + 26 + 1 = k + 27 by ring] at this
    obtain ⟨hd2, hd3⟩ := abs_le.1 hd0
    have hxu : |x - (t - rd (t - x))| ≤ 2 ^ 26 * 2 ^ k := by
      rw [show x - (t - rd (t - x)) = rd (t - x) - (t - x) by ring]; exact hd0
    have hxu' : |x - (t - rd (t - x))| ≤ 2 ^ 27 * 2 ^ k := hxu.trans (by nlinarith)
    have hhi : rd (t - rd (t - x)) = t - rd (t - x) := by
      apply h.exact
      apply isFloat_of_grid (by norm_num) (k := k + 27) (by omega) (ht2.sub hd1)
      rw [z27, abs_le]; constructor <;> nlinarith
    simp only [split, ← ht, Bool.false_eq_true, if_false, hhi]
    exact ⟨ht2.sub hd1, hup _ (ht2.sub hd1) hxu', hlo _ (ht2.sub hd1) hxu', hxu', fun _ => hxu⟩

theorem split_neg (fma : Bool) (rd : K → K) (x : K) :
    (split fma rd (-x)).upper = -(split fma (fun z => -rd (-z)) x).upper ∧
    (split fma rd (-x)).lower = -(split fma (fun z => -rd (-z)) x).lower := by
  cases fma <;> simp only [split, Bool.false_eq_true, if_true, if_false, neg_neg, mul_neg, neg_sub, neg_add_rev,
    sub_neg_eq_add, neg_mul] <;> constructor <;> ring_nf

theorem split_ok [Archimedean K] (h : Nearest 53 emin rd) (fma : Bool) {k : ℤ} (hk : emin ≤ k) {x : K}
    (gx : OnGrid k x) (hx1 : 2 ^ 52 * 2 ^ k ≤ |x|) (hx2 : |x| < 2 ^ 53 * 2 ^ k) :
    SplitOk fma k x (split fma rd x) := by
  rcases le_total 0 x with h0 | h0
  · rw [abs_of_nonneg h0] at hx1 hx2
    exact split_pos h fma hk gx hx1 hx2
  · rw [abs_of_nonpos h0] at hx1 hx2
    obtain ⟨a1, a2, a3, a4, a5⟩ := split_pos (nearest_negate h) fma hk gx.neg hx1 hx2
    have e1 : (split fma rd x).upper = -(split fma (fun z => -rd (-z)) (-x)).upper := by
      have := (split_neg fma rd (-x)).1
      rwa [neg_neg] at this
    have e2 : (split fma rd x).lower = -(split fma (fun z => -rd (-z)) (-x)).lower := by
      have := (split_neg fma rd (-x)).2
      rwa [neg_neg] at this
    refine ⟨by rw [e1]; exact a1.neg, by rw [e1, abs_neg]; exact a2, by rw [e2, a3, e1]; ring, ?_, ?_⟩
    · rw [e1, ← abs_neg]
      convert a4 using 2; ring
    · intro hf
      rw [e1, ← abs_neg]
      convert a5 hf using 2; ring

end Ufunclab.Log1p
