import Verif.Proof.Log1pDD
/-! # The double-double square and sum of log1p -/
namespace Ufunclab.Log1p
open Ufunclab.Float
variable {K : Type _} [Field K] [LinearOrder K] [IsStrictOrderedRing K]
variable {emin : ℤ} {rd : K → K}

/-- The double-double square of a normal number whose square does not underflow. -/
theorem square_normal [Archimedean K] (h : Nearest 53 emin rd) (fma : Bool) {k : ℤ} (hk : emin ≤ k) (hk2 : emin ≤ 2 * k)
    {x : K} (gx : OnGrid k x) (hx1 : 2 ^ 52 * 2 ^ k ≤ |x|) (hx2 : |x| < 2 ^ 53 * 2 ^ k) :
    |(square fma rd x).upper - x * x| ≤ 2 ^ 52 * (2 ^ k * 2 ^ k) ∧
    (fma = false → (square fma rd x).upper + (square fma rd x).lower = x * x) ∧
    |(square fma rd x).upper + (square fma rd x).lower - x * x| ≤ 2 * (2 ^ k * 2 ^ k) := by
  obtain ⟨sg, su, sl, sle, slf⟩ := split_ok h fma hk gx hx1 hx2
  simp only [square]
  set hi := (split fma rd x).upper
  rw [sl]
  set lo := x - hi with hlo
  have hc : (0 : K) < 2 ^ k := two_zpow_pos k
  set C : K := 2 ^ k * 2 ^ k with hC
  have hC0 : 0 < C := mul_pos hc hc
  have z : ∀ n : ℕ, (2 : K) ^ (2 * k + (n : ℤ)) = 2 ^ n * C := by
    intro n; rw [zpow_add_nat, zpow_two_mul]
  have z28 := z 28
  have z51 := z 51
  have z52 := z 52
  have z53 := z 53
  have z54 := z 54
  have z1 := z 1
  have z0 := z 0
  simp only [Nat.cast_ofNat, Nat.cast_one, Nat.cast_zero, add_zero, pow_zero, one_mul, pow_one] at z28 z51 z52 z53 z54 z1 z0
  -- the square
  have hxx : x * x = |x| * |x| := (abs_mul_abs_self x).symm
  have hxx0 : 0 ≤ x * x := mul_self_nonneg x
  have hx20 : 2 ^ 104 * C ≤ x * x := by
    rw [hxx, hC]
    calc (2 : K) ^ 104 * (2 ^ k * 2 ^ k) = (2 ^ 52 * 2 ^ k) * (2 ^ 52 * 2 ^ k) := by ring
      _ ≤ _ := mul_le_mul hx1 hx1 (by positivity) (abs_nonneg _)
  have hx21 : x * x ≤ 2 ^ 106 * C := by
    rw [hxx, hC]
    calc |x| * |x| ≤ (2 ^ 53 * 2 ^ k) * (2 ^ 53 * 2 ^ k) := mul_le_mul hx2.le hx2.le (abs_nonneg _) (by positivity)
      _ = _ := by ring
  set U := rd (x * x) with hU
  have hU1 : |U - x * x| ≤ 2 ^ 52 * C := by
    have := h.half (by norm_num) (k := 2 * k + 53) (by omega) (z := x * x) (by
      rw [abs_of_nonneg hxx0, z53]; refine hx21.trans (le_of_eq (by ring)))
    rw [z53] at this
    exact this.trans (le_of_eq (by ring))
  have gU : OnGrid (2 * k + 52) U := by
    have h1 := h.big (by norm_num) (k := 2 * k + 51) (by omega) (z := x * x) (by
      rw [abs_of_nonneg hxx0, z51]; refine le_trans (le_of_eq (by ring)) hx20)
    have := ((h (x * x)).1).big_grid h1
    rwa [show 2 * k + 51 + 1 = 2 * k + 52 by ring] at this
  -- products of the parts
  have glo : OnGrid k lo := gx.sub (OnGrid.mono (by omega) sg)
  have ghh : OnGrid (2 * k + 54) (hi * hi) := by
    have := onGrid_mul sg sg
    rwa [show k + 27 + (k + 27) = 2 * k + 54 by ring] at this
  have g2h : OnGrid (k + 28) (2 * hi) := by
    obtain ⟨n, hn⟩ := sg
    refine ⟨n, ?_⟩
    rw [hn, show k + 28 = k + 27 + 1 by ring, zpow_add_one₀ (by norm_num)]; ring
  have g2hl : OnGrid (2 * k + 28) (2 * hi * lo) := by
    have := onGrid_mul g2h glo
    rwa [show k + 28 + k = 2 * k + 28 by ring] at this
  have gll : OnGrid (2 * k) (lo * lo) := by
    have := onGrid_mul glo glo
    rwa [show k + k = 2 * k by ring] at this
  have bhh : |hi * hi| ≤ 2 ^ 106 * C := by
    rw [abs_mul, hC]
    calc |hi| * |hi| ≤ (2 ^ 53 * 2 ^ k) * (2 ^ 53 * 2 ^ k) := mul_le_mul su su (abs_nonneg _) (by positivity)
      _ = _ := by ring
  have b2h : |2 * hi| ≤ 2 ^ 54 * 2 ^ k := by
    rw [abs_mul, abs_two]; linarith
  have b2hl : |2 * hi * lo| ≤ 2 ^ 81 * C := by
    rw [abs_mul, hC]
    calc |2 * hi| * |lo| ≤ (2 ^ 54 * 2 ^ k) * (2 ^ 27 * 2 ^ k) := mul_le_mul b2h sle (abs_nonneg _) (by positivity)
      _ = _ := by ring
  have bll : |lo * lo| ≤ 2 ^ 54 * C := by
    rw [abs_mul, hC]
    calc |lo| * |lo| ≤ (2 ^ 27 * 2 ^ k) * (2 ^ 27 * 2 ^ k) := mul_le_mul sle sle (abs_nonneg _) (by positivity)
      _ = _ := by ring
  have r1 : rd (hi * hi) = hi * hi := by
    apply h.exact
    apply isFloat_of_grid (by norm_num) (k := 2 * k + 54) (by omega) ghh
    rw [z54]; linarith
  have r2 : rd (2 * hi) = 2 * hi := by
    apply h.exact
    apply isFloat_of_grid (by norm_num) (k := k + 28) (by omega) g2h
    rw [show (28 : ℤ) = ((28 : ℕ) : ℤ) by rfl, zpow_add_nat]; linarith
  have r3 : rd (2 * hi * lo) = 2 * hi * lo := by
    apply h.exact
    apply isFloat_of_grid (by norm_num) (k := 2 * k + 28) (by omega) g2hl
    rw [z28]; refine b2hl.trans (le_of_eq (by ring))
  have e4 : hi * hi + 2 * hi * lo + lo * lo = x * x := by rw [hlo]; ring
  have r4 : rd (hi * hi - U) = hi * hi - U := by
    apply h.exact
    apply isFloat_of_grid (by norm_num) (k := 2 * k + 52) (by omega) ((OnGrid.mono (by omega) ghh).sub gU)
    rw [z52]
    have := abs_le.1 hU1
    have := abs_le.1 b2hl
    have := abs_le.1 bll
    rw [abs_le]; constructor <;> linarith
  have r5 : rd (hi * hi - U + 2 * hi * lo) = hi * hi - U + 2 * hi * lo := by
    apply h.exact
    apply isFloat_of_grid (by norm_num) (k := 2 * k + 28) (by omega)
      (((OnGrid.mono (by omega) ghh).sub (OnGrid.mono (by omega) gU)).add g2hl)
    rw [z28]
    have := abs_le.1 hU1
    have := abs_le.1 bll
    rw [abs_le]; constructor <;> linarith
  rw [r1, r2, r3, r4, r5]
  refine ⟨hU1, ?_, ?_⟩
  · intro hf
    have sl' := slf hf
    have bll' : |lo * lo| ≤ 2 ^ 52 * C := by
      rw [abs_mul, hC]
      calc |lo| * |lo| ≤ (2 ^ 26 * 2 ^ k) * (2 ^ 26 * 2 ^ k) := mul_le_mul sl' sl' (abs_nonneg _) (by positivity)
        _ = _ := by ring
    have r6 : rd (lo * lo) = lo * lo := by
      apply h.exact
      apply isFloat_of_grid (by norm_num) hk2 gll
      rw [z0]; linarith
    rw [r6]
    have r7 : rd (hi * hi - U + 2 * hi * lo + lo * lo) = hi * hi - U + 2 * hi * lo + lo * lo := by
      apply h.exact
      apply isFloat_of_grid (by norm_num) hk2
        ((((OnGrid.mono (by omega) ghh).sub (OnGrid.mono (by omega) gU)).add (OnGrid.mono (by omega) g2hl)).add gll)
      rw [z0, show hi * hi - U + 2 * hi * lo + lo * lo = -(U - x * x) by rw [← e4]; ring, abs_neg]
      linarith
    rw [r7]; linarith
  · have r6 : |rd (lo * lo) - lo * lo| ≤ C := by
      have := h.half (by norm_num) (k := 2 * k + 1) (by omega) (z := lo * lo) (by
        rw [z1]; refine bll.trans (le_of_eq (by ring)))
      rw [z1] at this
      exact this.trans (le_of_eq (by ring))
    set L := rd (lo * lo)
    have hw : |hi * hi - U + 2 * hi * lo + L| ≤ 2 ^ 53 * C := by
      have := abs_le.1 hU1
      have := abs_le.1 r6
      rw [abs_le]; constructor <;> linarith
    have r7 := h.half (by norm_num) hk2 (by rw [z0]; exact hw)
    rw [z0] at r7
    have := abs_le.1 r7
    have := abs_le.1 r6
    rw [abs_le]; constructor <;> linarith

/-- The double-double square of a tiny number is tiny. -/
theorem square_tiny {p : ℕ} (h : Nearest p emin rd) (fma : Bool) (x : K) :
    |(square fma rd x).upper| ≤ 2 * (x * x) ∧ |(square fma rd x).lower| ≤ 2 ^ 90 * (x * x) := by
  have hxx : |x * x| = x * x := abs_mul_self x
  have hxx' : x * x = |x| * |x| := (abs_mul_abs_self x).symm
  have hx0 := abs_nonneg x
  have hu : |(split fma rd x).upper| ≤ 2 ^ 32 * |x| := by
    have h1 := h.abs_le_two ((2 ^ 27 + 1) * x)
    rw [abs_mul, abs_of_pos (show (0 : K) < 2 ^ 27 + 1 by norm_num)] at h1
    set t := rd ((2 ^ 27 + 1) * x) with ht
    cases fma
    · simp only [split, Bool.false_eq_true, if_false, ← ht]
      have h2 := h.abs_le_two (t - x)
      have h3 := h.abs_le_two (t - rd (t - x))
      have h4 := abs_sub t x
      have h5 := abs_sub t (rd (t - x))
      linarith
    · simp only [split, if_true, ← ht]
      have h2 := h.abs_le_two (-2 ^ 27 * x + t)
      have h3 := abs_add_le (-2 ^ 27 * x) t
      rw [abs_mul, abs_neg, abs_of_pos (show (0 : K) < 2 ^ 27 by norm_num)] at h3
      linarith
  have hl : |(split fma rd x).lower| ≤ 2 ^ 34 * |x| := by
    have h1 := h.abs_le_two (x - (split fma rd x).upper)
    have h2 := abs_sub x (split fma rd x).upper
    have : (split fma rd x).lower = rd (x - (split fma rd x).upper) := rfl
    rw [this]; linarith
  simp only [square]
  set a := (split fma rd x).upper
  set b := (split fma rd x).lower
  have hU := h.abs_le_two (x * x)
  rw [hxx] at hU
  refine ⟨hU, ?_⟩
  have haa : |a * a| ≤ 2 ^ 64 * (x * x) := by
    rw [abs_mul, hxx']
    calc |a| * |a| ≤ (2 ^ 32 * |x|) * (2 ^ 32 * |x|) := mul_le_mul hu hu (abs_nonneg _) (by positivity)
      _ = _ := by ring
  have hbb : |b * b| ≤ 2 ^ 68 * (x * x) := by
    rw [abs_mul, hxx']
    calc |b| * |b| ≤ (2 ^ 34 * |x|) * (2 ^ 34 * |x|) := mul_le_mul hl hl (abs_nonneg _) (by positivity)
      _ = _ := by ring
  have h2a := h.abs_le_two (2 * a)
  rw [abs_mul, abs_two] at h2a
  have hab : |rd (2 * a) * b| ≤ 2 ^ 68 * (x * x) := by
    rw [abs_mul, hxx']
    calc |rd (2 * a)| * |b| ≤ (2 ^ 34 * |x|) * (2 ^ 34 * |x|) :=
          mul_le_mul (by linarith) hl (abs_nonneg _) (by positivity)
      _ = _ := by ring
  have f1 := h.abs_le_two (a * a)
  have f2 := h.abs_le_two (rd (2 * a) * b)
  have f3 := h.abs_le_two (b * b)
  have f4 := h.abs_le_two (rd (a * a) - rd (x * x))
  have f4' := abs_sub (rd (a * a)) (rd (x * x))
  have f5 := h.abs_le_two (rd (rd (a * a) - rd (x * x)) + rd (rd (2 * a) * b))
  have f5' := abs_add_le (rd (rd (a * a) - rd (x * x))) (rd (rd (2 * a) * b))
  have f6 := h.abs_le_two (rd (rd (rd (a * a) - rd (x * x)) + rd (rd (2 * a) * b)) + rd (b * b))
  have f6' := abs_add_le (rd (rd (rd (a * a) - rd (x * x)) + rd (rd (2 * a) * b))) (rd (b * b))
  have := mul_self_nonneg x
  linarith

end Ufunclab.Log1p
