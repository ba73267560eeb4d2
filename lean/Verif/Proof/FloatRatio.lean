import Verif.Proof.Float2
import Mathlib.Tactic.NormNum
import Mathlib.Tactic.Positivity
import Mathlib.Data.Real.Archimedean
/-! # Rounding: monotonicity, pinned values, quotients of differences -/
namespace Ufunclab.Float

section
variable {K : Type _} [Field K] [LinearOrder K] [IsStrictOrderedRing K] {p : ℕ} {emin : ℤ} {rd : K → K}

/-- Rounding to nearest is monotone, whatever the rule for ties. -/
theorem Nearest.monotone (h : Nearest p emin rd) : Monotone rd := by
  intro a b hab
  rcases hab.eq_or_lt with rfl | hlt
  · exact le_rfl
  by_contra hc
  have hc := not_le.1 hc
  have h1 := (h a).2 _ (h b).1
  have h2 := (h b).2 _ (h a).1
  -- the midpoint of the two values separates `b` from `a`
  rcases le_total (rd a) a with c1 | c1
  · rw [abs_of_nonpos (by linarith : rd a - a ≤ 0), abs_of_nonpos (by linarith : rd b - a ≤ 0)] at h1
    rw [abs_of_nonpos (by linarith : rd b - b ≤ 0), abs_of_nonpos (by linarith : rd a - b ≤ 0)] at h2
    linarith
  · rcases le_total b (rd b) with c2 | c2
    · rw [abs_of_nonneg (by linarith : 0 ≤ rd a - a), abs_of_nonneg (by linarith : 0 ≤ rd b - a)] at h1
      linarith
    · rw [abs_of_nonneg (by linarith : 0 ≤ rd a - a)] at h1
      rw [abs_of_nonpos (by linarith : rd b - b ≤ 0)] at h2
      rcases le_total (rd b) a with c3 | c3
      · rw [abs_of_nonpos (by linarith : rd b - a ≤ 0)] at h1
        rcases le_total (rd a) b with c4 | c4
        · rw [abs_of_nonpos (by linarith : rd a - b ≤ 0)] at h2; linarith
        · rw [abs_of_nonneg (by linarith : 0 ≤ rd a - b)] at h2; linarith
      · rw [abs_of_nonneg (by linarith : 0 ≤ rd b - a)] at h1; linarith

/-- A value that is closer than half a step to a grid point of its binade rounds to it. -/
theorem Nearest.pin (h : Nearest p emin rd) (hp : 1 ≤ p) {z : K} (m k : ℤ) (hm : |m| < 2 ^ p) (hk : emin ≤ k)
    (hz : 2 ^ p * 2 ^ k ≤ |z|) (hd : |(m : K) * 2 ^ (k + 1) - z| < 2 ^ k) : rd z = m * 2 ^ (k + 1) := by
  have hf : IsFloat p emin ((m : K) * 2 ^ (k + 1)) := ⟨m, k + 1, hm, by omega, rfl⟩
  obtain ⟨n, hn⟩ := (h z).1.big_grid (h.big hp hk hz)
  have h1 := (h z).2 _ hf
  have hk1 : (2 : K) ^ (k + 1) = 2 * 2 ^ k := by rw [zpow_add_one₀ (by norm_num)]; ring
  have hk0 : (0 : K) < 2 ^ k := by positivity
  have h2 : |rd z - m * 2 ^ (k + 1)| < 2 ^ (k + 1) := by
    calc |rd z - m * 2 ^ (k + 1)| ≤ |rd z - z| + |z - m * 2 ^ (k + 1)| := abs_sub_le _ _ _
      _ < 2 ^ k + 2 ^ k := by
          rw [abs_sub_comm z]; linarith
      _ = 2 ^ (k + 1) := by rw [hk1]; ring
  rw [hn, ← sub_mul, abs_mul, abs_of_pos (by positivity : (0 : K) < 2 ^ (k + 1))] at h2
  have h3 : |((n - m : ℤ) : K)| < 1 := by
    push_cast
    by_contra hc
    have := mul_le_mul_of_nonneg_right (not_lt.1 hc) (by positivity : (0 : K) ≤ 2 ^ (k + 1))
    linarith
  have h4 : n - m = 0 := Int.abs_lt_one_iff.1 (by exact_mod_cast h3)
  rw [hn, show n = m by omega]

/-- Twice a float is a float. -/
theorem IsFloat.two_mul {x : K} (h : IsFloat p emin x) : IsFloat p emin (2 * x) := by
  obtain ⟨m, e, hm, he, rfl⟩ := h
  exact ⟨m, e + 1, hm, by omega, by rw [zpow_add_one₀ (by norm_num)]; ring⟩

theorem isFloat_one (hp : 1 ≤ p) (he : emin ≤ 0) : IsFloat p emin (1 : K) :=
  ⟨1, 0, by simpa using one_lt_pow₀ (by norm_num : (1 : ℤ) < 2) (by omega), he, by simp⟩

end

section
variable {p : ℕ} {emin : ℤ} {rd : ℝ → ℝ}

/-- The underflow unit is negligible. -/
theorem eta_le (hemin : emin ≤ -2 * p) : (2 : ℝ) ^ emin / 2 ≤ (2 ^ p)⁻¹ * ((2 ^ p)⁻¹ / 2) := by
  have : (2 : ℝ) ^ emin ≤ (2 ^ p)⁻¹ * (2 ^ p)⁻¹ := by
    rw [← zpow_natCast, ← zpow_neg, ← zpow_add₀ (by norm_num)]
    exact zpow_le_zpow_right₀ (by norm_num) (by omega)
  linarith

theorem unit_le (hp : 11 ≤ p) : ((2 : ℝ) ^ p)⁻¹ ≤ 1 / 2048 := by
  rw [inv_eq_one_div]
  apply one_div_le_one_div_of_le (by norm_num)
  calc (2048 : ℝ) = 2 ^ 11 := by norm_num
    _ ≤ 2 ^ p := pow_le_pow_right₀ (by norm_num) hp

/-- Quotient of two differences of floats, the first not larger than the second. -/
theorem ratio_round (h : Nearest p emin rd) (hp : 11 ≤ p) (hemin : emin ≤ -2 * p) {v w : ℝ} (hv : OnGrid emin v)
    (hw : OnGrid emin w) (hv0 : 0 ≤ v) (hvw : v ≤ w) (hw0 : 0 < w) :
    0 ≤ rd (rd v / rd w) ∧ rd (rd v / rd w) ≤ 1 ∧ |rd (rd v / rd w) - v / w| ≤ 3.1 * (2 ^ p)⁻¹ := by
  have e1 := h.rel_error (by omega) hv
  have e2 := h.rel_error (by omega) hw
  have hη := eta_le hemin
  have hu := unit_le hp
  have hu0 : (0 : ℝ) < (2 ^ p)⁻¹ := by positivity
  have er := h.error (by omega) (rd v / rd w)
  generalize ((2 : ℝ) ^ p)⁻¹ = u at *
  rw [abs_of_nonneg hv0, abs_le] at e1
  rw [abs_of_pos hw0, abs_le] at e2
  have hrw : 0 < rd w := by nlinarith
  have hrv : 0 ≤ rd v := h.mono_float isFloat_zero hv0
  have hle : rd v ≤ rd w := h.monotone hvw
  have hq0 : 0 ≤ rd v / rd w := div_nonneg hrv hrw.le
  have hq1 : rd v / rd w ≤ 1 := by rw [div_le_one hrw]; exact hle
  refine ⟨h.mono_float isFloat_zero hq0, h.mono_float' (isFloat_one (by omega) (by omega)) hq1, ?_⟩
  have ht0 : 0 ≤ v / w := div_nonneg hv0 hw0.le
  have ht1 : v / w ≤ 1 := by rw [div_le_one hw0]; exact hvw
  have hvt : v = v / w * w := (div_mul_cancel₀ v hw0.ne').symm
  have hq : |rd v / rd w - v / w| ≤ 2.02 * u := by
    have hb : |rd v - v / w * rd w| ≤ 2 * u * w := by
      have h3 : v / w * (rd w - w) ≤ 1 * (u * w) := by
        rcases le_total 0 (rd w - w) with c | c
        · exact mul_le_mul ht1 (by linarith) c (by norm_num)
        · exact le_trans (mul_nonpos_of_nonneg_of_nonpos ht0 c) (by positivity)
      have h4 : -(1 * (u * w)) ≤ v / w * (rd w - w) := by
        rcases le_total 0 (rd w - w) with c | c
        · exact le_trans (by nlinarith) (mul_nonneg ht0 c)
        · have := mul_le_mul ht1 (show -(rd w - w) ≤ u * w by linarith) (by linarith) (by norm_num)
          linarith
      have h5 : u * v ≤ u * w := mul_le_mul_of_nonneg_left hvw hu0.le
      rw [abs_le]
      constructor <;> nlinarith
    have hq' : rd v / rd w - v / w = (rd v - v / w * rd w) / rd w := by
      rw [sub_div, mul_div_cancel_right₀ _ hrw.ne']
    rw [hq', abs_div, abs_of_pos hrw, div_le_iff₀ hrw]
    refine le_trans hb ?_
    have : 0.999 * w ≤ rd w := by nlinarith
    nlinarith
  rw [abs_of_nonneg hq0] at er
  calc |rd (rd v / rd w) - v / w| ≤ |rd (rd v / rd w) - rd v / rd w| + |rd v / rd w - v / w| := abs_sub_le _ _ _
    _ ≤ 3.1 * u := by nlinarith

end
end Ufunclab.Float
