import Verif.Proof.PmeanSmall
import Verif.Proof.TriAreaRound
/-!
# Auxiliary facts for C93: weighted sums of powers
-/
namespace Ufunclab.Float
open Ufunclab.Corr
variable {p : ℕ} {emin : ℤ} {rd : ℝ → ℝ}

/-- The last steps of pmeanw: `c` times the power `1/q` of `T`, computed from `T'`. -/
theorem finish_gen {q u η ε c T T' E Λ e' G res : ℝ} (hu0 : 0 < u) (hu : u ≤ 1 / 1000) (hε0 : 0 ≤ ε) (hε : ε ≤ 1 / 100) (hη0 : 0 ≤ η)
    (hηu : η ≤ 0.001 * u) (hq : q ≠ 0) (hc0 : 0 < c) (hT0 : 0 < T) (hLn : |Real.log T| ≤ Λ * |q|) (hΛ : u * Λ ≤ 1 / 100)
    (hE0 : 0 ≤ E) (hE : |T' - T| ≤ E * T) (hE1 : E ≤ 0.036) (hE2 : E ≤ 0.035 * |q|)
    (hexp : |e' - 1 / q| ≤ 1.005 * u / |q|) (hG : 0 < T' → |G - T' ^ e'| ≤ ε * T' ^ e' + η) (hfin : |res - c * G| ≤ u * |c * G| + η / 2) :
    |res - c * T ^ (1 / q)| ≤ (1.056 * (u * Λ) + 1.1 * (E / |q|) + 1.05 * ε + 1.065 * u) * (c * T ^ (1 / q)) + 1.01 * (η * c) + η / 2 := by
  have hs0 : 0 < |q| := abs_pos.2 hq
  have hLu : u * |Real.log T| ≤ u * Λ * |q| := by rw [mul_assoc]; exact mul_le_mul_of_nonneg_left hLn hu0.le
  have hLq : u * |Real.log T| / |q| ≤ u * Λ := (div_le_iff₀ hs0).2 hLu
  have hEq : E / |q| ≤ 0.035 := (div_le_iff₀ hs0).2 hE2
  have hBsm' : (1.005 * (u * |Real.log T|) + 1.0392 * E) / |q| ≤ 0.0475 := by
    have e : (1.005 * (u * |Real.log T|) + 1.0392 * E) / |q| = 1.005 * (u * |Real.log T| / |q|) + 1.0392 * (E / |q|) := by ring
    rw [e]
    clear * - hLq hEq hΛ
    generalize u * |Real.log T| / |q| = z at *
    norm_num at *; linarith
  obtain ⟨hT', hroot⟩ := root_term_rel hT0 hE hE1 hq hu0.le hu hexp hBsm'
  have hG := hG hT'
  obtain ⟨B, hB⟩ : ∃ B : ℝ, B = (1.056 * (u * |Real.log T|) + 1.1 * E) / |q| := ⟨_, rfl⟩
  rw [← hB] at hroot
  have hB0 : 0 ≤ B := by rw [hB]; positivity
  have hBfin : B ≤ 1.056 * (u * Λ) + 1.1 * (E / |q|) := by
    have e : B = 1.056 * (u * |Real.log T| / |q|) + 1.1 * (E / |q|) := by rw [hB]; ring
    rw [e]
    clear * - hLq
    generalize u * |Real.log T| / |q| = z at *
    norm_num at *; linarith
  have hBsm : B ≤ 0.05 := by
    refine hBfin.trans ?_
    clear * - hEq hΛ
    norm_num at *; linarith
  have hR0 : 0 < T ^ (1 / q) := Real.rpow_pos_of_pos hT0 _
  have hR'0 : 0 < T' ^ e' := Real.rpow_pos_of_pos hT' _
  generalize T' ^ e' = R' at *
  generalize T ^ (1 / q) = R at *
  generalize E / |q| = F at *
  generalize u * Λ = V at *
  clear * - hBsm hB0 hroot hε0 hε hu0 hu hη0 hηu hG hfin hR0 hBfin hc0 hR'0
  have hBR : B * R ≤ 0.05 * R := mul_le_mul_of_nonneg_right hBsm hR0.le
  have hR' : R' ≤ 1.05 * R := by have := (abs_le.1 hroot).2; norm_num at *; linarith
  have hεR : ε * R' ≤ ε * (1.05 * R) := mul_le_mul_of_nonneg_left hR' hε0
  have hεR2 : ε * R ≤ 1 / 100 * R := mul_le_mul_of_nonneg_right hε hR0.le
  have hGR : |G - R| ≤ (B + 1.05 * ε) * R + η := by
    calc |G - R| = |(G - R') + (R' - R)| := by congr 1; ring
      _ ≤ _ := abs_add_le _ _
      _ ≤ _ := by norm_num at *; linarith
  have hGa : |G| ≤ 1.065 * R + η := by
    have : |G| ≤ |G - R| + |R| := by
      calc |G| = |(G - R) + R| := by congr 1; ring
        _ ≤ _ := abs_add_le _ _
    rw [abs_of_pos hR0] at this
    norm_num at *; linarith
  have huG : u * |c * G| ≤ 1.065 * (u * (c * R)) + u * (c * η) := by
    rw [abs_mul, abs_of_pos hc0]
    have := mul_le_mul_of_nonneg_left (mul_le_mul_of_nonneg_left hGa hc0.le) hu0.le
    linarith
  have hMG : |c * G - c * R| ≤ (B + 1.05 * ε) * (c * R) + c * η := by
    rw [← mul_sub, abs_mul, abs_of_pos hc0]
    have := mul_le_mul_of_nonneg_left hGR hc0.le
    linarith
  have hMR : 0 ≤ c * R := by positivity
  have hcη : u * (c * η) ≤ 1 / 1000 * (c * η) := mul_le_mul_of_nonneg_right hu (by positivity)
  have hcη0 : 0 ≤ c * η := by positivity
  have hfinal : B + 1.05 * ε + 1.065 * u ≤ 1.056 * V + 1.1 * F + 1.05 * ε + 1.065 * u := by linarith
  have := mul_le_mul_of_nonneg_right hfinal hMR
  calc |res - c * R| = |(res - c * G) + (c * G - c * R)| := by congr 1; ring
    _ ≤ _ := abs_add_le _ _
    _ ≤ _ := by norm_num at *; linarith

/-- One term `w * pow(r, q)` of the sum in pmeanw. -/
theorem wpow_error {pw : ℝ → ℝ → ℝ} {ε : ℝ} (h : Nearest p emin rd) (hp : 10 ≤ p) (hpw : SignedPow p emin ε pw) (hpw0 : ∀ e, 0 < e → pw 0 e = 0)
    (hε0 : 0 ≤ ε) (hε : ε ≤ 1 / 100) {r w q : ℝ} (hq0 : q ≠ 0) (hqu : |q| * (2 ^ p)⁻¹ ≤ 1 / 200)
    (hr : r = 0 ∧ 0 < q ∨ w = 0 ∨ 2 ^ (emin + p + 9) ≤ r ∧ 2 ^ (emin + p + 9) ≤ r ^ q ∧ 2 ^ (emin + p + 9) ≤ w * r ^ q) :
    |rd (w * pw (rd r) q) - w * r ^ q| ≤ (1.025 * (|q| * (2 ^ p)⁻¹) + 1.02 * ε + 1.04 * (2 ^ p)⁻¹) * |w * r ^ q| := by
  rcases hr with ⟨rfl, k⟩ | rfl | ⟨k1, k2, k3⟩
  · rw [h.round_zero, hpw0 q k, Real.zero_rpow hq0]; simp [h.round_zero]
  · simp [h.round_zero]
  have hu0 : (0 : ℝ) < (2 ^ p)⁻¹ := by positivity
  have hu := Mad.unit_le_thousandth (K := ℝ) hp
  have hη0 : (0 : ℝ) < 2 ^ emin := by positivity
  have hr0 : 0 < r := lt_of_lt_of_le (by positivity) k1
  have hτ0 : 0 < r ^ q := Real.rpow_pos_of_pos hr0 q
  have hw0 : 0 < w := by
    by_contra hh
    have : w * r ^ q ≤ 0 := mul_nonpos_of_nonpos_of_nonneg (not_lt.1 hh) hτ0.le
    have : (0 : ℝ) < 2 ^ (emin + p + 9) := by positivity
    linarith
  have e9 : (2 : ℝ) ^ (emin + p + 9) = 512 * (2 ^ emin * 2 ^ p) := by
    rw [zpow_add₀ (by norm_num), zpow_add₀ (by norm_num), zpow_natCast]; norm_num; ring
  have hηr : ∀ z : ℝ, 2 ^ (emin + p + 9) ≤ z → 512 * 2 ^ emin ≤ (2 ^ p)⁻¹ * z := by
    intro z hz
    have := mul_le_mul_of_nonneg_left hz hu0.le
    rw [e9, show ((2 : ℝ) ^ p)⁻¹ * (512 * (2 ^ emin * 2 ^ p)) = 512 * 2 ^ emin * (((2 : ℝ) ^ p)⁻¹ * 2 ^ p) by ring, inv_mul_cancel₀ (by positivity), mul_one] at this
    exact this
  have g1 : |rd r - r| ≤ 1.001 * (2 ^ p)⁻¹ * r := by
    have e1 := h.error (by omega : 1 ≤ p) r
    rw [abs_of_pos hr0] at e1
    have e2 := hηr r k1
    clear * - e1 e2 hη0
    rw [mul_assoc]
    generalize (2 : ℝ) ^ emin = η at *
    generalize ((2 : ℝ) ^ p)⁻¹ = u at *
    generalize u * r = z at *
    norm_num at *; linarith
  obtain ⟨hr', b1⟩ := pow_rel (q := q) hr0 hu0.le hu (by linarith) g1
  have b2 := hpw.error (rd r) q hr'.le hq0 (.inr hr')
  have e3 := hηr _ k2
  obtain ⟨δ, hδ⟩ : ∃ δ : ℝ, δ = 1.025 * (|q| * (2 ^ p)⁻¹) + 1.02 * ε + 0.002 * (2 ^ p)⁻¹ := ⟨_, rfl⟩
  have hqu0 : 0 ≤ |q| * (2 ^ p)⁻¹ := by positivity
  have hδ1 : δ ≤ 0.02 := by rw [hδ]; clear * - hqu hε hu; norm_num at *; linarith
  have b3 : |pw (rd r) q - r ^ q| ≤ δ * r ^ q := by
    have c3 := (abs_le.1 b1).2
    have c4 : ε * rd r ^ q ≤ ε * (r ^ q + (1.025 * (|q| * (2 ^ p)⁻¹) * r ^ q)) := mul_le_mul_of_nonneg_left (by linarith) hε0
    have c5 : (|q| * (2 ^ p)⁻¹) * (ε * r ^ q) ≤ 1 / 200 * (ε * r ^ q) := mul_le_mul_of_nonneg_right hqu (by positivity)
    have c7 : 0 ≤ ε * r ^ q := by positivity
    rw [hδ]
    clear * - c4 c5 c7 b1 b2 e3 hη0
    generalize r ^ q = τ at *
    generalize rd r ^ q = τ' at *
    generalize pw (rd r) q = t at *
    generalize (2 : ℝ) ^ emin = η at *
    calc |t - τ| = |(t - τ') + (τ' - τ)| := by congr 1; ring
      _ ≤ _ := abs_add_le _ _
      _ ≤ _ := by
        generalize (|q| * ((2 : ℝ) ^ p)⁻¹) = z at *
        generalize ((2 : ℝ) ^ p)⁻¹ = u at *
        have b8 : z * τ * ε = z * (ε * τ) := by ring
        rw [show (1.025 * z + 1.02 * ε + 0.002 * u) * τ = 1.025 * z * τ + 1.02 * (ε * τ) + 0.002 * (u * τ) by ring]
        rw [show ε * (τ + 1.025 * z * τ) = ε * τ + 1.025 * (z * (ε * τ)) by ring] at c4
        generalize u * τ = y at *
        generalize ε * τ' = y' at *
        generalize z * (ε * τ) = x' at *
        generalize ε * τ = x at *
        norm_num at *; linarith
  have b4 : |w * pw (rd r) q - w * r ^ q| ≤ δ * (w * r ^ q) := by
    rw [← mul_sub, abs_mul, abs_of_pos hw0]
    have := mul_le_mul_of_nonneg_left b3 hw0.le
    linarith
  have hz0 : 0 < w * r ^ q := by positivity
  have b5 : δ * (w * r ^ q) ≤ 0.02 * (w * r ^ q) := mul_le_mul_of_nonneg_right hδ1 hz0.le
  have d := abs_le.1 (b4.trans b5)
  have hpos : 0 < w * pw (rd r) q := by clear * - d hz0; norm_num at *; linarith
  have hnorm : (2 : ℝ) ^ p * 2 ^ emin ≤ |w * pw (rd r) q| := by
    rw [abs_of_pos hpos]
    rw [e9, mul_comm ((2 : ℝ) ^ emin)] at k3
    have : (0 : ℝ) < 2 ^ p * 2 ^ emin := by positivity
    clear * - d k3 this
    generalize (2 : ℝ) ^ p * 2 ^ emin = m at *
    norm_num at *; linarith
  have b6 := TriArea.rel_normal h (by omega) hnorm
  rw [abs_of_pos hpos] at b6
  rw [abs_of_pos hz0]
  have b7 : (2 ^ p)⁻¹ * (w * pw (rd r) q) ≤ (2 ^ p)⁻¹ * (1.02 * (w * r ^ q)) := mul_le_mul_of_nonneg_left (by clear * - d; norm_num at *; linarith) hu0.le
  rw [show 1.025 * (|q| * (2 ^ p)⁻¹) + 1.02 * ε + 1.04 * ((2 : ℝ) ^ p)⁻¹ = δ + 1.038 * (2 ^ p)⁻¹ by rw [hδ]; ring]
  have b8 : 0 ≤ ((2 : ℝ) ^ p)⁻¹ * (w * r ^ q) := by positivity
  clear * - b4 b6 b7 b8
  calc |rd (w * pw (rd r) q) - w * r ^ q| = |(rd (w * pw (rd r) q) - w * pw (rd r) q) + (w * pw (rd r) q - w * r ^ q)| := by congr 1; ring
    _ ≤ _ := abs_add_le _ _
    _ ≤ _ := by
      generalize w * r ^ q = z at *
      generalize w * pw (rd r) q = y at *
      generalize ((2 : ℝ) ^ p)⁻¹ = u at *
      norm_num at *; linarith

end Ufunclab.Float
