import Verif.Proof.VnormPow
/-!
# Auxiliary facts for C84: roots of a number below 1
-/
namespace Ufunclab.Float

/-- `root_term` for a base of any size. -/
theorem root_term_abs {S S' E q u e' : ℝ} (hS0 : 0 < S) (hE : |S' - S| ≤ E * S) (hE1 : E ≤ 0.036) (hq : 1 ≤ q) (hu0 : 0 ≤ u) (hu : u ≤ 1 / 1000)
    (he : |e' - 1 / q| ≤ 1.005 * u / q) (hL : u * |Real.log S| ≤ 0.01) :
    |S' ^ e' - S ^ (1 / q)| ≤ (1.056 * (u * |Real.log S|) + 1.1 * E) / q * S ^ (1 / q) := by
  have hq0 : 0 < q := by linarith
  have hE0 : 0 ≤ E := by
    by_contra hh; have := (abs_nonneg _).trans hE; nlinarith
  have hS' : 0 < S' := by have := (abs_le.1 hE).1; norm_num at *; nlinarith
  have hlS : 0 ≤ |Real.log S| := abs_nonneg _
  have h1 : |Real.log (S' / S)| ≤ 1.038 * E := by
    apply abs_log_le
    · rw [← div_self hS0.ne', ← sub_div, abs_div, abs_of_pos hS0, div_le_iff₀ hS0]; exact hE
    · norm_num at *; linarith
    · norm_num at *; linarith
    · norm_num
  have h2 : Real.log S' = Real.log S + Real.log (S' / S) := by rw [Real.log_div hS'.ne' hS0.ne']; ring
  have e1 : S' ^ e' = S ^ (1 / q) * Real.exp ((e' - 1 / q) * Real.log S + e' * Real.log (S' / S)) := by
    rw [Real.rpow_def_of_pos hS', Real.rpow_def_of_pos hS0, ← Real.exp_add, h2]; congr 1; ring
  set D := (e' - 1 / q) * Real.log S + e' * Real.log (S' / S) with hD
  have hiq : (0 : ℝ) < 1 / q := by positivity
  have he2 : |e'| ≤ 1.0011 * (1 / q) := by
    have : |e'| ≤ |e' - 1 / q| + |1 / q| := by
      calc |e'| = |(e' - 1 / q) + 1 / q| := by congr 1; ring
        _ ≤ _ := abs_add_le _ _
    rw [abs_of_pos hiq] at this
    have k : 1.005 * u / q = 1.005 * u * (1 / q) := by ring
    have k2 : 1.005 * u * (1 / q) ≤ 1.005 * (1 / 1000) * (1 / q) := mul_le_mul_of_nonneg_right (mul_le_mul_of_nonneg_left hu (by norm_num)) hiq.le
    rw [k] at he
    generalize 1 / q = z at *
    norm_num at *; linarith
  have hDb : |D| ≤ (1.005 * (u * |Real.log S|) + 1.0392 * E) * (1 / q) := by
    calc |D| ≤ |(e' - 1 / q) * Real.log S| + |e' * Real.log (S' / S)| := abs_add_le _ _
      _ = |e' - 1 / q| * |Real.log S| + |e'| * |Real.log (S' / S)| := by rw [abs_mul, abs_mul]
      _ ≤ (1.005 * u / q) * |Real.log S| + (1.0011 * (1 / q)) * (1.038 * E) := by
        apply add_le_add (mul_le_mul_of_nonneg_right he hlS)
        exact mul_le_mul he2 h1 (abs_nonneg _) (by positivity)
      _ ≤ _ := by
        have k : 0 ≤ 1 / q * E := by positivity
        have k1 : (1.005 * u / q) * |Real.log S| = 1.005 * (u * |Real.log S|) * (1 / q) := by ring
        rw [k1]
        generalize 1.005 * (u * |Real.log S|) = z
        norm_num at *; linarith
  have hq1 : 1 / q ≤ 1 := by rw [div_le_one hq0]; exact hq
  have hB0 : 0 ≤ 1.005 * (u * |Real.log S|) + 1.0392 * E := by positivity
  have hDs : |D| ≤ 0.0475 := by
    have := mul_le_mul_of_nonneg_left hq1 hB0
    norm_num at *; linarith
  have h3 := abs_exp_sub_one_le (D := D) (c := 1.05) (by norm_num) (by norm_num at *; linarith)
  have hR : 0 ≤ S ^ (1 / q) := Real.rpow_nonneg hS0.le _
  rw [e1, show S ^ (1 / q) * Real.exp D - S ^ (1 / q) = (Real.exp D - 1) * S ^ (1 / q) by ring, abs_mul, abs_of_nonneg hR]
  apply mul_le_mul_of_nonneg_right _ hR
  refine h3.trans ?_
  have k0 : 0 ≤ (u * |Real.log S|) * (1 / q) := by positivity
  have k1 : 0 ≤ E * (1 / q) := by positivity
  rw [div_eq_mul_one_div _ q]
  clear h3 hDs e1 hD
  generalize 1 / q = z at *
  generalize u * |Real.log S| = y at *
  rw [add_mul] at hDb ⊢
  norm_num at *; linarith

/-- The mean of the powers, `y = rd (S'/n)`. -/
theorem mean_error {u η n S S' E y : ℝ} (hu0 : 0 < u) (hu : u ≤ 1 / 1000) (hη : η ≤ 0.01 * (u * u)) (hn : 1 ≤ n) (hnu : n * u ≤ 1 / 100) (hS : 1 ≤ S)
    (hE : |S' - S| ≤ E * S) (hE1 : E ≤ 0.033) (hS' : 0 ≤ S') (hy : |y - S' / n| ≤ u * (S' / n) + η / 2) :
    |y - S / n| ≤ (E + 1.04 * u) * (S / n) := by
  have hn0 : 0 < n := by linarith
  have hT : 0 < S / n := by positivity
  have h1 : |S' / n - S / n| ≤ E * (S / n) := by
    rw [← sub_div, abs_div, abs_of_pos hn0, ← mul_div_assoc]; exact div_le_div_of_nonneg_right hE hn0.le
  have h2 : S' / n ≤ 1.033 * (S / n) := by
    have a := (abs_le.1 h1).2
    have b := mul_le_mul_of_nonneg_right hE1 hT.le
    norm_num at *; linarith
  have h3 := mul_le_mul_of_nonneg_left h2 hu0.le
  have h4 : u ≤ 1 / 100 * (S / n) := by
    rw [← mul_div_assoc, le_div_iff₀ hn0]; linarith
  have h5 : u * u ≤ 1 / 100 * (u * (S / n)) := by have := mul_le_mul_of_nonneg_left h4 hu0.le; linarith
  have h6 : 0 ≤ u * (S / n) := by positivity
  clear hE hE1 hS' hS hnu h4
  generalize S / n = T at *
  generalize S' / n = T' at *
  calc |y - T| = |(y - T') + (T' - T)| := by congr 1; ring
    _ ≤ _ := abs_add_le _ _
    _ ≤ _ := by
      norm_num at *; nlinarith

theorem pmean_finish {q u η ε n M S T' E e' G res : ℝ} (hu0 : 0 < u) (hu : u ≤ 1 / 1000) (hε0 : 0 ≤ ε) (hε : ε ≤ 1 / 100)
    (hη : η ≤ 0.01 * (u * u)) (hq : 1 ≤ q) (hqu : q * u ≤ 1 / 100) (hnu : n * u ≤ 1 / 100) (hn1 : 1 ≤ n) (hM0 : 0 < M) (hS1 : 1 ≤ S) (hSn : S ≤ n)
    (hEdef : E = 1.02 * (n * u) + 1.04 * (q * u) + 1.04 * ε + 0.02 * u) (hE : |T' - S / n| ≤ (E + 1.04 * u) * (S / n)) (hE1 : E ≤ 0.033)
    (hexp : |e' - 1 / q| ≤ 1.005 * u / q) (hG : |G - T' ^ e'| ≤ ε * T' ^ e' + η) (hfin : |res - M * G| ≤ u * (M * G) + η / 2) :
    |res - M * (S / n) ^ (1 / q)| ≤ (((1.2 * n + 1.1 * Real.log n + 1.2) / q + 2.3) * u + 2.3 * ε) * (M * (S / n) ^ (1 / q)) + η / 2 := by
  have hq0 : 0 < q := by linarith
  have hn0 : 0 < n := by linarith
  have hiq0 : 0 < 1 / q := by positivity
  have hlog0 : 0 ≤ Real.log n := Real.log_nonneg hn1
  have hT0 : 0 < S / n := by positivity
  have hT1 : S / n ≤ 1 := (div_le_one hn0).2 hSn
  have hTn : 1 / n ≤ S / n := div_le_div_of_nonneg_right hS1 hn0.le
  have hLn : |Real.log (S / n)| ≤ Real.log n := by
    rw [abs_of_nonpos (Real.log_nonpos hT0.le hT1)]
    have := Real.log_le_log (by positivity) hTn
    rw [one_div, Real.log_inv] at this
    linarith
  have hL : u * |Real.log (S / n)| ≤ 0.01 := by
    have e1 : Real.log n ≤ n := (Real.log_le_sub_one_of_pos hn0).trans (by linarith)
    have e2 := mul_le_mul_of_nonneg_left (hLn.trans e1) hu0.le
    clear * - e2 hnu
    norm_num at *; linarith
  have hroot := root_term_abs hT0 hE (by norm_num at *; linarith) hq hu0.le hu hexp hL
  have hRT : S / n ≤ (S / n) ^ (1 / q) := by
    have hq1 : 1 / q ≤ 1 := by rw [div_le_one hq0]; exact hq
    simpa using Real.rpow_le_rpow_of_exponent_ge hT0 hT1 hq1
  have hRu : u ≤ 1 / 100 * (S / n) ^ (1 / q) := by
    have : u ≤ 1 / 100 * (1 / n) := by rw [mul_one_div, le_div_iff₀ hn0]; linarith
    linarith
  have hE0 : 0 ≤ E := by rw [hEdef]; have : 0 ≤ n * u := mul_nonneg (by linarith) hu0.le
                         positivity
  obtain ⟨B, hB⟩ : ∃ B : ℝ, B = (1.056 * (u * |Real.log (S / n)|) + 1.1 * (E + 1.04 * u)) / q := ⟨_, rfl⟩
  rw [← hB] at hroot
  have hB0 : 0 ≤ B := by rw [hB]; positivity
  have hBs : B ≤ 0.05 := by
    rw [hB, div_le_iff₀ hq0]
    have : (0.05 : ℝ) ≤ 0.05 * q := by linarith
    refine le_trans ?_ this
    clear * - hE1 hL hu
    norm_num at *; linarith
  have hBfin : B ≤ (1.2 * n + 1.1 * Real.log n + 1.2) / q * u + 1.15 * u + 1.15 * ε := by
    have e1 : u * |Real.log (S / n)| ≤ u * Real.log n := mul_le_mul_of_nonneg_left hLn hu0.le
    have e2 : u ≤ n * u := by have := mul_le_mul_of_nonneg_right hn1 hu0.le; linarith
    have e4 : ((1.2 * n + 1.1 * Real.log n + 1.2) / q * u + 1.15 * u + 1.15 * ε) * q =
        1.2 * (n * u) + 1.1 * (u * Real.log n) + 1.2 * u + 1.15 * (q * u) + 1.15 * (ε * q) := by field_simp
    have e5 : ε ≤ ε * q := by have := mul_le_mul_of_nonneg_left hq hε0; linarith
    have e6 : 0 ≤ u * Real.log n := by positivity
    have e7 : 0 ≤ q * u := by positivity
    rw [hB, div_le_iff₀ hq0, e4, hEdef]
    clear * - e1 e2 e5 e6 e7 hε0 hu0
    generalize n * u = z1 at *
    generalize u * Real.log n = z2 at *
    generalize u * |Real.log (S / n)| = z3 at *
    generalize q * u = z4 at *
    generalize ε * q = z5 at *
    norm_num at *; linarith
  have hR0 : 0 < (S / n) ^ (1 / q) := Real.rpow_pos_of_pos hT0 _
  generalize T' ^ e' = R' at *
  generalize (S / n) ^ (1 / q) = R at *
  generalize (1.2 * n + 1.1 * Real.log n + 1.2) / q = C at *
  clear * - hBs hB0 hroot hε0 hε hu0 hu hη hG hfin hR0 hRu hBfin hM0
  have hBR : B * R ≤ 0.05 * R := mul_le_mul_of_nonneg_right hBs hR0.le
  have hR' : R' ≤ 1.05 * R := by have := (abs_le.1 hroot).2; norm_num at *; linarith
  have hεR : ε * R' ≤ ε * (1.05 * R) := mul_le_mul_of_nonneg_left hR' hε0
  have hεR2 : ε * R ≤ 1 / 100 * R := mul_le_mul_of_nonneg_right hε hR0.le
  have hηR : η ≤ 0.001 * (u * R) := by
    have := mul_le_mul_of_nonneg_left hRu hu0.le
    have h0 : 0 ≤ u * R := by positivity
    clear hR' hεR hεR2 hBR hG hfin
    norm_num at *; nlinarith
  have hGR : |G - R| ≤ (B + 1.05 * ε + 0.001 * u) * R := by
    calc |G - R| = |(G - R') + (R' - R)| := by congr 1; ring
      _ ≤ _ := abs_add_le _ _
      _ ≤ _ := by norm_num at *; linarith
  have huR : u * R ≤ 1 / 1000 * R := mul_le_mul_of_nonneg_right hu hR0.le
  have hG2 : G ≤ 1.065 * R := by have := (abs_le.1 hGR).2; norm_num at *; linarith
  have huG : u * (M * G) ≤ 1.065 * (u * (M * R)) := by
    have := mul_le_mul_of_nonneg_left (mul_le_mul_of_nonneg_left hG2 hM0.le) hu0.le
    linarith
  have hMG : |M * G - M * R| ≤ (B + 1.05 * ε + 0.001 * u) * (M * R) := by
    rw [← mul_sub, abs_mul, abs_of_pos hM0]
    have := mul_le_mul_of_nonneg_left hGR hM0.le
    linarith
  have hMR : 0 ≤ M * R := by positivity
  have hfinal : B + 1.05 * ε + 0.001 * u + 1.065 * u ≤ (C + 2.3) * u + 2.3 * ε := by norm_num at *; linarith
  have := mul_le_mul_of_nonneg_right hfinal hMR
  calc |res - M * R| = |(res - M * G) + (M * G - M * R)| := by congr 1; ring
    _ ≤ _ := abs_add_le _ _
    _ ≤ _ := by linarith

end Ufunclab.Float
