import Verif.Proof.PmeanRound
/-!
# Auxiliary facts for C84: powers of any sign and any size
-/
namespace Ufunclab.Float
open Ufunclab.Corr
variable {p : ℕ} {emin : ℤ} {rd : ℝ → ℝ}

/-- The effect of a relative error of the base on a power of any order. -/
theorem pow_rel {r r' q u : ℝ} (hr0 : 0 < r) (hu0 : 0 ≤ u) (hu : u ≤ 1 / 1000) (hqu : |q| * u ≤ 1 / 100) (h : |r' - r| ≤ 1.001 * u * r) :
    0 < r' ∧ |r' ^ q - r ^ q| ≤ 1.025 * (|q| * u) * r ^ q := by
  have hr' : 0 < r' := by
    have := (abs_le.1 h).1
    have k : u * r ≤ 1 / 1000 * r := mul_le_mul_of_nonneg_right hu hr0.le
    norm_num at *; linarith
  refine ⟨hr', ?_⟩
  have h1 : |Real.log (r' / r)| ≤ 1.002 * (1.001 * u) := by
    apply abs_log_le
    · rw [← div_self hr0.ne', ← sub_div, abs_div, abs_of_pos hr0, div_le_iff₀ hr0]; exact h
    · norm_num at *; linarith
    · norm_num at *; linarith
    · norm_num
  have h2 : Real.log r' = Real.log r + Real.log (r' / r) := by rw [Real.log_div hr'.ne' hr0.ne']; ring
  have e1 : r' ^ q = r ^ q * Real.exp (q * Real.log (r' / r)) := by
    rw [Real.rpow_def_of_pos hr', Real.rpow_def_of_pos hr0, ← Real.exp_add, h2]; congr 1; ring
  have hD : |q * Real.log (r' / r)| ≤ 1.0031 * (|q| * u) := by
    rw [abs_mul]
    have := mul_le_mul_of_nonneg_left h1 (abs_nonneg q)
    have k : 0 ≤ |q| * u := by positivity
    norm_num at *; linarith
  have h3 := abs_exp_sub_one_le (D := q * Real.log (r' / r)) (c := 1.02) (by norm_num) (by norm_num at *; linarith)
  have hR : 0 ≤ r ^ q := Real.rpow_nonneg hr0.le _
  rw [e1, show r ^ q * Real.exp (q * Real.log (r' / r)) - r ^ q = (Real.exp (q * Real.log (r' / r)) - 1) * r ^ q by ring, abs_mul, abs_of_nonneg hR]
  apply mul_le_mul_of_nonneg_right _ hR
  refine h3.trans ?_
  have k : 0 ≤ |q| * u := by positivity
  norm_num at *; linarith

/-- The scaled sum of powers that pmean computes, for an order of any sign; `c` is the scale. -/
theorem scaled_sum_rel {T : Type _} {pw : ℝ → ℝ → ℝ} {ε : ℝ} (h : Nearest p emin rd) (hp : 10 ≤ p) (he : emin ≤ -4 * p) (hpw : SignedPow p emin ε pw)
    (hε0 : 0 ≤ ε) (hε : ε ≤ 1 / 100) (x : List T) (hn : 100 * (x.length : ℝ) ≤ 2 ^ p) (r : T → ℝ) (q : ℝ) (hq0 : q ≠ 0)
    (hqu : 100 * |q| ≤ 2 ^ p) (hr : ∀ v ∈ x, r v = 0 ∧ 0 < q ∨ (2 : ℝ) ^ (emin + p + 9) ≤ r v) (hr1 : ∀ v ∈ x, (r v) ^ q ≤ 1) {w : T} (hw : w ∈ x)
    (hw1 : r w = 1) :
    ∃ S, S = (x.map fun v => (r v) ^ q).sum ∧ 1 ≤ S ∧ S ≤ x.length ∧ ∃ E : ℝ,
      E = 1.02 * (x.length * (2 ^ p)⁻¹) + 1.04 * (|q| * (2 ^ p)⁻¹) + 1.04 * ε + 0.02 * (2 ^ p)⁻¹ ∧ E ≤ 0.033 ∧
      |rsum rd 0 (x.map fun v => pw (rd (r v)) q) - S| ≤ E * S := by
  have hη0 : (0 : ℝ) < 2 ^ emin := by positivity
  have hu := Mad.unit_le_thousandth (K := ℝ) hp
  have hu0 : (0 : ℝ) < (2 ^ p)⁻¹ := by positivity
  have hnu : (x.length : ℝ) * (2 ^ p)⁻¹ ≤ 1 / 100 := by rw [← div_eq_mul_inv, div_le_iff₀ (by positivity)]; linarith
  have hqu' : |q| * (2 ^ p)⁻¹ ≤ 1 / 100 := by rw [← div_eq_mul_inv, div_le_iff₀ (by positivity)]; linarith
  have hn1 : (1 : ℝ) ≤ x.length := by
    have : 1 ≤ x.length := List.length_pos_of_mem hw
    exact_mod_cast this
  have hr0 : ∀ v ∈ x, 0 ≤ r v := by
    intro v hv
    rcases hr v hv with k | k
    · exact k.1.ge
    · exact le_trans (by positivity) k
  obtain ⟨S, hSdef⟩ : ∃ S, S = (x.map fun v => (r v) ^ q).sum := ⟨_, rfl⟩
  have hτ0 : ∀ v ∈ x, 0 ≤ (r v) ^ q := fun v hv => Real.rpow_nonneg (hr0 v hv) q
  have hS1 : 1 ≤ S := by
    have e1 : (r w) ^ q = 1 := by rw [hw1, Real.one_rpow]
    rw [hSdef, ← e1]
    exact List.single_le_sum (by intro y hy; obtain ⟨v, hv, rfl⟩ := List.mem_map.1 hy; exact hτ0 v hv) _ (List.mem_map.2 ⟨w, hw, rfl⟩)
  have hSn : S ≤ x.length := by
    have := List.sum_le_card_nsmul (x.map fun v => (r v) ^ q) 1 (by
      intro y hy; obtain ⟨v, hv, rfl⟩ := List.mem_map.1 hy; exact hr1 v hv)
    rw [hSdef]; simpa using this
  have hηu := (eta_small hp he).2
  have herr := fun z => h.error (by omega : 1 ≤ p) z
  have hrel : ∀ v ∈ x, (2 : ℝ) ^ (emin + p + 9) ≤ r v → |rd (r v) - r v| ≤ 1.001 * (2 ^ p)⁻¹ * r v := by
    intro v hv k
    have e1 := herr (r v)
    rw [abs_of_nonneg (hr0 v hv)] at e1
    have e2 : (2 : ℝ) ^ emin / 2 ≤ 0.001 * ((2 ^ p)⁻¹ * r v) := by
      have k2 : (2 ^ p)⁻¹ * (2 : ℝ) ^ (emin + p + 9) ≤ (2 ^ p)⁻¹ * r v := mul_le_mul_of_nonneg_left k hu0.le
      rw [zpow_add₀ (by norm_num), zpow_add₀ (by norm_num), zpow_natCast,
        show ((2 : ℝ) ^ p)⁻¹ * (2 ^ emin * 2 ^ p * 2 ^ (9 : ℤ)) = 2 ^ emin * 2 ^ (9 : ℤ) * (((2 : ℝ) ^ p)⁻¹ * 2 ^ p) by ring,
        inv_mul_cancel₀ (by positivity), mul_one] at k2
      norm_num at k2 ⊢; linarith
    generalize ((2 : ℝ) ^ p)⁻¹ = u at *
    norm_num at *; linarith
  have hrv : ∀ v ∈ x, 0 ≤ rd (r v) := fun v hv => h.mono_float isFloat_zero (hr0 v hv)
  have hrp : ∀ v ∈ x, 0 < q ∨ 0 < rd (r v) := by
    intro v hv
    rcases hr v hv with k | k
    · exact .inl k.2
    · right
      exact (pow_rel (q := q) (lt_of_lt_of_le (by positivity) k) hu0.le hu hqu' (hrel v hv k)).1
  have hterm : ∀ v ∈ x, |pw (rd (r v)) q - (r v) ^ q| ≤ (1.025 * (|q| * (2 ^ p)⁻¹) + 1.02 * ε) * |(r v) ^ q| + 2 ^ emin := by
    intro v hv
    have b1 : |rd (r v) ^ q - (r v) ^ q| ≤ 1.025 * (|q| * (2 ^ p)⁻¹) * (r v) ^ q := by
      rcases hr v hv with k | k
      · rw [k.1, h.exact isFloat_zero, sub_self, abs_zero]
        have : (0 : ℝ) ≤ 0 ^ q := Real.rpow_nonneg le_rfl q
        positivity
      · exact (pow_rel (lt_of_lt_of_le (by positivity) k) hu0.le hu hqu' (hrel v hv k)).2
    have b2 := hpw.error (rd (r v)) q (hrv v hv) hq0 (hrp v hv)
    rw [abs_of_nonneg (hτ0 v hv)]
    have t0 := hτ0 v hv
    clear herr hn hqu hrel
    generalize (r v) ^ q = τ at *
    generalize rd (r v) ^ q = τ' at *
    generalize pw (rd (r v)) q = t at *
    have b3 := (abs_le.1 b1).2
    have b4 : ε * τ' ≤ ε * (τ + (1.025 * (|q| * (2 ^ p)⁻¹) * τ)) := mul_le_mul_of_nonneg_left (by linarith) hε0
    have b5 : (|q| * (2 ^ p)⁻¹) * (ε * τ) ≤ 1 / 100 * (ε * τ) := mul_le_mul_of_nonneg_right hqu' (by positivity)
    have b7 : 0 ≤ ε * τ := by positivity
    calc |t - τ| = |(t - τ') + (τ' - τ)| := by congr 1; ring
      _ ≤ _ := abs_add_le _ _
      _ ≤ _ := by
        clear hη0 he hηu
        generalize (|q| * ((2 : ℝ) ^ p)⁻¹) = z at *
        generalize (2 : ℝ) ^ emin = η at *
        have b8 : z * τ * ε = z * (ε * τ) := by ring
        norm_num at *; nlinarith
  have hsum := rsum_terms_list h (by omega) x (fun v => pw (rd (r v)) q) (fun v => (r v) ^ q)
    (fun v hv => hpw.float _ _ (hrv v hv) hq0 (hrp v hv)) hterm
  have eabs : (x.map fun v => |(r v) ^ q|).sum = S := by
    rw [hSdef]; congr 1; apply List.map_congr_left; intro v hv; exact abs_of_nonneg (hτ0 v hv)
  rw [eabs, ← hSdef] at hsum
  have hP := Mad.pow_bound (u := ((2 : ℝ) ^ p)⁻¹) hu0.le x.length hnu
  generalize rsum rd 0 (x.map fun v => pw (rd (r v)) q) = S' at *
  obtain ⟨E, hEdef⟩ : ∃ E : ℝ, E = 1.02 * (x.length * (2 ^ p)⁻¹) + 1.04 * (|q| * (2 ^ p)⁻¹) + 1.04 * ε + 0.02 * (2 ^ p)⁻¹ := ⟨_, rfl⟩
  have hE : |S' - S| ≤ E * S := by
    refine hsum.trans ?_
    clear hsum hterm eabs herr hrel hr
    generalize (1 + ((2 : ℝ) ^ p)⁻¹) ^ x.length = P at *
    generalize (2 : ℝ) ^ emin = l at *
    have hlu2 : (x.length : ℝ) * l ≤ 0.01 * (2 ^ p)⁻¹ := by
      have := mul_le_mul_of_nonneg_left hηu (by positivity : (0 : ℝ) ≤ x.length)
      have k := mul_le_mul_of_nonneg_right hnu hu0.le
      clear * - this k hu0
      generalize ((2 : ℝ) ^ p)⁻¹ = u at *
      norm_num at *; linarith
    clear hn hqu hηu
    generalize ((2 : ℝ) ^ p)⁻¹ = u at *
    generalize (x.length : ℝ) = n at *
    have hs0 := abs_nonneg q
    generalize |q| = s at *
    have hqu0 : 0 ≤ s * u := by positivity
    have hnu0 : 0 ≤ n * u := mul_nonneg (by linarith) hu0.le
    have hP2 : P ≤ 1.0102 := by norm_num at *; linarith
    have k1 : P * (1.025 * (s * u) + 1.02 * ε) ≤ 1.0102 * (1.025 * (s * u) + 1.02 * ε) := mul_le_mul_of_nonneg_right hP2 (by positivity)
    have k2 : P * (n * l) ≤ 1.0102 * (n * l) := mul_le_mul_of_nonneg_right hP2 (mul_nonneg (by linarith) (by positivity))
    have k3 : P * (n * l) ≤ (0.0125 * u) * S := by
      have : 0 ≤ u * (S - 1) := mul_nonneg hu0.le (by linarith)
      norm_num at *; linarith
    have k4 : P * (1 + (1.025 * (s * u) + 1.02 * ε)) - 1 ≤ E - 0.0125 * u := by rw [hEdef]; norm_num at *; linarith
    have k5 := mul_le_mul_of_nonneg_right k4 (by linarith : 0 ≤ S)
    linarith
  have hE1 : E ≤ 0.033 := by rw [hEdef]; clear * - hnu hqu' hε hu; norm_num at *; linarith
  exact ⟨S, hSdef, hS1, hSn, E, hEdef, hE1, hE⟩

/-- `root_term_abs` for an order of any sign and size. -/
theorem root_term_rel {S S' E q u e' : ℝ} (hS0 : 0 < S) (hE : |S' - S| ≤ E * S) (hE1 : E ≤ 0.036) (hq : q ≠ 0) (hu0 : 0 ≤ u) (hu : u ≤ 1 / 1000)
    (he : |e' - 1 / q| ≤ 1.005 * u / |q|) (hB : (1.005 * (u * |Real.log S|) + 1.0392 * E) / |q| ≤ 0.0475) :
    0 < S' ∧ |S' ^ e' - S ^ (1 / q)| ≤ (1.056 * (u * |Real.log S|) + 1.1 * E) / |q| * S ^ (1 / q) := by
  have hq0 : 0 < |q| := abs_pos.2 hq
  have hE0 : 0 ≤ E := by
    by_contra hh; have := (abs_nonneg _).trans hE; nlinarith
  have hS' : 0 < S' := by have := (abs_le.1 hE).1; norm_num at *; nlinarith
  refine ⟨hS', ?_⟩
  have hlS : 0 ≤ |Real.log S| := abs_nonneg _
  have h1 : |Real.log (S' / S)| ≤ 1.038 * E := by
    apply abs_log_le
    · rw [← div_self hS0.ne', ← sub_div, abs_div, abs_of_pos hS0, div_le_iff₀ hS0]; exact hE
    · norm_num at *; linarith
    · norm_num at *; linarith
    · norm_num
  have h2 : Real.log S' = Real.log S + Real.log (S' / S) := by rw [Real.log_div hS'.ne' hS0.ne']; ring
  have e1 : S' ^ e' = S ^ (1 / q) * Real.exp ((e' - 1 / q) * Real.log S + e' * Real.log (S' / S)) := by
    rw [Real.rpow_def_of_pos hS', Real.rpow_def_of_pos hS0, ← Real.exp_add, h2]; congr 1; ring
  set D := (e' - 1 / q) * Real.log S + e' * Real.log (S' / S) with hD
  have hiq : (0 : ℝ) < 1 / |q| := by positivity
  have he2 : |e'| ≤ 1.0011 * (1 / |q|) := by
    have : |e'| ≤ |e' - 1 / q| + |1 / q| := by
      calc |e'| = |(e' - 1 / q) + 1 / q| := by congr 1; ring
        _ ≤ _ := abs_add_le _ _
    rw [abs_div, abs_one] at this
    have k : 1.005 * u / |q| = 1.005 * u * (1 / |q|) := by ring
    have k2 : 1.005 * u * (1 / |q|) ≤ 1.005 * (1 / 1000) * (1 / |q|) := mul_le_mul_of_nonneg_right (mul_le_mul_of_nonneg_left hu (by norm_num)) hiq.le
    rw [k] at he
    clear hB hE e1 hD h1 h2
    generalize 1 / |q| = z at *
    norm_num at *; linarith
  have hDb : |D| ≤ (1.005 * (u * |Real.log S|) + 1.0392 * E) * (1 / |q|) := by
    calc |D| ≤ |(e' - 1 / q) * Real.log S| + |e' * Real.log (S' / S)| := abs_add_le _ _
      _ = |e' - 1 / q| * |Real.log S| + |e'| * |Real.log (S' / S)| := by rw [abs_mul, abs_mul]
      _ ≤ (1.005 * u / |q|) * |Real.log S| + (1.0011 * (1 / |q|)) * (1.038 * E) := by
        apply add_le_add (mul_le_mul_of_nonneg_right he hlS)
        exact mul_le_mul he2 h1 (abs_nonneg _) (by positivity)
      _ ≤ _ := by
        have k : 0 ≤ 1 / |q| * E := by positivity
        have k1 : (1.005 * u / |q|) * |Real.log S| = 1.005 * (u * |Real.log S|) * (1 / |q|) := by ring
        rw [k1]
        clear hB
        generalize 1.005 * (u * |Real.log S|) = z
        norm_num at *; linarith
  have hDs : |D| ≤ 0.0475 := hDb.trans (by rw [mul_one_div]; exact hB)
  have h3 := abs_exp_sub_one_le (D := D) (c := 1.05) (by norm_num) (by norm_num at hDs ⊢; linarith)
  have hR : 0 ≤ S ^ (1 / q) := Real.rpow_nonneg hS0.le _
  rw [e1, show S ^ (1 / q) * Real.exp D - S ^ (1 / q) = (Real.exp D - 1) * S ^ (1 / q) by ring, abs_mul, abs_of_nonneg hR]
  apply mul_le_mul_of_nonneg_right _ hR
  refine h3.trans ?_
  have k0 : 0 ≤ (u * |Real.log S|) * (1 / |q|) := by positivity
  have k1 : 0 ≤ E * (1 / |q|) := by positivity
  rw [div_eq_mul_one_div _ |q|]
  clear h3 hDs e1 hD hB he he2
  generalize 1 / |q| = z at *
  generalize u * |Real.log S| = y at *
  rw [add_mul] at hDb ⊢
  norm_num at *; linarith

theorem exponent_error_signed {q u η e' : ℝ} (hq0 : q ≠ 0) (hu0 : 0 < u) (hqu : |q| * u ≤ 1 / 100) (hη : η ≤ 0.005 * (u * u))
    (h : |e' - 1 / q| ≤ u * |1 / q| + η) : |e' - 1 / q| ≤ 1.005 * u / |q| := by
  have hs : 0 < |q| := abs_pos.2 hq0
  rw [abs_div, abs_one] at h
  have f1 : u * u * |q| ≤ 1 / 100 * u := by have := mul_le_mul_of_nonneg_right hqu hu0.le; linarith
  have f2 : u * u ≤ 1 / 100 * (u * (1 / |q|)) := by rw [← mul_assoc, mul_one_div, le_div_iff₀ hs]; exact f1
  have f3 : 0 < u * (1 / |q|) := by positivity
  have e3 : 1.005 * u / |q| = 1.005 * (u * (1 / |q|)) := by ring
  rw [e3]
  refine h.trans ?_
  generalize u * (1 / |q|) = z at *
  norm_num at *; linarith

/-- The last steps of pmean and of vnorm: `c` times the power `1/q` of `T`, computed from `T'`. -/
theorem finish_rel {q u η ε n c T T' E e' G res : ℝ} (hu0 : 0 < u) (hu : u ≤ 1 / 1000) (hε0 : 0 ≤ ε) (hε : ε ≤ 1 / 100) (hη0 : 0 ≤ η)
    (hηu : η ≤ 0.001 * u)
    (hq : q ≠ 0) (hqu : |q| * u ≤ 1 / 100) (hsmall : 30 * (4 * (n * u) + 2 * ε) ≤ |q|) (hnu : n * u ≤ 1 / 100) (hn1 : 1 ≤ n) (hc0 : 0 < c) (hT0 : 0 < T) (hLn : |Real.log T| ≤ Real.log n)
    (hEdef : E = 1.02 * (n * u) + 1.04 * (|q| * u) + 1.04 * ε + 0.02 * u) (hE : |T' - T| ≤ (E + 1.04 * u) * T) (hE1 : E ≤ 0.033)
    (hexp : |e' - 1 / q| ≤ 1.005 * u / |q|) (hG : 0 < T' → |G - T' ^ e'| ≤ ε * T' ^ e' + η) (hfin : |res - c * G| ≤ u * |c * G| + η / 2) :
    |res - c * T ^ (1 / q)| ≤ (((1.2 * n + 1.1 * Real.log n + 1.2) / |q| + 2.3) * u + (1.2 / |q| + 1.1) * ε) * (c * T ^ (1 / q)) + 1.01 * (η * c) + η / 2 := by
  have hs0 : 0 < |q| := abs_pos.2 hq
  have hn0 : 0 < n := by linarith
  have hl0 : 0 ≤ Real.log n := Real.log_nonneg hn1
  have hE0 : 0 ≤ E := by rw [hEdef]; have : 0 ≤ n * u := mul_nonneg (by linarith) hu0.le
                         positivity
  have hLu : u * |Real.log T| ≤ u * Real.log n := mul_le_mul_of_nonneg_left hLn hu0.le
  have hLnn : u * Real.log n ≤ n * u := by
    have e1 : Real.log n ≤ n := (Real.log_le_sub_one_of_pos hn0).trans (by linarith)
    have e2 := mul_le_mul_of_nonneg_left e1 hu0.le
    linarith
  have hun : u ≤ n * u := by have := mul_le_mul_of_nonneg_right hn1 hu0.le; linarith
  have hqu0 : 0 ≤ |q| * u := by positivity
  have hBsm : (1.056 * (u * |Real.log T|) + 1.1 * (E + 1.04 * u)) / |q| ≤ 0.05 := by
    rw [div_le_iff₀ hs0, hEdef]
    have k : |q| * u ≤ |q| * (1 / 1000) := mul_le_mul_of_nonneg_left hu hs0.le
    clear * - hLu hLnn hun hqu0 hε0 hu0 hsmall k
    generalize n * u = z1 at *
    generalize u * Real.log n = z2 at *
    generalize u * |Real.log T| = z3 at *
    generalize |q| * u = z4 at *
    generalize |q| = s at *
    norm_num at *; linarith
  have hBsm' : (1.005 * (u * |Real.log T|) + 1.0392 * (E + 1.04 * u)) / |q| ≤ 0.0475 := by
    rw [div_le_iff₀ hs0, hEdef]
    have k : |q| * u ≤ |q| * (1 / 1000) := mul_le_mul_of_nonneg_left hu hs0.le
    clear * - hLu hLnn hun hqu0 hε0 hu0 hsmall k
    generalize n * u = z1 at *
    generalize u * Real.log n = z2 at *
    generalize u * |Real.log T| = z3 at *
    generalize |q| * u = z4 at *
    generalize |q| = s at *
    norm_num at *; linarith
  obtain ⟨hT', hroot⟩ := root_term_rel hT0 hE (by clear * - hE1 hu; norm_num at *; linarith) hq hu0.le hu hexp hBsm'
  have hG := hG hT'
  obtain ⟨B, hB⟩ : ∃ B : ℝ, B = (1.056 * (u * |Real.log T|) + 1.1 * (E + 1.04 * u)) / |q| := ⟨_, rfl⟩
  rw [← hB] at hroot hBsm
  have hB0 : 0 ≤ B := by rw [hB]; positivity
  have hBfin : B ≤ (1.2 * n + 1.1 * Real.log n + 1.2) / |q| * u + 1.15 * u + 1.2 / |q| * ε := by
    have e4 : ((1.2 * n + 1.1 * Real.log n + 1.2) / |q| * u + 1.15 * u + 1.2 / |q| * ε) * |q| =
        1.2 * (n * u) + 1.1 * (u * Real.log n) + 1.2 * u + 1.15 * (|q| * u) + 1.2 * ε := by field_simp
    have e6 : 0 ≤ u * Real.log n := by positivity
    rw [hB, div_le_iff₀ hs0, e4, hEdef]
    clear * - hLu hLnn hun hqu0 hε0 hu0 e6
    generalize n * u = z1 at *
    generalize u * Real.log n = z2 at *
    generalize u * |Real.log T| = z3 at *
    generalize |q| * u = z4 at *
    norm_num at *; linarith
  have hR0 : 0 < T ^ (1 / q) := Real.rpow_pos_of_pos hT0 _
  have hR'0 : 0 < T' ^ e' := Real.rpow_pos_of_pos hT' _
  generalize T' ^ e' = R' at *
  generalize T ^ (1 / q) = R at *
  generalize (1.2 * n + 1.1 * Real.log n + 1.2) / |q| = C at *
  have hC' : 0 ≤ 1.2 / |q| := by positivity
  generalize 1.2 / |q| = C' at *
  clear * - hBsm hB0 hroot hε0 hε hu0 hu hη0 hηu hG hfin hR0 hBfin hc0 hC' hR'0
  have hBR : B * R ≤ 0.05 * R := mul_le_mul_of_nonneg_right hBsm hR0.le
  have hR' : R' ≤ 1.05 * R := by have := (abs_le.1 hroot).2; norm_num at *; linarith
  have hεR : ε * R' ≤ ε * (1.05 * R) := mul_le_mul_of_nonneg_left hR' hε0
  have hεR2 : ε * R ≤ 1 / 100 * R := mul_le_mul_of_nonneg_right hε hR0.le
  have hGR : |G - R| ≤ (B + 1.05 * ε) * R + η := by
    calc |G - R| = |(G - R') + (R' - R)| := by congr 1; ring
      _ ≤ _ := abs_add_le _ _
      _ ≤ _ := by norm_num at *; linarith
  have hGa : |G| ≤ 1.065 * R + η := by
    have : |G| ≤ |G - R| + |R| := by
      calc |G| = |(G - R) + R| := by congr 1; ring
        _ ≤ _ := abs_add_le _ _
    rw [abs_of_pos hR0] at this
    norm_num at *; linarith
  have huG : u * |c * G| ≤ 1.065 * (u * (c * R)) + u * (c * η) := by
    rw [abs_mul, abs_of_pos hc0]
    have := mul_le_mul_of_nonneg_left (mul_le_mul_of_nonneg_left hGa hc0.le) hu0.le
    linarith
  have hMG : |c * G - c * R| ≤ (B + 1.05 * ε) * (c * R) + c * η := by
    rw [← mul_sub, abs_mul, abs_of_pos hc0]
    have := mul_le_mul_of_nonneg_left hGR hc0.le
    linarith
  have hMR : 0 ≤ c * R := by positivity
  have hcη : u * (c * η) ≤ 1 / 1000 * (c * η) := mul_le_mul_of_nonneg_right hu (by positivity)
  have hcη0 : 0 ≤ c * η := by positivity
  have hfinal : B + 1.05 * ε + 1.065 * u ≤ (C + 2.3) * u + (C' + 1.1) * ε := by norm_num at *; linarith
  have := mul_le_mul_of_nonneg_right hfinal hMR
  calc |res - c * R| = |(res - c * G) + (c * G - c * R)| := by congr 1; ring
    _ ≤ _ := abs_add_le _ _
    _ ≤ _ := by norm_num at *; linarith

theorem pmean_finish_rel {q u η ε n c S T' E e' G res : ℝ} (hu0 : 0 < u) (hu : u ≤ 1 / 1000) (hε0 : 0 ≤ ε) (hε : ε ≤ 1 / 100) (hη0 : 0 ≤ η)
    (hηu : η ≤ 0.001 * u)
    (hq : q ≠ 0) (hqu : |q| * u ≤ 1 / 100) (hsmall : 30 * (4 * (n * u) + 2 * ε) ≤ |q|) (hnu : n * u ≤ 1 / 100) (hn1 : 1 ≤ n) (hc0 : 0 < c) (hS1 : 1 ≤ S) (hSn : S ≤ n)
    (hEdef : E = 1.02 * (n * u) + 1.04 * (|q| * u) + 1.04 * ε + 0.02 * u) (hE : |T' - S / n| ≤ (E + 1.04 * u) * (S / n)) (hE1 : E ≤ 0.033)
    (hexp : |e' - 1 / q| ≤ 1.005 * u / |q|) (hG : 0 < T' → |G - T' ^ e'| ≤ ε * T' ^ e' + η) (hfin : |res - c * G| ≤ u * |c * G| + η / 2) :
    |res - c * (S / n) ^ (1 / q)| ≤ (((1.2 * n + 1.1 * Real.log n + 1.2) / |q| + 2.3) * u + (1.2 / |q| + 1.1) * ε) * (c * (S / n) ^ (1 / q)) + 1.01 * (η * c) + η / 2 := by
  have hn0 : 0 < n := by linarith
  have hT0 : 0 < S / n := by positivity
  have hT1 : S / n ≤ 1 := (div_le_one hn0).2 hSn
  have hTn : 1 / n ≤ S / n := div_le_div_of_nonneg_right hS1 hn0.le
  have hLn : |Real.log (S / n)| ≤ Real.log n := by
    rw [abs_of_nonpos (Real.log_nonpos hT0.le hT1)]
    have := Real.log_le_log (by positivity) hTn
    rw [one_div, Real.log_inv] at this
    linarith
  exact finish_rel hu0 hu hε0 hε hη0 hηu hq hqu hsmall hnu hn1 hc0 hT0 hLn hEdef hE hE1 hexp hG hfin

end Ufunclab.Float
