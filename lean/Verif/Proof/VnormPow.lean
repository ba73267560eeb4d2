import Verif.Proof.VnormRound
import Mathlib.Analysis.Convex.SpecificFunctions.Basic
/-!
# Auxiliary facts for C83: powers and roots with errors
-/
namespace Ufunclab.Float
open Ufunclab.Corr
variable {p : ℕ} {emin : ℤ} {rd : ℝ → ℝ}

theorem abs_exp_sub_one_le {D c : ℝ} (hc : 1 ≤ c) (h : c * |D| ≤ c - 1) : |Real.exp D - 1| ≤ c * |D| := by
  have h0 := abs_nonneg D
  have h1 : |D| < 1 := by by_contra hh; nlinarith
  have e1 := Real.add_one_le_exp D
  have e2 := Real.add_one_le_exp (-D)
  have e3 : Real.exp D * Real.exp (-D) = 1 := by rw [← Real.exp_add]; simp
  have e4 := Real.exp_pos D
  have d1 := abs_le.1 (le_refl |D|)
  rw [abs_le]
  constructor
  · nlinarith
  · -- exp D * (1 - |D|) ≤ 1 and (1 + c|D|)(1 - |D|) ≥ 1
    have f1 : Real.exp D * (1 - |D|) ≤ 1 := by
      calc Real.exp D * (1 - |D|) ≤ Real.exp D * Real.exp (-D) := mul_le_mul_of_nonneg_left (by linarith [d1.2]) e4.le
        _ = 1 := e3
    have f2 : 1 ≤ (1 + c * |D|) * (1 - |D|) := by nlinarith
    have f3 : Real.exp D * (1 - |D|) ≤ (1 + c * |D|) * (1 - |D|) := f1.trans f2
    have := le_of_mul_le_mul_right f3 (by linarith)
    linarith

theorem abs_log_le {y t c : ℝ} (hy : |y - 1| ≤ t) (ht : 1 ≤ c * (1 - t)) (ht1 : t < 1) (hc : 1 ≤ c) : |Real.log y| ≤ c * t := by
  have d := abs_le.1 hy
  have t0 : 0 ≤ t := (abs_nonneg _).trans hy
  have y0 : 0 < y := by linarith
  have h1 := Real.log_le_sub_one_of_pos y0
  have h2 := Real.one_sub_inv_le_log_of_pos y0
  rw [abs_le]
  constructor
  · have : y⁻¹ ≤ 1 + c * t := by
      rw [inv_le_iff_one_le_mul₀ y0]
      have : (1 + c * t) * (1 - t) ≤ (1 + c * t) * y := mul_le_mul_of_nonneg_left (by linarith) (by nlinarith)
      nlinarith
    linarith
  · nlinarith

/-- The effect of an error of the base on the power. -/
theorem pow_term {r r' q u η l : ℝ} (hr0 : 0 ≤ r) (hr1 : r ≤ 1) (hr0' : 0 ≤ r') (hr1' : r' ≤ 1) (hq : 1 ≤ q) (hu0 : 0 ≤ u) (hu : u ≤ 1 / 1000)
    (hqu : q * u ≤ 1 / 100) (h : |r' - r| ≤ u * r + η) (hl : 0 ≤ l) (hη : η ≤ 0.001 * (u * l)) :
    |r' ^ q - r ^ q| ≤ 1.025 * (q * u) * r ^ q + 1.002 * l := by
  have d := abs_le.1 h
  have hq0 : 0 < q := by linarith
  have n1 : 0 ≤ r ^ q := Real.rpow_nonneg hr0 q
  have n2 : 0 ≤ r' ^ q := Real.rpow_nonneg hr0' q
  have qu0 : 0 ≤ q * u := by positivity
  by_cases hc : l ≤ r
  · have hul : u * l ≤ u * r := mul_le_mul_of_nonneg_left hc hu0
    have w1 : r' ≤ r * (1 + 1.001 * u) := by norm_num at *; nlinarith
    have w2 : r * (1 - 1.001 * u) ≤ r' := by norm_num at *; nlinarith
    have p1 : r' ^ q ≤ r ^ q * (1 + 1.025 * (q * u)) := by
      calc r' ^ q ≤ (r * (1 + 1.001 * u)) ^ q := Real.rpow_le_rpow hr0' w1 hq0.le
        _ = r ^ q * (1 + 1.001 * u) ^ q := Real.mul_rpow hr0 (by positivity)
        _ ≤ r ^ q * (1 + 1.025 * (q * u)) := by
          apply mul_le_mul_of_nonneg_left _ n1
          have a1 : (1 + 1.001 * u) ^ q ≤ Real.exp (1.001 * u * q) := by
            rw [Real.exp_mul]
            exact Real.rpow_le_rpow (by positivity) (by linarith [Real.add_one_le_exp (1.001 * u)]) hq0.le
          have a2 : |1.001 * u * q| = 1.001 * (q * u) := by rw [abs_of_nonneg (by positivity)]; ring
          have a3 := abs_exp_sub_one_le (D := 1.001 * u * q) (c := 1.02) (by norm_num) (by rw [a2]; norm_num at *; linarith)
          rw [a2] at a3
          have a4 := (abs_le.1 a3).2
          norm_num at *; linarith
    have p2 : r ^ q * (1 - 1.025 * (q * u)) ≤ r' ^ q := by
      calc r ^ q * (1 - 1.025 * (q * u)) ≤ r ^ q * (1 - 1.001 * u) ^ q := by
            apply mul_le_mul_of_nonneg_left _ n1
            have := one_add_mul_self_le_rpow_one_add (s := -(1.001 * u)) (by norm_num at *; linarith) hq
            rw [← sub_eq_add_neg] at this
            refine le_trans ?_ this
            norm_num at *; linarith
        _ = (r * (1 - 1.001 * u)) ^ q := (Real.mul_rpow hr0 (by norm_num at *; linarith)).symm
        _ ≤ r' ^ q := Real.rpow_le_rpow (mul_nonneg hr0 (by norm_num at *; linarith)) w2 hq0.le
    rw [abs_le]
    constructor
    · norm_num at *; nlinarith
    · norm_num at *; nlinarith
  · have hc := not_le.1 hc
    have b1 : r ^ q ≤ r := by
      simpa using Real.rpow_le_rpow_of_exponent_ge' hr0 hr1 zero_le_one hq
    have b2 : r' ^ q ≤ r' := by
      simpa using Real.rpow_le_rpow_of_exponent_ge' hr0' hr1' zero_le_one hq
    have hul : u * r ≤ u * l := mul_le_mul_of_nonneg_left hc.le hu0
    have hul2 : u * l ≤ 1 / 1000 * l := mul_le_mul_of_nonneg_right hu hl
    have b3 : r' ≤ 1.002 * l := by norm_num at *; linarith
    have b4 : 0 ≤ 1.025 * (q * u) * r ^ q := by positivity
    rw [abs_le]
    constructor
    · norm_num at *; linarith
    · norm_num at *; linarith

/-- The effect of an error of the base and of the exponent on the root. -/
theorem root_term {S S' E q u e' : ℝ} (hS : 1 ≤ S) (hE : |S' - S| ≤ E * S) (hE1 : E ≤ 0.033) (hq : 1 ≤ q) (hu0 : 0 ≤ u) (hu : u ≤ 1 / 1000)
    (he : |e' - 1 / q| ≤ 1.005 * u / q) (hL : u * Real.log S ≤ 0.01) :
    |S' ^ e' - S ^ (1 / q)| ≤ (1.056 * (u * Real.log S) + 1.1 * E) / q * S ^ (1 / q) := by
  have hq0 : 0 < q := by linarith
  have hS0 : 0 < S := by linarith
  have hE0 : 0 ≤ E := by
    by_contra hh; have := (abs_nonneg _).trans hE; nlinarith
  have hS' : 0 < S' := by have := (abs_le.1 hE).1; norm_num at *; nlinarith
  have hlS : 0 ≤ Real.log S := Real.log_nonneg hS
  have h1 : |Real.log (S' / S)| ≤ 1.035 * E := by
    apply abs_log_le
    · rw [← div_self hS0.ne', ← sub_div, abs_div, abs_of_pos hS0, div_le_iff₀ hS0]; exact hE
    · norm_num at *; linarith
    · norm_num at *; linarith
    · norm_num
  have h2 : Real.log S' = Real.log S + Real.log (S' / S) := by rw [Real.log_div hS'.ne' hS0.ne']; ring
  have e1 : S' ^ e' = S ^ (1 / q) * Real.exp ((e' - 1 / q) * Real.log S + e' * Real.log (S' / S)) := by
    rw [Real.rpow_def_of_pos hS', Real.rpow_def_of_pos hS0, ← Real.exp_add, h2]; congr 1; ring
  set D := (e' - 1 / q) * Real.log S + e' * Real.log (S' / S) with hD
  have hiq : (0 : ℝ) < 1 / q := by positivity
  have he2 : |e'| ≤ 1.0011 * (1 / q) := by
    have : |e'| ≤ |e' - 1 / q| + |1 / q| := by
      calc |e'| = |(e' - 1 / q) + 1 / q| := by congr 1; ring
        _ ≤ _ := abs_add_le _ _
    rw [abs_of_pos hiq] at this
    have k : 1.005 * u / q = 1.005 * u * (1 / q) := by ring
    have k2 : 1.005 * u * (1 / q) ≤ 1.005 * (1 / 1000) * (1 / q) := mul_le_mul_of_nonneg_right (mul_le_mul_of_nonneg_left hu (by norm_num)) hiq.le
    rw [k] at he
    generalize 1 / q = z at *
    norm_num at *; linarith
  have hDb : |D| ≤ (1.005 * (u * Real.log S) + 1.0362 * E) * (1 / q) := by
    calc |D| ≤ |(e' - 1 / q) * Real.log S| + |e' * Real.log (S' / S)| := abs_add_le _ _
      _ = |e' - 1 / q| * Real.log S + |e'| * |Real.log (S' / S)| := by rw [abs_mul, abs_mul, abs_of_nonneg hlS]
      _ ≤ (1.005 * u / q) * Real.log S + (1.0011 * (1 / q)) * (1.035 * E) := by
        apply add_le_add (mul_le_mul_of_nonneg_right he hlS)
        exact mul_le_mul he2 h1 (abs_nonneg _) (by positivity)
      _ ≤ _ := by
        have k : 0 ≤ 1 / q * E := by positivity
        have k1 : (1.005 * u / q) * Real.log S = 1.005 * (u * Real.log S) * (1 / q) := by ring
        rw [k1]
        generalize 1.005 * (u * Real.log S) = z
        norm_num at *; linarith
  have hq1 : 1 / q ≤ 1 := by rw [div_le_one hq0]; exact hq
  have hB0 : 0 ≤ 1.005 * (u * Real.log S) + 1.0362 * E := by positivity
  have hDs : |D| ≤ 0.0446 := by
    have := mul_le_mul_of_nonneg_left hq1 hB0
    norm_num at *; linarith
  have h3 := abs_exp_sub_one_le (D := D) (c := 1.05) (by norm_num) (by norm_num at *; linarith)
  have hR : 0 ≤ S ^ (1 / q) := Real.rpow_nonneg hS0.le _
  rw [e1, show S ^ (1 / q) * Real.exp D - S ^ (1 / q) = (Real.exp D - 1) * S ^ (1 / q) by ring, abs_mul, abs_of_nonneg hR]
  apply mul_le_mul_of_nonneg_right _ hR
  refine h3.trans ?_
  have k0 : 0 ≤ (u * Real.log S) * (1 / q) := by positivity
  have k1 : 0 ≤ E * (1 / q) := by positivity
  rw [div_eq_mul_one_div _ q]
  clear h3 hDs e1 hD
  generalize 1 / q = z at *
  generalize u * Real.log S = y at *
  rw [add_mul] at hDb ⊢
  norm_num at *; linarith

/-- `rsum_terms` for lists. -/
theorem rsum_terms_list {T : Type _} (h : Nearest p emin rd) (hp : 1 ≤ p) (x : List T) (t τ : T → ℝ) (ft : ∀ v ∈ x, IsFloat p emin (t v)) {a b : ℝ}
    (he : ∀ v ∈ x, |t v - τ v| ≤ a * |τ v| + b) :
    |rsum rd 0 (x.map t) - (x.map τ).sum| ≤
      ((1 + (2 ^ p)⁻¹) ^ x.length * (1 + a) - 1) * (x.map fun v => |τ v|).sum + (1 + (2 ^ p)⁻¹) ^ x.length * (x.length * b) := by
  have h1 := rsum_error h hp (x.map t) 0 isFloat_zero (by
    intro v hv; obtain ⟨w, hw, rfl⟩ := List.mem_map.1 hv; exact ft w hw)
  rw [zero_add, abs_zero, zero_add, List.length_map, List.map_map] at h1
  have h2 : ∀ y : List T, (∀ v ∈ y, v ∈ x) → |(y.map t).sum - (y.map τ).sum| ≤ a * (y.map fun v => |τ v|).sum + y.length * b ∧
      (y.map (abs ∘ t)).sum ≤ (1 + a) * (y.map fun v => |τ v|).sum + y.length * b := by
    intro y hy
    induction y with
    | nil => simp
    | cons v y ih =>
      obtain ⟨i1, i2⟩ := ih (fun w hw => hy w (by simp [hw]))
      have i3 := he v (hy v (by simp))
      simp only [List.map_cons, List.sum_cons, List.length_cons, Function.comp]
      push_cast
      constructor
      · calc _ = |(t v - τ v) + ((y.map t).sum - (y.map τ).sum)| := by congr 1; ring
          _ ≤ _ := abs_add_le _ _
          _ ≤ _ := by linarith
      · have : |t v| ≤ |t v - τ v| + |τ v| := by
          calc |t v| = |(t v - τ v) + τ v| := by congr 1; ring
            _ ≤ _ := abs_add_le _ _
        linarith
  obtain ⟨h3, h4⟩ := h2 x (fun _ hv => hv)
  have hu0 : (0 : ℝ) ≤ (2 ^ p)⁻¹ := by positivity
  have hP : 1 ≤ (1 + ((2 : ℝ) ^ p)⁻¹) ^ x.length := one_le_pow₀ (by linarith)
  have h5 := mul_le_mul_of_nonneg_left h4 (by linarith : 0 ≤ (1 + ((2 : ℝ) ^ p)⁻¹) ^ x.length - 1)
  calc _ ≤ _ := abs_sub_le _ (x.map t).sum _
    _ ≤ ((1 + (2 ^ p)⁻¹) ^ x.length - 1) * ((1 + a) * (x.map fun v => |τ v|).sum + x.length * b) +
        (a * (x.map fun v => |τ v|).sum + x.length * b) := add_le_add (h1.trans h5) h3
    _ = _ := by ring

/-- The scaled sum of powers that vnorm and pmean compute, `M` the largest element. -/
theorem scaled_sum {T : Type _} {pw : ℝ → ℝ → ℝ} {ε : ℝ} (h : Nearest p emin rd) (hp : 10 ≤ p) (he : emin ≤ -4 * p) (hpw : GoodPow p emin ε pw)
    (hε0 : 0 ≤ ε) (hε : ε ≤ 1 / 100) (x : List T) (hn : 100 * (x.length : ℝ) ≤ 2 ^ p) (a : T → ℝ) (ha : ∀ v ∈ x, 0 ≤ a v) (q : ℝ)
    (hq : 1 ≤ q) (hqu : 100 * q ≤ 2 ^ p) {M : ℝ} (hM0 : 0 < M) (h3 : ∀ v ∈ x, a v ≤ M) {w : T} (hw : w ∈ x) (hwM : a w = M) :
    ∃ S, S = (x.map fun v => (a v / M) ^ q).sum ∧ 1 ≤ S ∧ S ≤ x.length ∧ ∃ E : ℝ,
      E = 1.02 * (x.length * (2 ^ p)⁻¹) + 1.04 * (q * (2 ^ p)⁻¹) + 1.04 * ε + 0.02 * (2 ^ p)⁻¹ ∧ E ≤ 0.033 ∧
      |rsum rd 0 (x.map fun v => pw (rd (a v / M)) q) - S| ≤ E * S := by
  have hq0 : 0 < q := by linarith
  have hη0 : (0 : ℝ) < 2 ^ emin := by positivity
  have hu := Mad.unit_le_thousandth (K := ℝ) hp
  have hu0 : (0 : ℝ) < (2 ^ p)⁻¹ := by positivity
  have hnu : (x.length : ℝ) * (2 ^ p)⁻¹ ≤ 1 / 100 := by rw [← div_eq_mul_inv, div_le_iff₀ (by positivity)]; linarith
  have hqu' : q * (2 ^ p)⁻¹ ≤ 1 / 100 := by rw [← div_eq_mul_inv, div_le_iff₀ (by positivity)]; linarith
  have hn1 : (1 : ℝ) ≤ x.length := by
    have : 1 ≤ x.length := List.length_pos_of_mem hw
    exact_mod_cast this
  obtain ⟨S, hSdef⟩ : ∃ S, S = (x.map fun v => (a v / M) ^ q).sum := ⟨_, rfl⟩
  have hr0 : ∀ v ∈ x, 0 ≤ a v / M := fun v hv => div_nonneg (ha v hv) hM0.le
  have hr1 : ∀ v ∈ x, a v / M ≤ 1 := fun v hv => (div_le_one hM0).2 (h3 v hv)
  have hτ0 : ∀ v ∈ x, 0 ≤ (a v / M) ^ q := fun v hv => Real.rpow_nonneg (hr0 v hv) q
  have hS1 : 1 ≤ S := by
    have e1 : (a w / M) ^ q = 1 := by rw [hwM, div_self hM0.ne', Real.one_rpow]
    rw [hSdef, ← e1]
    exact List.single_le_sum (by intro y hy; obtain ⟨v, hv, rfl⟩ := List.mem_map.1 hy; exact hτ0 v hv) _ (List.mem_map.2 ⟨w, hw, rfl⟩)
  have hSn : S ≤ x.length := by
    have := List.sum_le_card_nsmul (x.map fun v => (a v / M) ^ q) 1 (by
      intro y hy; obtain ⟨v, hv, rfl⟩ := List.mem_map.1 hy; exact Real.rpow_le_one (hr0 v hv) (hr1 v hv) hq0.le)
    rw [hSdef]; simpa using this
  -- underflow threshold
  obtain ⟨l, hl⟩ : ∃ l : ℝ, l = 2 ^ emin * (2 ^ p) ^ 2 := ⟨_, rfl⟩
  have hl0 : 0 < l := by rw [hl]; positivity
  have hηl : (2 : ℝ) ^ emin / 2 ≤ 0.001 * ((2 ^ p)⁻¹ * l) := by
    have e1 : (2 ^ p)⁻¹ * l = 2 ^ emin * 2 ^ p := by rw [hl]; field_simp
    have e2 : (1000 : ℝ) ≤ 2 ^ p := by
      calc (1000 : ℝ) ≤ 2 ^ 10 := by norm_num
        _ ≤ 2 ^ p := pow_le_pow_right₀ (by norm_num) hp
    have e3 := mul_le_mul_of_nonneg_left e2 hη0.le
    rw [e1]; norm_num at *; linarith
  have hlu : l ≤ (2 ^ p)⁻¹ * (2 ^ p)⁻¹ := by
    rw [hl, ← zpow_natCast, ← zpow_natCast, ← zpow_mul, ← zpow_neg, ← zpow_add₀ (by norm_num), ← zpow_add₀ (by norm_num)]
    apply zpow_le_zpow_right₀ (by norm_num); push_cast; omega
  have herr := fun z => h.error (by omega : 1 ≤ p) z
  have hrv : ∀ v ∈ x, 0 ≤ rd (a v / M) := fun v hv => h.mono_float isFloat_zero (hr0 v hv)
  have hηl2 : (2 : ℝ) ^ emin ≤ 0.01 * l := by
    have : (2 ^ p)⁻¹ * l ≤ 1 / 1000 * l := mul_le_mul_of_nonneg_right hu hl0.le
    norm_num at *; linarith
  have hterm : ∀ v ∈ x, |pw (rd (a v / M)) q - (a v / M) ^ q| ≤ (1.025 * (q * (2 ^ p)⁻¹) + 1.02 * ε) * |(a v / M) ^ q| + 1.2 * l := by
    intro v hv
    have b1 := pow_term (hr0 v hv) (hr1 v hv) (hrv v hv) (h.mono_float' (isFloat_one (by omega) (by omega)) (hr1 v hv)) hq hu0.le hu hqu'
      (by have := herr (a v / M); rwa [abs_of_nonneg (hr0 v hv)] at this) hl0.le hηl
    have b2 := hpw.error (rd (a v / M)) q (hrv v hv) hq0
    rw [abs_of_nonneg (hτ0 v hv)]
    have t0 := hτ0 v hv
    clear herr hηl hn hqu
    generalize (a v / M) ^ q = τ at *
    generalize rd (a v / M) ^ q = τ' at *
    generalize pw (rd (a v / M)) q = t at *
    have b3 := (abs_le.1 b1).2
    have b4 : ε * τ' ≤ ε * (τ + (1.025 * (q * (2 ^ p)⁻¹) * τ + 1.002 * l)) := mul_le_mul_of_nonneg_left (by linarith) hε0
    have b5 : (q * (2 ^ p)⁻¹) * (ε * τ) ≤ 1 / 100 * (ε * τ) := mul_le_mul_of_nonneg_right hqu' (by positivity)
    have b6 : ε * l ≤ 1 / 100 * l := mul_le_mul_of_nonneg_right hε hl0.le
    have b7 : 0 ≤ ε * τ := by positivity
    calc |t - τ| = |(t - τ') + (τ' - τ)| := by congr 1; ring
      _ ≤ _ := abs_add_le _ _
      _ ≤ _ := by
        clear hl hlu hη0 he
        generalize (q * ((2 : ℝ) ^ p)⁻¹) = z at *
        generalize (2 : ℝ) ^ emin = η at *
        have b8 : z * τ * ε = z * (ε * τ) := by ring
        norm_num at *; nlinarith
  have hsum := rsum_terms_list h (by omega) x (fun v => pw (rd (a v / M)) q) (fun v => (a v / M) ^ q) (fun v hv => hpw.float _ _ (hrv v hv) hq0)
    hterm
  have eabs : (x.map fun v => |(a v / M) ^ q|).sum = S := by
    rw [hSdef]; congr 1; apply List.map_congr_left; intro v hv; exact abs_of_nonneg (hτ0 v hv)
  rw [eabs, ← hSdef] at hsum
  have hP := Mad.pow_bound (u := ((2 : ℝ) ^ p)⁻¹) hu0.le x.length hnu
  generalize rsum rd 0 (x.map fun v => pw (rd (a v / M)) q) = S' at *
  obtain ⟨E, hEdef⟩ : ∃ E : ℝ, E = 1.02 * (x.length * (2 ^ p)⁻¹) + 1.04 * (q * (2 ^ p)⁻¹) + 1.04 * ε + 0.02 * (2 ^ p)⁻¹ := ⟨_, rfl⟩
  have hE : |S' - S| ≤ E * S := by
    refine hsum.trans ?_
    clear hsum hterm eabs herr hηl hηl2
    generalize (1 + ((2 : ℝ) ^ p)⁻¹) ^ x.length = P at *
    have hlu2 : (x.length : ℝ) * l ≤ 0.01 * (2 ^ p)⁻¹ := by
      have := mul_le_mul_of_nonneg_left hlu (by positivity : (0 : ℝ) ≤ x.length)
      have k := mul_le_mul_of_nonneg_right hnu hu0.le
      clear * - this k
      generalize ((2 : ℝ) ^ p)⁻¹ = u at *
      norm_num at *; linarith
    clear hn hqu hl hlu
    generalize ((2 : ℝ) ^ p)⁻¹ = u at *
    generalize (x.length : ℝ) = n at *
    have hqu0 : 0 ≤ q * u := by positivity
    have hnu0 : 0 ≤ n * u := mul_nonneg (by linarith) hu0.le
    have hP2 : P ≤ 1.0102 := by norm_num at *; linarith
    have k1 : P * (1.025 * (q * u) + 1.02 * ε) ≤ 1.0102 * (1.025 * (q * u) + 1.02 * ε) := mul_le_mul_of_nonneg_right hP2 (by positivity)
    have k2 : P * (n * (1.2 * l)) ≤ 1.0102 * (n * (1.2 * l)) := mul_le_mul_of_nonneg_right hP2 (mul_nonneg (by linarith) (by positivity))
    have k3 : P * (n * (1.2 * l)) ≤ (0.0125 * u) * S := by
      have : 0 ≤ u * (S - 1) := mul_nonneg hu0.le (by linarith)
      norm_num at *; linarith
    have k4 : P * (1 + (1.025 * (q * u) + 1.02 * ε)) - 1 ≤ E - 0.0125 * u := by rw [hEdef]; norm_num at *; linarith
    have k5 := mul_le_mul_of_nonneg_right k4 (by linarith : 0 ≤ S)
    linarith
  have hE1 : E ≤ 0.033 := by rw [hEdef]; clear * - hnu hqu' hε hu; norm_num at *; linarith
  exact ⟨S, hSdef, hS1, hSn, E, hEdef, hE1, hE⟩

/-- The least subnormal is negligible. -/
theorem eta_small (hp : 10 ≤ p) (he : emin ≤ -4 * p) : (2 : ℝ) ^ emin ≤ 0.001 * (2 ^ p)⁻¹ ∧ (2 : ℝ) ^ emin ≤ 0.01 * ((2 ^ p)⁻¹ * (2 ^ p)⁻¹) := by
  have hu := Mad.unit_le_thousandth (K := ℝ) hp
  have hu0 : (0 : ℝ) < (2 ^ p)⁻¹ := by positivity
  have h4 : (2 : ℝ) ^ emin ≤ (2 ^ p)⁻¹ * (2 ^ p)⁻¹ * (2 ^ p)⁻¹ * (2 ^ p)⁻¹ := by
    rw [← zpow_natCast, ← zpow_neg, ← zpow_add₀ (by norm_num), ← zpow_add₀ (by norm_num), ← zpow_add₀ (by norm_num)]
    exact zpow_le_zpow_right₀ (by norm_num) (by omega)
  generalize ((2 : ℝ) ^ p)⁻¹ = u at *
  have k1 : u * u ≤ 1 / 1000 * u := mul_le_mul_of_nonneg_right hu hu0.le
  have k2 : u * u * (u * u) ≤ 1 / 1000 * u * (u * u) := mul_le_mul_of_nonneg_right k1 (by positivity)
  have k3 : u * u * u ≤ 1 / 1000 * u * u := mul_le_mul_of_nonneg_right k1 hu0.le
  constructor
  · norm_num at *; nlinarith
  · norm_num at *; nlinarith

theorem exponent_error {q u η e' : ℝ} (hq0 : 0 < q) (hu0 : 0 < u) (hqu : q * u ≤ 1 / 100) (hη : η ≤ 0.005 * (u * u))
    (h : |e' - 1 / q| ≤ u * (1 / q) + η) : |e' - 1 / q| ≤ 1.005 * u / q := by
  have f1 : u * u * q ≤ 1 / 100 * u := by have := mul_le_mul_of_nonneg_right hqu hu0.le; linarith
  have f2 : u * u ≤ 1 / 100 * (u * (1 / q)) := by rw [← mul_assoc, mul_one_div, le_div_iff₀ hq0]; exact f1
  have f3 : 0 < u * (1 / q) := by positivity
  have e3 : 1.005 * u / q = 1.005 * (u * (1 / q)) := by ring
  rw [e3]
  generalize u * (1 / q) = z at *
  norm_num at *; linarith

theorem exponent_pos {q u e' : ℝ} (hq0 : 0 < q) (hu0 : 0 < u) (hu : u ≤ 1 / 1000) (h : |e' - 1 / q| ≤ 1.005 * u / q) : 0 < e' := by
  have := (abs_le.1 h).1
  have hiq0 : 0 < 1 / q := by positivity
  have e3 : 1.005 * u / q = 1.005 * (u * (1 / q)) := by ring
  have e4 : u * (1 / q) ≤ 1 / 1000 * (1 / q) := mul_le_mul_of_nonneg_right hu hiq0.le
  rw [e3] at this
  generalize 1 / q = z at *
  norm_num at *; linarith

theorem finish {q u η ε n M S S' E e' G res : ℝ} (hu0 : 0 < u) (hu : u ≤ 1 / 1000) (hε0 : 0 ≤ ε) (hε : ε ≤ 1 / 100) (hη0 : 0 ≤ η)
    (hηu : η ≤ 0.001 * u) (hq : 1 ≤ q) (hqu : q * u ≤ 1 / 100) (hnu : n * u ≤ 1 / 100) (hn1 : 1 ≤ n) (hM0 : 0 < M) (hS1 : 1 ≤ S) (hSn : S ≤ n)
    (hEdef : E = 1.02 * (n * u) + 1.04 * (q * u) + 1.04 * ε + 0.02 * u) (hE : |S' - S| ≤ E * S) (hE1 : E ≤ 0.033)
    (hexp : |e' - 1 / q| ≤ 1.005 * u / q) (hG : |G - S' ^ e'| ≤ ε * S' ^ e' + η) (hfin : |res - M * G| ≤ u * (M * G) + η / 2) :
    |res - M * S ^ (1 / q)| ≤ (((1.2 * n + 1.1 * Real.log n) / q + 2.3) * u + 2.3 * ε) * (M * S ^ (1 / q)) + η / 2 := by
  have hq0 : 0 < q := by linarith
  have hiq0 : 0 < 1 / q := by positivity
  have hlog0 : 0 ≤ Real.log n := Real.log_nonneg hn1
  have hlS0 : 0 ≤ Real.log S := Real.log_nonneg hS1
  have hLn : Real.log S ≤ Real.log n := Real.log_le_log (by linarith) hSn
  have hL : u * Real.log S ≤ 0.01 := by
    have e1 : Real.log S ≤ n := (Real.log_le_sub_one_of_pos (by linarith)).trans (by linarith)
    have e2 := mul_le_mul_of_nonneg_left e1 hu0.le
    clear * - e2 hnu
    norm_num at *; linarith
  have hroot := root_term hS1 hE hE1 hq hu0.le hu hexp hL
  have hR1 : 1 ≤ S ^ (1 / q) := Real.one_le_rpow hS1 hiq0.le
  have hE0 : 0 ≤ E := by rw [hEdef]; have : 0 ≤ n * u := mul_nonneg (by linarith) hu0.le
                         positivity
  obtain ⟨B, hB⟩ : ∃ B : ℝ, B = (1.056 * (u * Real.log S) + 1.1 * E) / q := ⟨_, rfl⟩
  rw [← hB] at hroot
  have hB0 : 0 ≤ B := by rw [hB]; positivity
  have hBs : B ≤ 0.048 := by
    rw [hB, div_le_iff₀ hq0]
    have : (0.048 : ℝ) ≤ 0.048 * q := by linarith
    refine le_trans ?_ this
    clear * - hE1 hL
    norm_num at *; linarith
  have hBfin : B ≤ (1.2 * n + 1.1 * Real.log n) / q * u + 1.15 * u + 1.15 * ε := by
    have e1 : u * Real.log S ≤ u * Real.log n := mul_le_mul_of_nonneg_left hLn hu0.le
    have e2 : u ≤ n * u := by have := mul_le_mul_of_nonneg_right hn1 hu0.le; linarith
    have e4 : ((1.2 * n + 1.1 * Real.log n) / q * u + 1.15 * u + 1.15 * ε) * q =
        1.2 * (n * u) + 1.1 * (u * Real.log n) + 1.15 * (q * u) + 1.15 * (ε * q) := by field_simp
    have e5 : ε ≤ ε * q := by have := mul_le_mul_of_nonneg_left hq hε0; linarith
    have e6 : 0 ≤ u * Real.log n := by positivity
    have e7 : 0 ≤ q * u := by positivity
    rw [hB, div_le_iff₀ hq0, e4, hEdef]
    clear * - e1 e2 e5 e6 e7 hε0 hu0
    generalize n * u = z1 at *
    generalize u * Real.log n = z2 at *
    generalize u * Real.log S = z3 at *
    generalize q * u = z4 at *
    generalize ε * q = z5 at *
    norm_num at *; linarith
  generalize S' ^ e' = R' at *
  generalize S ^ (1 / q) = R at *
  generalize (1.2 * n + 1.1 * Real.log n) / q = C at *
  clear * - hBs hB0 hroot hε0 hε hu0 hu hηu hη0 hG hfin hR1 hBfin hM0
  have hBR : B * R ≤ 0.048 * R := mul_le_mul_of_nonneg_right hBs (by linarith)
  have hR' : R' ≤ 1.048 * R := by have := (abs_le.1 hroot).2; norm_num at *; linarith
  have hεR : ε * R' ≤ ε * (1.048 * R) := mul_le_mul_of_nonneg_left hR' hε0
  have hεR2 : ε * R ≤ 1 / 100 * R := mul_le_mul_of_nonneg_right hε (by linarith)
  have hηR : η ≤ 0.001 * (u * R) := by
    have : 0 ≤ u * (R - 1) := mul_nonneg hu0.le (by linarith)
    norm_num at *; linarith
  have hGR : |G - R| ≤ (B + 1.048 * ε + 0.001 * u) * R := by
    calc |G - R| = |(G - R') + (R' - R)| := by congr 1; ring
      _ ≤ _ := abs_add_le _ _
      _ ≤ _ := by norm_num at *; linarith
  have huR : u * R ≤ 1 / 1000 * R := mul_le_mul_of_nonneg_right hu (by linarith)
  have hG2 : G ≤ 1.06 * R := by have := (abs_le.1 hGR).2; norm_num at *; linarith
  have huG : u * (M * G) ≤ 1.06 * (u * (M * R)) := by
    have := mul_le_mul_of_nonneg_left (mul_le_mul_of_nonneg_left hG2 hM0.le) hu0.le
    linarith
  have hMG : |M * G - M * R| ≤ (B + 1.048 * ε + 0.001 * u) * (M * R) := by
    rw [← mul_sub, abs_mul, abs_of_pos hM0]
    have := mul_le_mul_of_nonneg_left hGR hM0.le
    linarith
  have hMR : 0 ≤ M * R := mul_nonneg hM0.le (by linarith)
  have hfinal : B + 1.048 * ε + 0.001 * u + 1.06 * u ≤ (C + 2.3) * u + 2.3 * ε := by norm_num at *; linarith
  have := mul_le_mul_of_nonneg_right hfinal hMR
  calc |res - M * R| = |(res - M * G) + (M * G - M * R)| := by congr 1; ring
    _ ≤ _ := abs_add_le _ _
    _ ≤ _ := by linarith

end Ufunclab.Float
