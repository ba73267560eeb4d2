import Verif.Proof.TriArea
import Verif.Spec.TriArea
import Verif.Proof.Float2
import Mathlib.Analysis.Real.Sqrt
import Mathlib.Tactic.Positivity
import Mathlib.Tactic.GCongr
namespace Ufunclab.TriArea
open Finset Float Spec

/-! ### Products of rounding factors -/

/-- `x` is `y` times `k` factors between `1 - u` and `1 + u`. -/
structure Within (u : ℝ) (k : Nat) (x y : ℝ) : Prop where
  nn : 0 ≤ y
  lo : (1 - u) ^ k * y ≤ x
  hi : x ≤ (1 + u) ^ k * y

section
variable {u : ℝ} (hu0 : 0 ≤ u) (hu1 : u ≤ 1)
include hu0 hu1

theorem Within.nonneg {k : Nat} {x y : ℝ} (h : Within u k x y) : 0 ≤ x :=
  le_trans (mul_nonneg (pow_nonneg (by linarith) _) h.nn) h.lo

theorem Within.of_err {x y : ℝ} (hy : 0 ≤ y) (h : |x - y| ≤ u * |y|) : Within u 1 x y := by
  rw [abs_of_nonneg hy, abs_le] at h
  exact ⟨hy, by rw [pow_one]; linarith, by rw [pow_one]; linarith⟩

theorem Within.round {k : Nat} {x y r : ℝ} (h : Within u k x y) (hr : |r - x| ≤ u * |x|) : Within u (k + 1) r y := by
  have hx := h.nonneg hu0 hu1
  rw [abs_of_nonneg hx, abs_le] at hr
  refine ⟨h.nn, ?_, ?_⟩
  · rw [pow_succ]
    have := mul_le_mul_of_nonneg_left h.lo (show (0 : ℝ) ≤ 1 - u by linarith)
    linarith
  · rw [pow_succ]
    have := mul_le_mul_of_nonneg_left h.hi (show (0 : ℝ) ≤ 1 + u by linarith)
    linarith

theorem Within.mul {k j : Nat} {x y x' y' : ℝ} (h : Within u k x y) (h' : Within u j x' y') : Within u (k + j) (x * x') (y * y') := by
  have hx := h.nonneg hu0 hu1
  have hx' := h'.nonneg hu0 hu1
  refine ⟨mul_nonneg h.nn h'.nn, ?_, ?_⟩
  · calc (1 - u) ^ (k + j) * (y * y') = ((1 - u) ^ k * y) * ((1 - u) ^ j * y') := by rw [pow_add]; ring
      _ ≤ x * x' := mul_le_mul h.lo h'.lo (mul_nonneg (pow_nonneg (by linarith) _) h'.nn) hx
  · calc x * x' ≤ ((1 + u) ^ k * y) * ((1 + u) ^ j * y') := mul_le_mul h.hi h'.hi hx' (mul_nonneg (pow_nonneg (by linarith) _) h.nn)
      _ = _ := by rw [pow_add]; ring

theorem Within.add {k : Nat} {x y x' y' : ℝ} (h : Within u k x y) (h' : Within u k x' y') : Within u k (x + x') (y + y') :=
  ⟨add_nonneg h.nn h'.nn, by have := h.lo; have := h'.lo; linarith, by have := h.hi; have := h'.hi; linarith⟩

theorem Within.mono {k j : Nat} (hkj : k ≤ j) {x y : ℝ} (h : Within u k x y) : Within u j x y := by
  refine ⟨h.nn, le_trans ?_ h.lo, le_trans h.hi ?_⟩
  · exact mul_le_mul_of_nonneg_right (pow_le_pow_of_le_one (by linarith) (by linarith) hkj) h.nn
  · exact mul_le_mul_of_nonneg_right (pow_le_pow_right₀ (by linarith) hkj) h.nn

theorem Within.sqrt {k : Nat} {x y : ℝ} (h : Within u (2 * k) x y) : Within u k (Real.sqrt x) (Real.sqrt y) := by
  refine ⟨Real.sqrt_nonneg _, ?_, ?_⟩
  · apply Real.le_sqrt_of_sq_le
    rw [mul_pow, Real.sq_sqrt h.nn, ← pow_mul, mul_comm k 2]; exact h.lo
  · apply Real.sqrt_le_iff.2 ⟨mul_nonneg (pow_nonneg (by linarith) _) (Real.sqrt_nonneg _), ?_⟩
    rw [mul_pow, Real.sq_sqrt h.nn, ← pow_mul, mul_comm k 2]; exact h.hi

end

theorem Within.refl {u : ℝ} {x : ℝ} (hx : 0 ≤ x) : Within u 0 x x := ⟨hx, by simp, by simp⟩

/-! ### Rounding above the underflow threshold -/

section
variable {p : ℕ} {emin : ℤ} {rd : ℝ → ℝ}

theorem rel_normal (h : Nearest p emin rd) (hp : 1 ≤ p) {z : ℝ} (hz : 2 ^ p * 2 ^ emin ≤ |z|) : |rd z - z| ≤ (2 ^ p)⁻¹ * |z| := by
  have hz0 : 0 < |z| := lt_of_lt_of_le (by positivity) hz
  obtain ⟨t, ht1, ht2⟩ := exists_mem_Ico_zpow hz0 (show (1 : ℝ) < 2 by norm_num)
  obtain ⟨k, rfl⟩ : ∃ k, t = (p : ℤ) + k := ⟨t - p, by ring⟩
  have hk : emin ≤ k := by
    by_contra hc
    have : (p : ℤ) + k + 1 ≤ p + emin := by omega
    have h2 : (2 : ℝ) ^ ((p : ℤ) + k + 1) ≤ 2 ^ ((p : ℤ) + emin) := zpow_le_zpow_right₀ (by norm_num) this
    rw [← pow_zpow p emin] at h2
    linarith
  rw [← pow_zpow] at ht1
  rw [add_assoc, ← pow_zpow] at ht2
  have h1 := h.half hp (k := k + 1) (by omega) ht2.le
  rw [zpow_add_one₀ (by norm_num)] at h1
  have h2 : (2 : ℝ) ^ k ≤ (2 ^ p)⁻¹ * |z| := by
    rw [inv_mul_eq_div, le_div_iff₀ (by positivity)]; linarith
  linarith

theorem isFloat_quarter {z : ℝ} (hz : IsFloat p emin z) (hb : 2 ^ p * 2 ^ emin ≤ |z / 4|) : IsFloat p emin (z / 4) := by
  obtain ⟨m, e, hm, he, rfl⟩ := hz
  have hm' : |(m : ℝ)| < 2 ^ p := by exact_mod_cast hm
  have e4 : (m : ℝ) * 2 ^ e / 4 = (m : ℝ) * 2 ^ (e - 2) := by
    rw [zpow_sub₀ (by norm_num)]; norm_num; ring
  refine ⟨m, e - 2, hm, ?_, e4⟩
  rw [e4, abs_mul, abs_two_zpow] at hb
  by_contra hc
  have h1 : (2 : ℝ) ^ (e - 2) ≤ 2 ^ emin := zpow_le_zpow_right₀ (by norm_num) (by omega)
  have h2 : |(m : ℝ)| * 2 ^ (e - 2) < 2 ^ p * 2 ^ emin :=
    mul_lt_mul hm' h1 (two_zpow_pos _) (by positivity)
  linarith

/-- The four factors of Kahan's formula. -/
theorem factor_bounds (h : Nearest p emin rd) (hp : 2 ≤ p) {a b c : ℝ} (ha : IsFloat p emin a) (hb : IsFloat p emin b)
    (hc : IsFloat p emin c) (hab : b ≤ a) (hbc : c ≤ b) (hc0 : 0 ≤ c) (htri : a ≤ b + c) :
    rd (a - b) = a - b
    ∧ Within (2 ^ p)⁻¹ 2 (rd (a + rd (b + c))) (a + b + c)
    ∧ Within (2 ^ p)⁻¹ 1 (rd (c - rd (a - b))) (b + c - a)
    ∧ Within (2 ^ p)⁻¹ 1 (rd (c + rd (a - b))) (c + a - b)
    ∧ Within (2 ^ p)⁻¹ 2 (rd (a + rd (b - c))) (a + b - c) := by
  have hu0 : (0 : ℝ) ≤ (2 ^ p)⁻¹ := by positivity
  have hu1 : ((2 : ℝ) ^ p)⁻¹ ≤ 1 := inv_le_one_of_one_le₀ (one_le_pow₀ (by norm_num))
  have hex : IsFloat p emin (a - b) := by
    have := add_exact_of_small (by omega) ha hb.neg (by
      rw [abs_of_nonneg (by linarith : 0 ≤ a + -b), abs_of_nonneg (by linarith : 0 ≤ a)]; linarith) (by
      rw [abs_of_nonneg (by linarith : 0 ≤ a + -b), abs_neg, abs_of_nonneg (by linarith : 0 ≤ b)]; linarith)
    rwa [← sub_eq_add_neg] at this
  have e := h.exact hex
  refine ⟨e, ?_, ?_, ?_, ?_⟩
  · have h1 : Within (2 ^ p)⁻¹ 1 (rd (b + c)) (b + c) :=
      Within.of_err hu0 hu1 (by linarith) (h.rel_error (by omega) (hb.grid.add hc.grid))
    have h2 := (((Within.refl (u := (2 ^ p)⁻¹) (show 0 ≤ a by linarith)).mono hu0 hu1 (Nat.zero_le 1)).add hu0 hu1 h1).round hu0 hu1
      (h.rel_error (by omega) (ha.grid.add (h (b + c)).1.grid))
    rwa [add_assoc]
  · rw [e, show b + c - a = c - (a - b) by ring]
    exact Within.of_err hu0 hu1 (by linarith) (h.rel_error (by omega) (hc.grid.sub hex.grid))
  · rw [e, show c + a - b = c + (a - b) by ring]
    exact Within.of_err hu0 hu1 (by linarith) (h.rel_error (by omega) (hc.grid.add hex.grid))
  · have h1 : Within (2 ^ p)⁻¹ 1 (rd (b - c)) (b - c) :=
      Within.of_err hu0 hu1 (by linarith) (h.rel_error (by omega) (hb.grid.sub hc.grid))
    have h2 := (((Within.refl (u := (2 ^ p)⁻¹) (show 0 ≤ a by linarith)).mono hu0 hu1 (Nat.zero_le 1)).add hu0 hu1 h1).round hu0 hu1
      (h.rel_error (by omega) (ha.grid.add (h (b - c)).1.grid))
    rwa [show a + b - c = a + (b - c) by ring]

/-- The smallest factor is not tiny: it lies on the grid of the smallest side. -/
theorem small_factor (h : Nearest p emin rd) (hp : 2 ≤ p) {a b c : ℝ} (ha : IsFloat p emin a) (hb : IsFloat p emin b)
    (hc : IsFloat p emin c) (hab : b ≤ a) (hbc : c ≤ b) (hc0 : 0 < c) (hex : rd (a - b) = a - b) (htri : a < b + c) :
    (2 ^ p)⁻¹ * c ≤ rd (c - rd (a - b)) := by
  obtain ⟨k, hk, hg, hlt, hor⟩ := hc.normal (by omega) hc0.ne'
  rw [abs_of_pos hc0] at hlt hor
  have hgrid : ∀ x, IsFloat p emin x → c ≤ x → OnGrid k x := by
    intro x hx hcx
    rcases hor with rfl | hor
    · exact hx.grid
    · have e : (2 : ℝ) ^ (p - 1) * 2 ^ k = 2 ^ p * 2 ^ (k - 1) := by
        rw [pow_zpow, ← zpow_natCast, ← zpow_add₀ (by norm_num)]
        congr 1
        have : ((p - 1 : ℕ) : ℤ) = p - 1 := by omega
        omega
      have h1 : (2 : ℝ) ^ p * 2 ^ (k - 1) ≤ |x| := by
        rw [← e, abs_of_pos (by linarith)]; linarith
      have := hx.big_grid h1
      rwa [sub_add_cancel] at this
  rw [hex]
  have hgg : OnGrid k (c - (a - b)) := hg.sub ((hgrid a ha (by linarith)).sub (hgrid b hb hbc))
  obtain ⟨m, hm⟩ := hgg
  have hpos : 0 < c - (a - b) := by linarith
  have hm1 : (1 : ℤ) ≤ m := by
    by_contra hcon
    have : (m : ℝ) ≤ 0 := by exact_mod_cast (by omega : m ≤ 0)
    have := mul_nonpos_of_nonpos_of_nonneg this (two_zpow_pos (K := ℝ) k).le
    linarith
  have hm2 : (1 : ℝ) ≤ m := by exact_mod_cast hm1
  have hge : (2 : ℝ) ^ k ≤ c - (a - b) := by
    rw [hm]; nlinarith [two_zpow_pos (K := ℝ) k]
  have := h.mono_float (isFloat_zpow (by omega) hk) hge
  refine le_trans ?_ this
  rw [inv_mul_le_iff₀ (by positivity)]
  exact hlt.le

theorem pow_six_bounds {u : ℝ} (hu0 : 0 ≤ u) (hu1 : u ≤ 1 / 16777216) : (1 + u) ^ 6 ≤ 1 + 6.001 * u ∧ 1 - 6.001 * u ≤ (1 - u) ^ 6 := by
  constructor
  · have h2 : u ^ 2 ≤ u * (1 / 16777216) := by nlinarith
    have h3 : u ^ 3 ≤ u ^ 2 := pow_le_pow_of_le_one hu0 (by linarith) (by norm_num)
    have h4 : u ^ 4 ≤ u ^ 2 := pow_le_pow_of_le_one hu0 (by linarith) (by norm_num)
    have h5 : u ^ 5 ≤ u ^ 2 := pow_le_pow_of_le_one hu0 (by linarith) (by norm_num)
    have h6 : u ^ 6 ≤ u ^ 2 := pow_le_pow_of_le_one hu0 (by linarith) (by norm_num)
    have : (1 + u) ^ 6 = 1 + 6 * u + 15 * u ^ 2 + 20 * u ^ 3 + 15 * u ^ 4 + 6 * u ^ 5 + u ^ 6 := by ring
    rw [this]; nlinarith
  · have := one_add_mul_le_pow (show (-2 : ℝ) ≤ -u by linarith) 6
    have e : (1 - u) ^ 6 = (1 + -u) ^ 6 := by ring
    rw [e]; push_cast at this; linarith

theorem kahan_eq_heron (a b c : ℝ) : heron a b c = kahan a b c := by
  rw [heron, kahan]
  rw [show (a + b + c) / 2 * ((a + b + c) / 2 - a) * ((a + b + c) / 2 - b) * ((a + b + c) / 2 - c)
    = (a + (b + c)) * (c - (a - b)) * (c + (a - b)) * (a + (b - c)) / 4 ^ 2 by ring, Real.sqrt_div' _ (by norm_num), Real.sqrt_sq (by norm_num)]

set_option maxHeartbeats 1000000 in
/-- Kahan's theorem. -/
theorem kahan_round (h : Nearest p emin rd) (hp : 24 ≤ p) (hemin : emin ≤ -2 * p - 4) {a b c : ℝ} (ha : IsFloat p emin a)
    (hb : IsFloat p emin b) (hc : IsFloat p emin c) (hab : b ≤ a) (hbc : c ≤ b) (hc0 : 0 ≤ c) (htri : a ≤ b + c)
    (hbig : 2 ^ p * (2 ^ p * 2 ^ emin) ≤ c ^ 4) :
    ∃ r, kahanR rd a b c = .fin r ∧ |r - heron a b c| ≤ 6.001 * (2 ^ p)⁻¹ * heron a b c := by
  have hu0 : (0 : ℝ) ≤ (2 ^ p)⁻¹ := by positivity
  have hu2 : ((2 : ℝ) ^ p)⁻¹ ≤ 1 / 16777216 := by
    rw [inv_eq_one_div]
    apply one_div_le_one_div_of_le (by norm_num)
    calc (16777216 : ℝ) = 2 ^ 24 := by norm_num
      _ ≤ 2 ^ p := pow_le_pow_right₀ (by norm_num) hp
  have hu1 : ((2 : ℝ) ^ p)⁻¹ ≤ 1 := by linarith
  have hc0' : 0 < c := by
    rcases hc0.lt_or_eq with h0 | h0
    · exact h0
    · rw [← h0] at hbig
      have : (0 : ℝ) < 2 ^ p * (2 ^ p * 2 ^ emin) := by positivity
      norm_num at hbig; linarith
  obtain ⟨he, w1, w2, w3, w4⟩ := factor_bounds h (by omega) ha hb hc hab hbc hc0 htri
  rw [kahan_eq_heron]
  simp only [kahanR]
  rcases htri.lt_or_eq with hlt | heq
  swap
  · -- degenerate
    have hf2 : rd (c - rd (a - b)) = 0 := by
      rw [he, show c - (a - b) = 0 by linarith, h.round_zero]
    have hk : kahan a b c = 0 := by
      simp only [kahan]
      rw [show c - (a - b) = 0 by linarith]; simp
    rw [hf2]
    simp only [mul_zero, h.round_zero, zero_mul, lt_irrefl, if_false, Real.sqrt_zero, zero_div]
    exact ⟨0, rfl, by rw [hk]; simp⟩
  have hsm := small_factor h (by omega) ha hb hc hab hbc hc0' he hlt
  -- lower bounds of the rounded factors
  have l1 : 2 * c ≤ rd (a + rd (b + c)) := by
    have h2c : IsFloat p emin (2 * c) := by
      obtain ⟨m, e, hm, hee, rfl⟩ := hc
      exact ⟨m, e + 1, hm, by omega, by rw [zpow_add_one₀ (by norm_num)]; ring⟩
    apply h.mono_float h2c
    have := h.mono_float hb (show b ≤ b + c by linarith)
    linarith
  have l3 : c ≤ rd (c + rd (a - b)) := h.mono_float hc (by rw [he]; linarith)
  have l4 : c ≤ rd (a + rd (b - c)) := by
    have h0 := h.mono_float (isFloat_zero (K := ℝ)) (show 0 ≤ b - c by linarith)
    exact le_trans (by linarith) (h.mono_float ha (show a ≤ a + rd (b - c) by linarith))
  obtain ⟨N, hN⟩ : ∃ N : ℝ, N = 2 ^ p * 2 ^ emin := ⟨_, rfl⟩
  have hN0 : 0 < N := by rw [hN]; positivity
  have hNu : N ≤ (2 ^ p)⁻¹ * (1 / 16) := by
    rw [hN, le_inv_mul_iff₀ (by positivity), pow_zpow, pow_zpow]
    calc (2 : ℝ) ^ ((p : ℤ) + (p + emin)) ≤ 2 ^ (-4 : ℤ) := zpow_le_zpow_right₀ (by norm_num) (by omega)
      _ = 1 / 16 := by norm_num
  rw [← hN] at hbig
  obtain ⟨u, hu⟩ : ∃ u : ℝ, u = (2 ^ p)⁻¹ := ⟨_, rfl⟩
  have hpu : (2 : ℝ) ^ p * u = 1 := by rw [hu]; exact mul_inv_cancel₀ (by positivity)
  rw [← hu] at hu0 hu1 hu2 hsm w1 w2 w3 w4 hNu ⊢
  have hrel : ∀ {z : ℝ}, N ≤ z → |rd z - z| ≤ u * |z| := by
    intro z hz
    rw [hu]; apply rel_normal h (by omega)
    rw [← hN]; exact le_trans hz (le_abs_self z)
  have hupos : 0 < u := by rw [hu]; positivity
  have hb4 : N ≤ u * c ^ 4 := by
    have := mul_le_mul_of_nonneg_left hbig hu0
    calc N = u * (2 ^ p * N) := by rw [← mul_assoc, mul_comm u, hpu, one_mul]
      _ ≤ _ := this
  have hb2 : N ≤ u * c ^ 2 ∧ N ≤ u * c ^ 3 := by
    rcases le_total c 1 with h1 | h1
    · constructor
      · exact le_trans hb4 (mul_le_mul_of_nonneg_left (pow_le_pow_of_le_one hc0 h1 (by norm_num)) hu0)
      · exact le_trans hb4 (mul_le_mul_of_nonneg_left (pow_le_pow_of_le_one hc0 h1 (by norm_num)) hu0)
    · have h2 : (1 : ℝ) ≤ c ^ 2 := one_le_pow₀ h1
      have h3 : (1 : ℝ) ≤ c ^ 3 := one_le_pow₀ h1
      constructor <;> nlinarith
  generalize hF1 : rd (a + rd (b + c)) = F1 at *
  generalize hF2 : rd (c - rd (a - b)) = F2 at *
  generalize hF3 : rd (c + rd (a - b)) = F3 at *
  generalize hF4 : rd (a + rd (b - c)) = F4 at *
  have q1 : 2 * (u * c ^ 2) ≤ F1 * F2 := by
    calc 2 * (u * c ^ 2) = (2 * c) * (u * c) := by ring
      _ ≤ _ := mul_le_mul l1 hsm (by positivity) (by linarith)
  have hc2 : 0 ≤ u * c ^ 2 := by positivity
  have W1 := (w1.mul hu0 hu1 w2).round hu0 hu1 (hrel (by linarith [hb2.1]))
  have r1 := hrel (z := F1 * F2) (by linarith [hb2.1])
  rw [abs_of_nonneg (show 0 ≤ F1 * F2 by linarith), abs_le] at r1
  have q1' : (2 - 1 / 100) * (u * c ^ 2) ≤ rd (F1 * F2) := by
    have := mul_le_mul_of_nonneg_right hu2 (show 0 ≤ F1 * F2 by linarith)
    linarith
  generalize hP1 : rd (F1 * F2) = P1 at *
  have q2 : (2 - 1 / 100) * (u * c ^ 3) ≤ P1 * F3 := by
    calc (2 - 1 / 100) * (u * c ^ 3) = ((2 - 1 / 100) * (u * c ^ 2)) * c := by ring
      _ ≤ _ := mul_le_mul q1' l3 hc0 (by linarith)
  have hc3 : 0 ≤ u * c ^ 3 := by positivity
  have W2 := (W1.mul hu0 hu1 w3).round hu0 hu1 (hrel (by linarith [hb2.2]))
  have r2 := hrel (z := P1 * F3) (by linarith [hb2.2])
  rw [abs_of_nonneg (show 0 ≤ P1 * F3 by linarith), abs_le] at r2
  have q2' : (2 - 2 / 100) * (u * c ^ 3) ≤ rd (P1 * F3) := by
    have := mul_le_mul_of_nonneg_right hu2 (show 0 ≤ P1 * F3 by linarith)
    linarith
  generalize hP2 : rd (P1 * F3) = P2 at *
  have q3 : (2 - 2 / 100) * (u * c ^ 4) ≤ P2 * F4 := by
    calc (2 - 2 / 100) * (u * c ^ 4) = ((2 - 2 / 100) * (u * c ^ 3)) * c := by ring
      _ ≤ _ := mul_le_mul q2' l4 hc0 (by linarith)
  have hc4 : 0 ≤ u * c ^ 4 := by positivity
  have W3 := (W2.mul hu0 hu1 w4).round hu0 hu1 (hrel (by linarith))
  have r3 := hrel (z := P2 * F4) (by linarith)
  rw [abs_of_nonneg (show 0 ≤ P2 * F4 by linarith), abs_le] at r3
  have q3' : u * c ^ 4 ≤ rd (P2 * F4) := by
    have := mul_le_mul_of_nonneg_right hu2 (show 0 ≤ P2 * F4 by linarith)
    linarith
  generalize hP3 : rd (P2 * F4) = P3 at *
  rw [if_neg (by linarith)]
  refine ⟨_, rfl, ?_⟩
  have hN16 : N ≤ 1 / 16 := by linarith
  have hs : 4 * N ≤ Real.sqrt P3 := by
    apply Real.le_sqrt_of_sq_le
    have : N * N ≤ N * (1 / 16) := mul_le_mul_of_nonneg_left hN16 hN0.le
    calc (4 * N) ^ 2 = 16 * (N * N) := by ring
      _ ≤ P3 := by linarith
  have W4 := ((W3.mono hu0 hu1 (show _ ≤ 2 * 5 by norm_num)).sqrt hu0 hu1).round hu0 hu1 (hrel (by linarith))
  have h4N : IsFloat p emin (4 * N) := by
    rw [hN, show (4 : ℝ) * (2 ^ p * 2 ^ emin) = 2 ^ ((p : ℤ) + emin + 2) by
      rw [pow_zpow, zpow_add₀ (by norm_num : (2 : ℝ) ≠ 0) _ 2]; norm_num; ring]
    exact isFloat_zpow (by omega) (by omega)
  have hs' := h.mono_float h4N hs
  have hq : rd (rd (Real.sqrt P3) / 4) = rd (Real.sqrt P3) / 4 := by
    apply h.exact
    apply isFloat_quarter (h _).1
    rw [← hN]
    exact le_trans (by linarith) (le_abs_self _)
  rw [hq]
  obtain ⟨b1, b2⟩ := pow_six_bounds hu0 hu2
  have hk : kahan a b c = Real.sqrt ((a + b + c) * (b + c - a) * (c + a - b) * (a + b - c)) / 4 := by
    simp only [kahan]; congr 2; ring
  rw [hk]
  have hA := Real.sqrt_nonneg ((a + b + c) * (b + c - a) * (c + a - b) * (a + b - c))
  have hlo := W4.lo
  have hhi := W4.hi
  have m1 := mul_le_mul_of_nonneg_right b1 hA
  have m2 := mul_le_mul_of_nonneg_right b2 hA
  norm_num at hlo hhi
  rw [abs_le]
  constructor <;> linarith

end

end Ufunclab.TriArea
