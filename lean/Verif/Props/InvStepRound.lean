import Verif.Model.InvStepRound
import Verif.Props.StepRound
import Verif.Props.ExpintRound
/-!
# C103: `invsmoothstep3` in floating point

`p` and `emin` describe the format of `T`, `(2^p)⁻¹` is its unit roundoff and `2^emin` its smallest positive number.
The library functions are only assumed to be accurate: `GoodAsin` and `GoodSin` bound their errors.
-/
namespace Ufunclab.Step
open Real Ufunclab.Float Ufunclab.Expint
variable {p P : ℕ} {emin Emin : ℤ} {rT rW sn as : ℝ → ℝ} {ε ε' : ℝ}

/-- `as` computes the arcsine of the numbers of `[-1, 1]` with a relative error of at most `ε`, up to underflow. -/
def GoodAsin (emin : ℤ) (ε : ℝ) (as : ℝ → ℝ) : Prop := ∀ z, |z| ≤ 1 → |as z - arcsin z| ≤ ε * |arcsin z| + 2 ^ emin

/-- `sn` computes the sine of the numbers of `[-1, 1]` with a relative error of at most `ε`, up to underflow. -/
def GoodSin (emin : ℤ) (ε : ℝ) (sn : ℝ → ℝ) : Prop := ∀ z, |z| ≤ 1 → |sn z - sin z| ≤ ε * |sin z| + 2 ^ emin

/-- C103: without rounding this is the function of C51. -/
theorem C103_exact_arithmetic (y a b fa fb : ℝ) :
    invsmoothstep3R id id Real.sin Real.arcsin y a b fa fb = invsmoothstep3 y a b fa fb := by
  simp only [invsmoothstep3R, invsmoothstep3, id]

/-- C103: at the two ends the results are exact, outside the range of the step, or when the range is a point, they are NaN. -/
theorem C103_ends (y a b fa fb : ℝ) :
    (fa ≠ fb → invsmoothstep3R rT rW sn as fa a b fa fb = .fin a ∧ invsmoothstep3R rT rW sn as fb a b fa fb = .fin b) ∧
    (fa = fb ∨ y < min fa fb ∨ max fa fb < y → invsmoothstep3R rT rW sn as y a b fa fb = .nan) := by
  constructor
  · intro h
    refine ⟨by simp [invsmoothstep3R, h], ?_⟩
    simp [invsmoothstep3R, h, Ne.symm h]
  · intro h
    unfold invsmoothstep3R
    by_cases hf : fa = fb
    · rw [if_pos hf]
    rw [if_neg hf]
    replace h := h.resolve_left hf
    have n1 : y ≠ fa := by
      rintro rfl
      rcases h with h | h
      · exact absurd h (not_lt.2 (min_le_left _ _))
      · exact absurd h (not_lt.2 (le_max_left _ _))
    have n2 : y ≠ fb := by
      rintro rfl
      rcases h with h | h
      · exact absurd h (not_lt.2 (min_le_right _ _))
      · exact absurd h (not_lt.2 (le_max_right _ _))
    rw [if_neg n1, if_neg n2]
    refine if_pos ?_
    rcases lt_or_gt_of_ne hf with o | o
    · rw [max_eq_right o.le, min_eq_left o.le] at h
      rw [if_pos o, if_pos o]; exact h.symm
    · rw [max_eq_left o.le, min_eq_right o.le] at h
      rw [if_neg (not_lt.2 o.le), if_neg (not_lt.2 o.le)]; exact h.symm

/-! ### Helpers -/

theorem u_le (hp : 16 ≤ p) : (0 : ℝ) < (2 ^ p)⁻¹ ∧ ((2 : ℝ) ^ p)⁻¹ ≤ 1 / 65536 := by
  refine ⟨by positivity, ?_⟩
  rw [one_div]
  refine inv_anti₀ (by norm_num) ?_
  calc (65536 : ℝ) = 2 ^ 16 := by norm_num
    _ ≤ 2 ^ p := pow_le_pow_right₀ (by norm_num) hp

theorem half_one (F : Fmt p emin rT) {z : ℝ} (hz : |z| ≤ 1) : |rT z - z| ≤ (2 ^ p)⁻¹ / 2 := by
  have h := F.hT.half (by have := F.hp; omega) (k := -(p : ℤ)) (by have := F.hep; omega) (z := z) (by
    rw [zpow_neg, zpow_natCast, mul_inv_cancel₀ (by positivity)]; exact hz)
  rwa [zpow_neg, zpow_natCast] at h

theorem P3_lip' {v w : ℝ} (v0 : 0 ≤ v) (v1 : v ≤ 1) (w0 : 0 ≤ w) (w1 : w ≤ 1) : |P3 v - P3 w| ≤ 3 / 2 * |v - w| := by
  have e : P3 v - P3 w = (3 * (v + w) - 2 * (v * v + v * w + w * w)) * (v - w) := by simp only [P3]; ring
  rw [e, abs_mul]
  refine mul_le_mul_of_nonneg_right (abs_le.2 ⟨?_, ?_⟩) (abs_nonneg _)
  · nlinarith [mul_nonneg v0 (sub_nonneg.2 v1), mul_nonneg w0 (sub_nonneg.2 w1), sq_nonneg (v - w)]
  · nlinarith [sq_nonneg (v - w), sq_nonneg (v + w - 1)]

/-- The cubic separates points at least quadratically. -/
theorem P3_sep {v w : ℝ} (v0 : 0 ≤ v) (v1 : v ≤ 1) (w0 : 0 ≤ w) (w1 : w ≤ 1) : (v - w) ^ 2 ≤ |P3 v - P3 w| := by
  wlog h : w ≤ v generalizing v w with H
  · have := H w0 w1 v0 v1 (not_le.1 h).le
    rw [abs_sub_comm, ← neg_sq, neg_sub]; exact this
  have e : P3 v - P3 w = (3 * (v + w) - 2 * (v * v + v * w + w * w)) * (v - w) := by simp only [P3]; ring
  have k : v - w ≤ 3 * (v + w) - 2 * (v * v + v * w + w * w) := by
    nlinarith [mul_nonneg v0 (sub_nonneg.2 v1), mul_nonneg w0 (sub_nonneg.2 w1), mul_nonneg w0 (sub_nonneg.2 v1), mul_nonneg (sub_nonneg.2 h) (sub_nonneg.2 v1),
      mul_nonneg w0 (sub_nonneg.2 h)]
  have := mul_le_mul_of_nonneg_right k (sub_nonneg.2 h)
  rw [e]
  exact (by nlinarith : (v - w) ^ 2 ≤ _).trans (le_abs_self _)

noncomputable def clamp (u : ℝ) : ℝ := max 0 (min 1 u)

theorem clamp_mem (u : ℝ) : 0 ≤ clamp u ∧ clamp u ≤ 1 := ⟨le_max_left _ _, max_le zero_le_one (min_le_left _ _)⟩

theorem sat_clamp (u : ℝ) : sat P3 0 1 u = P3 (clamp u) := by
  unfold sat clamp
  by_cases h : u ≤ 0
  · rw [if_pos h, min_eq_right (by linarith), max_eq_left h]; simp [P3]
  rw [if_neg h]
  by_cases h1 : u ≤ 1
  · rw [if_pos h1, min_eq_right h1, max_eq_right (not_le.1 h).le]
  · rw [if_neg h1, min_eq_left (not_le.1 h1).le, max_eq_right zero_le_one]; norm_num [P3]

theorem clamp_near {u s : ℝ} (s0 : 0 ≤ s) (s1 : s ≤ 1) : |clamp u - s| ≤ |u - s| := by
  unfold clamp
  rcases le_total u 0 with h | h
  · rw [min_eq_right (by linarith), max_eq_left h, abs_sub_comm, abs_sub_comm u, sub_zero, abs_of_nonneg s0, abs_of_nonneg (by linarith)]; linarith
  rcases le_total u 1 with h1 | h1
  · rw [min_eq_right h1, max_eq_right h]
  · rw [min_eq_left h1, max_eq_right zero_le_one, abs_of_nonneg (by linarith), abs_of_nonneg (by linarith)]; linarith

/-- The normalized argument. -/
theorem t_error (F : Fmt p emin rT) {y fa fb : ℝ} (hy : IsFloat p emin y) (ha : IsFloat p emin fa) (hb : IsFloat p emin fb) (hf : fa ≠ fb)
    (h1 : min fa fb ≤ y) (h2 : y ≤ max fa fb) :
    let t := rT (rT (y - fa) / rT (fb - fa))
    0 ≤ t ∧ t ≤ 1 ∧ |t - (y - fa) / (fb - fa)| ≤ 13 / 5 * (2 ^ p)⁻¹ ∧ 0 ≤ (y - fa) / (fb - fa) ∧ (y - fa) / (fb - fa) ≤ 1 := by
  intro t
  obtain ⟨u0, u1⟩ := u_le F.hp
  have hp1 : 1 ≤ p := by have := F.hp; omega
  have hd : fb - fa ≠ 0 := sub_ne_zero.2 (Ne.symm hf)
  have e1 := F.hT.rel_error hp1 (hy.grid.sub ha.grid)
  have e2 := F.hT.rel_error hp1 (hb.grid.sub ha.grid)
  have z0 : rT 0 = 0 := F.hT.exact isFloat_zero
  set q1 := rT (y - fa) with hq1
  set q2 := rT (fb - fa) with hq2
  have hh : (0 ≤ q1 / q2 ∧ q1 / q2 ≤ 1) ∧ 0 ≤ (y - fa) / (fb - fa) ∧ (y - fa) / (fb - fa) ≤ 1 := by
    rcases lt_or_gt_of_ne hf with o | o
    · rw [min_eq_left o.le] at h1; rw [max_eq_right o.le] at h2
      have k0 : 0 ≤ q1 := z0 ▸ F.hT.monotone (by linarith : (0 : ℝ) ≤ y - fa)
      have k1 : q1 ≤ q2 := F.hT.monotone (by linarith)
      refine ⟨⟨div_nonneg k0 (k0.trans k1), div_le_one_of_le₀ k1 (k0.trans k1)⟩, div_nonneg (by linarith) (by linarith), ?_⟩
      exact div_le_one_of_le₀ (by linarith) (by linarith)
    · rw [min_eq_right o.le] at h1; rw [max_eq_left o.le] at h2
      have k0 : q1 ≤ 0 := z0 ▸ F.hT.monotone (by linarith : y - fa ≤ 0)
      have k1 : q2 ≤ q1 := F.hT.monotone (by linarith)
      refine ⟨⟨div_nonneg_of_nonpos k0 (k1.trans k0), ?_⟩, div_nonneg_of_nonpos (by linarith) (by linarith), ?_⟩
      · rw [← neg_div_neg_eq]; exact div_le_one_of_le₀ (by linarith) (by linarith)
      · rw [← neg_div_neg_eq]; exact div_le_one_of_le₀ (by linarith) (by linarith)
  obtain ⟨⟨q0, q1'⟩, t0, t1⟩ := hh
  set τ := (y - fa) / (fb - fa) with hτ
  have hD : 0 < |fb - fa| := abs_pos.2 hd
  have hy' : y - fa = τ * (fb - fa) := by rw [hτ]; field_simp
  have lb : (1 - (2 ^ p)⁻¹) * |fb - fa| ≤ |q2| := by
    have := abs_sub_abs_le_abs_sub (fb - fa) q2
    rw [abs_sub_comm (fb - fa) q2] at this
    linarith
  have q2p : 0 < |q2| := lt_of_lt_of_le (mul_pos (by linarith) hD) lb
  have q2n : q2 ≠ 0 := abs_pos.1 q2p
  have eq : |q1 / q2 - τ| ≤ 201 / 100 * (2 ^ p)⁻¹ := by
    have : q1 / q2 - τ = ((q1 - (y - fa)) - τ * (q2 - (fb - fa))) / q2 := by
      rw [hy']; field_simp; ring
    rw [this, abs_div, div_le_iff₀ q2p]
    have a1 : |y - fa| ≤ |fb - fa| := by
      rw [hy', abs_mul, abs_of_nonneg t0]
      exact mul_le_of_le_one_left hD.le t1
    have a2 : |τ * (q2 - (fb - fa))| ≤ (2 ^ p)⁻¹ * |fb - fa| := by
      rw [abs_mul, abs_of_nonneg t0]
      exact (mul_le_of_le_one_left (abs_nonneg _) t1).trans e2
    have a3 := mul_le_mul_of_nonneg_left a1 u0.le
    have a4 : 2 * (2 ^ p)⁻¹ * |fb - fa| ≤ 201 / 100 * (2 ^ p)⁻¹ * |q2| := by
      have : 201 / 100 * (2 ^ p)⁻¹ * ((1 - (2 ^ p)⁻¹) * |fb - fa|) ≤ 201 / 100 * (2 ^ p)⁻¹ * |q2| := mul_le_mul_of_nonneg_left lb (by positivity)
      have k : 2 * (2 ^ p : ℝ)⁻¹ ≤ 201 / 100 * (2 ^ p)⁻¹ * (1 - (2 ^ p)⁻¹) := by nlinarith
      have := mul_le_mul_of_nonneg_right k hD.le
      linarith
    have := abs_sub (q1 - (y - fa)) (τ * (q2 - (fb - fa)))
    linarith
  have hr := half_one F (z := q1 / q2) (abs_le.2 ⟨by linarith, q1'⟩)
  refine ⟨F.hT.mono_float isFloat_zero q0, F.hT.mono_float' (isFloat_one hp1 (by have := F.hep; omega)) q1', ?_, t0, t1⟩
  have := abs_sub_le t (q1 / q2) τ
  linarith

/-- The argument of the arcsine. -/
theorem z_error (F : Fmt p emin rT) {t τ : ℝ} (ht : IsFloat p emin t) (t0 : 0 ≤ t) (t1 : t ≤ 1) (h : |t - τ| ≤ 13 / 5 * (2 ^ p)⁻¹) :
    |rT (1 - rT (2 * t))| ≤ 1 ∧ |rT (1 - rT (2 * t)) - (1 - 2 * τ)| ≤ 57 / 10 * (2 ^ p)⁻¹ := by
  rw [F.hT.exact ht.two_mul]
  have b : |1 - 2 * t| ≤ 1 := abs_le.2 ⟨by linarith, by linarith⟩
  refine ⟨Expint.abs_round_le F.hT (isFloat_one (by have := F.hp; omega) (by have := F.hep; omega)) b, ?_⟩
  have := half_one F b
  have k := abs_sub_le (rT (1 - 2 * t)) (1 - 2 * t) (1 - 2 * τ)
  rw [show 1 - 2 * t - (1 - 2 * τ) = -(2 * (t - τ)) by ring, abs_neg, abs_mul, abs_two] at k
  linarith

/-- The computed root against the exact root of the cubic whose right side is the computed argument of the arcsine. -/
theorem s_error (F : Fmt p emin rT) (hW : Nearest P Emin rW) (hP : p ≤ P) (hE : Emin ≤ emin) (hs : GoodSin emin ε' sn) (ha : GoodAsin emin ε as)
    (hε0 : 0 ≤ ε) (hε : ε ≤ 1 / 100) (hε0' : 0 ≤ ε') (hε' : ε' ≤ 1 / 100) {z : ℝ} (hz : |z| ≤ 1) :
    |rT (rW (0.5 - sn (rT (as z / 3)))) - (0.5 - sin (arcsin z / 3))| ≤ 53 / 100 * ε + 54 / 100 * ε' + 27 / 10 * (2 ^ p)⁻¹ := by
  obtain ⟨u0, u1⟩ := u_le F.hp
  have hη := η_le F.hep
  have η0 := two_zpow_pos (K := ℝ) emin
  have hp1 : 1 ≤ p := by have := F.hp; omega
  have A : |arcsin z| ≤ 1571 / 1000 := by
    have := pi_lt_d4
    exact abs_le.2 ⟨by linarith [neg_pi_div_two_le_arcsin z], by linarith [arcsin_le_pi_div_two z]⟩
  have e1 := ha z hz
  have e1' : |as z - arcsin z| ≤ 1571 / 1000 * ε + 2 ^ emin := by
    have := mul_le_mul_of_nonneg_left A hε0; linarith
  have b1 : |as z / 3| ≤ 53 / 100 := by
    rw [abs_div, abs_of_pos (by norm_num : (0 : ℝ) < 3), div_le_iff₀ (by norm_num)]
    have := abs_sub_abs_le_abs_sub (as z) (arcsin z)
    linarith
  have e2 := half_one F (z := as z / 3) (b1.trans (by norm_num))
  set β := rT (as z / 3) with hβ
  have b2 : |β| ≤ 535 / 1000 := by
    have := abs_sub_abs_le_abs_sub β (as z / 3); linarith
  have e3 : |β - arcsin z / 3| ≤ 5237 / 10000 * ε + 2 ^ emin / 3 + (2 ^ p)⁻¹ / 2 := by
    have k := abs_sub_le β (as z / 3) (arcsin z / 3)
    rw [show as z / 3 - arcsin z / 3 = (as z - arcsin z) / 3 by ring, abs_div, abs_of_pos (by norm_num : (0 : ℝ) < 3)] at k
    linarith
  have e4 : |sin β - sin (arcsin z / 3)| ≤ |β - arcsin z / 3| := by
    exact abs_sin_sub_sin_le β (arcsin z / 3)
  have b3 : |sin β| ≤ 535 / 1000 := abs_sin_le_abs.trans b2
  have e5 : |sn β - sin β| ≤ 535 / 1000 * ε' + 2 ^ emin := by
    have := hs β (b2.trans (by norm_num))
    have := mul_le_mul_of_nonneg_left b3 hε0'; linarith
  have b4 : |0.5 - sn β| ≤ 1045 / 1000 := by
    have k := abs_sub_abs_le_abs_sub (sn β) (sin β)
    have := abs_sub (0.5 : ℝ) (sn β)
    rw [abs_of_pos (by norm_num : (0 : ℝ) < 0.5)] at this
    linarith
  have e6 := long_error hW hp1 hP hE (0.5 - sn β)
  have b5 : |rW (0.5 - sn β)| ≤ 1046 / 1000 := by
    have k := abs_sub_abs_le_abs_sub (rW (0.5 - sn β)) (0.5 - sn β)
    have := mul_le_mul_of_nonneg_left b4 u0.le
    linarith
  have e7 := F.hT.error hp1 (rW (0.5 - sn β))
  have m1 := mul_le_mul_of_nonneg_left b4 u0.le
  have m2 := mul_le_mul_of_nonneg_left b5 u0.le
  have k1 := abs_sub_le (rT (rW (0.5 - sn β))) (rW (0.5 - sn β)) (0.5 - sin (arcsin z / 3))
  have k2 := abs_sub_le (rW (0.5 - sn β)) (0.5 - sn β) (0.5 - sin (arcsin z / 3))
  rw [show 0.5 - sn β - (0.5 - sin (arcsin z / 3)) = -(sn β - sin (arcsin z / 3)) by ring, abs_neg] at k2
  have k3 := abs_sub_le (sn β) (sin β) (sin (arcsin z / 3))
  linarith

/-- The last statement. -/
theorem out_error (F : Fmt p emin rT) {a b s : ℝ} (ha : IsFloat p emin a) (hb : IsFloat p emin b) (hab : a < b) (hs : |s| ≤ 102 / 100) :
    |rT (a + rT (rT (b - a) * s)) - (a + (b - a) * s)| ≤ (b - a) * (31 / 10 * (2 ^ p)⁻¹) + ((2 ^ p)⁻¹ * |a| + 2 ^ emin) + 2 ^ emin / 1000 := by
  obtain ⟨u0, u1⟩ := u_le F.hp
  have η0 := two_zpow_pos (K := ℝ) emin
  have hp1 : 1 ≤ p := by have := F.hp; omega
  have hd := sub_pos.2 hab
  have e1 := F.hT.rel_error hp1 (hb.grid.sub ha.grid)
  rw [abs_of_pos hd] at e1
  set D := rT (b - a) with hD
  have d1 : |D| ≤ 10001 / 10000 * (b - a) := by
    have := abs_sub_abs_le_abs_sub D (b - a)
    rw [abs_of_pos hd] at this
    nlinarith
  have d2 : |D * s| ≤ 1021 / 1000 * (b - a) := by
    rw [abs_mul]
    calc |D| * |s| ≤ (10001 / 10000 * (b - a)) * (102 / 100) := mul_le_mul d1 hs (abs_nonneg _) (by linarith)
      _ ≤ _ := by linarith
  have d3 : |D * s - (b - a) * s| ≤ 102 / 100 * (2 ^ p)⁻¹ * (b - a) := by
    rw [← sub_mul, abs_mul]
    calc |D - (b - a)| * |s| ≤ ((2 ^ p)⁻¹ * (b - a)) * (102 / 100) := mul_le_mul e1 hs (abs_nonneg _) (by positivity)
      _ = _ := by ring
  have e2 := F.hT.error hp1 (D * s)
  have m2 := mul_le_mul_of_nonneg_left d2 u0.le
  set M := rT (D * s) with hM
  have d4 : |M| ≤ 1022 / 1000 * (b - a) + 2 ^ emin / 2 := by
    have := abs_sub_abs_le_abs_sub M (D * s)
    have : (2 ^ p : ℝ)⁻¹ * (b - a) ≤ 1 / 65536 * (b - a) := mul_le_mul_of_nonneg_right u1 hd.le
    linarith
  have e3 := F.hT.error hp1 (a + M)
  have m3 := mul_le_mul_of_nonneg_left (abs_add_le a M) u0.le
  have m4 := mul_le_mul_of_nonneg_left d4 u0.le
  have m5 : (2 ^ p : ℝ)⁻¹ * 2 ^ emin ≤ 1 / 65536 * 2 ^ emin := mul_le_mul_of_nonneg_right u1 η0.le
  have k1 := abs_sub_le (rT (a + M)) (a + M) (a + (b - a) * s)
  rw [show a + M - (a + (b - a) * s) = M - (b - a) * s by ring] at k1
  have k2 := abs_sub_le M (D * s) ((b - a) * s)
  have m6 := mul_pos u0 hd
  linarith

/-- The clamped position of the result is close to a point where the step has nearly the required value. -/
theorem inv_core (F : Fmt p emin rT) (hW : Nearest P Emin rW) (hP : p ≤ P) (hE : Emin ≤ emin) (hs : GoodSin emin ε' sn) (ha : GoodAsin emin ε as)
    (hε0 : 0 ≤ ε) (hε : ε ≤ 1 / 100) (hε0' : 0 ≤ ε') (hε' : ε' ≤ 1 / 100) {y a b fa fb : ℝ} (fy : IsFloat p emin y) (fA : IsFloat p emin a)
    (fB : IsFloat p emin b) (fFa : IsFloat p emin fa) (fFb : IsFloat p emin fb) (hab : a < b) (hf : fa ≠ fb) (h1 : min fa fb ≤ y) (h2 : y ≤ max fa fb) :
    ∃ x, invsmoothstep3R rT rW sn as y a b fa fb = .fin x ∧
      |P3 (clamp ((x - a) / (b - a))) - (y - fa) / (fb - fa)| ≤
        4 / 5 * ε + 9 / 10 * ε' + 12 * (2 ^ p)⁻¹ + 8 / 5 * (((2 ^ p)⁻¹ * |a| + 2 ^ emin) / (b - a)) := by
  obtain ⟨u0, u1⟩ := u_le F.hp
  have η0 := two_zpow_pos (K := ℝ) emin
  have hd := sub_pos.2 hab
  have hdf : fb - fa ≠ 0 := sub_ne_zero.2 (Ne.symm hf)
  have pos : 0 ≤ 4 / 5 * ε + 9 / 10 * ε' + 12 * (2 ^ p)⁻¹ + 8 / 5 * (((2 ^ p)⁻¹ * |a| + 2 ^ emin) / (b - a)) := by positivity
  unfold invsmoothstep3R
  rw [if_neg hf]
  by_cases e1 : y = fa
  · refine ⟨a, by rw [if_pos e1], ?_⟩
    simp only [sub_self, zero_div, e1, clamp, P3]
    simpa using pos
  rw [if_neg e1]
  by_cases e2 : y = fb
  · refine ⟨b, by rw [if_pos e2], ?_⟩
    rw [e2, div_self hdf, div_self hd.ne']
    norm_num [clamp, P3]
    simpa using pos
  rw [if_neg e2]
  have hin : ¬ (y > (if fa < fb then fb else fa) ∨ y < if fa < fb then fa else fb) := by
    rcases lt_or_gt_of_ne hf with o | o
    · rw [max_eq_right o.le] at h2; rw [min_eq_left o.le] at h1
      rw [if_pos o, if_pos o]; push Not; exact ⟨h2, h1⟩
    · rw [max_eq_left o.le] at h2; rw [min_eq_right o.le] at h1
      rw [if_neg (not_lt.2 o.le), if_neg (not_lt.2 o.le)]; push Not; exact ⟨h2, h1⟩
  simp only [if_neg hin]
  refine ⟨_, rfl, ?_⟩
  obtain ⟨t0, t1, te, τ0, τ1⟩ := t_error F fy fFa fFb hf h1 h2
  have ft : IsFloat p emin (rT (rT (y - fa) / rT (fb - fa))) := (F.hT _).1
  generalize rT (rT (y - fa) / rT (fb - fa)) = t at *
  obtain ⟨z1, ze⟩ := z_error F ft t0 t1 te
  generalize rT (1 - rT (2 * t)) = z at *
  have se := s_error F hW hP hE hs ha hε0 hε hε0' hε' z1
  obtain ⟨z1a, z1b⟩ := abs_le.1 z1
  obtain ⟨s0, s1, sP⟩ := cubic_solve ((1 - z) / 2) (by linarith) (by linarith)
  rw [show 1 - 2 * ((1 - z) / 2) = z by ring] at s0 s1 sP
  generalize 0.5 - sin (arcsin z / 3) = σ at *
  generalize rT (rW (0.5 - sn (rT (as z / 3)))) = s at *
  have hsb : |s| ≤ 102 / 100 := by
    have := abs_sub_abs_le_abs_sub s σ
    rw [abs_of_nonneg s0] at this
    linarith
  have oe := out_error F fA fB hab hsb
  generalize rT (a + rT (rT (b - a) * s)) = x at *
  have xe : |(x - a) / (b - a) - s| ≤ 31 / 10 * (2 ^ p)⁻¹ + 1001 / 1000 * (((2 ^ p)⁻¹ * |a| + 2 ^ emin) / (b - a)) := by
    rw [show (x - a) / (b - a) - s = (x - (a + (b - a) * s)) / (b - a) by field_simp; ring, abs_div, abs_of_pos hd, div_le_iff₀ hd]
    refine oe.trans ?_
    rw [add_mul, mul_assoc (1001 / 1000 : ℝ), div_mul_cancel₀ _ hd.ne']
    have : 0 ≤ (2 ^ p : ℝ)⁻¹ * |a| := by positivity
    linarith
  have ce := clamp_near (u := (x - a) / (b - a)) s0 s1
  have l := P3_lip' (clamp_mem ((x - a) / (b - a))).1 (clamp_mem _).2 s0 s1
  have k1 := abs_sub_le ((x - a) / (b - a)) s σ
  have k2 := abs_sub_le (P3 (clamp ((x - a) / (b - a)))) (P3 σ) ((y - fa) / (fb - fa))
  rw [sP] at k2 l
  have k3 : |(1 - z) / 2 - (y - fa) / (fb - fa)| = |z - (1 - 2 * ((y - fa) / (fb - fa)))| / 2 := by
    rw [show (1 - z) / 2 - (y - fa) / (fb - fa) = -((z - (1 - 2 * ((y - fa) / (fb - fa)))) / 2) by ring, abs_neg, abs_div, abs_two]
  have n : 0 ≤ ((2 ^ p : ℝ)⁻¹ * |a| + 2 ^ emin) / (b - a) := by positivity
  linarith

/-- C103: for every `y` between `fa` and `fb` (in either order) the result is a number, and the exact smoothstep takes at it
a value within `|fb - fa| · (12 · 2⁻ᵖ + 0.8 ε + 0.9 ε' + 1.6 (2⁻ᵖ |a| + 2^emin) / (b - a))` of `y`: `ε` and `ε'` are the relative
errors of the library's `asin` and `sin`, and the last term is the cost of representing a point of `[a, b]` at all. -/
theorem C103_residual (F : Fmt p emin rT) (hW : Nearest P Emin rW) (hP : p ≤ P) (hE : Emin ≤ emin) (hs : GoodSin emin ε' sn) (ha : GoodAsin emin ε as)
    (hε0 : 0 ≤ ε) (hε : ε ≤ 1 / 100) (hε0' : 0 ≤ ε') (hε' : ε' ≤ 1 / 100) {y a b fa fb : ℝ} (fy : IsFloat p emin y) (fA : IsFloat p emin a)
    (fB : IsFloat p emin b) (fFa : IsFloat p emin fa) (fFb : IsFloat p emin fb) (hab : a < b) (hf : fa ≠ fb) (h1 : min fa fb ≤ y) (h2 : y ≤ max fa fb) :
    ∃ x v, invsmoothstep3R rT rW sn as y a b fa fb = .fin x ∧ smoothstep3 (.fin x) (.fin a) (.fin b) (.fin fa) (.fin fb) = .fin v ∧
      |v - y| ≤ |fb - fa| * (4 / 5 * ε + 9 / 10 * ε' + 12 * (2 ^ p)⁻¹ + 8 / 5 * (((2 ^ p)⁻¹ * |a| + 2 ^ emin) / (b - a))) := by
  obtain ⟨x, hx, e⟩ := inv_core F hW hP hE hs ha hε0 hε hε0' hε' fy fA fB fFa fFb hab hf h1 h2
  have hdf : fb - fa ≠ 0 := sub_ne_zero.2 (Ne.symm hf)
  refine ⟨x, _, hx, smoothstep3_eq x a b fa fb hab, ?_⟩
  rw [sat_clamp, show fa + (fb - fa) * P3 (clamp ((x - a) / (b - a))) - y = (fb - fa) * (P3 (clamp ((x - a) / (b - a))) - (y - fa) / (fb - fa)) by
    field_simp; ring, abs_mul]
  exact mul_le_mul_of_nonneg_left e (abs_nonneg _)

/-- C103: the distance of the result, moved into `[a, b]` if it is outside, from the exact inverse: at most `b - a` times the
square root of the bound of `C103_residual`, i.e. half of the digits. -/
theorem C103_forward (F : Fmt p emin rT) (hW : Nearest P Emin rW) (hP : p ≤ P) (hE : Emin ≤ emin) (hs : GoodSin emin ε' sn) (ha : GoodAsin emin ε as)
    (hε0 : 0 ≤ ε) (hε : ε ≤ 1 / 100) (hε0' : 0 ≤ ε') (hε' : ε' ≤ 1 / 100) {y a b fa fb : ℝ} (fy : IsFloat p emin y) (fA : IsFloat p emin a)
    (fB : IsFloat p emin b) (fFa : IsFloat p emin fa) (fFb : IsFloat p emin fb) (hab : a < b) (hf : fa ≠ fb) (h1 : min fa fb ≤ y) (h2 : y ≤ max fa fb) :
    ∃ x X, invsmoothstep3R rT rW sn as y a b fa fb = .fin x ∧ invsmoothstep3 y a b fa fb = .fin X ∧
      (max a (min b x) - X) ^ 2 ≤
        (b - a) ^ 2 * (4 / 5 * ε + 9 / 10 * ε' + 12 * (2 ^ p)⁻¹ + 8 / 5 * (((2 ^ p)⁻¹ * |a| + 2 ^ emin) / (b - a))) := by
  obtain ⟨x, hx, e⟩ := inv_core F hW hP hE hs ha hε0 hε hε0' hε' fy fA fB fFa fFb hab hf h1 h2
  obtain ⟨s, hX, s0, s1, sy⟩ := inv_eq y a b fa fb hf h1 h2
  have hdf : fb - fa ≠ 0 := sub_ne_zero.2 (Ne.symm hf)
  have hd := sub_pos.2 hab
  refine ⟨x, _, hx, hX, ?_⟩
  have ec : max a (min b x) = a + (b - a) * clamp ((x - a) / (b - a)) := by
    unfold clamp
    rw [mul_max_of_nonneg _ _ hd.le, mul_min_of_nonneg _ _ hd.le, mul_div_cancel₀ _ hd.ne', mul_one, mul_zero, ← max_add_add_left, ← min_add_add_left]
    simp
  have et : (y - fa) / (fb - fa) = P3 s := by rw [← sy]; field_simp; ring
  rw [et] at e
  have k := P3_sep (clamp_mem ((x - a) / (b - a))).1 (clamp_mem _).2 s0 s1
  rw [ec, show a + (b - a) * clamp ((x - a) / (b - a)) - (a + (b - a) * s) = (b - a) * (clamp ((x - a) / (b - a)) - s) by ring, mul_pow]
  exact mul_le_mul_of_nonneg_left (k.trans e) (sq_nonneg _)

/-! ### The relative accuracy is lost at the ends -/

theorem round_near_one {rd : ℝ → ℝ} (h : Nearest 53 (-1074) rd) : rd (1 - 2 ^ (-55 : ℤ)) = 1 := by
  have f1 : IsFloat 53 (-1074) (1 : ℝ) := isFloat_one (by norm_num) (by norm_num)
  obtain ⟨ff, fn⟩ := h (1 - 2 ^ (-55 : ℤ))
  have k := fn 1 f1
  generalize rd (1 - 2 ^ (-55 : ℤ)) = f at *
  rw [show |(1 : ℝ) - (1 - 2 ^ (-55 : ℤ))| = 2 ^ (-55 : ℤ) by norm_num] at k
  obtain ⟨k1, k2⟩ := abs_le.1 k
  have big : (2 : ℝ) ^ 53 * 2 ^ (-54 : ℤ) ≤ |f| := by
    refine le_trans ?_ (le_abs_self f)
    norm_num at k1 ⊢; linarith
  obtain ⟨n, hn⟩ := ff.big_grid big
  rw [hn] at k1 k2 ⊢
  norm_num at k1 k2 ⊢
  have g1 : (2 ^ 53 - 1 : ℝ) < n := by norm_num; linarith
  have g2 : (n : ℝ) < 2 ^ 53 + 1 := by norm_num; linarith
  have : n = 2 ^ 53 := by
    have g1' : (2 ^ 53 - 1 : ℤ) < n := by exact_mod_cast g1
    have g2' : n < (2 ^ 53 + 1 : ℤ) := by exact_mod_cast g2
    omega
  rw [this]; norm_num

/-- C103: near the ends the result has no correct digit, whatever the quality of `sin` and `asin`: in `double`, for the step from
`0` to `1` on `[0, 1]` and `y = 2⁻⁵⁶`, the inverse is at least `2·10⁻⁹` but the result is less than a hundred-thousandth of it in magnitude. -/
theorem C103_relative_violated (hT : Nearest 53 (-1074) rT) (hs : GoodSin (-1074) (2 ^ (-51 : ℤ)) sn) (ha : GoodAsin (-1074) (2 ^ (-51 : ℤ)) as) :
    IsFloat 53 (-1074) ((2 : ℝ) ^ (-56 : ℤ)) ∧
    ∃ x X, invsmoothstep3R rT rT sn as (2 ^ (-56 : ℤ)) 0 1 0 1 = .fin x ∧ invsmoothstep3 (2 ^ (-56 : ℤ)) 0 1 0 1 = .fin X ∧
      2 / 10 ^ 9 ≤ X ∧ |x| ≤ X / 10 ^ 5 := by
  have F : Fmt 53 (-1074) rT := ⟨hT, by norm_num, by norm_num⟩
  have fy : IsFloat 53 (-1074) ((2 : ℝ) ^ (-56 : ℤ)) := isFloat_zpow (by norm_num) (by norm_num)
  have f1 : IsFloat 53 (-1074) (1 : ℝ) := isFloat_one (by norm_num) (by norm_num)
  refine ⟨fy, ?_⟩
  obtain ⟨s, hX, s0, s1, sy⟩ := inv_eq (2 ^ (-56 : ℤ)) 0 1 0 1 (by norm_num) (by norm_num) (by norm_num)
  have yp : (0 : ℝ) < 2 ^ (-56 : ℤ) := two_zpow_pos _
  have y1 : (2 : ℝ) ^ (-56 : ℤ) < 1 := by norm_num
  have hx : invsmoothstep3R rT rT sn as (2 ^ (-56 : ℤ)) 0 1 0 1 = .fin (rT (rT (0.5 - sn (rT (as 1 / 3))))) := by
    unfold invsmoothstep3R
    rw [if_neg (by norm_num), if_neg yp.ne', if_neg y1.ne]
    simp only [zero_lt_one, if_true]
    rw [if_neg (by push Not; exact ⟨y1.le, yp.le⟩)]
    simp only [sub_zero, zero_add, hT.exact fy, hT.exact f1, div_one, one_mul]
    rw [show (2 : ℝ) * 2 ^ (-56 : ℤ) = 2 ^ (-55 : ℤ) by norm_num, hT.exact (isFloat_zpow (by norm_num) (by norm_num) : IsFloat 53 (-1074) ((2 : ℝ) ^ (-55 : ℤ))),
      round_near_one hT, hT.exact (hT _).1, hT.exact (hT _).1, hT.exact (hT _).1]
  refine ⟨_, _, hx, hX, ?_⟩
  have se := s_error F hT le_rfl le_rfl hs ha (two_zpow_pos _).le (by norm_num) (two_zpow_pos _).le (by norm_num) (z := 1) (by norm_num)
  rw [arcsin_one, show Real.pi / 2 / 3 = Real.pi / 6 by ring, sin_pi_div_six, show (0.5 : ℝ) - 1 / 2 = 0 by norm_num, sub_zero] at se
  have se' : |rT (rT (0.5 - sn (rT (as 1 / 3))))| ≤ 1 / 10 ^ 14 := se.trans (by norm_num)
  have hs1 : 2 / 10 ^ 9 ≤ s := by
    by_contra hn
    push Not at hn
    simp only [P3, sub_zero, zero_add, one_mul] at sy
    have : s * s * (3 - 2 * s) < 2 ^ (-56 : ℤ) := by
      have a1 : s * s ≤ (2 / 10 ^ 9) * (2 / 10 ^ 9) := mul_le_mul hn.le hn.le s0 (by norm_num)
      have a2 : s * s * (3 - 2 * s) ≤ s * s * 3 := mul_le_mul_of_nonneg_left (by linarith) (mul_nonneg s0 s0)
      norm_num at a1 ⊢
      linarith
    linarith
  rw [zero_add, sub_zero, one_mul]
  exact ⟨hs1, se'.trans (by linarith)⟩

/-- Correctly rounded library functions meet the hypotheses: the statements are not empty. -/
theorem good_round {rd : ℝ → ℝ} (h : Nearest p emin rd) (hp : 1 ≤ p) : GoodSin emin (2 ^ p)⁻¹ (fun z => rd (sin z)) ∧ GoodAsin emin (2 ^ p)⁻¹ (fun z => rd (arcsin z)) := by
  have := two_zpow_pos (K := ℝ) emin
  exact ⟨fun z _ => (h.error hp (sin z)).trans (by linarith), fun z _ => (h.error hp (arcsin z)).trans (by linarith)⟩

/-- C103 in `float`, with the subtraction in `double` and correctly rounded `sin` and `asin`, for a step from `0` to `1` on `[0, b]`:
the value of the exact step at the result is within `14 · 2⁻²⁴` of `y`, for every `y` in `[0, 1]` and every `b ≥ 2⁻¹⁰⁰`. -/
theorem C103_float {rF rD : ℝ → ℝ} (hF : Nearest 24 (-149) rF) (hD : Nearest 53 (-1074) rD) {y b : ℝ} (fy : IsFloat 24 (-149) y) (fb : IsFloat 24 (-149) b)
    (hb : 2 ^ (-100 : ℤ) ≤ b) (y0 : 0 ≤ y) (y1 : y ≤ 1) :
    ∃ x v, invsmoothstep3R rF rD (fun z => rF (sin z)) (fun z => rF (arcsin z)) y 0 b 0 1 = .fin x ∧
      smoothstep3 (.fin x) (.fin 0) (.fin b) (.fin 0) (.fin 1) = .fin v ∧ |v - y| ≤ 14 * (2 ^ 24)⁻¹ := by
  have F : Fmt 24 (-149) rF := ⟨hF, by norm_num, by norm_num⟩
  obtain ⟨g1, g2⟩ := good_round hF (by norm_num)
  have f1 : IsFloat 24 (-149) (1 : ℝ) := isFloat_one (by norm_num) (by norm_num)
  have hb0 : 0 < b := lt_of_lt_of_le (two_zpow_pos _) hb
  obtain ⟨x, v, hx, hv, e⟩ := C103_residual F hD (by norm_num) (by norm_num) g1 g2 (by positivity) (by norm_num) (by positivity) (by norm_num) fy isFloat_zero fb isFloat_zero f1
    hb0 (by norm_num) (by simpa using y0) (by simpa using y1)
  refine ⟨x, v, hx, hv, e.trans ?_⟩
  have k : ((2 ^ 24 : ℝ)⁻¹ * |0| + 2 ^ (-149 : ℤ)) / (b - 0) ≤ 1 / 2 ^ 40 := by
    rw [sub_zero, div_le_iff₀ hb0]
    have := mul_le_mul_of_nonneg_left hb (by norm_num : (0 : ℝ) ≤ 1 / 2 ^ 40)
    refine le_trans ?_ this
    norm_num
  rw [sub_zero, abs_one, one_mul]
  norm_num at k ⊢
  linarith

example : ∃ rF rD : ℝ → ℝ, Nearest 24 (-149) rF ∧ Nearest 53 (-1074) rD ∧ IsFloat 24 (-149) ((1 : ℝ) / 2) := by
  obtain ⟨rF, hF⟩ := exists_nearest (K := ℝ) (p := 24) (by norm_num) (-149)
  obtain ⟨rD, hD⟩ := exists_nearest (K := ℝ) (p := 53) (by norm_num) (-1074)
  exact ⟨rF, rD, hF, hD, ⟨1, -1, by norm_num, by norm_num, by norm_num⟩⟩

end Ufunclab.Step
