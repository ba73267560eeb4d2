import Verif.Spec.FloatOrder
import Verif.Proof.VnormPow
import Verif.Proof.FloatRatio
import Verif.Props.Signal
/-!
# Auxiliary facts for C94: rounding of the band of a backlash
-/
namespace Ufunclab.Float
variable {p : ℕ} {emin : ℤ} {rd : ℝ → ℝ}

theorem div_val (a b : Fl rd) : (a / b).val = rd (a.val / b.val) := rfl
theorem two_val : (2 : Fl rd).val = 2 := rfl
theorem le_val (a b : Fl rd) : a ≤ b ↔ a.val ≤ b.val := Iff.rfl
theorem lt_val (a b : Fl rd) : a < b ↔ a.val < b.val := Iff.rfl

/-- Halving a float is exact, but for an odd multiple of the least subnormal. -/
theorem half_error (h : Nearest p emin rd) (hp : 1 ≤ p) {d : ℝ} (hd : IsFloat p emin d) : |rd (d / 2) - d / 2| ≤ 2 ^ emin / 2 := by
  obtain ⟨m, e, hm, he, rfl⟩ := hd
  rcases he.lt_or_eq with he | rfl
  · have : (m : ℝ) * 2 ^ e / 2 = m * 2 ^ (e - 1) := by rw [zpow_sub_one₀ (by norm_num)]; ring
    rw [this, h.exact ⟨m, e - 1, hm, by omega, rfl⟩, sub_self, abs_zero]
    positivity
  · apply h.half hp le_rfl
    have h1 : |(m : ℝ)| < 2 ^ p := by exact_mod_cast hm
    have h2 := two_zpow_pos (K := ℝ) emin
    rw [abs_div, abs_mul, abs_of_pos h2, abs_of_pos (by norm_num : (0 : ℝ) < 2)]
    have := mul_le_mul_of_nonneg_right h1.le h2.le
    have h3 : 0 ≤ |(m : ℝ)| * 2 ^ emin := by positivity
    linarith

end Ufunclab.Float

namespace Ufunclab.Signal
open Ufunclab.Float
variable {p : ℕ} {emin : ℤ} {rd : ℝ → ℝ}

/-- Projection on `[a, b]` does not increase distances. -/
theorem clamp_nonexpansive {a b y a' b' y' E : ℝ} (ha : |a - a'| ≤ E) (hb : |b - b'| ≤ E) (hy : |y - y'| ≤ E) :
    |max a (min y b) - max a' (min y' b')| ≤ E :=
  (abs_max_sub_max_le_max _ _ _ _).trans (max_le ha ((abs_min_sub_min_le_max _ _ _ _).trans (max_le hy hb)))

theorem step_val (hm : Monotone rd) (h y x : Fl rd) (hh : 0 ≤ h.val) :
    (backlashStep h y x).val = max (rd (x.val - h.val)) (min y.val (rd (x.val + h.val))) := by
  have hb : x - h ≤ x + h := hm (by linarith)
  rw [step_eq_clamp _ _ _ hb]
  have hmax : ∀ a b : Fl rd, (max a b).val = max a.val b.val := fun a b =>
    Monotone.map_max (f := (Fl.val : Fl rd → ℝ)) (fun _ _ h => h)
  have hmin : ∀ a b : Fl rd, (min a b).val = min a.val b.val := fun a b =>
    Monotone.map_min (f := (Fl.val : Fl rd → ℝ)) (fun _ _ h => h)
  rw [hmax, hmin]; rfl

theorem half_nonneg (h : Nearest p emin rd) {d : ℝ} (hd : 0 ≤ d) : 0 ≤ rd (d / 2) := h.mono_float isFloat_zero (by linarith)

/-- Numbers of the format stay in the format, and each step is the exact one, rounded. -/
theorem step_round (h : Nearest p emin rd) (hb y x : Fl rd) (hh : 0 ≤ hb.val) (hy : IsFloat p emin y.val) :
    (backlashStep hb y x).val = rd (max (x.val - hb.val) (min y.val (x.val + hb.val))) := by
  rw [step_val h.monotone _ _ _ hh, h.monotone.map_max, h.monotone.map_min, h.exact hy]

end Ufunclab.Signal
