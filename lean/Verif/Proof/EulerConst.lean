import Verif.Proof.Logfact
import Mathlib.NumberTheory.Harmonic.EulerMascheroni
/-! # Numerical bounds for Euler's constant -/
namespace Ufunclab.EulerConst
open Real Filter Topology

/-- `H_n - log n` with the first terms of its asymptotic expansion removed. -/
noncomputable def f (n : ℕ) : ℝ :=
  (harmonic n : ℝ) - log n - 1 / (2 * n) + 1 / (12 * (n : ℝ) ^ 2) - 1 / (120 * (n : ℝ) ^ 4)

/-- One more term. -/
noncomputable def g (n : ℕ) : ℝ := f n + 1 / (252 * (n : ℝ) ^ 6)

theorem log_step (n : ℝ) (hn : 1 ≤ n) :
    2 / (2 * n + 1) + 2 / (3 * (2 * n + 1) ^ 3) + 2 / (5 * (2 * n + 1) ^ 5) + 2 / (7 * (2 * n + 1) ^ 7) ≤ log (n + 1) - log n ∧
    log (n + 1) - log n ≤ 2 / (2 * n + 1) + 2 / (3 * (2 * n + 1) ^ 3) + 2 / (5 * (2 * n + 1) ^ 5) + 2 / (7 * (2 * n + 1) ^ 7)
      + 1 / (18 * (2 * n + 1) ^ 7 * n * (n + 1)) := by
  set t : ℝ := 1 / (2 * n + 1) with ht
  have ht0 : 0 < t := by positivity
  have ht1 : t ≤ 1 / 3 := by apply one_div_le_one_div_of_le <;> linarith
  obtain ⟨h1, h2⟩ := Logfact.log_series 4 t ht0.le (by linarith)
  have e : log (1 + t) - log (1 - t) = log (n + 1) - log n := by
    have a : 1 + t = (n + 1) * (2 * t) := by rw [ht]; field_simp; ring
    have b : 1 - t = n * (2 * t) := by rw [ht]; field_simp; ring
    rw [a, b, log_mul (x := n + 1) (by linarith) (by positivity), log_mul (x := n) (by linarith) (by positivity)]; ring
  have ep : Logfact.psum 4 t = 2 / (2 * n + 1) + 2 / (3 * (2 * n + 1) ^ 3) + 2 / (5 * (2 * n + 1) ^ 5) + 2 / (7 * (2 * n + 1) ^ 7) := by
    simp only [Logfact.psum, Finset.sum_range_succ, Finset.sum_range_zero]
    push_cast
    rw [ht]
    field_simp
    ring
  have er : 2 * t ^ (2 * 4 + 1) / (2 * ((4 : ℕ) : ℝ) + 1) / (1 - t ^ 2) = 1 / (18 * (2 * n + 1) ^ 7 * n * (n + 1)) := by
    have h0 : 1 - t ^ 2 = 4 * n * (n + 1) / (2 * n + 1) ^ 2 := by rw [ht]; field_simp; ring
    rw [h0, ht]
    push_cast
    field_simp
    ring
  rw [e, ep] at h1
  rw [e, ep, er] at h2
  exact ⟨h1, h2⟩

theorem f_step (n : ℕ) (hn : 1 ≤ n) : f n ≤ f (n + 1) := by
  have hnr : (1 : ℝ) ≤ n := by exact_mod_cast hn
  have h := (log_step n hnr).2
  rw [f, f, harmonic_succ]
  push_cast
  have h0 : (0 : ℝ) < n := by linarith
  generalize (n : ℝ) = x at *
  have key : (x + 1)⁻¹ - 1 / (2 * (x + 1)) + 1 / (12 * (x + 1) ^ 2) - 1 / (120 * (x + 1) ^ 4) + 1 / (2 * x) - 1 / (12 * x ^ 2) + 1 / (120 * x ^ 4)
      - (2 / (2 * x + 1) + 2 / (3 * (2 * x + 1) ^ 3) + 2 / (5 * (2 * x + 1) ^ 5) + 2 / (7 * (2 * x + 1) ^ 7)
      + 1 / (18 * (2 * x + 1) ^ 7 * x * (x + 1))) =
      (1 / 120 + 3 / 20 * x + 17 / 15 * x ^ 2 + 433 / 90 * x ^ 3 + 1759 / 140 * x ^ 4 + 2176 / 105 * x ^ 5 + 6656 / 315 * x ^ 6
        + 256 / 21 * x ^ 7 + 64 / 21 * x ^ 8) / (x ^ 4 * (x + 1) ^ 4 * (2 * x + 1) ^ 7) := by
    field_simp
    ring
  have hp : 0 ≤ (1 / 120 + 3 / 20 * x + 17 / 15 * x ^ 2 + 433 / 90 * x ^ 3 + 1759 / 140 * x ^ 4 + 2176 / 105 * x ^ 5 + 6656 / 315 * x ^ 6
        + 256 / 21 * x ^ 7 + 64 / 21 * x ^ 8) / (x ^ 4 * (x + 1) ^ 4 * (2 * x + 1) ^ 7) := by positivity
  rw [← key] at hp
  linarith

theorem g_step (n : ℕ) (hn : 1 ≤ n) : g (n + 1) ≤ g n := by
  have hnr : (1 : ℝ) ≤ n := by exact_mod_cast hn
  have h := (log_step n hnr).1
  rw [g, g, f, f, harmonic_succ]
  push_cast
  have h0 : (0 : ℝ) < n := by linarith
  generalize (n : ℝ) = x at *
  have key : 2 / (2 * x + 1) + 2 / (3 * (2 * x + 1) ^ 3) + 2 / (5 * (2 * x + 1) ^ 5) + 2 / (7 * (2 * x + 1) ^ 7) -
     ((x + 1)⁻¹ - 1 / (2 * (x + 1)) + 1 / (12 * (x + 1) ^ 2) - 1 / (120 * (x + 1) ^ 4) + 1 / (2 * x) - 1 / (12 * x ^ 2) + 1 / (120 * x ^ 4)
      + 1 / (252 * (x + 1) ^ 6) - 1 / (252 * x ^ 6)) =
      (1 / 252 + 5 / 63 * x + 201 / 280 * x ^ 2 + 27 / 7 * x ^ 3 + 3813 / 280 * x ^ 4 + 4607 / 140 * x ^ 5 + 23129 / 420 * x ^ 6
        + 946 / 15 * x ^ 7 + 947 / 20 * x ^ 8 + 379 / 18 * x ^ 9 + 379 / 90 * x ^ 10) / (x ^ 6 * (x + 1) ^ 6 * (2 * x + 1) ^ 7) := by
    field_simp
    ring
  have hp : 0 ≤ (1 / 252 + 5 / 63 * x + 201 / 280 * x ^ 2 + 27 / 7 * x ^ 3 + 3813 / 280 * x ^ 4 + 4607 / 140 * x ^ 5 + 23129 / 420 * x ^ 6
        + 946 / 15 * x ^ 7 + 947 / 20 * x ^ 8 + 379 / 18 * x ^ 9 + 379 / 90 * x ^ 10) / (x ^ 6 * (x + 1) ^ 6 * (2 * x + 1) ^ 7) := by positivity
  rw [← key] at hp
  linarith

theorem inv_tendsto (c : ℝ) (k : ℕ) (hk : k ≠ 0) : Tendsto (fun n : ℕ => 1 / (c * (n : ℝ) ^ k)) atTop (𝓝 0) := by
  have := ((tendsto_one_div_atTop_nhds_zero_nat (𝕜 := ℝ)).pow k).const_mul (1 / c)
  rw [zero_pow hk, mul_zero] at this
  refine this.congr fun n => ?_
  rw [one_div_pow, one_div_mul_one_div]

theorem f_tendsto : Tendsto f atTop (𝓝 eulerMascheroniConstant) := by
  have h := ((tendsto_harmonic_sub_log.sub (inv_tendsto 2 1 (by norm_num))).add (inv_tendsto 12 2 (by norm_num))).sub
    (inv_tendsto 120 4 (by norm_num))
  simp only [sub_zero, add_zero, pow_one] at h
  exact h

theorem g_tendsto : Tendsto g atTop (𝓝 eulerMascheroniConstant) := by
  have h := f_tendsto.add (inv_tendsto 252 6 (by norm_num))
  rw [add_zero] at h
  exact h

theorem bounds (n : ℕ) (hn : 1 ≤ n) : f n ≤ eulerMascheroniConstant ∧ eulerMascheroniConstant ≤ g n := by
  constructor
  · refine ge_of_tendsto f_tendsto ?_
    filter_upwards [eventually_ge_atTop n] with k hk
    induction k, hk using Nat.le_induction with
    | base => exact le_rfl
    | succ k hk ih => exact ih.trans (f_step k (hn.trans hk))
  · refine le_of_tendsto g_tendsto ?_
    filter_upwards [eventually_ge_atTop n] with k hk
    induction k, hk using Nat.le_induction with
    | base => exact le_rfl
    | succ k hk ih => exact (g_step k (hn.trans hk)).trans ih

/-- Fixed point harmonic numbers, `10^30·H_n` rounded down termwise. -/
def fharm : Nat → Nat
  | 0 => 0
  | n + 1 => fharm n + 10 ^ 30 / (n + 1)

theorem fharm_bounds (n : Nat) : (fharm n : ℝ) ≤ 10 ^ 30 * (harmonic n : ℝ) ∧ 10 ^ 30 * (harmonic n : ℝ) ≤ fharm n + n := by
  induction n with
  | zero => simp [fharm, harmonic]
  | succ n ih =>
    rw [fharm, harmonic_succ]
    have h1 : ((10 ^ 30 / (n + 1) : ℕ) : ℝ) ≤ ((10 ^ 30 : ℕ) : ℝ) / ((n + 1 : ℕ) : ℝ) := Nat.cast_div_le
    have h2 : ((10 ^ 30 : ℕ) : ℝ) / ((n + 1 : ℕ) : ℝ) ≤ ((10 ^ 30 / (n + 1) : ℕ) : ℝ) + 1 := by
      rw [div_le_iff₀ (by positivity)]
      have h3 := Nat.lt_div_mul_add (a := 10 ^ 30) (b := n + 1) (by omega)
      have h4 : 10 ^ 30 ≤ (10 ^ 30 / (n + 1) + 1) * (n + 1) := by rw [Nat.add_mul, one_mul]; exact h3.le
      exact_mod_cast h4
    have e : (10 : ℝ) ^ 30 * ((n : ℝ) + 1)⁻¹ = ((10 ^ 30 : ℕ) : ℝ) / ((n + 1 : ℕ) : ℝ) := by rw [div_eq_mul_inv]; norm_num
    generalize 10 ^ 30 / (n + 1) = q at *
    rw [Rat.cast_add, Rat.cast_inv, mul_add]
    push_cast at e h1 h2 ⊢
    rw [e]
    constructor <;> linarith [ih.1, ih.2]

/-- Fixed point `log n`. -/
def flog : Nat → Nat
  | 0 => 0
  | 1 => 0
  | n + 2 => flog (n + 1) + Logfact.fsum (n + 1) 32

theorem flog_bounds (n : Nat) : (flog (n + 1) : ℝ) ≤ 10 ^ 30 * log ((n + 1 : ℕ) : ℝ) ∧ 10 ^ 30 * log ((n + 1 : ℕ) : ℝ) ≤ flog (n + 1) + 33 * n := by
  induction n with
  | zero => simp [flog]
  | succ n ih =>
    rw [flog]
    have := Logfact.step_bounds (n + 1) (by omega)
    push_cast at this ih ⊢
    rw [mul_sub] at this
    constructor <;> linarith [ih.1, ih.2, this.1, this.2]

theorem fharm_1000 : fharm 1000 = 7485470860550344912656518203889 := by decide +kernel
theorem flog_10 : flog 10 = 2302585092994045684017991454614 := by decide +kernel

/-- Euler's constant to 20 digits. -/
theorem euler_bounds : |0.577215664901532860606512090082402431042159 - eulerMascheroniConstant| ≤ 1 / 10 ^ 20 := by
  obtain ⟨h1, h2⟩ := bounds 1000 (by norm_num)
  obtain ⟨a1, a2⟩ := fharm_bounds 1000
  obtain ⟨b1, b2⟩ := flog_bounds 9
  rw [fharm_1000] at a1 a2
  rw [flog_10] at b1 b2
  have e : log ((1000 : ℕ) : ℝ) = 3 * log ((9 + 1 : ℕ) : ℝ) := by
    rw [show ((1000 : ℕ) : ℝ) = ((9 + 1 : ℕ) : ℝ) ^ 3 by norm_num, log_pow]; norm_num
  rw [f, e] at h1
  rw [g, f, e] at h2
  generalize log ((9 + 1 : ℕ) : ℝ) = L at *
  generalize (harmonic 1000 : ℝ) = H at *
  rw [abs_le]
  norm_num at a1 a2 b1 b2 h1 h2 ⊢
  constructor <;> linarith

end Ufunclab.EulerConst
