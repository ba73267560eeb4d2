import Verif.Proof.LanczosK
import Mathlib.Analysis.SpecialFunctions.Gamma.BohrMollerup
import Mathlib.Analysis.SpecialFunctions.Stirling
import Mathlib.Analysis.SpecialFunctions.Complex.LogBounds
import Mathlib.Analysis.Real.Pi.Bounds
/-!
# The Lanczos formula and the gamma function

`Lam y` is the Lanczos formula in exact arithmetic.  Euler's limit for `log Γ` and Stirling's
formula turn the step error `k` into the error of the formula.
-/
namespace Ufunclab.Loggamma1p
open Ufunclab.Debye1 Ufunclab.PolyPos Real Filter Topology

noncomputable section

/-! ### Limits at infinity -/

theorem tendsto_peval_div : ∀ (l : List ℤ) (a : ℤ),
    Tendsto (fun y => peval (a :: l) y / y ^ l.length) atTop (𝓝 (((a :: l).getLast (by simp) : ℤ) : ℝ)) := by
  intro l
  induction l with
  | nil => intro a; simp
  | cons b l ih =>
    intro a
    have h1 : Tendsto (fun y : ℝ => (a : ℝ) / y ^ (l.length + 1)) atTop (𝓝 0) := by
      simpa using tendsto_invpow (a : ℝ) 0 (n := l.length + 1) (by omega)
    have h2 := h1.add (ih b)
    rw [zero_add] at h2
    rw [show ((a :: b :: l).getLast (by simp)) = (b :: l).getLast (by simp) by simp]
    refine h2.congr' ?_
    filter_upwards [eventually_gt_atTop 0] with y hy
    rw [peval_cons a, List.length_cons]
    field_simp
    ring

theorem pA_ne : ∃ a l, pA = a :: l ∧ l.length = 12 ∧ (a :: l).getLast (by simp) = 25066282746310002701649081771338373386264310793408 :=
  ⟨_, _, rfl, by decide +kernel, by decide +kernel⟩

def cLast : ℝ := 25066282746310002701649081771338373386264310793408

theorem tendsto_pA : Tendsto (fun y => peval pA y / y ^ 12) atTop (𝓝 cLast) := by
  obtain ⟨a, l, e, hl, hc⟩ := pA_ne
  have := tendsto_peval_div l a
  rw [hl, hc, ← e] at this
  convert this using 2
  rw [cLast]; norm_num

def pDen : List ℤ := scaled 0 denCoeffs

theorem pDen_ne : ∃ a l, pDen = a :: l ∧ l.length = 12 ∧ (a :: l).getLast (by simp) = 1 :=
  ⟨_, _, rfl, by decide +kernel, by decide +kernel⟩

theorem tendsto_pDen : Tendsto (fun y => peval pDen y / y ^ 12) atTop (𝓝 1) := by
  obtain ⟨a, l, e, hl, hc⟩ := pDen_ne
  have := tendsto_peval_div l a
  rw [hl, hc, ← e] at this
  simpa using this

theorem cLast_pos : 0 < cLast := by rw [cLast]; norm_num

theorem tendsto_shift (s : ℝ) : Tendsto (fun y : ℝ => y + s) atTop atTop := tendsto_atTop_add_const_right atTop s tendsto_id

theorem tendsto_ratio (a b : ℝ) : Tendsto (fun y : ℝ => (y + a) / (y + b)) atTop (𝓝 1) := by
  have h : Tendsto (fun y : ℝ => 1 + (a - b) / (y + b) ^ 1) atTop (𝓝 (1 + 0)) :=
    tendsto_const_nhds.add (tendsto_invpow (a - b) b (by norm_num))
  rw [add_zero] at h
  refine h.congr' ?_
  filter_upwards [eventually_gt_atTop (-b)] with y hy
  have : y + b ≠ 0 := by linarith
  field_simp
  ring

theorem tendsto_logAB : Tendsto (fun y => log (peval pB y) - log (peval pA y)) atTop (𝓝 0) := by
  have h1 : Tendsto (fun y : ℝ => peval pA (y + 1) / (y + 1) ^ 12) atTop (𝓝 cLast) := tendsto_pA.comp (tendsto_shift 1)
  have h2 : Tendsto (fun y : ℝ => ((y + 1) / (y + 0)) ^ 12) atTop (𝓝 (1 ^ 12)) := (tendsto_ratio 1 0).pow 12
  have h3 := ((h1.div tendsto_pA cLast_pos.ne').mul h2).log (by rw [div_self cLast_pos.ne']; norm_num)
  rw [div_self cLast_pos.ne', one_pow, one_mul, log_one] at h3
  refine h3.congr' ?_
  filter_upwards [eventually_gt_atTop 0] with y hy
  have ha := pA_pos hy.le
  have hb := pA_pos (y := y + 1) (by linarith)
  rw [peval_pB, ← log_div hb.ne' ha.ne']
  congr 1
  simp only [Pi.div_apply]
  field_simp
  ring

theorem tendsto_log_ratio (a b : ℝ) : Tendsto (fun y : ℝ => log (y + a) - log (y + b)) atTop (𝓝 0) := by
  have h3 := (tendsto_ratio a b).log (by norm_num)
  rw [log_one] at h3
  refine h3.congr' ?_
  filter_upwards [eventually_gt_atTop (-b), eventually_gt_atTop (-a)] with y hb ha
  rw [log_div (by linarith) (by linarith)]

theorem tendsto_k : Tendsto k atTop (𝓝 0) := by
  have h2 := tendsto_log_ratio (gR - 1 / 2) 12
  have h3 : Tendsto (fun y : ℝ => (y + (gR - 1 / 2)) * log (1 + 1 / (y + (gR - 1 / 2)))) atTop (𝓝 1) :=
    (tendsto_mul_log_one_add_div_atTop 1).comp (tendsto_shift (gR - 1 / 2))
  have h4 := (tendsto_ratio (1 / 2) (gR - 1 / 2)).mul h3
  have h5 := ((tendsto_logAB.add h2).add h4).sub_const 1
  rw [show (0 : ℝ) + 0 + 1 * 1 - 1 = 0 by norm_num] at h5
  refine h5.congr' ?_
  filter_upwards [eventually_gt_atTop 0] with y hy
  have hg := gR_bounds
  have hp : 0 < y + gR - 1 / 2 := by linarith
  have e : log (1 + 1 / (y + (gR - 1 / 2))) = log (y + gR + 1 / 2) - log (y + gR - 1 / 2) := by
    rw [← log_div (by linarith) hp.ne']
    congr 1
    rw [← add_sub_assoc, eq_div_iff hp.ne', add_mul, div_mul_cancel₀ _ hp.ne']
    ring
  have hq : y + (gR - 1 / 2) ≠ 0 := by linarith
  rw [e, k, ← mul_assoc, div_mul_cancel₀ _ hq, show y + (gR - 1 / 2) = y + gR - 1 / 2 by ring]
  ring

theorem deriv_le (p : List ℤ) (h : allNonneg p = true) {y : ℝ} (hy : 0 ≤ y) :
    0 ≤ y * peval (pder p) y ∧ y * peval (pder p) y ≤ p.length * peval p y := by
  induction p with
  | nil => simp [pder]
  | cons a p ih =>
    simp only [allNonneg, Bool.and_eq_true, decide_eq_true_eq] at h
    have h1 : (0 : ℝ) ≤ a := by exact_mod_cast h.1
    have h2 := peval_nonneg p h.2 hy
    obtain ⟨h3, h4⟩ := ih h.2
    simp only [pder, peval_padd, peval_cons, List.length_cons]
    push_cast
    have h5 : 0 ≤ y * peval p y := by positivity
    have h6 : y * (y * peval (pder p) y) ≤ y * (p.length * peval p y) := mul_le_mul_of_nonneg_left h4 hy
    have h7 : (0 : ℝ) ≤ p.length * a := by positivity
    constructor
    · have := mul_nonneg hy h3; linarith
    · linarith

theorem tendsto_l1 (p : List ℤ) (h : allNonneg p = true) (h0 : 0 < p.headD 0) :
    Tendsto (fun y => peval (pder p) y / peval p y) atTop (𝓝 0) := by
  have h1 : Tendsto (fun y : ℝ => (p.length : ℝ) / y ^ 1) atTop (𝓝 0) := by
    simpa using tendsto_invpow (p.length : ℝ) 0 (n := 1) (by norm_num)
  refine squeeze_zero' ?_ ?_ h1
  · filter_upwards [eventually_gt_atTop 0] with y hy
    have := (deriv_le p h hy.le).1
    exact div_nonneg (nonneg_of_mul_nonneg_right this hy) (peval_pos h h0 hy.le).le
  · filter_upwards [eventually_gt_atTop 0] with y hy
    have := (deriv_le p h hy.le).2
    have hp := peval_pos h h0 hy.le
    rw [pow_one, div_le_div_iff₀ hp hy]
    linarith

theorem tendsto_k1 : Tendsto k1 atTop (𝓝 0) := by
  have h1 := tendsto_l1 pB (by decide +kernel) (by decide +kernel)
  have h2 := tendsto_l1 pA (by decide +kernel) (by decide +kernel)
  have h3 : Tendsto (fun y : ℝ => 1 / (y + 12)) atTop (𝓝 0) := by simpa using tendsto_invpow 1 12 (n := 1) (by norm_num)
  have h4 := tendsto_log_ratio (gR + 1 / 2) (gR - 1 / 2)
  have h5 := (tendsto_ratio (1 / 2) (gR + 1 / 2)).sub (tendsto_ratio (-(1 / 2)) (gR - 1 / 2))
  have := (((h1.sub h2).sub h3).add h4).add h5
  simp only [sub_self, add_zero] at this
  refine this.congr fun y => ?_
  rw [k1]
  simp only [← add_assoc, ← add_sub_assoc, ← sub_eq_add_neg]
  ring

theorem k1_bound {y : ℝ} (hy : 0 ≤ y) : |k1 y| ≤ w1 y :=
  bound_of_deriv (fun _ h => hasDerivAt_k1 h) (fun _ h => hasDerivAt_w1 h) (fun _ h => k2_bound h) tendsto_k1 tendsto_w1 hy

theorem k_bound {y : ℝ} (hy : 0 ≤ y) : |k y| ≤ w0 y :=
  bound_of_deriv (fun _ h => hasDerivAt_k h) (fun _ h => hasDerivAt_w0 h) (fun _ h => k1_bound h) tendsto_k tendsto_w0 hy

/-! ### The formula and its step -/

/-- The Lanczos formula, in exact arithmetic. -/
def Lam (y : ℝ) : ℝ :=
  log (peval pA y / 10 ^ 49 / peval pDen y) - gR + (y - 1 / 2) * (log (y + gR - 1 / 2) - 1)

theorem pDen_pos {y : ℝ} (hy : 0 < y) : 0 < peval pDen y := by
  have : pDen = 0 :: [39916800, 120543840, 150917976, 105258076, 45995730, 13339535, 2637558, 357423, 32670, 1925, 66, 1] := by
    decide +kernel
  rw [this, peval_cons]
  have := peval_pos (p := [39916800, 120543840, 150917976, 105258076, 45995730, 13339535, 2637558, 357423, 32670, 1925, 66, 1])
    (by decide +kernel) (by decide +kernel) hy.le
  push_cast
  positivity

theorem pDen_step (y : ℝ) : peval pDen (y + 1) * y = peval pDen y * (y + 12) := by
  have : pDen = [0, 39916800, 120543840, 150917976, 105258076, 45995730, 13339535, 2637558, 357423, 32670, 1925, 66, 1] := by
    decide +kernel
  rw [this]
  simp only [peval_cons, peval_nil]
  push_cast
  ring

theorem Lam_log {y : ℝ} (hy : 0 < y) :
    Lam y = log (peval pA y) - 49 * log 10 - log (peval pDen y) - gR + (y - 1 / 2) * (log (y + gR - 1 / 2) - 1) := by
  have h1 := pA_pos hy.le
  have h2 := pDen_pos hy
  rw [Lam, log_div (by positivity) h2.ne', log_div h1.ne' (by positivity), log_pow]
  push_cast; ring

theorem Lam_step {y : ℝ} (hy : 0 < y) : Lam (y + 1) = Lam y + (log y + k y) := by
  have h2 := pDen_pos hy
  have h3 := pDen_pos (y := y + 1) (by linarith)
  have h4 : log (peval pDen (y + 1)) + log y = log (peval pDen y) + log (y + 12) := by
    rw [← log_mul h3.ne' hy.ne', ← log_mul h2.ne' (by linarith), pDen_step]
  rw [Lam_log hy, Lam_log (by linarith : 0 < y + 1), k, peval_pB,
    show y + 1 + gR - 1 / 2 = y + gR + 1 / 2 by ring]
  linear_combination -h4

theorem Lam_add {x : ℝ} (hx : 0 < x) (n : ℕ) :
    Lam (x + n) = Lam x + (∑ j ∈ Finset.range n, log (x + j) + ∑ j ∈ Finset.range n, k (x + j)) := by
  induction n with
  | zero => simp
  | succ n ih =>
    have hn : (0 : ℝ) ≤ n := Nat.cast_nonneg n
    rw [Finset.sum_range_succ, Finset.sum_range_succ]
    push_cast
    rw [← add_assoc, Lam_step (by linarith), ih]
    ring

/-! ### Sums of the step bounds -/

def v0 (x : ℝ) : ℝ := 1 / 10 ^ 16 / (x + 1 / 2) + 2 / 10 ^ 14 / (x + 199 / 2)
def v1 (x : ℝ) : ℝ := 1 / 10 ^ 16 / (x + 1 / 2) ^ 2 + 2 / 10 ^ 14 / (x + 199 / 2) ^ 2

theorem inv_sq_le {z : ℝ} (hz : 1 / 2 < z) : 1 / z ^ 2 ≤ 1 / (z - 1 / 2) - 1 / (z + 1 / 2) := by
  have h1 : 0 < z - 1 / 2 := by linarith
  have e : 1 / (z - 1 / 2) - 1 / (z + 1 / 2) = 1 / ((z - 1 / 2) * (z + 1 / 2)) := by
    have : 0 < z + 1 / 2 := by linarith
    rw [div_sub_div _ _ h1.ne' this.ne']
    congr 1; ring
  rw [e]
  exact one_div_le_one_div_of_le (by positivity) (by nlinarith)

theorem inv_cube_le {z : ℝ} (hz : 1 / 2 < z) : 2 / z ^ 3 ≤ 1 / (z - 1 / 2) ^ 2 - 1 / (z + 1 / 2) ^ 2 := by
  have h1 : 0 < z - 1 / 2 := by linarith
  have h0 : 0 < z := by linarith
  have e : 1 / (z - 1 / 2) ^ 2 - 1 / (z + 1 / 2) ^ 2 = 2 * z / ((z - 1 / 2) * (z + 1 / 2)) ^ 2 := by
    have : 0 < z + 1 / 2 := by linarith
    rw [div_sub_div _ _ (pow_pos h1 2).ne' (pow_pos this 2).ne', mul_pow]
    congr 1; ring
  rw [e, div_le_div_iff₀ (by positivity) (by positivity)]
  have h2 : (z - 1 / 2) * (z + 1 / 2) ≤ z ^ 2 := by nlinarith
  have h3 : ((z - 1 / 2) * (z + 1 / 2)) ^ 2 ≤ (z ^ 2) ^ 2 := pow_le_pow_left₀ (by positivity) h2 2
  calc 2 * ((z - 1 / 2) * (z + 1 / 2)) ^ 2 ≤ 2 * (z ^ 2) ^ 2 := by linarith
    _ = _ := by ring

theorem w0_le {y : ℝ} (hy : 0 ≤ y) : w0 y ≤ v0 y - v0 (y + 1) := by
  have h1 := inv_sq_le (z := y + 1) (by linarith)
  have h2 := inv_sq_le (z := y + 100) (by linarith)
  have e : v0 y - v0 (y + 1) = 1 / 10 ^ 16 * (1 / (y + 1 - 1 / 2) - 1 / (y + 1 + 1 / 2)) +
      2 / 10 ^ 14 * (1 / (y + 100 - 1 / 2) - 1 / (y + 100 + 1 / 2)) := by
    rw [v0, v0, show y + 1 - 1 / 2 = y + 1 / 2 by ring, show y + 100 - 1 / 2 = y + 199 / 2 by ring,
      show y + 100 + 1 / 2 = y + 1 + 199 / 2 by ring]
    ring
  have e2 : w0 y = 1 / 10 ^ 16 * (1 / (y + 1) ^ 2) + 2 / 10 ^ 14 * (1 / (y + 100) ^ 2) := by rw [w0]; ring
  rw [e, e2]
  exact add_le_add (mul_le_mul_of_nonneg_left h1 (by norm_num)) (mul_le_mul_of_nonneg_left h2 (by norm_num))

theorem w1_le {y : ℝ} (hy : 0 ≤ y) : w1 y ≤ v1 y - v1 (y + 1) := by
  have h1 := inv_cube_le (z := y + 1) (by linarith)
  have h2 := inv_cube_le (z := y + 100) (by linarith)
  have e : v1 y - v1 (y + 1) = 1 / 10 ^ 16 * (1 / (y + 1 - 1 / 2) ^ 2 - 1 / (y + 1 + 1 / 2) ^ 2) +
      2 / 10 ^ 14 * (1 / (y + 100 - 1 / 2) ^ 2 - 1 / (y + 100 + 1 / 2) ^ 2) := by
    rw [v1, v1, show y + 1 - 1 / 2 = y + 1 / 2 by ring, show y + 100 - 1 / 2 = y + 199 / 2 by ring,
      show y + 100 + 1 / 2 = y + 1 + 199 / 2 by ring]
    ring
  have e2 : w1 y = 1 / 10 ^ 16 * (2 / (y + 1) ^ 3) + 2 / 10 ^ 14 * (2 / (y + 100) ^ 3) := by rw [w1]; ring
  rw [e, e2]
  exact add_le_add (mul_le_mul_of_nonneg_left h1 (by norm_num)) (mul_le_mul_of_nonneg_left h2 (by norm_num))

theorem sum_le {w v : ℝ → ℝ} (h : ∀ y, 0 ≤ y → w y ≤ v y - v (y + 1)) (hv : ∀ y, 0 ≤ y → 0 ≤ v y) {x : ℝ} (hx : 0 ≤ x) (n : ℕ) :
    ∑ j ∈ Finset.range n, w (x + j) ≤ v x := by
  have key : ∑ j ∈ Finset.range n, w (x + j) ≤ v x - v (x + n) := by
    induction n with
    | zero => simp
    | succ n ih =>
      have hn : (0 : ℝ) ≤ n := Nat.cast_nonneg n
      rw [Finset.sum_range_succ]
      have := h (x + n) (by linarith)
      push_cast
      rw [← add_assoc]
      linarith
  have := hv (x + n) (by positivity)
  linarith

theorem v0_nonneg {y : ℝ} (hy : 0 ≤ y) : 0 ≤ v0 y := by rw [v0]; positivity
theorem v1_nonneg {y : ℝ} (hy : 0 ≤ y) : 0 ≤ v1 y := by rw [v1]; positivity

theorem sum_k_le {x : ℝ} (hx : 0 ≤ x) (n : ℕ) : |∑ j ∈ Finset.range n, k (x + j)| ≤ v0 x :=
  (Finset.abs_sum_le_sum_abs _ _).trans ((Finset.sum_le_sum fun j _ => k_bound (by positivity)).trans
    (sum_le (fun _ h => w0_le h) (fun _ h => v0_nonneg h) hx n))

theorem w1_anti {x y : ℝ} (hx : 0 ≤ x) (h : x ≤ y) : w1 y ≤ w1 x := by
  rw [w1, w1]
  apply add_le_add <;> apply div_le_div_of_nonneg_left (by norm_num) (by positivity) <;> apply pow_le_pow_left₀ (by linarith) (by linarith)

theorem k_lip {x y : ℝ} (hx : 0 ≤ x) (h : x ≤ y) : |k y - k x| ≤ w1 x * (y - x) := by
  have := (convex_Icc x y).norm_image_sub_le_of_norm_hasDerivWithin_le (f := k) (f' := k1) (C := w1 x)
    (fun z hz => (hasDerivAt_k (hx.trans hz.1)).hasDerivWithinAt)
    (fun z hz => by rw [norm_eq_abs]; exact (k1_bound (hx.trans hz.1)).trans (w1_anti hx hz.1))
    (Set.left_mem_Icc.2 h) (Set.right_mem_Icc.2 h)
  rwa [norm_eq_abs, norm_eq_abs, abs_of_nonneg (by linarith : 0 ≤ y - x)] at this

theorem sum_k_lip {x y : ℝ} (hx : 0 ≤ x) (h : x ≤ y) (n : ℕ) :
    |∑ j ∈ Finset.range n, k (y + j) - ∑ j ∈ Finset.range n, k (x + j)| ≤ v1 x * (y - x) := by
  rw [← Finset.sum_sub_distrib]
  refine (Finset.abs_sum_le_sum_abs _ _).trans ?_
  have h1 : ∀ j ∈ Finset.range n, |k (y + j) - k (x + j)| ≤ w1 (x + j) * (y - x) := fun j _ => by
    have := k_lip (x := x + j) (y := y + j) (by positivity) (by linarith)
    rwa [show y + (j : ℝ) - (x + j) = y - x by ring] at this
  refine (Finset.sum_le_sum h1).trans ?_
  rw [← Finset.sum_mul]
  exact mul_le_mul_of_nonneg_right (sum_le (fun _ h => w1_le h) (fun _ h => v1_nonneg h) hx n) (by linarith)

/-! ### The gamma function -/

/-- What is left of the formula at infinity: the leading coefficient is not exactly `√(2π)`. -/
def cInf : ℝ := log (cLast / 10 ^ 49) - log (√(2 * π))

theorem seq_eq {x : ℝ} (hx : 0 < x) (n : ℕ) :
    BohrMollerup.logGammaSeq x n = Lam x + ∑ j ∈ Finset.range (n + 1), k (x + j) -
      (Lam (x + ((n + 1 : ℕ) : ℝ)) - x * log n - log n.factorial) := by
  rw [Lam_add hx, BohrMollerup.logGammaSeq]; ring

theorem tendsto_cInf (x : ℝ) (hx : 0 < x) :
    Tendsto (fun n : ℕ => Lam (x + ((n + 1 : ℕ) : ℝ)) - x * log n - log n.factorial) atTop (𝓝 cInf) := by
  have hg := gR_bounds
  have hcast : Tendsto (fun n : ℕ => (n : ℝ)) atTop atTop := tendsto_natCast_atTop_atTop
  -- the rational part
  have hz : Tendsto (fun n : ℕ => x + ((n + 1 : ℕ) : ℝ)) atTop atTop := by
    refine ((tendsto_shift (x + 1)).comp hcast).congr fun n => ?_
    simp only [Function.comp]; push_cast; ring
  have h1 := (((tendsto_pA.comp hz).div_const (10 ^ 49)).div (tendsto_pDen.comp hz) one_ne_zero).log
    (by rw [div_one]; exact (div_pos cLast_pos (by positivity)).ne')
  rw [div_one] at h1
  -- Stirling
  have h2 : Tendsto (fun n : ℕ => log n.factorial - 1 / 2 * log (2 * n) - n * log (n / exp 1)) atTop (𝓝 (log √π)) := by
    have := (Stirling.tendsto_stirlingSeq_sqrt_pi).log (Real.sqrt_pos.2 pi_pos).ne'
    exact this.congr fun n => Stirling.log_stirlingSeq_formula n
  -- the logarithm
  have h3 : Tendsto (fun n : ℕ => (n : ℝ) * log (1 + (x + 1 / 2 + gR) / n)) atTop (𝓝 (x + 1 / 2 + gR)) :=
    (tendsto_mul_log_one_add_div_atTop (x + 1 / 2 + gR)).comp hcast
  have h4 : Tendsto (fun n : ℕ => ((n : ℝ) + (x + 1 / 2)) / (n + 0)) atTop (𝓝 1) := (tendsto_ratio (x + 1 / 2) 0).comp hcast
  have h5 := h4.mul h3
  have h6 := ((h1.sub h2).add h5).sub_const (x + 1 / 2 + gR + log √2)
  have e : log (cLast / 10 ^ 49) - log √π + 1 * (x + 1 / 2 + gR) - (x + 1 / 2 + gR + log √2) = cInf := by
    rw [cInf, Real.sqrt_mul (by norm_num), log_mul (by positivity) (Real.sqrt_pos.2 pi_pos).ne']
    ring
  rw [e] at h6
  refine h6.congr' ?_
  filter_upwards [eventually_gt_atTop 0] with n hn
  have hn' : (0 : ℝ) < n := by exact_mod_cast hn
  have hz0 : 0 < x + ((n + 1 : ℕ) : ℝ) := by positivity
  simp only [Function.comp, Pi.div_apply]
  rw [Lam]
  set z := x + ((n + 1 : ℕ) : ℝ) with hzd
  have hA := pA_pos hz0.le
  have hD := pDen_pos hz0
  have e1 : peval pA z / z ^ 12 / 10 ^ 49 / (peval pDen z / z ^ 12) = peval pA z / 10 ^ 49 / peval pDen z := by
    field_simp
  have e2 : (1 : ℝ) + (x + 1 / 2 + gR) / n = (z + gR - 1 / 2) / n := by rw [hzd]; push_cast; field_simp; ring
  have e3 : log ((n : ℝ) / exp 1) = log n - 1 := by rw [log_div hn'.ne' (exp_pos 1).ne', log_exp]
  have e4 : log (2 * (n : ℝ)) = log 2 + log n := log_mul (by norm_num) hn'.ne'
  have e5 : log √2 = 1 / 2 * log 2 := by rw [Real.log_sqrt (by norm_num)]; ring
  have e6 : (n : ℝ) + (x + 1 / 2) = z - 1 / 2 := by rw [hzd]; push_cast; ring
  have hzp : 0 < z + gR - 1 / 2 := by
    have : (1 : ℝ) ≤ ((n + 1 : ℕ) : ℝ) := by push_cast; linarith
    linarith
  rw [e1, e2, e3, e4, e5, e6, log_div hzp.ne' hn'.ne', add_zero, ← mul_assoc, div_mul_cancel₀ _ hn'.ne']
  have hx1 : x = z - n - 1 := by rw [hzd]; push_cast; ring
  rw [hx1]
  ring

/-- The Lanczos formula against `log Γ`, for every positive argument. -/
theorem Lam_gamma {x : ℝ} (hx : 0 < x) : |log (Gamma x) - (Lam x - cInf)| ≤ v0 x := by
  have h1 := (BohrMollerup.tendsto_log_gamma hx).sub_const (Lam x)
  have h2 := (h1.add (tendsto_cInf x hx)).abs
  rw [show log (Gamma x) - Lam x + cInf = log (Gamma x) - (Lam x - cInf) by ring] at h2
  refine le_of_tendsto h2 (Eventually.of_forall fun n => ?_)
  rw [seq_eq hx]
  refine le_trans (le_of_eq ?_) (sum_k_le hx.le (n + 1))
  congr 1; ring

/-- Differences of `log Γ`. -/
theorem Lam_gamma_lip {x y : ℝ} (hx : 0 < x) (h : x ≤ y) :
    |(log (Gamma y) - log (Gamma x)) - (Lam y - Lam x)| ≤ v1 x * (y - x) := by
  have hy : 0 < y := by linarith
  have h1 := (((BohrMollerup.tendsto_log_gamma hy).add (tendsto_cInf y hy)).sub
    ((BohrMollerup.tendsto_log_gamma hx).add (tendsto_cInf x hx))).sub_const (Lam y - Lam x)
  have h2 := h1.abs
  rw [show log (Gamma y) + cInf - (log (Gamma x) + cInf) - (Lam y - Lam x) = (log (Gamma y) - log (Gamma x)) - (Lam y - Lam x) by ring] at h2
  refine le_of_tendsto h2 (Eventually.of_forall fun n => ?_)
  rw [seq_eq hx, seq_eq hy]
  refine le_trans (le_of_eq ?_) (sum_k_lip hx.le h (n + 1))
  congr 1; ring

theorem cInf_bound : |cInf| ≤ 1 / 10 ^ 16 := by
  have hpi1 := pi_gt_d20
  have hpi2 := pi_lt_d20
  have e : cInf = 1 / 2 * log ((cLast / 10 ^ 49) ^ 2 / (2 * π)) := by
    have h := div_pos cLast_pos (by positivity : (0 : ℝ) < 10 ^ 49)
    rw [cInf, Real.log_sqrt (by positivity), log_div (pow_pos h 2).ne' (by positivity), log_pow]
    push_cast; ring
  set q := (cLast / 10 ^ 49) ^ 2 / (2 * π) with hq
  have hq1 : 1 - 1.9 / 10 ^ 16 ≤ q := by
    rw [hq, le_div_iff₀ (by positivity), cLast]
    norm_num at hpi2 ⊢
    linarith
  have hq2 : q ≤ 1 := by
    rw [hq, div_le_iff₀ (by positivity), cLast]
    norm_num at hpi1 ⊢
    linarith
  have hq0 : 0 < q := by norm_num at hq1; linarith
  have h1 : log q ≤ 0 := log_nonpos hq0.le hq2
  have h2 := one_sub_inv_le_log_of_pos hq0
  have h3 : q⁻¹ ≤ 1 + 2 / 10 ^ 16 := by
    rw [inv_le_comm₀ hq0 (by norm_num)]
    refine le_trans ?_ hq1
    norm_num
  rw [e, abs_le]
  norm_num at h3 ⊢
  constructor <;> linarith

end
end Ufunclab.Loggamma1p
