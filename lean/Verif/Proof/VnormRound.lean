import Verif.Proof.CorrRound
import Verif.Spec.FloatArith
/-!
# Auxiliary facts for C82: sums of products in floating point
-/
namespace Ufunclab.Float
open Finset Ufunclab.Corr
variable {p : ℕ} {emin : ℤ} {rd : ℝ → ℝ}

theorem add_val (a b : Fl rd) : (a + b).val = rd (a.val + b.val) := rfl
theorem sub_val (a b : Fl rd) : (a - b).val = rd (a.val - b.val) := rfl
theorem mul_val (a b : Fl rd) : (a * b).val = rd (a.val * b.val) := rfl
theorem zero_val : (0 : Fl rd).val = 0 := rfl

theorem foldl_val (l : List (Fl rd)) : ∀ a : Fl rd, (l.foldl (· + ·) a).val = rsum rd a.val (l.map Fl.val) := by
  induction l with
  | nil => intro a; rfl
  | cons t l ih => intro a; rw [List.foldl_cons, ih, List.map_cons, rsum, add_val]

theorem rsum_cons_zero (h : Nearest p emin rd) (l : List ℝ) : ∀ r, IsFloat p emin r → IsFloat p emin (rsum rd r l) := by
  induction l with
  | nil => intro r hr; exact hr
  | cons t l ih => intro r _; exact ih _ (h _).1

theorem rsum_nonneg (h : Nearest p emin rd) (l : List ℝ) : ∀ r, 0 ≤ r → (∀ v ∈ l, 0 ≤ v) → 0 ≤ rsum rd r l := by
  induction l with
  | nil => intro r hr _; exact hr
  | cons t l ih =>
    intro r hr hl
    exact ih _ (h.mono_float isFloat_zero (add_nonneg hr (hl t (by simp)))) (fun v hv => hl v (by simp [hv]))

theorem isFloat_int (hp : 1 ≤ p) (he : emin ≤ 0) (v : ℤ) (hv : |v| ≤ 2 ^ p) : IsFloat p emin (v : ℝ) := by
  have : IsFloat p emin ((v.natAbs : ℕ) : ℝ) := Mad.isFloat_nat hp he (by zify; exact hv)
  rcases Int.natAbs_eq v with e | e
  · have e' : (v : ℝ) = ((v.natAbs : ℕ) : ℝ) := by rw [← Int.cast_natCast, ← e]
    rw [e']; exact this
  · have e' : (v : ℝ) = -((v.natAbs : ℕ) : ℝ) := by rw [← Int.cast_natCast, ← Int.cast_neg, ← e]
    rw [e']; exact this.neg

/-- Sums of integers are exact as long as they fit. -/
theorem rsum_int (h : Nearest p emin rd) (hp : 1 ≤ p) (he : emin ≤ 0) (l : List ℤ) : ∀ r : ℤ, |r| + (l.map abs).sum ≤ 2 ^ p →
    rsum rd (r : ℝ) (l.map Int.cast) = ((r + l.sum : ℤ) : ℝ) := by
  induction l with
  | nil => intro r _; simp [rsum]
  | cons t l ih =>
    intro r hr
    simp only [List.map_cons, List.sum_cons] at hr
    have hl : 0 ≤ (l.map abs).sum := List.sum_nonneg (by intro v hv; obtain ⟨w, _, rfl⟩ := List.mem_map.1 hv; exact abs_nonneg w)
    have ht := abs_add_le r t
    have e : rd ((r : ℝ) + t) = ((r + t : ℤ) : ℝ) := by
      rw [← Int.cast_add]; exact h.exact (isFloat_int hp he _ (by omega))
    rw [List.map_cons, rsum, e, ih (r + t) (by omega), List.sum_cons]
    congr 1; ring

/-- A rounded sum of terms that carry errors. -/
theorem rsum_terms (h : Nearest p emin rd) (hp : 1 ≤ p) (n : ℕ) (t τ : ℕ → ℝ) (ft : ∀ k < n, IsFloat p emin (t k)) {a b : ℝ}
    (he : ∀ k < n, |t k - τ k| ≤ a * |τ k| + b) :
    |rsum rd 0 ((List.range n).map t) - ∑ k ∈ range n, τ k| ≤
      ((1 + (2 ^ p)⁻¹) ^ n * (1 + a) - 1) * ∑ k ∈ range n, |τ k| + (1 + (2 ^ p)⁻¹) ^ n * (n * b) := by
  have h1 := rsum_error h hp ((List.range n).map t) 0 isFloat_zero (by
    intro v hv; obtain ⟨w, hw, rfl⟩ := List.mem_map.1 hv; exact ft w (List.mem_range.1 hw))
  rw [zero_add, abs_zero, zero_add, List.length_map, List.length_range, List.map_map, List.range_eq_range', sum_range',
    sum_range'] at h1
  rw [List.range_eq_range']
  simp only [Function.comp] at h1
  have h2 : |∑ k ∈ range n, t k - ∑ k ∈ range n, τ k| ≤ a * ∑ k ∈ range n, |τ k| + n * b := by
    rw [← sum_sub_distrib]
    calc |∑ k ∈ range n, (t k - τ k)| ≤ ∑ k ∈ range n, |t k - τ k| := abs_sum_le_sum_abs _ _
      _ ≤ ∑ k ∈ range n, (a * |τ k| + b) := sum_le_sum (fun k hk => he k (mem_range.1 hk))
      _ = _ := by rw [sum_add_distrib, ← mul_sum]; simp
  have h3 : ∑ k ∈ range n, |t k| ≤ (1 + a) * ∑ k ∈ range n, |τ k| + n * b := by
    calc ∑ k ∈ range n, |t k| ≤ ∑ k ∈ range n, (|τ k| + (a * |τ k| + b)) := by
          apply sum_le_sum
          intro k hk
          have e : t k = τ k + (t k - τ k) := by ring
          rw [congrArg abs e]
          exact (abs_add_le _ _).trans (add_le_add le_rfl (he k (mem_range.1 hk)))
      _ = _ := by rw [sum_add_distrib, sum_add_distrib, ← mul_sum]; simp; ring
  have hu0 : (0 : ℝ) ≤ (2 ^ p)⁻¹ := by positivity
  have hP : 1 ≤ (1 + ((2 : ℝ) ^ p)⁻¹) ^ n := one_le_pow₀ (by linarith)
  have h4 := mul_le_mul_of_nonneg_left h3 (by linarith : 0 ≤ (1 + ((2 : ℝ) ^ p)⁻¹) ^ n - 1)
  calc _ ≤ _ := abs_sub_le _ (∑ k ∈ range n, t k) _
    _ ≤ ((1 + (2 ^ p)⁻¹) ^ n - 1) * ((1 + a) * ∑ k ∈ range n, |τ k| + n * b) + (a * ∑ k ∈ range n, |τ k| + n * b) :=
      add_le_add (h1.trans h4) h2
    _ = _ := by ring

/-- Division by `n` and square root. -/
theorem root_error (h : Nearest p emin rd) (hp : 10 ≤ p) (he : emin ≤ -2 * p) (n : ℕ) (hn0 : 1 ≤ n) (hn : 100 * ((n : ℝ) + 1) ≤ 2 ^ p)
    {s S e : ℝ} (hS : 2 ^ emin * (2 ^ p) ^ 2 ≤ S) (hs : |s - S| ≤ e * S) (he0 : 0 ≤ e) (he1 : e ≤ 0.02) :
    |rd (Real.sqrt (rd (s / rd n))) - Real.sqrt (S / n)| ≤ (0.51 * e + 1.6 * (2 ^ p)⁻¹) * Real.sqrt (S / n) := by
  have hu0 : (0 : ℝ) < (2 ^ p)⁻¹ := by positivity
  have hu := Mad.unit_le_thousandth (K := ℝ) hp
  have hη0 : (0 : ℝ) < 2 ^ emin / 2 := by positivity
  have hηu : (2 : ℝ) ^ emin / 2 ≤ (2 ^ p)⁻¹ * (2 ^ p)⁻¹ := by
    have := eta_le (emin := emin) he
    have : (0 : ℝ) < (2 ^ p)⁻¹ * (2 ^ p)⁻¹ := by positivity
    linarith
  have hnp : (0 : ℝ) < n := by exact_mod_cast hn0
  have hnu : (n : ℝ) * (2 ^ p)⁻¹ ≤ 1 / 100 := by
    rw [← div_eq_mul_inv, div_le_iff₀ (by positivity)]; linarith
  have hrn : rd n = n := by
    apply h.exact; apply Mad.isFloat_nat (by omega) (by omega)
    have : (n : ℝ) ≤ 2 ^ p := by linarith
    exact_mod_cast this
  have herr := fun z => h.error (by omega) z
  have hS0 : 0 < S := lt_of_lt_of_le (by positivity) hS
  obtain ⟨T, hT⟩ : ∃ T, T = S / n := ⟨_, rfl⟩
  have hT0 : 0 < T := by rw [hT]; positivity
  have hST : S = T * n := by rw [hT]; field_simp
  have hηT : (2 : ℝ) ^ emin / 2 ≤ 0.005 * ((2 ^ p)⁻¹ * T) := by
    have e1 : (2 : ℝ) ^ emin = (2 ^ p)⁻¹ * ((2 ^ p)⁻¹ * (2 ^ emin * (2 ^ p) ^ 2)) := by field_simp
    have k : (2 ^ p)⁻¹ * ((2 ^ p)⁻¹ * ((2 : ℝ) ^ emin * (2 ^ p) ^ 2)) ≤ (2 ^ p)⁻¹ * ((2 ^ p)⁻¹ * S) :=
      mul_le_mul_of_nonneg_left (mul_le_mul_of_nonneg_left hS hu0.le) hu0.le
    rw [← e1, hST] at k
    have k2 : (2 ^ p)⁻¹ * ((2 ^ p)⁻¹ * (T * n)) = ((n : ℝ) * (2 ^ p)⁻¹) * ((2 ^ p)⁻¹ * T) := by ring
    have k3 : ((n : ℝ) * (2 ^ p)⁻¹) * ((2 ^ p)⁻¹ * T) ≤ 1 / 100 * ((2 ^ p)⁻¹ * T) := mul_le_mul_of_nonneg_right hnu (by positivity)
    rw [k2] at k
    generalize ((2 : ℝ) ^ p)⁻¹ * T = a at *
    norm_num; linarith
  rw [hrn, ← hT]
  have hsn : |s / n - T| ≤ e * T := by
    rw [hT, ← sub_div, abs_div, abs_of_pos hnp, ← mul_div_assoc]
    exact div_le_div_of_nonneg_right hs hnp.le
  generalize s / n = w at *
  have hηu2 : (2 : ℝ) ^ emin / 2 ≤ 0.001 * (2 ^ p)⁻¹ := by
    refine hηu.trans ?_
    have := mul_le_mul_of_nonneg_right hu hu0.le
    norm_num at *; linarith
  clear hn hS hnu hηu
  generalize ((2 : ℝ) ^ p)⁻¹ = u at *
  generalize (2 : ℝ) ^ emin / 2 = η at *
  have hq := herr w
  have huT : 0 ≤ u * T := by positivity
  have heT : 0 ≤ e * T := by positivity
  have hueT : u * (e * T) ≤ u * (0.02 * T) := mul_le_mul_of_nonneg_left (mul_le_mul_of_nonneg_right he1 hT0.le) hu0.le
  have heT' : e * T ≤ 0.02 * T := mul_le_mul_of_nonneg_right he1 hT0.le
  have hw0 : 0 ≤ w := by have := (abs_le.1 hsn).1; norm_num at *; linarith
  rw [abs_of_nonneg hw0] at hq
  have huw : u * w ≤ u * (T + e * T) := mul_le_mul_of_nonneg_left (by linarith [(abs_le.1 hsn).2]) hu0.le
  generalize rd w = q at *
  have hqT : |q - T| ≤ e * T + 1.03 * (u * T) := by
    calc |q - T| = |(q - w) + (w - T)| := by congr 1; ring
      _ ≤ _ := abs_add_le _ _
      _ ≤ _ := by norm_num at *; linarith
  set r := Real.sqrt T with hr
  have hr0 : 0 < r := Real.sqrt_pos.2 hT0
  have hrr : r * r = T := Real.mul_self_sqrt hT0.le
  have huT' : u * T ≤ 1 / 1000 * T := mul_le_mul_of_nonneg_right hu hT0.le
  have hq1 : 0.98 ^ 2 * T ≤ q := by have := (abs_le.1 hqT).1; norm_num at *; linarith
  have hq0 : 0 ≤ q := le_trans (by positivity) hq1
  have hqs : 0.98 * r ≤ Real.sqrt q := by
    calc 0.98 * r = Real.sqrt (0.98 ^ 2 * T) := by rw [Real.sqrt_mul (by norm_num), Real.sqrt_sq (by norm_num)]
      _ ≤ _ := Real.sqrt_le_sqrt hq1
  have hqq : Real.sqrt q * Real.sqrt q = q := Real.mul_self_sqrt hq0
  have hd : |Real.sqrt q - r| ≤ (0.506 * e + 0.53 * u) * r := by
    have e1 : |Real.sqrt q - r| * (Real.sqrt q + r) = |q - T| := by
      rw [← abs_of_pos (by linarith [Real.sqrt_nonneg q] : 0 < Real.sqrt q + r), ← abs_mul]
      congr 1
      linear_combination hqq - hrr
    have e2 : |Real.sqrt q - r| * (1.98 * r) ≤ e * T + 1.03 * (u * T) := by
      calc _ ≤ |Real.sqrt q - r| * (Real.sqrt q + r) := mul_le_mul_of_nonneg_left (by norm_num at *; linarith) (abs_nonneg _)
        _ ≤ _ := by rw [e1]; exact hqT
    have e3 : (1.98 * |Real.sqrt q - r|) * r ≤ ((e + 1.03 * u) * r) * r := by
      calc _ = |Real.sqrt q - r| * (1.98 * r) := by ring
        _ ≤ _ := e2
        _ = _ := by rw [← hrr]; ring
    have e4 := le_of_mul_le_mul_right e3 hr0
    have e5 : 0 ≤ e * r := by positivity
    have e6 : 0 ≤ u * r := by positivity
    rw [add_mul] at e4 ⊢
    norm_num at *; linarith
  have hηr : η ≤ 0.01 * (u * r) := by
    refine (pow_le_pow_iff_left₀ hη0.le (by positivity) two_ne_zero).1 ?_
    calc η ^ 2 = η * η := sq η
      _ ≤ (0.001 * u) * (0.005 * (u * T)) := mul_le_mul hηu2 hηT hη0.le (by positivity)
      _ ≤ (0.01 * (u * r)) ^ 2 := by
        have : (0.01 * (u * r)) ^ 2 = 0.0001 * (u * (u * T)) := by rw [← hrr]; ring
        rw [this]
        have : 0 ≤ u * (u * T) := by positivity
        norm_num at *; linarith
  have h7 := herr (Real.sqrt q)
  rw [abs_of_nonneg (Real.sqrt_nonneg q)] at h7
  have h8 : Real.sqrt q ≤ 1.02 * r := by
    have := (abs_le.1 hd).2
    have k1 : e * r ≤ 0.02 * r := mul_le_mul_of_nonneg_right he1 hr0.le
    have k2 : u * r ≤ 1 / 1000 * r := mul_le_mul_of_nonneg_right hu hr0.le
    rw [add_mul] at this
    norm_num at *; linarith
  have h9 := mul_le_mul_of_nonneg_left h8 hu0.le
  have k1 : 0 ≤ e * r := by positivity
  have k2 : 0 ≤ u * r := by positivity
  calc |rd (Real.sqrt q) - r| = |(rd (Real.sqrt q) - Real.sqrt q) + (Real.sqrt q - r)| := by congr 1; ring
    _ ≤ _ := abs_add_le _ _
    _ ≤ _ := by norm_num at *; linarith

end Ufunclab.Float
