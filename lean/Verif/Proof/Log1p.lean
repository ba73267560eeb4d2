import Verif.Proof.Mem
import Verif.Proof.Log1pSum
import Verif.Proof.Log1pArg
import Verif.Proof.XF
/-! # Accuracy of log1p_doubledouble -/
set_option exponentiation.threshold 3000
namespace Ufunclab.Log1p
open Ufunclab.Float XF

/-- A rounding that is accurate to six digits. -/
def Crude (rd : ℝ → ℝ) : Prop := ∀ z, |rd z - z| ≤ (|z| + 1) / 10 ^ 6

theorem crude53 {rd : ℝ → ℝ} (h : Nearest 53 (-1074) rd) : Crude rd := by
  intro z
  have := err53 h z
  have h1 : u53 ℝ ≤ 1 / 10 ^ 6 := by rw [u53]; norm_num
  have h2 : eta ℝ ≤ 1 / 10 ^ 6 := by rw [eta]; norm_num
  have := mul_le_mul_of_nonneg_right h1 (abs_nonneg z)
  linarith

theorem err24 {rf : ℝ → ℝ} (h : Nearest 24 (-149) rf) (z : ℝ) : |rf z - z| ≤ 1 / 2 ^ 24 * |z| + 1 / 2 ^ 150 := by
  have h1 := h.error (by norm_num) z
  have h2 : (2 : ℝ) ^ (-149 : ℤ) = 1 / 2 ^ 149 := zpow_neg_nat 149
  rw [h2, ← one_div] at h1
  refine h1.trans (le_of_eq ?_)
  norm_num

theorem crude24 {rf : ℝ → ℝ} (h : Nearest 24 (-149) rf) : Crude rf := by
  intro z
  have := err24 h z
  have h1 : (1 : ℝ) / 2 ^ 24 ≤ 1 / 10 ^ 6 := by norm_num
  have h2 : (1 : ℝ) / 2 ^ 150 ≤ 1 / 10 ^ 6 := by norm_num
  have := mul_le_mul_of_nonneg_right h1 (abs_nonneg z)
  linarith

/-- The test of the code: near the unit circle with centre -1. -/
def Near (rd : ℝ → ℝ) (x y : ℝ) : Prop :=
  ((-rd 2.2 < x ∧ x < rd 0.2) ∧ -rd 1.2 < y) ∧ y < rd 1.2

def Near2 (rd : ℝ → ℝ) (x y : ℝ) : Prop := |rd (rd (x * rd (2 + x)) + rd (y * y))| < rd 0.4

theorem near_bounds {rd : ℝ → ℝ} (h : Crude rd) {x y : ℝ} (hn : Near rd x y) : |x| ≤ 2.21 ∧ |y| ≤ 1.21 := by
  obtain ⟨⟨⟨h1, h2⟩, h3⟩, h4⟩ := hn
  have c1 := abs_le.1 (h 2.2)
  have c2 := abs_le.1 (h 0.2)
  have c3 := abs_le.1 (h 1.2)
  norm_num [abs_of_pos] at c1 c2 c3
  constructor <;> rw [abs_le] <;> constructor <;> linarith

theorem guard_err {rd : ℝ → ℝ} (h : Crude rd) {x y : ℝ} (hx : |x| ≤ 2.21) (hy : |y| ≤ 1.21) :
    |rd (rd (x * rd (2 + x)) + rd (y * y)) - (x * x + 2 * x + y * y)| ≤ 1 / 1000 := by
  have e1 := h (2 + x)
  set w := rd (2 + x)
  have e2 := h (x * w)
  set v := rd (x * w)
  have e3 := h (y * y)
  set t := rd (y * y)
  have e4 := h (v + t)
  have ax := abs_le.1 hx
  have b1 : |2 + x| ≤ 4.21 := by rw [abs_le]; constructor <;> linarith
  have b2 : |w - (2 + x)| ≤ 6 / 10 ^ 6 := e1.trans (by linarith)
  have a2 := abs_le.1 b2
  have b3 : |w| ≤ 4.3 := by rw [abs_le] at b1 ⊢; constructor <;> linarith
  have b4 : |x * w - x * (2 + x)| ≤ 14 / 10 ^ 6 := by
    rw [← mul_sub, abs_mul]
    calc |x| * |w - (2 + x)| ≤ 2.21 * (6 / 10 ^ 6) := mul_le_mul hx b2 (abs_nonneg _) (by norm_num)
      _ ≤ _ := by norm_num
  have b5 : |x * w| ≤ 9.6 := by
    rw [abs_mul]
    calc |x| * |w| ≤ 2.21 * 4.3 := mul_le_mul hx b3 (abs_nonneg _) (by norm_num)
      _ ≤ _ := by norm_num
  have b6 : |v - x * w| ≤ 11 / 10 ^ 6 := e2.trans (by linarith)
  have b7 : |y * y| ≤ 1.5 := by
    rw [abs_mul]
    calc |y| * |y| ≤ 1.21 * 1.21 := mul_le_mul hy hy (abs_nonneg _) (by norm_num)
      _ ≤ _ := by norm_num
  have b8 : |t - y * y| ≤ 3 / 10 ^ 6 := e3.trans (by linarith)
  have a4 := abs_le.1 b4
  have a5 := abs_le.1 b5
  have a6 := abs_le.1 b6
  have a7 := abs_le.1 b7
  have a8 := abs_le.1 b8
  have b9 : |v + t| ≤ 12 := by rw [abs_le]; constructor <;> linarith
  have a9 := abs_le.1 (e4.trans (show (|v + t| + 1) / 10 ^ 6 ≤ 13 / 10 ^ 6 by linarith))
  rw [abs_le]; constructor <;> nlinarith

theorem near_E {rd : ℝ → ℝ} (h : Crude rd) {x y : ℝ} (hn : Near rd x y) (hn2 : Near2 rd x y) :
    |x * x + 2 * x + y * y| ≤ 0.41 := by
  obtain ⟨hx, hy⟩ := near_bounds h hn
  have g := abs_le.1 (guard_err h hx hy)
  have c := abs_le.1 (h 0.4)
  norm_num [abs_of_pos] at c
  rw [Near2] at hn2
  have := abs_lt.1 hn2
  rw [abs_le]; constructor <;> linarith

theorem far_E {rd : ℝ → ℝ} (h : Crude rd) {x y : ℝ} (hn : ¬(Near rd x y ∧ Near2 rd x y)) :
    0.39 ≤ |x * x + 2 * x + y * y| := by
  by_cases h1 : Near rd x y
  · have h2 : ¬Near2 rd x y := fun c => hn ⟨h1, c⟩
    obtain ⟨hx, hy⟩ := near_bounds h h1
    have g := abs_le.1 (guard_err h hx hy)
    have c := abs_le.1 (h 0.4)
    norm_num [abs_of_pos] at c
    rw [Near2, not_lt] at h2
    rw [le_abs] at h2 ⊢
    rcases h2 with h2 | h2
    · left; linarith
    · right; linarith
  · rw [Near] at h1
    have c1 := abs_le.1 (h 2.2)
    have c2 := abs_le.1 (h 0.2)
    have c3 := abs_le.1 (h 1.2)
    norm_num [abs_of_pos] at c1 c2 c3
    rw [le_abs]
    left
    by_contra hc
    push Not at hc
    apply h1
    have := mul_self_nonneg y
    have := mul_self_nonneg (x + 1)
    refine ⟨⟨⟨?_, ?_⟩, ?_⟩, ?_⟩ <;> by_contra hd <;> push Not at hd <;> nlinarith

theorem one_add_E (x y : ℝ) : 1 + (x * x + 2 * x + y * y) = (x + 1) * (x + 1) + y * y := by ring

/-- Away from the circle the logarithm is not small. -/
theorem log_far {E : ℝ} (hE : 0.39 ≤ |E|) (h1 : 0 < 1 + E) : 0.28 ≤ |Real.log (1 + E)| := by
  rcases le_total 0 E with h0 | h0
  · rw [abs_of_nonneg h0] at hE
    have := Real.one_sub_inv_le_log_of_pos h1
    have h2 : (1 + E)⁻¹ ≤ (1.39)⁻¹ := inv_anti₀ (by norm_num) (by linarith)
    have h3 : (1.39 : ℝ)⁻¹ ≤ 0.72 := by norm_num
    exact le_trans (by linarith) (le_abs_self _)
  · rw [abs_of_nonpos h0] at hE
    have := Real.log_le_sub_one_of_pos h1
    exact le_trans (by linarith) (neg_le_abs _)

/-- Near the circle the logarithm is of the size of `E`. -/
theorem log_near {E : ℝ} (hE : |E| ≤ 0.41) : |E| ≤ 1.41 * |Real.log (1 + E)| := by
  have a := abs_le.1 hE
  have h1 : 0 < 1 + E := by linarith
  rcases le_total 0 E with h0 | h0
  · rw [abs_of_nonneg h0]
    have h2 := Real.one_sub_inv_le_log_of_pos h1
    have h3 : E ≤ 1.41 * (1 - (1 + E)⁻¹) := by
      rw [show 1 - (1 + E)⁻¹ = E / (1 + E) by field_simp; ring, ← mul_div_assoc, le_div_iff₀ h1]
      nlinarith
    have := le_abs_self (Real.log (1 + E))
    linarith
  · rw [abs_of_nonpos h0]
    have h2 := Real.log_le_sub_one_of_pos h1
    have := neg_le_abs (Real.log (1 + E))
    linarith

theorem log_hypot (X y : ℝ) : Real.log (√(X * X + y * y)) = Real.log (X * X + y * y) / 2 := by
  rw [Real.log_sqrt (add_nonneg (mul_self_nonneg _) (mul_self_nonneg _))]

theorem sq_add_sq_pos {X y : ℝ} (h : ¬(X = 0 ∧ y = 0)) : 0 < X * X + y * y := by
  rcases lt_or_eq_of_le (add_nonneg (mul_self_nonneg X) (mul_self_nonneg y)) with c | c
  · exact c
  · exfalso
    have h1 := mul_self_nonneg X
    have h2 := mul_self_nonneg y
    exact h ⟨mul_self_eq_zero.1 (by linarith), mul_self_eq_zero.1 (by linarith)⟩

/-- The branch away from the circle. -/
theorem far_err {x y X' u : ℝ} (hu0 : 0 ≤ u) (hu1 : u ≤ 1 / 1000) (hX : |X' - (x + 1)| ≤ u * |x + 1|)
    (hE : 0.39 ≤ |x * x + 2 * x + y * y|) (h0 : ¬(x + 1 = 0 ∧ y = 0)) :
    0 < √(X' * X' + y * y) ∧
    |Real.log (√(X' * X' + y * y)) - Real.log (√((x + 1) * (x + 1) + y * y))| ≤
      8 * u * |Real.log (√((x + 1) * (x + 1) + y * y))| := by
  have hp := sq_add_sq_pos h0
  have hn : 0 < √((x + 1) * (x + 1) + y * y) := Real.sqrt_pos.2 hp
  have he := hypot_err (y := y) hu0 (by linarith) hX
  have hlog : 0.14 ≤ |Real.log (√((x + 1) * (x + 1) + y * y))| := by
    rw [log_hypot, abs_div, abs_two]
    have := log_far hE (by rw [one_add_E]; exact hp)
    rw [one_add_E] at this
    linarith
  set n := √((x + 1) * (x + 1) + y * y)
  set h := √(X' * X' + y * y)
  have a := abs_le.1 he
  have hh : (1 - u) * n ≤ h := by linarith
  have hh0 : 0 < h := lt_of_lt_of_le (mul_pos (by linarith) hn) hh
  refine ⟨hh0, ?_⟩
  have hl := log_err hh0 hn (c := (1 - u) * n) (mul_pos (by linarith) hn) hh (by nlinarith)
  have h2 : |h - n| / ((1 - u) * n) ≤ 1.1 * u := by
    rw [div_le_iff₀ (mul_pos (by linarith) hn)]
    refine he.trans ?_
    have : 1 ≤ 1.1 * (1 - u) := by linarith
    have := mul_le_mul_of_nonneg_left this (mul_nonneg hu0 hn.le)
    linarith
  have h3 : 1.1 * u ≤ 8 * u * 0.14 := by linarith
  have h4 : 8 * u * 0.14 ≤ 8 * u * |Real.log n| := mul_le_mul_of_nonneg_left hlog (by linarith)
  linarith

/-- The branch near the circle, `S` being the computed value of `x² + 2x + y²`. -/
theorem near_err {x y S a b : ℝ} (ha0 : 0 ≤ a) (hb1 : 0 ≤ b) (hE : |x * x + 2 * x + y * y| ≤ 0.41)
    (hS : |S - (x * x + 2 * x + y * y)| ≤ a * |x * x + 2 * x + y * y| + b) (hb : a * 0.41 + b ≤ 0.01) :
    -1 < S ∧ |1 / 2 * Real.log (1 + S) - Real.log (√((x + 1) * (x + 1) + y * y))| ≤
      2.5 * a * |Real.log (√((x + 1) * (x + 1) + y * y))| + b := by
  have hlog : |x * x + 2 * x + y * y| ≤ 2.82 * |Real.log (√((x + 1) * (x + 1) + y * y))| := by
    rw [log_hypot, abs_div, abs_two, ← one_add_E]
    have := log_near hE
    linarith
  set E := x * x + 2 * x + y * y with hEd
  have hSb : |S - E| ≤ 0.01 := by
    refine hS.trans (le_trans ?_ hb)
    have := mul_le_mul_of_nonneg_left hE ha0
    linarith
  have c1 := abs_le.1 hE
  have c2 := abs_le.1 hSb
  refine ⟨by linarith, ?_⟩
  have hl := log_err (a := 1 + S) (b := 1 + E) (c := 0.58) (by linarith) (by linarith) (by norm_num) (by linarith)
    (by linarith)
  rw [show 1 + S - (1 + E) = S - E by ring] at hl
  rw [log_hypot, ← one_add_E, ← hEd] at hlog ⊢
  rw [show 1 / 2 * Real.log (1 + S) - Real.log (1 + E) / 2 = (Real.log (1 + S) - Real.log (1 + E)) / 2 by ring,
    abs_div, abs_two]
  have hb0 : 0 ≤ a * |E| + b := le_trans (abs_nonneg _) hS
  have h3 : |S - E| / 0.58 ≤ 1.73 * (a * |E| + b) := by
    rw [div_le_iff₀ (by norm_num)]; linarith
  have h4 := mul_le_mul_of_nonneg_left hlog ha0
  have h5 : 0 ≤ a * |Real.log (1 + E) / 2| := by positivity
  have h6 : |Real.log (1 + S) - Real.log (1 + E)| / 2 ≤ 0.87 * (a * |E| + b) := by linarith
  have h7 : 0.87 * (a * |E|) ≤ 2.5 * (a * |Real.log (1 + E) / 2|) := by linarith
  linarith

theorem doubledouble_fin (fma : Bool) (rd : ℝ → ℝ) (x y : ℝ) [Decidable (Near rd x y ∧ Near2 rd x y)] :
    doubledouble fma rd (.fin x, .fin y) =
      (if Near rd x y ∧ Near2 rd x y then rnd rd (mul (.fin (1 / 2)) (clog1p (.fin (xsqPlus2xPlusYsq fma rd x y))))
       else clogReal (.fin (√(rd (x + 1) * rd (x + 1) + y * y))), .fin (Complex.arg ⟨rd (x + 1), y⟩)) := by
  unfold doubledouble
  by_cases h1 : Near rd x y
  · have h1' := h1
    obtain ⟨⟨⟨a, b⟩, c⟩, d⟩ := h1'
    by_cases h2 : Near2 rd x y
    · rw [if_pos ⟨h1, h2⟩]
      unfold Near2 at h2
      simp [fadd, fmul, rnd, chypot, catan2, a, b, c, d, h2]
    · rw [if_neg fun c => h2 c.2]
      unfold Near2 at h2
      simp [fadd, fmul, rnd, chypot, catan2, a, b, c, d, h2]
  · rw [if_neg fun c => h1 c.1]
    unfold Near at h1
    have : ((x > -rd 2.2 ∧ x < rd 0.2) ∧ y > -rd 1.2) ∧ y < rd 1.2 ↔ False := by simpa using h1
    simp only [gt_fin, lt_fin, Bool.and_eq_true, decide_eq_true_eq, fadd, add_fin, rnd, chypot, catan2]
    rw [if_neg]
    simpa using h1

theorem doubledoubleF_fin (rf rd : ℝ → ℝ) (x y : ℝ) [Decidable (Near rf x y)] [Decidable (Near2 rf x y)] :
    doubledoubleF rf rd (.fin x, .fin y) =
      (if Near rf x y then (if Near2 rf x y then
          rnd rf (rnd rd (mul (.fin (1 / 2)) (clog1p (.fin (rd (rd (rd (x * x) + rd (2 * x)) + rd (y * y)))))))
        else clogReal (.fin (√(rf (x + 1) * rf (x + 1) + y * y))))
       else rnd rf (clogReal (.fin (√(rf (x + 1) * rf (x + 1) + y * y)))), .fin (Complex.arg ⟨rf (x + 1), y⟩)) := by
  unfold doubledoubleF
  by_cases h1 : Near rf x y
  · have h1' := h1
    obtain ⟨⟨⟨a, b⟩, c⟩, d⟩ := h1'
    rw [if_pos h1]
    by_cases h2 : Near2 rf x y
    · rw [if_pos h2]
      unfold Near2 at h2
      simp [fadd, fmul, rnd, chypot, catan2, a, b, c, d, h2]
    · rw [if_neg h2]
      unfold Near2 at h2
      simp [fadd, fmul, rnd, chypot, catan2, a, b, c, d, h2]
  · rw [if_neg h1]
    unfold Near at h1
    simp only [gt_fin, lt_fin, Bool.and_eq_true, decide_eq_true_eq, fadd, add_fin, rnd, chypot, catan2]
    rw [if_neg]
    simpa using h1

theorem clog_one_add (x y : ℝ) : Complex.log (1 + ⟨x, y⟩) =
    ⟨Real.log (√((x + 1) * (x + 1) + y * y)), Complex.arg ⟨x + 1, y⟩⟩ := by
  have e : (1 : ℂ) + ⟨x, y⟩ = ⟨x + 1, y⟩ := by apply Complex.ext <;> simp [add_comm]
  rw [e]
  apply Complex.ext
  · rw [Complex.log_re, Complex.norm_eq_sqrt_sq_add_sq, sq, sq]
  · rw [Complex.log_im]

/-- The three-operation expression of the single precision function. -/
theorem naive_err {rd : ℝ → ℝ} (h : Nearest 53 (-1074) rd) {x y : ℝ} (hx : |x| ≤ 2.21) (hy : |y| ≤ 1.21) :
    |rd (rd (rd (x * x) + rd (2 * x)) + rd (y * y)) - (x * x + 2 * x + y * y)| ≤
      4 * u53 ℝ * (x * x + 2 * |x| + y * y) + 6 * eta ℝ := by
  have hu : (0 : ℝ) < u53 ℝ := by rw [u53]; positivity
  have hu1 : u53 ℝ ≤ 1 / 1000 := by rw [u53]; norm_num
  have hη : (0 : ℝ) < eta ℝ := by rw [eta]; positivity
  have e1 := err53 h (x * x)
  have e2 := err53 h (2 * x)
  have e3 := err53 h (y * y)
  rw [abs_mul_self] at e1 e3
  rw [abs_mul, abs_two] at e2
  have hA := mul_self_nonneg x
  have hB := mul_self_nonneg y
  have hT : 0 ≤ 2 * |x| := by positivity
  have hTx := abs_le.1 (le_of_eq (show |2 * x| = 2 * |x| by rw [abs_mul, abs_two]))
  set A := x * x
  set B := y * y
  set T := 2 * |x|
  set a := rd A
  set b := rd (2 * x)
  set c := rd B
  have e4 := err53 h (a + b)
  have huA := mul_nonneg hu.le hA
  have huB := mul_nonneg hu.le hB
  have huT := mul_nonneg hu.le hT
  have huA1 : u53 ℝ * A ≤ A / 1000 := by nlinarith
  have huB1 : u53 ℝ * B ≤ B / 1000 := by nlinarith
  have huT1 : u53 ℝ * T ≤ T / 1000 := by nlinarith
  have huη : u53 ℝ * eta ℝ ≤ eta ℝ / 1000 := by nlinarith
  have a1 := abs_le.1 e1
  have a2 := abs_le.1 e2
  have a3 := abs_le.1 e3
  have b4 : |a + b| ≤ 1.001 * (A + T) + 2 * eta ℝ := by rw [abs_le]; constructor <;> linarith
  have m4 := mul_le_mul_of_nonneg_left b4 hu.le
  have e4' : |rd (a + b) - (a + b)| ≤ 1.001 * (u53 ℝ * (A + T)) + 1.1 * eta ℝ := e4.trans (by linarith)
  have a4 := abs_le.1 e4'
  set s := rd (a + b)
  have e5 := err53 h (s + c)
  have b5 : |s + c| ≤ 1.01 * (A + T + B) + 5 * eta ℝ := by rw [abs_le]; constructor <;> linarith
  have m5 := mul_le_mul_of_nonneg_left b5 hu.le
  have e5' : |rd (s + c) - (s + c)| ≤ 1.01 * (u53 ℝ * (A + T + B)) + 1.1 * eta ℝ := e5.trans (by linarith)
  have a5 := abs_le.1 e5'
  rw [abs_le]; constructor <;> linarith

section Loop
variable {α : Type _} (f : α → α)

theorem loop_frame (is os : Int) (n : Nat) (pin pout : Int) (m : Mem α) (b : Int)
    (h : ∀ i < n, b ≠ pout + (i : Int) * os) : loop f is os n pin pout m b = m b := by
  induction n generalizing pin pout m with
  | zero => rfl
  | succ n ih =>
    rw [loop, ih, Mem.store_other]
    · simpa using h 0 (by omega)
    · intro i hi hb
      apply h (i + 1) (by omega)
      rw [hb]; push_cast; ring

theorem loop_get (is os : Int) (hos : os ≠ 0) (n : Nat) (pin pout : Int) (m : Mem α)
    (h : ∀ i j, i < j → j < n → pout + (i : Int) * os ≠ pin + (j : Int) * is) (j : Nat) (hj : j < n) :
    get (loop f is os n pin pout m) pout os j = f (get m pin is j) := by
  induction n generalizing pin pout m j with
  | zero => omega
  | succ n ih =>
    rw [loop]
    cases j with
    | zero =>
      simp only [get, Nat.cast_zero, zero_mul, add_zero]
      rw [loop_frame, Mem.store_same]
      intro i hi hb
      have hz : ((i + 1 : Nat) : Int) * os = 0 := by push_cast; linarith
      rcases Int.mul_eq_zero.mp hz with h0 | h0
      · omega
      · exact hos h0
    | succ j =>
      have e : ∀ q s : Int, q + ((j + 1 : Nat) : Int) * s = q + s + (j : Int) * s := by
        intro q s; push_cast; ring
      have hne : pin + is + (j : Int) * is ≠ pout := by
        have := h 0 (j + 1) (by omega) hj
        rw [e pin is] at this
        simp only [Nat.cast_zero, zero_mul, add_zero] at this
        exact Ne.symm this
      have := ih (pin + is) (pout + os) (m.store pout (f (m pin))) (by
        intro a b hab hb
        have := h (a + 1) (b + 1) (by omega) (by omega)
        intro hc; apply this
        push_cast at hc ⊢; linarith) j (by omega)
      simp only [get] at this ⊢
      rw [e pout os, e pin is, this, Mem.store_other _ _ hne]

end Loop

end Ufunclab.Log1p
