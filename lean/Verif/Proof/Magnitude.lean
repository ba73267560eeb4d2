import Verif.Spec.Magnitude
import Verif.Proof.VnormRound
/-!
# Rounding errors of straight-line programs, relative to magnitudes
-/
namespace Ufunclab.Float
variable {p : ℕ} {emin : ℤ} {rd : ℝ → ℝ} {c : ℝ}

/-- `a` is a float, `b` the exact number it stands for, `m` bounds the magnitude, and `a` differs from
`b` by at most `n` roundings relative to `m`. -/
structure Rel (p : ℕ) (emin : ℤ) (n : ℕ) (a : Fl rd) (b : ℝ) (m : Mag c) : Prop where
  float : IsFloat p emin a.val
  le : |b| ≤ m.val
  error : |a.val - b| ≤ ((1 + (2 ^ p)⁻¹) ^ n - 1) * m.val

theorem Rel.nonneg {n : ℕ} {a : Fl rd} {b : ℝ} {m : Mag c} (h : Rel p emin n a b m) : 0 ≤ m.val := (abs_nonneg b).trans h.le

theorem one_le_growth (n : ℕ) : (1 : ℝ) ≤ (1 + (2 ^ p)⁻¹) ^ n := by
  have : (0 : ℝ) < (2 ^ p)⁻¹ := by positivity
  exact one_le_pow₀ (by linarith)

theorem Rel.mono {n n' : ℕ} (hn : n ≤ n') {a : Fl rd} {b : ℝ} {m : Mag c} (h : Rel p emin n a b m) : Rel p emin n' a b m := by
  refine ⟨h.float, h.le, h.error.trans (mul_le_mul_of_nonneg_right ?_ h.nonneg)⟩
  have u0 : (0 : ℝ) < (2 ^ p)⁻¹ := by positivity
  have := pow_le_pow_right₀ (by linarith : (1 : ℝ) ≤ 1 + (2 ^ p)⁻¹) hn
  linarith

theorem Rel.exact (a : ℝ) (ha : IsFloat p emin a) (n : ℕ) : Rel p emin n (⟨a⟩ : Fl rd) a (⟨|a|⟩ : Mag c) :=
  ⟨ha, le_rfl, by
    have := one_le_growth (p := p) n
    simp only [sub_self, abs_zero]
    exact mul_nonneg (by linarith) (abs_nonneg a)⟩

/-- Rounding a sum or difference. -/
theorem Rel.round (h : Nearest p emin rd) (hp : 1 ≤ p) {n : ℕ} {s b m : ℝ} (gs : OnGrid emin s) (hb : |b| ≤ m)
    (e : |s - b| ≤ ((1 + (2 ^ p)⁻¹) ^ n - 1) * m) : |rd s - b| ≤ ((1 + (2 ^ p)⁻¹) ^ (n + 1) - 1) * m := by
  have u0 : (0 : ℝ) < (2 ^ p)⁻¹ := by positivity
  have e1 := h.rel_error hp gs
  have hs : |s| ≤ (1 + (2 ^ p)⁻¹) ^ n * m := by
    calc |s| = |(s - b) + b| := by congr 1; ring
      _ ≤ _ := abs_add_le _ _
      _ ≤ _ := by linarith
  have e2 := mul_le_mul_of_nonneg_left hs u0.le
  calc _ ≤ _ := abs_sub_le _ s _
    _ ≤ (2 ^ p)⁻¹ * ((1 + (2 ^ p)⁻¹) ^ n * m) + ((1 + (2 ^ p)⁻¹) ^ n - 1) * m := add_le_add (e1.trans e2) e
    _ = _ := by rw [pow_succ]; ring

theorem Rel.add (h : Nearest p emin rd) (hp : 1 ≤ p) {n : ℕ} {a a' : Fl rd} {b b' : ℝ} {m m' : Mag c} (r : Rel p emin n a b m)
    (r' : Rel p emin n a' b' m') : Rel p emin (n + 1) (a + a') (b + b') (m + m') := by
  refine ⟨(h _).1, (abs_add_le _ _).trans (add_le_add r.le r'.le), ?_⟩
  apply Rel.round h hp (r.float.grid.add r'.float.grid) ((abs_add_le _ _).trans (add_le_add r.le r'.le))
  calc |a.val + a'.val - (b + b')| = |(a.val - b) + (a'.val - b')| := by congr 1; ring
    _ ≤ _ := abs_add_le _ _
    _ ≤ _ := by have := r.error; have := r'.error; linarith

theorem Rel.sub (h : Nearest p emin rd) (hp : 1 ≤ p) {n : ℕ} {a a' : Fl rd} {b b' : ℝ} {m m' : Mag c} (r : Rel p emin n a b m)
    (r' : Rel p emin n a' b' m') : Rel p emin (n + 1) (a - a') (b - b') (m - m') := by
  have hb : |b - b'| ≤ m.val + m'.val := (abs_sub _ _).trans (add_le_add r.le r'.le)
  refine ⟨(h _).1, hb, ?_⟩
  apply Rel.round h hp (r.float.grid.sub r'.float.grid) hb
  calc |a.val - a'.val - (b - b')| = |(a.val - b) - (a'.val - b')| := by congr 1; ring
    _ ≤ _ := abs_sub _ _
    _ ≤ _ := by have := r.error; have := r'.error; linarith

/-- Multiplication by an exact number; `c` makes up for underflow. -/
theorem Rel.mul (h : Nearest p emin rd) (hp : 1 ≤ p) (hc : 2 ^ emin / 2 ≤ (2 ^ p)⁻¹ * c) {n : ℕ} (s : ℝ) {a : Fl rd} {b : ℝ} {m : Mag c}
    (r : Rel p emin n a b m) : Rel p emin (n + 1) ((⟨s⟩ : Fl rd) * a) (s * b) ((⟨|s|⟩ : Mag c) * m) := by
  have u0 : (0 : ℝ) < (2 ^ p)⁻¹ := by positivity
  have η0 := two_zpow_pos (K := ℝ) emin
  have c0 : 0 ≤ c := by
    by_contra hn
    have := mul_neg_of_pos_of_neg u0 (not_le.1 hn)
    linarith
  have g1 := one_le_growth (p := p) n
  have hle : |s * b| ≤ |s| * m.val := by rw [abs_mul]; exact mul_le_mul_of_nonneg_left r.le (abs_nonneg s)
  refine ⟨(h _).1, hle.trans ?_, ?_⟩
  · show _ ≤ |s| * m.val + c
    linarith
  · show |rd (s * a.val) - s * b| ≤ ((1 + (2 ^ p)⁻¹) ^ (n + 1) - 1) * (|s| * m.val + c)
    have e1 := h.error hp (s * a.val)
    have e2 : |s * a.val - s * b| ≤ ((1 + (2 ^ p)⁻¹) ^ n - 1) * (|s| * m.val) := by
      rw [← mul_sub, abs_mul]
      calc _ ≤ |s| * (((1 + (2 ^ p)⁻¹) ^ n - 1) * m.val) := mul_le_mul_of_nonneg_left r.error (abs_nonneg s)
        _ = _ := by ring
    have e3 : |s * a.val| ≤ (1 + (2 ^ p)⁻¹) ^ n * (|s| * m.val) := by
      calc |s * a.val| = |(s * a.val - s * b) + s * b| := by congr 1; ring
        _ ≤ _ := abs_add_le _ _
        _ ≤ _ := by linarith
    have e4 := mul_le_mul_of_nonneg_left e3 u0.le
    have e5 : (2 ^ p)⁻¹ * c ≤ ((1 + (2 ^ p)⁻¹) ^ (n + 1) - 1) * c := by
      apply mul_le_mul_of_nonneg_right _ c0
      rw [pow_succ]
      have := mul_le_mul_of_nonneg_right g1 u0.le
      linarith
    calc _ ≤ _ := abs_sub_le _ (s * a.val) _
      _ ≤ ((2 ^ p)⁻¹ * ((1 + (2 ^ p)⁻¹) ^ n * (|s| * m.val)) + (2 ^ p)⁻¹ * c) + ((1 + (2 ^ p)⁻¹) ^ n - 1) * (|s| * m.val) :=
        add_le_add (e1.trans (add_le_add e4 hc)) e2
      _ = ((1 + (2 ^ p)⁻¹) ^ (n + 1) - 1) * (|s| * m.val) + (2 ^ p)⁻¹ * c := by rw [pow_succ]; ring
      _ ≤ _ := by linarith

/-- The least `c` that makes up for underflow. -/
theorem under (p : ℕ) (emin : ℤ) : (2 : ℝ) ^ emin / 2 ≤ (2 ^ p)⁻¹ * (2 ^ p * (2 ^ emin / 2)) := by
  rw [← mul_assoc, inv_mul_cancel₀ (by positivity), one_mul]

end Ufunclab.Float
