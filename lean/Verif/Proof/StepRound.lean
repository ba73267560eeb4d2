import Verif.Proof.Step
import Verif.Proof.FloatRatio
import Mathlib.Analysis.Calculus.MeanValue
namespace Ufunclab.Step
open Float

variable {p : ℕ} {emin : ℤ} {rd : ℝ → ℝ}

theorem mul_round (h : Nearest p emin rd) (hp : 1 ≤ p) {a b x y e f X Y : ℝ} (ha : |a - x| ≤ e) (hb : |b - y| ≤ f)
    (hx : |x| ≤ X) (hY : |b| ≤ Y) :
    |rd (a * b) - x * y| ≤ e * Y + X * f + (2 ^ p)⁻¹ * ((X + e) * Y) + 2 ^ emin / 2 := by
  have hr := h.error hp (a * b)
  have hu0 : (0 : ℝ) ≤ (2 ^ p)⁻¹ := by positivity
  have he : 0 ≤ e := le_trans (abs_nonneg _) ha
  have hX : 0 ≤ X := le_trans (abs_nonneg _) hx
  have ha2 : |a| ≤ X + e := by
    calc |a| = |(a - x) + x| := by ring_nf
      _ ≤ |a - x| + |x| := abs_add_le _ _
      _ ≤ X + e := by linarith
  have h1 : |a * b - x * y| ≤ e * Y + X * f := by
    calc |a * b - x * y| = |(a - x) * b + x * (b - y)| := by ring_nf
      _ ≤ |a - x| * |b| + |x| * |b - y| := by rw [← abs_mul, ← abs_mul]; exact abs_add_le _ _
      _ ≤ e * Y + X * f := add_le_add (mul_le_mul ha hY (abs_nonneg _) he) (mul_le_mul hx hb (abs_nonneg _) hX)
  have h2 : |a * b| ≤ (X + e) * Y := by
    rw [abs_mul]; exact mul_le_mul ha2 hY (abs_nonneg _) (by linarith)
  have h3 := mul_le_mul_of_nonneg_left h2 hu0
  calc |rd (a * b) - x * y| ≤ |rd (a * b) - a * b| + |a * b - x * y| := abs_sub_le _ _ _
    _ ≤ _ := by linarith

theorem add_round (h : Nearest p emin rd) (hp : 1 ≤ p) {a b z e Z : ℝ} (ha : IsFloat p emin a) (hb : IsFloat p emin b)
    (he : |a + b - z| ≤ e) (hz : |z| ≤ Z) : |rd (a + b) - z| ≤ e + (2 ^ p)⁻¹ * (Z + e) := by
  have hr := h.rel_error hp (ha.grid.add hb.grid)
  have hu0 : (0 : ℝ) ≤ (2 ^ p)⁻¹ := by positivity
  have h1 : |a + b| ≤ Z + e := by
    calc |a + b| = |(a + b - z) + z| := by ring_nf
      _ ≤ |a + b - z| + |z| := abs_add_le _ _
      _ ≤ Z + e := by linarith
  have h3 := mul_le_mul_of_nonneg_left h1 hu0
  calc |rd (a + b) - z| ≤ |rd (a + b) - (a + b)| + |a + b - z| := abs_sub_le _ _ _
    _ ≤ _ := by linarith

theorem P3_lip {a b : ℝ} (ha : 0 ≤ a) (ha1 : a ≤ 1) (hb : 0 ≤ b) (hb1 : b ≤ 1) :
    |a ^ 2 * (3 - 2 * a) - b ^ 2 * (3 - 2 * b)| ≤ 1.5 * |a - b| := by
  have e : a ^ 2 * (3 - 2 * a) - b ^ 2 * (3 - 2 * b) = (3 * (a + b) - 2 * (a ^ 2 + a * b + b ^ 2)) * (a - b) := by ring
  rw [e, abs_mul]
  apply mul_le_mul_of_nonneg_right _ (abs_nonneg _)
  rw [abs_le]
  constructor
  · nlinarith [mul_nonneg ha (sub_nonneg.2 ha1), mul_nonneg hb (sub_nonneg.2 hb1), mul_nonneg ha (sub_nonneg.2 hb1), mul_nonneg hb (sub_nonneg.2 ha1)]
  · nlinarith [sq_nonneg (a - b), sq_nonneg (a + b - 1)]

theorem P5_lip {a b : ℝ} (ha : 0 ≤ a) (ha1 : a ≤ 1) (hb : 0 ≤ b) (hb1 : b ≤ 1) :
    |a ^ 3 * (a * (6 * a - 15) + 10) - b ^ 3 * (b * (6 * b - 15) + 10)| ≤ 1.875 * |a - b| := by
  have hd : ∀ t ∈ Set.Icc (0 : ℝ) 1, HasDerivWithinAt P5 (30 * (t * (1 - t)) ^ 2) (Set.Icc 0 1) t := by
    intro t _
    exact ((P5_deriv t).congr_deriv (by unfold P5'; ring)).hasDerivWithinAt
  have hb' : ∀ t ∈ Set.Icc (0 : ℝ) 1, ‖30 * (t * (1 - t)) ^ 2‖ ≤ 1.875 := by
    intro t ht
    have h0 : 0 ≤ t * (1 - t) := mul_nonneg ht.1 (by linarith [ht.2])
    have h1 : t * (1 - t) ≤ 1 / 4 := by nlinarith [sq_nonneg (t - 1 / 2)]
    rw [Real.norm_of_nonneg (by positivity)]
    nlinarith
  have := Convex.norm_image_sub_le_of_norm_hasDerivWithin_le hd hb' (convex_Icc 0 1) ⟨hb, hb1⟩ ⟨ha, ha1⟩
  rw [Real.norm_eq_abs, Real.norm_eq_abs] at this
  refine le_trans (le_of_eq ?_) this
  congr 1; unfold P5; ring

/-- `Δ·s^k` by repeated rounded multiplication. -/
theorem pow_round (h : Nearest p emin rd) (hp : 1 ≤ p) {w s x c n : ℝ} (hs0 : 0 ≤ s) (hs1 : s ≤ 1) (hn0 : 0 ≤ n)
    (hw : |w - x| ≤ c * |x| + n) :
    |rd (w * s) - x * s| ≤ (c + (2 ^ p)⁻¹ * (1 + c)) * |x * s| + (n + (2 ^ p)⁻¹ * n + 2 ^ emin / 2) := by
  have hr := h.error hp (w * s)
  have hu0 : (0 : ℝ) ≤ (2 ^ p)⁻¹ := by positivity
  have h1 : |w * s - x * s| ≤ c * |x * s| + n * s := by
    rw [← sub_mul, abs_mul, abs_mul, abs_of_nonneg hs0]
    have := mul_le_mul_of_nonneg_right hw hs0
    linarith
  have h2 : |w * s| ≤ |x * s| + (c * |x * s| + n * s) := by
    calc |w * s| = |(w * s - x * s) + x * s| := by ring_nf
      _ ≤ |w * s - x * s| + |x * s| := abs_add_le _ _
      _ ≤ _ := by linarith
  have h3 := mul_le_mul_of_nonneg_left h2 hu0
  have h4 : |rd (w * s) - x * s| ≤ (c + (2 ^ p)⁻¹ * (1 + c)) * |x * s| + (n * s + (2 ^ p)⁻¹ * (n * s) + 2 ^ emin / 2) := by
    calc |rd (w * s) - x * s| ≤ |rd (w * s) - w * s| + |w * s - x * s| := abs_sub_le _ _ _
      _ ≤ _ := by linarith
  have h5 : n * s ≤ n := mul_le_of_le_one_right hn0 hs1
  have h6 := mul_le_mul_of_nonneg_left h5 hu0
  linarith

theorem isFloat_int (hp : 11 ≤ p) (he : emin ≤ 0) (m : ℤ) (hm : |m| < 2048) : IsFloat p emin (m : ℝ) :=
  ⟨m, 0, lt_of_lt_of_le hm (by calc (2048 : ℤ) = 2 ^ 11 := by norm_num
      _ ≤ 2 ^ p := pow_le_pow_right₀ (by norm_num) hp), he, by simp⟩

/-- The rounded `fa*(1 - s) + fb*s`. -/
theorem lin_round (h : Nearest p emin rd) (hp : 11 ≤ p) (he : emin ≤ 0) {fa fb s t M : ℝ} (hfa : |fa| ≤ M) (hfb : |fb| ≤ M)
    (hs : IsFloat p emin s) (hs0 : 0 ≤ s) (hs1 : s ≤ 1) (ht0 : 0 ≤ t) (ht1 : t ≤ 1) (hst : |s - t| ≤ 3.1 * (2 ^ p)⁻¹) :
    |rd (rd (fa * rd (1 - s)) + rd (fb * s)) - (fa + (fb - fa) * t)| ≤ 11 * (2 ^ p)⁻¹ * M + 2 * 2 ^ emin := by
  have hp1 : 1 ≤ p := by omega
  have hu := unit_le hp
  have hu0 : (0 : ℝ) ≤ (2 ^ p)⁻¹ := by positivity
  have hη : (0 : ℝ) < 2 ^ emin := by positivity
  have hM : 0 ≤ M := le_trans (abs_nonneg _) hfa
  have h1f : IsFloat p emin (1 : ℝ) := isFloat_one hp1 he
  have hv := add_round (z := 1 - t) (e := 3.1 * (2 ^ p)⁻¹) (Z := 1) h hp1 h1f hs.neg
    (by rw [show (1 : ℝ) + -s - (1 - t) = -(s - t) by ring, abs_neg]; exact hst) (by rw [abs_le]; constructor <;> linarith)
  have hv1 : |rd (1 - s)| ≤ 1 := by
    rw [abs_le]
    exact ⟨by linarith [h.mono_float (isFloat_zero) (show (0 : ℝ) ≤ 1 - s by linarith)], h.mono_float' h1f (by linarith)⟩
  rw [← sub_eq_add_neg] at hv
  have hA := mul_round (a := fa) (x := fa) (e := 0) h hp1 (by simp) hv hfa hv1
  have hB := mul_round (a := fb) (x := fb) (e := 0) h hp1 (by simp) hst hfb (show |s| ≤ 1 by rw [abs_le]; constructor <;> linarith)
  have hz : |fa * (1 - t) + fb * t| ≤ M := by
    calc |fa * (1 - t) + fb * t| ≤ |fa| * (1 - t) + |fb| * t := by
          refine le_trans (abs_add_le _ _) (le_of_eq ?_)
          rw [abs_mul, abs_mul, abs_of_nonneg ht0, abs_of_nonneg (sub_nonneg.2 ht1)]
      _ ≤ M * (1 - t) + M * t := add_le_add (mul_le_mul_of_nonneg_right hfa (by linarith)) (mul_le_mul_of_nonneg_right hfb ht0)
      _ = M := by ring
  have hS := add_round h hp1 (h _).1 (h _).1 (le_trans (by
    rw [show ∀ a b c d : ℝ, a + b - (c + d) = (a - c) + (b - d) by intros; ring]
    exact abs_add_le _ _) (add_le_add hA hB)) hz
  rw [show fa + (fb - fa) * t = fa * (1 - t) + fb * t by ring]
  refine le_trans hS ?_
  generalize ((2 : ℝ) ^ p)⁻¹ = u at *
  generalize (2 : ℝ) ^ emin = η at *
  have a1 : 0 ≤ u * M := mul_nonneg hu0 hM
  have a2 : u * (u * M) ≤ 1 / 2048 * (u * M) := mul_le_mul_of_nonneg_right hu a1
  have a3 : u * (u * (u * M)) ≤ 1 / 2048 * (u * (u * M)) := mul_le_mul_of_nonneg_right hu (mul_nonneg hu0 a1)
  have a4 : u * η ≤ 1 / 2048 * η := mul_le_mul_of_nonneg_right hu hη.le
  have a5 : 0 ≤ u * (u * M) := mul_nonneg hu0 a1
  have a6 : 0 ≤ u * η := mul_nonneg hu0 hη.le
  ring_nf at a1 a2 a3 a4 a5 a6 ⊢
  linarith

theorem final_round (h : Nearest p emin rd) (hp : 1 ≤ p) {fa fb w x g g₀ c n f F G S T L M : ℝ} (hfa : |fa| ≤ M) (hfb : |fb| ≤ M)
    (ha : IsFloat p emin fa) (hc : 0 ≤ c) (hn : 0 ≤ n) (hw : |w - x| ≤ c * |x| + n) (hg : |g - g₀| ≤ f) (hg0 : 0 ≤ g₀)
    (hG : g₀ ≤ G) (hf1 : f ≤ 1) (hF : |x| * f ≤ F) (hx : x * g₀ = (fb - fa) * S) (hS0 : 0 ≤ S) (hS1 : S ≤ 1)
    (hT0 : 0 ≤ T) (hT1 : T ≤ 1) (hL : |S - T| ≤ L) :
    |rd (fa + rd (w * g)) - (fa + (fb - fa) * T)| ≤
      (c * (2 * M + F) + n * (G + 1) + F + (2 ^ p)⁻¹ * (2 * M + (c * (2 * M + F) + n * (G + 1) + F)) + 2 ^ emin / 2 + 2 * M * L) +
      (2 ^ p)⁻¹ * (M + (c * (2 * M + F) + n * (G + 1) + F + (2 ^ p)⁻¹ * (2 * M + (c * (2 * M + F) + n * (G + 1) + F)) +
        2 ^ emin / 2 + 2 * M * L)) := by
  have hu0 : (0 : ℝ) ≤ (2 ^ p)⁻¹ := by positivity
  have hD : |fb - fa| ≤ 2 * M := le_trans (abs_sub _ _) (by linarith)
  have hM : 0 ≤ M := le_trans (abs_nonneg _) hfa
  have hf0 : 0 ≤ f := le_trans (abs_nonneg _) hg
  have hxg : |x| * g₀ ≤ 2 * M := by
    have : |x| * g₀ = |fb - fa| * S := by
      rw [← abs_of_nonneg hg0, ← abs_mul, hx, abs_mul, abs_of_nonneg hS0]
    rw [this]
    calc |fb - fa| * S ≤ 2 * M * 1 := mul_le_mul hD hS1 hS0 (by linarith)
      _ = _ := by ring
  have hga : |g| ≤ g₀ + f := by
    calc |g| = |(g - g₀) + g₀| := by ring_nf
      _ ≤ |g - g₀| + |g₀| := abs_add_le _ _
      _ ≤ _ := by rw [abs_of_nonneg hg0]; linarith
  have e0 : |w * g - x * g₀| ≤ c * (2 * M + F) + n * (G + 1) + F := by
    calc |w * g - x * g₀| = |(w - x) * g + x * (g - g₀)| := by ring_nf
      _ ≤ |w - x| * |g| + |x| * |g - g₀| := by rw [← abs_mul, ← abs_mul]; exact abs_add_le _ _
      _ ≤ (c * |x| + n) * (g₀ + f) + |x| * f := add_le_add (mul_le_mul hw hga (abs_nonneg _) (by positivity)) (mul_le_mul_of_nonneg_left hg (abs_nonneg _))
      _ = c * (|x| * g₀ + |x| * f) + n * (g₀ + f) + |x| * f := by ring
      _ ≤ c * (2 * M + F) + n * (G + 1) + F :=
          add_le_add (add_le_add (mul_le_mul_of_nonneg_left (by linarith) hc) (mul_le_mul_of_nonneg_left (by linarith) hn)) hF
  generalize c * (2 * M + F) + n * (G + 1) + F = E at *
  have hr := h.error hp (w * g)
  have h2 : |w * g| ≤ 2 * M + E := by
    calc |w * g| = |(w * g - x * g₀) + x * g₀| := by ring_nf
      _ ≤ |w * g - x * g₀| + |x * g₀| := abs_add_le _ _
      _ ≤ _ := by rw [abs_mul x, abs_of_nonneg hg0]; linarith
  have h3 := mul_le_mul_of_nonneg_left h2 hu0
  have h4 : |(fb - fa) * S - (fb - fa) * T| ≤ 2 * M * L := by
    rw [← mul_sub, abs_mul]
    exact mul_le_mul hD hL (abs_nonneg _) (by linarith)
  have h5 : |rd (w * g) - (fb - fa) * T| ≤ E + (2 ^ p)⁻¹ * (2 * M + E) + 2 ^ emin / 2 + 2 * M * L := by
    calc |rd (w * g) - (fb - fa) * T| ≤ |rd (w * g) - w * g| + |w * g - (fb - fa) * T| := abs_sub_le _ _ _
      _ ≤ |rd (w * g) - w * g| + (|w * g - (fb - fa) * S| + |(fb - fa) * S - (fb - fa) * T|) := by
          gcongr; exact abs_sub_le _ _ _
      _ ≤ _ := by rw [← hx] at *; linarith
  refine add_round h hp ha (h _).1 ?_ ?_
  · rw [show fa + rd (w * g) - (fa + (fb - fa) * T) = rd (w * g) - (fb - fa) * T by ring]; exact h5
  · rw [show fa + (fb - fa) * T = fa * (1 - T) + fb * T by ring]
    calc |fa * (1 - T) + fb * T| ≤ |fa| * (1 - T) + |fb| * T := by
          refine le_trans (abs_add_le _ _) (le_of_eq ?_)
          rw [abs_mul, abs_mul, abs_of_nonneg hT0, abs_of_nonneg (sub_nonneg.2 hT1)]
      _ ≤ M * (1 - T) + M * T := add_le_add (mul_le_mul_of_nonneg_right hfa (by linarith)) (mul_le_mul_of_nonneg_right hfb hT0)
      _ = M := by ring

theorem final_num {u η M E L α β l : ℝ} (hu0 : 0 ≤ u) (hu : u ≤ 1 / 2048) (hη : 0 ≤ η) (hM : 0 ≤ M) (hα : 0 ≤ α) (hβ : 0 ≤ β)
    (hl : 0 ≤ l) (hE : E ≤ α * (u * M) + β * η) (hL : L ≤ l * u) :
    (E + u * (2 * M + E) + η / 2 + 2 * M * L) + u * (M + (E + u * (2 * M + E) + η / 2 + 2 * M * L)) ≤
      (1.001 * (1.001 * α + 2 + 2 * l) + 1) * (u * M) + 1.001 * (1.001 * β + 1 / 2) * η := by
  have h0 : 0 ≤ u * M := mul_nonneg hu0 hM
  have hA : 0 ≤ α * (u * M) + β * η := by positivity
  have h1 : u * E ≤ 1 / 2048 * (α * (u * M) + β * η) :=
    le_trans (mul_le_mul_of_nonneg_left hE hu0) (mul_le_mul_of_nonneg_right hu hA)
  have h2 : 2 * M * L ≤ 2 * l * (u * M) := by
    have := mul_le_mul_of_nonneg_left hL (show 0 ≤ 2 * M by linarith)
    linarith
  have p1 : 0 ≤ α * (u * M) := by positivity
  have p2 : 0 ≤ β * η := by positivity
  have p3 : 0 ≤ l * (u * M) := by positivity
  have h3 : E + u * (2 * M + E) + η / 2 + 2 * M * L ≤ (1.001 * α + 2 + 2 * l) * (u * M) + (1.001 * β + 1 / 2) * η := by
    nlinarith
  have hB : 0 ≤ (1.001 * α + 2 + 2 * l) * (u * M) + (1.001 * β + 1 / 2) * η := by positivity
  generalize E + u * (2 * M + E) + η / 2 + 2 * M * L = E' at *
  have h4 : u * E' ≤ 1 / 2048 * ((1.001 * α + 2 + 2 * l) * (u * M) + (1.001 * β + 1 / 2) * η) :=
    le_trans (mul_le_mul_of_nonneg_left h3 hu0) (mul_le_mul_of_nonneg_right hu hB)
  have e : (1.001 * (1.001 * α + 2 + 2 * l) + 1) * (u * M) + 1.001 * (1.001 * β + 1 / 2) * η =
    1.001 * ((1.001 * α + 2 + 2 * l) * (u * M) + (1.001 * β + 1 / 2) * η) + u * M := by ring
  rw [e]
  generalize (1.001 * α + 2 + 2 * l) * (u * M) + (1.001 * β + 1 / 2) * η = B at *
  linarith

theorem E_num {u η M c n F G k m k' : ℝ} (hu0 : 0 ≤ u) (hu : u ≤ 1 / 2048) (hM : 0 ≤ M) (hη : 0 ≤ η)
    (hk : 0 ≤ k) (hk' : 0 ≤ k') (hG : 0 ≤ G) (hF : F = k' * (u * M)) (hc : c ≤ k * u) (hn : n ≤ m * η) :
    c * (2 * M + F) + n * (G + 1) + F ≤ (2 * k + k * k' / 2048 + k') * (u * M) + m * (G + 1) * η := by
  have h0 : 0 ≤ u * M := mul_nonneg hu0 hM
  have hF0 : 0 ≤ F := by rw [hF]; positivity
  have h1 : c * (2 * M + F) ≤ k * u * (2 * M + F) := mul_le_mul_of_nonneg_right hc (by linarith)
  have h2 : n * (G + 1) ≤ m * η * (G + 1) := mul_le_mul_of_nonneg_right hn (by linarith)
  have h3 : u * (k * k' * (u * M)) ≤ 1 / 2048 * (k * k' * (u * M)) := mul_le_mul_of_nonneg_right hu (by positivity)
  rw [hF] at h1 ⊢
  linarith

/-- The rounded `fa + (fb - fa)*s*s*(3 - 2*s)`. -/
theorem cub_round (h : Nearest p emin rd) (hp : 11 ≤ p) (he : emin ≤ 0) {fa fb s t M : ℝ} (hfa : |fa| ≤ M) (hfb : |fb| ≤ M)
    (ha : IsFloat p emin fa) (hb : IsFloat p emin fb)
    (hs : IsFloat p emin s) (hs0 : 0 ≤ s) (hs1 : s ≤ 1) (ht0 : 0 ≤ t) (ht1 : t ≤ 1) (hst : |s - t| ≤ 3.1 * (2 ^ p)⁻¹) :
    |rd (fa + rd (rd (rd (rd (fb - fa) * s) * s) * rd (3 - rd (2 * s)))) - (fa + (fb - fa) * (t ^ 2 * (3 - 2 * t)))|
      ≤ 21 * (2 ^ p)⁻¹ * M + 5 * 2 ^ emin := by
  have hp1 : 1 ≤ p := by omega
  have hu := unit_le hp
  have hu0 : (0 : ℝ) ≤ (2 ^ p)⁻¹ := by positivity
  have hη : (0 : ℝ) < 2 ^ emin := by positivity
  have hM : 0 ≤ M := le_trans (abs_nonneg _) hfa
  have hD : |fb - fa| ≤ 2 * M := le_trans (abs_sub _ _) (by linarith)
  have hd := h.rel_error hp1 (hb.grid.sub ha.grid)
  have h1 := pow_round h hp1 hs0 hs1 le_rfl (by simpa using hd)
  have h2 := pow_round h hp1 hs0 hs1 (by positivity) h1
  have h2s : rd (2 * s) = 2 * s := h.exact hs.two_mul
  rw [h2s]
  have hg := h.rel_error hp1 (((isFloat_int hp he 3 (by norm_num)).grid).sub hs.two_mul.grid)
  push_cast at hg
  have hS0 : 0 ≤ s ^ 2 * (3 - 2 * s) := mul_nonneg (sq_nonneg _) (by linarith)
  have hS1 : s ^ 2 * (3 - 2 * s) ≤ 1 := by nlinarith [mul_nonneg hs0 (sub_nonneg.2 hs1), sq_nonneg (1 - s), mul_nonneg (sq_nonneg (1 - s)) hs0]
  have hT0 : 0 ≤ t ^ 2 * (3 - 2 * t) := mul_nonneg (sq_nonneg _) (by linarith)
  have hT1 : t ^ 2 * (3 - 2 * t) ≤ 1 := by nlinarith [mul_nonneg ht0 (sub_nonneg.2 ht1), sq_nonneg (1 - t), mul_nonneg (sq_nonneg (1 - t)) ht0]
  have hlip := le_trans (P3_lip hs0 hs1 ht0 ht1) (mul_le_mul_of_nonneg_left hst (by norm_num))
  have hx : (fb - fa) * s * s * (3 - 2 * s) = (fb - fa) * (s ^ 2 * (3 - 2 * s)) := by ring
  rw [abs_of_nonneg (show (0 : ℝ) ≤ 3 - 2 * s by linarith)] at hg
  refine le_trans (final_round (F := (2 ^ p)⁻¹ * (2 * M)) (G := 3) h hp1 hfa hfb ha (by positivity) (by positivity) h2 hg (by linarith) (by linarith) ?_ ?_ hx
    hS0 hS1 hT0 hT1 hlip) ?_
  · nlinarith
  · have e : |(fb - fa) * s * s| * ((2 ^ p)⁻¹ * (3 - 2 * s)) = (2 ^ p)⁻¹ * (|fb - fa| * (s ^ 2 * (3 - 2 * s))) := by
      rw [abs_mul, abs_mul, abs_of_nonneg hs0]; ring
    rw [e]
    apply mul_le_mul_of_nonneg_left _ hu0
    calc |fb - fa| * (s ^ 2 * (3 - 2 * s)) ≤ 2 * M * 1 := mul_le_mul hD hS1 hS0 (by linarith)
      _ = _ := by ring
  · generalize ((2 : ℝ) ^ p)⁻¹ = u at *
    generalize (2 : ℝ) ^ emin = η at *
    clear h1 h2 hd hg
    refine le_trans (final_num hu0 hu hη.le hM (by norm_num) (by norm_num) (by norm_num) (E_num (k := 3.002) (k' := 2) (m := 1.001) hu0 hu hM hη.le (by norm_num) (by norm_num) (by norm_num) (by ring) ?_ ?_)
      (l := 4.65) (by linarith)) ?_
    · nlinarith [mul_nonneg hu0 hu0]
    · nlinarith [mul_nonneg hu0 hη.le]
    · have : 0 ≤ u * M := mul_nonneg hu0 hM
      nlinarith

/-- The rounded `s*(6*s - 15) + 10`. -/
theorem quad_round (h : Nearest p emin rd) (hp : 11 ≤ p) (he : emin ≤ -2 * p) {s : ℝ}
    (hs : IsFloat p emin s) (hs0 : 0 ≤ s) (hs1 : s ≤ 1) :
    |rd (rd (s * rd (rd (6 * s) - 15)) + 10) - (s * (6 * s - 15) + 10)| ≤ 46.2 * (2 ^ p)⁻¹ := by
  have hp1 : 1 ≤ p := by omega
  have he0 : emin ≤ 0 := by omega
  have hu := unit_le hp
  have hu0 : (0 : ℝ) ≤ (2 ^ p)⁻¹ := by positivity
  have hη : (0 : ℝ) < 2 ^ emin := by positivity
  have hηu := eta_le he
  have g6 : OnGrid emin (6 * s) := by
    have h3 : OnGrid emin (s + s + s) := (hs.grid.add hs.grid).add hs.grid
    have := h3.add h3
    rwa [show s + s + s + (s + s + s) = 6 * s by ring] at this
  have h6 := h.rel_error hp1 g6
  rw [abs_of_nonneg (show 0 ≤ 6 * s by linarith)] at h6
  have h6' : |rd (6 * s) - 6 * s| ≤ 6 * (2 ^ p)⁻¹ := by nlinarith
  have f15 := isFloat_int (p := p) (emin := emin) hp he0 15 (by norm_num)
  have f10 := isFloat_int (p := p) (emin := emin) hp he0 10 (by norm_num)
  push_cast at f15 f10
  have hk := add_round (z := 6 * s - 15) (e := 6 * (2 ^ p)⁻¹) (Z := 15) h hp1 (h (6 * s)).1 f15.neg
    (by rw [show rd (6 * s) + -15 - (6 * s - 15) = rd (6 * s) - 6 * s by ring]; exact h6') (by rw [abs_le]; constructor <;> linarith)
  rw [← sub_eq_add_neg] at hk
  have h60 := h.mono_float isFloat_zero (show 0 ≤ 6 * s by linarith)
  have f6 := isFloat_int (p := p) (emin := emin) hp he0 6 (by norm_num)
  push_cast at f6
  have h66 := h.mono_float' f6 (show 6 * s ≤ 6 by linarith)
  have hk15 : |rd (rd (6 * s) - 15)| ≤ 15 := by
    have a1 := h.mono_float f15.neg (show -15 ≤ rd (6 * s) - 15 by linarith)
    have a2 := h.mono_float' isFloat_zero (show rd (6 * s) - 15 ≤ 0 by linarith)
    rw [abs_le]; constructor <;> linarith
  have hm := mul_round (a := s) (x := s) (e := 0) (X := 1) h hp1 (by simp) hk (by rw [abs_le]; constructor <;> linarith) hk15
  have hz : |s * (6 * s - 15) + 10| ≤ 10 := by
    rw [abs_le]; constructor <;> nlinarith
  rw [show ∀ a b : ℝ, a - b = a + 10 - (b + 10) by intros; ring] at hm
  refine le_trans (add_round h hp1 (h _).1 f10 hm hz) ?_
  generalize ((2 : ℝ) ^ p)⁻¹ = u at *
  generalize (2 : ℝ) ^ emin = η at *
  nlinarith [mul_nonneg hu0 hu0]

/-- The rounded `fa + (fb - fa)*s*s*s*(s*(6*s - 15) + 10)`. -/
theorem quin_round (h : Nearest p emin rd) (hp : 11 ≤ p) (he : emin ≤ -2 * p) {fa fb s t M : ℝ} (hfa : |fa| ≤ M) (hfb : |fb| ≤ M)
    (ha : IsFloat p emin fa) (hb : IsFloat p emin fb)
    (hs : IsFloat p emin s) (hs0 : 0 ≤ s) (hs1 : s ≤ 1) (ht0 : 0 ≤ t) (ht1 : t ≤ 1) (hst : |s - t| ≤ 3.1 * (2 ^ p)⁻¹) :
    |rd (fa + rd (rd (rd (rd (rd (fb - fa) * s) * s) * s) * rd (rd (s * rd (rd (6 * s) - 15)) + 10))) -
        (fa + (fb - fa) * (t ^ 3 * (t * (6 * t - 15) + 10)))|
      ≤ 116 * (2 ^ p)⁻¹ * M + 18 * 2 ^ emin := by
  have hp1 : 1 ≤ p := by omega
  have hu := unit_le hp
  have hu0 : (0 : ℝ) ≤ (2 ^ p)⁻¹ := by positivity
  have hη : (0 : ℝ) < 2 ^ emin := by positivity
  have hM : 0 ≤ M := le_trans (abs_nonneg _) hfa
  have hD : |fb - fa| ≤ 2 * M := le_trans (abs_sub _ _) (by linarith)
  have hd := h.rel_error hp1 (hb.grid.sub ha.grid)
  have h1 := pow_round h hp1 hs0 hs1 le_rfl (by simpa using hd)
  have h2 := pow_round h hp1 hs0 hs1 (by positivity) h1
  have h3 := pow_round h hp1 hs0 hs1 (by positivity) h2
  have hg := quad_round h hp he hs hs0 hs1
  have hq : ∀ x : ℝ, 0 ≤ x → x ≤ 1 → 0 ≤ x * (6 * x - 15) + 10 := fun x h0 h1 => by nlinarith
  have hq1 : ∀ x : ℝ, 0 ≤ x → x ≤ 1 → x ^ 3 * (x * (6 * x - 15) + 10) ≤ 1 := fun x h0 h1 => by
    have : 1 - x ^ 3 * (x * (6 * x - 15) + 10) = (1 - x) ^ 3 * (6 * x ^ 2 + 3 * x + 1) := by ring
    have : 0 ≤ (1 - x) ^ 3 * (6 * x ^ 2 + 3 * x + 1) := mul_nonneg (pow_nonneg (by linarith) _) (by positivity)
    linarith
  have hlip := le_trans (P5_lip hs0 hs1 ht0 ht1) (mul_le_mul_of_nonneg_left hst (by norm_num))
  have hx : (fb - fa) * s * s * s * (s * (6 * s - 15) + 10) = (fb - fa) * (s ^ 3 * (s * (6 * s - 15) + 10)) := by ring
  refine le_trans (final_round (F := 92.4 * ((2 ^ p)⁻¹ * M)) (G := 10) h hp1 hfa hfb ha (by positivity) (by positivity) h3 hg (hq s hs0 hs1) (by nlinarith) ?_ ?_ hx
    (mul_nonneg (pow_nonneg hs0 _) (hq s hs0 hs1)) (hq1 s hs0 hs1) (mul_nonneg (pow_nonneg ht0 _) (hq t ht0 ht1)) (hq1 t ht0 ht1) hlip) ?_
  · linarith
  · have e : |(fb - fa) * s * s * s| ≤ 2 * M * 1 := by
      rw [abs_mul, abs_mul, abs_mul, abs_of_nonneg hs0, mul_assoc, mul_assoc]
      exact mul_le_mul hD (mul_le_one₀ hs1 (mul_nonneg hs0 hs0) (mul_le_one₀ hs1 hs0 hs1)) (mul_nonneg hs0 (mul_nonneg hs0 hs0)) (by linarith)
    have := mul_le_mul_of_nonneg_right e (show 0 ≤ 46.2 * ((2 : ℝ) ^ p)⁻¹ by positivity)
    linarith
  · generalize ((2 : ℝ) ^ p)⁻¹ = u at *
    generalize (2 : ℝ) ^ emin = η at *
    clear h1 h2 h3 hd hg
    refine le_trans (final_num hu0 hu hη.le hM (by norm_num) (by norm_num) (by norm_num) (E_num (k := 4.004) (k' := 92.4) (m := 1.502) hu0 hu hM hη.le (by norm_num) (by norm_num) (by norm_num) (by ring) ?_ ?_)
      (l := 5.8125) (by linarith)) ?_
    · have q1 : u * u ≤ 1 / 2048 * u := mul_le_mul_of_nonneg_right hu hu0
      have q2 : u * (u * u) ≤ 1 / 2048 * (u * u) := mul_le_mul_of_nonneg_right hu (mul_nonneg hu0 hu0)
      have q3 : u * (u * (u * u)) ≤ 1 / 2048 * (u * (u * u)) := mul_le_mul_of_nonneg_right hu (mul_nonneg hu0 (mul_nonneg hu0 hu0))
      ring_nf at q1 q2 q3 ⊢
      linarith
    · have q1 : u * η ≤ 1 / 2048 * η := mul_le_mul_of_nonneg_right hu hη.le
      have q2 : u * (u * η) ≤ 1 / 2048 * (u * η) := mul_le_mul_of_nonneg_right hu (mul_nonneg hu0 hη.le)
      ring_nf at q1 q2 ⊢
      linarith
    · have : 0 ≤ u * M := mul_nonneg hu0 hM
      nlinarith

end Ufunclab.Step
