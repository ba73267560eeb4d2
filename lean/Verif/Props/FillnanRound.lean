import Verif.Model.FillnanRound
import Verif.Proof.SignalRound
import Verif.Props.Fillnan
/-!
# C95: fillnan1d in floating point

`rl` rounds to a nearest value of the format of `long double` (`Nearest P Emin rl`), `rt` to one of the
element type (`Nearest p emin rt`), whose values are among those of `long double` (`p ≤ P`,
`Emin ≤ emin`).  80-bit: `P = 64`, `Emin = -16445`; binary64: `p = 53`, `emin = -1074`.
-/
namespace Ufunclab.Fillnan
open Ufunclab.Float
variable {p P : ℕ} {emin Emin : ℤ} {rl rt : ℝ → ℝ}

/-- The interpolated value on numbers. -/
noncomputable def lerpR (rl rt : ℝ → ℝ) (a b : ℝ) (i d : ℕ) : ℝ :=
  rt (rl (a + rl ((i : ℝ) * rl (rl (b - a) / d))))

theorem xlerpR_fin (a b : ℝ) (i d : ℕ) (hd : 0 < d) : xlerpR rl rt (.fin a) (.fin b) i d = .fin (lerpR rl rt a b i d) := by
  have h : (d : ℝ) ≠ 0 := by exact_mod_cast Nat.pos_iff_ne_zero.1 hd
  simp only [xlerpR, XF.sub_fin, rnd, XF.div_fin _ _ h, XF.mul_fin, XF.add_fin, lerpR]

theorem isFloat_mono (hp : p ≤ P) (he : Emin ≤ emin) {x : ℝ} (h : IsFloat p emin x) : IsFloat P Emin x := by
  obtain ⟨m, e, hm, hee, rfl⟩ := h
  exact ⟨m, e, hm.trans_le (pow_le_pow_right₀ (by norm_num) hp), he.trans hee, rfl⟩

/-- Rounding seen in a mirror. -/
def mirror (rd : ℝ → ℝ) (z : ℝ) : ℝ := -rd (-z)

theorem mirror_nearest (h : Nearest p emin rt) : Nearest p emin (mirror rt) := by
  intro z
  refine ⟨(h (-z)).1.neg, fun y hy => ?_⟩
  have := (h (-z)).2 (-y) hy.neg
  have e1 : |mirror rt z - z| = |rt (-z) - -z| := by rw [← abs_neg]; congr 1; unfold mirror; ring
  have e2 : |y - z| = |-y - -z| := by rw [← abs_neg]; congr 1; ring
  rw [e1, e2]; exact this

theorem lerpR_mirror (a b : ℝ) (i d : ℕ) : lerpR rl rt a b i d = -lerpR (mirror rl) (mirror rt) (-a) (-b) i d := by
  have e1 : -(-b - -a) = b - a := by ring
  simp only [lerpR, mirror, neg_neg, neg_add, neg_mul, mul_neg, neg_div, e1]

/-- The result is never beyond the left value. -/
theorem lerpR_left (hl : Nearest P Emin rl) (ht : Nearest p emin rt) (hp : p ≤ P) (he : Emin ≤ emin) {a b : ℝ}
    (fa : IsFloat p emin a) (hab : a ≤ b) (i d : ℕ) : a ≤ lerpR rl rt a b i d := by
  refine ht.mono_float fa (hl.mono_float (isFloat_mono hp he fa) ?_)
  have h1 : 0 ≤ rl (b - a) := hl.mono_float isFloat_zero (by linarith)
  have h2 : 0 ≤ rl (rl (b - a) / d) := hl.mono_float isFloat_zero (by positivity)
  have h3 : 0 ≤ rl ((i : ℝ) * rl (rl (b - a) / d)) := hl.mono_float isFloat_zero (by positivity)
  linarith

/-- The increment does not exceed the difference. -/
theorem incr_le (hl : Nearest P Emin rl) (hP : 8 ≤ P) {a b : ℝ} (fa : IsFloat P Emin a) (fb : IsFloat P Emin b) (hab : a ≤ b) (i d : ℕ)
    (hid : i < d) (hd : 4 * (d : ℝ) ≤ 2 ^ P) (hη : a = b ∨ 4 * (d : ℝ) ^ 2 * 2 ^ Emin ≤ b - a) :
    rl ((i : ℝ) * rl (rl (b - a) / d)) ≤ b - a := by
  rcases hη with rfl | hη
  · simp [hl.round_zero]
  have hd0 : (0 : ℝ) < d := by exact_mod_cast Nat.lt_of_le_of_lt (Nat.zero_le i) hid
  have hd1 : (1 : ℝ) ≤ d := by exact_mod_cast (by omega : 1 ≤ d)
  have hi : (i : ℝ) ≤ d - 1 := by
    have : ((i + 1 : ℕ) : ℝ) ≤ d := by exact_mod_cast hid
    push_cast at this; linarith
  have hi0 : (0 : ℝ) ≤ i := Nat.cast_nonneg i
  have u0 : (0 : ℝ) < (2 ^ P)⁻¹ := by positivity
  have ud : (2 ^ P)⁻¹ * (d : ℝ) ≤ 1 / 4 := by
    rw [inv_mul_eq_div, div_le_iff₀ (by positivity)]; linarith
  have u1 : ((2 : ℝ) ^ P)⁻¹ ≤ 1 / 256 := by
    have : (2 : ℝ) ^ 8 ≤ 2 ^ P := pow_le_pow_right₀ (by norm_num) hP
    rw [one_div]; exact inv_anti₀ (by norm_num) (by norm_num at this ⊢; linarith)
  have η0 := two_zpow_pos (K := ℝ) Emin
  have c0 : 0 ≤ b - a := by linarith
  have e1 := (abs_le.1 (hl.rel_error (by omega) (fb.grid.sub fa.grid))).2
  rw [abs_of_nonneg c0] at e1
  have a1 : 0 ≤ rl (b - a) := hl.mono_float isFloat_zero c0
  have e2 := (abs_le.1 (hl.error (by omega) (rl (b - a) / d))).2
  rw [abs_of_nonneg (by positivity)] at e2
  have a2 : 0 ≤ rl (rl (b - a) / d) := hl.mono_float isFloat_zero (by positivity)
  have e3 := (abs_le.1 (hl.error (by omega) ((i : ℝ) * rl (rl (b - a) / d)))).2
  rw [abs_of_nonneg (by positivity)] at e3
  generalize ((2 : ℝ) ^ P)⁻¹ = u at *
  generalize (2 : ℝ) ^ Emin = η at *
  generalize b - a = c at *
  generalize rl c = c1 at *
  generalize rl (c1 / d) = s at *
  generalize rl ((i : ℝ) * s) = t at *
  -- multiply the bound of the slope by d
  have f2 : s * d ≤ (1 + u) * c1 + d * (η / 2) := by
    have h1 : s ≤ (1 + u) * (c1 / d) + η / 2 := by linarith
    have h2 := mul_le_mul_of_nonneg_right h1 hd0.le
    have h3 : ((1 + u) * (c1 / d) + η / 2) * d = (1 + u) * c1 + d * (η / 2) := by field_simp
    linarith
  have f3 : t ≤ (1 + u) * ((d - 1) * s) + η / 2 := by
    have h1 := mul_le_mul_of_nonneg_left (mul_le_mul_of_nonneg_right hi a2) (by linarith : 0 ≤ 1 + u)
    linarith
  have f1 : c1 ≤ (1 + u) * c := by linarith
  have f4 : s * d ≤ (1 + u) * ((1 + u) * c) + d * (η / 2) := by
    have := mul_le_mul_of_nonneg_left f1 (by linarith : 0 ≤ 1 + u); linarith
  have f5 : t * d ≤ (1 + u) * ((d - 1) * ((1 + u) * ((1 + u) * c) + d * (η / 2))) + η / 2 * d := by
    have h1 := mul_le_mul_of_nonneg_right f3 hd0.le
    have h2 := mul_le_mul_of_nonneg_left (mul_le_mul_of_nonneg_left f4 (by linarith : (0 : ℝ) ≤ d - 1)) (by linarith : 0 ≤ 1 + u)
    have h3 : ((1 + u) * ((d - 1) * s) + η / 2) * d = (1 + u) * ((d - 1) * (s * d)) + η / 2 * d := by ring
    linarith
  have g1 : (1 + u) * ((1 + u) * (1 + u)) ≤ 1 + 3.02 * u := by
    have k1 : u * u ≤ 1 / 256 * u := mul_le_mul_of_nonneg_right u1 u0.le
    have k2 : u * (u * u) ≤ 1 / 256 * (u * u) := mul_le_mul_of_nonneg_right u1 (by positivity)
    have e : (1 + u) * ((1 + u) * (1 + u)) = 1 + 3 * u + 3 * (u * u) + u * (u * u) := by ring
    rw [e]; norm_num at *; linarith
  have g2 : (1 + u) * ((d - 1) * ((1 + u) * ((1 + u) * c) + d * (η / 2))) + η / 2 * d ≤
      (1 + 3.02 * u) * ((d - 1) * c) + (1.01 * (d - 1) + 1) * (d * (η / 2)) := by
    have h1 := mul_le_mul_of_nonneg_right g1 (mul_nonneg (by linarith : (0 : ℝ) ≤ d - 1) c0)
    have h2 : (1 + u) * ((d - 1) * (d * (η / 2))) ≤ 1.01 * ((d - 1) * (d * (η / 2))) :=
      mul_le_mul_of_nonneg_right (by norm_num; linarith) (mul_nonneg (by linarith) (by positivity))
    have h3 : (1 + u) * ((d - 1) * ((1 + u) * ((1 + u) * c) + d * (η / 2))) =
      (1 + u) * ((1 + u) * (1 + u)) * ((d - 1) * c) + (1 + u) * ((d - 1) * (d * (η / 2))) := by ring
    have h4 : (1.01 * ((d : ℝ) - 1) + 1) * (d * (η / 2)) = 1.01 * ((d - 1) * (d * (η / 2))) + η / 2 * d := by ring
    linarith
  have g3 : (1 + 3.02 * u) * ((d - 1) * c) ≤ (d - 1 + 0.755) * c := by
    have h1 : (1 + 3.02 * u) * ((d : ℝ) - 1) ≤ d - 1 + 0.755 := by
      have : 3.02 * u * ((d : ℝ) - 1) = 3.02 * (u * d) - 3.02 * u := by ring
      norm_num at *; linarith
    have := mul_le_mul_of_nonneg_right h1 c0
    linarith
  have g4 : (1.01 * ((d : ℝ) - 1) + 1) * (d * (η / 2)) ≤ 0.51 * (d ^ 2 * η) := by
    have h1 : 1.01 * ((d : ℝ) - 1) + 1 ≤ 1.02 * d := by norm_num; linarith
    have := mul_le_mul_of_nonneg_right h1 (by positivity : 0 ≤ (d : ℝ) * (η / 2))
    have e : 1.02 * (d : ℝ) * (d * (η / 2)) = 0.51 * (d ^ 2 * η) := by ring
    linarith
  have g5 : t * d ≤ c * d := by
    have : 4 * (d : ℝ) ^ 2 * η = 4 * (d ^ 2 * η) := by ring
    have h0 : 0 ≤ (d : ℝ) ^ 2 * η := by positivity
    norm_num at *; linarith
  exact le_of_mul_le_mul_right g5 hd0

theorem lerpR_range_up (hl : Nearest P Emin rl) (ht : Nearest p emin rt) (hP : 8 ≤ P) (hp : p ≤ P) (he : Emin ≤ emin) {a b : ℝ}
    (fa : IsFloat p emin a) (fb : IsFloat p emin b) (hab : a ≤ b) (i d : ℕ) (hid : i < d) (hd : 4 * (d : ℝ) ≤ 2 ^ P)
    (hη : a = b ∨ 4 * (d : ℝ) ^ 2 * 2 ^ Emin ≤ b - a) : a ≤ lerpR rl rt a b i d ∧ lerpR rl rt a b i d ≤ b := by
  refine ⟨lerpR_left hl ht hp he fa hab i d, ?_⟩
  have fa' := isFloat_mono hp he fa
  have fb' := isFloat_mono hp he fb
  refine ht.mono_float' fb (hl.mono_float' fb' ?_)
  have := incr_le hl hP fa' fb' hab i d hid hd hη
  linarith

/-- The interpolated value lies between its neighbours. -/
theorem lerpR_range (hl : Nearest P Emin rl) (ht : Nearest p emin rt) (hP : 8 ≤ P) (hp : p ≤ P) (he : Emin ≤ emin) {a b : ℝ}
    (fa : IsFloat p emin a) (fb : IsFloat p emin b) (i d : ℕ) (hid : i < d) (hd : 4 * (d : ℝ) ≤ 2 ^ P)
    (hη : a = b ∨ 4 * (d : ℝ) ^ 2 * 2 ^ Emin ≤ |b - a|) : min a b ≤ lerpR rl rt a b i d ∧ lerpR rl rt a b i d ≤ max a b := by
  rcases le_total a b with hab | hab
  · rw [min_eq_left hab, max_eq_right hab]
    rw [abs_of_nonneg (by linarith)] at hη
    exact lerpR_range_up hl ht hP hp he fa fb hab i d hid hd hη
  · rw [min_eq_right hab, max_eq_left hab, lerpR_mirror]
    rw [abs_of_nonpos (by linarith)] at hη
    have := lerpR_range_up (mirror_nearest hl) (mirror_nearest ht) hP hp he fa.neg fb.neg (by linarith) i d hid hd
      (hη.imp (fun h => by rw [h]) (fun h => by linarith))
    constructor <;> linarith [this.1, this.2]

/-- The interpolated values follow the order of the neighbours. -/
theorem lerpR_mono (hl : Nearest P Emin rl) (ht : Nearest p emin rt) {a b : ℝ} (hab : a ≤ b) {i j : ℕ} (hij : i ≤ j) (d : ℕ) :
    lerpR rl rt a b i d ≤ lerpR rl rt a b j d := by
  have h1 : 0 ≤ rl (b - a) := hl.mono_float isFloat_zero (by linarith)
  have h2 : 0 ≤ rl (rl (b - a) / d) := hl.mono_float isFloat_zero (by positivity)
  have h3 : (i : ℝ) ≤ j := by exact_mod_cast hij
  refine ht.monotone (hl.monotone (add_le_add le_rfl (hl.monotone (mul_le_mul_of_nonneg_right h3 h2))))

/-- Rounding error of the interpolated value. -/
theorem lerpR_error (hl : Nearest P Emin rl) (ht : Nearest p emin rt) (hP : 8 ≤ P) (hp1 : 1 ≤ p) {a b : ℝ}
    (fa : IsFloat P Emin a) (fb : IsFloat P Emin b) (i d : ℕ) (hid : i < d) :
    |lerpR rl rt a b i d - (a + (i : ℝ) * ((b - a) / d))| ≤ (2 ^ p)⁻¹ * |a + (i : ℝ) * ((b - a) / d)| + 2 ^ emin / 2 +
      (1 + (2 ^ p)⁻¹) * ((2 ^ P)⁻¹ * |a + (i : ℝ) * ((b - a) / d)| + 3.1 * ((2 ^ P)⁻¹ * |b - a|) + d * 2 ^ Emin) := by
  have hd0 : (0 : ℝ) < d := by exact_mod_cast Nat.lt_of_le_of_lt (Nat.zero_le i) hid
  have hi : (i : ℝ) ≤ d - 1 := by
    have : ((i + 1 : ℕ) : ℝ) ≤ d := by exact_mod_cast hid
    push_cast at this; linarith
  have hi0 : (0 : ℝ) ≤ i := Nat.cast_nonneg i
  have u0 : (0 : ℝ) < (2 ^ P)⁻¹ := by positivity
  have v0 : (0 : ℝ) < (2 ^ p)⁻¹ := by positivity
  have u1 : ((2 : ℝ) ^ P)⁻¹ ≤ 1 / 256 := by
    have : (2 : ℝ) ^ 8 ≤ 2 ^ P := pow_le_pow_right₀ (by norm_num) hP
    rw [one_div]; exact inv_anti₀ (by norm_num) (by norm_num at this ⊢; linarith)
  have η0 := two_zpow_pos (K := ℝ) Emin
  have e1 := hl.rel_error (by omega) (fb.grid.sub fa.grid)
  have e2 := hl.error (by omega) (rl (b - a) / d)
  have e3 := hl.error (by omega) ((i : ℝ) * rl (rl (b - a) / d))
  have e4 := hl.rel_error (by omega) (fa.grid.add (hl ((i : ℝ) * rl (rl (b - a) / d))).1.grid)
  have e5 := ht.error hp1 (rl (a + rl ((i : ℝ) * rl (rl (b - a) / d))))
  unfold lerpR
  generalize ((2 : ℝ) ^ P)⁻¹ = u at *
  generalize ((2 : ℝ) ^ p)⁻¹ = v at *
  generalize (2 : ℝ) ^ Emin = η at *
  generalize (2 : ℝ) ^ emin = ζ at *
  generalize hc : b - a = c at *
  generalize rl c = c1 at *
  generalize rl (c1 / d) = s at *
  generalize rl ((i : ℝ) * s) = t at *
  generalize rl (a + t) = w at *
  generalize rt w = z at *
  generalize hX : a + (i : ℝ) * (c / d) = X
  have n0 : 0 ≤ |c| := abs_nonneg c
  -- the slope times i
  have hid' : (i : ℝ) / d ≤ 1 := by rw [div_le_one hd0]; linarith
  have r1 : |i * (c1 / d) - i * (c / d)| ≤ u * |c| := by
    have : (i : ℝ) * (c1 / d) - i * (c / d) = (i / d) * (c1 - c) := by ring
    rw [this, abs_mul, abs_of_nonneg (by positivity)]
    calc _ ≤ 1 * (u * |c|) := mul_le_mul hid' e1 (abs_nonneg _) (by norm_num)
      _ = _ := one_mul _
  have r0 : |i * (c / d)| ≤ |c| := by
    have : (i : ℝ) * (c / d) = (i / d) * c := by ring
    rw [this, abs_mul, abs_of_nonneg (by positivity)]
    calc _ ≤ 1 * |c| := mul_le_mul_of_nonneg_right hid' n0
      _ = _ := one_mul _
  have r2 : |i * (c1 / d)| ≤ (1 + u) * |c| := by
    calc |(i : ℝ) * (c1 / d)| = |(i * (c1 / d) - i * (c / d)) + i * (c / d)| := by congr 1; ring
      _ ≤ _ := abs_add_le _ _
      _ ≤ _ := by linarith
  have r3 : |i * s - i * (c1 / d)| ≤ u * ((1 + u) * |c|) + (d - 1) * (η / 2) := by
    rw [← mul_sub, abs_mul, abs_of_nonneg hi0]
    have h1 := mul_le_mul_of_nonneg_left e2 hi0
    have h2 : (i : ℝ) * (u * |c1 / d| + η / 2) = u * |i * (c1 / d)| + i * (η / 2) := by
      rw [abs_mul, abs_of_nonneg hi0]; ring
    have h3 := mul_le_mul_of_nonneg_left r2 u0.le
    have h4 := mul_le_mul_of_nonneg_right hi (by positivity : 0 ≤ η / 2)
    linarith
  have r4 : |i * s - i * (c / d)| ≤ u * |c| + u * ((1 + u) * |c|) + (d - 1) * (η / 2) := by
    calc _ ≤ _ := abs_sub_le _ ((i : ℝ) * (c1 / d)) _
      _ ≤ _ := by linarith
  have uu : u * ((1 + u) * |c|) ≤ 1.004 * (u * |c|) := by
    have h1 := mul_le_mul_of_nonneg_right (by norm_num; linarith : 1 + u ≤ 1.004) (by positivity : 0 ≤ u * |c|)
    have h2 : u * ((1 + u) * |c|) = (1 + u) * (u * |c|) := by ring
    linarith
  have r5 : |i * s| ≤ |c| + 2.004 * (u * |c|) + (d - 1) * (η / 2) := by
    calc |(i : ℝ) * s| = |(i * s - i * (c / d)) + i * (c / d)| := by congr 1; ring
      _ ≤ _ := abs_add_le _ _
      _ ≤ _ := by norm_num at *; linarith
  have k1 : u * (u * |c|) ≤ (1 / 256) * (u * |c|) := mul_le_mul_of_nonneg_right u1 (by positivity)
  have d1 : (0 : ℝ) ≤ d - 1 := by linarith
  have k2 : u * ((d - 1) * (η / 2)) ≤ (1 / 256) * ((d - 1) * (η / 2)) := mul_le_mul_of_nonneg_right u1 (by positivity)
  have r6 : |t - i * (c / d)| ≤ 3.013 * (u * |c|) + (0.51 * (d - 1) + 0.5) * η := by
    have h1 := mul_le_mul_of_nonneg_left r5 u0.le
    have h2 : u * (|c| + 2.004 * (u * |c|) + (d - 1) * (η / 2)) = u * |c| + 2.004 * (u * (u * |c|)) + u * ((d - 1) * (η / 2)) := by ring
    have h3 : 0 ≤ u * |c| := by positivity
    have h4 : 0 ≤ (d - 1) * (η / 2) := by positivity
    have h5 : (0.51 * ((d : ℝ) - 1) + 0.5) * η = 1.02 * ((d - 1) * (η / 2)) + η / 2 := by ring
    calc _ ≤ _ := abs_sub_le _ ((i : ℝ) * s) _
      _ ≤ (u * |i * s| + η / 2) + (u * |c| + u * ((1 + u) * |c|) + (d - 1) * (η / 2)) := add_le_add e3 r4
      _ ≤ _ := by norm_num at *; linarith
  have r7 : |a + t - X| ≤ 3.013 * (u * |c|) + (0.51 * (d - 1) + 0.5) * η := by
    have : a + t - X = t - i * (c / d) := by rw [← hX]; ring
    rw [this]; exact r6
  have r8 : |a + t| ≤ |X| + (3.013 * (u * |c|) + (0.51 * (d - 1) + 0.5) * η) := by
    calc |a + t| = |(a + t - X) + X| := by congr 1; ring
      _ ≤ _ := abs_add_le _ _
      _ ≤ _ := by linarith
  have r9 : |w - X| ≤ u * |X| + 3.1 * (u * |c|) + d * η := by
    have h1 := mul_le_mul_of_nonneg_left r8 u0.le
    have h3 : 0 ≤ u * |c| := by positivity
    have h4 : 0 ≤ (d - 1) * η := by positivity
    have k3 : u * η ≤ 1 / 256 * η := mul_le_mul_of_nonneg_right u1 η0.le
    have h2 : u * (|X| + (3.013 * (u * |c|) + (0.51 * (d - 1) + 0.5) * η)) =
      u * |X| + 3.013 * (u * (u * |c|)) + 1.02 * (u * ((d - 1) * (η / 2))) + 0.5 * (u * η) := by ring
    have h5 : (0.51 * ((d : ℝ) - 1) + 0.5) * η = 0.51 * ((d - 1) * η) + 0.5 * η := by ring
    have h6 : (d : ℝ) * η = (d - 1) * η + η := by ring
    have h7 : ((d : ℝ) - 1) * (η / 2) = ((d - 1) * η) / 2 := by ring
    calc _ ≤ _ := abs_sub_le _ (a + t) _
      _ ≤ u * |a + t| + (3.013 * (u * |c|) + (0.51 * (d - 1) + 0.5) * η) := add_le_add e4 r7
      _ ≤ _ := by rw [h7] at *; norm_num at *; linarith
  have r10 : |w| ≤ |X| + (u * |X| + 3.1 * (u * |c|) + d * η) := by
    calc |w| = |(w - X) + X| := by congr 1; ring
      _ ≤ _ := abs_add_le _ _
      _ ≤ _ := by linarith
  have h1 := mul_le_mul_of_nonneg_left r10 v0.le
  calc _ ≤ _ := abs_sub_le _ w _
    _ ≤ (v * |w| + ζ / 2) + (u * |X| + 3.1 * (u * |c|) + d * η) := add_le_add e5 r9
    _ ≤ _ := by linarith

/-- C95: a NaN between finite neighbours `x[a]` and `x[b]` is replaced by a number that differs from the
value of the straight line by one rounding to the element type, plus a few roundings of `long double`
relative to `|x[b] - x[a]|`. -/
theorem C95_fillnan_accuracy (hl : Nearest P Emin rl) (ht : Nearest p emin rt) (hP : 8 ≤ P) (hp1 : 1 ≤ p) (hp : p ≤ P) (he : Emin ≤ emin)
    (n : Nat) (x out : Nat → XF ℝ) (a i b : Nat) (va vb : ℝ) (h1 : a < i) (h2 : i < b) (h3 : b < n) (hva : x a = .fin va)
    (hvb : x b = .fin vb) (fa : IsFloat p emin va) (fb : IsFloat p emin vb) (hnan : ∀ j, a < j → j < b → XF.isnan (x j) = true) :
    ∃ v, fillnan XF.isnan .nan (xlerpR rl rt) n x out i = .fin v ∧
      let z := va + ((i : ℝ) - a) * (vb - va) / ((b : ℝ) - a)
      |v - z| ≤ (2 ^ p)⁻¹ * |z| + 2 ^ emin / 2 +
        (1 + (2 ^ p)⁻¹) * ((2 ^ P)⁻¹ * |z| + 3.1 * ((2 ^ P)⁻¹ * |vb - va|) + ((b : ℝ) - a) * 2 ^ Emin) := by
  have h := (C33_values XF.isnan .nan (xlerpR rl rt) n x out ⟨a, by omega, by rw [hva]; rfl⟩).2.2.2.1
    a i b h1 h2 h3 (by rw [hva]; rfl) (by rw [hvb]; rfl) hnan
  rw [hva, hvb, xlerpR_fin _ _ _ _ (by omega)] at h
  refine ⟨_, h, ?_⟩
  have := lerpR_error hl ht hP hp1 (isFloat_mono hp he fa) (isFloat_mono hp he fb) (i - a) (b - a) (by omega)
  rw [Nat.cast_sub (by omega), Nat.cast_sub (by omega)] at this
  have e : ((i : ℝ) - a) * (vb - va) / ((b : ℝ) - a) = ((i : ℝ) - a) * ((vb - va) / ((b : ℝ) - a)) := by ring
  simp only [e]
  exact this

/-- C95: the replaced values lie between the neighbours, in order.  `hη` holds for every gap that fits in a
memory when the elements are `float` or `double` and `long double` has a wider exponent range: the least
difference of two distinct values is `2^emin`. -/
theorem C95_fillnan_between (hl : Nearest P Emin rl) (ht : Nearest p emin rt) (hP : 8 ≤ P) (hp : p ≤ P) (he : Emin ≤ emin)
    (n : Nat) (x out : Nat → XF ℝ) (a b : Nat) (va vb : ℝ) (h3 : b < n) (hva : x a = .fin va)
    (hvb : x b = .fin vb) (fa : IsFloat p emin va) (fb : IsFloat p emin vb) (hnan : ∀ j, a < j → j < b → XF.isnan (x j) = true)
    (hd : 4 * ((b : ℝ) - a) ≤ 2 ^ P) (hη : 4 * ((b : ℝ) - a) ^ 2 * 2 ^ Emin ≤ 2 ^ emin) (i j : Nat) (h1 : a < i) (hij : i ≤ j)
    (h2 : j < b) :
    ∃ v w, fillnan XF.isnan .nan (xlerpR rl rt) n x out i = .fin v ∧ fillnan XF.isnan .nan (xlerpR rl rt) n x out j = .fin w ∧
      (va ≤ vb → va ≤ v ∧ v ≤ w ∧ w ≤ vb) ∧ (vb ≤ va → vb ≤ w ∧ w ≤ v ∧ v ≤ va) := by
  have key := (C33_values XF.isnan .nan (xlerpR rl rt) n x out ⟨a, by omega, by rw [hva]; rfl⟩).2.2.2.1
  have k1 := key a i b h1 (by omega) h3 (by rw [hva]; rfl) (by rw [hvb]; rfl) hnan
  have k2 := key a j b (by omega) h2 h3 (by rw [hva]; rfl) (by rw [hvb]; rfl) hnan
  rw [hva, hvb, xlerpR_fin _ _ _ _ (by omega)] at k1 k2
  refine ⟨_, _, k1, k2, ?_⟩
  have cb : ((b - a : ℕ) : ℝ) = (b : ℝ) - a := Nat.cast_sub (by omega)
  have hdist : va = vb ∨ 4 * ((b - a : ℕ) : ℝ) ^ 2 * 2 ^ Emin ≤ |vb - va| := by
    by_cases hv : va = vb
    · exact .inl hv
    · right
      obtain ⟨m, hm⟩ := fb.grid.sub fa.grid
      have hm0 : m ≠ 0 := by rintro rfl; apply hv; simp at hm; linarith
      have : (1 : ℝ) ≤ |(m : ℝ)| := by exact_mod_cast Int.one_le_abs hm0
      rw [cb, hm, abs_mul, abs_two_zpow]
      refine hη.trans (le_mul_of_one_le_left (two_zpow_pos emin).le this)
  have r1 := lerpR_range hl ht hP hp he fa fb (i - a) (b - a) (by omega) (by rw [cb]; exact hd) hdist
  have r2 := lerpR_range hl ht hP hp he fa fb (j - a) (b - a) (by omega) (by rw [cb]; exact hd) hdist
  constructor
  · intro hab
    rw [min_eq_left hab, max_eq_right hab] at r1 r2
    exact ⟨r1.1, lerpR_mono hl ht hab (by omega) _, r2.2⟩
  · intro hab
    rw [min_eq_right hab, max_eq_left hab] at r1 r2
    refine ⟨r2.1, ?_, r1.2⟩
    rw [lerpR_mirror, lerpR_mirror va vb]
    exact neg_le_neg (lerpR_mono (mirror_nearest hl) (mirror_nearest ht) (by linarith) (by omega) _)

/-- C95: NaNs between two equal values are replaced by that value exactly. -/
theorem C95_fillnan_constant (hl : Nearest P Emin rl) (ht : Nearest p emin rt) (hp : p ≤ P) (he : Emin ≤ emin)
    (n : Nat) (x out : Nat → XF ℝ) (a i b : Nat) (va : ℝ) (h1 : a < i) (h2 : i < b) (h3 : b < n) (hva : x a = .fin va)
    (hvb : x b = .fin va) (fa : IsFloat p emin va) (hnan : ∀ j, a < j → j < b → XF.isnan (x j) = true) :
    fillnan XF.isnan .nan (xlerpR rl rt) n x out i = .fin va := by
  have h := (C33_values XF.isnan .nan (xlerpR rl rt) n x out ⟨a, by omega, by rw [hva]; rfl⟩).2.2.2.1
    a i b h1 h2 h3 (by rw [hva]; rfl) (by rw [hvb]; rfl) hnan
  rw [h, hva, hvb, xlerpR_fin _ _ _ _ (by omega)]
  congr 1
  simp only [lerpR, sub_self, hl.round_zero, zero_div, mul_zero, add_zero]
  rw [hl.exact (isFloat_mono hp he fa), ht.exact fa]

/-- C95 fails for `long double` data among the smallest numbers: between 0 and `5η` (`η` the least
positive number), 9 places apart, the eighth value is `8η`. -/
theorem C95_fillnan_between_violated (hl : Nearest P Emin rl) (hP : 4 ≤ P) :
    ∃ (x : Nat → XF ℝ) (b v : ℝ), x 0 = .fin 0 ∧ x 9 = .fin b ∧ IsFloat P Emin b ∧ 0 ≤ b ∧ (∀ j, 0 < j → j < 9 → XF.isnan (x j) = true) ∧
      fillnan XF.isnan .nan (xlerpR rl rl) 10 x (fun _ => .nan) 8 = .fin v ∧ b < v := by
  have h16 : (2 : ℤ) ^ 4 ≤ 2 ^ P := pow_le_pow_right₀ (by norm_num) hP
  have η0 := two_zpow_pos (K := ℝ) Emin
  have fl : ∀ n : ℤ, |n| < 16 → IsFloat P Emin ((n : ℝ) * 2 ^ Emin) := fun n hn => ⟨n, Emin, by omega, le_rfl, rfl⟩
  have f5 := fl 5 (by norm_num)
  have f8 := fl 8 (by norm_num)
  push_cast at f5 f8
  have slope : rl (5 * 2 ^ Emin / ((9 : ℕ) : ℝ)) = 2 ^ Emin := by
    obtain ⟨m, hm⟩ := (hl (5 * 2 ^ Emin / ((9 : ℕ) : ℝ))).1.grid
    have h1 := (hl (5 * 2 ^ Emin / ((9 : ℕ) : ℝ))).2 _ (by simpa using fl 1 (by norm_num))
    have e1 : (2 : ℝ) ^ Emin - 5 * 2 ^ Emin / ((9 : ℕ) : ℝ) = 4 / 9 * 2 ^ Emin := by push_cast; ring
    have e2 : (m : ℝ) * 2 ^ Emin - 5 * 2 ^ Emin / ((9 : ℕ) : ℝ) = (m - 5 / 9) * 2 ^ Emin := by push_cast; ring
    rw [hm, e1, e2, abs_mul, abs_mul, abs_of_pos η0] at h1
    have h2 := abs_le.1 (le_of_mul_le_mul_right h1 η0)
    rw [abs_of_pos (by norm_num)] at h2
    have m1 : (0 : ℝ) < m := by linarith [h2.1]
    have m2 : (m : ℝ) < 2 := by linarith [h2.2]
    have m1' : 0 < m := by exact_mod_cast m1
    have m2' : m < 2 := by exact_mod_cast m2
    rw [hm, show m = 1 by omega]; simp
  refine ⟨fun j => if j = 0 then .fin 0 else if j = 9 then .fin (5 * 2 ^ Emin) else .nan, 5 * 2 ^ Emin, 8 * 2 ^ Emin, rfl, rfl, f5, by positivity, ?_, ?_,
    by linarith⟩
  · intro j h1 h2
    have e1 : j ≠ 0 := by omega
    have e2 : j ≠ 9 := by omega
    simp [e1, e2, XF.isnan]
  · have h := (C33_values XF.isnan .nan (xlerpR rl rl) 10 (fun j => if j = 0 then .fin 0 else if j = 9 then .fin (5 * 2 ^ Emin) else .nan)
      (fun _ => .nan) ⟨0, by norm_num, rfl⟩).2.2.2.1 0 8 9 (by norm_num) (by norm_num) (by norm_num) rfl rfl (by
        intro j h1 h2
        have e1 : j ≠ 0 := by omega
        have e2 : j ≠ 9 := by omega
        simp [e1, e2, XF.isnan])
    rw [h]
    show xlerpR rl rl (.fin 0) (.fin (5 * 2 ^ Emin)) 8 9 = _
    rw [xlerpR_fin _ _ _ _ (by norm_num), lerpR, sub_zero, hl.exact f5, slope, zero_add]
    have : ((8 : ℕ) : ℝ) * 2 ^ Emin = 8 * 2 ^ Emin := by norm_num
    rw [this, hl.exact f8, hl.exact f8, hl.exact f8]

/-! ### Non-vacuity: doubles with an 80-bit `long double`; `[1, nan, nan, 2]` -/
example : ∃ rl rt : ℝ → ℝ, Nearest 64 (-16445) rl ∧ Nearest 53 (-1074) rt ∧ ∃ v w,
    fillnan XF.isnan .nan (xlerpR rl rt) 4 (fun j => if j = 0 then .fin 1 else if j = 3 then .fin 2 else .nan) (fun _ => .nan) 1 = .fin v ∧
    fillnan XF.isnan .nan (xlerpR rl rt) 4 (fun j => if j = 0 then .fin 1 else if j = 3 then .fin 2 else .nan) (fun _ => .nan) 2 = .fin w ∧
    1 ≤ v ∧ v ≤ w ∧ w ≤ 2 := by
  obtain ⟨rl, hl⟩ := exists_nearest (K := ℝ) (p := 64) (by norm_num) (-16445)
  obtain ⟨rt, ht⟩ := exists_nearest (K := ℝ) (p := 53) (by norm_num) (-1074)
  refine ⟨rl, rt, hl, ht, ?_⟩
  have hη : 4 * ((3 : ℕ) - (0 : ℕ) : ℝ) ^ 2 * 2 ^ (-16445 : ℤ) ≤ 2 ^ (-1074 : ℤ) := by
    have e : (2 : ℝ) ^ (-1074 : ℤ) = 2 ^ (15371 : ℤ) * 2 ^ (-16445 : ℤ) := by rw [← zpow_add₀ (by norm_num)]; norm_num
    rw [e]
    apply mul_le_mul_of_nonneg_right _ (by positivity)
    calc (4 * ((3 : ℕ) - (0 : ℕ) : ℝ) ^ 2 : ℝ) ≤ 2 ^ (6 : ℤ) := by norm_num
      _ ≤ _ := zpow_le_zpow_right₀ (by norm_num) (by norm_num)
  obtain ⟨v, w, e1, e2, h, _⟩ := C95_fillnan_between hl ht (by norm_num) (by norm_num) (by norm_num) 4
    (fun j => if j = 0 then .fin 1 else if j = 3 then .fin 2 else .nan) (fun _ => .nan) 0 3 1 2 (by norm_num) rfl rfl
    (isFloat_one (by norm_num) (by norm_num)) ⟨2, 0, by norm_num, by norm_num, by norm_num⟩ (by
      intro j h1 h2
      have e1 : j ≠ 0 := by omega
      have e2 : j ≠ 3 := by omega
      simp [e1, e2, XF.isnan]) (by norm_num) hη 1 2 (by norm_num) (by norm_num) (by norm_num)
  exact ⟨v, w, e1, e2, h (by norm_num)⟩

end Ufunclab.Fillnan
