import Verif.Props.Step
import Verif.Proof.InterpRound
import Verif.Model.Deadzone
import Verif.Props.Deadzone
/-!
# Property C77: the interpolating functions in floating point

`p` and `emin` describe the format, `rd` is any rounding to nearest of it; `(2^p)⁻¹` is the unit
roundoff and `2^emin` the smallest positive number.
-/
namespace Ufunclab.Step
open Float LinearInterp

variable {p : ℕ} {emin : ℤ} {rd : ℝ → ℝ}

/-- C77: without rounding the rounded models are the models of C50. -/
theorem C77_exact_arithmetic (x a b fa fb : ℝ) :
    linearstepR id x a b fa fb = linearstep (.fin x) (.fin a) (.fin b) (.fin fa) (.fin fb) ∧
    smoothstep3R id x a b fa fb = smoothstep3 (.fin x) (.fin a) (.fin b) (.fin fa) (.fin fb) ∧
    smoothstep5R id x a b fa fb = smoothstep5 (.fin x) (.fin a) (.fin b) (.fin fa) (.fin fb) := by
  have h2 : (2 : ℝ) ≠ 0 := by norm_num
  simp only [linearstepR, smoothstep3R, smoothstep5R, linearstep, smoothstep3, smoothstep5, XF.gt_fin, XF.le_fin, XF.ge_fin, XF.eq_fin,
    decide_eq_true_eq, id, gt_iff_lt, ge_iff_le]
  by_cases h : b < a
  · simp [h]
  by_cases hx : x ≤ a
  · simp [h, hx]
  by_cases hy : b ≤ x
  · simp [h, hx, hy]
  by_cases hab : a = b
  · exfalso; subst hab; linarith [not_le.1 hx, not_le.1 hy]
  have hd : b - a ≠ 0 := sub_ne_zero.2 (Ne.symm hab)
  simp only [h, hx, hy, hab, if_false, XF.sub_fin, XF.div_fin _ _ hd, XF.mul_fin, XF.add_fin, true_and, and_self]

/-- C77: outside the transition the end values are returned exactly. -/
theorem C77_step_ends (rd : ℝ → ℝ) (x a b fa fb : ℝ) (hab : a ≤ b) :
    (x ≤ a → linearstepR rd x a b fa fb = .fin fa ∧ smoothstep3R rd x a b fa fb = .fin fa ∧ smoothstep5R rd x a b fa fb = .fin fa) ∧
    (a < x → b ≤ x → linearstepR rd x a b fa fb = .fin fb ∧ smoothstep3R rd x a b fa fb = .fin fb ∧ smoothstep5R rd x a b fa fb = .fin fb) := by
  constructor
  · intro h
    simp [linearstepR, smoothstep3R, smoothstep5R, not_lt.2 hab, h]
  · intro h h'
    simp [linearstepR, smoothstep3R, smoothstep5R, not_lt.2 hab, not_le.2 h, h']

theorem inside (x a b : ℝ) (h0 : a < x) (h1 : x < b) :
    ¬ b < a ∧ ¬ x ≤ a ∧ ¬ b ≤ x ∧ a ≠ b := by
  refine ⟨?_, not_le.2 h0, not_le.2 h1, ?_⟩ <;> linarith

/-- C77: inside the transition the computed value is close to the exact polynomial. -/
theorem C77_step_accuracy (h : Nearest p emin rd) (hp : 11 ≤ p) (he : emin ≤ -2 * p) (x a b fa fb M : ℝ)
    (hx : IsFloat p emin x) (ha : IsFloat p emin a) (hb : IsFloat p emin b) (hfa : IsFloat p emin fa) (hfb : IsFloat p emin fb)
    (h0 : a < x) (h1 : x < b) (hMa : |fa| ≤ M) (hMb : |fb| ≤ M) :
    let t := (x - a) / (b - a)
    (∃ y, linearstepR rd x a b fa fb = .fin y ∧ |y - (fa + (fb - fa) * t)| ≤ 11 * (2 ^ p)⁻¹ * M + 2 * 2 ^ emin) ∧
    (∃ y, smoothstep3R rd x a b fa fb = .fin y ∧
      |y - (fa + (fb - fa) * (3 * t ^ 2 - 2 * t ^ 3))| ≤ 21 * (2 ^ p)⁻¹ * M + 5 * 2 ^ emin) ∧
    (∃ y, smoothstep5R rd x a b fa fb = .fin y ∧
      |y - (fa + (fb - fa) * (6 * t ^ 5 - 15 * t ^ 4 + 10 * t ^ 3))| ≤ 116 * (2 ^ p)⁻¹ * M + 18 * 2 ^ emin) := by
  intro t
  obtain ⟨i1, i2, i3, i4⟩ := inside x a b h0 h1
  obtain ⟨r0, r1, re⟩ := ratio_round h hp he (hx.grid.sub ha.grid) (hb.grid.sub ha.grid) (by linarith) (by linarith) (by linarith)
  have ht0 : 0 ≤ t := div_nonneg (by linarith) (by linarith)
  have ht1 : t ≤ 1 := (div_le_one (by linarith)).2 (by linarith)
  have he0 : emin ≤ 0 := by omega
  refine ⟨⟨_, by simp only [linearstepR, gt_iff_lt, ge_iff_le, if_neg i1, if_neg i2, if_neg i3, if_neg i4]; rfl, ?_⟩,
    ⟨_, by simp only [smoothstep3R, gt_iff_lt, ge_iff_le, if_neg i1, if_neg i2, if_neg i3, if_neg i4]; rfl, ?_⟩,
    ⟨_, by simp only [smoothstep5R, gt_iff_lt, ge_iff_le, if_neg i1, if_neg i2, if_neg i3, if_neg i4]; rfl, ?_⟩⟩
  · exact lin_round h hp he0 hMa hMb (h _).1 r0 r1 ht0 ht1 re
  · rw [show 3 * t ^ 2 - 2 * t ^ 3 = t ^ 2 * (3 - 2 * t) by ring]
    exact cub_round h hp he0 hMa hMb hfa hfb (h _).1 r0 r1 ht0 ht1 re
  · rw [show 6 * t ^ 5 - 15 * t ^ 4 + 10 * t ^ 3 = t ^ 3 * (t * (6 * t - 15) + 10) by ring]
    exact quin_round h hp he hMa hMb hfa hfb (h _).1 r0 r1 ht0 ht1 re

/-- Less than half a step above one rounds to one. -/
theorem round_le_one (h : Nearest p emin rd) (hp : 1 ≤ p) (he : emin ≤ -2 * p) {z : ℝ} (hz : z < 1 + (2 ^ p)⁻¹) : rd z ≤ 1 := by
  have f1 : IsFloat p emin (1 : ℝ) := isFloat_one hp (by omega)
  rcases le_or_gt z 1 with c | c
  · exact h.mono_float' f1 c
  by_contra hc
  have hc := not_le.1 hc
  have hk1 : (2 : ℝ) ^ (-(p : ℤ) + 1) = 2 * (2 ^ p)⁻¹ := by
    rw [zpow_add_one₀ (by norm_num), zpow_neg, zpow_natCast]; ring
  have hk2 : (2 : ℝ) ^ p * 2 ^ (-(p : ℤ)) = 1 := by
    rw [zpow_neg, zpow_natCast]; exact mul_inv_cancel₀ (by positivity)
  obtain ⟨n, hn⟩ := (h z).1.big_grid (k := -(p : ℤ)) (by rw [hk2, abs_of_pos (by linarith)]; linarith)
  have hu0 : (0 : ℝ) < (2 ^ p)⁻¹ := by positivity
  have hup : (2 : ℝ) ^ p * (2 ^ p)⁻¹ = 1 := mul_inv_cancel₀ (by positivity)
  rw [hk1] at hn
  obtain ⟨q, rfl⟩ : ∃ q, p = q + 1 := ⟨p - 1, by omega⟩
  have hn1 : (2 : ℝ) ^ q < n := by
    rw [hn] at hc
    by_contra hcon
    have := mul_le_mul_of_nonneg_right (not_lt.1 hcon) (show (0 : ℝ) ≤ 2 * (2 ^ (q + 1))⁻¹ by positivity)
    have e : (2 : ℝ) ^ q * (2 * (2 ^ (q + 1))⁻¹) = 1 := by rw [← hup, pow_succ]; ring
    linarith
  have hn2 : (2 : ℤ) ^ q + 1 ≤ n := by exact_mod_cast hn1
  have hn3 : (2 : ℝ) ^ q + 1 ≤ n := by exact_mod_cast hn2
  have h2 : 1 + 2 * (2 ^ (q + 1))⁻¹ ≤ rd z := by
    rw [hn]
    have := mul_le_mul_of_nonneg_right hn3 (show (0 : ℝ) ≤ 2 * (2 ^ (q + 1))⁻¹ by positivity)
    rw [add_mul, one_mul] at this
    have e : (2 : ℝ) ^ q * (2 * (2 ^ (q + 1))⁻¹) = 1 := by rw [← hup, pow_succ]; ring
    linarith
  have := (h z).2 1 f1
  rw [abs_of_pos (by linarith), abs_of_neg (by linarith)] at this
  linarith

theorem linear01 (h : Nearest p emin rd) (hp : 11 ≤ p) (he : emin ≤ -2 * p) (x a b : ℝ) (h0 : a < x) (h1 : x < b) :
    linearstepR rd x a b 0 1 = .fin (rd (rd (x - a) / rd (b - a))) := by
  obtain ⟨i1, i2, i3, i4⟩ := inside x a b h0 h1
  simp only [linearstepR, gt_iff_lt, ge_iff_le, if_neg i1, if_neg i2, if_neg i3, if_neg i4, zero_mul, h.round_zero, one_mul, zero_add,
    h.exact (h _).1]

/-- C77: `linearstep(x, a, b, 0, 1)` stays in `[0, 1]` and is monotone in `x`. -/
theorem C77_linearstep01 (h : Nearest p emin rd) (hp : 11 ≤ p) (he : emin ≤ -2 * p) (a b : ℝ)
    (ha : IsFloat p emin a) (hb : IsFloat p emin b) (hab : a < b) :
    (∀ x, IsFloat p emin x → ∃ y, linearstepR rd x a b 0 1 = .fin y ∧ 0 ≤ y ∧ y ≤ 1) ∧
    (∀ x x' y y', IsFloat p emin x → IsFloat p emin x' → x ≤ x' → linearstepR rd x a b 0 1 = .fin y → linearstepR rd x' a b 0 1 = .fin y' → y ≤ y') := by
  have key : ∀ x, IsFloat p emin x → ∃ y, linearstepR rd x a b 0 1 = .fin y ∧ 0 ≤ y ∧ y ≤ 1 := by
    intro x hx
    have he' := C77_step_ends rd x a b 0 1 hab.le
    rcases le_or_gt x a with c | c
    · exact ⟨0, (he'.1 c).1, le_rfl, zero_le_one⟩
    rcases le_or_gt b x with c' | c'
    · exact ⟨1, (he'.2 c c').1, zero_le_one, le_rfl⟩
    obtain ⟨r0, r1, re⟩ := ratio_round h hp he (hx.grid.sub ha.grid) (hb.grid.sub ha.grid) (by linarith) (by linarith) (by linarith)
    exact ⟨_, linear01 h hp he x a b c c', r0, r1⟩
  refine ⟨key, ?_⟩
  intro x x' y y' hx hx' hxx' e e'
  obtain ⟨z, ez, z0, z1⟩ := key x hx
  obtain ⟨z', ez', z0', z1'⟩ := key x' hx'
  rw [e, XF.fin.injEq] at ez
  rw [e', XF.fin.injEq] at ez'
  subst ez ez'
  rcases le_or_gt x a with c | c
  · rw [((C77_step_ends rd x a b 0 1 hab.le).1 c).1, XF.fin.injEq] at e
    linarith
  rcases le_or_gt b x' with c' | c'
  · rw [((C77_step_ends rd x' a b 0 1 hab.le).2 (by linarith) c').1, XF.fin.injEq] at e'
    linarith
  rw [linear01 h hp he x a b c (by linarith), XF.fin.injEq] at e
  rw [linear01 h hp he x' a b (by linarith) c', XF.fin.injEq] at e'
  rw [← e, ← e']
  apply h.monotone
  apply div_le_div_of_nonneg_right (h.monotone (by linarith)) (h.mono_float isFloat_zero (by linarith))

theorem cube01 (h : Nearest p emin rd) (hp : 11 ≤ p) (he : emin ≤ -2 * p) {s : ℝ} (hs : IsFloat p emin s) (hs0 : 0 ≤ s) (hs1 : s ≤ 1) :
    0 ≤ rd (rd (s * s) * rd (3 - 2 * s)) ∧ rd (rd (s * s) * rd (3 - 2 * s)) ≤ 1 := by
  have hp1 : 1 ≤ p := by omega
  have hq0 := h.mono_float isFloat_zero (mul_nonneg hs0 hs0)
  have hg0 := h.mono_float isFloat_zero (show 0 ≤ 3 - 2 * s by linarith)
  refine ⟨h.mono_float isFloat_zero (mul_nonneg hq0 hg0), ?_⟩
  have hu := unit_le hp
  have hu0 : (0 : ℝ) < (2 ^ p)⁻¹ := by positivity
  apply round_le_one h hp1 he
  rcases le_or_gt s (1 / 2) with c | c
  · have f3 := isFloat_int (p := p) (emin := emin) hp (by omega) 3 (by norm_num)
    push_cast at f3
    have g3 := h.mono_float' f3 (show 3 - 2 * s ≤ 3 by linarith)
    have f4 : IsFloat p emin (1 / 4 : ℝ) := ⟨1, -2, by simpa using one_lt_pow₀ (by norm_num : (1 : ℤ) < 2) (by omega), by omega, by norm_num⟩
    have q4 := h.mono_float' f4 (show s * s ≤ 1 / 4 by nlinarith)
    nlinarith
  · -- `3 - 2 s` is exact
    have hk1 : (2 : ℝ) ^ (-(p : ℤ) - 1) = (2 ^ p)⁻¹ / 2 := by
      rw [zpow_sub_one₀ (by norm_num), zpow_neg, zpow_natCast]; ring
    have hup : (2 : ℝ) ^ p * (2 ^ p)⁻¹ = 1 := mul_inv_cancel₀ (by positivity)
    have hsg : OnGrid (-(p : ℤ)) s := by
      have := hs.big_grid (k := -(p : ℤ) - 1) (by rw [hk1, abs_of_nonneg hs0, mul_div_assoc', hup]; exact c.le)
      simpa using this
    have hkk : (2 : ℝ) ^ (-(p : ℤ)) = (2 ^ p)⁻¹ := by rw [zpow_neg, zpow_natCast]
    have hk2 : (2 : ℝ) ^ (-(p : ℤ) + 1) = 2 * (2 ^ p)⁻¹ := by rw [zpow_add_one₀ (by norm_num), hkk]; ring
    have g2 : OnGrid (-(p : ℤ) + 1) (2 * s) := by
      obtain ⟨n, hn⟩ := hsg
      exact ⟨n, by rw [hn, zpow_add_one₀ (by norm_num)]; ring⟩
    have g3 : OnGrid (-(p : ℤ) + 1) (3 : ℝ) := OnGrid.mono (k := 0) (by omega) ⟨3, by norm_num⟩
    have hex : rd (3 - 2 * s) = 3 - 2 * s := by
      apply h.exact
      apply isFloat_of_grid hp1 (k := -(p : ℤ) + 1) (by omega) (g3.sub g2)
      rw [hk2, abs_of_nonneg (by linarith)]
      have : (2 : ℝ) ^ p * (2 * (2 ^ p)⁻¹) = 2 := by rw [mul_left_comm, hup]; norm_num
      linarith
    have hq := abs_le.1 (h.half hp1 (k := -(p : ℤ)) (z := s * s) (by omega) (by
      rw [hkk, hup, abs_of_nonneg (mul_nonneg hs0 hs0)]; nlinarith))
    rw [hkk] at hq
    rw [hex]
    have h1 : rd (s * s) * (3 - 2 * s) ≤ (s * s + (2 ^ p)⁻¹ / 2) * (3 - 2 * s) := mul_le_mul_of_nonneg_right (by linarith) (by linarith)
    generalize ((2 : ℝ) ^ p)⁻¹ = u at *
    have e : 1 - s * s * (3 - 2 * s) = (1 - s) ^ 2 * (1 + 2 * s) := by ring
    have : 0 ≤ (1 - s) ^ 2 * (1 + 2 * s) := mul_nonneg (sq_nonneg _) (by linarith)
    nlinarith

/-- C77: `smoothstep3(x, a, b, 0, 1)` stays in `[0, 1]`. -/
theorem C77_smoothstep3_01 (h : Nearest p emin rd) (hp : 11 ≤ p) (he : emin ≤ -2 * p) (a b : ℝ)
    (ha : IsFloat p emin a) (hb : IsFloat p emin b) (hab : a < b) (x : ℝ) (hx : IsFloat p emin x) :
    ∃ y, smoothstep3R rd x a b 0 1 = .fin y ∧ 0 ≤ y ∧ y ≤ 1 := by
  have he' := C77_step_ends rd x a b 0 1 hab.le
  rcases le_or_gt x a with c | c
  · exact ⟨0, (he'.1 c).2.1, le_rfl, zero_le_one⟩
  rcases le_or_gt b x with c' | c'
  · exact ⟨1, (he'.2 c c').2.1, zero_le_one, le_rfl⟩
  obtain ⟨r0, r1, re⟩ := ratio_round h hp he (hx.grid.sub ha.grid) (hb.grid.sub ha.grid) (by linarith) (by linarith) (by linarith)
  obtain ⟨i1, i2, i3, i4⟩ := inside x a b c c'
  have f1 : IsFloat p emin (1 : ℝ) := isFloat_one (by omega) (by omega)
  obtain ⟨q0, q1⟩ := cube01 h hp he (h _).1 r0 r1
  refine ⟨_, ?_, q0, q1⟩
  simp only [smoothstep3R, gt_iff_lt, ge_iff_le, if_neg i1, if_neg i2, if_neg i3, if_neg i4, sub_zero, h.exact f1, one_mul, zero_add,
    h.exact (h _).1, h.exact (h (rd (x - a) / rd (b - a))).1.two_mul]

theorem pin53 (h : Nearest 53 (-1074) rd) (m e : ℤ) {z : ℝ} (hm : |m| < 2 ^ 53) (he : -1074 < e) (hz : 2 ^ 52 * 2 ^ e ≤ |z|)
    (hd : |(m : ℝ) * 2 ^ e - z| < 2 ^ e / 2) : rd z = m * 2 ^ e := by
  have e2 : (2 : ℝ) ^ (e - 1) = 2 ^ e / 2 := by rw [zpow_sub_one₀ (by norm_num)]; ring
  have := h.pin (by norm_num) (z := z) m (e - 1) hm (by omega) (by rw [e2]; linarith) (by rw [e2, sub_add_cancel]; exact hd)
  rwa [sub_add_cancel] at this

/-- C77 fails for `linearstep`: with `fa = fb = 11` the value at 1 of the step from 0 to 6 is
`11.000000000000002`, so the result leaves `[min(fa, fb), max(fa, fb)]`, in double precision,
whatever the rule for ties. -/
theorem C77_linearstep_range_violated (h : Nearest 53 (-1074) rd) :
    linearstepR rd 1 0 6 11 11 = .fin (6192449487634433 / 2 ^ 49) ∧ (11 : ℝ) < 6192449487634433 / 2 ^ 49 := by
  have f1 : rd 1 = 1 := by rw [pin53 h 4503599627370496 (-52) (by norm_num) (by norm_num) (by norm_num) (by norm_num)]; norm_num
  have f6 : rd 6 = 6 := by rw [pin53 h 6755399441055744 (-50) (by norm_num) (by norm_num) (by norm_num) (by norm_num)]; norm_num
  have u := pin53 h 6004799503160661 (-55) (z := 1 / 6) (by norm_num) (by norm_num) (by norm_num) (by norm_num)
  have v := pin53 h 7505999378950827 (-53) (z := 1 - (6004799503160661 : ℤ) * 2 ^ (-55 : ℤ)) (by norm_num) (by norm_num) (by norm_num) (by norm_num)
  have a := pin53 h 5160374573028694 (-49) (z := 11 * ((7505999378950827 : ℤ) * 2 ^ (-53 : ℤ))) (by norm_num) (by norm_num) (by norm_num) (by norm_num)
  have b := pin53 h 8256599316845909 (-52) (z := 11 * ((6004799503160661 : ℤ) * 2 ^ (-55 : ℤ))) (by norm_num) (by norm_num) (by norm_num) (by norm_num)
  have c := pin53 h 6192449487634433 (-49) (z := (5160374573028694 : ℤ) * 2 ^ (-49 : ℤ) + (8256599316845909 : ℤ) * 2 ^ (-52 : ℤ))
    (by norm_num) (by norm_num) (by norm_num) (by norm_num)
  constructor
  · simp only [linearstepR, sub_zero, f1, f6, u, v, a, b, c]
    norm_num
  · norm_num

/-- C77 fails for `smoothstep3`: from 0 to 7 over `[0, 1]` the value at `1 - 5·2^-53` exceeds 7, so
the result leaves the range and is not monotone. -/
theorem C77_smoothstep3_range_violated (h : Nearest 53 (-1074) rd) :
    smoothstep3R rd (1 - 5 / 2 ^ 53) 0 1 0 7 = .fin (7881299347898369 / 2 ^ 50) ∧ (7 : ℝ) < 7881299347898369 / 2 ^ 50 ∧
    smoothstep3R rd 1 0 1 0 7 = .fin 7 := by
  have f1 : rd 1 = 1 := by rw [pin53 h 4503599627370496 (-52) (by norm_num) (by norm_num) (by norm_num) (by norm_num)]; norm_num
  have f7 : rd 7 = 7 := by rw [pin53 h 7881299347898368 (-50) (by norm_num) (by norm_num) (by norm_num) (by norm_num)]; norm_num
  have u := pin53 h 9007199254740987 (-53) (z := 1 - 5 / 2 ^ 53) (by norm_num) (by norm_num) (by norm_num) (by norm_num)
  have u' := pin53 h 9007199254740987 (-53) (z := (9007199254740987 : ℤ) * 2 ^ (-53 : ℤ)) (by norm_num) (by norm_num) (by norm_num) (by norm_num)
  have a := pin53 h 7881299347898364 (-50) (z := 7 * ((9007199254740987 : ℤ) * 2 ^ (-53 : ℤ))) (by norm_num) (by norm_num) (by norm_num) (by norm_num)
  have b := pin53 h 7881299347898360 (-50) (z := (7881299347898364 : ℤ) * 2 ^ (-50 : ℤ) * ((9007199254740987 : ℤ) * 2 ^ (-53 : ℤ)))
    (by norm_num) (by norm_num) (by norm_num) (by norm_num)
  have d := pin53 h 9007199254740987 (-52) (z := 2 * ((9007199254740987 : ℤ) * 2 ^ (-53 : ℤ))) (by norm_num) (by norm_num) (by norm_num) (by norm_num)
  have g := pin53 h 4503599627370501 (-52) (z := 3 - (9007199254740987 : ℤ) * 2 ^ (-52 : ℤ)) (by norm_num) (by norm_num) (by norm_num) (by norm_num)
  have c := pin53 h 7881299347898369 (-50) (z := (7881299347898360 : ℤ) * 2 ^ (-50 : ℤ) * ((4503599627370501 : ℤ) * 2 ^ (-52 : ℤ)))
    (by norm_num) (by norm_num) (by norm_num) (by norm_num)
  have c' := pin53 h 7881299347898369 (-50) (z := (7881299347898369 : ℤ) * 2 ^ (-50 : ℤ))
    (by norm_num) (by norm_num) (by norm_num) (by norm_num)
  refine ⟨?_, by norm_num, ?_⟩
  · simp only [smoothstep3R, sub_zero, f1, f7, u, div_one, u', a, b, d, g, c, zero_add, c']
    norm_num
  · norm_num [smoothstep3R]

/-- C77 fails for `smoothstep5`, even from 0 to 1: the value at `1 - 2^-50` is `1 + 2^-50`, above
its value 1 at 1. -/
theorem C77_smoothstep5_range_violated (h : Nearest 53 (-1074) rd) :
    smoothstep5R rd (1 - 1 / 2 ^ 50) 0 1 0 1 = .fin (1 + 1 / 2 ^ 50) ∧ smoothstep5R rd 1 0 1 0 1 = .fin 1 := by
  have f1 : rd 1 = 1 := by rw [pin53 h 4503599627370496 (-52) (by norm_num) (by norm_num) (by norm_num) (by norm_num)]; norm_num
  have u := pin53 h 9007199254740984 (-53) (z := 1 - 1 / 2 ^ 50) (by norm_num) (by norm_num) (by norm_num) (by norm_num)
  have u' := pin53 h 9007199254740984 (-53) (z := (9007199254740984 : ℤ) * 2 ^ (-53 : ℤ)) (by norm_num) (by norm_num) (by norm_num) (by norm_num)
  have a := pin53 h 9007199254740976 (-53) (z := (9007199254740984 : ℤ) * 2 ^ (-53 : ℤ) * ((9007199254740984 : ℤ) * 2 ^ (-53 : ℤ)))
    (by norm_num) (by norm_num) (by norm_num) (by norm_num)
  have b := pin53 h 9007199254740968 (-53) (z := (9007199254740976 : ℤ) * 2 ^ (-53 : ℤ) * ((9007199254740984 : ℤ) * 2 ^ (-53 : ℤ)))
    (by norm_num) (by norm_num) (by norm_num) (by norm_num)
  have d := pin53 h 6755399441055738 (-50) (z := 6 * ((9007199254740984 : ℤ) * 2 ^ (-53 : ℤ))) (by norm_num) (by norm_num) (by norm_num) (by norm_num)
  have e := pin53 h (-5066549580791811) (-49) (z := (6755399441055738 : ℤ) * 2 ^ (-50 : ℤ) - 15) (by norm_num) (by norm_num) (by norm_num) (by norm_num)
  have g := pin53 h (-5066549580791806) (-49) (z := (9007199254740984 : ℤ) * 2 ^ (-53 : ℤ) * ((-5066549580791811 : ℤ) * 2 ^ (-49 : ℤ)))
    (by norm_num) (by norm_num) (by norm_num) (by norm_num)
  have k := pin53 h 4503599627370512 (-52) (z := (-5066549580791806 : ℤ) * 2 ^ (-49 : ℤ) + 10) (by norm_num) (by norm_num) (by norm_num) (by norm_num)
  have c := pin53 h 4503599627370500 (-52) (z := (9007199254740968 : ℤ) * 2 ^ (-53 : ℤ) * ((4503599627370512 : ℤ) * 2 ^ (-52 : ℤ)))
    (by norm_num) (by norm_num) (by norm_num) (by norm_num)
  have c' := pin53 h 4503599627370500 (-52) (z := (4503599627370500 : ℤ) * 2 ^ (-52 : ℤ)) (by norm_num) (by norm_num) (by norm_num) (by norm_num)
  refine ⟨?_, ?_⟩
  · simp only [smoothstep5R, sub_zero, f1, u, div_one, u', one_mul, a, b, d, e, g, k, c, zero_add, c']
    norm_num
  · norm_num [smoothstep5R]

end Ufunclab.Step

namespace Ufunclab.Deadzone
open Float Step

variable {p : ℕ} {emin : ℤ} {rd : ℝ → ℝ}

/-- C77: without rounding the rounded pulse is the pulse of C49. -/
theorem C77_trapezoid_exact (x a b c d amp : ℝ) :
    trapezoidR id x a b c d amp = trapezoid (.fin x) (.fin a) (.fin b) (.fin c) (.fin d) (.fin amp) := by
  simp only [trapezoidR, trapezoid, XF.le_fin, XF.ge_fin, XF.lt_fin, id, XF.sub_fin, ge_iff_le]
  by_cases hv : a ≤ b ∧ b ≤ c ∧ c ≤ d
  · obtain ⟨h1, h2, h3⟩ := hv
    simp only [h1, h2, h3, and_self, not_true_eq_false, if_false, decide_true, Bool.and_self, Bool.not_true, Bool.false_eq_true]
    by_cases h4 : x ≤ a ∨ d ≤ x
    · simp [h4]
    rw [not_or, not_le, not_le] at h4
    by_cases h5 : b ≤ x ∧ x ≤ c
    · simp [h4.1, h4.2, h5.1, h5.2]
    by_cases h6 : x < b
    · have hd : b - a ≠ 0 := by linarith
      simp [h4.1, h4.2, h6, not_le.2 h6, XF.div_fin _ _ hd, XF.mul_fin]
    · have h7 : c < x := by
        by_contra hc
        exact h5 ⟨not_lt.1 h6, not_lt.1 hc⟩
      have hd : d - c ≠ 0 := by linarith
      simp [h4.1, h6, not_le.2 h7, XF.div_fin _ _ hd, XF.mul_fin]
  · simp only [hv, not_false_eq_true, if_true]
    rw [if_pos]
    simp only [Bool.not_eq_true', Bool.and_eq_false_iff, decide_eq_false_iff_not]
    tauto

/-- The exact height of the pulse at `x`, as a fraction of the amplitude. -/
noncomputable def pulse (x a b c d : ℝ) : ℝ :=
  if x ≤ a ∨ d ≤ x then 0 else if x < b then (x - a) / (b - a) else if x ≤ c then 1 else (d - x) / (d - c)

/-- C77: `trapezoid_pulse` never leaves the interval between 0 and `amp`, and is close to the exact
pulse. -/
theorem C77_trapezoid (h : Nearest p emin rd) (hp : 11 ≤ p) (he : emin ≤ -2 * p) (x a b c d amp : ℝ)
    (hx : IsFloat p emin x) (ha : IsFloat p emin a) (hb : IsFloat p emin b) (hc : IsFloat p emin c) (hd : IsFloat p emin d)
    (hamp : IsFloat p emin amp) (h1 : a ≤ b) (h2 : b ≤ c) (h3 : c ≤ d) :
    ∃ y, trapezoidR rd x a b c d amp = .fin y ∧ min 0 amp ≤ y ∧ y ≤ max 0 amp ∧
      |y - amp * pulse x a b c d| ≤ 4.2 * (2 ^ p)⁻¹ * |amp| + 2 ^ emin / 2 := by
  have hu := unit_le hp
  have hu0 : (0 : ℝ) ≤ (2 ^ p)⁻¹ := by positivity
  have hη : (0 : ℝ) < 2 ^ emin := by positivity
  have hE : 0 ≤ 4.2 * (2 ^ p)⁻¹ * |amp| + (2 : ℝ) ^ emin / 2 := by positivity
  have key : ∀ r t : ℝ, 0 ≤ r → r ≤ 1 → 0 ≤ t → t ≤ 1 → |r - t| ≤ 3.1 * (2 ^ p)⁻¹ →
      min 0 amp ≤ rd (amp * r) ∧ rd (amp * r) ≤ max 0 amp ∧ |rd (amp * r) - amp * t| ≤ 4.2 * (2 ^ p)⁻¹ * |amp| + 2 ^ emin / 2 := by
    intro r t r0 r1 t0 t1 hrt
    refine ⟨?_, ?_, ?_⟩
    · rcases le_total 0 amp with c | c
      · rw [min_eq_left c]; exact h.mono_float isFloat_zero (mul_nonneg c r0)
      · rw [min_eq_right c]; exact h.mono_float hamp (by nlinarith)
    · rcases le_total 0 amp with c | c
      · rw [max_eq_right c]; exact h.mono_float' hamp (by nlinarith)
      · rw [max_eq_left c]; exact h.mono_float' isFloat_zero (mul_nonpos_of_nonpos_of_nonneg c r0)
    · have := mul_round (a := amp) (x := amp) (e := 0) h (by omega) (by simp) hrt le_rfl (show |r| ≤ 1 by rw [abs_of_nonneg r0]; exact r1)
      have : 0 ≤ (2 ^ p)⁻¹ * |amp| := by positivity
      linarith
  simp only [trapezoidR, pulse, h1, h2, h3, and_self, not_true_eq_false, if_false, ge_iff_le]
  by_cases h4 : x ≤ a ∨ d ≤ x
  · simp only [h4, if_true]
    exact ⟨0, rfl, min_le_left _ _, le_max_left _ _, by simpa using hE⟩
  simp only [h4, if_false]
  rw [not_or, not_le, not_le] at h4
  by_cases h6 : x < b
  · rw [if_neg (by intro hh; linarith [hh.1]), if_pos h6, if_pos h6]
    obtain ⟨r0, r1, re⟩ := ratio_round h hp he (hx.grid.sub ha.grid) (hb.grid.sub ha.grid) (by linarith [h4.1]) (by linarith) (by linarith [h4.1])
    exact ⟨_, rfl, key _ _ r0 r1 (div_nonneg (by linarith [h4.1]) (by linarith)) ((div_le_one (by linarith [h4.1])).2 (by linarith)) re⟩
  rw [if_neg h6, if_neg h6]
  by_cases h5 : x ≤ c
  · rw [if_pos ⟨not_lt.1 h6, h5⟩, if_pos h5]
    exact ⟨amp, rfl, min_le_right _ _, le_max_right _ _, by simpa using hE⟩
  · rw [if_neg (fun hh => h5 hh.2), if_neg h5]
    have h5' := not_le.1 h5
    obtain ⟨r0, r1, re⟩ := ratio_round h hp he (hd.grid.sub hx.grid) (hd.grid.sub hc.grid) (by linarith [h4.2]) (by linarith) (by linarith [h4.2])
    exact ⟨_, rfl, key _ _ r0 r1 (div_nonneg (by linarith [h4.2]) (by linarith)) ((div_le_one (by linarith [h4.2])).2 (by linarith)) re⟩

end Ufunclab.Deadzone

namespace Ufunclab.LinearInterp
open Float Step

variable {p : ℕ} {emin : ℤ} {rd : ℝ → ℝ}

/-- What both loops compute, given the place found by the search. -/
theorem interpR_of_search (rd : ℝ → ℝ) (x : ℝ) (a f : List ℝ) (hf : f.length = a.length)
    (hs : a.Pairwise (· < ·)) (hn : 0 < a.length) (hlo : a[0] ≤ x) (hhi : x ≤ a[a.length - 1]) :
    ∃ k, ∃ hk : k < a.length,
    ((a[k] = x ∧ interpOneR rd x a f = some (.fin (f[k]'(by omega))) ∧ fastOneR rd x a f = some (.fin (f[k]'(by omega)))) ∨
     (∃ hk' : k + 1 < a.length, a[k] < x ∧ x < a[k + 1] ∧
       interpOneR rd x a f = some (.fin (rd (f[k] + rd (rd (rd (f[k + 1] - f[k]) / rd (a[k + 1] - a[k])) * rd (x - a[k]))))) ∧
       fastOneR rd x a f = some (.fin (rd (f[k] + rd (rd (rd (x - a[k]) / rd (a[k + 1] - a[k])) * rd (f[k + 1] - f[k]))))))) := by
  obtain ⟨k, hk, e, h⟩ := search_sorted x a hs hn hlo hhi
  refine ⟨k, hk, ?_⟩
  have g0 : a[0]? = some a[0] := List.getElem?_eq_getElem _
  have gl : a[a.length - 1]? = some (a[a.length - 1]) := List.getElem?_eq_getElem _
  have gk : a[k]? = some a[k] := List.getElem?_eq_getElem _
  have fk : f[k]? = some (f[k]'(by omega)) := List.getElem?_eq_getElem _
  have hc : ¬ (x < a[0] ∨ x > a[a.length - 1]) := by
    rw [not_or]; exact ⟨not_lt.2 hlo, not_lt.2 hhi⟩
  have hl : ¬ a.length < 1 := by omega
  rcases h with h | ⟨hk', h1, h2⟩
  · left
    refine ⟨h, ?_, ?_⟩
    · simp only [interpOneR, g0, gl, hc, hl, e, gk, fk, h, if_false, if_true]
    · simp only [fastOneR, g0, gl, hc, e, gk, fk, h, if_false, if_true, Option.map_some]
  · right
    have gk' : a[k + 1]? = some a[k + 1] := List.getElem?_eq_getElem _
    have fk' : f[k + 1]? = some (f[k + 1]'(by omega)) := List.getElem?_eq_getElem _
    refine ⟨hk', h1, h2, ?_, ?_⟩
    · simp only [interpOneR, g0, gl, hc, hl, e, gk, fk, gk', fk', h1.ne', if_false]
    · simp only [fastOneR, g0, gl, hc, e, gk, fk, gk', fk', h1.ne', if_false]

theorem sorted_mono {a : List ℝ} (hs : a.Pairwise (· < ·)) (p q : Nat) (hp : p < a.length) (hq : q < a.length) (hpq : p ≤ q) : a[p] ≤ a[q] := by
  rcases hpq.eq_or_lt with rfl | hlt
  · exact le_rfl
  · exact (List.pairwise_iff_getElem.1 hs p q hp hq hlt).le

/-- C77: at a knot both paths return the function value exactly. -/
theorem C77_interp_knot (rd : ℝ → ℝ) (a f : List ℝ) (hf : f.length = a.length) (hs : a.Pairwise (· < ·)) (i : Nat) (hi : i < a.length) :
    interpOneR rd a[i] a f = some (.fin (f[i]'(by omega))) ∧ fastOneR rd a[i] a f = some (.fin (f[i]'(by omega))) := by
  obtain ⟨k, hk, h⟩ := interpR_of_search rd a[i] a f hf hs (by omega) (sorted_mono hs 0 i _ _ (by omega)) (sorted_mono hs i _ _ (by omega) (by omega))
  rcases h with ⟨h, r⟩ | ⟨hk', h1, h2, r⟩
  · have : k = i := by
      rcases lt_trichotomy k i with c | c | c
      · exact absurd h (List.pairwise_iff_getElem.1 hs k i hk hi c).ne
      · exact c
      · exact absurd h.symm (List.pairwise_iff_getElem.1 hs i k hi hk c).ne
    subst this; exact r
  · exfalso
    rcases Nat.lt_or_ge k i with c | c
    · exact absurd h2 (not_lt.2 (sorted_mono hs (k + 1) i _ _ (by omega)))
    · exact absurd h1 (not_lt.2 (sorted_mono hs i k _ _ c))

/-- C77: between two knots both paths are close to the exact interpolant.  The slope formula of the
general path carries the underflow of the slope, magnified by the distance from the knot. -/
theorem C77_interp_accuracy (h : Nearest p emin rd) (hp : 11 ≤ p) (he : emin ≤ -2 * p) (a f : List ℝ) (hf : f.length = a.length)
    (hs : a.Pairwise (· < ·)) (ha : ∀ z ∈ a, IsFloat p emin z) (hff : ∀ z ∈ f, IsFloat p emin z)
    (i : Nat) (hi : i + 1 < a.length) (x M : ℝ) (hx : IsFloat p emin x) (h1 : a[i] < x) (h2 : x < a[i + 1])
    (hM0 : |f[i]| ≤ M) (hM1 : |f[i + 1]| ≤ M) :
    (∃ y, interpOneR rd x a f = some (.fin y) ∧
      |y - (f[i] + (f[i + 1] - f[i]) * ((x - a[i]) / (a[i + 1] - a[i])))| ≤ 12 * (2 ^ p)⁻¹ * M + 2 ^ emin * (1 + (x - a[i]))) ∧
    (∃ y, fastOneR rd x a f = some (.fin y) ∧
      |y - (f[i] + (f[i + 1] - f[i]) * ((x - a[i]) / (a[i + 1] - a[i])))| ≤ 12 * (2 ^ p)⁻¹ * M + 2 ^ emin) := by
  obtain ⟨k, hk, hh⟩ := interpR_of_search rd x a f hf hs (by omega) ((sorted_mono hs 0 i _ _ (by omega)).trans h1.le)
    (h2.le.trans (sorted_mono hs (i + 1) _ _ (by omega) (by omega)))
  have hu := bracket_unique hs hi hk h1 h2 (by
    rcases hh with ⟨h, _⟩ | ⟨hk', h1, h2, _⟩
    · exact .inl h
    · exact .inr ⟨hk', h1, h2⟩)
  obtain ⟨rfl, hlt⟩ := hu
  rcases hh with ⟨h, _⟩ | ⟨hk', _, _, r1, r2⟩
  · exact absurd h hlt.ne
  have fa0 := ha _ (List.getElem_mem (l := a) (n := k) (by omega))
  have fa1 := ha _ (List.getElem_mem (l := a) (n := k + 1) (by omega))
  have ff0 := hff _ (List.getElem_mem (l := f) (n := k) (by omega))
  have ff1 := hff _ (List.getElem_mem (l := f) (n := k + 1) (by omega))
  exact ⟨⟨_, r1, slope_round h hp he hx fa0 fa1 ff0 ff1 h1 h2 hM0 hM1⟩, ⟨_, r2, fast_round h hp he hx fa0 fa1 ff0 ff1 h1 h2 hM0 hM1⟩⟩

/-- C77: without rounding both are the interpolant of C47. -/
theorem C77_interp_exact (a f : List ℝ) (hf : f.length = a.length) (hs : a.Pairwise (· < ·)) (hn : 0 < a.length) (x : ℝ) :
    interpOneR id x a f = interpOne (.fin x) (a.map .fin) (f.map .fin) ∧ fastOneR id x a f = interpOne (.fin x) (a.map .fin) (f.map .fin) := by
  have g0 : a[0]? = some a[0] := List.getElem?_eq_getElem _
  have gl : a[a.length - 1]? = some (a[a.length - 1]) := List.getElem?_eq_getElem _
  by_cases hc : x < a[0] ∨ x > a[a.length - 1]
  · have e : interpOne (.fin x) (a.map .fin) (f.map .fin) = some .nan := by
      apply C47_outside _ _ (by simpa using hn)
      simpa using hc
    have hl : ¬ a.length < 1 := by omega
    rw [e]
    constructor
    · simp only [interpOneR, g0, gl, hc, hl, if_false, if_true]
    · simp only [fastOneR, g0, gl, hc, if_true]
  · rw [not_or, not_lt, not_lt] at hc
    obtain ⟨k, hk, h⟩ := interpR_of_search id x a f hf hs hn hc.1 hc.2
    rcases h with ⟨h, r1, r2⟩ | ⟨hk', h1, h2, r1, r2⟩
    · rw [r1, r2, ← h, C47_knot a (f.map .fin) (by simpa using hf) hs k hk]
      simp
    · rw [r1, r2, C47_between a f hf hs k hk' x h1 h2]
      have hd : a[k + 1] - a[k] ≠ 0 := by linarith
      simp only [id, true_and]
      congr 2
      ring

/-- C77 fails: the two paths disagree.  The value at 1 for the table (0, 3) → (0, 5) is
`1.6666666666666667` when computed in an array of points and `1.6666666666666665` when the point
and the table are shared by a batch of function values. -/
theorem C77_interp_paths_violated {rd : ℝ → ℝ} (h : Nearest 53 (-1074) rd) :
    interpOneR rd 1 [0, 3] [0, 5] = some (.fin (7505999378950827 / 2 ^ 52)) ∧
    fastOneR rd 1 [0, 3] [0, 5] = some (.fin (7505999378950826 / 2 ^ 52)) := by
  have f1 : rd 1 = 1 := by rw [pin53 h 4503599627370496 (-52) (by norm_num) (by norm_num) (by norm_num) (by norm_num)]; norm_num
  have f3 : rd 3 = 3 := by rw [pin53 h 6755399441055744 (-51) (by norm_num) (by norm_num) (by norm_num) (by norm_num)]; norm_num
  have f5 : rd 5 = 5 := by rw [pin53 h 5629499534213120 (-50) (by norm_num) (by norm_num) (by norm_num) (by norm_num)]; norm_num
  have u := pin53 h 6004799503160661 (-54) (z := 1 / 3) (by norm_num) (by norm_num) (by norm_num) (by norm_num)
  have v := pin53 h 7505999378950826 (-52) (z := (6004799503160661 : ℤ) * 2 ^ (-54 : ℤ) * 5) (by norm_num) (by norm_num) (by norm_num) (by norm_num)
  have v' := pin53 h 7505999378950826 (-52) (z := (7505999378950826 : ℤ) * 2 ^ (-52 : ℤ)) (by norm_num) (by norm_num) (by norm_num) (by norm_num)
  have w := pin53 h 7505999378950827 (-52) (z := 5 / 3) (by norm_num) (by norm_num) (by norm_num) (by norm_num)
  have w' := pin53 h 7505999378950827 (-52) (z := (7505999378950827 : ℤ) * 2 ^ (-52 : ℤ)) (by norm_num) (by norm_num) (by norm_num) (by norm_num)
  obtain ⟨k, hk, hh⟩ := interpR_of_search rd 1 [0, 3] [0, 5] rfl (by norm_num) (by norm_num) (by norm_num) (by norm_num)
  rcases k with _ | _ | k
  · rcases hh with ⟨h, _⟩ | ⟨hk', _, _, r1, r2⟩
    · norm_num at h
    · rw [r1, r2]
      simp only [List.getElem_cons_zero, List.getElem_cons_succ, zero_add, sub_zero, f1, f3, f5, u, v, v', w, mul_one, w']
      norm_num
  · rcases hh with ⟨h, _⟩ | ⟨hk', _⟩
    · norm_num at h
    · norm_num at hk'
  · norm_num at hk

/-- C77 fails: the result may leave the interval between the two neighbouring function values, on
both paths: here the larger value is `3.0000000000000262` and the result `3.0000000000000266`. -/
theorem C77_interp_range_violated {rd : ℝ → ℝ} (h : Nearest 53 (-1074) rd) :
    interpOneR rd (1 / 2 ^ 61) [-1, 1 / 2 ^ 60] [-6, 6755399441055803 / 2 ^ 51] = some (.fin (6755399441055804 / 2 ^ 51)) ∧
    fastOneR rd (1 / 2 ^ 61) [-1, 1 / 2 ^ 60] [-6, 6755399441055803 / 2 ^ 51] = some (.fin (6755399441055804 / 2 ^ 51)) := by
  have f1 : rd 1 = 1 := by rw [pin53 h 4503599627370496 (-52) (by norm_num) (by norm_num) (by norm_num) (by norm_num)]; norm_num
  have e1 : rd (1 / 2 ^ 61 - -1) = 1 := by
    rw [pin53 h 4503599627370496 (-52) (by norm_num) (by norm_num) (by norm_num) (by norm_num)]; norm_num
  have e2 : rd (1 / 2 ^ 60 - -1) = 1 := by
    rw [pin53 h 4503599627370496 (-52) (by norm_num) (by norm_num) (by norm_num) (by norm_num)]; norm_num
  have d := pin53 h 5066549580791823 (-49) (z := 6755399441055803 / 2 ^ 51 - -6) (by norm_num) (by norm_num) (by norm_num) (by norm_num)
  have d' := pin53 h 5066549580791823 (-49) (z := (5066549580791823 : ℤ) * 2 ^ (-49 : ℤ)) (by norm_num) (by norm_num) (by norm_num) (by norm_num)
  have g := pin53 h 6755399441055804 (-51) (z := -6 + (5066549580791823 : ℤ) * 2 ^ (-49 : ℤ)) (by norm_num) (by norm_num) (by norm_num) (by norm_num)
  obtain ⟨k, hk, hh⟩ := interpR_of_search rd (1 / 2 ^ 61) [-1, 1 / 2 ^ 60] [-6, 6755399441055803 / 2 ^ 51] rfl (by norm_num) (by norm_num)
    (by norm_num) (by norm_num)
  rcases k with _ | _ | k
  · rcases hh with ⟨h, _⟩ | ⟨hk', _, _, r1, r2⟩
    · norm_num at h
    · rw [r1, r2]
      simp only [List.getElem_cons_zero, List.getElem_cons_succ, zero_add, f1, e1, e2, d, div_one, mul_one, one_mul, d', g]
      norm_num
  · rcases hh with ⟨h, _⟩ | ⟨hk', _⟩
    · norm_num at h
    · norm_num at hk'
  · norm_num at hk

/-! ### Non-vacuity: double precision -/
theorem isFloat53 (m : ℤ) (hm : |m| < 2 ^ 53) : IsFloat 53 (-1074) (m : ℝ) := ⟨m, 0, hm, by norm_num, by simp⟩

example : ∃ rd : ℝ → ℝ, Nearest 53 (-1074) rd ∧
    (∃ y, linearstepR rd 1 0 6 11 11 = .fin y ∧ |y - 11| ≤ 11 * (2 ^ 53)⁻¹ * 11 + 2 * 2 ^ (-1074 : ℤ)) ∧
    (∃ y, smoothstep3R rd 1 0 6 11 11 = .fin y ∧ |y - 11| ≤ 21 * (2 ^ 53)⁻¹ * 11 + 5 * 2 ^ (-1074 : ℤ)) := by
  obtain ⟨rd, h⟩ := exists_nearest (K := ℝ) (p := 53) (by norm_num) (-1074)
  have f := isFloat53
  have := C77_step_accuracy h (by norm_num) (by norm_num) 1 0 6 11 11 11 (by exact_mod_cast f 1 (by norm_num)) (by exact_mod_cast f 0 (by norm_num))
    (by exact_mod_cast f 6 (by norm_num)) (by exact_mod_cast f 11 (by norm_num)) (by exact_mod_cast f 11 (by norm_num))
    (by norm_num) (by norm_num) (by norm_num) (by norm_num)
  refine ⟨rd, h, ?_, ?_⟩
  · simpa using this.1
  · simpa using this.2.1

example : ∃ rd : ℝ → ℝ, Nearest 53 (-1074) rd ∧ ∃ y, interpOneR rd 1 [0, 3] [0, 5] = some (.fin y) ∧
    |y - 5 / 3| ≤ 12 * (2 ^ 53)⁻¹ * 5 + 2 ^ (-1074 : ℤ) * 2 := by
  obtain ⟨rd, h⟩ := exists_nearest (K := ℝ) (p := 53) (by norm_num) (-1074)
  have f := isFloat53
  have f0 : IsFloat 53 (-1074) (0 : ℝ) := by exact_mod_cast f 0 (by norm_num)
  have f3 : IsFloat 53 (-1074) (3 : ℝ) := by exact_mod_cast f 3 (by norm_num)
  have f5 : IsFloat 53 (-1074) (5 : ℝ) := by exact_mod_cast f 5 (by norm_num)
  have := (C77_interp_accuracy h (by norm_num) (by norm_num) [0, 3] [0, 5] rfl (by norm_num) (by simp [f0, f3]) (by simp [f0, f5])
    0 (by norm_num) 1 5 (by exact_mod_cast f 1 (by norm_num)) (by norm_num) (by norm_num) (by norm_num) (by norm_num)).1
  obtain ⟨y, e, hy⟩ := this
  refine ⟨rd, h, y, e, ?_⟩
  simp only [List.getElem_cons_zero, List.getElem_cons_succ, zero_add, sub_zero] at hy
  rw [show (5 : ℝ) * (1 / 3) = 5 / 3 by norm_num, show (1 : ℝ) + 1 = 2 by norm_num] at hy
  exact hy

example : ∃ rd : ℝ → ℝ, Nearest 53 (-1074) rd ∧ ∃ y, Deadzone.trapezoidR rd 1 0 3 4 5 7 = .fin y ∧ 0 ≤ y ∧ y ≤ 7 := by
  obtain ⟨rd, h⟩ := exists_nearest (K := ℝ) (p := 53) (by norm_num) (-1074)
  have f := isFloat53
  obtain ⟨y, e, h1, h2, _⟩ := Deadzone.C77_trapezoid h (by norm_num) (by norm_num) 1 0 3 4 5 7 (by exact_mod_cast f 1 (by norm_num))
    (by exact_mod_cast f 0 (by norm_num)) (by exact_mod_cast f 3 (by norm_num)) (by exact_mod_cast f 4 (by norm_num))
    (by exact_mod_cast f 5 (by norm_num)) (by exact_mod_cast f 7 (by norm_num)) (by norm_num) (by norm_num) (by norm_num)
  exact ⟨rd, h, y, e, by simpa using h1, by simpa using h2⟩

end Ufunclab.LinearInterp
