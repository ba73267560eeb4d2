import Verif.Props.LogisticRound
import Verif.Proof.SignalRound
import Mathlib.Analysis.SpecialFunctions.Arsinh
import Mathlib.Analysis.Calculus.MeanValue
import Mathlib.Analysis.MeanInequalitiesPow
/-!
# C98: hyperbolic_ramp and exponential_ramp in floating point

`rT` rounds to the element type (precision `p`, least positive number `2^emin`), `rD` and `rL` to the wider type
that some of the operations are done in (`P`, `Emin`; possibly the same).
-/
namespace Ufunclab.Scalar
open Real Ufunclab.Float Ufunclab.Means
variable {p P : ℕ} {emin Emin : ℤ} {rT rD rL pw l1 : ℝ → ℝ} {ε ε' ln2 : ℝ}

theorem U_le (hP : p ≤ P) : ((2 : ℝ) ^ P)⁻¹ ≤ (2 ^ p)⁻¹ :=
  inv_anti₀ (by positivity) (pow_le_pow_right₀ (by norm_num) hP)

theorem u_small' (hp : 10 ≤ p) : (0 : ℝ) < (2 ^ p)⁻¹ ∧ ((2 : ℝ) ^ p)⁻¹ ≤ 1 / 1024 := by
  refine ⟨by positivity, ?_⟩
  have : (2 : ℝ) ^ 10 ≤ 2 ^ p := pow_le_pow_right₀ (by norm_num) hp
  rw [inv_le_comm₀ (by positivity) (by norm_num)]
  norm_num at *; linarith

theorem H_le (hE : Emin ≤ emin) : (2 : ℝ) ^ Emin ≤ 2 ^ emin := zpow_le_zpow_right₀ (by norm_num) hE

theorem close_eighth {rd : ℝ → ℝ} (h : Nearest p emin rd) (hp : 10 ≤ p) (hep : emin + p ≤ -3) {a : ℝ} (ha : 1 / 8 ≤ a) :
    Close (1.02 * (2 ^ p)⁻¹) (rd a) a := by
  apply close_round h (by omega)
  rw [pow_zpow]
  have : (2 : ℝ) ^ ((p : ℤ) + emin) ≤ 2 ^ (-3 : ℤ) := zpow_le_zpow_right₀ (by norm_num) (by omega)
  norm_num at this
  linarith

/-- The wide rounding, in terms of the narrow precision. -/
theorem close_eighth' {rd : ℝ → ℝ} (h : Nearest P Emin rd) (hp : 10 ≤ p) (hP : p ≤ P) (hep : Emin + P ≤ -3) {a : ℝ} (ha : 1 / 8 ≤ a) :
    Close (1.02 * (2 ^ p)⁻¹) (rd a) a :=
  (close_eighth h (by omega) hep ha).mono (by have := U_le hP; linarith)

/-- The exact standard ramp as a function of `x/2`. -/
noncomputable def ramp2 (z : ℝ) : ℝ := z + √(z * z + 1)

theorem ramp2_pos (z : ℝ) : 0 < ramp2 z := by
  have : |z| < √(z * z + 1) := by
    rw [← sqrt_sq_eq_abs]
    exact sqrt_lt_sqrt (by positivity) (by nlinarith)
  have := neg_abs_le z
  unfold ramp2; linarith

theorem ramp2_arsinh (z : ℝ) : ramp2 z = exp (arsinh z) := by
  rw [exp_arsinh, ramp2, add_comm (z * z), sq]

/-- Absolute errors of the argument. -/
theorem ramp2_lip (z w : ℝ) : Close |z - w| (ramp2 z) (ramp2 w) := by
  rw [ramp2_arsinh, ramp2_arsinh]
  refine (close_exp _ _).mono ?_
  have := Convex.norm_image_sub_le_of_norm_hasDerivWithin_le (f := arsinh) (f' := fun x => (√(1 + x ^ 2))⁻¹) (C := 1) (s := Set.univ) (x := w) (y := z)
    (fun x _ => (hasDerivAt_arsinh x).hasDerivWithinAt) (fun x _ => by
      rw [Real.norm_eq_abs, abs_of_pos (by positivity)]
      apply inv_le_one_of_one_le₀
      rw [one_le_sqrt]
      nlinarith [sq_nonneg x]) convex_univ (Set.mem_univ _) (Set.mem_univ _)
  simpa using this

theorem ramp2_neg (z : ℝ) : ramp2 (-z) = (ramp2 z)⁻¹ := by
  rw [ramp2_arsinh, ramp2_arsinh, arsinh_neg, exp_neg]

theorem ramp2_large {w : ℝ} (hw : 0 < w) : w * (1 + √(1 + 1 / (w * w))) = ramp2 w := by
  have : 1 + 1 / (w * w) = (w * w + 1) / w ^ 2 := by field_simp
  rw [this, sqrt_div (by positivity), sqrt_sq hw.le, ramp2]
  field_simp

/-- Relative errors of the argument. -/
theorem ramp2_rel {s z w : ℝ} (h : Close s z w) : Close s (ramp2 z) (ramp2 w) := by
  have s0 := h.nonneg
  have key : ∀ {z w : ℝ}, 0 < z → 0 < w → z ≤ exp s * w → ramp2 z ≤ exp s * ramp2 w := by
    intro z w hz hw hzw
    have e1 : 1 ≤ exp s := one_le_exp s0
    unfold ramp2
    rw [mul_add]
    refine add_le_add hzw ?_
    rw [sqrt_le_iff]
    refine ⟨by positivity, ?_⟩
    rw [mul_pow, sq_sqrt (by positivity)]
    have := mul_le_mul hzw hzw hz.le (by positivity)
    have : 1 ≤ exp s ^ 2 := one_le_pow₀ e1
    nlinarith
  obtain ⟨h1, h2, h3, h4⟩ := close_iff.1 h
  exact close_iff.2 ⟨ramp2_pos _, ramp2_pos _, key h1 h2 h3, key h2 h1 h4⟩

theorem ramp2_rel' {s z w : ℝ} (h : Close s z w) : Close s (ramp2 (-z)) (ramp2 (-w)) := by
  rw [ramp2_neg, ramp2_neg]; exact (ramp2_rel h).inv

/-- The rounded argument. -/
theorem ramp2_arg {z w u η : ℝ} (u0 : 0 < u) (u1 : u ≤ 1 / 100) (η0 : 0 ≤ η) (h : |z - w| ≤ u * |w| + η) : Close (1.02 * u + η) (ramp2 z) (ramp2 w) := by
  obtain ⟨m, h1, h2⟩ := split_error u0.le η0 h
  have c1 := (ramp2_lip z m).mono h2
  have c2 : Close (1.02 * u) (ramp2 m) (ramp2 w) := by
    rcases lt_trichotomy w 0 with hw | rfl | hw
    · have : Close (1.02 * u) (-m) (-w) := close_of_rel (by linarith) u1 (by
        rw [neg_sub_neg, abs_sub_comm, ← abs_of_neg hw]; exact h1)
      simpa using ramp2_rel' this
    · have : m = 0 := by simpa using h1
      rw [this]; exact (Close.refl (ramp2_pos 0)).mono (by linarith)
    · rw [abs_of_pos hw] at h1
      exact ramp2_rel (close_of_rel hw u1 h1)
  exact (c1.trans c2).mono (by linarith)

section branches
variable (hT : Nearest p emin rT) (hD : Nearest P Emin rD) (hp : 10 ≤ p) (hP : p ≤ P) (he : emin ≤ -10) (hE : Emin ≤ emin)
  (hep : emin + p ≤ -3) (hEP : Emin + P ≤ -3)
include hT hp he hep

/-- The root for large arguments. -/
theorem root_large (hD : Nearest P Emin rD) (hP : p ≤ P) (hE : Emin ≤ emin) (hEP : Emin + P ≤ -3) {z : ℝ} (hz : 1 ≤ |z|) :
    Close (1.02 * (2.5 * (2 ^ p)⁻¹ + 2 ^ emin)) (rD (√(rD (1 + rD (1 / rT (z * z)))))) (√(1 + 1 / (z * z))) := by
  obtain ⟨u0, u1⟩ := u_small' hp
  obtain ⟨η0, η1⟩ := η_small he
  have U := U_le hP
  have H := H_le hE
  have zz : 1 ≤ z * z := by rw [← abs_mul_abs_self]; nlinarith
  have c1 := (close_eighth hT hp hep (a := z * z) (by linarith)).inv
  have e1 := hD.error (by omega) (1 / rT (z * z))
  rw [one_div, abs_of_pos c1.1] at e1
  have c2 : Close (1.02 * ((2 ^ p)⁻¹ + 2 ^ emin)) (1 + rD (rT (z * z))⁻¹) (1 + (rT (z * z))⁻¹) := by
    refine close_of_rel (by linarith [c1.1]) (by linarith) ?_
    rw [add_sub_add_left_eq_sub]
    have := mul_le_mul_of_nonneg_right U c1.1.le
    have := mul_nonneg η0.le c1.1.le
    have : ((2 ^ p)⁻¹ + 2 ^ emin) * (1 + (rT (z * z))⁻¹) = (2 ^ p)⁻¹ + 2 ^ emin + (2 ^ p)⁻¹ * (rT (z * z))⁻¹ + 2 ^ emin * (rT (z * z))⁻¹ := by ring
    rw [this]
    linarith
  have c3 := c2.trans (c1.const_add (c := 1) (by norm_num))
  have n0 : 0 ≤ rD (rT (z * z))⁻¹ := hD.mono_float isFloat_zero c1.1.le
  have c4 := (close_eighth' hD hp hP hEP (a := 1 + rD (rT (z * z))⁻¹) (by linarith)).trans c3
  have f1 : IsFloat P Emin (1 : ℝ) := isFloat_one (by omega) (by omega)
  have d1 : 1 ≤ rD (1 + rD (rT (z * z))⁻¹) := hD.mono_float f1 (by linarith)
  have d2 : 1 ≤ √(rD (1 + rD (rT (z * z))⁻¹)) := by rwa [one_le_sqrt]
  have c5 := (close_eighth' hD hp hP hEP (by linarith)).trans c4.sqrt
  rw [one_div, one_div]
  exact c5.mono (by linarith)

/-- The root for small arguments. -/
theorem root_small {z : ℝ} : Close (1.02 * (2 * (2 ^ p)⁻¹ + 2 ^ emin)) (rT (√(rT (rT (z * z) + 1)))) (√(z * z + 1)) := by
  obtain ⟨u0, u1⟩ := u_small' hp
  obtain ⟨η0, η1⟩ := η_small he
  have zz : 0 ≤ z * z := mul_self_nonneg z
  have e1 := hT.error (by omega) (z * z)
  rw [abs_of_nonneg zz] at e1
  have c2 : Close (1.02 * ((2 ^ p)⁻¹ + 2 ^ emin)) (rT (z * z) + 1) (z * z + 1) := by
    refine close_of_rel (by linarith) (by linarith) ?_
    rw [add_sub_add_right_eq_sub]
    have := mul_nonneg η0.le zz
    have : ((2 ^ p)⁻¹ + 2 ^ emin) * (z * z + 1) = (2 ^ p)⁻¹ + 2 ^ emin + (2 ^ p)⁻¹ * (z * z) + 2 ^ emin * (z * z) := by ring
    rw [this]
    linarith
  have n0 : 0 ≤ rT (z * z) := hT.mono_float isFloat_zero zz
  have c4 := (close_eighth hT hp hep (a := rT (z * z) + 1) (by linarith)).trans c2
  have f1 : IsFloat p emin (1 : ℝ) := isFloat_one (by omega) (by omega)
  have d1 : 1 ≤ rT (rT (z * z) + 1) := hT.mono_float f1 (by linarith)
  have d2 : 1 ≤ √(rT (rT (z * z) + 1)) := by rwa [one_le_sqrt]
  have c5 := (close_eighth hT hp hep (by linarith)).trans c4.sqrt
  exact c5.mono (by linarith)

/-- The standard ramp computed from the float `t`, against the exact one at the rounded half of `t`. -/
theorem std_ramp_error (hD : Nearest P Emin rD) (hP : p ≤ P) (hE : Emin ≤ emin) (hEP : Emin + P ≤ -3) (t : ℝ) :
    |stdHyperbolicRampR rT rD t - ramp2 (rT (t / 2))| ≤ (7 * (2 ^ p)⁻¹ + 2 * 2 ^ emin) * ramp2 (rT (t / 2)) + 2 * 2 ^ emin := by
  obtain ⟨u0, u1⟩ := u_small' hp
  obtain ⟨η0, η1⟩ := η_small he
  have U := U_le hP
  have H := H_le hE
  have fin : ∀ {s a b : ℝ}, Close s a b → s ≤ 1.02 * (6 * (2 ^ p)⁻¹ + 1.5 * 2 ^ emin) →
      |a - b| ≤ (7 * (2 ^ p)⁻¹ + 2 * 2 ^ emin) * b + 2 * 2 ^ emin := by
    intro s a b c hs
    have := (c.mono hs).rel (by linarith)
    have : 1.02 * (1.02 * (6 * (2 ^ p)⁻¹ + 1.5 * 2 ^ emin)) * b ≤ (7 * (2 ^ p)⁻¹ + 2 * 2 ^ emin) * b :=
      mul_le_mul_of_nonneg_right (by linarith) c.2.1.le
    linarith
  unfold stdHyperbolicRampR
  split_ifs with h0
  · rw [h0, zero_div, hT.round_zero]
    have : ramp2 0 = 1 := by simp [ramp2]
    rw [this, sub_self, abs_zero]
    linarith
  · simp only
    generalize rT (t / 2) = z
    split_ifs with h1 h2 h3
    · -- z ≥ 1
      have hz : 1 ≤ |z| := by rw [abs_of_nonneg (by linarith)]; exact h1
      have c := (root_large hT hp he hep hD hP hE hEP hz).const_add (c := 1) (by norm_num)
      have c1 := (close_eighth' hD hp hP hEP (by linarith [c.1, (root_large hT hp he hep hD hP hE hEP hz).1] : (1 : ℝ) / 8 ≤ 1 + _)).trans c
      have c2 := (Close.refl (by linarith : 0 < z)).mul c1
      have f1 : IsFloat P Emin (1 : ℝ) := isFloat_one (by omega) (by omega)
      have g1 : 1 ≤ rD (1 + rD (√(rD (1 + rD (1 / rT (z * z)))))) :=
        hD.mono_float f1 (by linarith [(root_large hT hp he hep hD hP hE hEP hz).1])
      have g2 : 1 ≤ z * rD (1 + rD (√(rD (1 + rD (1 / rT (z * z)))))) := by nlinarith
      have c3 := (close_eighth' hD hp hP hEP (by linarith)).trans c2
      have g3 : 1 ≤ rD (z * rD (1 + rD (√(rD (1 + rD (1 / rT (z * z))))))) := hD.mono_float f1 g2
      have c4 := (close_eighth hT hp hep (by linarith)).trans c3
      have ef : z * (1 + √(1 + 1 / (z * z))) = ramp2 z := ramp2_large (by linarith)
      rw [ef] at c4
      exact fin c4 (by linarith)
    · -- 0 < z < 1
      have c := (root_small hT hp he hep (z := z)).const_add (c := z) h2.le
      have f1 : IsFloat p emin (1 : ℝ) := isFloat_one (by omega) (by omega)
      have d1 : 1 ≤ rT (√(rT (rT (z * z) + 1))) := by
        apply hT.mono_float f1
        rw [one_le_sqrt]
        exact hT.mono_float f1 (by linarith [hT.mono_float isFloat_zero (mul_self_nonneg z)])
      have c1 := (close_eighth hT hp hep (by linarith)).trans c
      exact fin c1 (by linarith)
    · -- -1 < z ≤ 0
      have c := (root_small hT hp he hep (z := z)).const_add (c := -z) (by linarith)
      have f1 : IsFloat p emin (1 : ℝ) := isFloat_one (by omega) (by omega)
      have F1 : IsFloat P Emin (1 : ℝ) := isFloat_one (by omega) (by omega)
      have d1 : 1 ≤ rT (√(rT (rT (z * z) + 1))) := by
        apply hT.mono_float f1
        rw [one_le_sqrt]
        exact hT.mono_float f1 (by linarith [hT.mono_float isFloat_zero (mul_self_nonneg z)])
      have c1 := ((close_eighth hT hp hep (by linarith)).trans c).inv
      rw [neg_add_eq_sub, neg_add_eq_sub] at c1
      have ef : (√(z * z + 1) - z)⁻¹ = ramp2 z := by
        have := ramp2_neg z
        rw [ramp2, neg_mul_neg, neg_add_eq_sub] at this
        rw [this, inv_inv]
      rw [ef] at c1
      -- the quotient is not small
      have rz : 1 / 3 ≤ ramp2 z := by
        rw [← ef, ← one_div]
        have : √(z * z + 1) ≤ 2 := by rw [sqrt_le_left (by norm_num)]; nlinarith
        exact one_div_le_one_div_of_le (by linarith [neg_abs_le z, (show 0 < √(z * z + 1) - z from by
          have := ramp2_pos (-z); rw [ramp2, neg_mul_neg] at this; linarith)]) (by linarith)
      have q1 := c1.rel (by linarith)
      have q2 : 1 / 4 ≤ (rT (rT (√(rT (rT (z * z) + 1))) - z))⁻¹ := by
        have k : 1.02 * (1.02 * (2 ^ p)⁻¹ + 1.02 * (2 * (2 ^ p)⁻¹ + 2 ^ emin)) * ramp2 z ≤ 0.02 * ramp2 z :=
          mul_le_mul_of_nonneg_right (by linarith) (ramp2_pos z).le
        linarith [(abs_le.1 q1).1]
      have c2 := (close_eighth' hD hp hP hEP (by linarith)).trans c1
      have F4 : IsFloat P Emin (1 / 4 : ℝ) := by
        have := isFloat_zpow (K := ℝ) (p := P) (by omega) (emin := Emin) (e := -2) (by omega)
        norm_num at this ⊢; exact this
      have q3 : 1 / 4 ≤ rD (rT (rT (√(rT (rT (z * z) + 1))) - z))⁻¹ := hD.mono_float F4 q2
      have c3 := (close_eighth hT hp hep (by linarith)).trans c2
      rw [one_div]
      exact fin c3 (by linarith)
    · -- z ≤ -1
      have hz1 : z ≤ -1 := not_lt.1 h3
      have hz : 1 ≤ |z| := by rw [abs_of_neg (by linarith)]; linarith
      have r := root_large hT hp he hep hD hP hE hEP hz
      have c := r.const_add (c := 1) (by norm_num)
      have c1 := (close_eighth' hD hp hP hEP (by linarith [r.1] : (1 : ℝ) / 8 ≤ 1 + _)).trans c
      have w0 : 0 < -1 / z := div_pos_of_neg_of_neg (by norm_num) (by linarith)
      have e1 := hD.error (by omega) (-1 / z)
      rw [abs_of_pos w0] at e1
      have c2 := (Close.refl w0).div c1
      have ef : -1 / z / (1 + √(1 + 1 / (z * z))) = ramp2 z := by
        have := ramp2_large (w := -z) (by linarith)
        rw [neg_mul_neg] at this
        have k := ramp2_neg (-z)
        rw [neg_neg, ← this, mul_inv] at k
        rw [k, ← one_div (-z), div_eq_mul_inv (-1 / z), div_neg, neg_div]
      rw [ef] at c2
      have q1 := c2.rel (by linarith)
      rw [add_comm (rD (√(rD (1 + rD (1 / rT (z * z)))))) 1]
      have f1 : IsFloat P Emin (1 : ℝ) := isFloat_one (by omega) (by omega)
      have d1 : 1 ≤ rD (1 + rD (√(rD (1 + rD (1 / rT (z * z)))))) := hD.mono_float f1 (by linarith [r.1])
      have F0 := ramp2_pos z
      generalize rD (1 + rD (√(rD (1 + rD (1 / rT (z * z)))))) = D at *
      generalize ramp2 z = F at *
      generalize hq : rD (-1 / z) = q at *
      have q0 : 0 ≤ q := by rw [← hq]; exact hD.mono_float isFloat_zero w0.le
      generalize -1 / z = w at *
      have e2 : |q / D - w / D| ≤ (2 ^ p)⁻¹ * (w / D) + 2 ^ emin / 2 := by
        rw [← sub_div, abs_div, abs_of_pos (by linarith : 0 < D), div_le_iff₀ (by linarith)]
        have k1 : (2 ^ p)⁻¹ * (w / D) * D = (2 ^ p)⁻¹ * w := by field_simp
        have k2 := mul_le_mul_of_nonneg_right U w0.le
        have k3 : 2 ^ emin / 2 * 1 ≤ 2 ^ emin / 2 * D := mul_le_mul_of_nonneg_left d1 (by linarith)
        rw [add_mul, k1]
        linarith
      have wd0 : 0 < w / D := by positivity
      have qd0 : 0 ≤ q / D := by positivity
      have e3 := hD.error (by omega) (q / D)
      have n3 : 0 ≤ rD (q / D) := hD.mono_float isFloat_zero qd0
      have e4 := hT.error (by omega) (rD (q / D))
      rw [abs_of_nonneg qd0] at e3
      rw [abs_of_nonneg n3] at e4
      generalize rT (rD (q / D)) = y at *
      generalize rD (q / D) = v at *
      generalize q / D = s at *
      generalize w / D = r' at *
      generalize ((2 : ℝ) ^ p)⁻¹ = u at *
      generalize ((2 : ℝ) ^ P)⁻¹ = U' at *
      generalize (2 : ℝ) ^ emin = η at *
      generalize (2 : ℝ) ^ Emin = η' at *
      clear * - q1 e2 e3 e4 u0 u1 η0 η1 U H F0 wd0 qd0 n3
      have a1 : r' ≤ 1.02 * F := by
        have : 1.02 * (0 + (1.02 * u + 1.02 * (2.5 * u + η))) * F ≤ 0.02 * F := mul_le_mul_of_nonneg_right (by linarith) F0.le
        linarith [(abs_le.1 q1).2]
      have b1 := mul_le_mul_of_nonneg_left a1 u0.le
      have a2 : s ≤ 1.03 * F + η / 2 := by
        have : u * (1.02 * F) ≤ 1 / 1024 * (1.02 * F) := mul_le_mul_of_nonneg_right u1 (by linarith)
        linarith [(abs_le.1 e2).2]
      have b2 := mul_le_mul_of_nonneg_left a2 u0.le
      have U2 := mul_le_mul_of_nonneg_right U qd0
      have uη : u * η ≤ 1 / 1024 * η := mul_le_mul_of_nonneg_right u1 η0.le
      have uF : u * F ≤ 1 / 1024 * F := mul_le_mul_of_nonneg_right u1 F0.le
      have a3 : v ≤ 1.04 * F + 1.01 * η := by linarith [(abs_le.1 e3).2]
      have b3 := mul_le_mul_of_nonneg_left a3 u0.le
      have t1 := abs_sub_le y v F
      have t2 := abs_sub_le v s F
      have t3 := abs_sub_le s r' F
      have p1 : 0 ≤ u * F := mul_nonneg u0.le F0.le
      have p2 : 0 ≤ η * F := mul_nonneg η0.le F0.le
      have k1 : 1.02 * (0 + (1.02 * u + 1.02 * (2.5 * u + η))) * F = 3.6414 * (u * F) + 1.0404 * (η * F) := by ring
      have k2 : (7 * u + 2 * η) * F = 7 * (u * F) + 2 * (η * F) := by ring
      rw [k2]
      rw [k1] at q1
      linarith

end branches

/-- C98: the error of hyperbolic_ramp: relative on both sides of the ramp (also where the value is small),
up to underflow. -/
theorem C98_hyperbolic_accuracy (hT : Nearest p emin rT) (hD : Nearest P Emin rD) (hp : 10 ≤ p) (hP : p ≤ P) (he : emin ≤ -10) (hE : Emin ≤ emin)
    (hep : emin + p ≤ -3) (hEP : Emin + P ≤ -3) (x a : ℝ) (ha : 0 < a) :
    ∃ y, hyperbolicRampR rT rD x a = .fin y ∧ 0 ≤ y ∧
      let f := (x + √(x ^ 2 + 4 * a ^ 2)) / 2
      |y - f| ≤ (10 * (2 ^ p)⁻¹ + 4 * 2 ^ emin) * f + (3 * a + 1) * 2 ^ emin := by
  obtain ⟨u0, u1⟩ := u_small' hp
  obtain ⟨η0, η1⟩ := η_small he
  refine ⟨_, by unfold hyperbolicRampR; rw [if_neg ha.ne', if_neg (not_lt.2 ha.le)], ?_, ?_⟩
  · apply hT.mono_float isFloat_zero
    apply mul_nonneg ha.le
    have c0 : IsFloat p emin (0 : ℝ) := isFloat_zero
    have C0 : IsFloat P Emin (0 : ℝ) := isFloat_zero
    unfold stdHyperbolicRampR
    split_ifs with h0
    · norm_num
    · simp only
      generalize rT (rT (x / a) / 2) = z
      split_ifs with h1 h2 h3
      · exact hT.mono_float c0 (hD.mono_float C0 (mul_nonneg (by linarith) (hD.mono_float C0 (add_nonneg zero_le_one
          (hD.mono_float C0 (sqrt_nonneg _))))))
      · exact hT.mono_float c0 (add_nonneg h2.le (hT.mono_float c0 (sqrt_nonneg _)))
      · exact hT.mono_float c0 (hD.mono_float C0 (div_nonneg zero_le_one (hT.mono_float c0 (sub_nonneg.2
          ((not_lt.1 h2).trans (hT.mono_float c0 (sqrt_nonneg _)))))))
      · refine hT.mono_float c0 (hD.mono_float C0 (div_nonneg (hD.mono_float C0 (div_nonneg_of_nonpos (by norm_num) ?_))
          (hD.mono_float C0 (add_nonneg (hD.mono_float C0 (sqrt_nonneg _)) zero_le_one))))
        linarith
  · intro f
    have e1 := std_ramp_error hT hp he hep hD hP hE hEP (rT (x / a))
    have e2 := hT.error (by omega) (x / a)
    have e3 := half_error hT (by omega) (hT (x / a)).1
    have e4 : |rT (rT (x / a) / 2) - x / a / 2| ≤ (2 ^ p)⁻¹ * |x / a / 2| + 2 ^ emin := by
      have k : |rT (x / a) / 2 - x / a / 2| ≤ ((2 ^ p)⁻¹ * |x / a| + 2 ^ emin / 2) / 2 := by
        rw [← sub_div, abs_div, abs_two]; exact div_le_div_of_nonneg_right e2 (by norm_num)
      have k2 : |x / a / 2| = |x / a| / 2 := by rw [abs_div (x / a), abs_two]
      rw [k2]
      have := abs_sub_le (rT (rT (x / a) / 2)) (rT (x / a) / 2) (x / a / 2)
      linarith
    have c := ramp2_arg u0 (by linarith) η0.le e4
    have ef : f = a * ramp2 (x / a / 2) := by
      have : x / a / 2 * (x / a / 2) + 1 = (x ^ 2 + 4 * a ^ 2) / (2 * a) ^ 2 := by field_simp; ring
      rw [ramp2, this, sqrt_div (by positivity), sqrt_sq (by positivity)]
      show (x + √(x ^ 2 + 4 * a ^ 2)) / 2 = _
      field_simp
    rw [ef]
    have c2 := c.rel (by linarith)
    have F0 := c.2.1
    generalize ramp2 (rT (rT (x / a) / 2)) = G at *
    generalize ramp2 (x / a / 2) = F at *
    generalize stdHyperbolicRampR rT rD (rT (x / a)) = s at *
    have e5 := hT.error (by omega) (a * s)
    generalize rT (a * s) = y at *
    generalize ((2 : ℝ) ^ p)⁻¹ = u at *
    generalize (2 : ℝ) ^ emin = η at *
    clear * - e1 c2 e5 u0 u1 η0 η1 F0 ha
    have p1 : 0 ≤ u * F := mul_nonneg u0.le F0.le
    have p2 : 0 ≤ η * F := mul_nonneg η0.le F0.le
    have a1 : G ≤ 1.01 * F := by
      have : 1.02 * (1.02 * u + η) * F ≤ 0.01 * F := mul_le_mul_of_nonneg_right (by linarith) F0.le
      linarith [(abs_le.1 c2).2]
    have b1 := mul_le_mul_of_nonneg_left a1 (by linarith : 0 ≤ 7 * u + 2 * η)
    have k1 : 1.02 * (1.02 * u + η) * F = 1.0404 * (u * F) + 1.02 * (η * F) := by ring
    have k2 : (7 * u + 2 * η) * (1.01 * F) = 7.07 * (u * F) + 2.02 * (η * F) := by ring
    rw [k1] at c2
    rw [k2] at b1
    have a2 : |s - F| ≤ 8.2 * (u * F) + 3.1 * (η * F) + 2 * η := by
      have := abs_sub_le s G F
      linarith
    have a3 : |a * s - a * F| ≤ a * (8.2 * (u * F) + 3.1 * (η * F) + 2 * η) := by
      rw [← mul_sub, abs_mul, abs_of_pos ha]; exact mul_le_mul_of_nonneg_left a2 ha.le
    have uF : u * F ≤ 1 / 1024 * F := mul_le_mul_of_nonneg_right u1 F0.le
    have ηF : η * F ≤ 1 / 1000 * F := mul_le_mul_of_nonneg_right η1 F0.le
    have a4 : |s| ≤ 1.05 * F + 2 * η := by
      have : |s| ≤ |s - F| + F := by
        calc |s| = |(s - F) + F| := by congr 1; ring
          _ ≤ |s - F| + |F| := abs_add_le _ _
          _ = _ := by rw [abs_of_pos F0]
      linarith
    rw [abs_mul, abs_of_pos ha] at e5
    have b2 := mul_le_mul_of_nonneg_left (mul_le_mul_of_nonneg_left a4 ha.le) u0.le
    have b3 : u * (a * (2 * η)) ≤ 1 / 1024 * (a * (2 * η)) := mul_le_mul_of_nonneg_right u1 (by positivity)
    have p3 : 0 ≤ a * (u * F) := mul_nonneg ha.le p1
    have p4 : 0 ≤ a * (η * F) := mul_nonneg ha.le p2
    have p5 : 0 ≤ a * η := mul_nonneg ha.le η0.le
    have t := abs_sub_le y (a * s) (a * F)
    have k3 : (10 * u + 4 * η) * (a * F) + (3 * a + 1) * η = 10 * (a * (u * F)) + 4 * (a * (η * F)) + 3 * (a * η) + η := by ring
    rw [k3]
    linarith

/-- C98: the special parameters are handled exactly. -/
theorem C98_hyperbolic_special (x a : ℝ) :
    hyperbolicRampR rT rD x 0 = .fin (max x 0) ∧ (a < 0 → hyperbolicRampR rT rD x a = .nan) := by
  constructor
  · unfold hyperbolicRampR
    rw [if_pos rfl]
    split_ifs with h
    · rw [max_eq_right h.le]
    · rw [max_eq_left (not_lt.1 h)]
  · intro ha
    unfold hyperbolicRampR
    rw [if_neg ha.ne, if_pos ha]

/-! ### exponential_ramp -/

/-- A library `pow(2, y)`: relative error at most `ε`, up to underflow. -/
structure GoodPow2 (emin : ℤ) (ε : ℝ) (pw : ℝ → ℝ) : Prop where
  nonneg : ∀ y, 0 ≤ pw y
  error : ∀ y, |pw y - 2 ^ y| ≤ ε * 2 ^ y + 2 ^ emin

/-- The exact standard ramp. -/
noncomputable def ramp1 (t : ℝ) : ℝ := Real.log (1 + 2 ^ t) / Real.log 2

theorem two_rpow (y : ℝ) : (2 : ℝ) ^ y = exp (y * Real.log 2) := by
  rw [rpow_def_of_pos (by norm_num), mul_comm]

theorem log_two_bounds : 0.69 < Real.log 2 ∧ Real.log 2 < 0.7 := by
  have h1 := Real.log_two_gt_d9
  have h2 := Real.log_two_lt_d9
  constructor <;> linarith

theorem ramp1_pos (t : ℝ) : 0 < ramp1 t := by
  have : (0 : ℝ) < 2 ^ t := by positivity
  exact div_pos (log_pos (by linarith)) (log_pos (by norm_num))

theorem ramp1_add (t : ℝ) : t + ramp1 (-t) = ramp1 t := by
  have l2 : 0 < Real.log 2 := log_pos (by norm_num)
  have : (1 : ℝ) + 2 ^ t = 2 ^ t * (1 + 2 ^ (-t)) := by
    rw [mul_add, ← rpow_add (by norm_num)]; simp; ring
  unfold ramp1
  rw [this, Real.log_mul (by positivity) (by positivity), Real.log_rpow (by norm_num)]
  field_simp

theorem ramp1_lip (t m : ℝ) : Close (|t - m| * Real.log 2) (ramp1 t) (ramp1 m) := by
  have l2 : 0 < Real.log 2 := log_pos (by norm_num)
  have c := close_exp (t * Real.log 2) (m * Real.log 2)
  rw [← sub_mul, abs_mul, abs_of_pos l2, ← two_rpow, ← two_rpow] at c
  exact (c.log1p.div (Close.refl l2)).mono (by linarith)

theorem ramp1_rel {s t m : ℝ} (h : Close s t m) : Close s (ramp1 t) (ramp1 m) := by
  have l2 : 0 < Real.log 2 := log_pos (by norm_num)
  have s0 := h.nonneg
  have key : ∀ {t m : ℝ}, 0 < t → 0 < m → t ≤ exp s * m → ramp1 t ≤ exp s * ramp1 m := by
    intro t m ht hm htm
    have e1 : 1 ≤ exp s := one_le_exp s0
    unfold ramp1
    rw [← mul_div_assoc]
    refine div_le_div_of_nonneg_right ?_ l2.le
    have b := Real.add_rpow_le_rpow_add (a := 1) (b := 2 ^ m) (by norm_num) (by positivity) e1
    rw [one_rpow, ← rpow_mul (by norm_num)] at b
    rw [← Real.log_rpow (by positivity)]
    apply Real.log_le_log (by positivity)
    refine le_trans ?_ b
    have : (2 : ℝ) ^ t ≤ 2 ^ (m * exp s) := rpow_le_rpow_of_exponent_le (by norm_num) (by linarith)
    linarith
  obtain ⟨h1, h2, h3, h4⟩ := close_iff.1 h
  exact close_iff.2 ⟨ramp1_pos _, ramp1_pos _, key h1 h2 h3, key h2 h1 h4⟩

/-- The rounded argument: for negative arguments its error is amplified. -/
theorem ramp1_arg {z t u η : ℝ} (u0 : 0 < u) (u1 : u ≤ 1 / 100) (η0 : 0 ≤ η) (h : |z - t| ≤ u * |t| + η) :
    Close (1.02 * u + 0.7 * (u * max 0 (-t)) + 0.7 * η) (ramp1 z) (ramp1 t) := by
  obtain ⟨l1, l2⟩ := log_two_bounds
  have M0 : 0 ≤ u * max 0 (-t) := mul_nonneg u0.le (le_max_left _ _)
  rcases le_or_gt t 0 with ht | ht
  · refine (ramp1_lip z t).mono ?_
    rw [max_eq_right (by linarith)]
    rw [abs_of_nonpos ht] at h
    have w0 : 0 ≤ u * -t + η := (abs_nonneg _).trans h
    calc |z - t| * Real.log 2 ≤ (u * -t + η) * 0.7 := mul_le_mul h l2.le (by linarith) w0
      _ ≤ _ := by linarith
  · obtain ⟨m, h1, h2⟩ := split_error u0.le η0 h
    rw [abs_of_pos ht] at h1
    have c := ((ramp1_lip z m).mono (mul_le_mul h2 l2.le (by linarith) η0)).trans (ramp1_rel (close_of_rel ht u1 h1))
    exact c.mono (by linarith)

/-- `log1p(pow(2, y))/LN2`. -/
theorem ramp1_core (hL : Nearest P Emin rL) (hpw : GoodPow2 Emin ε pw) (hl : GoodLog1p Emin ε' l1) (hp : 10 ≤ p) (hP : p ≤ P) (he : emin ≤ -10)
    (hE : Emin ≤ emin) (hε0 : 0 ≤ ε) (hε : ε ≤ 1 / 1000) (hε0' : 0 ≤ ε') (hε' : ε' ≤ 1 / 1000)
    (hln : |ln2 - Real.log 2| ≤ (2 ^ P)⁻¹ * Real.log 2) (y : ℝ) :
    |rL (l1 (pw y) / ln2) - ramp1 y| ≤ (1.05 * (ε + ε') + 2.1 * (2 ^ p)⁻¹) * ramp1 y + 4 * 2 ^ emin ∧ 0 ≤ rL (l1 (pw y) / ln2) := by
  obtain ⟨u0, u1⟩ := u_small' hp
  obtain ⟨η0, η1⟩ := η_small he
  obtain ⟨b1, b2⟩ := log_two_bounds
  have U := U_le hP
  have H := H_le hE
  have l2 : 0 < Real.log 2 := by linarith
  have gex : GoodExp Emin ε (fun v => pw (v / Real.log 2)) := by
    refine ⟨fun v => hpw.nonneg _, fun v => ?_⟩
    have := hpw.error (v / Real.log 2)
    rwa [two_rpow, div_mul_cancel₀ _ l2.ne'] at this
  have e1 := softplus_error gex hl (by omega) hε0 hε hε0' hε' (y * Real.log 2)
  rw [← two_rpow] at e1
  simp only [mul_div_cancel_right₀ _ l2.ne'] at e1
  have v0 := hl.nonneg (pw y) (hpw.nonneg y)
  have G0 := ramp1_pos y
  have eG : Real.log (1 + 2 ^ y) = ramp1 y * Real.log 2 := by unfold ramp1; field_simp
  rw [eG] at e1
  have ln1 : (1 - (2 ^ p)⁻¹) * Real.log 2 ≤ ln2 := by
    have := mul_le_mul_of_nonneg_right U l2.le
    linarith [(abs_le.1 hln).1]
  have ln0 : 0.68 ≤ ln2 := by
    have := mul_le_mul_of_nonneg_right u1 l2.le
    linarith
  have n0 : 0 ≤ l1 (pw y) / ln2 := by positivity
  have e2 := hL.error (by omega) (l1 (pw y) / ln2)
  rw [abs_of_nonneg n0] at e2
  refine ⟨?_, hL.mono_float isFloat_zero n0⟩
  have hln' : |ln2 - Real.log 2| ≤ (2 ^ p)⁻¹ * Real.log 2 := hln.trans (mul_le_mul_of_nonneg_right U l2.le)
  clear hln
  generalize l1 (pw y) = v at *
  generalize ramp1 y = G at *
  generalize Real.log 2 = ℓ at *
  have e3 : |v / ln2 - G| ≤ (1.05 * (ε + ε') + 1.03 * (2 ^ p)⁻¹) * G + 3.2 * 2 ^ emin := by
    have k : v / ln2 - G = ((v - G * ℓ) + G * (ℓ - ln2)) / ln2 := by field_simp; ring
    rw [k, abs_div, abs_of_pos (by linarith : 0 < ln2), div_le_iff₀ (by linarith)]
    generalize ((2 : ℝ) ^ p)⁻¹ = u at *
    generalize (2 : ℝ) ^ emin = η at *
    generalize (2 : ℝ) ^ Emin = η' at *
    have t1 : |G * (ℓ - ln2)| ≤ G * (u * ℓ) := by
      rw [abs_mul, abs_of_pos G0, abs_sub_comm]; exact mul_le_mul_of_nonneg_left hln' G0.le
    have t2 := abs_add_le (v - G * ℓ) (G * (ℓ - ln2))
    have A0 : 0 ≤ 1.05 * (ε + ε') := by linarith
    have t3 := mul_le_mul_of_nonneg_left ln1 (mul_nonneg (by linarith : 0 ≤ 1.05 * (ε + ε') + 1.03 * u) G0.le)
    have t4 := mul_le_mul_of_nonneg_left ln0 (by linarith : 0 ≤ 3.2 * η)
    have Gℓ : 0 ≤ G * ℓ := mul_nonneg G0.le l2.le
    have q : 1.05 * (ε + ε') * (G * ℓ) + u * (G * ℓ) ≤ (1.05 * (ε + ε') + 1.03 * u) * ((1 - u) * (G * ℓ)) := by
      have k' : (1.05 * (ε + ε') + 1.03 * u) * ((1 - u) * (G * ℓ)) = (1.05 * (ε + ε') + 1.03 * u) * (1 - u) * (G * ℓ) := by ring
      rw [← add_mul, k']
      refine mul_le_mul_of_nonneg_right ?_ Gℓ
      nlinarith
    have q' : (1.05 * (ε + ε') + 1.03 * u) * G * ((1 - u) * ℓ) = (1.05 * (ε + ε') + 1.03 * u) * ((1 - u) * (G * ℓ)) := by ring
    rw [q'] at t3
    have q2 : G * (u * ℓ) = u * (G * ℓ) := by ring
    rw [q2] at t1
    rw [add_mul _ (3.2 * η)]
    linarith
  generalize v / ln2 = w at *
  generalize ((2 : ℝ) ^ p)⁻¹ = u at *
  generalize ((2 : ℝ) ^ P)⁻¹ = U' at *
  generalize (2 : ℝ) ^ emin = η at *
  generalize (2 : ℝ) ^ Emin = η' at *
  have w1 : w ≤ 1.01 * G + 3.2 * η := by
    have : (1.05 * (ε + ε') + 1.03 * u) * G ≤ 0.01 * G := mul_le_mul_of_nonneg_right (by linarith) G0.le
    linarith [(abs_le.1 e3).2]
  have w2 := mul_le_mul_of_nonneg_left w1 u0.le
  have w3 := mul_le_mul_of_nonneg_right U n0
  have uη : u * η ≤ 1 / 1024 * η := mul_le_mul_of_nonneg_right u1 η0.le
  have uG : 0 ≤ u * G := mul_nonneg u0.le G0.le
  have t := abs_sub_le (rL w) w G
  have k1 : (1.05 * (ε + ε') + 1.03 * u) * G = 1.05 * (ε + ε') * G + 1.03 * (u * G) := by ring
  have k2 : (1.05 * (ε + ε') + 2.1 * u) * G = 1.05 * (ε + ε') * G + 2.1 * (u * G) := by ring
  rw [k1] at e3
  rw [k2]
  linarith

/-- The standard ramp at a float. -/
theorem std_exp_error (hT : Nearest p emin rT) (hL : Nearest P Emin rL) (hpw : GoodPow2 Emin ε pw) (hl : GoodLog1p Emin ε' l1) (hp : 10 ≤ p)
    (hP : p ≤ P) (he : emin ≤ -10) (hE : Emin ≤ emin) (hε0 : 0 ≤ ε) (hε : ε ≤ 1 / 1000) (hε0' : 0 ≤ ε') (hε' : ε' ≤ 1 / 1000)
    (hln : |ln2 - Real.log 2| ≤ (2 ^ P)⁻¹ * Real.log 2) (t : ℝ) :
    |stdExponentialRampR rT rL pw l1 ln2 t - ramp1 t| ≤ (1.05 * (ε + ε') + 4.3 * (2 ^ p)⁻¹) * ramp1 t + 6 * 2 ^ emin ∧
      0 ≤ stdExponentialRampR rT rL pw l1 ln2 t := by
  obtain ⟨u0, u1⟩ := u_small' hp
  obtain ⟨η0, η1⟩ := η_small he
  have U := U_le hP
  have H := H_le hE
  have f0 := ramp1_pos t
  unfold stdExponentialRampR
  split_ifs with h0 h1
  · have : ramp1 t = 1 := by
      unfold ramp1
      rw [h0, rpow_zero, show (1 : ℝ) + 1 = 2 by norm_num, div_self (log_pos (by norm_num)).ne']
    rw [this, sub_self, abs_zero]
    refine ⟨?_, zero_le_one⟩
    have : 0 ≤ 1.05 * (ε + ε') := by linarith
    linarith
  · obtain ⟨e1, q0⟩ := ramp1_core hL hpw hl hp hP he hE hε0 hε hε0' hε' hln (-t)
    have g0 := ramp1_pos (-t)
    have ea := ramp1_add t
    have e2 := hL.error (by omega) (t + rL (l1 (pw (-t)) / ln2))
    have e3 := hT.error (by omega) (rL (t + rL (l1 (pw (-t)) / ln2)))
    have n0 : 0 ≤ rL (t + rL (l1 (pw (-t)) / ln2)) := hL.mono_float isFloat_zero (by linarith)
    refine ⟨?_, hT.mono_float isFloat_zero n0⟩
    rw [abs_of_nonneg (by linarith : 0 ≤ t + rL (l1 (pw (-t)) / ln2))] at e2
    rw [abs_of_nonneg n0] at e3
    generalize rT (rL (t + rL (l1 (pw (-t)) / ln2))) = y at *
    generalize rL (t + rL (l1 (pw (-t)) / ln2)) = s at *
    generalize rL (l1 (pw (-t)) / ln2) = q at *
    generalize ramp1 (-t) = g at *
    generalize ramp1 t = f at *
    generalize ((2 : ℝ) ^ p)⁻¹ = u at *
    generalize ((2 : ℝ) ^ P)⁻¹ = U' at *
    generalize (2 : ℝ) ^ emin = η at *
    generalize (2 : ℝ) ^ Emin = η' at *
    obtain ⟨A, hA⟩ : ∃ A, A = 1.05 * (ε + ε') := ⟨_, rfl⟩
    rw [← hA] at e1 ⊢
    have A0 : 0 ≤ A := by rw [hA]; linarith
    have A1 : A ≤ 0.0022 := by rw [hA]; linarith
    clear * - e1 e2 e3 ea g0 f0 h1 U H u0 u1 η0 η1 A0 A1 q0 n0
    have a1 : |t + q - f| ≤ A * f + 2.1 * (u * f) + 4 * η := by
      have : t + q - f = q - g := by linarith
      rw [this]
      have := mul_le_mul_of_nonneg_left (by linarith : g ≤ f) (by linarith : 0 ≤ A + 2.1 * u)
      linarith
    have Af : A * f ≤ 0.0022 * f := mul_le_mul_of_nonneg_right A1 f0.le
    have uf : u * f ≤ 1 / 1024 * f := mul_le_mul_of_nonneg_right u1 f0.le
    have uη : u * η ≤ 1 / 1024 * η := mul_le_mul_of_nonneg_right u1 η0.le
    have p1 := mul_nonneg u0.le f0.le
    have a2 : t + q ≤ 1.01 * f + 4 * η := by linarith [(abs_le.1 a1).2]
    have b2 := mul_le_mul_of_nonneg_left a2 u0.le
    have b2' := mul_le_mul_of_nonneg_right U (by linarith : 0 ≤ t + q)
    have a3 : s ≤ 1.02 * f + 5 * η := by linarith [(abs_le.1 e2).2]
    have b3 := mul_le_mul_of_nonneg_left a3 u0.le
    have t1 := abs_sub_le y s f
    have t2 := abs_sub_le s (t + q) f
    rw [add_mul]
    linarith
  · obtain ⟨e1, q0⟩ := ramp1_core hL hpw hl hp hP he hE hε0 hε hε0' hε' hln t
    have e3 := hT.error (by omega) (rL (l1 (pw t) / ln2))
    refine ⟨?_, hT.mono_float isFloat_zero q0⟩
    rw [abs_of_nonneg q0] at e3
    generalize rT (rL (l1 (pw t) / ln2)) = y at *
    generalize rL (l1 (pw t) / ln2) = s at *
    generalize ramp1 t = f at *
    generalize ((2 : ℝ) ^ p)⁻¹ = u at *
    generalize (2 : ℝ) ^ emin = η at *
    have a2 : s ≤ 1.01 * f + 4 * η := by
      have : (1.05 * (ε + ε') + 2.1 * u) * f ≤ 0.01 * f := mul_le_mul_of_nonneg_right (by linarith) f0.le
      linarith [(abs_le.1 e1).2]
    have b2 := mul_le_mul_of_nonneg_left a2 u0.le
    have uη : u * η ≤ 1 / 1024 * η := mul_le_mul_of_nonneg_right u1 η0.le
    have p1 := mul_nonneg u0.le f0.le
    have t1 := abs_sub_le y s f
    rw [add_mul] at e1 ⊢
    linarith

/-- C98: the error of exponential_ramp: relative on both sides of the ramp (also where the value is small), up to
underflow; on the left the rounding of `x/a` is amplified by `|x/a|`. -/
theorem C98_exponential_accuracy (hT : Nearest p emin rT) (hL : Nearest P Emin rL) (hpw : GoodPow2 Emin ε pw) (hl : GoodLog1p Emin ε' l1)
    (hp : 10 ≤ p) (hP : p ≤ P) (he : emin ≤ -10) (hE : Emin ≤ emin) (hε0 : 0 ≤ ε) (hε : ε ≤ 1 / 1000) (hε0' : 0 ≤ ε') (hε' : ε' ≤ 1 / 1000)
    (hln : |ln2 - Real.log 2| ≤ (2 ^ P)⁻¹ * Real.log 2) (x a : ℝ) (ha : 0 < a) (hneg : (2 ^ p)⁻¹ * max 0 (-(x / a)) ≤ 1 / 100) :
    ∃ y, exponentialRampR rT rL pw l1 ln2 x a = .fin y ∧ 0 ≤ y ∧
      let f := a * logb 2 (1 + 2 ^ (x / a))
      |y - f| ≤ (1.1 * (ε + ε') + 7 * (2 ^ p)⁻¹ + 0.8 * ((2 ^ p)⁻¹ * max 0 (-(x / a))) + 2 ^ emin) * f + (7 * a + 1) * 2 ^ emin := by
  obtain ⟨u0, u1⟩ := u_small' hp
  obtain ⟨η0, η1⟩ := η_small he
  obtain ⟨e1, s0⟩ := std_exp_error hT hL hpw hl hp hP he hE hε0 hε hε0' hε' hln (rT (x / a))
  refine ⟨_, by unfold exponentialRampR; rw [if_neg ha.ne', if_neg (not_lt.2 ha.le)], hT.mono_float isFloat_zero (mul_nonneg ha.le s0), ?_⟩
  intro f
  have ef : f = a * ramp1 (x / a) := rfl
  rw [ef]
  have c := ramp1_arg u0 (by linarith) (by linarith) (hT.error (by omega) (x / a))
  have m0 : 0 ≤ (2 ^ p)⁻¹ * max 0 (-(x / a)) := mul_nonneg u0.le (le_max_left _ _)
  generalize (2 ^ p)⁻¹ * max 0 (-(x / a)) = μ at *
  have c2 := c.rel (by linarith)
  have F0 := c.2.1
  have e5 := hT.error (by omega) (a * stdExponentialRampR rT rL pw l1 ln2 (rT (x / a)))
  generalize ramp1 (rT (x / a)) = G at *
  generalize ramp1 (x / a) = F at *
  generalize stdExponentialRampR rT rL pw l1 ln2 (rT (x / a)) = s at *
  generalize rT (a * s) = y at *
  generalize ((2 : ℝ) ^ p)⁻¹ = u at *
  generalize (2 : ℝ) ^ emin = η at *
  have A0 : 0 ≤ ε + ε' := by linarith
  have A1 : ε + ε' ≤ 0.002 := by linarith
  generalize ε + ε' = A at *
  clear * - e1 c2 e5 u0 u1 η0 η1 F0 ha m0 hneg A0 A1 s0
  have p1 : 0 ≤ u * F := mul_nonneg u0.le F0.le
  have p2 : 0 ≤ η * F := mul_nonneg η0.le F0.le
  have p3 : 0 ≤ A * F := mul_nonneg A0 F0.le
  have p4 : 0 ≤ μ * F := mul_nonneg m0 F0.le
  have uF : u * F ≤ 1 / 1024 * F := mul_le_mul_of_nonneg_right u1 F0.le
  have ηF : η * F ≤ 1 / 1000 * F := mul_le_mul_of_nonneg_right η1 F0.le
  have AF : A * F ≤ 0.002 * F := mul_le_mul_of_nonneg_right A1 F0.le
  have μF : μ * F ≤ 1 / 100 * F := mul_le_mul_of_nonneg_right hneg F0.le
  have k1 : 1.02 * (1.02 * u + 0.7 * μ + 0.7 * (η / 2)) * F = 1.0404 * (u * F) + 0.714 * (μ * F) + 0.357 * (η * F) := by ring
  rw [k1] at c2
  have a1 : G ≤ 1.01 * F := by linarith [(abs_le.1 c2).2]
  have b1 := mul_le_mul_of_nonneg_left a1 (by linarith : 0 ≤ 1.05 * A + 4.3 * u)
  have a2 : |s - F| ≤ 1.07 * (A * F) + 5.4 * (u * F) + 0.72 * (μ * F) + 0.36 * (η * F) + 6 * η := by
    have := abs_sub_le s G F
    linarith
  have a3 : |a * s - a * F| ≤ a * (1.07 * (A * F) + 5.4 * (u * F) + 0.72 * (μ * F) + 0.36 * (η * F) + 6 * η) := by
    rw [← mul_sub, abs_mul, abs_of_pos ha]; exact mul_le_mul_of_nonneg_left a2 ha.le
  have a4 : s ≤ 1.05 * F + 6 * η := by linarith [(abs_le.1 a2).2]
  rw [abs_of_nonneg (mul_nonneg ha.le s0)] at e5
  have b2 := mul_le_mul_of_nonneg_left (mul_le_mul_of_nonneg_left a4 ha.le) u0.le
  have b3 : u * (a * (6 * η)) ≤ 1 / 1024 * (a * (6 * η)) := mul_le_mul_of_nonneg_right u1 (by positivity)
  have r1 := mul_nonneg ha.le p1
  have r2 := mul_nonneg ha.le p2
  have r3 := mul_nonneg ha.le p3
  have r4 := mul_nonneg ha.le p4
  have r5 := mul_nonneg ha.le η0.le
  have t := abs_sub_le y (a * s) (a * F)
  have k3 : (1.1 * A + 7 * u + 0.8 * μ + η) * (a * F) + (7 * a + 1) * η =
      1.1 * (a * (A * F)) + 7 * (a * (u * F)) + 0.8 * (a * (μ * F)) + a * (η * F) + 7 * (a * η) + η := by ring
  rw [k3]
  linarith

/-- C98: the special parameters are handled exactly. -/
theorem C98_exponential_special (x a : ℝ) :
    exponentialRampR rT rL pw l1 ln2 x 0 = .fin (max x 0) ∧ (a < 0 → exponentialRampR rT rL pw l1 ln2 x a = .nan) := by
  constructor
  · unfold exponentialRampR
    rw [if_pos rfl]
    split_ifs with h
    · rw [max_eq_right h.le]
    · rw [max_eq_left (not_lt.1 h)]
  · intro ha
    unfold exponentialRampR
    rw [if_neg ha.ne, if_pos ha]

/-! ### Non-vacuity: floats computed in doubles, doubles computed in 80-bit long doubles -/
example : ∃ rT rD : ℝ → ℝ, Nearest 24 (-149) rT ∧ Nearest 53 (-1074) rD ∧ ∃ y, hyperbolicRampR rT rD (-3) 1 = .fin y ∧
    |y - (-3 + √((-3) ^ 2 + 4 * 1 ^ 2)) / 2| ≤ (10 * (2 ^ 24)⁻¹ + 4 * 2 ^ (-149 : ℤ)) * ((-3 + √((-3) ^ 2 + 4 * 1 ^ 2)) / 2) + (3 * 1 + 1) * 2 ^ (-149 : ℤ) := by
  obtain ⟨rT, hT⟩ := exists_nearest (K := ℝ) (p := 24) (by norm_num) (-149)
  obtain ⟨rD, hD⟩ := exists_nearest (K := ℝ) (p := 53) (by norm_num) (-1074)
  obtain ⟨y, e1, _, e2⟩ := C98_hyperbolic_accuracy hT hD (by norm_num) (by norm_num) (by norm_num) (by norm_num) (by norm_num) (by norm_num) (-3) 1 (by norm_num)
  exact ⟨rT, rD, hT, hD, y, e1, e2⟩

example : ∃ rT rL pw l1 : ℝ → ℝ, Nearest 53 (-1074) rT ∧ Nearest 64 (-16445) rL ∧ GoodPow2 (-16445) (2 ^ 64)⁻¹ pw ∧ GoodLog1p (-16445) (2 ^ 64)⁻¹ l1 ∧
    ∃ y, exponentialRampR rT rL pw l1 (Real.log 2) 3 1 = .fin y ∧ 0 ≤ y := by
  obtain ⟨rT, hT⟩ := exists_nearest (K := ℝ) (p := 53) (by norm_num) (-1074)
  obtain ⟨rL, hL⟩ := exists_nearest (K := ℝ) (p := 64) (by norm_num) (-16445)
  have g1 : GoodPow2 (-16445) (2 ^ 64)⁻¹ (fun y => rL (2 ^ y)) :=
    ⟨fun y => hL.mono_float isFloat_zero (by positivity), fun y => by
      have := hL.error (by norm_num) (2 ^ y)
      rw [abs_of_pos (by positivity : (0 : ℝ) < 2 ^ y)] at this
      linarith [two_zpow_pos (K := ℝ) (-16445)]⟩
  have g2 := goodLog1p_round hL (by norm_num)
  obtain ⟨y, e1, e2, _⟩ := C98_exponential_accuracy hT hL g1 g2 (by norm_num) (by norm_num) (by norm_num) (by norm_num) (by positivity) (by norm_num)
    (by positivity) (by norm_num) (ln2 := Real.log 2) (by rw [sub_self, abs_zero]; exact mul_nonneg (by positivity) (log_pos (by norm_num)).le) 3 1 (by norm_num)
    (by rw [max_eq_left (by norm_num)]; norm_num)
  exact ⟨rT, rL, _, _, hT, hL, g1, g2, y, e1, e2⟩

end Ufunclab.Scalar
