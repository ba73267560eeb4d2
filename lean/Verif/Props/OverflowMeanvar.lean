import Verif.Model.MeanvarOverflow
import Verif.Proof.Overflow
import Verif.Props.Meanvar
import Verif.Props.OverflowStep
/-!
# C90: overflow in meanvar and pearson_corr

`ov rd Ω` rounds and replaces what is beyond `Ω`, the largest number of the format, by an infinity.
-/
namespace Ufunclab.Meanvar
open Ufunclab.Float Ufunclab.Step
variable {p : ℕ} {emin : ℤ} {rd : ℝ → ℝ} {Ω : ℝ}

theorem loopO_rnd (rd : ℝ → ℝ) (h0 : ∀ k : ℕ, rd ((k + 1 : ℕ) : ℝ) ≠ 0) (xs : List ℝ) : ∀ (k : ℕ) (m s c d : ℝ),
    loopO (rnd rd) k (.fin m) (.fin s) (.fin c) (.fin d) (xs.map .fin) = (.fin (loop rd k m s c d xs).1, .fin (loop rd k m s c d xs).2) := by
  induction xs with
  | nil => intro k m s c d; rfl
  | cons x xs ih =>
    intro k m s c d
    rw [List.map_cons, loopO, loop]
    have e : ∀ v : ℝ, rnd rd (.fin v) = .fin (rd v) := fun _ => rfl
    simp only [compensatedUpdateO, compensatedUpdate, XF.sub_fin, e, XF.div_fin _ _ (h0 k), XF.mul_fin, XF.add_fin]
    exact ih _ _ _ _ _

/-- C90: without overflow the model is that of C36. -/
theorem C90_meanvar_without_overflow (rd : ℝ → ℝ) (h0 : ∀ k : ℕ, rd ((k + 1 : ℕ) : ℝ) ≠ 0) (x : List ℝ) (ddof : Int) :
    meanvarO (rnd rd) (x.map .fin) ddof = meanvar rd x ddof := by
  unfold meanvarO meanvar
  rw [loopO_rnd rd h0, List.length_map]
  rfl

/-- A compensated update in the range. -/
theorem update_in_range (h : Nearest p emin rd) (hΩ : IsFloat p emin Ω) {u η : ℝ} (he : ∀ z, |rd z - z| ≤ u * |z| + η) (hu : u ≤ 1 / 1000)
    (hη : 0 ≤ η) {v q c A P : ℝ} (hv : |v| ≤ A) (hq : |q - c| ≤ P) (hb : 1.01 * A + 1.01 * P + 4 * η ≤ Ω) :
    compensatedUpdateO (ov rd Ω) (.fin v) (.fin q) (.fin c) = (.fin (compensatedUpdate rd v q c).1, .fin (compensatedUpdate rd v q c).2) := by
  have hA : 0 ≤ A := (abs_nonneg _).trans hv
  have hP : 0 ≤ P := (abs_nonneg _).trans hq
  have er : ∀ {z B : ℝ}, |z| ≤ B → |rd z - z| ≤ 0.001 * B + η := by
    intro z B hz
    have h1 := he z
    have h2 : u * |z| ≤ 0.001 * B := mul_le_mul (by norm_num at hu ⊢; exact hu) hz (abs_nonneg _) (by norm_num)
    linarith
  have s1 : |rd (q - c)| ≤ 1.001 * P + η := by
    have := er hq
    calc |rd (q - c)| = |(rd (q - c) - (q - c)) + (q - c)| := by congr 1; ring
      _ ≤ _ := abs_add_le _ _
      _ ≤ _ := by linarith
  have e1 : ov rd Ω (.fin (q - c)) = .fin (rd (q - c)) := ov_le h hΩ (by linarith)
  simp only [compensatedUpdateO, compensatedUpdate, XF.sub_fin, e1, XF.add_fin]
  generalize rd (q - c) = y at *
  have b2 : |v + y| ≤ A + (1.001 * P + η) := (abs_add_le _ _).trans (by linarith)
  have e2 : ov rd Ω (.fin (v + y)) = .fin (rd (v + y)) := ov_le h hΩ (by linarith)
  simp only [e2, XF.sub_fin]
  have r2 := er b2
  generalize rd (v + y) = t at *
  have b3 : |t - v| ≤ (1.001 * P + η) + (0.001 * (A + (1.001 * P + η)) + η) := by
    calc |t - v| = |y + (t - (v + y))| := by congr 1; ring
      _ ≤ _ := abs_add_le _ _
      _ ≤ _ := by linarith
  have e3 : ov rd Ω (.fin (t - v)) = .fin (rd (t - v)) := ov_le h hΩ (by linarith)
  simp only [e3, XF.sub_fin]
  have r3 := er b3
  generalize rd (t - v) = w at *
  have b4 : |w - y| ≤ (0.001 * (A + (1.001 * P + η)) + η) + (0.001 * ((1.001 * P + η) + (0.001 * (A + (1.001 * P + η)) + η)) + η) := by
    calc |w - y| = |(t - (v + y)) + (w - (t - v))| := by congr 1; ring
      _ ≤ _ := abs_add_le _ _
      _ ≤ _ := by linarith
  have e4 : ov rd Ω (.fin (w - y)) = .fin (rd (w - y)) := ov_le h hΩ (by linarith)
  rw [e4]

/-- The loop in the range: the invariants are those of the error analysis of C36. -/
theorem loopO_in_range (hN : Nearest p emin rd) (hΩ : IsFloat p emin Ω) {u η M : ℝ} (h : ∀ z, |rd z - z| ≤ u * |z| + η) (hu0 : 0 ≤ u) (hu : u ≤ 1 / 1000)
    (hη : 0 ≤ η) (hηu : η ≤ u * u) (hηM : η ≤ u * (u * M)) (hηM2 : η ≤ u * (u * (M * M))) (hM : 0 ≤ M) (hp : 1 ≤ p) (he : emin ≤ 0) (n : ℕ)
    (hb1 : 4 * M ≤ Ω) (hb2 : (1.3 * n + 4) * (M * M) ≤ Ω) (hnΩ : (n : ℝ) ≤ Ω) (xs : List ℝ) :
    ∀ (k : ℕ) (m s c1 c2 μ T : ℝ), (∀ x ∈ xs, |x| ≤ M) → k + xs.length = n → (n : ℝ) * u ≤ 1 / 100 →
    |μ| ≤ M → |c1| ≤ 6.5 * (u * M) → |m - c1 - μ| ≤ 19 * (u * M) → 0 ≤ T → T + k * μ ^ 2 ≤ k * (M * M) →
    |c2| ≤ 10 * k * (u * (M * M)) → |s - c2 - T| ≤ 126 * k * (u * (M * M)) →
    loopO (ov rd Ω) k (.fin m) (.fin s) (.fin c1) (.fin c2) (xs.map .fin) =
      (.fin (loop rd k m s c1 c2 xs).1, .fin (loop rd k m s c1 c2 xs).2) ∧ |(loop rd k m s c1 c2 xs).2| ≤ 1.2 * (n * (M * M)) := by
  have hM2 : 0 ≤ M * M := by positivity
  have huM2 : 0 ≤ u * (M * M) := by positivity
  have sM2 : u * (M * M) ≤ 0.001 * (M * M) := mul_le_mul_of_nonneg_right (by norm_num at hu ⊢; exact hu) hM2
  have ssM2 : u * (u * (M * M)) ≤ 0.001 * (u * (M * M)) := mul_le_mul_of_nonneg_right (by norm_num at hu ⊢; exact hu) huM2
  have sizes : ∀ (k : ℕ) (s c2 T μ : ℝ), 0 ≤ T → T + k * μ ^ 2 ≤ k * (M * M) → |c2| ≤ 10 * k * (u * (M * M)) → |s - c2 - T| ≤ 126 * k * (u * (M * M)) →
      |s| ≤ 1.2 * (k * (M * M)) := by
    intro k s c2 T μ hT0 hT hc hE
    have hk0 : (0 : ℝ) ≤ k := Nat.cast_nonneg k
    have hkM2 : 0 ≤ k * (M * M) := by positivity
    have s4 : u * (k * (M * M)) ≤ 0.001 * (k * (M * M)) := mul_le_mul_of_nonneg_right (by norm_num at hu ⊢; exact hu) hkM2
    have : (0 : ℝ) ≤ k * μ ^ 2 := by positivity
    have e : k * (u * (M * M)) = u * (k * (M * M)) := by ring
    calc |s| = |(s - c2 - T) + c2 + T| := by congr 1; ring
      _ ≤ |s - c2 - T| + |c2| + |T| := (abs_add_le _ _).trans (add_le_add (abs_add_le _ _) le_rfl)
      _ ≤ 136 * (u * (k * (M * M))) + k * (M * M) := by rw [← e, abs_of_nonneg hT0]; linarith
      _ ≤ _ := by linarith
  induction xs with
  | nil =>
    intro k m s c1 c2 μ T _ hk _ _ _ _ hT0 hT hc2 hE2
    rw [List.length_nil, Nat.add_zero] at hk
    subst hk
    exact ⟨rfl, sizes k s c2 T μ hT0 hT hc2 hE2⟩
  | cons x xs ih =>
    intro k m s c1 c2 μ T hx hlen hnu hμ hc1 hE hT0 hT hc2 hE2
    rw [List.length_cons] at hlen
    have hk0 : (0 : ℝ) ≤ k := Nat.cast_nonneg k
    have hkp : (0 : ℝ) < (k : ℝ) + 1 := by linarith
    have hkn : (k : ℝ) + 1 ≤ n := by
      have : k + 1 ≤ n := by omega
      exact_mod_cast this
    have hku : ((k : ℝ) + 1) * u ≤ 1 / 100 := (mul_le_mul_of_nonneg_right hkn hu0).trans hnu
    have hxM := hx x (by simp)
    obtain ⟨a1, a2, a3, a4⟩ := mean_step h hu0 hu hη hηu hηM hM hk0 hku hxM hμ hc1 hE
    have hcast : ((k + 1 : ℕ) : ℝ) = k + 1 := by push_cast; rfl
    have huM : 0 ≤ u * M := by positivity
    have s2 : u * (u * M) ≤ 0.001 * (u * M) := mul_le_mul_of_nonneg_right (by norm_num at hu ⊢; exact hu) huM
    have s1 : u * M ≤ 0.001 * M := mul_le_mul_of_nonneg_right (by norm_num at hu ⊢; exact hu) hM
    have hm : |m| ≤ 1.03 * M := by
      calc |m| = |(m - c1 - μ) + c1 + μ| := by congr 1; ring
        _ ≤ |m - c1 - μ| + |c1| + |μ| := (abs_add_le _ _).trans (add_le_add (abs_add_le _ _) le_rfl)
        _ ≤ _ := by linarith
    have hxm : |x - m| ≤ 2.03 * M := (abs_sub _ _).trans (by linarith)
    have o1 : ov rd Ω (.fin (x - m)) = .fin (rd (x - m)) := ov_le hN hΩ (by linarith)
    have hd2 : |rd (x - m)| ≤ 2.04 * M := by
      calc |rd (x - m)| = |(rd (x - m) - (x - m)) + (x - m)| := by congr 1; ring
        _ ≤ _ := abs_add_le _ _
        _ ≤ _ := by linarith
    have o2 : ov rd Ω (.fin ((k : ℝ) + 1)) = .fin (rd ((k : ℝ) + 1)) := ov_le hN hΩ (by rw [abs_of_pos hkp]; linarith)
    have rk1 : 1 ≤ rd ((k : ℝ) + 1) := hN.mono_float (isFloat_one hp he) (by linarith)
    have hq1 : |rd (x - m) / rd ((k : ℝ) + 1)| ≤ 2.04 * M := by
      rw [abs_div, abs_of_pos (show 0 < rd ((k : ℝ) + 1) by linarith)]
      exact (div_le_self (abs_nonneg _) rk1).trans hd2
    have o3 : ov rd Ω (.fin (rd (x - m) / rd ((k : ℝ) + 1))) = .fin (rd (rd (x - m) / rd ((k : ℝ) + 1))) := ov_le hN hΩ (by linarith)
    have hq2 : |rd (rd (x - m) / rd ((k : ℝ) + 1))| ≤ 2.05 * M := by
      have e := h (rd (x - m) / rd ((k : ℝ) + 1))
      have e' := mul_le_mul_of_nonneg_left hq1 hu0
      calc _ = |(rd (rd (x - m) / rd ((k : ℝ) + 1)) - rd (x - m) / rd ((k : ℝ) + 1)) + rd (x - m) / rd ((k : ℝ) + 1)| := by congr 1; ring
        _ ≤ _ := abs_add_le _ _
        _ ≤ _ := by linarith
    have o4 := update_in_range hN hΩ h hu hη (v := m) (q := rd (rd (x - m) / rd ((k : ℝ) + 1))) (c := c1) (A := 1.03 * M) (P := 2.06 * M)
      hm ((abs_sub _ _).trans (by linarith)) (by linarith)
    set μ' := μ + (x - μ) / ((k : ℝ) + 1) with hμ'
    set r1 := compensatedUpdate rd m (rd (rd (x - m) / rd ((k : ℝ) + 1))) c1 with hr1
    have hd : |rd (x - m) - (x - μ)| ≤ 27.6 * (u * M) := by
      calc |rd (x - m) - (x - μ)| = |(rd (x - m) - (x - m)) + -(m - c1 - μ) + -c1| := by congr 1; ring
        _ ≤ |rd (x - m) - (x - m)| + |-(m - c1 - μ)| + |-c1| := (abs_add_le _ _).trans (add_le_add (abs_add_le _ _) le_rfl)
        _ ≤ _ := by rw [abs_neg, abs_neg]; linarith
    have hr1μ : |r1.1 - μ'| ≤ 25.5 * (u * M) := by
      calc |r1.1 - μ'| = |(r1.1 - r1.2 - μ') + r1.2| := by congr 1; ring
        _ ≤ _ := abs_add_le _ _
        _ ≤ _ := by linarith
    have h1 : |x - r1.1| ≤ 2.03 * M := by
      calc |x - r1.1| = |x + -(r1.1 - μ') + -μ'| := by congr 1; ring
        _ ≤ |x| + |-(r1.1 - μ')| + |-μ'| := (abs_add_le _ _).trans (add_le_add (abs_add_le _ _) le_rfl)
        _ ≤ _ := by rw [abs_neg, abs_neg]; linarith
    have hgr : |rd (x - r1.1) - (x - r1.1)| ≤ 2.04 * (u * M) := by
      have h2 := h (x - r1.1)
      have h3 := mul_le_mul_of_nonneg_left h1 hu0
      linarith
    have hg : |rd (x - r1.1) - (x - μ')| ≤ 27.6 * (u * M) := by
      calc |rd (x - r1.1) - (x - μ')| = |(rd (x - r1.1) - (x - r1.1)) + -(r1.1 - μ')| := by congr 1; ring
        _ ≤ _ := abs_add_le _ _
        _ ≤ _ := by rw [abs_neg]; linarith
    have o5 : ov rd Ω (.fin (x - r1.1)) = .fin (rd (x - r1.1)) := ov_le hN hΩ (by linarith)
    have hg2 : |rd (x - r1.1)| ≤ 2.04 * M := by
      calc _ = |(rd (x - r1.1) - (x - r1.1)) + (x - r1.1)| := by congr 1; ring
        _ ≤ _ := abs_add_le _ _
        _ ≤ _ := by linarith
    have hprod2 : |rd (x - m) * rd (x - r1.1)| ≤ 4.17 * (M * M) := by
      rw [abs_mul]
      calc _ ≤ 2.04 * M * (2.04 * M) := mul_le_mul hd2 hg2 (abs_nonneg _) (by positivity)
        _ ≤ _ := by linarith
    have hkM2 : 0 ≤ k * (M * M) := by positivity
    have hknM : (k + 1) * (M * M) ≤ n * (M * M) := mul_le_mul_of_nonneg_right hkn hM2
    have o6 : ov rd Ω (.fin (rd (x - m) * rd (x - r1.1))) = .fin (rd (rd (x - m) * rd (x - r1.1))) := ov_le hN hΩ (by linarith)
    have hq3 : |rd (rd (x - m) * rd (x - r1.1))| ≤ 4.18 * (M * M) := by
      have e := h (rd (x - m) * rd (x - r1.1))
      have e' := mul_le_mul_of_nonneg_left hprod2 hu0
      calc _ = |(rd (rd (x - m) * rd (x - r1.1)) - rd (x - m) * rd (x - r1.1)) + rd (x - m) * rd (x - r1.1)| := by congr 1; ring
        _ ≤ _ := abs_add_le _ _
        _ ≤ _ := by linarith
    have hku2 : k * (u * (M * M)) ≤ 0.01 * (M * M) := by
      have h5 : k * u ≤ 1 / 100 := le_trans (mul_le_mul_of_nonneg_right (by linarith) hu0) hku
      have := mul_le_mul_of_nonneg_right h5 hM2; norm_num at this ⊢; linarith
    have o7 := update_in_range hN hΩ h hu hη (v := s) (q := rd (rd (x - m) * rd (x - r1.1))) (c := c2) (A := 1.2 * (k * (M * M)))
      (P := 4.28 * (M * M)) (sizes k s c2 T μ hT0 hT hc2 hE2) ((abs_sub _ _).trans (by linarith)) (by linarith)
    have hTk : |T| ≤ k * (M * M) := by
      rw [abs_of_nonneg hT0]
      have : (0 : ℝ) ≤ k * μ ^ 2 := by positivity
      linarith
    obtain ⟨b1, b2⟩ := m2_step h hu0 hu hη hηM2 hM hk0 hku (a := x - μ) (b := x - μ')
      ((abs_sub _ _).trans (by linarith)) ((abs_sub _ _).trans (by linarith)) hd hg hc2 hTk hE2
    have hprod : (x - μ) * (x - μ') = k * (x - μ) ^ 2 / (k + 1) := by rw [hμ']; field_simp; ring
    have hT' : 0 ≤ T + (x - μ) * (x - μ') := by rw [hprod]; positivity
    have hTT : (T + (x - μ) * (x - μ')) + (k + 1) * μ' ^ 2 = T + k * μ ^ 2 + x ^ 2 := by
      rw [hμ']; field_simp; ring
    have hx2 : x ^ 2 ≤ M * M := by
      rw [← sq_abs, ← pow_two]; exact pow_le_pow_left₀ (abs_nonneg _) hxM 2
    have := ih (k + 1) r1.1 _ r1.2 _ μ' (T + (x - μ) * (x - μ')) (fun y hy => hx y (by simp [hy])) (by omega) hnu
      a4 a1 a2 hT' (by rw [hcast, hTT]; linarith) (by rw [hcast]; exact b1) (by rw [hcast]; exact b2)
    rw [List.map_cons, loopO, loop]
    simp only [XF.sub_fin, o1, hcast, o2, XF.div_fin _ _ (show rd ((k : ℝ) + 1) ≠ 0 by linarith), o3, o4, o5, XF.mul_fin, o6, o7]
    exact this

/-- C90: `n` numbers of magnitude at most `M`, `100 n ≤ 2^p`, none of the results of C36 overflows if `4M`, `(1.3n+4)M^2`
and `n - ddof` are in the range. -/
theorem C90_meanvar (h : Nearest p emin rd) (hp : 10 ≤ p) (he : emin ≤ 0) (hΩ : IsFloat p emin Ω)
    (x : List ℝ) (ddof : Int) (M : ℝ) (hM0 : 0 ≤ M) (hM : ∀ v ∈ x, |v| ≤ M)
    (hn : 100 * (x.length : ℝ) ≤ 2 ^ p) (h1 : 2 ^ emin ≤ ((2 ^ p)⁻¹ : ℝ) ^ 2) (h2 : 2 ^ emin ≤ ((2 ^ p)⁻¹ : ℝ) ^ 2 * M)
    (h3 : 2 ^ emin ≤ ((2 ^ p)⁻¹ : ℝ) ^ 2 * M ^ 2) (hb1 : 4 * M ≤ Ω) (hb2 : (1.3 * x.length + 4) * M ^ 2 ≤ Ω) (hnΩ : (x.length : ℝ) ≤ Ω)
    (hdΩ : |(x.length : ℝ) - ddof| ≤ Ω) :
    meanvarO (ov rd Ω) (x.map .fin) ddof = meanvar rd x ddof := by
  have hu0 : (0 : ℝ) ≤ (2 ^ p)⁻¹ := by positivity
  have hu : ((2 ^ p)⁻¹ : ℝ) ≤ 1 / 1000 := by
    rw [inv_le_comm₀ (by positivity) (by norm_num)]
    calc ((1 / 1000 : ℝ))⁻¹ ≤ 2 ^ 10 := by norm_num
      _ ≤ _ := pow_le_pow_right₀ (by norm_num) hp
  have hE : (0 : ℝ) < 2 ^ emin := by positivity
  have hnn : (x.length : ℝ) * (2 ^ p)⁻¹ ≤ 1 / 100 := by
    rw [← div_eq_mul_inv, div_le_iff₀ (by positivity)]; linarith
  have herr := fun z => h.error (by omega) z
  rw [pow_two] at h1 h2 h3 hb2
  rw [pow_two] at h3
  obtain ⟨e, b⟩ := loopO_in_range h hΩ herr hu0 hu (by linarith) (by linarith) (by linarith) (by linarith) hM0 (by omega) he x.length hb1 hb2 hnΩ x
    0 0 0 0 0 0 0 hM (by omega) hnn (by simpa using hM0) (by simp; positivity) (by simp; positivity) le_rfl
    (by simp) (by simp) (by simp)
  have hM2 : 0 ≤ M * M := by positivity
  have hnM : 0 ≤ x.length * (M * M) := by positivity
  have b' : |(loop rd 0 0 0 0 0 x).2| ≤ Ω := by linarith
  unfold meanvarO meanvar
  rw [e, List.length_map]
  have hN : ((((x.length : Int) - ddof : Int)) : ℝ) = (x.length : ℝ) - (ddof : ℝ) := by push_cast; rfl
  rw [hN, ov_le h hΩ hdΩ]
  refine Prod.ext rfl ?_
  show ov rd Ω ((XF.fin (loop rd 0 0 0 0 0 x).2).div (.fin (rd ((x.length : ℝ) - ddof)))) = rnd rd ((XF.fin (loop rd 0 0 0 0 0 x).2).div (.fin (rd ((x.length : ℝ) - ddof))))
  generalize (loop rd 0 0 0 0 0 x).2 = s at *
  by_cases hz : rd ((x.length : ℝ) - ddof) = 0
  · rw [hz]
    simp only [XF.div, if_true]
    split_ifs <;> rfl
  · have hd1 : 1 ≤ |rd ((x.length : ℝ) - ddof)| := by
      have hi : ((x.length : ℝ) - ddof) = (((x.length : ℤ) - ddof : ℤ) : ℝ) := by push_cast; rfl
      have hne : (x.length : ℤ) - ddof ≠ 0 := by
        intro hc
        rw [hi, hc, Int.cast_zero, h.round_zero] at hz
        exact hz rfl
      refine h.abs_mono_float (isFloat_one (by omega) he) ?_
      rw [hi, ← Int.cast_abs]
      exact_mod_cast Int.one_le_abs hne
    rw [XF.div_fin _ _ hz]
    refine ov_le h hΩ ?_
    rw [abs_div]
    exact (div_le_self (abs_nonneg _) hd1).trans b'

end Ufunclab.Meanvar

namespace Ufunclab.Meanvar
open Ufunclab.Float Ufunclab.Step
variable {rd : ℝ → ℝ}

/-- C90 in double precision: up to a million numbers of magnitude at most `2^500`. -/
theorem C90_meanvar_double (h : Nearest 53 (-1074) rd) (x : List ℝ) (ddof : Int) (hn : x.length ≤ 1000000) (hd : |ddof| ≤ 1000000)
    (hx : ∀ v ∈ x, |v| ≤ 2 ^ 500) : meanvarO (ov rd maxDouble) (x.map .fin) ddof = meanvar rd x ddof := by
  have hM : ∀ k : ℕ, k ≤ 1023 → (2 : ℝ) ^ k ≤ maxDouble := fun k hk => by
    refine le_trans ?_ maxDouble_ge
    rw [← zpow_natCast]; exact zpow_le_zpow_right₀ (by norm_num) (by exact_mod_cast hk)
  have hn' : (x.length : ℝ) ≤ 1000000 := by exact_mod_cast hn
  have hd' : |(ddof : ℝ)| ≤ 1000000 := by exact_mod_cast hd
  have t : (1 : ℝ) ≤ 2 ^ 500 := one_le_pow₀ (by norm_num)
  have e1 : (2 : ℝ) ^ (-1074 : ℤ) ≤ ((2 ^ 53)⁻¹ : ℝ) ^ 2 := by
    rw [show ((2 ^ 53)⁻¹ : ℝ) ^ 2 = 2 ^ (-106 : ℤ) by norm_num]
    exact zpow_le_zpow_right₀ (by norm_num) (by norm_num)
  have p0 : (0 : ℝ) ≤ ((2 ^ 53)⁻¹ : ℝ) ^ 2 := by positivity
  have big : (2000000 : ℝ) ≤ maxDouble := le_trans (by norm_num) (hM 100 (by norm_num))
  refine C90_meanvar h (by norm_num) (by norm_num) isFloat_maxDouble x ddof (2 ^ 500) (by positivity) hx (by norm_num; linarith) e1
    (e1.trans (le_mul_of_one_le_right p0 t)) (e1.trans (le_mul_of_one_le_right p0 (one_le_pow₀ t))) ?_ ?_ (by linarith) ?_
  · refine le_trans (le_of_eq ?_) (hM 502 (by norm_num))
    rw [show 502 = 2 + 500 by norm_num, pow_add]; norm_num
  · refine le_trans ?_ (hM (21 + 500 * 2) (by norm_num))
    rw [pow_add, pow_mul]
    exact mul_le_mul_of_nonneg_right (by norm_num; linarith) (by positivity)
  · refine (abs_sub _ _).trans ?_
    rw [abs_of_nonneg (Nat.cast_nonneg _)]
    linarith

/-- C90 fails for large data: in double precision `meanvar([-2^1023, 2^1023], 0)` is `(inf, -inf)` though the mean is 0,
and `meanvar([-L, L], 0)` with `L = 3*2^510` is `(0, inf)` though the variance `9*2^1020` is in the range. -/
theorem C90_meanvar_violated (h : Nearest 53 (-1074) rd) :
    meanvarO (ov rd maxDouble) [.fin (-2 ^ (1023 : ℤ)), .fin (2 ^ (1023 : ℤ))] 0 = (.pinf, .ninf) ∧
    (meanvar id [-(2 : ℝ) ^ (1023 : ℤ), 2 ^ (1023 : ℤ)] 0).1 = .fin 0 ∧
    meanvarO (ov rd maxDouble) [.fin (-(3 * 2 ^ (510 : ℤ))), .fin (3 * 2 ^ (510 : ℤ))] 0 = (.fin 0, .pinf) ∧
    meanvar id [-(3 * (2 : ℝ) ^ (510 : ℤ)), 3 * 2 ^ (510 : ℤ)] 0 = (.fin 0, .fin (9 * 2 ^ (1020 : ℤ))) := by
  have hM : ∀ k : ℤ, k ≤ 1023 → (2 : ℝ) ^ k ≤ maxDouble := fun k hk => le_trans (zpow_le_zpow_right₀ (by norm_num) hk) maxDouble_ge
  have h2 : (2 : ℝ) ≤ maxDouble := by simpa using hM 1 (by norm_num)
  have f2 : IsFloat 53 (-1074) (2 : ℝ) := by simpa using isFloat_zpow (K := ℝ) (p := 53) (by norm_num) (show (-1074 : ℤ) ≤ 1 by norm_num)
  have e2 : ov rd maxDouble (.fin 2) = .fin 2 := ov_exact h f2 (by rw [abs_two]; exact h2)
  have z := ov_zero h
  have o := ov_one h
  refine ⟨?_, ?_, ?_, ?_⟩
  · have hp := pos_1023
    have e23 := ov_exact h (isFloat_zpow (by norm_num) (show (-1074 : ℤ) ≤ 1023 by norm_num)) (by rw [abs_of_pos hp]; exact maxDouble_ge)
    have em : ov rd maxDouble (.fin (-2 ^ (1023 : ℤ))) = .fin (-2 ^ (1023 : ℤ)) :=
      ov_exact h (isFloat_zpow (by norm_num) (by norm_num)).neg (by rw [abs_neg, abs_of_pos (by positivity)]; exact maxDouble_ge)
    simp only [meanvarO, loopO, compensatedUpdateO, List.length_cons, List.length_nil, XF.sub_fin, sub_zero, em, Nat.cast_one, o,
      XF.div_fin _ _ (one_ne_zero (α := ℝ)), div_one, XF.add_fin, zero_add, sub_self, z, XF.mul_fin, mul_zero, pow_1024, ov_1024 h]
    have c1 : ov rd maxDouble (.fin ((1 + 1 : ℕ) : ℝ)) = .fin 2 := by norm_num; exact e2
    have c2 : ov rd maxDouble (.fin (((1 + 1 : ℕ) : ℤ) : ℝ)) = .fin 2 := by norm_num; exact e2
    rw [c1, c2]
    have q1 : ov rd maxDouble (XF.div .pinf (.fin 2)) = .pinf := by norm_num [XF.div, ov]
    rw [q1]
    generalize (2 : ℝ) ^ (1023 : ℤ) = t
    norm_num [XF.div, XF.add, XF.sub, XF.neg, XF.mul, ov]
  · rw [C36_meanvar _ _ (by simp)]
    simp [Spec.mean]
  · have hp : (0 : ℝ) < 2 ^ (510 : ℤ) := by positivity
    have fL : IsFloat 53 (-1074) (3 * (2 : ℝ) ^ (510 : ℤ)) := ⟨3, 510, by norm_num, by norm_num, by norm_num⟩
    have f2L : IsFloat 53 (-1074) (2 * (3 * (2 : ℝ) ^ (510 : ℤ))) := by
      refine ⟨3, 511, by norm_num, by norm_num, ?_⟩
      rw [show (511 : ℤ) = 510 + 1 by norm_num, zpow_add_one₀ (by norm_num)]; push_cast; ring
    have bL : 2 * (3 * (2 : ℝ) ^ (510 : ℤ)) ≤ maxDouble := by
      refine le_trans ?_ (hM (3 + 510) (by norm_num))
      rw [zpow_add₀ (by norm_num), ← mul_assoc]
      exact mul_le_mul_of_nonneg_right (by norm_num) hp.le
    have ovf : ov rd maxDouble (.fin (2 * (3 * (2 : ℝ) ^ (510 : ℤ)) * (3 * (2 : ℝ) ^ (510 : ℤ)))) = .pinf := by
      refine ov_pos h (k := 1024) (by norm_num) (by norm_num) maxDouble_lt ?_
      rw [show (1024 : ℤ) = 4 + (510 + 510) by norm_num, zpow_add₀ (by norm_num), ← two_zpow_mul,
        show 2 * (3 * (2 : ℝ) ^ (510 : ℤ)) * (3 * (2 : ℝ) ^ (510 : ℤ)) = 18 * ((2 : ℝ) ^ (510 : ℤ) * 2 ^ (510 : ℤ)) by ring]
      exact mul_le_mul_of_nonneg_right (by norm_num) (by positivity)
    have pL : 0 < 3 * (2 : ℝ) ^ (510 : ℤ) := by positivity
    generalize 3 * (2 : ℝ) ^ (510 : ℤ) = L at *
    have eL := ov_exact h fL (by rw [abs_of_pos pL]; linarith)
    have em := ov_exact h fL.neg (by rw [abs_neg, abs_of_pos pL]; linarith)
    have e2L := ov_exact h f2L (by rw [abs_of_pos (by linarith)]; linarith)
    have s1 : L - -L = 2 * L := by ring
    simp only [meanvarO, loopO, compensatedUpdateO, List.length_cons, List.length_nil, XF.sub_fin, sub_zero, em, Nat.cast_one, o,
      XF.div_fin _ _ (one_ne_zero (α := ℝ)), div_one, XF.add_fin, zero_add, sub_self, z, XF.mul_fin, mul_zero, s1, e2L]
    have c1 : ov rd maxDouble (.fin ((1 + 1 : ℕ) : ℝ)) = .fin 2 := by norm_num; exact e2
    have c2 : ov rd maxDouble (.fin (((1 + 1 : ℕ) : ℤ) : ℝ)) = .fin 2 := by norm_num; exact e2
    have d2 : 2 * L / 2 = L := by ring
    simp only [c1, c2, XF.div_fin _ _ (two_ne_zero (α := ℝ)), d2, eL, XF.sub_fin, sub_zero, XF.add_fin, neg_add_cancel, z, XF.mul_fin, ovf]
    norm_num [XF.div, XF.add, XF.sub, XF.neg, ov]
  · rw [C36_meanvar _ _ (by simp)]
    have e : (2 : ℝ) ^ (1020 : ℤ) = 2 ^ (510 : ℤ) * 2 ^ (510 : ℤ) := by rw [two_zpow_mul]; norm_num
    rw [e]
    generalize (2 : ℝ) ^ (510 : ℤ) = t
    have m0 : Spec.mean [-(3 * t), 3 * t] = 0 := by simp [Spec.mean]
    rw [m0, Spec.sumSq]
    simp only [List.map_cons, List.map_nil, List.sum_cons, List.sum_nil, List.length_cons, List.length_nil]
    rw [XF.div_fin _ _ (by norm_num)]
    congr 2
    push_cast
    ring

example : ∃ rd : ℝ → ℝ, Nearest 53 (-1074) rd ∧ meanvarO (ov rd maxDouble) [.fin 1, .fin (-2 ^ 500), .fin (2 ^ 400)] 1 = meanvar rd [1, -2 ^ 500, 2 ^ 400] 1 := by
  obtain ⟨rd, h⟩ := exists_nearest (K := ℝ) (p := 53) (by norm_num) (-1074)
  have l : (2 : ℝ) ^ 400 ≤ 2 ^ 500 := pow_le_pow_right₀ (by norm_num) (by norm_num)
  have l1 : (1 : ℝ) ≤ 2 ^ 500 := one_le_pow₀ (by norm_num)
  refine ⟨rd, h, C90_meanvar_double h [1, -2 ^ 500, 2 ^ 400] 1 (by simp) (by norm_num) ?_⟩
  intro v hv
  simp only [List.mem_cons, List.not_mem_nil, or_false] at hv
  rcases hv with rfl | rfl | rfl
  · rw [abs_one]; exact l1
  · rw [abs_neg, abs_of_pos (by positivity)]
  · rw [abs_of_pos (by positivity)]; exact l

end Ufunclab.Meanvar
