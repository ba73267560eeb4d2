import Verif.Model.MeanvarOverflow
import Verif.Props.OverflowMeanvar
import Verif.Props.CorrRound
/-!
# C90 (continued): overflow in pearson_corr
-/
namespace Ufunclab.Corr
open Ufunclab.Float Ufunclab.Step Ufunclab.Meanvar
variable {p : ℕ} {emin : ℤ} {rd : ℝ → ℝ} {Ω : ℝ}

/-- C90: without overflow the model is that of C81, and with two pairs no arithmetic is done. -/
theorem C90_pearson_without_overflow (rd : ℝ → ℝ) (n : Nat) (m : Mem (XF ℝ)) (px xs py ys : Int) :
    pearsonO (rnd rd) n m px xs py ys = pearsonR rd n m px xs py ys ∧
    ∀ r : XF ℝ → XF ℝ, pearsonO r 2 m px xs py ys = pearson 2 m px xs py ys := by
  have a : ∀ (x : Nat → XF ℝ) f k m c, meanLoopO (rnd rd) x f k m c = meanLoopR rd x f k m c := by
    intro x f; induction f with
    | zero => intros; rfl
    | succ f ih => intro k m c; simp only [meanLoopR, meanLoopO, ih]
  have b : ∀ (x : Nat → XF ℝ) μ f k M, maxabsLoopO (rnd rd) x μ f k M = maxabsLoopR rd x μ f k M := by
    intro x μ f; induction f with
    | zero => intros; rfl
    | succ f ih => intro k M; simp only [maxabsLoopR, maxabsLoopO, ih]
  have c : ∀ (x : Nat → XF ℝ) μ D f k s c, normLoopO (rnd rd) x μ D f k s c = normLoopR rd x μ D f k s c := by
    intro x μ D f; induction f with
    | zero => intros; rfl
    | succ f ih => intro k s c; simp only [normLoopR, normLoopO, ih]
  have d : ∀ (x y : Nat → XF ℝ) μ D ν E f k r, rLoopO (rnd rd) x y μ D ν E f k r = rLoopR rd x y μ D ν E f k r := by
    intro x y μ D ν E f; induction f with
    | zero => intros; rfl
    | succ f ih => intro k r; simp only [rLoopR, rLoopO, ih]
  refine ⟨?_, fun r => ?_⟩
  · simp only [pearsonR, pearsonO, generalR, generalO, stridedMeanR, stridedMeanO, deltaMaxabsR, deltaMaxabsO, deltaNormR, deltaNormO, a, b, c, d]
    rfl
  · simp only [pearsonO, pearson, show ¬ (2 = 1) by omega, if_false, if_true]

/-- The mean in the range. -/
theorem meanLoopO_in_range (hN : Nearest p emin rd) (hΩ : IsFloat p emin Ω) {u η M : ℝ} (h : ∀ z, |rd z - z| ≤ u * |z| + η) (hu0 : 0 ≤ u) (hu : u ≤ 1 / 1000)
    (hη : 0 ≤ η) (hηu : η ≤ u * u) (hηM : η ≤ u * (u * M)) (hM : 0 ≤ M) (hp : 1 ≤ p) (he : emin ≤ 0) (n : ℕ) (x : Nat → ℝ) (hx : ∀ i < n, |x i| ≤ M)
    (hb1 : 4 * M ≤ Ω) (hnΩ : (n : ℝ) ≤ Ω) (hnu : (n : ℝ) * u ≤ 1 / 100) :
    ∀ (fuel k : ℕ) (m c1 μ : ℝ), k + fuel = n → |μ| ≤ M → |c1| ≤ 6.5 * (u * M) → |m - c1 - μ| ≤ 19 * (u * M) →
    ∃ m', meanLoopO (ov rd Ω) (fun k => .fin (x k)) fuel k (.fin m) (.fin c1) = .fin m' ∧
      meanLoopR rd (fun k => .fin (x k)) fuel k (.fin m) (.fin c1) = .fin m' ∧ |m'| ≤ 1.03 * M := by
  have huM : 0 ≤ u * M := by positivity
  have s2 : u * (u * M) ≤ 0.001 * (u * M) := mul_le_mul_of_nonneg_right (by norm_num at hu ⊢; exact hu) huM
  have s1 : u * M ≤ 0.001 * M := mul_le_mul_of_nonneg_right (by norm_num at hu ⊢; exact hu) hM
  intro fuel
  induction fuel with
  | zero =>
    intro k m c1 μ _ hμ hc1 hE
    refine ⟨m, rfl, rfl, ?_⟩
    calc |m| = |(m - c1 - μ) + c1 + μ| := by congr 1; ring
      _ ≤ |m - c1 - μ| + |c1| + |μ| := (abs_add_le _ _).trans (add_le_add (abs_add_le _ _) le_rfl)
      _ ≤ _ := by linarith
  | succ fuel ih =>
    intro k m c1 μ hlen hμ hc1 hE
    have hk0 : (0 : ℝ) ≤ k := Nat.cast_nonneg k
    have hkp : (0 : ℝ) < (k : ℝ) + 1 := by linarith
    have hkn : (k : ℝ) + 1 ≤ n := by
      have : k + 1 ≤ n := by omega
      exact_mod_cast this
    have hku : ((k : ℝ) + 1) * u ≤ 1 / 100 := (mul_le_mul_of_nonneg_right hkn hu0).trans hnu
    have hxM := hx k (by omega)
    generalize hxk : x k = v at hxM
    obtain ⟨a1, a2, a3, a4⟩ := mean_step h hu0 hu hη hηu hηM hM hk0 hku hxM hμ hc1 hE
    have hm : |m| ≤ 1.03 * M := by
      calc |m| = |(m - c1 - μ) + c1 + μ| := by congr 1; ring
        _ ≤ |m - c1 - μ| + |c1| + |μ| := (abs_add_le _ _).trans (add_le_add (abs_add_le _ _) le_rfl)
        _ ≤ _ := by linarith
    have hxm : |v - m| ≤ 2.03 * M := (abs_sub _ _).trans (by linarith)
    have o1 : ov rd Ω (.fin (v - m)) = .fin (rd (v - m)) := ov_le hN hΩ (by linarith)
    have hd2 : |rd (v - m)| ≤ 2.04 * M := by
      calc |rd (v - m)| = |(rd (v - m) - (v - m)) + (v - m)| := by congr 1; ring
        _ ≤ _ := abs_add_le _ _
        _ ≤ _ := by linarith
    have o2 : ov rd Ω (.fin ((k : ℝ) + 1)) = .fin (rd ((k : ℝ) + 1)) := ov_le hN hΩ (by rw [abs_of_pos hkp]; linarith)
    have rk1 : 1 ≤ rd ((k : ℝ) + 1) := hN.mono_float (isFloat_one hp he) (by linarith)
    have hq1 : |rd (v - m) / rd ((k : ℝ) + 1)| ≤ 2.04 * M := by
      rw [abs_div, abs_of_pos (show 0 < rd ((k : ℝ) + 1) by linarith)]
      exact (div_le_self (abs_nonneg _) rk1).trans hd2
    have o3 : ov rd Ω (.fin (rd (v - m) / rd ((k : ℝ) + 1))) = .fin (rd (rd (v - m) / rd ((k : ℝ) + 1))) := ov_le hN hΩ (by linarith)
    have hq2 : |rd (rd (v - m) / rd ((k : ℝ) + 1))| ≤ 2.05 * M := by
      have e := h (rd (v - m) / rd ((k : ℝ) + 1))
      have e' := mul_le_mul_of_nonneg_left hq1 hu0
      calc _ = |(rd (rd (v - m) / rd ((k : ℝ) + 1)) - rd (v - m) / rd ((k : ℝ) + 1)) + rd (v - m) / rd ((k : ℝ) + 1)| := by congr 1; ring
        _ ≤ _ := abs_add_le _ _
        _ ≤ _ := by linarith
    have o4 := update_in_range hN hΩ h hu hη (v := m) (q := rd (rd (v - m) / rd ((k : ℝ) + 1))) (c := c1) (A := 1.03 * M) (P := 2.06 * M)
      hm ((abs_sub _ _).trans (by linarith)) (by linarith)
    have := ih (k + 1) _ _ _ (by omega) a4 a1 a2
    have hne : rd ((k : ℝ) + 1) ≠ 0 := by linarith
    simp only [meanLoopO, meanLoopR, hxk, XF.sub_fin, o1, o2, XF.div_fin _ _ hne, o3, rnd_fin, XF.add_fin]
    simp only [compensatedUpdateO, XF.sub_fin, Prod.mk.injEq] at o4
    rw [o4.2, o4.1]
    exact this

/-- The largest deviation in the range. -/
theorem maxabsLoopO_in_range (x : Nat → ℝ) (m : ℝ) : ∀ (fuel k : Nat) (V : XF ℝ), (∀ i, k ≤ i → i < k + fuel → ov rd Ω (.fin (x i - m)) = .fin (rd (x i - m))) →
    maxabsLoopO (ov rd Ω) (fun k => .fin (x k)) (.fin m) fuel k V = maxabsLoopR rd (fun k => .fin (x k)) (.fin m) fuel k V := by
  intro fuel
  induction fuel with
  | zero => intros; rfl
  | succ fuel ih =>
    intro k V hV
    simp only [maxabsLoopO, maxabsLoopR, XF.sub_fin, hV k le_rfl (by omega), rnd_fin]
    exact ih _ _ (fun i h1 h2 => hV i (by omega) (by omega))

/-- One step of a compensated sum of non-negative terms. -/
theorem kahan_step {u η : ℝ} (h : ∀ z, |rd z - z| ≤ u * |z| + η) (hu0 : 0 ≤ u) (hu : u ≤ 1 / 1000) (hη : 0 ≤ η) (hηu : η ≤ u * u)
    {Q v k s c T : ℝ} (hQ : 1 ≤ Q) (hv0 : 0 ≤ v) (hk0 : k * u ≤ 1 / 100) (hT : 0 ≤ T) (hTQ : T + v ≤ Q) (hc : |c| ≤ 4 * (u * Q))
    (hE : |s - c - T| ≤ 2.02 * (u * T) + k * (14.3 * (u * (u * Q)))) :
    |s| ≤ 1.02 * Q ∧ |(compensatedUpdate rd s v c).2| ≤ 4 * (u * Q) ∧
    |(compensatedUpdate rd s v c).1 - (compensatedUpdate rd s v c).2 - (T + v)| ≤ 2.02 * (u * (T + v)) + (k + 1) * (14.3 * (u * (u * Q))) := by
  have hvQ : v ≤ Q := by linarith
  have hTQ' : T ≤ Q := by linarith
  have hQ0 : 0 ≤ Q := by linarith
  have huQ : 0 ≤ u * Q := by positivity
  have huuQ : 0 ≤ u * (u * Q) := by positivity
  have huu : u * (u * Q) ≤ 1 / 1000 * (u * Q) := mul_le_mul_of_nonneg_right hu huQ
  have huQ1 : u * Q ≤ 1 / 1000 * Q := mul_le_mul_of_nonneg_right hu hQ0
  have hηQ : η ≤ u * (u * Q) := by
    have : u * u * 1 ≤ u * u * Q := mul_le_mul_of_nonneg_left hQ (by positivity)
    linarith
  have hkk : k * (14.3 * (u * (u * Q))) ≤ 0.143 * (u * Q) := by
    have h1 : (k * u) * (14.3 * (u * Q)) ≤ 1 / 100 * (14.3 * (u * Q)) := mul_le_mul_of_nonneg_right hk0 (by positivity)
    calc k * (14.3 * (u * (u * Q))) = (k * u) * (14.3 * (u * Q)) := by ring
      _ ≤ _ := h1
      _ = _ := by ring
  have huT : u * T ≤ u * Q := mul_le_mul_of_nonneg_left hTQ' hu0
  have hs : |s| ≤ 1.02 * Q := by
    have : |s| ≤ |s - c - T| + |c| + T := by
      calc |s| = |(s - c - T) + c + T| := by congr 1; ring
        _ ≤ |(s - c - T) + c| + |T| := abs_add_le _ _
        _ ≤ |s - c - T| + |c| + |T| := by linarith [abs_add_le (s - c - T) c]
        _ = _ := by rw [abs_of_nonneg hT]
    norm_num at *
    linarith
  obtain ⟨a1, a2⟩ := update_error h hu0 hu hη hs (abs_of_nonneg hv0).le hc
  refine ⟨hs, ?_, ?_⟩
  · refine a2.trans ?_
    have h1 : u * v ≤ u * Q := mul_le_mul_of_nonneg_left hvQ hu0
    have e1 : u * (v + 4 * (u * Q)) = u * v + 4 * (u * (u * Q)) := by ring
    have e2 : u * (1.02 * Q) = 1.02 * (u * Q) := by ring
    rw [e1, e2]
    norm_num at *
    linarith
  · have e1 : u * (v + 4 * (u * Q)) = u * v + 4 * (u * (u * Q)) := by ring
    have e2 : u * (u * (1.02 * Q)) = 1.02 * (u * (u * Q)) := by ring
    rw [e1, e2] at a1
    set w := compensatedUpdate rd s v c
    have : |w.1 - w.2 - (T + v)| ≤ |w.1 - w.2 - (s - c + v)| + |s - c - T| := by
      calc |w.1 - w.2 - (T + v)| = |(w.1 - w.2 - (s - c + v)) + (s - c - T)| := by congr 1; ring
        _ ≤ _ := abs_add_le _ _
    refine this.trans ?_
    rw [mul_add, add_mul, one_mul]
    norm_num at *
    linarith

/-- The sum of the squared, scaled deviations in the range. -/
theorem normLoopO_in_range (hN : Nearest p emin rd) (hΩ : IsFloat p emin Ω) {u η : ℝ} (h : ∀ z, |rd z - z| ≤ u * |z| + η) (hu0 : 0 ≤ u) (hu : u ≤ 1 / 1000)
    (hη : 0 ≤ η) (hηu : η ≤ u * u) (hp : 1 ≤ p) (he : emin ≤ 0) (n : ℕ) (x : Nat → ℝ) (m D : ℝ) (hDp : 0 < D) (hD : ∀ i < n, |dev rd x m i| ≤ D)
    (ho : ∀ i < n, ov rd Ω (.fin (x i - m)) = .fin (rd (x i - m))) {Q : ℝ} (hQ : 1 ≤ Q) (hQΩ : 1.1 * Q + 3 ≤ Ω) :
    ∀ (fuel k : Nat) (s c T : ℝ), k + fuel = n → (n : ℝ) * u ≤ 1 / 100 → 0 ≤ T → T + ((List.range' k fuel).map (zsq rd x m D)).sum = Q →
    |c| ≤ 4 * (u * Q) → |s - c - T| ≤ 2.02 * (u * T) + k * (14.3 * (u * (u * Q))) →
    normLoopO (ov rd Ω) (fun k => .fin (x k)) (.fin m) (.fin D) fuel k (.fin s) (.fin c) =
      normLoopR rd (fun k => .fin (x k)) (.fin m) (.fin D) fuel k (.fin s) (.fin c) := by
  have hz0 : ∀ i, 0 ≤ zsq rd x m D i := fun i => hN.mono_float isFloat_zero (mul_self_nonneg _)
  intro fuel
  induction fuel with
  | zero => intros; rfl
  | succ fuel ih =>
    intro k s c T hlen hnu hT hTQ hc hE
    have hk0 : (0 : ℝ) ≤ k := Nat.cast_nonneg k
    have hkn : (k : ℝ) ≤ n := by
      have : k ≤ n := by omega
      exact_mod_cast this
    have hku : (k : ℝ) * u ≤ 1 / 100 := (mul_le_mul_of_nonneg_right hkn hu0).trans hnu
    rw [List.range'_succ, List.map_cons, List.sum_cons] at hTQ
    have hrest : 0 ≤ ((List.range' (k + 1) fuel).map (zsq rd x m D)).sum :=
      List.sum_nonneg (by intro w hw; obtain ⟨i, _, rfl⟩ := List.mem_map.1 hw; exact hz0 i)
    obtain ⟨b1, b2, b3⟩ := kahan_step h hu0 hu hη hηu hQ (hz0 k) hku hT (by linarith) hc hE
    have f1 : IsFloat p emin (1 : ℝ) := isFloat_one hp he
    have hdk := hD k (by omega)
    have ok := ho k (by omega)
    have hq : |dev rd x m k / D| ≤ 1 := by rw [abs_div, abs_of_pos hDp, div_le_one hDp]; exact hdk
    have hΩ1 : 1 ≤ Ω := by linarith
    have o1 : ov rd Ω (.fin (dev rd x m k / D)) = .fin (rd (dev rd x m k / D)) := ov_le hN hΩ (by linarith)
    have hz1 : |rd (dev rd x m k / D)| ≤ 1 := abs_round_le hN f1 hq
    have hz2 : |rd (dev rd x m k / D) * rd (dev rd x m k / D)| ≤ 1 := by
      rw [abs_mul]; exact mul_le_one₀ hz1 (abs_nonneg _) hz1
    have o2 : ov rd Ω (.fin (rd (dev rd x m k / D) * rd (dev rd x m k / D))) = .fin (zsq rd x m D k) := ov_le hN hΩ (by linarith)
    have hz3 : |zsq rd x m D k| ≤ 1 := abs_round_le hN f1 hz2
    have huQ1 : u * Q ≤ 1 / 1000 * Q := mul_le_mul_of_nonneg_right hu (by linarith)
    have huu : u * u ≤ 1 / 1000 * 1 := mul_le_mul hu (by linarith) hu0 (by norm_num)
    have o3 := update_in_range hN hΩ h hu hη (v := s) (q := zsq rd x m D k) (c := c) (A := 1.02 * Q) (P := 1 + 0.004 * Q) b1
      ((abs_sub _ _).trans (by norm_num at *; linarith)) (by norm_num at *; linarith)
    have := ih (k + 1) _ _ (T + zsq rd x m D k) (by omega) hnu (by linarith [hz0 k]) (by linarith) b2 (by push_cast; exact b3)
    simp only [compensatedUpdateO, XF.sub_fin, Prod.mk.injEq] at o3
    have ed : rd (x k - m) = dev rd x m k := rfl
    have ez : rd (rd (dev rd x m k / D) * rd (dev rd x m k / D)) = zsq rd x m D k := rfl
    simp only [normLoopO, normLoopR, XF.sub_fin, ok, rnd_fin, ed, XF.div_fin _ _ hDp.ne', o1, XF.mul_fin, o2, XF.add_fin, ez]
    rw [o3.2, o3.1]
    exact this

/-- The norm of the deviations in the range. -/
theorem deltaNormO_in_range (hN : Nearest p emin rd) (hΩ : IsFloat p emin Ω) (hp : 10 ≤ p) (he : emin ≤ -2 * p) (n : ℕ) (hn : 100 * (n : ℝ) ≤ 2 ^ p) (x : Nat → ℝ)
    (m D : ℝ) (hDp : 0 < D) (hD : ∀ i < n, |dev rd x m i| ≤ D) (hDi : ∃ i < n, D = |dev rd x m i|)
    (ho : ∀ i < n, ov rd Ω (.fin (x i - m)) = .fin (rd (x i - m))) (h1 : 2 * n + 3 ≤ Ω) (h2 : 1.1 * D * Real.sqrt n ≤ Ω) :
    ∃ N, deltaNormO (ov rd Ω) n (fun k => .fin (x k)) (.fin m) (.fin D) = .fin N ∧
      deltaNormR rd n (fun k => .fin (x k)) (.fin m) (.fin D) = .fin N ∧ D / 2 ≤ N := by
  have hu0 : (0 : ℝ) < (2 ^ p)⁻¹ := by positivity
  have hu := Mad.unit_le_thousandth (K := ℝ) hp
  have hη0 : (0 : ℝ) < 2 ^ emin / 2 := by positivity
  have hηu : (2 : ℝ) ^ emin / 2 ≤ (2 ^ p)⁻¹ * (2 ^ p)⁻¹ := by
    have := eta_le (emin := emin) he
    have : (0 : ℝ) < (2 ^ p)⁻¹ * (2 ^ p)⁻¹ := by positivity
    linarith
  have hnu : (n : ℝ) * (2 ^ p)⁻¹ ≤ 1 / 100 := by
    rw [← div_eq_mul_inv, div_le_iff₀ (by positivity)]; linarith
  have herr := fun z => hN.error (by omega) z
  have f1 : IsFloat p emin (1 : ℝ) := isFloat_one (by omega) (by omega)
  have fm1 := f1.neg
  obtain ⟨j, hj, hDj⟩ := hDi
  have hn1 : (1 : ℝ) ≤ n := by
    have : 1 ≤ n := by omega
    exact_mod_cast this
  have hDf : IsFloat p emin D := by rw [hDj]; exact (hN _).1.abs
  have hz0 : ∀ i, 0 ≤ zsq rd x m D i := fun i => hN.mono_float isFloat_zero (mul_self_nonneg _)
  have hz1 : ∀ i < n, zsq rd x m D i ≤ 1 := by
    intro i hi
    have hq : |dev rd x m i / D| ≤ 1 := by rw [abs_div, abs_of_pos hDp, div_le_one hDp]; exact hD i hi
    have hr : |rd (dev rd x m i / D)| ≤ 1 := abs_round_le hN f1 hq
    refine (le_abs_self _).trans (abs_round_le hN f1 ?_)
    rw [abs_mul]; exact mul_le_one₀ hr (abs_nonneg _) hr
  set Q := ((List.range' 0 n).map (zsq rd x m D)).sum with hQ
  have hQn : Q ≤ n := by
    rw [hQ, sum_range' n (zsq rd x m D)]
    calc ∑ i ∈ Finset.range n, zsq rd x m D i ≤ ∑ i ∈ Finset.range n, (1 : ℝ) := Finset.sum_le_sum (fun i hi => hz1 i (Finset.mem_range.1 hi))
      _ = n := by simp
  have hQ1 : 1 ≤ Q := by
    have hzj : zsq rd x m D j = 1 := by
      have hr : rd (dev rd x m j / D) * rd (dev rd x m j / D) = 1 := by
        rcases le_total 0 (dev rd x m j) with c | c
        · rw [abs_of_nonneg c] at hDj
          rw [← hDj, div_self hDp.ne', hN.exact f1]; norm_num
        · rw [abs_of_nonpos c] at hDj
          have : dev rd x m j / D = -1 := by rw [div_eq_iff hDp.ne']; linarith
          rw [this, hN.exact fm1]; norm_num
      rw [zsq, hr, hN.exact f1]
    rw [← hzj, hQ]
    exact List.single_le_sum (by intro y hy; obtain ⟨w, _, rfl⟩ := List.mem_map.1 hy; exact hz0 w) _
      (List.mem_map_of_mem (by simpa using hj))
  have hS := kahan_error herr hu0.le hu hη0.le hηu hQ1 ((List.range' 0 n).map (zsq rd x m D)) 0 0 0 0
    (by intro y hy; obtain ⟨w, _, rfl⟩ := List.mem_map.1 hy; exact hz0 w) (by simpa using hnu) le_rfl (by rw [zero_add]) (by simp; positivity)
    (by simp)
  have hloop := normLoopO_in_range hN hΩ herr hu0.le hu hη0.le hηu (by omega) (by omega) n x m D hDp hD ho hQ1 (by linarith) n 0 0 0 0
    (by omega) hnu le_rfl (by rw [zero_add]) (by simp; positivity) (by simp)
  set S := kahan rd 0 0 ((List.range' 0 n).map (zsq rd x m D)) with hSdef
  have kk : (2 ^ p)⁻¹ * Q ≤ 1 / 1000 * Q := mul_le_mul_of_nonneg_right hu (by linarith)
  have hS1 : 0.99 ≤ S ∧ S ≤ 1.01 * Q := by
    have := abs_le.1 hS
    clear_value S Q
    clear hn hnu hηu
    generalize ((2 : ℝ) ^ p)⁻¹ * Q = a at *
    constructor <;> (norm_num at *; linarith)
  have hS0 : 0 ≤ S := le_trans (by norm_num) hS1.1
  have hSn : Real.sqrt S ≤ 1.01 * Real.sqrt n := by
    rw [show (1.01 : ℝ) * Real.sqrt n = Real.sqrt (1.01 ^ 2 * n) by rw [Real.sqrt_mul (by positivity), Real.sqrt_sq (by norm_num)]]
    apply Real.sqrt_le_sqrt
    norm_num at hS1 ⊢; linarith [hS1.2]
  have hsn1 : 1 ≤ Real.sqrt n := by rw [Real.one_le_sqrt]; exact hn1
  have hsnn : Real.sqrt n ≤ n := Real.sqrt_le_iff.2 ⟨by linarith, by nlinarith⟩
  have hηs : (2 : ℝ) ^ emin / 2 ≤ 1 / 1000 := by
    have : (2 ^ p : ℝ)⁻¹ * (2 ^ p)⁻¹ ≤ 1 / 1000 * 1 := mul_le_mul hu (by linarith) hu0.le (by norm_num)
    linarith
  have hrs : |rd (Real.sqrt S)| ≤ 1.02 * Real.sqrt n := by
    have e := herr (Real.sqrt S)
    rw [abs_of_nonneg (Real.sqrt_nonneg S)] at e
    have e' : (2 ^ p : ℝ)⁻¹ * Real.sqrt S ≤ 1 / 1000 * (1.01 * Real.sqrt n) := mul_le_mul hu hSn (Real.sqrt_nonneg _) (by norm_num)
    calc |rd (Real.sqrt S)| = |(rd (Real.sqrt S) - Real.sqrt S) + Real.sqrt S| := by congr 1; ring
      _ ≤ _ := abs_add_le _ _
      _ ≤ _ := by rw [abs_of_nonneg (Real.sqrt_nonneg S)]; norm_num at e' hSn ⊢; linarith
  have o1 : ov rd Ω (.fin (Real.sqrt S)) = .fin (rd (Real.sqrt S)) :=
    ov_le hN hΩ (by rw [abs_of_nonneg (Real.sqrt_nonneg S)]; linarith)
  have o2 : ov rd Ω (.fin (D * rd (Real.sqrt S))) = .fin (rd (D * rd (Real.sqrt S))) := by
    refine ov_le hN hΩ ?_
    rw [abs_mul, abs_of_pos hDp]
    have := mul_le_mul_of_nonneg_left hrs hDp.le
    have : 0 ≤ D * Real.sqrt n := by positivity
    linarith
  have hxs : xsqrt (.fin S) = .fin (Real.sqrt S) := by rw [xsqrt, if_neg (not_lt.2 hS0)]
  refine ⟨rd (D * rd (Real.sqrt S)), ?_, ?_, ?_⟩
  · unfold deltaNormO
    rw [hloop, normLoopR_fin x m D hDp.ne', ← hSdef, hxs, o1, XF.mul_fin, o2]
  · unfold deltaNormR
    rw [normLoopR_fin x m D hDp.ne', ← hSdef, hxs]
    rfl
  · have hq : (3 : ℝ) / 4 ≤ rd (Real.sqrt S) := by
      have hf : IsFloat p emin ((3 : ℝ) / 4) :=
        ⟨3, -2, lt_of_lt_of_le (by norm_num : |(3 : ℤ)| < 2 ^ 10) (pow_le_pow_right₀ (by norm_num) hp), by omega, by norm_num⟩
      apply hN.mono_float hf
      apply Real.le_sqrt_of_sq_le
      exact le_trans (by norm_num) hS1.1
    set z := D * rd (Real.sqrt S) with hz
    have hz1 : 3 / 4 * D ≤ z := by rw [hz, mul_comm]; exact mul_le_mul_of_nonneg_left hq hDp.le
    rcases le_total D z with c | c
    · have := hN.mono_float hDf c; linarith
    · have := (hN z).2 D hDf
      rw [abs_of_nonneg (by linarith : 0 ≤ D - z)] at this
      linarith [(abs_le.1 this).1]

/-- The final accumulation in the range. -/
theorem rLoopO_in_range (hN : Nearest p emin rd) (hΩ : IsFloat p emin Ω) (hp : 10 ≤ p) (he : emin ≤ -2 * p) (n : ℕ) (hn : 100 * (n : ℝ) ≤ 2 ^ p) (x y : Nat → ℝ)
    (mx my Nx Ny : ℝ) (hx0 : 0 < Nx) (hy0 : 0 < Ny) (hx : ∀ i < n, |dev rd x mx i / Nx| ≤ 2) (hy : ∀ i < n, |dev rd y my i / Ny| ≤ 2)
    (ox : ∀ i < n, ov rd Ω (.fin (x i - mx)) = .fin (rd (x i - mx))) (oy : ∀ i < n, ov rd Ω (.fin (y i - my)) = .fin (rd (y i - my)))
    (hnΩ : 5 * (n : ℝ) ≤ Ω) : ∀ (fuel k : Nat) (r : ℝ), k + fuel = n → |r| ≤ 5 * k →
    rLoopO (ov rd Ω) (fun k => .fin (x k)) (fun k => .fin (y k)) (.fin mx) (.fin Nx) (.fin my) (.fin Ny) fuel k (.fin r) =
      rLoopR rd (fun k => .fin (x k)) (fun k => .fin (y k)) (.fin mx) (.fin Nx) (.fin my) (.fin Ny) fuel k (.fin r) := by
  have hu0 : (0 : ℝ) < (2 ^ p)⁻¹ := by positivity
  have hu := Mad.unit_le_thousandth (K := ℝ) hp
  have hηs : (2 : ℝ) ^ emin / 2 ≤ 1 / 1000 := by
    have := eta_le (emin := emin) he
    have : (0 : ℝ) < (2 ^ p)⁻¹ * (2 ^ p)⁻¹ := by positivity
    have : (2 ^ p : ℝ)⁻¹ * (2 ^ p)⁻¹ ≤ 1 / 1000 * 1 := mul_le_mul hu (by linarith) hu0.le (by norm_num)
    linarith
  have hnu : (n : ℝ) * (2 ^ p)⁻¹ ≤ 1 / 100 := by
    rw [← div_eq_mul_inv, div_le_iff₀ (by positivity)]; linarith
  have herr := fun z => hN.error (by omega) z
  have f2 : IsFloat p emin (2 : ℝ) := by
    simpa using isFloat_zpow (K := ℝ) (p := p) (emin := emin) (by omega) (show emin ≤ 1 by omega)
  have f4 : IsFloat p emin (4 : ℝ) := by
    have := isFloat_zpow (K := ℝ) (p := p) (emin := emin) (by omega) (show emin ≤ 2 by omega)
    norm_num at this; exact this
  intro fuel
  induction fuel with
  | zero => intros; rfl
  | succ fuel ih =>
    intro k r hlen hr
    have hk0 : (0 : ℝ) ≤ k := Nat.cast_nonneg k
    have hkn : (k : ℝ) + 1 ≤ n := by
      have : k + 1 ≤ n := by omega
      exact_mod_cast this
    have a1 := hx k (by omega)
    have a2 := hy k (by omega)
    have b1 := ox k (by omega)
    have b2 := oy k (by omega)
    have o1 : ov rd Ω (.fin (dev rd x mx k / Nx)) = .fin (rd (dev rd x mx k / Nx)) := ov_le hN hΩ (by linarith)
    have o2 : ov rd Ω (.fin (dev rd y my k / Ny)) = .fin (rd (dev rd y my k / Ny)) := ov_le hN hΩ (by linarith)
    have c1 : |rd (dev rd x mx k / Nx)| ≤ 2 := abs_round_le hN f2 a1
    have c2 : |rd (dev rd y my k / Ny)| ≤ 2 := abs_round_le hN f2 a2
    have c3 : |rd (dev rd x mx k / Nx) * rd (dev rd y my k / Ny)| ≤ 4 := by
      rw [abs_mul]
      calc _ ≤ (2 : ℝ) * 2 := mul_le_mul c1 c2 (abs_nonneg _) (by norm_num)
        _ = 4 := by norm_num
    have o3 : ov rd Ω (.fin (rd (dev rd x mx k / Nx) * rd (dev rd y my k / Ny))) = .fin (rd (rd (dev rd x mx k / Nx) * rd (dev rd y my k / Ny))) :=
      ov_le hN hΩ (by linarith)
    have c4 : |rd (rd (dev rd x mx k / Nx) * rd (dev rd y my k / Ny))| ≤ 4 := abs_round_le hN f4 c3
    have ed : rd (x k - mx) = dev rd x mx k := rfl
    have ed' : rd (y k - my) = dev rd y my k := rfl
    simp only [rLoopO, rLoopR, XF.sub_fin, b1, b2, rnd_fin, ed, ed', XF.div_fin _ _ hx0.ne', XF.div_fin _ _ hy0.ne', o1, o2, XF.mul_fin, o3, XF.add_fin]
    generalize rd (rd (dev rd x mx k / Nx) * rd (dev rd y my k / Ny)) = q at *
    have c5 : |r + q| ≤ 5 * k + 4 := (abs_add_le _ _).trans (by linarith)
    rw [ov_le hN hΩ (by linarith : |r + q| ≤ Ω)]
    refine ih _ _ (by omega) ?_
    have e := herr (r + q)
    have e' : (2 ^ p : ℝ)⁻¹ * |r + q| ≤ (2 ^ p)⁻¹ * (5 * n) := mul_le_mul_of_nonneg_left (by linarith) hu0.le
    have e'' : (2 ^ p : ℝ)⁻¹ * (5 * n) = 5 * (n * (2 ^ p)⁻¹) := by ring
    push_cast
    calc |rd (r + q)| = |(rd (r + q) - (r + q)) + (r + q)| := by congr 1; ring
      _ ≤ _ := abs_add_le _ _
      _ ≤ _ := by linarith

theorem generalO_congr {r : XF ℝ → XF ℝ} (n : Nat) (hn : 1 ≤ n) (x x' y y' : Nat → XF ℝ) (h : ∀ i < n, x i = x' i) (h' : ∀ i < n, y i = y' i) :
    generalO r n x y = generalO r n x' y' := by
  have a : ∀ (x x' : Nat → XF ℝ) f k m c, (∀ i, i < k + f → x i = x' i) → meanLoopO r x f k m c = meanLoopO r x' f k m c := by
    intro x x' f; induction f with
    | zero => intros; rfl
    | succ f ih => intro k m c hx; simp only [meanLoopO, hx k (by omega)]; exact ih _ _ _ (fun i hi => hx i (by omega))
  have b : ∀ (x x' : Nat → XF ℝ) μ f k M, (∀ i, i < k + f → x i = x' i) → maxabsLoopO r x μ f k M = maxabsLoopO r x' μ f k M := by
    intro x x' μ f; induction f with
    | zero => intros; rfl
    | succ f ih => intro k M hx; simp only [maxabsLoopO, hx k (by omega)]; exact ih _ _ (fun i hi => hx i (by omega))
  have c : ∀ (x x' : Nat → XF ℝ) μ D f k s c, (∀ i, i < k + f → x i = x' i) → normLoopO r x μ D f k s c = normLoopO r x' μ D f k s c := by
    intro x x' μ D f; induction f with
    | zero => intros; rfl
    | succ f ih => intro k s c hx; simp only [normLoopO, hx k (by omega)]; exact ih _ _ _ (fun i hi => hx i (by omega))
  have d : ∀ μ D ν E f k s, k + f ≤ n → rLoopO r x y μ D ν E f k s = rLoopO r x' y' μ D ν E f k s := by
    intro μ D ν E f; induction f with
    | zero => intros; rfl
    | succ f ih => intro k s hk; simp only [rLoopO, h k (by omega), h' k (by omega)]; exact ih _ _ (by omega)
  simp only [generalO, stridedMeanO, deltaMaxabsO, deltaNormO, h 0 hn, h' 0 hn]
  rw [a x x' n 0 _ _ (fun i hi => h i (by omega)), a y y' n 0 _ _ (fun i hi => h' i (by omega)),
    b x x' _ (n - 1) 1 _ (fun i hi => h i (by omega)), b y y' _ (n - 1) 1 _ (fun i hi => h' i (by omega)),
    c x x' _ _ n 0 _ _ (fun i hi => h i (by omega)), c y y' _ _ n 0 _ _ (fun i hi => h' i (by omega)), d _ _ _ _ n 0 _ (by omega)]
  rfl

/-- C90: `n` pairs of magnitude at most `M`, `100 n ≤ 2^p`: none of the operations of `pearson_corr` overflows if `4M`, `3M sqrt(n)` and
`5n` are in the range, so the result is that of C81. -/
theorem C90_pearson (h : Nearest p emin rd) (hp : 10 ≤ p) (he : emin ≤ -2 * p) (hΩ : IsFloat p emin Ω) (n : ℕ) (hn1 : 1 ≤ n) (hn : 100 * (n : ℝ) ≤ 2 ^ p)
    (m : Mem (XF ℝ)) (px xs py ys : Int) (x y : Nat → ℝ)
    (hx : ∀ i < n, get m px xs i = .fin (x i)) (hy : ∀ i < n, get m py ys i = .fin (y i)) (M : ℝ)
    (bx : ∀ i < n, |x i| ≤ M) (bY : ∀ i < n, |y i| ≤ M) (hM : 2 ^ emin * (2 ^ p) ^ 2 ≤ M) (h1 : 4 * M ≤ Ω) (h2 : 3 * M * Real.sqrt n ≤ Ω) (h3 : 5 * (n : ℝ) ≤ Ω) :
    pearsonO (ov rd Ω) n m px xs py ys = pearsonR rd n m px xs py ys := by
  unfold pearsonO pearsonR
  by_cases c1 : n = 1
  · rw [if_pos c1, if_pos c1]
  by_cases c2 : n = 2
  · rw [if_neg c1, if_neg c1, if_pos c2, if_pos c2]
  · rw [if_neg c1, if_neg c1, if_neg c2, if_neg c2]
    rw [generalO_congr n hn1 _ (fun i => .fin (x i)) _ (fun i => .fin (y i)) hx hy, generalR_congr n (by omega) _ (fun i => .fin (x i)) _ (fun i => .fin (y i)) hx hy]
    have hu0 : (0 : ℝ) < (2 ^ p)⁻¹ := by positivity
    have hu := Mad.unit_le_thousandth (K := ℝ) hp
    have hη0 : (0 : ℝ) < 2 ^ emin / 2 := by positivity
    have hηu : (2 : ℝ) ^ emin / 2 ≤ (2 ^ p)⁻¹ * (2 ^ p)⁻¹ := by
      have := eta_le (emin := emin) he
      have : (0 : ℝ) < (2 ^ p)⁻¹ * (2 ^ p)⁻¹ := by positivity
      linarith
    have hηM : (2 : ℝ) ^ emin / 2 ≤ (2 ^ p)⁻¹ * ((2 ^ p)⁻¹ * M) := by
      have e : (2 : ℝ) ^ emin = (2 ^ p)⁻¹ * ((2 ^ p)⁻¹ * (2 ^ emin * (2 ^ p) ^ 2)) := by field_simp
      have k : (2 ^ p)⁻¹ * ((2 ^ p)⁻¹ * ((2 : ℝ) ^ emin * (2 ^ p) ^ 2)) ≤ (2 ^ p)⁻¹ * ((2 ^ p)⁻¹ * M) :=
        mul_le_mul_of_nonneg_left (mul_le_mul_of_nonneg_left hM hu0.le) hu0.le
      rw [← e] at k; linarith
    have hM0 : 0 ≤ M := le_trans (by positivity) hM
    have hnu : (n : ℝ) * (2 ^ p)⁻¹ ≤ 1 / 100 := by
      rw [← div_eq_mul_inv, div_le_iff₀ (by positivity)]; linarith
    have herr := fun z => h.error (by omega) z
    have hn1' : (1 : ℝ) ≤ n := by exact_mod_cast hn1
    have huM : (2 ^ p : ℝ)⁻¹ * M ≤ 1 / 1000 * M := mul_le_mul_of_nonneg_right hu hM0
    have huuM : (2 ^ p : ℝ)⁻¹ * ((2 ^ p)⁻¹ * M) ≤ 1 / 1000 * (1 / 1000 * M) := mul_le_mul hu huM (by positivity) (by norm_num)
    -- the mean, the largest deviation and the norm of one of the two
    have one : ∀ x : Nat → ℝ, (∀ i < n, |x i| ≤ M) → ∃ m' D, stridedMeanO (ov rd Ω) n (fun i => .fin (x i)) = .fin m' ∧
        stridedMeanR rd n (fun i => .fin (x i)) = .fin m' ∧ (∀ i < n, ov rd Ω (.fin (x i - m')) = .fin (rd (x i - m'))) ∧
        deltaMaxabsO (ov rd Ω) n (fun i => .fin (x i)) (.fin m') = .fin D ∧ deltaMaxabsR rd n (fun i => .fin (x i)) (.fin m') = .fin D ∧
        (D ≠ 0 → ∃ N, deltaNormO (ov rd Ω) n (fun i => .fin (x i)) (.fin m') (.fin D) = .fin N ∧
          deltaNormR rd n (fun i => .fin (x i)) (.fin m') (.fin D) = .fin N ∧ 0 < N ∧ ∀ i < n, |dev rd x m' i / N| ≤ 2) := by
      intro x bx
      obtain ⟨m', e1, e2, hm⟩ := meanLoopO_in_range h hΩ herr hu0.le hu hη0.le hηu hηM hM0 (by omega) (by omega) n x bx h1 (by linarith) hnu n 0 0 0 0
        (by omega) (by simpa using hM0) (by simp; positivity) (by simp; positivity)
      have hxm : ∀ i < n, |x i - m'| ≤ 2.03 * M := fun i hi => (abs_sub _ _).trans (by linarith [bx i hi])
      have ho : ∀ i < n, ov rd Ω (.fin (x i - m')) = .fin (rd (x i - m')) := fun i hi => ov_le h hΩ (by linarith [hxm i hi])
      obtain ⟨D, d1, d0, d2, d3⟩ := deltaMaxabsR_fin (rd := rd) n hn1 x m'
      have d4 : deltaMaxabsO (ov rd Ω) n (fun i => .fin (x i)) (.fin m') = .fin D := by
        rw [← d1]
        unfold deltaMaxabsO deltaMaxabsR
        rw [maxabsLoopO_in_range x m' (n - 1) 1 _ (fun i hi hi' => ho i (by omega)), XF.sub_fin, ho 0 (by omega), rnd_fin]
      refine ⟨m', D, e1, e2, ho, d4, d1, ?_⟩
      intro hD
      have hDp : 0 < D := lt_of_le_of_ne d0 (Ne.symm hD)
      have hD2 : D ≤ 2.04 * M := by
        obtain ⟨i, hi, rfl⟩ := d3
        have e := herr (x i - m')
        have e' := mul_le_mul_of_nonneg_left (hxm i hi) hu0.le
        calc |dev rd x m' i| = |(rd (x i - m') - (x i - m')) + (x i - m')| := by rw [dev]; congr 1; ring
          _ ≤ _ := abs_add_le _ _
          _ ≤ _ := by linarith [hxm i hi]
      have hDs : D * Real.sqrt n ≤ 2.04 * M * Real.sqrt n := mul_le_mul_of_nonneg_right hD2 (Real.sqrt_nonneg _)
      have : 0 ≤ M * Real.sqrt n := by positivity
      obtain ⟨N, n1, n2, n3⟩ := deltaNormO_in_range h hΩ hp he n hn x m' D hDp d2 d3 ho (by linarith) (by linarith)
      have hN0 : 0 < N := by linarith
      refine ⟨N, n1, n2, hN0, fun i hi => ?_⟩
      rw [abs_div, abs_of_pos hN0, div_le_iff₀ hN0]
      linarith [d2 i hi]
    obtain ⟨mx, Dx, x1, x2, x3, x4, x5, x6⟩ := one x bx
    obtain ⟨my, Dy, y1, y2, y3, y4, y5, y6⟩ := one y bY
    unfold generalO generalR
    simp only [x1, x2, y1, y2, x4, x5, y4, y5, XF.eq_fin, decide_eq_true_eq]
    by_cases cx : Dx = 0
    · rw [if_pos cx, if_pos cx]
    · rw [if_neg cx, if_neg cx]
      by_cases cy : Dy = 0
      · rw [if_pos cy, if_pos cy]
      · rw [if_neg cy, if_neg cy]
        obtain ⟨Nx, x7, x8, x9, x10⟩ := x6 cx
        obtain ⟨Ny, y7, y8, y9, y10⟩ := y6 cy
        rw [x7, x8, y7, y8]
        exact rLoopO_in_range h hΩ hp he n hn x y mx my Nx Ny x9 y9 x10 y10 x3 y3 h3 n 0 0 (by omega) (by simp)

/-- C90 in double precision: up to a million pairs of magnitude at most `2^1000`. -/
theorem C90_pearson_double (h : Nearest 53 (-1074) rd) (n : ℕ) (hn1 : 1 ≤ n) (hn : n ≤ 1000000)
    (m : Mem (XF ℝ)) (px xs py ys : Int) (x y : Nat → ℝ)
    (hx : ∀ i < n, get m px xs i = .fin (x i)) (hy : ∀ i < n, get m py ys i = .fin (y i))
    (bx : ∀ i < n, |x i| ≤ 2 ^ 1000) (bY : ∀ i < n, |y i| ≤ 2 ^ 1000) :
    pearsonO (ov rd maxDouble) n m px xs py ys = pearsonR rd n m px xs py ys := by
  have hM : ∀ k : ℕ, k ≤ 1023 → (2 : ℝ) ^ k ≤ maxDouble := fun k hk => by
    refine le_trans ?_ maxDouble_ge
    rw [← zpow_natCast]; exact zpow_le_zpow_right₀ (by norm_num) (by exact_mod_cast hk)
  have hn' : (n : ℝ) ≤ 1000000 := by exact_mod_cast hn
  have hs : Real.sqrt n ≤ 1000 := Real.sqrt_le_iff.2 ⟨by norm_num, by norm_num; linarith⟩
  refine C90_pearson h (by norm_num) (by norm_num) isFloat_maxDouble n hn1 (by norm_num; linarith) m px xs py ys x y hx hy (2 ^ 1000) bx bY ?_ ?_ ?_ ?_
  · have e : (2 : ℝ) ^ (-1074 : ℤ) ≤ 2 ^ (-106 : ℤ) := zpow_le_zpow_right₀ (by norm_num) (by norm_num)
    have e2 : (2 : ℝ) ^ (-106 : ℤ) * (2 ^ 53) ^ 2 = 1 := by norm_num
    calc (2 : ℝ) ^ (-1074 : ℤ) * (2 ^ 53) ^ 2 ≤ 2 ^ (-106 : ℤ) * (2 ^ 53) ^ 2 := mul_le_mul_of_nonneg_right e (by positivity)
      _ = 1 := e2
      _ ≤ _ := one_le_pow₀ (by norm_num)
  · refine le_trans (le_of_eq ?_) (hM 1002 (by norm_num))
    rw [show 1002 = 2 + 1000 by norm_num, pow_add]; norm_num
  · refine le_trans ?_ (hM (12 + 1000) (by norm_num))
    rw [pow_add]
    have t : (0 : ℝ) ≤ 2 ^ 1000 := by positivity
    generalize (2 : ℝ) ^ 1000 = t at *
    have := mul_le_mul_of_nonneg_left hs t
    norm_num; linarith
  · refine le_trans ?_ (hM 23 (by norm_num))
    norm_num; linarith

/-- A step of the mean in which every operation is exact. -/
theorem meanLoopO_exact {r : XF ℝ → XF ℝ} (x : Nat → XF ℝ) (fuel k : ℕ) (m v d q t K : ℝ) (hx : x k = .fin v) (hK : (k : ℝ) + 1 = K) (hK0 : K ≠ 0)
    (hd : v - m = d) (hq : d / K = q) (ht : m + q = t)
    (r0 : r (.fin 0) = .fin 0) (rd' : r (.fin d) = .fin d) (rK : r (.fin K) = .fin K) (rq : r (.fin q) = .fin q) (rt : r (.fin t) = .fin t) :
    meanLoopO r x (fuel + 1) k (.fin m) (.fin 0) = meanLoopO r x fuel (k + 1) (.fin t) (.fin 0) := by
  have e : t - m = q := by rw [← ht]; ring
  simp only [meanLoopO, hx, hK, XF.sub_fin, hd, rd', rK, XF.div_fin _ _ hK0, hq, rq, sub_zero, XF.add_fin, ht, rt, e, sub_self, r0]

/-- The data of `C90_pearson_violated`: `-t, 0, t, -t, t`. -/
def wide (t : ℝ) : Nat → XF ℝ
  | 0 => .fin (-t) | 1 => .fin 0 | 2 => .fin t | 3 => .fin (-t) | _ => .fin t

theorem wide_mean (h : Nearest 53 (-1074) rd) (j : ℤ) (h1 : -1072 ≤ j) (h2 : j ≤ 1023) :
    stridedMeanO (ov rd maxDouble) 5 (wide (2 ^ j)) = .fin 0 ∧ deltaMaxabsO (ov rd maxDouble) 5 (wide (2 ^ j)) (.fin 0) = .fin (2 ^ j) ∧
    normLoopO (ov rd maxDouble) (wide (2 ^ j)) (.fin 0) (.fin (2 ^ j)) 5 0 (.fin 0) (.fin 0) = .fin 4 := by
  have hs0 : (0 : ℝ) < 2 ^ (j - 2) := by positivity
  have ht : (2 : ℝ) ^ j = 4 * 2 ^ (j - 2) := by rw [zpow_sub₀ (by norm_num)]; norm_num; ring
  have hmax : (2 : ℝ) ^ (j - 2) * 7 ≤ maxDouble := by
    have e1 : (2 : ℝ) ^ (j - 2) ≤ 2 ^ (1021 : ℤ) := zpow_le_zpow_right₀ (by norm_num) (by omega)
    have e2 : maxDouble = (2 ^ 53 - 1) / 2 ^ 50 * 2 ^ (1021 : ℤ) := by
      rw [maxDouble, show (1021 : ℤ) = 971 + 50 by norm_num, zpow_add₀ (by norm_num)]
      generalize (2 : ℝ) ^ (971 : ℤ) = z
      norm_num; ring
    rw [e2]
    have : (0 : ℝ) < 2 ^ (1021 : ℤ) := by positivity
    calc (2 : ℝ) ^ (j - 2) * 7 ≤ 2 ^ (1021 : ℤ) * 7 := by linarith
      _ ≤ _ := by
        generalize (2 : ℝ) ^ (1021 : ℤ) = z at *
        norm_num; linarith
  have ex : ∀ a : ℤ, |a| ≤ 7 → ov rd maxDouble (.fin ((a : ℝ) * 2 ^ (j - 2))) = .fin ((a : ℝ) * 2 ^ (j - 2)) := by
    intro a ha
    refine ov_exact h ⟨a, j - 2, lt_of_le_of_lt ha (by norm_num), by omega, rfl⟩ ?_
    rw [abs_mul, abs_of_pos hs0]
    have : |(a : ℝ)| ≤ 7 := by exact_mod_cast ha
    calc |(a : ℝ)| * 2 ^ (j - 2) ≤ 7 * 2 ^ (j - 2) := mul_le_mul_of_nonneg_right this hs0.le
      _ ≤ _ := by linarith
  have en : ∀ a : ℤ, |a| ≤ 7 → ov rd maxDouble (.fin (a : ℝ)) = .fin (a : ℝ) := by
    intro a ha
    refine ov_exact h ⟨a, 0, lt_of_le_of_lt ha (by norm_num), by omega, by simp⟩ ?_
    have : |(a : ℝ)| ≤ 7 := by exact_mod_cast ha
    have : (2 : ℝ) ^ 3 ≤ maxDouble := by
      refine le_trans ?_ maxDouble_ge
      rw [← zpow_natCast]; exact zpow_le_zpow_right₀ (by norm_num) (by norm_num)
    linarith
  have ov' : ∀ (a : ℤ) (z : ℝ), |a| ≤ 7 → z = a * 2 ^ (j - 2) → ov rd maxDouble (.fin z) = .fin z := by
    intro a z ha hz; rw [hz]; exact ex a ha
  have on' : ∀ (a : ℤ) (z : ℝ), |a| ≤ 7 → z = a → ov rd maxDouble (.fin z) = .fin z := by
    intro a z ha hz; rw [hz]; exact en a ha
  rw [ht]
  generalize (2 : ℝ) ^ (j - 2) = s at *
  have z : ov rd maxDouble (.fin 0) = .fin 0 := ov_zero h
  have o : ov rd maxDouble (.fin 1) = .fin 1 := ov_one h
  have p4 : ov rd maxDouble (.fin (4 * s)) = .fin (4 * s) := ov' 4 _ (by norm_num) (by norm_num)
  have m4 : ov rd maxDouble (.fin (-(4 * s))) = .fin (-(4 * s)) := ov' (-4) _ (by norm_num) (by push_cast; ring)
  have s4 : 4 * s ≠ 0 := by positivity
  have a4 : |4 * s| = 4 * s := abs_of_pos (by positivity)
  refine ⟨?_, ?_, ?_⟩
  · unfold stridedMeanO
    rw [meanLoopO_exact (wide (4 * s)) 4 0 0 (-(4 * s)) (-(4 * s)) (-(4 * s)) (-(4 * s)) 1 rfl (by norm_num) (by norm_num) (by ring) (by ring) (by ring)
        z m4 o m4 m4,
      meanLoopO_exact (wide (4 * s)) 3 1 (-(4 * s)) 0 (4 * s) (2 * s) (-(2 * s)) 2 rfl (by norm_num) (by norm_num) (by ring) (by ring) (by ring)
        z p4 (on' 2 _ (by norm_num) (by norm_num)) (ov' 2 _ (by norm_num) (by norm_num)) (ov' (-2) _ (by norm_num) (by push_cast; ring)),
      meanLoopO_exact (wide (4 * s)) 2 2 (-(2 * s)) (4 * s) (6 * s) (2 * s) 0 3 rfl (by norm_num) (by norm_num) (by ring) (by ring) (by ring)
        z (ov' 6 _ (by norm_num) (by norm_num)) (on' 3 _ (by norm_num) (by norm_num)) (ov' 2 _ (by norm_num) (by norm_num)) z,
      meanLoopO_exact (wide (4 * s)) 1 3 0 (-(4 * s)) (-(4 * s)) (-s) (-s) 4 rfl (by norm_num) (by norm_num) (by ring) (by ring) (by ring)
        z m4 (on' 4 _ (by norm_num) (by norm_num)) (ov' (-1) _ (by norm_num) (by push_cast; ring)) (ov' (-1) _ (by norm_num) (by push_cast; ring)),
      meanLoopO_exact (wide (4 * s)) 0 4 (-s) (4 * s) (5 * s) s 0 5 rfl (by norm_num) (by norm_num) (by ring) (by ring) (by ring)
        z (ov' 5 _ (by norm_num) (by norm_num)) (on' 5 _ (by norm_num) (by norm_num)) (ov' 1 _ (by norm_num) (by norm_num)) z]
    rfl
  · have g1 : XF.gt (.fin (4 * s)) (.fin (4 * s)) = false := by simp [XF.gt]
    have g2 : XF.gt (.fin 0) (.fin (4 * s)) = false := by simp only [XF.gt_fin, decide_eq_false_iff_not, not_lt]; positivity
    simp only [deltaMaxabsO, maxabsLoopO, wide, XF.sub_fin, sub_zero, p4, m4, z, XF.abs_fin, abs_neg, a4, abs_zero, g1, g2, Bool.false_eq_true, if_false]
  · have d1 : -(4 * s) / (4 * s) = -1 := by rw [neg_div, div_self s4]
    have om : ov rd maxDouble (.fin (-1)) = .fin (-1) := on' (-1) _ (by norm_num) (by norm_num)
    have o2 : ov rd maxDouble (.fin 2) = .fin 2 := on' 2 _ (by norm_num) (by norm_num)
    have o3 : ov rd maxDouble (.fin 3) = .fin 3 := on' 3 _ (by norm_num) (by norm_num)
    have o4 : ov rd maxDouble (.fin 4) = .fin 4 := on' 4 _ (by norm_num) (by norm_num)
    have c1 : (1 : ℝ) + 1 = 2 := by norm_num
    have c2 : (2 : ℝ) + 1 = 3 := by norm_num
    have c3 : (3 : ℝ) + 1 = 4 := by norm_num
    have c4 : (2 : ℝ) - 1 = 1 := by norm_num
    have c5 : (3 : ℝ) - 2 = 1 := by norm_num
    have c7 : (-1 : ℝ) * -1 = 1 := by norm_num
    simp only [normLoopO, wide, XF.sub_fin, sub_zero, p4, m4, z, XF.div_fin _ _ s4, d1, om, XF.mul_fin, c7, mul_one, mul_zero, zero_div, div_self s4, o, XF.add_fin,
      zero_add, add_zero, sub_self, c1, o2, c2, o3, c3, o4, c4, c5]

/-- C90 fails for large data: in double precision, with `t = 2^1023`, the correlation of `[-t, 0, t, -t, t]` with `[-1, 0, 1, -1, 1]` is
computed as 0 though it is 1: the mean and the deviations are exact, but the norm overflows. -/
theorem C90_pearson_violated (h : Nearest 53 (-1074) rd) (m : Mem (XF ℝ)) (px xs py ys : Int)
    (hx : ∀ i < 5, get m px xs i = wide (2 ^ (1023 : ℤ)) i) (hy : ∀ i < 5, get m py ys i = wide (2 ^ (0 : ℤ)) i) :
    pearsonO (ov rd maxDouble) 5 m px xs py ys = .fin 0 ∧ pearson 5 m px xs py ys = .fin 1 := by
  obtain ⟨x1, x2, x3⟩ := wide_mean h 1023 (by norm_num) (by norm_num)
  obtain ⟨y1, y2, y3⟩ := wide_mean h 0 (by norm_num) (by norm_num)
  have sq : xsqrt (.fin 4) = .fin 2 := by
    rw [xsqrt, if_neg (by norm_num), show (4 : ℝ) = 2 ^ 2 by norm_num, Real.sqrt_sq (by norm_num)]
  have f2 : IsFloat 53 (-1074) (2 : ℝ) := by simpa using isFloat_zpow (K := ℝ) (p := 53) (by norm_num) (show (-1074 : ℤ) ≤ 1 by norm_num)
  have e2 : ov rd maxDouble (.fin 2) = .fin 2 := ov_exact h f2 (by
    rw [abs_two]; refine le_trans ?_ maxDouble_ge
    simpa using zpow_le_zpow_right₀ (show (1 : ℝ) ≤ 2 by norm_num) (show (1 : ℤ) ≤ 1023 by norm_num))
  have ht : (0 : ℝ) < 2 ^ (1023 : ℤ) := pos_1023
  have nx : deltaNormO (ov rd maxDouble) 5 (wide (2 ^ (1023 : ℤ))) (.fin 0) (.fin (2 ^ (1023 : ℤ))) = .pinf := by
    rw [deltaNormO, x3, sq, e2, XF.mul_fin]
    refine ov_pos h (k := 1024) (by norm_num) (by norm_num) maxDouble_lt (le_of_eq ?_)
    rw [show (1024 : ℤ) = 1023 + 1 by norm_num, zpow_add_one₀ (by norm_num)]
  have ny : deltaNormO (ov rd maxDouble) 5 (wide (2 ^ (0 : ℤ))) (.fin 0) (.fin (2 ^ (0 : ℤ))) = .fin 2 := by
    rw [deltaNormO, y3, sq, e2, XF.mul_fin, zpow_zero, one_mul, e2]
  have tX : ov rd maxDouble (.fin (2 ^ (1023 : ℤ))) = .fin (2 ^ (1023 : ℤ)) :=
    ov_exact h (isFloat_zpow (by norm_num) (by norm_num)) (by rw [abs_of_pos ht]; exact maxDouble_ge)
  have tX' : ov rd maxDouble (.fin (-2 ^ (1023 : ℤ))) = .fin (-2 ^ (1023 : ℤ)) :=
    ov_exact h (isFloat_zpow (by norm_num) (by norm_num)).neg (by rw [abs_neg, abs_of_pos ht]; exact maxDouble_ge)
  have z : ov rd maxDouble (.fin 0) = .fin 0 := ov_zero h
  have o : ov rd maxDouble (.fin 1) = .fin 1 := ov_one h
  have om : ov rd maxDouble (.fin (-1)) = .fin (-1) := ov_exact h (isFloat_one (by norm_num) (by norm_num)).neg (by
    rw [abs_neg, abs_one]; refine le_trans ?_ maxDouble_ge; exact one_le_zpow₀ (by norm_num) (by norm_num))
  have oh : ov rd maxDouble (.fin (1 / 2)) = .fin (1 / 2) := ov_exact h ⟨1, -1, by norm_num, by norm_num, by norm_num⟩ (by
    rw [abs_of_pos (by norm_num)]; refine le_trans ?_ maxDouble_ge; exact le_trans (by norm_num) (one_le_zpow₀ (by norm_num : (1 : ℝ) ≤ 2) (by norm_num : (0 : ℤ) ≤ 1023)))
  have ohm : ov rd maxDouble (.fin (-1 / 2)) = .fin (-1 / 2) := ov_exact h ⟨-1, -1, by norm_num, by norm_num, by norm_num⟩ (by
    rw [show (-1 / 2 : ℝ) = -(1 / 2) by ring, abs_neg, abs_of_pos (by norm_num)]; refine le_trans ?_ maxDouble_ge
    exact le_trans (by norm_num) (one_le_zpow₀ (by norm_num : (1 : ℝ) ≤ 2) (by norm_num : (0 : ℤ) ≤ 1023)))
  constructor
  · simp only [pearsonO, show ¬ (5 = 1) by norm_num, show ¬ (5 = 2) by norm_num, if_false]
    rw [generalO_congr 5 (by norm_num) _ _ _ _ hx hy]
    unfold generalO
    have n1 : XF.eq (.fin ((2 : ℝ) ^ (1023 : ℤ))) (.fin 0) = false := by simp only [XF.eq_fin, decide_eq_false_iff_not]; exact ht.ne'
    have n2 : XF.eq (.fin ((2 : ℝ) ^ (0 : ℤ))) (.fin 0) = false := by simp
    have di : ∀ a : ℝ, XF.div (.fin a) .pinf = .fin 0 := fun _ => rfl
    simp only [x1, x2, nx, y1, y2, ny, n1, n2, Bool.false_eq_true, if_false]
    simp only [rLoopO, wide, XF.sub_fin, sub_zero, tX, tX', z, di, zpow_zero, o, om, XF.div_fin _ _ (two_ne_zero (α := ℝ)), oh, ohm, XF.mul_fin, zero_mul, XF.add_fin,
      zero_div, add_zero]
  · generalize (2 : ℝ) ^ (1023 : ℤ) = t at *
    set X : Nat → ℝ := fun i => if i = 0 then -t else if i = 1 then 0 else if i = 2 then t else if i = 3 then -t else t with hX
    set Y : Nat → ℝ := fun i => if i = 0 then -1 else if i = 1 then 0 else if i = 2 then 1 else if i = 3 then -1 else 1 with hY
    have mX : ∀ i < 5, get m px xs i = .fin (X i) := by
      intro i hi; rw [hx i hi]; interval_cases i <;> simp [wide, hX]
    have mY : ∀ i < 5, get m py ys i = .fin (Y i) := by
      intro i hi; rw [hy i hi]; interval_cases i <;> simp [wide, hY]
    rw [(C46_value 5 (by norm_num) m px xs py ys X Y mX mY).1 (by
        intro hc; have := hc 1 (by norm_num) 2 (by norm_num); simp [hX] at this; exact ht.ne this) (by
        intro hc; have := hc 1 (by norm_num) 2 (by norm_num); simp [hY] at this)]
    congr 1
    have e1 : mean 5 X = 0 := by simp [mean, Finset.sum_range_succ, hX]
    have e2 : mean 5 Y = 0 := by simp [mean, Finset.sum_range_succ, hY]
    rw [corr, e1, e2]
    simp only [Finset.sum_range_succ, Finset.sum_range_zero, hX, hY]
    norm_num
    have q1 : t ^ 2 + t ^ 2 + t ^ 2 + t ^ 2 = (2 * t) ^ 2 := by ring
    have q2 : Real.sqrt 4 = 2 := by rw [show (4 : ℝ) = 2 ^ 2 by norm_num, Real.sqrt_sq (by norm_num)]
    rw [q1, q2, Real.sqrt_sq (by linarith), div_eq_one_iff_eq (by positivity)]
    ring

example : ∃ rd : ℝ → ℝ, Nearest 53 (-1074) rd ∧
    pearsonO (ov rd maxDouble) 3 (fun i => if i = 0 then .fin (2 ^ 1000) else if i = 1 then .fin 5 else .fin (-1)) 0 1 0 1 =
      pearsonR rd 3 (fun i => if i = 0 then .fin (2 ^ 1000) else if i = 1 then .fin 5 else .fin (-1)) 0 1 0 1 := by
  obtain ⟨rd, h⟩ := exists_nearest (K := ℝ) (p := 53) (by norm_num) (-1074)
  refine ⟨rd, h, ?_⟩
  have l1 : (5 : ℝ) ≤ 2 ^ 1000 := le_trans (by norm_num : (5 : ℝ) ≤ 2 ^ 3) (pow_le_pow_right₀ (by norm_num) (by norm_num))
  have p0 : (0 : ℝ) < 2 ^ 1000 := by positivity
  generalize ht : (2 : ℝ) ^ 1000 = t at *
  have key := C90_pearson_double h 3 (by norm_num) (by norm_num) (fun i => if i = 0 then .fin t else if i = 1 then .fin 5 else .fin (-1)) 0 1 0 1
    (fun i => if i = 0 then t else if i = 1 then 5 else -1) (fun i => if i = 0 then t else if i = 1 then 5 else -1)
    (by intro i hi; interval_cases i <;> simp [get]) (by intro i hi; interval_cases i <;> simp [get])
  rw [ht] at key
  refine key ?_ ?_ <;>
  · intro i hi
    interval_cases i
    · simp [abs_of_pos p0]
    · norm_num; exact l1
    · norm_num; exact le_trans (by norm_num) l1

/-- The data of `C90_pearson_violated` in one array. -/
example : ∃ m : Mem (XF ℝ), (∀ i < 5, get m 0 1 i = wide (2 ^ (1023 : ℤ)) i) ∧ ∀ i < 5, get m 5 1 i = wide (2 ^ (0 : ℤ)) i := by
  refine ⟨fun i => if i < 5 then wide (2 ^ (1023 : ℤ)) i.toNat else wide (2 ^ (0 : ℤ)) (i - 5).toNat, ?_, ?_⟩
  · intro i hi
    have : (i : ℤ) < 5 := by exact_mod_cast hi
    simp [get, this]
  · intro i hi
    simp [get]

end Ufunclab.Corr
