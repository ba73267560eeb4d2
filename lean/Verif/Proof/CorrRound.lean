import Verif.Proof.Corr
import Verif.Proof.MeanvarRound
import Verif.Props.Meanvar
import Verif.Proof.MadRound
import Verif.Proof.FloatRatio
import Mathlib.Analysis.InnerProductSpace.PiL2
/-!
# Auxiliary facts for C81: pearson_corr in floating point
-/
namespace Ufunclab.Corr
open Ufunclab.Float Finset
variable {p : ℕ} {emin : ℤ} {rd : ℝ → ℝ}

theorem rnd_fin (a : ℝ) : rnd rd (.fin a) = .fin (rd a) := rfl

/-- The computed deviations. -/
def dev (rd : ℝ → ℝ) (x : Nat → ℝ) (m : ℝ) (k : Nat) : ℝ := rd (x k - m)

/-- The mean is that of `meanvar`. -/
theorem meanLoopR_fin (hrd : ∀ k : Nat, rd ((k : ℝ) + 1) ≠ 0) (x : Nat → ℝ) : ∀ (fuel k : Nat) (m c s c2 : ℝ),
    meanLoopR rd (fun k => .fin (x k)) fuel k (.fin m) (.fin c) =
      .fin (Meanvar.loop rd k m s c c2 ((List.range' k fuel).map x)).1 := by
  intro fuel
  induction fuel with
  | zero => intros; rfl
  | succ fuel ih =>
    intro k m c s c2
    rw [List.range'_succ, List.map_cons]
    simp only [meanLoopR, Meanvar.loop, XF.sub_fin, rnd_fin, Meanvar.compensatedUpdate]
    rw [XF.div_fin _ _ (hrd k)]
    simp only [XF.sub_fin, rnd_fin, XF.add_fin]
    have e : ((k + 1 : ℕ) : ℝ) = (k : ℝ) + 1 := by push_cast; ring
    rw [e]
    exact ih _ _ _ _ _

theorem maxabsLoopR_fin (x : Nat → ℝ) (m : ℝ) : ∀ (fuel k : Nat) (M : ℝ),
    ∃ D, maxabsLoopR rd (fun k => .fin (x k)) (.fin m) fuel k (.fin M) = .fin D ∧ M ≤ D ∧
      (∀ i, k ≤ i → i < k + fuel → |dev rd x m i| ≤ D) ∧ (D = M ∨ ∃ i, k ≤ i ∧ i < k + fuel ∧ D = |dev rd x m i|) := by
  intro fuel
  induction fuel with
  | zero => intro k M; exact ⟨M, rfl, le_rfl, by intro i h1 h2; omega, Or.inl rfl⟩
  | succ fuel ih =>
    intro k M
    have e : (XF.abs (rnd rd (XF.sub (.fin (x k)) (.fin m)))) = .fin |dev rd x m k| := rfl
    simp only [maxabsLoopR, e]
    by_cases c : M < |dev rd x m k|
    · have hg : XF.gt (.fin |dev rd x m k|) (.fin M) = true := by simp [XF.gt, c]
      simp only [hg, if_true]
      obtain ⟨D, h1, h2, h3, h4⟩ := ih (k + 1) |dev rd x m k|
      refine ⟨D, h1, by linarith, ?_, ?_⟩
      · intro i hi hi'
        rcases eq_or_lt_of_le hi with rfl | hlt
        · exact h2
        · exact h3 i hlt (by omega)
      · rcases h4 with h | ⟨i, h5, h6, h7⟩
        · exact Or.inr ⟨k, le_rfl, by omega, h⟩
        · exact Or.inr ⟨i, by omega, by omega, h7⟩
    · have hg : XF.gt (.fin |dev rd x m k|) (.fin M) = false := by simpa [XF.gt] using c
      simp only [hg, Bool.false_eq_true, if_false]
      obtain ⟨D, h1, h2, h3, h4⟩ := ih (k + 1) M
      refine ⟨D, h1, h2, ?_, ?_⟩
      · intro i hi hi'
        rcases eq_or_lt_of_le hi with rfl | hlt
        · exact (not_lt.1 c).trans h2
        · exact h3 i hlt (by omega)
      · rcases h4 with h | ⟨i, h5, h6, h7⟩
        · exact Or.inl h
        · exact Or.inr ⟨i, by omega, by omega, h7⟩

theorem deltaMaxabsR_fin (n : Nat) (hn : 1 ≤ n) (x : Nat → ℝ) (m : ℝ) :
    ∃ D, deltaMaxabsR rd n (fun k => .fin (x k)) (.fin m) = .fin D ∧ 0 ≤ D ∧ (∀ i < n, |dev rd x m i| ≤ D) ∧ ∃ i < n, D = |dev rd x m i| := by
  obtain ⟨D, h1, h2, h3, h4⟩ := maxabsLoopR_fin (rd := rd) x m (n - 1) 1 |dev rd x m 0|
  refine ⟨D, h1, (abs_nonneg _).trans h2, ?_, ?_⟩
  · intro i hi
    rcases Nat.eq_zero_or_pos i with rfl | hp
    · exact h2
    · exact h3 i hp (by omega)
  · rcases h4 with h | ⟨i, _, h6, h7⟩
    · exact ⟨0, by omega, h⟩
    · exact ⟨i, by omega, h7⟩

/-- The compensated sum of the list. -/
noncomputable def kahan (rd : ℝ → ℝ) : (s c : ℝ) → List ℝ → ℝ
  | s, _, [] => s
  | s, c, q :: qs =>
    let u := Meanvar.compensatedUpdate rd s q c
    kahan rd u.1 u.2 qs

/-- The squared, scaled deviations. -/
noncomputable def zsq (rd : ℝ → ℝ) (x : Nat → ℝ) (m D : ℝ) (k : Nat) : ℝ :=
  rd (rd (dev rd x m k / D) * rd (dev rd x m k / D))

theorem normLoopR_fin (x : Nat → ℝ) (m D : ℝ) (hD : D ≠ 0) : ∀ (fuel k : Nat) (s c : ℝ),
    normLoopR rd (fun k => .fin (x k)) (.fin m) (.fin D) fuel k (.fin s) (.fin c) =
      .fin (kahan rd s c ((List.range' k fuel).map (zsq rd x m D))) := by
  intro fuel
  induction fuel with
  | zero => intros; rfl
  | succ fuel ih =>
    intro k s c
    rw [List.range'_succ, List.map_cons]
    simp only [normLoopR, kahan, XF.sub_fin, rnd_fin, Meanvar.compensatedUpdate]
    rw [XF.div_fin _ _ hD]
    simp only [XF.sub_fin, rnd_fin, XF.add_fin, XF.mul_fin]
    exact ih _ _ _

/-- The compensated sum of non-negative terms. -/
theorem kahan_error {u η : ℝ} (h : ∀ z, |rd z - z| ≤ u * |z| + η) (hu0 : 0 ≤ u) (hu : u ≤ 1 / 1000) (hη : 0 ≤ η) (hηu : η ≤ u * u)
    {Q : ℝ} (hQ : 1 ≤ Q) (q : List ℝ) : ∀ (k : ℕ) (s c T : ℝ), (∀ v ∈ q, 0 ≤ v) → ((k + q.length : ℕ) : ℝ) * u ≤ 1 / 100 →
    0 ≤ T → T + q.sum = Q → |c| ≤ 4 * (u * Q) → |s - c - T| ≤ 2.02 * (u * T) + k * (14.3 * (u * (u * Q))) →
    |kahan rd s c q - Q| ≤ 6.2 * (u * Q) := by
  induction q with
  | nil =>
    intro k s c T _ hk hT hTQ hc hE
    simp only [List.sum_nil, add_zero] at hTQ
    subst hTQ
    simp only [kahan]
    simp only [List.length_nil, Nat.add_zero] at hk
    have h1 : (k * u) * (14.3 * (u * T)) ≤ 1 / 100 * (14.3 * (u * T)) := mul_le_mul_of_nonneg_right hk (by positivity)
    have h2 : (k : ℝ) * (14.3 * (u * (u * T))) = (k * u) * (14.3 * (u * T)) := by ring
    have h3 : |s - T| ≤ |s - c - T| + |c| := by
      calc |s - T| = |(s - c - T) + c| := by congr 1; ring
        _ ≤ _ := abs_add_le _ _
    have h4 : 0 ≤ u * T := by positivity
    norm_num at *
    linarith
  | cons v q ih =>
    intro k s c T hv hk hT hTQ hc hE
    have hv0 := hv v (by simp)
    have hq0 : 0 ≤ q.sum := List.sum_nonneg (fun w hw => hv w (by simp [hw]))
    rw [List.sum_cons] at hTQ
    have hvQ : v ≤ Q := by linarith
    have hTQ' : T ≤ Q := by linarith
    have hQ0 : 0 ≤ Q := by linarith
    have huQ : 0 ≤ u * Q := by positivity
    have huuQ : 0 ≤ u * (u * Q) := by positivity
    have huu : u * (u * Q) ≤ 1 / 1000 * (u * Q) := mul_le_mul_of_nonneg_right hu huQ
    have huQ1 : u * Q ≤ 1 / 1000 * Q := mul_le_mul_of_nonneg_right hu hQ0
    have hηQ : η ≤ u * (u * Q) := by
      have : u * u * 1 ≤ u * u * Q := mul_le_mul_of_nonneg_left hQ (by positivity)
      linarith
    have hk0 : (k : ℝ) * u ≤ 1 / 100 := by
      have : ((k : ℕ) : ℝ) ≤ ((k + (v :: q).length : ℕ) : ℝ) := by exact_mod_cast Nat.le_add_right _ _
      have := mul_le_mul_of_nonneg_right this hu0
      linarith
    have hkk : (k : ℝ) * (14.3 * (u * (u * Q))) ≤ 0.143 * (u * Q) := by
      have h1 : (k * u) * (14.3 * (u * Q)) ≤ 1 / 100 * (14.3 * (u * Q)) := mul_le_mul_of_nonneg_right hk0 (by positivity)
      calc (k : ℝ) * (14.3 * (u * (u * Q))) = (k * u) * (14.3 * (u * Q)) := by ring
        _ ≤ _ := h1
        _ = _ := by ring
    have huT : u * T ≤ u * Q := mul_le_mul_of_nonneg_left hTQ' hu0
    have hs : |s| ≤ 1.02 * Q := by
      have : |s| ≤ |s - c - T| + |c| + T := by
        calc |s| = |(s - c - T) + c + T| := by congr 1; ring
          _ ≤ |(s - c - T) + c| + |T| := abs_add_le _ _
          _ ≤ |s - c - T| + |c| + |T| := by linarith [abs_add_le (s - c - T) c]
          _ = _ := by rw [abs_of_nonneg hT]
      norm_num at *
      linarith
    have hvu : |v| ≤ v := (abs_of_nonneg hv0).le
    obtain ⟨a1, a2⟩ := Meanvar.update_error h hu0 hu hη hs hvu hc
    simp only [kahan]
    refine ih (k + 1) _ _ (T + v) (fun w hw => hv w (by simp [hw])) ?_ (by linarith) (by linarith) ?_ ?_
    · rw [List.length_cons] at hk; rw [show k + 1 + q.length = k + (q.length + 1) by omega]; exact hk
    · refine a2.trans ?_
      have h1 : u * v ≤ u * Q := mul_le_mul_of_nonneg_left hvQ hu0
      have e1 : u * (v + 4 * (u * Q)) = u * v + 4 * (u * (u * Q)) := by ring
      have e2 : u * (1.02 * Q) = 1.02 * (u * Q) := by ring
      rw [e1, e2]
      norm_num at *
      linarith
    · have e1 : u * (v + 4 * (u * Q)) = u * v + 4 * (u * (u * Q)) := by ring
      have e2 : u * (u * (1.02 * Q)) = 1.02 * (u * (u * Q)) := by ring
      rw [e1, e2] at a1
      set w := Meanvar.compensatedUpdate rd s v c
      have : |w.1 - w.2 - (T + v)| ≤ |w.1 - w.2 - (s - c + v)| + |s - c - T| := by
        calc |w.1 - w.2 - (T + v)| = |(w.1 - w.2 - (s - c + v)) + (s - c - T)| := by congr 1; ring
          _ ≤ _ := abs_add_le _ _
      refine this.trans ?_
      push_cast
      rw [mul_add, add_mul, one_mul]
      norm_num at *
      linarith

/-- One squared, scaled deviation. -/
theorem sq_error {u η : ℝ} (h : ∀ z, |rd z - z| ≤ u * |z| + η) (hu0 : 0 ≤ u) (hu : u ≤ 1 / 1000) (hη : 0 ≤ η) (hηu : η ≤ u * u)
    {w : ℝ} (hw : |w| ≤ 1) : |rd (rd w * rd w) - w ^ 2| ≤ 3.01 * (u * w ^ 2) + 3.1 * η := by
  set a := |w| with ha
  have ha0 : 0 ≤ a := abs_nonneg w
  have hw2 : w ^ 2 = a ^ 2 := (sq_abs w).symm
  have h1 := h w
  rw [← ha] at h1
  have hη1 : η ≤ 1 / 1000 * (1 / 1000) := hηu.trans (mul_le_mul hu hu hu0 (by norm_num))
  have hua : u * a ≤ 1 / 1000 * a := mul_le_mul_of_nonneg_right hu ha0
  have h2 : |rd w + w| ≤ 2.001 * a + η := by
    calc |rd w + w| = |(rd w - w) + 2 * w| := by congr 1; ring
      _ ≤ |rd w - w| + |2 * w| := abs_add_le _ _
      _ = |rd w - w| + 2 * a := by rw [abs_mul, abs_two]
      _ ≤ _ := by norm_num at *; linarith
  have h3 : |rd w * rd w - w ^ 2| ≤ 2.001 * (u * a ^ 2) + 2.01 * η := by
    have e : rd w * rd w - w ^ 2 = (rd w - w) * (rd w + w) := by ring
    rw [e, abs_mul]
    calc |rd w - w| * |rd w + w| ≤ (u * a + η) * (2.001 * a + η) := mul_le_mul h1 h2 (abs_nonneg _) (by positivity)
      _ = 2.001 * (u * a ^ 2) + (u * a) * η + 2.001 * a * η + η * η := by ring
      _ ≤ 2.001 * (u * a ^ 2) + 1 / 1000 * η + 2.001 * 1 * η + 1 / 1000 * (1 / 1000) * η := by
        have k1 : (u * a) * η ≤ 1 / 1000 * η := mul_le_mul_of_nonneg_right (by nlinarith) hη
        have k2 : 2.001 * a * η ≤ 2.001 * 1 * η := mul_le_mul_of_nonneg_right (by linarith) hη
        have k3 : η * η ≤ 1 / 1000 * (1 / 1000) * η := mul_le_mul_of_nonneg_right hη1 hη
        linarith
      _ ≤ _ := by norm_num; linarith
  have h4 := h (rd w * rd w)
  rw [abs_of_nonneg (mul_self_nonneg (rd w))] at h4
  have hb : rd w * rd w ≤ a ^ 2 + (2.001 * (u * a ^ 2) + 2.01 * η) := by
    have := (abs_le.1 h3).2; rw [hw2] at this; linarith
  have hua2 : 0 ≤ u * a ^ 2 := by positivity
  have k4 : u * (u * a ^ 2) ≤ 1 / 1000 * (u * a ^ 2) := mul_le_mul_of_nonneg_right hu hua2
  have k5 : u * η ≤ 1 / 1000 * η := mul_le_mul_of_nonneg_right hu hη
  have h5 := mul_le_mul_of_nonneg_left hb hu0
  have e5 : u * (a ^ 2 + (2.001 * (u * a ^ 2) + 2.01 * η)) = u * a ^ 2 + 2.001 * (u * (u * a ^ 2)) + 2.01 * (u * η) := by ring
  rw [e5] at h5
  calc |rd (rd w * rd w) - w ^ 2| = |(rd (rd w * rd w) - rd w * rd w) + (rd w * rd w - w ^ 2)| := by congr 1; ring
    _ ≤ _ := abs_add_le _ _
    _ ≤ (u * (rd w * rd w) + η) + (2.001 * (u * a ^ 2) + 2.01 * η) := add_le_add h4 h3
    _ ≤ _ := by rw [hw2]; norm_num at *; linarith

theorem sum_map_close (l : List ℕ) (f g : ℕ → ℝ) (a b : ℝ) (h : ∀ k ∈ l, |f k - g k| ≤ a * g k + b) :
    |(l.map f).sum - (l.map g).sum| ≤ a * (l.map g).sum + l.length * b := by
  induction l with
  | nil => simp
  | cons k l ih =>
    have hk := h k (by simp)
    have := ih (fun v hv => h v (by simp [hv]))
    simp only [List.map_cons, List.sum_cons, List.length_cons]
    calc |f k + (l.map f).sum - (g k + (l.map g).sum)| = |(f k - g k) + ((l.map f).sum - (l.map g).sum)| := by congr 1; ring
      _ ≤ _ := abs_add_le _ _
      _ ≤ _ := add_le_add hk this
      _ = _ := by push_cast; ring

theorem sum_range' (n : ℕ) (f : ℕ → ℝ) : ((List.range' 0 n).map f).sum = ∑ i ∈ range n, f i := by
  rw [← List.range_eq_range']
  induction n with
  | zero => simp
  | succ n ih => rw [List.range_succ, List.map_append, List.sum_append, ih, sum_range_succ]; simp

/-- The computed norm of the deviations `d k`. -/
theorem deltaNormR_error (h : Nearest p emin rd) (hp : 10 ≤ p) (he : emin ≤ -2 * p) (n : ℕ) (hn : 100 * (n : ℝ) ≤ 2 ^ p) (x : Nat → ℝ) (m D : ℝ)
    (hD0 : 2 ^ emin * 2 ^ p ≤ D) (hD : ∀ i < n, |dev rd x m i| ≤ D) (hDi : ∃ i < n, D = |dev rd x m i|) :
    ∃ N, deltaNormR rd n (fun k => .fin (x k)) (.fin m) (.fin D) = .fin N ∧
      |N - Real.sqrt (∑ i ∈ range n, dev rd x m i ^ 2)| ≤ 7.2 * ((2 ^ p)⁻¹ * Real.sqrt (∑ i ∈ range n, dev rd x m i ^ 2)) ∧
      D ≤ Real.sqrt (∑ i ∈ range n, dev rd x m i ^ 2) := by
  have hu0 : (0 : ℝ) < (2 ^ p)⁻¹ := by positivity
  have hu := Mad.unit_le_thousandth (K := ℝ) hp
  have hη0 : (0 : ℝ) < 2 ^ emin / 2 := by positivity
  have hηu : (2 : ℝ) ^ emin / 2 ≤ (2 ^ p)⁻¹ * (2 ^ p)⁻¹ := by
    have := eta_le (emin := emin) he; linarith
  have hnu : (n : ℝ) * (2 ^ p)⁻¹ ≤ 1 / 100 := by
    rw [← div_eq_mul_inv, div_le_iff₀ (by positivity)]; linarith
  have herr := fun z => h.error (by omega) z
  have hDη : (2 : ℝ) ^ emin / 2 ≤ (2 ^ p)⁻¹ * D / 2 := by
    have : (2 ^ p)⁻¹ * ((2 : ℝ) ^ emin * 2 ^ p) ≤ (2 ^ p)⁻¹ * D := mul_le_mul_of_nonneg_left hD0 hu0.le
    have e : (2 ^ p)⁻¹ * ((2 : ℝ) ^ emin * 2 ^ p) = 2 ^ emin := by field_simp
    rw [e] at this; linarith
  have hDp : 0 < D := lt_of_lt_of_le (by positivity) hD0
  have f1 : IsFloat p emin (1 : ℝ) := isFloat_one (by omega) (by omega)
  have fm1 := f1.neg
  set W := ∑ i ∈ range n, (dev rd x m i / D) ^ 2 with hW
  have hsum : ∑ i ∈ range n, dev rd x m i ^ 2 = D ^ 2 * W := by
    rw [hW, mul_sum]; apply sum_congr rfl; intro i _; field_simp
  have hν : Real.sqrt (∑ i ∈ range n, dev rd x m i ^ 2) = D * Real.sqrt W := by
    rw [hsum, Real.sqrt_mul (by positivity), Real.sqrt_sq hDp.le]
  obtain ⟨j, hj, hDj⟩ := hDi
  have hW1 : 1 ≤ W := by
    have h1 : (dev rd x m j / D) ^ 2 = 1 := by
      rw [div_pow, ← sq_abs, ← hDj, div_self (by positivity)]
    rw [← h1]
    exact single_le_sum (f := fun i => (dev rd x m i / D) ^ 2) (fun i _ => sq_nonneg _) (mem_range.2 hj)
  have hw : ∀ i < n, |dev rd x m i / D| ≤ 1 := by
    intro i hi; rw [abs_div, abs_of_pos hDp, div_le_one hDp]; exact hD i hi
  have hz0 : ∀ i, 0 ≤ zsq rd x m D i := fun i => h.mono_float isFloat_zero (mul_self_nonneg _)
  set Q := ((List.range' 0 n).map (zsq rd x m D)).sum with hQ
  have hQW : |Q - W| ≤ 3.05 * ((2 ^ p)⁻¹ * W) := by
    have := sum_map_close (List.range' 0 n) (zsq rd x m D) (fun i => (dev rd x m i / D) ^ 2) (3.01 * (2 ^ p)⁻¹) (3.1 * (2 ^ emin / 2)) (by
      intro k hk
      have hk' : k < n := by simpa using hk
      refine (sq_error herr hu0.le hu hη0.le hηu (hw k hk')).trans (le_of_eq (by ring)))
    rw [sum_range' n (fun i => (dev rd x m i / D) ^ 2), ← hQ, ← hW, List.length_range'] at this
    refine this.trans ?_
    have k1 : (n : ℝ) * (2 ^ emin / 2) ≤ 1 / 100 * (2 ^ p)⁻¹ := by
      calc (n : ℝ) * (2 ^ emin / 2) ≤ n * ((2 ^ p)⁻¹ * (2 ^ p)⁻¹) := mul_le_mul_of_nonneg_left hηu (Nat.cast_nonneg n)
        _ = (n * (2 ^ p)⁻¹) * (2 ^ p)⁻¹ := by ring
        _ ≤ _ := mul_le_mul_of_nonneg_right hnu hu0.le
    have k2 : (2 ^ p)⁻¹ * 1 ≤ (2 ^ p)⁻¹ * W := mul_le_mul_of_nonneg_left hW1 hu0.le
    have e1 : (n : ℝ) * (3.1 * (2 ^ emin / 2)) = 3.1 * (n * (2 ^ emin / 2)) := by ring
    have e2 : 3.01 * (2 ^ p)⁻¹ * W = 3.01 * ((2 ^ p)⁻¹ * W) := by ring
    rw [e1, e2]
    generalize ((2 : ℝ) ^ p)⁻¹ * W = a at *
    generalize (n : ℝ) * (2 ^ emin / 2) = b at *
    norm_num; linarith
  have hQ1 : 1 ≤ Q := by
    have hzj : zsq rd x m D j = 1 := by
      have hr : rd (dev rd x m j / D) * rd (dev rd x m j / D) = 1 := by
        rcases le_total 0 (dev rd x m j) with c | c
        · rw [abs_of_nonneg c] at hDj
          rw [← hDj, div_self hDp.ne', h.exact f1]; norm_num
        · rw [abs_of_nonpos c] at hDj
          have : dev rd x m j / D = -1 := by rw [div_eq_iff hDp.ne']; linarith
          rw [this, h.exact fm1]; norm_num
      rw [zsq, hr, h.exact f1]
    rw [← hzj, hQ]
    exact List.single_le_sum (by intro y hy; obtain ⟨w, _, rfl⟩ := List.mem_map.1 hy; exact hz0 w) _
      (List.mem_map_of_mem (by simpa using hj))
  have hS := kahan_error herr hu0.le hu hη0.le hηu hQ1 ((List.range' 0 n).map (zsq rd x m D)) 0 0 0 0
    (by intro y hy; obtain ⟨w, _, rfl⟩ := List.mem_map.1 hy; exact hz0 w) (by simpa using hnu) le_rfl (by rw [zero_add]) (by simp; positivity)
    (by simp)
  refine ⟨rd (D * rd (Real.sqrt (kahan rd 0 0 ((List.range' 0 n).map (zsq rd x m D))))), ?_, ?_, ?_⟩
  · unfold deltaNormR
    rw [normLoopR_fin x m D hDp.ne']
    have hS0 : 0 ≤ kahan rd 0 0 ((List.range' 0 n).map (zsq rd x m D)) := by
      have := (abs_le.1 hS).1
      have k : (2 ^ p)⁻¹ * Q ≤ 1 / 1000 * Q := mul_le_mul_of_nonneg_right hu (by linarith)
      generalize ((2 : ℝ) ^ p)⁻¹ * Q = a at *
      norm_num at *; linarith
    rw [xsqrt, if_neg (not_lt.2 hS0)]
    rfl
  · rw [hν]
    generalize kahan rd 0 0 ((List.range' 0 n).map (zsq rd x m D)) = S at *
    generalize (2 : ℝ) ^ emin / 2 = η at *
    clear hn
    generalize ((2 : ℝ) ^ p)⁻¹ = u at *
    clear_value Q W
    have hW0 : 0 < W := by linarith
    have hSW : |S - W| ≤ 9.3 * (u * W) := by
      have k1 := (abs_le.1 hQW).2
      have k2 : u * (u * W) ≤ 1 / 1000 * (u * W) := mul_le_mul_of_nonneg_right hu (by positivity)
      have k3 : u * Q ≤ u * (W + 3.05 * (u * W)) := mul_le_mul_of_nonneg_left (by linarith) hu0.le
      have k4 : 0 ≤ u * W := by positivity
      calc |S - W| = |(S - Q) + (Q - W)| := by congr 1; ring
        _ ≤ _ := abs_add_le _ _
        _ ≤ _ := by norm_num at *; linarith
    set sW := Real.sqrt W with hsW
    have hsW1 : 1 ≤ sW := by rw [hsW, Real.one_le_sqrt]; exact hW1
    have hWW : sW * sW = W := Real.mul_self_sqrt hW0.le
    have huW : u * W ≤ 1 / 1000 * W := mul_le_mul_of_nonneg_right hu hW0.le
    have hSlo : 0.99 ^ 2 * W ≤ S := by
      have := (abs_le.1 hSW).1
      norm_num at *; linarith
    have hS0 : 0 ≤ S := le_trans (by positivity) hSlo
    have hsS : 0.99 * sW ≤ Real.sqrt S := by
      calc 0.99 * sW = Real.sqrt (0.99 ^ 2 * W) := by rw [Real.sqrt_mul (by norm_num), Real.sqrt_sq (by norm_num)]
        _ ≤ _ := Real.sqrt_le_sqrt hSlo
    have hSS : Real.sqrt S * Real.sqrt S = S := Real.mul_self_sqrt hS0
    have hs1 : |Real.sqrt S - sW| ≤ 4.68 * (u * sW) := by
      have e : (Real.sqrt S - sW) * (Real.sqrt S + sW) = S - W := by linear_combination hSS - hWW
      have hpos : 0 < Real.sqrt S + sW := by linarith [Real.sqrt_nonneg S]
      have e2 : |Real.sqrt S - sW| * (Real.sqrt S + sW) = |S - W| := by rw [← e, abs_mul, abs_of_pos hpos]
      have e3 : |Real.sqrt S - sW| * (1.99 * sW) ≤ 9.3 * (u * W) := by
        calc _ ≤ |Real.sqrt S - sW| * (Real.sqrt S + sW) := mul_le_mul_of_nonneg_left (by norm_num at *; linarith) (abs_nonneg _)
          _ ≤ _ := by rw [e2]; exact hSW
      rw [← hWW] at e3
      have e4 : (1.99 * |Real.sqrt S - sW|) * sW ≤ (9.3 * (u * sW)) * sW := by
        calc _ = |Real.sqrt S - sW| * (1.99 * sW) := by ring
          _ ≤ _ := e3
          _ = _ := by ring
      have e5 := le_of_mul_le_mul_right e4 (by linarith)
      have : 0 ≤ u * sW := by positivity
      norm_num at *; linarith
    have hus : u * sW ≤ 1 / 1000 * sW := mul_le_mul_of_nonneg_right hu (by linarith)
    have hus0 : u ≤ u * sW := le_mul_of_one_le_right hu0.le hsW1
    have hs2 : |rd (Real.sqrt S) - sW| ≤ 5.69 * (u * sW) := by
      have k1 := herr (Real.sqrt S)
      rw [abs_of_nonneg (Real.sqrt_nonneg S)] at k1
      have k2 : u * Real.sqrt S ≤ u * (sW + 4.68 * (u * sW)) := mul_le_mul_of_nonneg_left (by linarith [(abs_le.1 hs1).2]) hu0.le
      have k3 : u * (u * sW) ≤ 1 / 1000 * (u * sW) := mul_le_mul_of_nonneg_right hu (by positivity)
      have k4 : u * u ≤ 1 / 1000 * u := mul_le_mul_of_nonneg_right hu hu0.le
      calc |rd (Real.sqrt S) - sW| = |(rd (Real.sqrt S) - Real.sqrt S) + (Real.sqrt S - sW)| := by congr 1; ring
        _ ≤ _ := abs_add_le _ _
        _ ≤ _ := by norm_num at *; linarith
    generalize rd (Real.sqrt S) = q at *
    have k1 := herr (D * q)
    have hq0 : 0 ≤ q := by
      have := (abs_le.1 hs2).1
      norm_num at *; linarith
    rw [abs_of_nonneg (mul_nonneg hDp.le hq0)] at k1
    have k2 : D * q ≤ D * (sW + 5.69 * (u * sW)) := mul_le_mul_of_nonneg_left (by linarith [(abs_le.1 hs2).2]) hDp.le
    have k3 := mul_le_mul_of_nonneg_left k2 hu0.le
    have k5 : |D * q - D * sW| ≤ 5.69 * (u * (D * sW)) := by
      rw [← mul_sub, abs_mul, abs_of_pos hDp]
      calc D * |q - sW| ≤ D * (5.69 * (u * sW)) := mul_le_mul_of_nonneg_left hs2 hDp.le
        _ = _ := by ring
    have k6 : u * (u * (D * sW)) ≤ 1 / 1000 * (u * (D * sW)) := mul_le_mul_of_nonneg_right hu (by positivity)
    have k7 : u * D ≤ u * (D * sW) := mul_le_mul_of_nonneg_left (le_mul_of_one_le_right hDp.le hsW1) hu0.le
    have e3 : u * (D * (sW + 5.69 * (u * sW))) = u * (D * sW) + 5.69 * (u * (u * (D * sW))) := by ring
    rw [e3] at k3
    have k8 : 0 ≤ u * (D * sW) := by positivity
    calc |rd (D * q) - D * sW| = |(rd (D * q) - D * q) + (D * q - D * sW)| := by congr 1; ring
      _ ≤ _ := abs_add_le _ _
      _ ≤ _ := by norm_num at *; linarith
  · rw [hν]
    exact le_mul_of_one_le_right hDp.le (by rw [Real.one_le_sqrt]; exact hW1)

/-- Plain rounded summation. -/
noncomputable def rsum (rd : ℝ → ℝ) : ℝ → List ℝ → ℝ
  | r, [] => r
  | r, t :: l => rsum rd (rd (r + t)) l

theorem rsum_error (h : Nearest p emin rd) (hp : 1 ≤ p) (l : List ℝ) : ∀ r : ℝ, IsFloat p emin r → (∀ v ∈ l, IsFloat p emin v) →
    |rsum rd r l - (r + l.sum)| ≤ ((1 + (2 ^ p)⁻¹) ^ l.length - 1) * (|r| + (l.map abs).sum) := by
  induction l with
  | nil => intro r _ _; simp [rsum]
  | cons t l ih =>
    intro r hr hl
    have e1 := h.rel_error hp (hr.grid.add (hl t (by simp)).grid)
    have e2 := ih (rd (r + t)) (h _).1 (fun v hv => hl v (by simp [hv]))
    have hu0 : (0 : ℝ) ≤ (2 ^ p)⁻¹ := by positivity
    simp only [rsum, List.sum_cons, List.map_cons, List.length_cons]
    generalize ((2 : ℝ) ^ p)⁻¹ = u at *
    have hP : 1 ≤ (1 + u) ^ l.length := one_le_pow₀ (by linarith)
    have ha : |r + t| ≤ |r| + |t| := abs_add_le _ _
    have hs : 0 ≤ (l.map abs).sum := List.sum_nonneg (by intro v hv; obtain ⟨w, _, rfl⟩ := List.mem_map.1 hv; exact abs_nonneg w)
    have hb : |rd (r + t)| ≤ (1 + u) * (|r| + |t|) := by
      calc |rd (r + t)| = |(rd (r + t) - (r + t)) + (r + t)| := by congr 1; ring
        _ ≤ _ := abs_add_le _ _
        _ ≤ u * |r + t| + |r + t| := by linarith
        _ = (1 + u) * |r + t| := by ring
        _ ≤ _ := mul_le_mul_of_nonneg_left ha (by linarith)
    have e3 : ((1 + u) ^ l.length - 1) * (|rd (r + t)| + (l.map abs).sum) ≤
        ((1 + u) ^ l.length - 1) * ((1 + u) * (|r| + |t|) + (l.map abs).sum) :=
      mul_le_mul_of_nonneg_left (by linarith) (by linarith)
    have e4 : u * |r + t| ≤ u * (|r| + |t|) := mul_le_mul_of_nonneg_left ha hu0
    have e5 : 0 ≤ ((1 + u) ^ l.length * u) * (l.map abs).sum := by positivity
    calc |rsum rd (rd (r + t)) l - (r + (t + l.sum))|
        = |(rsum rd (rd (r + t)) l - (rd (r + t) + l.sum)) + (rd (r + t) - (r + t))| := by congr 1; ring
      _ ≤ _ := abs_add_le _ _
      _ ≤ ((1 + u) ^ l.length - 1) * ((1 + u) * (|r| + |t|) + (l.map abs).sum) + u * (|r| + |t|) := by linarith
      _ = ((1 + u) ^ (l.length + 1) - 1) * (|r| + (|t| + (l.map abs).sum)) - ((1 + u) ^ l.length * u) * (l.map abs).sum := by
        rw [pow_succ]; ring
      _ ≤ _ := by linarith

theorem rLoopR_fin (x y : Nat → ℝ) (mx Nx my Ny : ℝ) (hx : Nx ≠ 0) (hy : Ny ≠ 0) : ∀ (fuel k : Nat) (r : ℝ),
    rLoopR rd (fun k => .fin (x k)) (fun k => .fin (y k)) (.fin mx) (.fin Nx) (.fin my) (.fin Ny) fuel k (.fin r) =
      .fin (rsum rd r ((List.range' k fuel).map fun k => rd (rd (dev rd x mx k / Nx) * rd (dev rd y my k / Ny)))) := by
  intro fuel
  induction fuel with
  | zero => intros; rfl
  | succ fuel ih =>
    intro k r
    rw [List.range'_succ, List.map_cons]
    simp only [rLoopR, rsum, XF.sub_fin, rnd_fin]
    rw [XF.div_fin _ _ hx, XF.div_fin _ _ hy]
    simp only [rnd_fin, XF.add_fin, XF.mul_fin]
    exact ih _ _

/-- One scaled deviation. -/
theorem scaled_error {u η : ℝ} (h : ∀ z, |rd z - z| ≤ u * |z| + η) (hu0 : 0 ≤ u) (hu : u ≤ 1 / 1000)
    {d N ν : ℝ} (hν : 0 < ν) (hN : |N - ν| ≤ 7.2 * (u * ν)) : N ≠ 0 ∧ |rd (d / N) - d / ν| ≤ 8.3 * (u * |d / ν|) + η := by
  have hb := abs_le.1 hN
  have huν : u * ν ≤ 1 / 1000 * ν := mul_le_mul_of_nonneg_right hu hν.le
  have hN0 : 0.99 * ν ≤ N := by norm_num at *; linarith
  have hNp : 0 < N := lt_of_lt_of_le (by positivity) hN0
  refine ⟨hNp.ne', ?_⟩
  set α := d / ν with hα
  have hd : d = α * ν := by rw [hα, div_mul_cancel₀ _ hν.ne']
  have hα0 : 0 ≤ |α| := abs_nonneg α
  clear_value α
  have e1 : |d / N - α| ≤ 7.28 * (u * |α|) := by
    have : d / N - α = α * ((ν - N) / N) := by rw [hd]; field_simp
    rw [this, abs_mul, abs_div, abs_of_pos hNp, abs_sub_comm]
    have k : |N - ν| / N ≤ 7.28 * u := by
      rw [div_le_iff₀ hNp]
      refine hN.trans ?_
      have : 7.28 * u * (0.99 * ν) ≤ 7.28 * u * N := mul_le_mul_of_nonneg_left hN0 (by positivity)
      have h0 : 0 ≤ u * ν := by positivity
      norm_num at *; linarith
    calc |α| * (|N - ν| / N) ≤ |α| * (7.28 * u) := mul_le_mul_of_nonneg_left k hα0
      _ = _ := by ring
  have e2 := h (d / N)
  have huα : 0 ≤ u * |α| := by positivity
  have e3 : |d / N| ≤ |α| + 7.28 * (u * |α|) := by
    calc |d / N| = |(d / N - α) + α| := by congr 1; ring
      _ ≤ _ := abs_add_le _ _
      _ ≤ _ := by linarith
  have e4 := mul_le_mul_of_nonneg_left e3 hu0
  have e5 : u * (u * |α|) ≤ 1 / 1000 * (u * |α|) := mul_le_mul_of_nonneg_right hu huα
  rw [mul_add] at e4
  have e6 : u * (7.28 * (u * |α|)) = 7.28 * (u * (u * |α|)) := by ring
  rw [e6] at e4
  calc |rd (d / N) - α| = |(rd (d / N) - d / N) + (d / N - α)| := by congr 1; ring
    _ ≤ _ := abs_add_le _ _
    _ ≤ _ := by norm_num at *; linarith

/-- One product. -/
theorem product_error {u η : ℝ} (h : ∀ z, |rd z - z| ≤ u * |z| + η) (hu0 : 0 ≤ u) (hu : u ≤ 1 / 1000) (hη : 0 ≤ η) (hηu : η ≤ u * u)
    {a b α β : ℝ} (hα : |α| ≤ 1) (hβ : |β| ≤ 1) (ha : |a - α| ≤ 8.3 * (u * |α|) + η) (hb : |b - β| ≤ 8.3 * (u * |β|) + η) :
    |rd (a * b) - α * β| ≤ 17.8 * (u * (|α| * |β|)) + 3.3 * η := by
  have hα0 := abs_nonneg α
  have hβ0 := abs_nonneg β
  have hη1 : η ≤ 1 / 1000 * (1 / 1000) := hηu.trans (mul_le_mul hu hu hu0 (by norm_num))
  have hγ : 0 ≤ u * (|α| * |β|) := by positivity
  have k3 : u * (u * (|α| * |β|)) ≤ 1 / 1000 * (u * (|α| * |β|)) := mul_le_mul_of_nonneg_right hu hγ
  have huα : u * |α| ≤ 1 / 1000 * 1 := mul_le_mul hu hα hα0 (by norm_num)
  have huβ : u * |β| ≤ 1 / 1000 * 1 := mul_le_mul hu hβ hβ0 (by norm_num)
  have e1 : |a * b - α * β| ≤ 16.67 * (u * (|α| * |β|)) + 2.1 * η := by
    have e : a * b - α * β = (a - α) * (b - β) + (a - α) * β + α * (b - β) := by ring
    rw [e]
    have t1 : |(a - α) * (b - β)| ≤ (8.3 * (u * |α|) + η) * (8.3 * (u * |β|) + η) := by
      rw [abs_mul]; exact mul_le_mul ha hb (abs_nonneg _) (by positivity)
    have t2 : |(a - α) * β| ≤ (8.3 * (u * |α|) + η) * |β| := by
      rw [abs_mul]; exact mul_le_mul_of_nonneg_right ha hβ0
    have t3 : |α * (b - β)| ≤ |α| * (8.3 * (u * |β|) + η) := by
      rw [abs_mul]; exact mul_le_mul_of_nonneg_left hb hα0
    have q1 : (8.3 * (u * |α|)) * η ≤ 0.0083 * η := mul_le_mul_of_nonneg_right (by norm_num at *; linarith) hη
    have q2 : (8.3 * (u * |β|)) * η ≤ 0.0083 * η := mul_le_mul_of_nonneg_right (by norm_num at *; linarith) hη
    have q3 : η * η ≤ 0.001 * η := mul_le_mul_of_nonneg_right (by norm_num at *; linarith) hη
    have q4 : η * |β| ≤ η * 1 := mul_le_mul_of_nonneg_left hβ hη
    have q5 : |α| * η ≤ 1 * η := mul_le_mul_of_nonneg_right hα hη
    have s1 : (8.3 * (u * |α|) + η) * (8.3 * (u * |β|) + η) =
        68.89 * (u * (u * (|α| * |β|))) + (8.3 * (u * |α|)) * η + (8.3 * (u * |β|)) * η + η * η := by ring
    have s2 : (8.3 * (u * |α|) + η) * |β| = 8.3 * (u * (|α| * |β|)) + η * |β| := by ring
    have s3 : |α| * (8.3 * (u * |β|) + η) = 8.3 * (u * (|α| * |β|)) + |α| * η := by ring
    rw [s1] at t1; rw [s2] at t2; rw [s3] at t3
    calc |(a - α) * (b - β) + (a - α) * β + α * (b - β)| ≤ |(a - α) * (b - β)| + |(a - α) * β| + |α * (b - β)| :=
          (abs_add_le _ _).trans (add_le_add_left (abs_add_le _ _) _)
      _ ≤ _ := by norm_num at *; linarith
  have e2 := h (a * b)
  have e3 : |a * b| ≤ |α| * |β| + (16.67 * (u * (|α| * |β|)) + 2.1 * η) := by
    calc |a * b| = |(a * b - α * β) + α * β| := by congr 1; ring
      _ ≤ _ := abs_add_le _ _
      _ ≤ _ := by rw [abs_mul α β]; linarith
  have e4 := mul_le_mul_of_nonneg_left e3 hu0
  have e5 : u * (|α| * |β| + (16.67 * (u * (|α| * |β|)) + 2.1 * η)) = u * (|α| * |β|) + 16.67 * (u * (u * (|α| * |β|))) + 2.1 * (u * η) := by ring
  rw [e5] at e4
  have e6 : u * η ≤ 1 / 1000 * η := mul_le_mul_of_nonneg_right hu hη
  calc |rd (a * b) - α * β| = |(rd (a * b) - a * b) + (a * b - α * β)| := by congr 1; ring
    _ ≤ _ := abs_add_le _ _
    _ ≤ _ := by norm_num at *; linarith

theorem sum_abs_close (l : List ℕ) (f g e : ℕ → ℝ) (a b : ℝ) (h : ∀ k ∈ l, |f k - g k| ≤ a * e k + b) :
    |(l.map f).sum - (l.map g).sum| ≤ a * (l.map e).sum + l.length * b := by
  induction l with
  | nil => simp
  | cons k l ih =>
    have hk := h k (by simp)
    have := ih (fun v hv => h v (by simp [hv]))
    simp only [List.map_cons, List.sum_cons, List.length_cons]
    calc |f k + (l.map f).sum - (g k + (l.map g).sum)| = |(f k - g k) + ((l.map f).sum - (l.map g).sum)| := by congr 1; ring
      _ ≤ _ := abs_add_le _ _
      _ ≤ _ := add_le_add hk this
      _ = _ := by push_cast; ring

/-- Cauchy-Schwarz for the normalised deviations. -/
theorem cauchy (n : ℕ) (d e : ℕ → ℝ) (ν μ : ℝ) (hν : 0 < ν) (hμ : 0 < μ) (h1 : ν = Real.sqrt (∑ i ∈ range n, d i ^ 2))
    (h2 : μ = Real.sqrt (∑ i ∈ range n, e i ^ 2)) : ∑ i ∈ range n, |d i / ν| * |e i / μ| ≤ 1 := by
  have e1 : ∀ i, |d i / ν| * |e i / μ| = (|d i| * |e i|) / (ν * μ) := by
    intro i; rw [abs_div, abs_div, abs_of_pos hν, abs_of_pos hμ, div_mul_div_comm]
  rw [sum_congr rfl (fun i _ => e1 i), ← sum_div, div_le_one (by positivity), h1, h2,
    ← Real.sqrt_mul (sum_nonneg (fun i _ => sq_nonneg _))]
  apply Real.le_sqrt_of_sq_le
  have := sum_mul_sq_le_sq_mul_sq (range n) (fun i => |d i|) (fun i => |e i|)
  simpa only [sq_abs] using this

/-- The coefficient of the computed deviations. -/
noncomputable def devCorr (rd : ℝ → ℝ) (n : ℕ) (x y : Nat → ℝ) (mx my : ℝ) : ℝ :=
  (∑ i ∈ range n, dev rd x mx i * dev rd y my i) /
    (Real.sqrt (∑ i ∈ range n, dev rd x mx i ^ 2) * Real.sqrt (∑ i ∈ range n, dev rd y my i ^ 2))

theorem devCorr_le (n : ℕ) (x y : Nat → ℝ) (mx my : ℝ) : |devCorr rd n x y mx my| ≤ 1 := by
  rw [devCorr, abs_div, abs_of_nonneg (by positivity : 0 ≤ Real.sqrt _ * Real.sqrt _)]
  apply div_le_one_of_le₀ _ (by positivity)
  rw [← Real.sqrt_mul (sum_nonneg (fun i _ => sq_nonneg _)), ← Real.sqrt_sq_eq_abs]
  exact Real.sqrt_le_sqrt (sum_mul_sq_le_sq_mul_sq _ _ _)

/-- The computed mean. -/
noncomputable def cmean (rd : ℝ → ℝ) (n : ℕ) (x : Nat → ℝ) : ℝ := (Meanvar.loop rd 0 0 0 0 0 ((List.range' 0 n).map x)).1

theorem spread_dev (h : Nearest p emin rd) (hp : 1 ≤ p) {x : Nat → ℝ} {m D : ℝ} {i j : Nat} (hij : 2 * (2 ^ emin * 2 ^ p) ≤ x i - x j)
    (hi : |dev rd x m i| ≤ D) (hj : |dev rd x m j| ≤ D) : 2 ^ emin * 2 ^ p ≤ D := by
  have hf : IsFloat p emin ((2 : ℝ) ^ emin * 2 ^ p) := by
    have := isFloat_zpow (K := ℝ) (p := p) (emin := emin) hp (show emin ≤ emin + p by omega)
    rwa [zpow_add₀ (by norm_num), zpow_natCast] at this
  rcases le_total (2 ^ emin * 2 ^ p) (x i - m) with c | c
  · exact (h.mono_float hf c).trans ((le_abs_self _).trans hi)
  · have : x j - m ≤ -(2 ^ emin * 2 ^ p) := by linarith
    have h1 := h.mono_float' hf.neg this
    have h2 : 2 ^ emin * 2 ^ p ≤ -dev rd x m j := by unfold dev; linarith
    exact h2.trans ((neg_le_abs _).trans hj)

/-- The whole computation, against the coefficient of the computed deviations. -/
theorem generalR_error (h : Nearest p emin rd) (hp : 10 ≤ p) (he : emin ≤ -2 * p) (n : ℕ) (hn : 100 * (n : ℝ) ≤ 2 ^ p) (x y : Nat → ℝ)
    (hx : ∃ i < n, ∃ j < n, 2 * (2 ^ emin * 2 ^ p) ≤ x i - x j) (hy : ∃ i < n, ∃ j < n, 2 * (2 ^ emin * 2 ^ p) ≤ y i - y j) :
    ∃ r, generalR rd n (fun k => .fin (x k)) (fun k => .fin (y k)) = .fin r ∧
      |r - devCorr rd n x y (cmean rd n x) (cmean rd n y)| ≤ (1.04 * n + 18) * (2 ^ p)⁻¹ ∧
      0 < ∑ i ∈ range n, dev rd x (cmean rd n x) i ^ 2 ∧ 0 < ∑ i ∈ range n, dev rd y (cmean rd n y) i ^ 2 := by
  have hu0 : (0 : ℝ) < (2 ^ p)⁻¹ := by positivity
  have hu := Mad.unit_le_thousandth (K := ℝ) hp
  have hη0 : (0 : ℝ) < 2 ^ emin / 2 := by positivity
  have hηu : (2 : ℝ) ^ emin / 2 ≤ (2 ^ p)⁻¹ * (2 ^ p)⁻¹ := by
    have := eta_le (emin := emin) he; linarith
  have hnu : (n : ℝ) * (2 ^ p)⁻¹ ≤ 1 / 100 := by
    rw [← div_eq_mul_inv, div_le_iff₀ (by positivity)]; linarith
  have herr := fun z => h.error (by omega) z
  have hk1 : ∀ k : Nat, rd ((k : ℝ) + 1) ≠ 0 := by
    intro k hc
    have f1 : IsFloat p emin (1 : ℝ) := isFloat_one (by omega) (by omega)
    have := h.mono_float f1 (show (1 : ℝ) ≤ (k : ℝ) + 1 by linarith [Nat.cast_nonneg (α := ℝ) k])
    rw [hc] at this; linarith
  have hn1 : 1 ≤ n := by obtain ⟨i, hi, _⟩ := hx; omega
  have hmean : ∀ x : Nat → ℝ, stridedMeanR rd n (fun k => .fin (x k)) = .fin (cmean rd n x) := fun x => meanLoopR_fin hk1 x n 0 0 0 0 0
  unfold generalR
  rw [hmean x, hmean y]
  generalize cmean rd n x = mx
  generalize cmean rd n y = my
  obtain ⟨Dx, x1, -, x2, x3⟩ := deltaMaxabsR_fin (rd := rd) n hn1 x mx
  obtain ⟨Dy, y1, -, y2, y3⟩ := deltaMaxabsR_fin (rd := rd) n hn1 y my
  have hDx : 2 ^ emin * 2 ^ p ≤ Dx := by
    obtain ⟨i, hi, j, hj, hij⟩ := hx
    exact spread_dev h (by omega) hij (x2 i hi) (x2 j hj)
  have hDy : 2 ^ emin * 2 ^ p ≤ Dy := by
    obtain ⟨i, hi, j, hj, hij⟩ := hy
    exact spread_dev h (by omega) hij (y2 i hi) (y2 j hj)
  have hDx0 : 0 < Dx := lt_of_lt_of_le (by positivity) hDx
  have hDy0 : 0 < Dy := lt_of_lt_of_le (by positivity) hDy
  obtain ⟨Nx, x4, x5, x6⟩ := deltaNormR_error h hp he n hn x mx Dx hDx x2 x3
  obtain ⟨Ny, y4, y5, y6⟩ := deltaNormR_error h hp he n hn y my Dy hDy y2 y3
  have ex : XF.eq (.fin Dx) (.fin 0) = false := by simp [hDx0.ne']
  have ey : XF.eq (.fin Dy) (.fin 0) = false := by simp [hDy0.ne']
  simp only [x1, y1, ex, ey, x4, y4, Bool.false_eq_true, if_false]
  set ν := Real.sqrt (∑ i ∈ range n, dev rd x mx i ^ 2) with hν
  set μ := Real.sqrt (∑ i ∈ range n, dev rd y my i ^ 2) with hμ
  have hν0 : 0 < ν := by linarith
  have hμ0 : 0 < μ := by linarith
  have hNx := fun k => scaled_error herr hu0.le hu (d := dev rd x mx k) hν0 x5
  have hNy := fun k => scaled_error herr hu0.le hu (d := dev rd y my k) hμ0 y5
  rw [rLoopR_fin x y mx Nx my Ny (hNx 0).1 (hNy 0).1]
  refine ⟨_, rfl, ?_, Real.sqrt_pos.1 hν0, Real.sqrt_pos.1 hμ0⟩
  have hαx : ∀ k < n, |dev rd x mx k / ν| ≤ 1 := by
    intro k hk
    rw [abs_div, abs_of_pos hν0, div_le_one hν0]
    exact (x2 k hk).trans x6
  have hαy : ∀ k < n, |dev rd y my k / μ| ≤ 1 := by
    intro k hk
    rw [abs_div, abs_of_pos hμ0, div_le_one hμ0]
    exact (y2 k hk).trans y6
  have hterm : ∀ k ∈ List.range' 0 n, |rd (rd (dev rd x mx k / Nx) * rd (dev rd y my k / Ny)) - (dev rd x mx k / ν) * (dev rd y my k / μ)| ≤
      17.8 * (2 ^ p)⁻¹ * (|dev rd x mx k / ν| * |dev rd y my k / μ|) + 3.3 * (2 ^ emin / 2) := by
    intro k hk
    have hk' : k < n := by simpa using hk
    exact (product_error herr hu0.le hu hη0.le hηu (hαx k hk') (hαy k hk') (hNx k).2 (hNy k).2).trans (le_of_eq (by ring))
  have hCS := cauchy n (dev rd x mx) (dev rd y my) ν μ hν0 hμ0 hν hμ
  have hCS0 : 0 ≤ ∑ i ∈ range n, |dev rd x mx i / ν| * |dev rd y my i / μ| := sum_nonneg (fun i _ => by positivity)
  have t1 := sum_abs_close _ _ _ _ _ _ hterm
  have t2 := sum_abs_close (List.range' 0 n) (fun k => |rd (rd (dev rd x mx k / Nx) * rd (dev rd y my k / Ny))|)
    (fun k => |dev rd x mx k / ν| * |dev rd y my k / μ|) (fun k => |dev rd x mx k / ν| * |dev rd y my k / μ|) (17.8 * (2 ^ p)⁻¹) (3.3 * (2 ^ emin / 2)) (by
      intro k hk
      rw [← abs_mul]
      refine (abs_abs_sub_abs_le_abs_sub _ _).trans ?_
      have := hterm k hk
      rwa [← abs_mul] at this)
  rw [sum_range' n (fun k => dev rd x mx k / ν * (dev rd y my k / μ)), sum_range' n (fun k => |dev rd x mx k / ν| * |dev rd y my k / μ|),
    List.length_range'] at t1
  rw [sum_range' n (fun k => |dev rd x mx k / ν| * |dev rd y my k / μ|), List.length_range'] at t2
  have hdc : ∑ k ∈ range n, dev rd x mx k / ν * (dev rd y my k / μ) = devCorr rd n x y mx my := by
    rw [devCorr, ← hν, ← hμ, sum_div]
    exact sum_congr rfl (fun k _ => by rw [div_mul_div_comm])
  rw [hdc] at t1
  have r1 := rsum_error h (by omega) ((List.range' 0 n).map fun k => rd (rd (dev rd x mx k / Nx) * rd (dev rd y my k / Ny))) 0 isFloat_zero
    (by intro v hv; obtain ⟨w, _, rfl⟩ := List.mem_map.1 hv; exact (h _).1)
  rw [zero_add, abs_zero, zero_add, List.map_map, List.length_map, List.length_range'] at r1
  have hpw := Mad.pow_bound hu0.le n hnu
  have hcomp : (List.map (abs ∘ fun k => rd (rd (dev rd x mx k / Nx) * rd (dev rd y my k / Ny))) (List.range' 0 n)) =
    List.map (fun k => |rd (rd (dev rd x mx k / Nx) * rd (dev rd y my k / Ny))|) (List.range' 0 n) := rfl
  rw [hcomp] at r1
  set A := (List.map (fun k => |rd (rd (dev rd x mx k / Nx) * rd (dev rd y my k / Ny))|) (List.range' 0 n)).sum with hA
  set B := (List.map (fun k => rd (rd (dev rd x mx k / Nx) * rd (dev rd y my k / Ny))) (List.range' 0 n)).sum with hB
  generalize (∑ i ∈ range n, |dev rd x mx i / ν| * |dev rd y my i / μ|) = C at *
  have hA0 : 0 ≤ A := List.sum_nonneg (by intro v hv; obtain ⟨w, _, rfl⟩ := List.mem_map.1 hv; exact abs_nonneg _)
  generalize rsum rd 0 _ = R at *
  clear_value A B
  have hnη : (n : ℝ) * (2 ^ emin / 2) ≤ 1 / 100 * (2 ^ p)⁻¹ := by
    calc (n : ℝ) * (2 ^ emin / 2) ≤ n * ((2 ^ p)⁻¹ * (2 ^ p)⁻¹) := mul_le_mul_of_nonneg_left hηu (Nat.cast_nonneg n)
      _ = (n * (2 ^ p)⁻¹) * (2 ^ p)⁻¹ := by ring
      _ ≤ _ := mul_le_mul_of_nonneg_right hnu hu0.le
  have e33 : (n : ℝ) * (3.3 * (2 ^ emin / 2)) = 3.3 * (n * (2 ^ emin / 2)) := by ring
  rw [e33] at t1 t2
  have hn0 : (0 : ℝ) ≤ n := Nat.cast_nonneg n
  clear hn herr hNx hNy hterm hη0 hηu hDx hDy
  generalize (n : ℝ) * (2 ^ emin / 2) = b at *
  generalize (1 + ((2 : ℝ) ^ p)⁻¹) ^ n = pw at *
  generalize devCorr rd n x y mx my = c at *
  generalize ((2 : ℝ) ^ p)⁻¹ = u at *
  generalize (n : ℝ) = N at *
  have g0 : 17.8 * u * C ≤ 17.8 * u * 1 := mul_le_mul_of_nonneg_left hCS (by positivity)
  have g1 : A ≤ 1.019 := by
    have := (abs_le.1 t2).2
    norm_num at *; linarith
  have hNu : 0 ≤ N * u := by positivity
  have g2 : (pw - 1) * A ≤ 1.02 * (N * u) * 1.019 := mul_le_mul (by linarith) g1 hA0 (by positivity)
  calc |R - c| = |(R - B) + (B - c)| := by congr 1; ring
    _ ≤ _ := abs_add_le _ _
    _ ≤ 1.02 * (N * u) * 1.019 + (17.8 * u * 1 + 3.3 * (1 / 100 * u)) := by norm_num at *; linarith
    _ ≤ _ := by norm_num; linarith

/-- The computed mean of numbers of size at most `M`. -/
theorem mean_error {u η M : ℝ} (h : ∀ z, |rd z - z| ≤ u * |z| + η) (hu0 : 0 ≤ u) (hu : u ≤ 1 / 1000) (hη : 0 ≤ η)
    (hηu : η ≤ u * u) (hηM : η ≤ u * (u * M)) (hM : 0 ≤ M) (xs : List ℝ) :
    ∀ (k : ℕ) (m s c1 c2 μ T : ℝ), (∀ x ∈ xs, |x| ≤ M) → ((k + xs.length : ℕ) : ℝ) * u ≤ 1 / 100 →
    |μ| ≤ M → |c1| ≤ 6.5 * (u * M) → |m - c1 - μ| ≤ 19 * (u * M) →
    |(Meanvar.loop rd k m s c1 c2 xs).1 - (Meanvar.loop id k μ T 0 0 xs).1| ≤ 25.5 * (u * M) := by
  induction xs with
  | nil =>
    intro k m s c1 c2 μ T _ _ _ hc1 hE
    simp only [Meanvar.loop]
    calc |m - μ| = |(m - c1 - μ) + c1| := by congr 1; ring
      _ ≤ _ := abs_add_le _ _
      _ ≤ _ := by linarith
  | cons x xs ih =>
    intro k m s c1 c2 μ T hx hlen hμ hc1 hE
    have hk0 : (0 : ℝ) ≤ k := Nat.cast_nonneg k
    have hku : ((k : ℝ) + 1) * u ≤ 1 / 100 := by
      refine le_trans (mul_le_mul_of_nonneg_right ?_ hu0) hlen
      simp only [List.length_cons]; push_cast
      have : (0 : ℝ) ≤ xs.length := Nat.cast_nonneg _
      linarith
    obtain ⟨a1, a2, a3, a4⟩ := Meanvar.mean_step h hu0 hu hη hηu hηM hM hk0 hku (hx x (by simp)) hμ hc1 hE
    have hcast : ((k + 1 : ℕ) : ℝ) = k + 1 := by push_cast; rfl
    have := fun s c2 T => ih (k + 1) _ s _ c2 _ T (fun y hy => hx y (by simp [hy]))
      (by rw [show k + 1 + xs.length = k + (x :: xs).length by simp only [List.length_cons]; omega]; exact hlen) a4 a1 a2
    simp only [Meanvar.loop, Meanvar.compensatedUpdate, sub_zero, id, add_sub_cancel_left, sub_self, hcast]
    simp only [Meanvar.compensatedUpdate] at this
    exact this _ _ _

/-- Normalised vectors. -/
theorem unit_diff {E : Type*} [NormedAddCommGroup E] [NormedSpace ℝ E] (a b : E) (ha : a ≠ 0) (hb : b ≠ 0) :
    ‖(‖a‖)⁻¹ • a - (‖b‖)⁻¹ • b‖ ≤ 2 * (‖a - b‖ / ‖b‖) := by
  have na : 0 < ‖a‖ := norm_pos_iff.2 ha
  have nb : 0 < ‖b‖ := norm_pos_iff.2 hb
  have e : (‖a‖)⁻¹ • a - (‖b‖)⁻¹ • b = ((‖a‖)⁻¹ - (‖b‖)⁻¹) • a + (‖b‖)⁻¹ • (a - b) := by
    rw [sub_smul, smul_sub]; abel
  rw [e]
  refine (norm_add_le _ _).trans ?_
  rw [norm_smul, norm_smul, Real.norm_eq_abs, Real.norm_eq_abs, abs_of_pos (inv_pos.2 nb)]
  have e1 : (‖a‖)⁻¹ - (‖b‖)⁻¹ = (‖b‖ - ‖a‖) / (‖a‖ * ‖b‖) := by field_simp
  have e2 : |(‖a‖)⁻¹ - (‖b‖)⁻¹| * ‖a‖ = |‖a‖ - ‖b‖| / ‖b‖ := by
    rw [e1, abs_div, abs_of_pos (mul_pos na nb), abs_sub_comm]; field_simp
  rw [e2]
  have e3 : |‖a‖ - ‖b‖| / ‖b‖ ≤ ‖a - b‖ / ‖b‖ := div_le_div_of_nonneg_right (abs_norm_sub_norm_le a b) nb.le
  have e4 : (‖b‖)⁻¹ * ‖a - b‖ = ‖a - b‖ / ‖b‖ := by rw [div_eq_inv_mul]
  rw [e4]; linarith

theorem inner_diff {E : Type*} [NormedAddCommGroup E] [InnerProductSpace ℝ E] (a b c d : E) (ha : a ≠ 0) (hb : b ≠ 0) (hc : c ≠ 0) (hd : d ≠ 0) :
    |inner ℝ a c / (‖a‖ * ‖c‖) - inner ℝ b d / (‖b‖ * ‖d‖)| ≤ 2 * (‖a - b‖ / ‖b‖) + 2 * (‖c - d‖ / ‖d‖) := by
  have na : 0 < ‖a‖ := norm_pos_iff.2 ha
  have nb : 0 < ‖b‖ := norm_pos_iff.2 hb
  have nc : 0 < ‖c‖ := norm_pos_iff.2 hc
  have nd : 0 < ‖d‖ := norm_pos_iff.2 hd
  have e : ∀ v w : E, inner ℝ v w / (‖v‖ * ‖w‖) = inner ℝ ((‖v‖)⁻¹ • v) ((‖w‖)⁻¹ • w) := by
    intro v w; rw [real_inner_smul_left, real_inner_smul_right, div_eq_mul_inv, mul_inv]; ring
  rw [e a c, e b d]
  have h1 := unit_diff a b ha hb
  have h2 := unit_diff c d hc hd
  have n1 : ‖(‖c‖)⁻¹ • c‖ = 1 := by rw [norm_smul, norm_inv, norm_norm, inv_mul_cancel₀ nc.ne']
  have n2 : ‖(‖b‖)⁻¹ • b‖ = 1 := by rw [norm_smul, norm_inv, norm_norm, inv_mul_cancel₀ nb.ne']
  generalize (‖a‖)⁻¹ • a = A at *
  generalize (‖b‖)⁻¹ • b = B at *
  generalize (‖c‖)⁻¹ • c = C at *
  generalize (‖d‖)⁻¹ • d = D at *
  have e5 : inner ℝ A C - inner ℝ B D = inner ℝ (A - B) C + inner ℝ B (C - D) := by
    rw [inner_sub_left, inner_sub_right]; ring
  rw [e5]
  refine (abs_add_le _ _).trans (add_le_add ?_ ?_)
  · have := abs_real_inner_le_norm (A - B) C
    rw [n1, mul_one] at this; exact this.trans h1
  · have := abs_real_inner_le_norm B (C - D)
    rw [n2, one_mul] at this; exact this.trans h2

/-- A sequence as a vector. -/
noncomputable def vec (n : ℕ) (f : ℕ → ℝ) : EuclideanSpace ℝ (Fin n) := WithLp.toLp 2 (fun i : Fin n => f i)

theorem norm_vec (n : ℕ) (f : ℕ → ℝ) : ‖vec n f‖ = Real.sqrt (∑ i ∈ range n, f i ^ 2) := by
  rw [EuclideanSpace.norm_eq, ← Fin.sum_univ_eq_sum_range]
  simp [vec]

theorem inner_vec (n : ℕ) (f g : ℕ → ℝ) : inner ℝ (vec n f) (vec n g) = ∑ i ∈ range n, f i * g i := by
  rw [← Fin.sum_univ_eq_sum_range (fun i => f i * g i)]
  simp [vec, PiLp.inner_apply, mul_comm]

theorem vec_sub (n : ℕ) (f g : ℕ → ℝ) : vec n f - vec n g = vec n (fun i => f i - g i) := rfl

theorem vec_ne (n : ℕ) (f : ℕ → ℝ) (h : 0 < ∑ i ∈ range n, f i ^ 2) : vec n f ≠ 0 := by
  rw [← norm_pos_iff, norm_vec]; exact Real.sqrt_pos.2 h

/-- Perturbed deviations. -/
theorem devCorr_close (n : ℕ) (x y : Nat → ℝ) (mx my bx «by» : ℝ) (h1 : 0 < ∑ i ∈ range n, dev rd x mx i ^ 2)
    (h2 : 0 < ∑ i ∈ range n, dev rd y my i ^ 2) (h3 : 0 < ∑ i ∈ range n, (x i - mean n x) ^ 2) (h4 : 0 < ∑ i ∈ range n, (y i - mean n y) ^ 2)
    (hbx : ∀ i < n, |dev rd x mx i - (x i - mean n x)| ≤ bx) (hby : ∀ i < n, |dev rd y my i - (y i - mean n y)| ≤ «by») (hbx0 : 0 ≤ bx) (hby0 : 0 ≤ «by») :
    |devCorr rd n x y mx my - corr n x y| ≤
      2 * (bx / Real.sqrt ((∑ i ∈ range n, (x i - mean n x) ^ 2) / n)) + 2 * («by» / Real.sqrt ((∑ i ∈ range n, (y i - mean n y) ^ 2) / n)) := by
  have key := inner_diff (vec n (dev rd x mx)) (vec n fun i => x i - mean n x) (vec n (dev rd y my)) (vec n fun i => y i - mean n y)
    (vec_ne n _ h1) (vec_ne n _ h3) (vec_ne n _ h2) (vec_ne n _ h4)
  rw [inner_vec, inner_vec, norm_vec, norm_vec, norm_vec, norm_vec, vec_sub, vec_sub, norm_vec, norm_vec] at key
  have hn : 0 < n := by
    rcases Nat.eq_zero_or_pos n with rfl | h
    · simp at h1
    · exact h
  have hb : ∀ (f : ℕ → ℝ) (b S : ℝ), 0 ≤ b → 0 < S → (∀ i < n, |f i| ≤ b) →
      Real.sqrt (∑ i ∈ range n, f i ^ 2) / Real.sqrt S ≤ b / Real.sqrt (S / n) := by
    intro f b S hb0 hS hf
    have hnp : (0 : ℝ) < n := by exact_mod_cast hn
    have k1 : ∑ i ∈ range n, f i ^ 2 ≤ n * b ^ 2 := by
      calc ∑ i ∈ range n, f i ^ 2 ≤ ∑ i ∈ range n, b ^ 2 := by
            apply sum_le_sum; intro i hi
            rw [← sq_abs]; exact pow_le_pow_left₀ (abs_nonneg _) (hf i (mem_range.1 hi)) 2
        _ = _ := by simp
    have k2 : Real.sqrt (∑ i ∈ range n, f i ^ 2) ≤ Real.sqrt n * b := by
      calc _ ≤ Real.sqrt (n * b ^ 2) := Real.sqrt_le_sqrt k1
        _ = _ := by rw [Real.sqrt_mul hnp.le, Real.sqrt_sq hb0]
    rw [Real.sqrt_div hS.le, div_div_eq_mul_div]
    apply div_le_div_of_nonneg_right _ (Real.sqrt_nonneg _)
    linarith
  refine key.trans (add_le_add ?_ ?_)
  · exact mul_le_mul_of_nonneg_left (hb _ bx _ hbx0 h3 hbx) (by norm_num)
  · exact mul_le_mul_of_nonneg_left (hb _ «by» _ hby0 h4 hby) (by norm_num)

theorem meanLoopR_congr (x x' : Nat → XF ℝ) (fuel k : Nat) (a b : XF ℝ)
    (h : ∀ i < fuel, x (k + i) = x' (k + i)) : meanLoopR rd x fuel k a b = meanLoopR rd x' fuel k a b := by
  induction fuel generalizing k a b with
  | zero => rfl
  | succ f ih =>
    have h0 : x k = x' k := h 0 (by omega)
    simp only [meanLoopR, h0]
    exact ih _ _ _ (fun i hi => by have := h (i + 1) (by omega); rwa [show k + (i + 1) = k + 1 + i by omega] at this)

theorem maxabsLoopR_congr (x x' : Nat → XF ℝ) (μ : XF ℝ) (fuel k : Nat) (a : XF ℝ)
    (h : ∀ i < fuel, x (k + i) = x' (k + i)) : maxabsLoopR rd x μ fuel k a = maxabsLoopR rd x' μ fuel k a := by
  induction fuel generalizing k a with
  | zero => rfl
  | succ f ih =>
    have h0 : x k = x' k := h 0 (by omega)
    simp only [maxabsLoopR, h0]
    exact ih _ _ (fun i hi => by have := h (i + 1) (by omega); rwa [show k + (i + 1) = k + 1 + i by omega] at this)

theorem normLoopR_congr (x x' : Nat → XF ℝ) (μ M : XF ℝ) (fuel k : Nat) (a b : XF ℝ)
    (h : ∀ i < fuel, x (k + i) = x' (k + i)) : normLoopR rd x μ M fuel k a b = normLoopR rd x' μ M fuel k a b := by
  induction fuel generalizing k a b with
  | zero => rfl
  | succ f ih =>
    have h0 : x k = x' k := h 0 (by omega)
    simp only [normLoopR, h0]
    exact ih _ _ _ (fun i hi => by have := h (i + 1) (by omega); rwa [show k + (i + 1) = k + 1 + i by omega] at this)

theorem rLoopR_congr (x x' y y' : Nat → XF ℝ) (μ a ν b : XF ℝ) (fuel k : Nat) (r : XF ℝ)
    (h : ∀ i < fuel, x (k + i) = x' (k + i)) (h' : ∀ i < fuel, y (k + i) = y' (k + i)) :
    rLoopR rd x y μ a ν b fuel k r = rLoopR rd x' y' μ a ν b fuel k r := by
  induction fuel generalizing k r with
  | zero => rfl
  | succ f ih =>
    have h0 : x k = x' k := h 0 (by omega)
    have h1 : y k = y' k := h' 0 (by omega)
    simp only [rLoopR, h0, h1]
    exact ih _ _ (fun i hi => by have := h (i + 1) (by omega); rwa [show k + (i + 1) = k + 1 + i by omega] at this)
      (fun i hi => by have := h' (i + 1) (by omega); rwa [show k + (i + 1) = k + 1 + i by omega] at this)

theorem generalR_congr (n : Nat) (hn : n ≠ 0) (x x' y y' : Nat → XF ℝ)
    (h : ∀ i < n, x i = x' i) (h' : ∀ i < n, y i = y' i) : generalR rd n x y = generalR rd n x' y' := by
  have d : ∀ (z z' : Nat → XF ℝ) μ, (∀ i < n, z i = z' i) → deltaMaxabsR rd n z μ = deltaMaxabsR rd n z' μ := by
    intro z z' μ hz
    rw [deltaMaxabsR, deltaMaxabsR, hz 0 (by omega)]
    exact maxabsLoopR_congr (rd := rd) _ _ _ _ _ _ (fun i hi => hz _ (by omega))
  have e : ∀ (z z' : Nat → XF ℝ), (∀ i < n, z i = z' i) → stridedMeanR rd n z = stridedMeanR rd n z' := by
    intro z z' hz
    exact meanLoopR_congr (rd := rd) _ _ _ _ _ _ (fun i hi => hz _ (by omega))
  have f : ∀ (z z' : Nat → XF ℝ) μ M, (∀ i < n, z i = z' i) → deltaNormR rd n z μ M = deltaNormR rd n z' μ M := by
    intro z z' μ M hz
    rw [deltaNormR, deltaNormR, normLoopR_congr (rd := rd) z z' _ _ _ _ _ _ (fun i hi => hz _ (by omega))]
  simp only [generalR, e x x' h, e y y' h', d x x' _ h, d y y' _ h', f x x' _ _ h, f y y' _ _ h',
    rLoopR_congr (rd := rd) x x' y y' _ _ _ _ n 0 _ (fun i hi => h _ (by omega)) (fun i hi => h' _ (by omega))]
/-! ### Which inputs give NaN -/

theorem loop_float (h : Nearest p emin rd) (xs : List ℝ) : ∀ (k : ℕ) (m s c c2 : ℝ), IsFloat p emin m →
    IsFloat p emin (Meanvar.loop rd k m s c c2 xs).1 := by
  induction xs with
  | nil => intro k m s c c2 hm; exact hm
  | cons x xs ih => intro k m s c c2 _; exact ih _ _ _ _ _ (h _).1

theorem cmean_float (h : Nearest p emin rd) (n : ℕ) (x : Nat → ℝ) : IsFloat p emin (cmean rd n x) :=
  loop_float h _ _ _ _ _ _ isFloat_zero

theorem cmean_const (h : Nearest p emin rd) (hp : 1 ≤ p) (he : emin ≤ 0) (n : ℕ) (hn : 1 ≤ n) (x : Nat → ℝ) (c : ℝ) (hc : IsFloat p emin c)
    (hx : ∀ i < n, x i = c) : cmean rd n x = c := by
  obtain ⟨k, rfl⟩ : ∃ k, n = k + 1 := ⟨n - 1, by omega⟩
  have e : (List.range' 0 (k + 1)).map x = List.replicate (k + 1) c := by
    rw [List.eq_replicate_iff]
    refine ⟨by simp, ?_⟩
    intro b hb
    obtain ⟨i, hi, rfl⟩ := List.mem_map.1 hb
    exact hx i (by simpa using hi)
  have := Meanvar.C36_constant h hp he k c hc 0 (by omega)
  have := congrArg Prod.fst this
  simp only [Meanvar.meanvar, XF.fin.injEq] at this
  rw [cmean, e, this]

theorem deltaNormR_pos (h : Nearest p emin rd) (hp : 10 ≤ p) (he : emin ≤ -2 * p) (n : ℕ) (hn : 100 * (n : ℝ) ≤ 2 ^ p) (x : Nat → ℝ) (m D : ℝ)
    (hDp : 0 < D) (hDi : ∃ i < n, D = |dev rd x m i|) :
    ∃ N, deltaNormR rd n (fun k => .fin (x k)) (.fin m) (.fin D) = .fin N ∧ N ≠ 0 := by
  have hu0 : (0 : ℝ) < (2 ^ p)⁻¹ := by positivity
  have hu := Mad.unit_le_thousandth (K := ℝ) hp
  have hη0 : (0 : ℝ) < 2 ^ emin / 2 := by positivity
  have hηu : (2 : ℝ) ^ emin / 2 ≤ (2 ^ p)⁻¹ * (2 ^ p)⁻¹ := by
    have := eta_le (emin := emin) he
    have : (0 : ℝ) < (2 ^ p)⁻¹ * (2 ^ p)⁻¹ := by positivity
    linarith
  have hnu : (n : ℝ) * (2 ^ p)⁻¹ ≤ 1 / 100 := by
    rw [← div_eq_mul_inv, div_le_iff₀ (by positivity)]; linarith
  have herr := fun z => h.error (by omega) z
  have f1 : IsFloat p emin (1 : ℝ) := isFloat_one (by omega) (by omega)
  have fm1 := f1.neg
  obtain ⟨j, hj, hDj⟩ := hDi
  have hDf : IsFloat p emin D := by rw [hDj]; exact (h _).1.abs
  have hz0 : ∀ i, 0 ≤ zsq rd x m D i := fun i => h.mono_float isFloat_zero (mul_self_nonneg _)
  set Q := ((List.range' 0 n).map (zsq rd x m D)).sum with hQ
  have hQ1 : 1 ≤ Q := by
    have hzj : zsq rd x m D j = 1 := by
      have hr : rd (dev rd x m j / D) * rd (dev rd x m j / D) = 1 := by
        rcases le_total 0 (dev rd x m j) with c | c
        · rw [abs_of_nonneg c] at hDj
          rw [← hDj, div_self hDp.ne', h.exact f1]; norm_num
        · rw [abs_of_nonpos c] at hDj
          have : dev rd x m j / D = -1 := by rw [div_eq_iff hDp.ne']; linarith
          rw [this, h.exact fm1]; norm_num
      rw [zsq, hr, h.exact f1]
    rw [← hzj, hQ]
    exact List.single_le_sum (by intro y hy; obtain ⟨w, _, rfl⟩ := List.mem_map.1 hy; exact hz0 w) _
      (List.mem_map_of_mem (by simpa using hj))
  have hS := kahan_error herr hu0.le hu hη0.le hηu hQ1 ((List.range' 0 n).map (zsq rd x m D)) 0 0 0 0
    (by intro y hy; obtain ⟨w, _, rfl⟩ := List.mem_map.1 hy; exact hz0 w) (by simpa using hnu) le_rfl (by rw [zero_add]) (by simp; positivity)
    (by simp)
  set S := kahan rd 0 0 ((List.range' 0 n).map (zsq rd x m D)) with hSdef
  have hS1 : 0.99 ≤ S := by
    have := (abs_le.1 hS).1
    have k : (2 ^ p)⁻¹ * Q ≤ 1 / 1000 * Q := mul_le_mul_of_nonneg_right hu (by linarith)
    clear_value S Q
    clear hn hnu hηu
    generalize ((2 : ℝ) ^ p)⁻¹ * Q = a at *
    norm_num at *; linarith
  refine ⟨rd (D * rd (Real.sqrt S)), ?_, ?_⟩
  · unfold deltaNormR
    rw [normLoopR_fin x m D hDp.ne', ← hSdef]
    rw [xsqrt, if_neg (not_lt.2 (le_trans (by norm_num) hS1))]
    rfl
  · have hq : (3 : ℝ) / 4 ≤ rd (Real.sqrt S) := by
      have hf : IsFloat p emin ((3 : ℝ) / 4) :=
        ⟨3, -2, lt_of_lt_of_le (by norm_num : |(3 : ℤ)| < 2 ^ 10) (pow_le_pow_right₀ (by norm_num) hp), by omega, by norm_num⟩
      apply h.mono_float hf
      apply Real.le_sqrt_of_sq_le
      exact le_trans (by norm_num) hS1
    set z := D * rd (Real.sqrt S) with hz
    have hz1 : 3 / 4 * D ≤ z := by rw [hz, mul_comm]; exact mul_le_mul_of_nonneg_left hq hDp.le
    intro hc
    rcases le_total D z with c | c
    · have := h.mono_float hDf c; linarith
    · have := (h z).2 D hDf
      rw [hc, zero_sub, abs_neg, abs_of_pos (by linarith), abs_of_nonneg (by linarith)] at this
      linarith

/-- The whole computation on numbers of the format. -/
theorem generalR_nan (h : Nearest p emin rd) (hp : 10 ≤ p) (he : emin ≤ -2 * p) (n : ℕ) (hn1 : 1 ≤ n) (hn : 100 * (n : ℝ) ≤ 2 ^ p) (x y : Nat → ℝ)
    (fx : ∀ i < n, IsFloat p emin (x i)) (fy : ∀ i < n, IsFloat p emin (y i)) :
    (Constant n x ∨ Constant n y → generalR rd n (fun k => .fin (x k)) (fun k => .fin (y k)) = .nan) ∧
    (¬ Constant n x → ¬ Constant n y → ∃ r, generalR rd n (fun k => .fin (x k)) (fun k => .fin (y k)) = .fin r) := by
  have hk1 : ∀ k : Nat, rd ((k : ℝ) + 1) ≠ 0 := by
    intro k hc
    have f1 : IsFloat p emin (1 : ℝ) := isFloat_one (by omega) (by omega)
    have := h.mono_float f1 (show (1 : ℝ) ≤ (k : ℝ) + 1 by linarith [Nat.cast_nonneg (α := ℝ) k])
    rw [hc] at this; linarith
  have hmean : ∀ x : Nat → ℝ, stridedMeanR rd n (fun k => .fin (x k)) = .fin (cmean rd n x) := fun x => meanLoopR_fin hk1 x n 0 0 0 0 0
  have hconst : ∀ x : Nat → ℝ, (∀ i < n, IsFloat p emin (x i)) → ∀ D, (∀ i < n, |dev rd x (cmean rd n x) i| ≤ D) →
      (∃ i < n, D = |dev rd x (cmean rd n x) i|) → (D = 0 ↔ Constant n x) := by
    intro x fx D h1 h2
    constructor
    · intro hD0
      have key : ∀ i < n, x i = cmean rd n x := by
        intro i hi
        have hz : dev rd x (cmean rd n x) i = 0 := abs_nonpos_iff.1 (by have := h1 i hi; rwa [hD0] at this)
        by_contra hne
        have hne' : x i - cmean rd n x ≠ 0 := sub_ne_zero.2 hne
        obtain ⟨g, hg⟩ := (fx i hi).grid.sub (cmean_float h n x).grid
        have : (2 : ℝ) ^ emin ≤ |x i - cmean rd n x| := by
          rw [hg, abs_mul, abs_of_pos (by positivity : (0 : ℝ) < 2 ^ emin)]
          apply le_mul_of_one_le_left (by positivity)
          have : g ≠ 0 := by rintro rfl; apply hne'; rw [hg]; simp
          have := Int.one_le_abs this
          exact_mod_cast this
        have := h.abs_mono_float (isFloat_zpow (by omega) le_rfl) this
        rw [show rd (x i - cmean rd n x) = 0 from hz, abs_zero] at this
        have : (0 : ℝ) < 2 ^ emin := by positivity
        linarith
      intro i hi j hj
      rw [key i hi, key j hj]
    · intro hc
      obtain ⟨i, hi, rfl⟩ := h2
      have := cmean_const h (by omega) (by omega) n hn1 x (x 0) (fx 0 (by omega)) (fun i hi => hc i hi 0 (by omega))
      rw [dev, this, hc i hi 0 (by omega), sub_self, h.round_zero, abs_zero]
  unfold generalR
  rw [hmean x, hmean y]
  obtain ⟨Dx, x1, x0, x2, x3⟩ := deltaMaxabsR_fin (rd := rd) n hn1 x (cmean rd n x)
  obtain ⟨Dy, y1, y0, y2, y3⟩ := deltaMaxabsR_fin (rd := rd) n hn1 y (cmean rd n y)
  have cx := hconst x fx Dx x2 x3
  have cy := hconst y fy Dy y2 y3
  simp only [x1, y1, XF.eq_fin, decide_eq_true_eq]
  constructor
  · rintro (hc | hc)
    · rw [if_pos (cx.2 hc)]
    · rw [if_pos (cy.2 hc)]; exact ite_self _
  · intro hcx hcy
    have nx : Dx ≠ 0 := fun e => hcx (cx.1 e)
    have ny : Dy ≠ 0 := fun e => hcy (cy.1 e)
    rw [if_neg nx, if_neg ny]
    obtain ⟨Nx, x4, x5⟩ := deltaNormR_pos h hp he n hn x _ Dx (lt_of_le_of_ne x0 (Ne.symm nx)) x3
    obtain ⟨Ny, y4, y5⟩ := deltaNormR_pos h hp he n hn y _ Dy (lt_of_le_of_ne y0 (Ne.symm ny)) y3
    rw [x4, y4, rLoopR_fin x y _ Nx _ Ny x5 y5]
    exact ⟨_, rfl⟩

/-! ### The mean and the deviations -/

theorem cmean_error (h : Nearest p emin rd) (hp : 10 ≤ p) (he : emin ≤ -2 * p) (n : ℕ) (hn1 : 1 ≤ n) (hn : 100 * (n : ℝ) ≤ 2 ^ p) (x : Nat → ℝ)
    (M : ℝ) (hM : ∀ i < n, |x i| ≤ M) (hM' : 2 ^ emin * (2 ^ p) ^ 2 ≤ M) :
    ∀ i < n, |dev rd x (cmean rd n x) i - (x i - mean n x)| ≤ 27.6 * ((2 ^ p)⁻¹ * M) := by
  have hu0 : (0 : ℝ) < (2 ^ p)⁻¹ := by positivity
  have hu := Mad.unit_le_thousandth (K := ℝ) hp
  have hη0 : (0 : ℝ) < 2 ^ emin / 2 := by positivity
  have hηu : (2 : ℝ) ^ emin / 2 ≤ (2 ^ p)⁻¹ * (2 ^ p)⁻¹ := by
    have := eta_le (emin := emin) he
    have : (0 : ℝ) < (2 ^ p)⁻¹ * (2 ^ p)⁻¹ := by positivity
    linarith
  have hηM : (2 : ℝ) ^ emin / 2 ≤ (2 ^ p)⁻¹ * ((2 ^ p)⁻¹ * M) := by
    have e : (2 : ℝ) ^ emin = (2 ^ p)⁻¹ * ((2 ^ p)⁻¹ * (2 ^ emin * (2 ^ p) ^ 2)) := by field_simp
    have k : (2 ^ p)⁻¹ * ((2 ^ p)⁻¹ * ((2 : ℝ) ^ emin * (2 ^ p) ^ 2)) ≤ (2 ^ p)⁻¹ * ((2 ^ p)⁻¹ * M) :=
      mul_le_mul_of_nonneg_left (mul_le_mul_of_nonneg_left hM' hu0.le) hu0.le
    rw [← e] at k; linarith
  have hM0 : 0 ≤ M := le_trans (by positivity) hM'
  have hnu : (n : ℝ) * (2 ^ p)⁻¹ ≤ 1 / 100 := by
    rw [← div_eq_mul_inv, div_le_iff₀ (by positivity)]; linarith
  have herr := fun z => h.error (by omega) z
  have key := mean_error herr hu0.le hu hη0.le hηu hηM hM0 ((List.range' 0 n).map x) 0 0 0 0 0 0 0
    (by intro v hv; obtain ⟨w, hw, rfl⟩ := List.mem_map.1 hv; exact hM w (by simpa using hw)) (by simpa using hnu)
    (by simpa using hM0) (by simp; positivity) (by simp; positivity)
  have hid : (Meanvar.loop id 0 0 0 0 0 ((List.range' 0 n).map x)).1 = mean n x := by
    have hC := Meanvar.C36_meanvar ((List.range' 0 n).map x) 0 (by
      intro hc; have := congrArg List.length hc; simp at this; omega)
    have := congrArg Prod.fst hC
    simp only [Meanvar.meanvar, XF.fin.injEq] at this
    rw [this, Meanvar.Spec.mean, sum_range' n x, List.length_map, List.length_range', mean]
  rw [hid] at key
  change |cmean rd n x - mean n x| ≤ _ at key
  have hmean : |mean n x| ≤ M := by
    have hnp : (0 : ℝ) < n := by exact_mod_cast hn1
    rw [mean, abs_div, abs_of_pos hnp, div_le_iff₀ hnp]
    calc |∑ i ∈ range n, x i| ≤ ∑ i ∈ range n, |x i| := abs_sum_le_sum_abs _ _
      _ ≤ ∑ i ∈ range n, M := sum_le_sum (fun i hi => hM i (mem_range.1 hi))
      _ = _ := by simp [mul_comm]
  intro i hi
  have h1 := herr (x i - cmean rd n x)
  have h2 : |x i - cmean rd n x| ≤ 2 * M + 25.5 * ((2 ^ p)⁻¹ * M) := by
    calc |x i - cmean rd n x| = |x i + -mean n x + -(cmean rd n x - mean n x)| := by congr 1; ring
      _ ≤ |x i| + |-mean n x| + |-(cmean rd n x - mean n x)| := abs_add_three _ _ _
      _ ≤ _ := by rw [abs_neg, abs_neg]; linarith [hM i hi]
  have h3 := mul_le_mul_of_nonneg_left h2 hu0.le
  have h4 : (2 ^ p)⁻¹ * ((2 ^ p)⁻¹ * M) ≤ 1 / 1000 * ((2 ^ p)⁻¹ * M) := mul_le_mul_of_nonneg_right hu (by positivity)
  have e3 : (2 ^ p)⁻¹ * (2 * M + 25.5 * ((2 ^ p)⁻¹ * M)) = 2 * ((2 ^ p)⁻¹ * M) + 25.5 * ((2 ^ p)⁻¹ * ((2 ^ p)⁻¹ * M)) := by ring
  rw [e3] at h3
  have h5 : 0 ≤ (2 ^ p)⁻¹ * M := by positivity
  clear hu hn hnu hηu hM'
  unfold dev
  generalize rd (x i - cmean rd n x) = d at *
  generalize (2 ^ p)⁻¹ * ((2 ^ p)⁻¹ * M) = c at *
  generalize (2 ^ p)⁻¹ * |x i - cmean rd n x| = e at *
  generalize (2 ^ p)⁻¹ * M = b at *
  calc |d - (x i - mean n x)| = |(d - (x i - cmean rd n x)) + -(cmean rd n x - mean n x)| := by congr 1; ring
    _ ≤ |d - (x i - cmean rd n x)| + |-(cmean rd n x - mean n x)| := abs_add_le _ _
    _ ≤ _ := by rw [abs_neg]; norm_num at *; linarith

end Ufunclab.Corr
