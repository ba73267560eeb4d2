import Verif.Proof.MadRound
import Verif.Props.Mad
/-!
# Property C79: mad, gini and rmad in floating point

`p` and `emin` describe the format, `rd` is any rounding to nearest of it; `(2^p)⁻¹` is the unit
roundoff and `2^emin` the smallest positive number.
-/
namespace Ufunclab.Mad
open Spec Ufunclab.Float
variable {K : Type _} [Field K] [LinearOrder K] [IsStrictOrderedRing K]
variable {p : ℕ} {emin : ℤ} {rd : K → K}

omit [IsStrictOrderedRing K] in
theorem rnd_id (v : XF K) : rnd id v = v := by cases v <;> rfl

omit [IsStrictOrderedRing K] in
theorem scanR_id (ts : List K) : ∀ (k : ℕ) (s t : K), scanR id k s t ts = scan k s t ts := by
  induction ts with
  | nil => intros; rfl
  | cons v ts ih => intro k s t; simp only [scanR, scan, id, ih]

/-- C79: without rounding the rounded models are the models of C38. -/
theorem C79_exact_arithmetic (x : List K) (unbiased : Bool) :
    madR id x unbiased = mad x unbiased ∧ giniR id x unbiased = gini x unbiased ∧ rmadR id x unbiased = rmad x unbiased := by
  have e : unnormalizedMadR id x = unnormalizedMad x := by
    unfold unnormalizedMadR unnormalizedMad
    cases sort x with
    | nil => rfl
    | cons t ts => exact scanR_id ts 1 0 t
  have hg : giniR id x unbiased = gini x unbiased := by simp only [giniR, gini, e, id]
  exact ⟨by simp only [madR, mad, e, rnd_id, id], hg, by simp only [rmadR, rmad, hg, rnd_id]⟩

theorem abs_sum_le (x : List K) : |x.sum| ≤ (x.map abs).sum := by
  induction x with
  | nil => simp
  | cons a l ih =>
    simp only [List.sum_cons, List.map_cons]
    exact (abs_add_le _ _).trans (add_le_add le_rfl ih)

theorem pairSum_le_abs (x : List K) : pairSum x / 2 ≤ ((x.length : K) - 1) * (x.map abs).sum := by
  have h1 : pairSum x ≤ pairSum (x.map abs) + 2 * ((((x.length : K) - 1) * (x.map abs).sum) - pairSum (x.map abs) / 2) := by
    have : pairSum x + 2 * (x.map abs).sum ≤ 2 * (x.length : K) * (x.map abs).sum := by
      induction x with
      | nil => simp [pairSum]
      | cons a l ih =>
        have h1 : (l.map (fun b => |a - b|)).sum ≤ (l.length : K) * |a| + (l.map abs).sum := by
          clear ih
          induction l with
          | nil => simp
          | cons b l ih =>
            have := abs_sub a b
            simp only [List.map_cons, List.sum_cons, List.length_cons]; push_cast
            linarith
        rw [pairSum_cons]
        simp only [List.map_cons, List.sum_cons, List.length_cons]; push_cast
        linarith [h1, ih]
    linarith
  linarith

variable [Archimedean K]

/-- What is common to the accuracy theorems. -/
theorem sums_error (h : Nearest p emin rd) (hp : 10 ≤ p) (he : emin ≤ 0) (x : List K) (hne : x ≠ [])
    (hf : ∀ v ∈ x, IsFloat p emin v) (hn : 100 * ((x.length : K) + 1) ≤ 2 ^ p) :
    |(unnormalizedMadR rd x).1 - pairSum x / 2| ≤
      1.02 * ((x.length : K) + 1) * (2 ^ p)⁻¹ * (((x.length : K) - 1) * (x.map abs).sum) ∧
    |(unnormalizedMadR rd x).2 - x.sum| ≤ 1.02 * ((x.length : K) + 1) * (2 ^ p)⁻¹ * (x.map abs).sum ∧
    IsFloat p emin (unnormalizedMadR rd x).1 ∧ IsFloat p emin (unnormalizedMadR rd x).2 ∧
    1.02 * ((x.length : K) + 1) * (2 ^ p)⁻¹ ≤ 1 / 80 := by
  have hn1 : (1 : K) ≤ (x.length : K) := by exact_mod_cast List.length_pos_iff.2 hne
  have hlen : x.length ≤ 2 ^ p := by
    have : (x.length : K) ≤ ((2 ^ p : ℕ) : K) := by push_cast; linarith
    exact_mod_cast this
  obtain ⟨i1, i2, i3, i4⟩ := unnormalizedMadR_error h (by omega) he x hne hf hlen
  have hu0 : (0 : K) < (2 ^ p)⁻¹ := by positivity
  have hm : ((x.length + 1 : ℕ) : K) * (2 ^ p)⁻¹ ≤ 1 / 100 := by
    push_cast
    rw [← div_eq_mul_inv, div_le_iff₀ (by positivity)]; linarith
  have hb := pow_bound hu0.le _ hm
  push_cast at hm hb
  have hA : 0 ≤ (x.map abs).sum := (abs_nonneg _).trans (abs_sum_le x)
  have hmono : (1 + ((2 ^ p)⁻¹ : K)) ^ x.length ≤ (1 + (2 ^ p)⁻¹) ^ (x.length + 1) :=
    pow_le_pow_right₀ (by linarith) (by omega)
  refine ⟨i1.trans (mul_le_mul_of_nonneg_right (by linarith) (mul_nonneg (by linarith) hA)),
    i2.trans (mul_le_mul_of_nonneg_right (by linarith) hA), i3, i4, ?_⟩
  calc 1.02 * ((x.length : K) + 1) * (2 ^ p)⁻¹ = 1.02 * (((x.length : K) + 1) * (2 ^ p)⁻¹) := by ring
    _ ≤ 1.02 * (1 / 100) := mul_le_mul_of_nonneg_left hm (by norm_num)
    _ ≤ _ := by norm_num

omit [Archimedean K] in
theorem grid_nat (he : emin ≤ 0) (n : ℕ) : OnGrid emin (n : K) :=
  OnGrid.mono he ⟨n, by simp⟩

/-- The rounding of a positive integer. -/
theorem rd_nat (h : Nearest p emin rd) (hp : 1 ≤ p) (he : emin ≤ 0) (n : ℕ) : |rd (n : K) - n| ≤ (2 ^ p)⁻¹ * n := by
  have := h.rel_error hp (grid_nat he n)
  rwa [Nat.abs_cast] at this

theorem rd_nat_ne (h : Nearest p emin rd) (hp : 1 ≤ p) (he : emin ≤ 0) {n : ℕ} (hn : 1 ≤ n) : rd (n : K) ≠ 0 := by
  have f : IsFloat p emin (1 : K) := isFloat_one hp he
  have := h.mono_float f (show (1 : K) ≤ n by exact_mod_cast hn)
  intro hc; rw [hc] at this; linarith

/-- C79 (partial): `n` floating-point numbers, at most `2^p / 100 - 1` of them.  `mad` is a finite number
and differs from the mean absolute difference by at most `2.04 (n + 6)` units of roundoff of the
mean of `|x|`.  Missing: the result can be negative (`C79_nonneg_violated`). -/
theorem C79_mad_accuracy_partial (h : Nearest p emin rd) (hp : 10 ≤ p) (he : emin ≤ 0) (x : List K) (unbiased : Bool)
    (hlen : if unbiased then 2 ≤ x.length else x ≠ []) (hf : ∀ v ∈ x, IsFloat p emin v)
    (hn : 100 * ((x.length : K) + 1) ≤ 2 ^ p) :
    ∃ m, madR rd x unbiased = .fin m ∧
      |m - meanAbsDiff x unbiased| ≤ 2.04 * ((x.length : K) + 6) * (2 ^ p)⁻¹ * average (x.map abs) + 2 * 2 ^ emin := by
  have hne : x ≠ [] := by
    rintro rfl; cases unbiased <;> simp at hlen
  have hn1 : (1 : K) ≤ (x.length : K) := by exact_mod_cast List.length_pos_iff.2 hne
  obtain ⟨i1, -, i3, -, ic⟩ := sums_error h hp he x hne hf hn
  have hu0 : (0 : K) < (2 ^ p)⁻¹ := by positivity
  have hu := unit_le_thousandth (K := K) hp
  have hη : (0 : K) < 2 ^ emin := by positivity
  have hA : 0 ≤ (x.map abs).sum := (abs_nonneg _).trans (abs_sum_le x)
  have herr := fun z => h.error (by omega) z
  set S := (unnormalizedMadR rd x).1 with hS
  set c : K := 1.02 * ((x.length : K) + 1) * (2 ^ p)⁻¹ with hc
  have hc0 : 0 ≤ c := by positivity
  set A := ((x.length : K) - 1) * (x.map abs).sum with hAd
  have hA0 : 0 ≤ A := mul_nonneg (by linarith) hA
  have r2 : rd (2 * S) = 2 * S := h.exact i3.two_mul
  have a1 : |2 * S - pairSum x| ≤ c * (2 * A) + 0 := by
    have : |2 * S - pairSum x| = 2 * |S - pairSum x / 2| := by
      rw [← abs_two (α := K), ← abs_mul, abs_two]; congr 1; ring
    rw [this]; linarith
  have a2 : |pairSum x| ≤ 2 * A := by
    rw [abs_of_nonneg (pairSum_nonneg x)]; linarith [pairSum_le_abs x]
  have hav : average (x.map abs) = (x.map abs).sum / (x.length : K) := by simp [average]
  cases unbiased with
  | false =>
    have hN : ((x.length * x.length : ℕ) : K) = (x.length : K) * x.length := by push_cast; ring
    have hN1 : 1 ≤ x.length * x.length := Nat.mul_pos (List.length_pos_iff.2 hne) (List.length_pos_iff.2 hne)
    have hNe := rd_nat h (by omega) he (x.length * x.length)
    have hN0 := rd_nat_ne h (by omega) he hN1
    rw [hN] at hNe hN0
    refine ⟨rd (2 * S / rd ((x.length : K) * x.length)), ?_, ?_⟩
    · simp only [madR, Bool.false_eq_true, if_false, ← hS, r2]
      rw [XF.div_fin _ _ hN0]; rfl
    · have d := div_step hu0.le hu hc0 (by linarith) le_rfl a1 a2 (by nlinarith) hNe (herr _)
      simp only [meanAbsDiff, Bool.false_eq_true, if_false]
      refine d.trans ?_
      have b1 : 2 * A / ((x.length : K) * x.length) ≤ 2 * average (x.map abs) := by
        rw [hav, hAd, div_le_iff₀ (by positivity)]
        have e1 : 2 * ((x.map abs).sum / (x.length : K)) * ((x.length : K) * x.length) = 2 * (x.map abs).sum * x.length := by
          field_simp
        rw [e1]; nlinarith
      have b0 : 0 ≤ average (x.map abs) := by rw [hav]; positivity
      have b2 : 0 ≤ c + 2.1 * (2 ^ p)⁻¹ := by positivity
      have b3 := mul_le_mul_of_nonneg_left b1 b2
      have b4 : (c + 2.1 * (2 ^ p)⁻¹) * (2 * average (x.map abs)) ≤ 2.04 * ((x.length : K) + 6) * (2 ^ p)⁻¹ * average (x.map abs) := by
        have : 0 ≤ (2 ^ p)⁻¹ * average (x.map abs) := by positivity
        rw [hc]; norm_num; linarith
      linarith
  | true =>
    have hl2 : 2 ≤ x.length := by simpa using hlen
    have hn2 : (2 : K) ≤ (x.length : K) := by exact_mod_cast hl2
    have hN : ((x.length - 1 : ℕ) : K) = (x.length : K) - 1 := by rw [Nat.cast_sub (by omega)]; simp
    have hNe := rd_nat h (by omega) he (x.length - 1)
    have hN0 := rd_nat_ne h (by omega) he (show 1 ≤ x.length - 1 by omega)
    rw [hN] at hNe hN0
    have hMe := rd_nat h (by omega) he x.length
    have hM0 := rd_nat_ne h (by omega) he (show 1 ≤ x.length by omega)
    refine ⟨rd (rd (2 * S / rd (x.length : K)) / rd ((x.length : K) - 1)), ?_, ?_⟩
    · simp only [madR, if_true, ← hS, r2]
      rw [XF.div_fin _ _ hM0]
      simp only [rnd]
      rw [XF.div_fin _ _ hN0]
    · have d1 := div_step hu0.le hu hc0 (by linarith) le_rfl a1 a2 hn1 hMe (herr _)
      have a3 : |pairSum x / (x.length : K)| ≤ 2 * A / (x.length : K) := by
        rw [abs_div, Nat.abs_cast]; exact div_le_div_of_nonneg_right a2 (by linarith)
      have hc2 : c + 2.1 * (2 ^ p)⁻¹ ≤ 1 / 50 := by norm_num; linarith
      have d2 := div_step (e := 1.1 * 0 + 2 ^ emin / 2) hu0.le hu (by positivity) hc2 (by positivity) (d1.trans_eq (add_assoc _ _ _)) a3 (by linarith : (1 : K) ≤ (x.length : K) - 1) hNe (herr _)
      have hne1 : (x.length : K) - 1 ≠ 0 := by intro hc; linarith
      have e0 : meanAbsDiff x true = pairSum x / (x.length : K) / ((x.length : K) - 1) := by
        simp only [meanAbsDiff, if_true, div_div]
      rw [e0]
      refine d2.trans ?_
      have b1 : 2 * A / (x.length : K) / ((x.length : K) - 1) = 2 * average (x.map abs) := by
        rw [hav, hAd]; field_simp
      rw [b1]
      have b0 : 0 ≤ average (x.map abs) := by rw [hav]; positivity
      have : 0 ≤ (2 ^ p)⁻¹ * average (x.map abs) := by positivity
      rw [hc]; norm_num; linarith

theorem map_abs_of_nonneg {x : List K} (hnn : ∀ a ∈ x, 0 ≤ a) : x.map abs = x := by
  conv_rhs => rw [← List.map_id x]
  exact List.map_congr_left (fun a ha => abs_of_nonneg (hnn a ha))

/-- C79 (partial): non-negative data with a positive sum.  `gini` differs from the Gini index by at
most `2.1 (n + 2)` units of roundoff and `rmad` is twice `gini` exactly.
Missing: `gini` can be negative (`C79_nonneg_violated`). -/
theorem C79_gini_accuracy_partial (h : Nearest p emin rd) (hp : 10 ≤ p) (he : emin ≤ 0) (x : List K) (unbiased : Bool)
    (hlen : if unbiased then 2 ≤ x.length else x ≠ []) (hf : ∀ v ∈ x, IsFloat p emin v)
    (hn : 100 * ((x.length : K) + 1) ≤ 2 ^ p) (hnn : ∀ a ∈ x, 0 ≤ a) (hsum : 0 < x.sum) :
    ∃ g, giniR rd x unbiased = .fin g ∧ rmadR rd x unbiased = .fin (2 * g) ∧
      |g - meanAbsDiff x unbiased / (2 * average x)| ≤ 2.1 * ((x.length : K) + 2) * (2 ^ p)⁻¹ + 2 ^ emin := by
  have hne : x ≠ [] := by rintro rfl; simp at hsum
  have hn1 : (1 : K) ≤ (x.length : K) := by exact_mod_cast List.length_pos_iff.2 hne
  obtain ⟨i1, i2, i3, i4, ic⟩ := sums_error h hp he x hne hf hn
  rw [map_abs_of_nonneg hnn] at i1 i2
  have hu0 : (0 : K) < (2 ^ p)⁻¹ := by positivity
  have hu := unit_le_thousandth (K := K) hp
  have hη : (0 : K) < 2 ^ emin := by positivity
  set S := (unnormalizedMadR rd x).1 with hS
  set T := (unnormalizedMadR rd x).2 with hT
  set c : K := 1.02 * ((x.length : K) + 1) * (2 ^ p)⁻¹ with hc
  have hc0 : 0 ≤ c := by positivity
  -- the number of elements, or one less
  obtain ⟨N, hN1, hNle, hNge, hden, hg⟩ : ∃ N : ℕ, 1 ≤ N ∧ N ≤ x.length ∧ (x.length : K) - 1 ≤ N ∧
      (if unbiased then rd (rd ((x.length : K) - 1) * T) else rd (rd (x.length : K) * T)) = rd (rd (N : K) * T) ∧
      meanAbsDiff x unbiased / (2 * average x) = pairSum x / 2 / (N * x.sum) := by
    cases unbiased with
    | false =>
      refine ⟨x.length, List.length_pos_iff.2 hne, le_rfl, by linarith, by simp, ?_⟩
      simp only [meanAbsDiff, average, Bool.false_eq_true, if_false]; field_simp
    | true =>
      have hl2 : 2 ≤ x.length := by simpa using hlen
      have hN : ((x.length - 1 : ℕ) : K) = (x.length : K) - 1 := by rw [Nat.cast_sub (by omega)]; simp
      have hn2 : (2 : K) ≤ (x.length : K) := by exact_mod_cast hl2
      have hne1 : (x.length : K) - 1 ≠ 0 := by intro hc; linarith
      refine ⟨x.length - 1, by omega, by omega, by rw [hN], by simp [hN], ?_⟩
      rw [hN]
      simp only [meanAbsDiff, average, if_true]; field_simp
  have hlp : N ≤ 2 ^ p := by
    have h1 : (N : K) ≤ x.length := by exact_mod_cast hNle
    have : (N : K) ≤ ((2 ^ p : ℕ) : K) := by push_cast; linarith
    exact_mod_cast this
  have rN : rd (N : K) = N := h.exact (isFloat_nat (by omega) he hlp)
  have hNK : (1 : K) ≤ N := by exact_mod_cast hN1
  set D := (N : K) * x.sum with hD
  have hD0 : 0 < D := by positivity
  have eD : |rd (N * T) - D| ≤ (c + 1.02 * (2 ^ p)⁻¹) * D := by
    have e1 : |rd (N * T) - N * T| ≤ (2 ^ p)⁻¹ * |N * T| := h.rel_error (by omega) (OnGrid.natMul N i4.grid)
    have e2 : |(N : K) * T - D| ≤ c * D := by
      rw [hD, ← mul_sub, abs_mul, Nat.abs_cast]
      calc (N : K) * |T - x.sum| ≤ N * (c * x.sum) := mul_le_mul_of_nonneg_left i2 (by linarith)
        _ = _ := by ring
    have e3 : |(N : K) * T| ≤ (1 + c) * D := by
      calc |(N : K) * T| = |(N * T - D) + D| := by congr 1; ring
        _ ≤ _ := abs_add_le _ _
        _ ≤ c * D + D := by rw [abs_of_pos hD0]; linarith
        _ = _ := by ring
    have e4 := mul_le_mul_of_nonneg_left e3 hu0.le
    have e5 : c * ((2 ^ p)⁻¹ * D) ≤ 1 / 80 * ((2 ^ p)⁻¹ * D) := mul_le_mul_of_nonneg_right ic (by positivity)
    have e6 : 0 ≤ (2 ^ p)⁻¹ * D := by positivity
    calc |rd (N * T) - D| = |(rd (N * T) - N * T) + (N * T - D)| := by congr 1; ring
      _ ≤ _ := abs_add_le _ _
      _ ≤ (2 ^ p)⁻¹ * ((1 + c) * D) + c * D := by linarith
      _ ≤ _ := by norm_num at e5 ⊢; linarith
  have hd : c + 1.02 * (2 ^ p)⁻¹ ≤ 0.0136 := by norm_num; linarith
  have hdD : (c + 1.02 * (2 ^ p)⁻¹) * D ≤ 0.0136 * D := mul_le_mul_of_nonneg_right hd hD0.le
  have hDb := abs_le.1 eD
  have hDp : 0.986 * D ≤ rd (N * T) := by norm_num at *; linarith [hDb.1]
  have hDpos : 0 < rd (N * T) := lt_of_lt_of_le (by positivity) hDp
  have hrn : rd (rd (N : K) * T) ≠ 0 := by rw [rN]; exact hDpos.ne'
  have hgini : giniR rd x unbiased = .fin (rd (S / rd (N * T))) := by
    simp only [giniR, ← hS, ← hT, hden]
    rw [if_neg (fun hh => hrn hh.2), if_neg hrn, rN]
  refine ⟨_, hgini, ?_, ?_⟩
  · have f2 : rd (2 * rd (S / rd (N * T))) = 2 * rd (S / rd (N * T)) := h.exact (h _).1.two_mul
    simp only [rmadR, hgini, XF.isnan_fin, Bool.not_false, if_true, XF.mul_fin, rnd]
    rw [mul_comm, f2]
  · rw [hg]
    set G := pairSum x / 2 / D with hG
    have hps := pairSum_nonneg x
    have hple := pairSum_le_abs x
    rw [map_abs_of_nonneg hnn] at hple
    have hQ : ((x.length : K) - 1) * x.sum ≤ D := mul_le_mul_of_nonneg_right hNge hsum.le
    have hG0 : 0 ≤ G := by positivity
    have hG1 : G ≤ 1 := by rw [hG, div_le_one hD0]; linarith
    have hGD : pairSum x / 2 = G * D := by rw [hG, div_mul_cancel₀ _ hD0.ne']
    have q1 : |S / rd (N * T) - G| ≤ 2.03 * c + 1.04 * (2 ^ p)⁻¹ := by
      have e1 : S / rd (N * T) - G = ((S - pairSum x / 2) - G * (rd (N * T) - D)) / rd (N * T) := by
        rw [hGD]; field_simp; ring
      rw [e1, abs_div, abs_of_pos hDpos, div_le_iff₀ hDpos]
      have e2 : |S - pairSum x / 2| ≤ c * D := i1.trans (mul_le_mul_of_nonneg_left hQ hc0)
      have e3 : |G * (rd (N * T) - D)| ≤ 1 * ((c + 1.02 * (2 ^ p)⁻¹) * D) := by
        rw [abs_mul, abs_of_nonneg hG0]
        exact mul_le_mul hG1 eD (abs_nonneg _) (by norm_num)
      refine ((abs_sub _ _).trans (add_le_add e2 e3)).trans ?_
      refine le_trans ?_ (mul_le_mul_of_nonneg_left hDp (by positivity))
      have : 0 ≤ c * D := by positivity
      have : 0 ≤ (2 ^ p)⁻¹ * D := by positivity
      norm_num; linarith
    have q2 : |S / rd (N * T)| ≤ 1.03 := by
      calc |S / rd (N * T)| = |(S / rd (N * T) - G) + G| := by congr 1; ring
        _ ≤ _ := abs_add_le _ _
        _ ≤ 2.03 * c + 1.04 * (2 ^ p)⁻¹ + 1 := by rw [abs_of_nonneg hG0]; linarith
        _ ≤ _ := by norm_num; linarith
    have q3 := h.error (by omega) (S / rd (N * T))
    have q4 := mul_le_mul_of_nonneg_left q2 hu0.le
    calc _ = |(rd (S / rd (N * T)) - S / rd (N * T)) + (S / rd (N * T) - G)| := by congr 1; ring
      _ ≤ _ := abs_add_le _ _
      _ ≤ (2 ^ p)⁻¹ * 1.03 + 2 ^ emin / 2 + (2.03 * c + 1.04 * (2 ^ p)⁻¹) := by linarith
      _ ≤ _ := by
        have : 0 ≤ (x.length : K) * (2 ^ p)⁻¹ := by positivity
        rw [hc]; norm_num; linarith

omit [Archimedean K] in
/-- The loop on a grid fine enough makes no rounding error. -/
theorem scanR_exact (h : Nearest p emin rd) (hp : 1 ≤ p) (he : emin ≤ 0) {e : ℤ} (hee : emin ≤ e) (ts : List K) :
    ∀ (k : ℕ) (s t A B : K), 1 ≤ k → k + ts.length ≤ 2 ^ p + 1 → (∀ v ∈ ts, OnGrid e v) → OnGrid e s → OnGrid e t →
    |t| ≤ A → |s| ≤ B → B + ts.length * A + ((k : K) + ts.length - 1) * (ts.map abs).sum ≤ 2 ^ p * 2 ^ e →
    scanR rd k s t ts = scan k s t ts := by
  induction ts with
  | nil => intros; rfl
  | cons v ts ih =>
    intro k s t A B hk hl hg gs gt hA hB hb
    have gv := hg v (by simp)
    simp only [List.length_cons, List.map_cons, List.sum_cons] at hb hl
    push_cast at hb
    have rk : rd (k : K) = k := h.exact (isFloat_nat hp he (by omega))
    have hA0 : 0 ≤ A := (abs_nonneg t).trans hA
    have hB0 : 0 ≤ B := (abs_nonneg s).trans hB
    have hs0 : 0 ≤ (ts.map abs).sum := (abs_nonneg _).trans (abs_sum_le ts)
    have hk1 : (1 : K) ≤ k := by exact_mod_cast hk
    have hl0 : (0 : K) ≤ (ts.length : K) := by positivity
    have hv0 := abs_nonneg v
    have n1 : 0 ≤ (ts.length : K) * A := by positivity
    have n2 : 0 ≤ (ts.length : K) * |v| := by positivity
    have n3 : |v| ≤ (k : K) * |v| := le_mul_of_one_le_left hv0 hk1
    have n4 : 0 ≤ ((k : K) + ts.length) * (ts.map abs).sum := by positivity
    have hkv : |(k : K) * v| = k * |v| := by rw [abs_mul, Nat.abs_cast]
    have g1 : OnGrid e ((k : K) * v) := OnGrid.natMul k gv
    have b1 : |(k : K) * v| ≤ 2 ^ p * 2 ^ e := by rw [hkv]; linarith
    have b2' : |(k : K) * v - t| ≤ k * |v| + A := (abs_sub _ _).trans (by rw [hkv]; linarith)
    have b3' : |s + ((k : K) * v - t)| ≤ B + (k * |v| + A) := (abs_add_le _ _).trans (add_le_add hB b2')
    have b4' : |t + v| ≤ A + |v| := (abs_add_le _ _).trans (add_le_add hA le_rfl)
    have r1 := h.exact (isFloat_of_grid hp hee g1 b1)
    have r2 := h.exact (isFloat_of_grid hp hee (g1.sub gt) (by linarith))
    have r3 := h.exact (isFloat_of_grid hp hee (gs.add (g1.sub gt)) (by linarith))
    have r4 := h.exact (isFloat_of_grid hp hee (gt.add gv) (by linarith))
    simp only [scanR, scan, rk, r1, r2, r3, r4]
    exact ih (k + 1) _ _ (A + |v|) (B + (k * |v| + A)) (by omega) (by omega) (fun w hw => hg w (by simp [hw])) (gs.add (g1.sub gt))
      (gt.add gv) b4' b3' (by push_cast; linarith)

omit [Archimedean K] in
/-- C79 (partial): data that are multiples of one power of two (integers, for instance) with
`n Σ|x|` within the significand.  The sums are exact: `gini` and `rmad` are the correctly rounded
values, and so is the biased `mad` when also `n^2 ≤ 2^p`. -/
theorem C79_integers_partial (h : Nearest p emin rd) (hp : 1 ≤ p) (he : emin ≤ 0) (e : ℤ) (hee : emin ≤ e) (x : List K)
    (hint : ∀ v ∈ x, ∃ m : ℤ, v = m * 2 ^ e) (hn : x.length ≤ 2 ^ p) (hb : (x.length : K) * (x.map abs).sum ≤ 2 ^ p * 2 ^ e) :
    (∀ unbiased : Bool, (if unbiased then 2 ≤ x.length else x ≠ []) → x.sum ≠ 0 →
      giniR rd x unbiased = .fin (rd (meanAbsDiff x unbiased / (2 * average x)))) ∧
    (x ≠ [] → x.length * x.length ≤ 2 ^ p → madR rd x false = .fin (rd (meanAbsDiff x false))) := by
  have hex : unnormalizedMadR rd x = unnormalizedMad x := by
    have hperm : (sort x).Perm x := List.mergeSort_perm x _
    have hint' : ∀ v ∈ sort x, OnGrid e v := fun v hv => hint v (hperm.mem_iff.1 hv)
    rw [← hperm.length_eq] at hn hb
    rw [← (hperm.map abs).sum_eq] at hb
    unfold unnormalizedMadR unnormalizedMad
    cases hs : sort x with
    | nil => rfl
    | cons t ts =>
      rw [hs] at hint' hn hb
      simp only [List.length_cons, List.map_cons, List.sum_cons] at hn hb
      push_cast at hb
      have hs0 : 0 ≤ (ts.map abs).sum := (abs_nonneg _).trans (abs_sum_le ts)
      have n1 : 0 ≤ (ts.length : K) * (ts.map abs).sum := by positivity
      have := abs_nonneg t
      exact scanR_exact h hp he hee ts 1 0 t |t| 0 le_rfl (by omega) (fun v hv => hint' v (by simp [hv])) ⟨0, by simp⟩
        (hint' t (by simp)) le_rfl (by simp) (by push_cast; linarith)
  obtain ⟨s1, s2⟩ := unnormalizedMad_spec x
  have s1' : (unnormalizedMad x).1 = pairSum x / 2 := by rw [← s1]; ring
  have gsum : OnGrid e x.sum := by
    clear hn hb s1 s2 s1' hex
    induction x with
    | nil => exact ⟨0, by simp⟩
    | cons a l ih =>
      rw [List.sum_cons]
      exact OnGrid.add (hint a (by simp)) (ih (fun v hv => hint v (by simp [hv])))
  have hA := abs_sum_le x
  have hA0 : 0 ≤ (x.map abs).sum := (abs_nonneg _).trans hA
  constructor
  · intro unbiased hlen hsum
    have hne : x ≠ [] := by rintro rfl; simp at hsum
    have hn1 : (1 : K) ≤ (x.length : K) := by exact_mod_cast List.length_pos_iff.2 hne
    obtain ⟨N, hN1, hNle, hden, hg⟩ : ∃ N : ℕ, 1 ≤ N ∧ N ≤ x.length ∧
        (if unbiased then rd (rd ((x.length : K) - 1) * x.sum) else rd (rd (x.length : K) * x.sum)) = rd (rd (N : K) * x.sum) ∧
        meanAbsDiff x unbiased / (2 * average x) = pairSum x / 2 / (N * x.sum) := by
      cases unbiased with
      | false =>
        refine ⟨x.length, List.length_pos_iff.2 hne, le_rfl, by simp, ?_⟩
        simp only [meanAbsDiff, average, Bool.false_eq_true, if_false]; field_simp
      | true =>
        have hl2 : 2 ≤ x.length := by simpa using hlen
        have hN : ((x.length - 1 : ℕ) : K) = (x.length : K) - 1 := by rw [Nat.cast_sub (by omega)]; simp
        have hn2 : (2 : K) ≤ (x.length : K) := by exact_mod_cast hl2
        have hne1 : (x.length : K) - 1 ≠ 0 := by intro hc; linarith
        refine ⟨x.length - 1, by omega, by omega, by simp [hN], ?_⟩
        rw [hN]
        simp only [meanAbsDiff, average, if_true]; field_simp
    have rN : rd (N : K) = N := h.exact (isFloat_nat hp he (hNle.trans hn))
    have hNK : (N : K) ≤ x.length := by exact_mod_cast hNle
    have hNK1 : (1 : K) ≤ N := by exact_mod_cast hN1
    have rD : rd ((N : K) * x.sum) = N * x.sum := by
      refine h.exact (isFloat_of_grid hp hee (OnGrid.natMul N gsum) ?_)
      rw [abs_mul, Nat.abs_cast]
      exact (mul_le_mul hNK hA (abs_nonneg _) (by linarith)).trans hb
    have hD0 : (N : K) * x.sum ≠ 0 := mul_ne_zero (by linarith) hsum
    simp only [giniR, hex, s2, s1', hden, rN, rD]
    rw [if_neg (fun hh => hD0 hh.2), if_neg hD0, hg]
  · intro hne hnn
    have hN : ((x.length * x.length : ℕ) : K) = (x.length : K) * x.length := by push_cast; ring
    have rN : rd ((x.length : K) * x.length) = (x.length : K) * x.length := by
      rw [← hN]; exact h.exact (isFloat_nat hp he hnn)
    have hn1 : (1 : K) ≤ (x.length : K) := by exact_mod_cast List.length_pos_iff.2 hne
    have hf : rd (pairSum x) = pairSum x := by
      -- half of it is within the significand
      have hS : OnGrid e (pairSum x / 2) := by
        rw [← s1']
        have hperm : (sort x).Perm x := List.mergeSort_perm x _
        have hint' : ∀ v ∈ sort x, OnGrid e v := fun v hv => hint v (hperm.mem_iff.1 hv)
        unfold unnormalizedMad
        have scan_grid : ∀ (ts : List K) (k : ℕ) (s t : K), (∀ v ∈ ts, OnGrid e v) → OnGrid e s → OnGrid e t → OnGrid e (scan k s t ts).1 := by
          intro ts
          induction ts with
          | nil => intro k s t _ gs _; exact gs
          | cons v ts ih =>
            intro k s t hv gs gt
            exact ih _ _ _ (fun w hw => hv w (by simp [hw])) (gs.add ((OnGrid.natMul k (hv v (by simp))).sub gt)) (gt.add (hv v (by simp)))
        cases hs : sort x with
        | nil => exact ⟨0, by simp⟩
        | cons t ts =>
          rw [hs] at hint'
          exact scan_grid ts 1 0 t (fun v hv => hint' v (by simp [hv])) ⟨0, by simp⟩ (hint' t (by simp))
      have hle := pairSum_le_abs x
      have h0 := pairSum_nonneg x
      have : IsFloat p emin (pairSum x / 2) := isFloat_of_grid hp hee hS (by
        rw [abs_of_nonneg (by linarith)]; linarith)
      have := this.two_mul
      rw [show 2 * (pairSum x / 2) = pairSum x by ring] at this
      exact h.exact this
    have hd0 : (x.length : K) * x.length ≠ 0 := mul_ne_zero (by linarith) (by linarith)
    simp only [madR, Bool.false_eq_true, if_false, hex, s1, hf, rN]
    rw [XF.div_fin _ _ hd0]
    simp [rnd, meanAbsDiff]

/-! ### Eight copies of the double nearest to 0.9 -/

/-- The double nearest to 0.9, in units of `2^-53`. -/
def nineTenths : ℚ := 8106479329266893 * 2 ^ (-53 : ℤ)

/-- The double literal `0.9`. -/
theorem nineTenths_float : IsFloat 53 (-1074) nineTenths ∧ |nineTenths - 9 / 10| < 2 ^ (-54 : ℤ) := by
  refine ⟨⟨8106479329266893, -53, by norm_num, by norm_num, by simp [nineTenths]⟩, ?_⟩
  rw [nineTenths, abs_lt]; constructor <;> norm_num

theorem scanR_step {rd : ℚ → ℚ} {k : ℕ} {s t v kk q d s' t' : ℚ} {ts : List ℚ} (h1 : rd (k : ℚ) = kk) (h2 : rd (kk * v) = q)
    (h3 : rd (q - t) = d) (h4 : rd (s + d) = s') (h5 : rd (t + v) = t') : scanR rd k s t (v :: ts) = scanR rd (k + 1) s' t' ts := by
  simp only [scanR, h1, h2, h3, h4, h5]

/-- The sums for the eight copies, in units of `2^-53`: `-8` and `64851834634135152`. -/
theorem nineTenths_sums (rd : ℚ → ℚ) (h : Nearest 53 (-1074) rd) :
    scanR rd 1 0 nineTenths (List.replicate 7 nineTenths) = (-8 * 2 ^ (-53 : ℤ), 64851834634135152 * 2 ^ (-53 : ℤ)) := by
  have P : ∀ (z r : ℚ) (m k : ℤ), |m| < 2 ^ 53 → -1074 ≤ k → 2 ^ 53 * 2 ^ k ≤ |z| → |(m : ℚ) * 2 ^ (k + 1) - z| < 2 ^ k →
      r = m * 2 ^ (k + 1) → rd z = r := fun z r m k h1 h2 h3 h4 h5 => by rw [h5]; exact h.pin (by norm_num) m k h1 h2 h3 h4
  have E : ∀ (z r : ℚ) (m e : ℤ), |m| < 2 ^ 53 → -1074 ≤ e → z = m * 2 ^ e → r = m * 2 ^ e → rd z = r :=
    fun z r m e h1 h2 h3 h4 => by rw [h3, h4]; exact h.exact ⟨m, e, h1, h2, rfl⟩
  have Z : ∀ z r : ℚ, z = 0 → r = 0 → rd z = r := fun z r h1 h2 => by rw [h1, h2]; exact h.round_zero
  have N : ∀ n : ℕ, n ≤ 2 ^ 53 → rd (n : ℚ) = n := fun n hn => h.exact (isFloat_nat (by norm_num) (by norm_num) hn)
  have a0 : nineTenths = 8106479329266893 * 2 ^ (-53 : ℤ) := rfl
  rw [show List.replicate 7 nineTenths = [nineTenths, nineTenths, nineTenths, nineTenths, nineTenths, nineTenths, nineTenths] from rfl]
  rw [scanR_step (N 1 (by norm_num)) (q := 8106479329266893 * 2 ^ (-53 : ℤ)) (d := 0 * 2 ^ (-53 : ℤ)) (s' := 0 * 2 ^ (-53 : ℤ)) (t' := 16212958658533786 * 2 ^ (-53 : ℤ))
    (E _ _ 8106479329266893 (-53) (by norm_num) (by norm_num) (by norm_num [a0]) (by norm_num [a0])) (Z _ _ (by norm_num [a0]) (by norm_num)) (Z _ _ (by norm_num [a0]) (by norm_num)) (E _ _ 8106479329266893 (-52) (by norm_num) (by norm_num) (by norm_num [a0]) (by norm_num [a0]))]
  rw [scanR_step (N 2 (by norm_num)) (q := 16212958658533786 * 2 ^ (-53 : ℤ)) (d := 0 * 2 ^ (-53 : ℤ)) (s' := 0 * 2 ^ (-53 : ℤ)) (t' := 24319437987800680 * 2 ^ (-53 : ℤ))
    (E _ _ 8106479329266893 (-52) (by norm_num) (by norm_num) (by norm_num [a0]) (by norm_num [a0])) (Z _ _ (by norm_num [a0]) (by norm_num)) (Z _ _ (by norm_num [a0]) (by norm_num)) (P _ _ 6079859496950170 (-52) (by norm_num) (by norm_num) (by norm_num [a0]) (by norm_num [a0]) (by norm_num [a0]))]
  rw [scanR_step (N 3 (by norm_num)) (q := 24319437987800680 * 2 ^ (-53 : ℤ)) (d := 0 * 2 ^ (-53 : ℤ)) (s' := 0 * 2 ^ (-53 : ℤ)) (t' := 32425917317067572 * 2 ^ (-53 : ℤ))
    (P _ _ 6079859496950170 (-52) (by norm_num) (by norm_num) (by norm_num [a0]) (by norm_num [a0]) (by norm_num [a0])) (Z _ _ (by norm_num [a0]) (by norm_num)) (Z _ _ (by norm_num [a0]) (by norm_num)) (P _ _ 8106479329266893 (-52) (by norm_num) (by norm_num) (by norm_num [a0]) (by norm_num [a0]) (by norm_num [a0]))]
  rw [scanR_step (N 4 (by norm_num)) (q := 32425917317067572 * 2 ^ (-53 : ℤ)) (d := 0 * 2 ^ (-53 : ℤ)) (s' := 0 * 2 ^ (-53 : ℤ)) (t' := 40532396646334464 * 2 ^ (-53 : ℤ))
    (E _ _ 8106479329266893 (-51) (by norm_num) (by norm_num) (by norm_num [a0]) (by norm_num [a0])) (Z _ _ (by norm_num [a0]) (by norm_num)) (Z _ _ (by norm_num [a0]) (by norm_num)) (P _ _ 5066549580791808 (-51) (by norm_num) (by norm_num) (by norm_num [a0]) (by norm_num [a0]) (by norm_num [a0]))]
  rw [scanR_step (N 5 (by norm_num)) (q := 40532396646334464 * 2 ^ (-53 : ℤ)) (d := 0 * 2 ^ (-53 : ℤ)) (s' := 0 * 2 ^ (-53 : ℤ)) (t' := 48638875975601360 * 2 ^ (-53 : ℤ))
    (P _ _ 5066549580791808 (-51) (by norm_num) (by norm_num) (by norm_num [a0]) (by norm_num [a0]) (by norm_num [a0])) (Z _ _ (by norm_num [a0]) (by norm_num)) (Z _ _ (by norm_num [a0]) (by norm_num)) (P _ _ 6079859496950170 (-51) (by norm_num) (by norm_num) (by norm_num [a0]) (by norm_num [a0]) (by norm_num [a0]))]
  rw [scanR_step (N 6 (by norm_num)) (q := 48638875975601360 * 2 ^ (-53 : ℤ)) (d := 0 * 2 ^ (-53 : ℤ)) (s' := 0 * 2 ^ (-53 : ℤ)) (t' := 56745355304868256 * 2 ^ (-53 : ℤ))
    (P _ _ 6079859496950170 (-51) (by norm_num) (by norm_num) (by norm_num [a0]) (by norm_num [a0]) (by norm_num [a0])) (Z _ _ (by norm_num [a0]) (by norm_num)) (Z _ _ (by norm_num [a0]) (by norm_num)) (P _ _ 7093169413108532 (-51) (by norm_num) (by norm_num) (by norm_num [a0]) (by norm_num [a0]) (by norm_num [a0]))]
  rw [scanR_step (N 7 (by norm_num)) (q := 56745355304868248 * 2 ^ (-53 : ℤ)) (d := -8 * 2 ^ (-53 : ℤ)) (s' := -8 * 2 ^ (-53 : ℤ)) (t' := 64851834634135152 * 2 ^ (-53 : ℤ))
    (P _ _ 7093169413108531 (-51) (by norm_num) (by norm_num) (by norm_num [a0]) (by norm_num [a0]) (by norm_num [a0])) (E _ _ (-8) (-53) (by norm_num) (by norm_num) (by norm_num [a0]) (by norm_num [a0])) (E _ _ (-8) (-53) (by norm_num) (by norm_num) (by norm_num [a0]) (by norm_num [a0])) (P _ _ 8106479329266894 (-51) (by norm_num) (by norm_num) (by norm_num [a0]) (by norm_num [a0]) (by norm_num [a0]))]
  rfl

/-- C79 is false of the code: eight doubles all equal to 0.9 have a mean absolute difference, a Gini index
and a relative mean absolute difference of zero.  What is computed is negative, whatever the rule for ties. -/
theorem C79_nonneg_violated (rd : ℚ → ℚ) (h : Nearest 53 (-1074) rd) :
    (∀ unbiased, ∃ m, madR rd (List.replicate 8 nineTenths) unbiased = .fin m ∧ m < 0) ∧
    (∀ unbiased, ∃ g, giniR rd (List.replicate 8 nineTenths) unbiased = .fin g ∧ g < 0) ∧
    (∀ unbiased, ∃ g, rmadR rd (List.replicate 8 nineTenths) unbiased = .fin g ∧ g < 0) ∧
    (∀ unbiased, meanAbsDiff (List.replicate 8 nineTenths) unbiased = 0) := by
  have hs : sort (List.replicate 8 nineTenths) = List.replicate 8 nineTenths := by
    unfold sort
    apply List.mergeSort_of_pairwise
    simp
  have hu : unnormalizedMadR rd (List.replicate 8 nineTenths) = (-8 * 2 ^ (-53 : ℤ), 64851834634135152 * 2 ^ (-53 : ℤ)) := by
    unfold unnormalizedMadR
    rw [hs]
    exact nineTenths_sums rd h
  have E : ∀ (z r : ℚ) (m e : ℤ), |m| < 2 ^ 53 → -1074 ≤ e → z = m * 2 ^ e → r = m * 2 ^ e → rd z = r :=
    fun z r m e h1 h2 h3 h4 => by rw [h3, h4]; exact h.exact ⟨m, e, h1, h2, rfl⟩
  have neg : ∀ z : ℚ, z ≤ -(2 ^ (-57 : ℤ)) → rd z < 0 := fun z hz =>
    lt_of_le_of_lt (h.mono_float' (isFloat_zpow (by norm_num) (by norm_num)).neg hz) (by norm_num)
  have r8 : rd 8 = 8 := E _ _ 8 0 (by norm_num) (by norm_num) (by norm_num) (by norm_num)
  have r7 : rd 7 = 7 := E _ _ 7 0 (by norm_num) (by norm_num) (by norm_num) (by norm_num)
  have r64 : rd 64 = 64 := E _ _ 64 0 (by norm_num) (by norm_num) (by norm_num) (by norm_num)
  have rS : rd (2 * (-8 * 2 ^ (-53 : ℤ))) = -16 * 2 ^ (-53 : ℤ) := E _ _ (-16) (-53) (by norm_num) (by norm_num) (by norm_num) (by norm_num)
  have r8T : rd (8 * (64851834634135152 * 2 ^ (-53 : ℤ))) = 64851834634135152 * 2 ^ (-50 : ℤ) :=
    E _ _ 4053239664633447 (-46) (by norm_num) (by norm_num) (by norm_num) (by norm_num)
  have rT : rd (64851834634135152 * 2 ^ (-53 : ℤ)) = 64851834634135152 * 2 ^ (-53 : ℤ) :=
    E _ _ 4053239664633447 (-49) (by norm_num) (by norm_num) (by norm_num) (by norm_num)
  have rS8 : rd (-16 * 2 ^ (-53 : ℤ) / 8) = -2 * 2 ^ (-53 : ℤ) := E _ _ (-2) (-53) (by norm_num) (by norm_num) (by norm_num) (by norm_num)
  have hm : ∀ unbiased, ∃ m, madR rd (List.replicate 8 nineTenths) unbiased = .fin m ∧ m < 0 := by
    intro unbiased
    cases unbiased with
    | false =>
      refine ⟨rd (-16 * 2 ^ (-53 : ℤ) / 64), ?_, neg _ (by norm_num)⟩
      simp only [madR, hu, rS, List.length_replicate, Bool.false_eq_true, if_false]
      rw [show ((8 : ℕ) : ℚ) * ((8 : ℕ) : ℚ) = 64 by norm_num, r64, XF.div_fin _ _ (by norm_num)]
      rfl
    | true =>
      refine ⟨rd (-2 * 2 ^ (-53 : ℤ) / 7), ?_, neg _ (by norm_num)⟩
      simp only [madR, hu, rS, List.length_replicate, if_true]
      rw [show ((8 : ℕ) : ℚ) - 1 = 7 by norm_num, show ((8 : ℕ) : ℚ) = 8 by norm_num, r8, r7, XF.div_fin _ _ (by norm_num)]
      simp only [rnd, rS8]
      rw [XF.div_fin _ _ (by norm_num)]
  have hg : ∀ unbiased, ∃ g, giniR rd (List.replicate 8 nineTenths) unbiased = .fin g ∧ g < 0 ∧ IsFloat 53 (-1074) g := by
    have key : ∀ D : ℚ, 0 < D → D ≤ 64851834634135152 * 2 ^ (-50 : ℤ) → rd (-8 * 2 ^ (-53 : ℤ) / D) < 0 := by
      intro D h1 h2
      apply neg
      rw [div_le_iff₀ h1]
      calc -8 * 2 ^ (-53 : ℤ) ≤ -(2 ^ (-57 : ℤ)) * (64851834634135152 * 2 ^ (-50 : ℤ) : ℚ) := by norm_num
        _ ≤ _ := by rw [neg_mul, neg_mul]; exact neg_le_neg (mul_le_mul_of_nonneg_left h2 (by norm_num))
    intro unbiased
    cases unbiased with
    | false =>
      refine ⟨_, ?_, key (64851834634135152 * 2 ^ (-50 : ℤ)) (by norm_num) le_rfl, (h _).1⟩
      simp only [giniR, hu, List.length_replicate, Bool.false_eq_true, if_false]
      rw [show ((8 : ℕ) : ℚ) = 8 by norm_num, r8, r8T, if_neg (by norm_num), if_neg (by norm_num)]
    | true =>
      have l1 : rd (7 * (64851834634135152 * 2 ^ (-53 : ℤ))) ≤ 64851834634135152 * 2 ^ (-50 : ℤ) := by
        rw [← r8T]; exact h.monotone (by norm_num)
      have l2 : 0 < rd (7 * (64851834634135152 * 2 ^ (-53 : ℤ))) := by
        refine lt_of_lt_of_le ?_ (h.monotone (show 64851834634135152 * 2 ^ (-53 : ℤ) ≤ _ by norm_num))
        rw [rT]; norm_num
      refine ⟨_, ?_, key _ l2 l1, (h _).1⟩
      simp only [giniR, hu, List.length_replicate, if_true]
      rw [show ((8 : ℕ) : ℚ) - 1 = 7 by norm_num, r7, if_neg (fun hh => l2.ne' hh.2), if_neg l2.ne']
  refine ⟨hm, fun b => ?_, fun b => ?_, fun b => ?_⟩
  · obtain ⟨g, h1, h2, _⟩ := hg b
    exact ⟨g, h1, h2⟩
  · obtain ⟨g, h1, h2, h3⟩ := hg b
    refine ⟨2 * g, ?_, by linarith⟩
    simp only [rmadR, h1, XF.isnan_fin, Bool.not_false, if_true, XF.mul_fin, rnd]
    rw [mul_comm, h.exact h3.two_mul]
  · have : pairSum (List.replicate 8 nineTenths) = 0 := (pairSum_eq_zero _).2 (by
      intro a ha b hb
      rw [List.eq_of_mem_replicate ha, List.eq_of_mem_replicate hb])
    rw [meanAbsDiff, this, zero_div]

/-! ### Non-vacuity: the hypotheses of the accuracy and exactness theorems, x = [4, 0, 2] in binary64 -/
example : ∃ rd : ℚ → ℚ, Nearest 53 (-1074) rd := exists_nearest (by norm_num) _
example : (∀ v ∈ [(4 : ℚ), 0, 2], IsFloat 53 (-1074) v) ∧ 100 * (([(4 : ℚ), 0, 2].length : ℚ) + 1) ≤ 2 ^ 53 ∧ 0 < [(4 : ℚ), 0, 2].sum := by
  refine ⟨?_, by norm_num, by norm_num⟩
  intro v hv
  simp at hv
  rcases hv with rfl | rfl | rfl
  exacts [⟨4, 0, by norm_num, by norm_num, by norm_num⟩, ⟨0, 0, by norm_num, by norm_num, by norm_num⟩, ⟨2, 0, by norm_num, by norm_num, by norm_num⟩]
/-- The Gini index of `[4, 0, 2]` is the double nearest to 4/9. -/
example (rd : ℚ → ℚ) (h : Nearest 53 (-1074) rd) : giniR rd [4, 0, 2] false = .fin (rd (4 / 9)) := by
  rw [(C79_integers_partial h (by norm_num) (by norm_num) 0 (by norm_num) [4, 0, 2] (by
    intro v hv
    simp at hv
    rcases hv with rfl | rfl | rfl
    exacts [⟨4, by norm_num⟩, ⟨0, by norm_num⟩, ⟨2, by norm_num⟩]) (by norm_num) (by norm_num)).1 false (by simp) (by norm_num)]
  norm_num [meanAbsDiff, pairSum, average]

end Ufunclab.Mad
