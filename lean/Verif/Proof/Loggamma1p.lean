import Verif.Proof.Loggamma1pBig
/-! # loggamma1p: all arguments -/
namespace Ufunclab.Loggamma1p
open Ufunclab.Debye1 Ufunclab.PolyPos Real

noncomputable section

/-! ### The gamma function -/

theorem logGamma_add_one {b : ℝ} (hb : 0 < b) : log (Gamma (b + 1)) = log b + log (Gamma b) := by
  rw [Gamma_add_one hb.ne', log_mul hb.ne' (Gamma_pos_of_pos hb).ne']

theorem logGamma_diff {a b : ℝ} (ha : 0 < a) (hab : a < b) :
    log (Gamma b) - log (Gamma a) ≤ (b - a) * log b ∧
    (b - a) * log a - (log b - log a) ≤ log (Gamma b) - log (Gamma a) := by
  have hb : 0 < b := ha.trans hab
  have hc := convexOn_log_Gamma
  have h1 := hc.slope_mono_adjacent (x := a) (y := b) (z := b + 1) ha (Set.mem_Ioi.2 (by linarith)) hab (by linarith)
  have h2 := hc.slope_mono_adjacent (x := a) (y := a + 1) (z := b + 1) ha (Set.mem_Ioi.2 (by linarith)) (by linarith) (by linarith)
  simp only [Function.comp] at h1 h2
  rw [logGamma_add_one hb, add_sub_cancel_left, div_one, div_le_iff₀ (by linarith)] at h1
  rw [logGamma_add_one hb, logGamma_add_one ha, add_sub_cancel_left, div_one, le_div_iff₀ (by linarith)] at h2
  constructor <;> linarith

theorem logGamma_near_one {s : ℝ} (hs : 0 ≤ s) (hs1 : s ≤ 1) : |log (Gamma (s + 1))| ≤ s := by
  rcases hs.lt_or_eq with h | rfl
  · obtain ⟨h1, h2⟩ := logGamma_diff one_pos (show (1 : ℝ) < s + 1 by linarith)
    rw [Gamma_one, log_one] at h1 h2
    have h3 := log_le_sub_one_of_pos (show (0 : ℝ) < s + 1 by linarith)
    have h4 : s * log (s + 1) ≤ s * s := mul_le_mul_of_nonneg_left (by linarith) hs
    rw [abs_le]; constructor <;> nlinarith
  · simp

/-- The condition of `log Γ`: a relative error `u` of the argument. -/
theorem logGamma_cond {u t y : ℝ} (hu0 : 0 ≤ u) (hu : u ≤ 1 / 1000) (hy : 0 < y) (h : |t - y| ≤ u * y) :
    |log (Gamma t) - log (Gamma y)| ≤ u * (y * (2 * |log y| + 0.1) + 1.02) := by
  obtain ⟨ht, hl⟩ := log_rel hy (by norm_num at hu ⊢; linarith) h
  have hlt : |log t| ≤ |log y| + 0.01 := by
    calc |log t| = |(log t - log y) + log y| := by congr 1; ring
      _ ≤ _ := abs_add_le _ _
      _ ≤ _ := by norm_num at hl hu ⊢; linarith
  have key : ∀ a b : ℝ, 0 < a → a < b → |log (Gamma b) - log (Gamma a)| ≤ (b - a) * (|log a| + |log b|) + |log b - log a| := by
    intro a b ha hab
    obtain ⟨h1, h2⟩ := logGamma_diff ha hab
    have m1 : (b - a) * log b ≤ (b - a) * |log b| := mul_le_mul_of_nonneg_left (le_abs_self _) (by linarith)
    have m2 : (b - a) * (-|log a|) ≤ (b - a) * log a := mul_le_mul_of_nonneg_left (neg_abs_le _) (by linarith)
    have m3 : 0 ≤ (b - a) * |log b| := mul_nonneg (by linarith) (abs_nonneg _)
    have m4 : 0 ≤ (b - a) * |log a| := mul_nonneg (by linarith) (abs_nonneg _)
    have m5 := le_abs_self (log b - log a)
    have m6 := abs_nonneg (log b - log a)
    rw [abs_le]; constructor <;> nlinarith
  have fin : ∀ d : ℝ, 0 ≤ d → d ≤ u * y → d * (|log t| + |log y|) + 1.02 * u ≤ u * (y * (2 * |log y| + 0.1) + 1.02) := by
    intro d hd0 hd
    have : d * (|log t| + |log y|) ≤ u * y * (2 * |log y| + 0.1) :=
      mul_le_mul hd (by norm_num at hlt ⊢; linarith) (by positivity) (by positivity)
    nlinarith
  rcases lt_trichotomy t y with hc | hc | hc
  · have := key t y ht hc
    rw [abs_sub_comm, abs_sub_comm (log y)] at this
    rw [abs_sub_comm, abs_of_pos (by linarith)] at h
    exact (this.trans (add_le_add le_rfl hl)).trans (fin _ (by linarith) h)
  · subst hc; rw [sub_self, abs_zero]; positivity
  · have := key y t hy hc
    rw [add_comm |log y|] at this
    rw [abs_of_pos (by linarith)] at h
    exact (this.trans (add_le_add le_rfl hl)).trans (fin _ (by linarith) h)

/-! ### Sizes -/

theorem log_S_bound {t : ℝ} (ht : 0 < t) : |log (S t)| ≤ 7.1 + |log t| := by
  have h1 := S_lower ht
  have h2 := S_upper ht
  have h0 := S_pos ht
  have hpos : 0 ≤ log (S t) := log_nonneg (by norm_num at h1; linarith)
  rw [abs_of_nonneg hpos]
  have h1180 : log 1180 ≤ 7.1 := by
    rw [log_le_iff_le_exp (by norm_num)]
    have e1 : exp 7.1 = exp 1 ^ 7 * exp 0.1 := by rw [← exp_nat_mul, ← exp_add]; norm_num
    have e2 : (2.7182 : ℝ) ^ 7 ≤ exp 1 ^ 7 := pow_le_pow_left₀ (by norm_num) (by have := exp_one_gt_d9; norm_num at this ⊢; linarith) 7
    have e3 := add_one_le_exp (0.1 : ℝ)
    rw [e1]
    have := mul_le_mul e2 e3 (by norm_num) (by positivity)
    refine le_trans ?_ this
    norm_num
  rcases le_total 1 t with h | h
  · have : S t ≤ 1180 := by
      refine h2.trans ?_
      have : 1 / t ≤ 1 := by rw [div_le_one ht]; exact h
      linarith
    have := log_le_log h0 this
    have := abs_nonneg (log t)
    linarith
  · have : S t ≤ 1180 / t := by
      refine h2.trans ?_
      rw [le_div_iff₀ ht]
      have : 590 * (1 + 1 / t) * t = 590 * t + 590 := by field_simp
      linarith
    have h3 := log_le_log h0 this
    rw [log_div (by norm_num) ht.ne'] at h3
    have := neg_le_abs (log t)
    linarith

theorem log_w_bound {t : ℝ} (ht : 0 < t) : log (t + gR - 1 / 2) ≤ 1.9 + |log t| := by
  obtain ⟨g1, g2⟩ := gR_bounds
  have hw : 0 < t + gR - 1 / 2 := by norm_num at g1; linarith
  have h653 : log 6.53 ≤ 1.9 := by
    rw [log_le_iff_le_exp (by norm_num)]
    have e1 : exp 1.9 = exp 1 ^ 2 * exp (-0.1) := by rw [← exp_nat_mul, ← exp_add]; norm_num
    have e2 : (2.7182 : ℝ) ^ 2 ≤ exp 1 ^ 2 := pow_le_pow_left₀ (by norm_num) (by have := exp_one_gt_d9; norm_num at this ⊢; linarith) 2
    have e3 := add_one_le_exp (-0.1 : ℝ)
    rw [e1]
    have := mul_le_mul e2 e3 (by norm_num) (by positivity)
    refine le_trans ?_ this
    norm_num
  rcases le_total 1 t with h | h
  · have : t + gR - 1 / 2 ≤ 6.53 * t := by norm_num at g2 ⊢; linarith
    have h3 := log_le_log hw this
    rw [log_mul (by norm_num) ht.ne'] at h3
    have := le_abs_self (log t)
    linarith
  · have : t + gR - 1 / 2 ≤ 6.53 := by norm_num at g2 ⊢; linarith
    have h3 := log_le_log hw this
    have := abs_nonneg (log t)
    linarith

theorem v0_le {t : ℝ} (ht : 0 ≤ t) : v0 t ≤ 4.1 / 10 ^ 16 := by
  have b1 : 1 / (t + 1 / 2) ≤ 1 / (1 / 2 : ℝ) := one_div_le_one_div_of_le (by norm_num) (by linarith)
  have b2 : 1 / (t + 199 / 2) ≤ 1 / (199 / 2 : ℝ) := one_div_le_one_div_of_le (by norm_num) (by linarith)
  rw [v0, div_eq_mul_one_div _ (t + 1 / 2), div_eq_mul_one_div _ (t + 199 / 2)]
  norm_num at b1 b2 ⊢
  linarith

variable {u η ε : ℝ} {rd lg : ℝ → ℝ}

/-- **`m_lgamma`** against the gamma function. -/
theorem mLgamma_error (A : Arith u η rd) (hlg : LogAcc ε lg) (hε0 : 0 ≤ ε) (hε : ε ≤ 1 / 1000) {t : ℝ} (ht : 0 < t) (ht1 : t ≠ 1) :
    |mLgamma rd lg t - log (Gamma t)| ≤ 5.15 / 10 ^ 16 + ε * (9.5 + 2 * |log t| + t * (2.1 + 1.1 * |log t|)) +
      u * (102 + 5 * |log t| + t * (14 + 5 * |log t|)) := by
  have hlt0 := abs_nonneg (log t)
  have hu0 := A.u0
  have hu := A.u1
  have hη' := A.η1
  have hlit : lit (1, 20) = 1 / 10 ^ 20 := by simp [lit]
  have hc := A.rnd (lit (1, 20))
  rw [hlit, abs_of_pos (show (0 : ℝ) < 1 / 10 ^ 20 by positivity)] at hc
  have hc' := abs_le.1 hc
  rw [mLgamma, if_neg (by push Not; exact ⟨ht.ne', ht1⟩), abs_of_pos ht]
  simp only [hlit]
  by_cases hs : t < rd (1 / 10 ^ 20)
  · rw [if_pos hs]
    have h1 := hlg t ht
    have hts : t ≤ 2 / 10 ^ 20 := by
      have := hc'.2
      norm_num at this hu hη' ⊢; linarith
    have h2 := logGamma_near_one ht.le (by norm_num at hts ⊢; linarith)
    rw [logGamma_add_one ht] at h2
    have h3 : |-lg t - log (Gamma t)| ≤ ε * |log t| + t := by
      calc |-lg t - log (Gamma t)| = |-(lg t - log t) + -(log t + log (Gamma t))| := by congr 1; ring
        _ ≤ _ := abs_add_le _ _
        _ ≤ _ := by rw [abs_neg, abs_neg]; linarith
    have p1 : 0 ≤ ε * (9.5 + |log t| + t * (2.1 + 1.1 * |log t|)) := by positivity
    have p2 : 0 ≤ u * (102 + 5 * |log t| + t * (14 + 5 * |log t|)) := by positivity
    have e : ε * (9.5 + 2 * |log t| + t * (2.1 + 1.1 * |log t|)) = ε * (9.5 + |log t| + t * (2.1 + 1.1 * |log t|)) + ε * |log t| := by ring
    rw [e]
    norm_num at hts ⊢; linarith
  · rw [if_neg hs]
    have ht21 : 1 / 10 ^ 21 ≤ t := by
      have := hc'.1
      norm_num at this hu hη' ⊢; linarith
    obtain ⟨r, p, er, ep, _, _, h1⟩ := big_round A hlg hε0 hε ht21
    rw [er, ep]
    have h2 := Lam_gamma ht
    have h3 := cInf_bound
    have h4 := v0_le ht.le
    have hL := log_S_bound ht
    have hl := log_w_bound ht
    set L := |log (S t)|
    set l := log (t + gR - 1 / 2) with hld
    set m := |log t|
    have hl0 : 0 ≤ l := by
      obtain ⟨g1, _⟩ := gR_bounds
      exact log_nonneg (by norm_num at g1; linarith)
    have hτ : |t - 1 / 2| ≤ t + 1 / 2 := by rw [abs_le]; constructor <;> linarith
    have hτ0 := abs_nonneg (t - 1 / 2)
    have q1 : |t - 1 / 2| * l ≤ (t + 1 / 2) * (1.9 + m) := mul_le_mul hτ hl hl0 (by positivity)
    have q2 : |t - 1 / 2| * (5 * l + 4) ≤ (t + 1 / 2) * (5 * (1.9 + m) + 4) := by
      apply mul_le_mul hτ _ (by positivity) (by positivity); norm_num at hl ⊢; linarith
    have r1 : 1.01 * L + 1 + 1.1 * (|t - 1 / 2| * l) ≤ 9.5 + 2 * m + t * (2.1 + 1.1 * m) := by
      norm_num at q1 hL ⊢; nlinarith
    have r2 : 2.1 * L + 80 + |t - 1 / 2| * (5 * l + 4) ≤ 102 + 5 * m + t * (14 + 5 * m) := by
      norm_num at q2 hL ⊢; nlinarith
    have r3 := mul_le_mul_of_nonneg_left r1 hε0
    have r4 := mul_le_mul_of_nonneg_left r2 hu0
    set M := rd (r + p)
    calc |M - log (Gamma t)| = |(M - Lam t) + cInf + -(log (Gamma t) - (Lam t - cInf))| := by congr 1; ring
      _ ≤ |M - Lam t| + |cInf| + |-(log (Gamma t) - (Lam t - cInf))| := (abs_add_le _ _).trans (add_le_add (abs_add_le _ _) le_rfl)
      _ ≤ _ := by rw [abs_neg]; norm_num at h4 h3 ⊢; linarith

/-- **`loggamma1p`**, all finite arguments above -1. -/
theorem finite_error (A : Arith u η rd) (hlg : LogAcc ε lg) (hε0 : 0 ≤ ε) (hε : ε ≤ 1 / 1000) {x : ℝ} (hx : -1 < x)
    (hrel : |rd (1 + x) - (1 + x)| ≤ u * (1 + x)) :
    ∃ v, finite rd lg x = .fin v ∧
      |v - log (Gamma (1 + x))| ≤ 5.2 / 10 ^ 16 + (105 * u + 10 * ε) + (15 * u + 3 * ε) * (1 + x + |log (1 + x)| + (1 + x) * |log (1 + x)|) ∧
      (-1 / 4 < x → x < 0.9 - 1 / 10 ^ 15 → |v - log (Gamma (1 + x))| ≤ (3.35 / 10 ^ 16 + (kap x + 1.2) * u) * |x| + 540 * η) := by
  have hu0 := A.u0
  have hu := A.u1
  have hη0 := A.η0
  have hη' := A.η1
  set y := 1 + x with hyd
  have hy : 0 < y := by linarith
  have hm := abs_nonneg (log y)
  have hb0 : 0 ≤ (15 * u + 3 * ε) * (y + |log y| + y * |log y|) := by positivity
  have hlit : lit (9, 1) = 0.9 := by norm_num [lit]
  have hc := A.rnd 0.9
  rw [abs_of_pos (show (0 : ℝ) < 0.9 by norm_num)] at hc
  have hc' := abs_le.1 hc
  have hc1 : 0.9 - 1 / 10 ^ 15 ≤ rd 0.9 := by
    have := hc'.1; norm_num at this hu hη' ⊢; linarith
  have hc2 : rd 0.9 < 0.901 := by
    have := hc'.2; norm_num at this hu hη' ⊢; linarith
  rw [finite, if_neg (not_le.2 hx)]
  by_cases h01 : x = 0 ∨ x = 1
  · rw [if_pos h01]
    have hg : log (Gamma y) = 0 := by
      rcases h01 with rfl | rfl
      · rw [hyd, add_zero, Gamma_one, log_one]
      · rw [hyd, Gamma_add_one one_ne_zero, Gamma_one, mul_one, log_one]
    refine ⟨0, rfl, ?_, fun h1 _ => ?_⟩
    · rw [hg, sub_zero, abs_zero]; positivity
    · rw [hg, sub_zero, abs_zero]
      have := (kap_bounds h1.le).1
      positivity
  · rw [if_neg h01, hlit]
    by_cases hr : -1 / 4 < x ∧ x < rd 0.9
    · rw [if_pos hr]
      have h1 := small_round A hr.1.le (lt_trans hr.2 hc2)
      have h2 := pade_gamma hr.1.le (lt_trans hr.2 hc2)
      have hs : |x| ≤ 1 := by
        have := lt_trans hr.2 hc2
        rw [abs_le]; constructor <;> norm_num at this ⊢ <;> linarith
      have h3 : |smallX rd x - log (Gamma y)| ≤ (3.35 / 10 ^ 16 + (kap x + 1.2) * u) * |x| + 540 * η := by
        calc |smallX rd x - log (Gamma y)| = |(smallX rd x - pade x) + (pade x - log (Gamma y))| := by congr 1; ring
          _ ≤ _ := abs_add_le _ _
          _ ≤ _ := by linarith
      refine ⟨_, rfl, ?_, fun _ _ => h3⟩
      refine h3.trans ?_
      obtain ⟨k1, k2, _⟩ := kap_bounds hr.1.le
      have k3 : (kap x + 1.2) * u ≤ 84 * u := mul_le_mul_of_nonneg_right (by norm_num; linarith) hu0
      have k4 : (3.35 / 10 ^ 16 + (kap x + 1.2) * u) * |x| ≤ 3.35 / 10 ^ 16 + (kap x + 1.2) * u :=
        mul_le_of_le_one_right (by positivity) hs
      norm_num at hη' k4 k3 ⊢; linarith
    · rw [if_neg hr]
      obtain ⟨ht, hlt⟩ := log_rel hy (by norm_num at hu ⊢; linarith) hrel
      set t := rd y with htd
      have htn : t ≠ 1 := by
        intro h1
        rw [h1] at hrel
        have := abs_le.1 hrel
        have hu3 : u * y ≤ 1 / 10 ^ 15 * y := mul_le_mul_of_nonneg_right hu hy.le
        apply hr
        norm_num at hc1 hu3 this ⊢
        constructor <;> linarith
      have h1 := mLgamma_error A hlg hε0 hε ht htn
      have h2 := logGamma_cond hu0 (by norm_num at hu ⊢; linarith) hy hrel
      refine ⟨_, rfl, ?_, fun h3 h4 => absurd ⟨h3, lt_of_lt_of_le h4 hc1⟩ hr⟩
      have hty := (abs_le.1 hrel).2
      have huy : u * y ≤ 1 / 10 ^ 15 * y := mul_le_mul_of_nonneg_right hu hy.le
      have t1 : t ≤ 1.001 * y := by norm_num at huy ⊢; linarith
      have t2 : |log t| ≤ |log y| + 0.001 := by
        calc |log t| = |(log t - log y) + log y| := by congr 1; ring
          _ ≤ _ := abs_add_le _ _
          _ ≤ _ := by norm_num at hlt hu ⊢; linarith
      have hm' := abs_nonneg (log t)
      set m := |log y|
      set n := |log t|
      have a1 : t * (2.1 + 1.1 * n) ≤ 1.001 * y * (2.1 + 1.1 * (m + 0.001)) := by
        apply mul_le_mul t1 _ (by positivity) (by positivity); linarith
      have a2 : t * (14 + 5 * n) ≤ 1.001 * y * (14 + 5 * (m + 0.001)) := by
        apply mul_le_mul t1 _ (by positivity) (by positivity); linarith
      have hym : 0 ≤ y * m := by positivity
      have b1 : 9.5 + 2 * n + t * (2.1 + 1.1 * n) ≤ 10 + 3 * (y + m + y * m) := by
        norm_num at a1 t2 ⊢; linarith
      have b2 : 102 + 5 * n + t * (14 + 5 * n) + (y * (2 * m + 0.1) + 1.02) ≤ 104 + 15 * (y + m + y * m) := by
        norm_num at a2 t2 ⊢; linarith
      have c1 := mul_le_mul_of_nonneg_left b1 hε0
      have c2 := mul_le_mul_of_nonneg_left b2 hu0
      have hf : |mLgamma rd lg t - log (Gamma y)| ≤ |mLgamma rd lg t - log (Gamma t)| + |log (Gamma t) - log (Gamma y)| := by
        calc |mLgamma rd lg t - log (Gamma y)| = |(mLgamma rd lg t - log (Gamma t)) + (log (Gamma t) - log (Gamma y))| := by congr 1; ring
          _ ≤ _ := abs_add_le _ _
      refine hf.trans ?_
      have e1 : u * (102 + 5 * n + t * (14 + 5 * n) + (y * (2 * m + 0.1) + 1.02)) =
          u * (102 + 5 * n + t * (14 + 5 * n)) + u * (y * (2 * m + 0.1) + 1.02) := by ring
      rw [e1] at c2
      calc _ ≤ _ := add_le_add h1 h2
        _ ≤ 5.15 / 10 ^ 16 + ε * (10 + 3 * (y + m + y * m)) + u * (104 + 15 * (y + m + y * m)) := by linarith
        _ ≤ _ := by
          have : 5.15 / 10 ^ 16 ≤ (5.2 / 10 ^ 16 : ℝ) := by norm_num
          linarith

end
end Ufunclab.Loggamma1p
