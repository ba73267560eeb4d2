import Verif.Proof.Loggamma1p
import Verif.Proof.Log1p
import Verif.Proof.Log1pSum
import Verif.Proof.XF
/-!
# C73: loggamma1p computes log Γ(1+x) for every real x > -1

`Real.Gamma` is Mathlib's gamma function.  The 13 + 13 coefficients of Lanczos's sum and the
13 + 11 coefficients of the Padé approximant are checked against it by the kernel.
-/
namespace Ufunclab.Loggamma1p
open XF Real Ufunclab.Float Ufunclab.Debye1 Ufunclab.PolyPos

set_option exponentiation.threshold 3000

theorem arith_id : Arith 0 0 id := ⟨rd_id, rfl, le_rfl, by norm_num, le_rfl, by norm_num⟩

theorem arith_double {rd : ℝ → ℝ} (h : Nearest 53 (-1074) rd) : Arith (1 / 2 ^ 53) (1 / 2 ^ 1075) rd :=
  ⟨rd_double h, h.round_zero, by positivity, by norm_num, by positivity, by norm_num⟩

/-- The sum `1 + x` of doubles has a relative error, even where it is subnormal. -/
theorem add_one_rel {rd : ℝ → ℝ} (h : Nearest 53 (-1074) rd) {x : ℝ} (hx : IsFloat 53 (-1074) x) (h1 : -1 < x) :
    |rd (1 + x) - (1 + x)| ≤ 1 / 2 ^ 53 * (1 + x) := by
  have g1 : IsFloat 53 (-1074) (1 : ℝ) := ⟨1, 0, by norm_num, by norm_num, by norm_num⟩
  have := h.rel_error (by norm_num) (g1.grid.add hx.grid)
  rw [abs_of_pos (show 0 < 1 + x by linarith), ← one_div] at this
  exact this

/-- **C73, exact arithmetic.** The coefficients give `log Γ(1+x)` to `5.2e-16` for every `x > -1`, and
to `3.4e-16 |x|` in the range of the Padé approximant. -/
theorem C73_exact {x : ℝ} (hx : -1 < x) :
    ∃ v, loggamma1p id log (.fin x) = .fin v ∧ |v - log (Gamma (1 + x))| ≤ 5.2 / 10 ^ 16 ∧
      (-1 / 4 < x → x < 0.9 - 1 / 10 ^ 15 → |v - log (Gamma (1 + x))| ≤ 3.4 / 10 ^ 16 * |x|) := by
  obtain ⟨v, hv, h1, h2⟩ := finite_error arith_id (ε := 0) (lg := log) (fun z _ => by simp) le_rfl (by norm_num) hx (by simp)
  refine ⟨v, hv, h1.trans (le_of_eq (by ring)), fun a b => (h2 a b).trans ?_⟩
  have := abs_nonneg x
  norm_num
  linarith

/-- **C73, accuracy in double precision**, for every double `x > -1` and a C library whose `log` has
a relative error below `2^-52`. -/
theorem C73_accuracy {rd lg : ℝ → ℝ} (h : Nearest 53 (-1074) rd) (hlg : ∀ z, 0 < z → |lg z - log z| ≤ 1 / 2 ^ 52 * |log z|)
    {x : ℝ} (hf : IsFloat 53 (-1074) x) (hx : -1 < x) :
    ∃ v, loggamma1p rd lg (.fin x) = .fin v ∧
      |v - log (Gamma (1 + x))| ≤ 1.5 / 10 ^ 14 + 2.4 / 10 ^ 15 * (1 + x + |log (1 + x)| + (1 + x) * |log (1 + x)|) := by
  obtain ⟨v, hv, h1, _⟩ := finite_error (arith_double h) (ε := 1 / 2 ^ 52) hlg (by positivity) (by norm_num) hx (add_one_rel h hf hx)
  refine ⟨v, hv, h1.trans ?_⟩
  have hy : 0 < 1 + x := by linarith
  have : 0 ≤ 1 + x + |log (1 + x)| + (1 + x) * |log (1 + x)| := by positivity
  have := mul_le_mul_of_nonneg_right (show (15 * (1 / 2 ^ 53) + 3 * (1 / 2 ^ 52) : ℝ) ≤ 2.4 / 10 ^ 15 by norm_num) this
  refine add_le_add ?_ this
  norm_num

/-- The arithmetic and the logarithm of the theorem exist: the logarithm can be correctly rounded. -/
example : ∃ rd lg : ℝ → ℝ, Nearest 53 (-1074) rd ∧ ∀ z, 0 < z → |lg z - log z| ≤ 1 / 2 ^ 52 * |log z| := by
  obtain ⟨rd, h⟩ := exists_nearest (K := ℝ) (p := 53) (by norm_num) (-1074)
  exact ⟨rd, log, h, fun z _ => by rw [sub_self, abs_zero]; positivity⟩

/-- **C73, small arguments.** In the range of the Padé approximant the error is in proportion to
`x`: the sum `1 + x` is not formed, and no logarithm is used. -/
theorem C73_small {rd lg : ℝ → ℝ} (h : Nearest 53 (-1074) rd) {x : ℝ} (h1 : -1 / 4 < x) (h2 : x < 0.9 - 1 / 10 ^ 15) :
    ∃ v, loggamma1p rd lg (.fin x) = .fin v ∧
      |v - log (Gamma (1 + x))| ≤
        (if x < 0 then 1 / 10 ^ 15 + 7 / 10 ^ 15 * |x| + 1.2 / 10 ^ 13 * x ^ 2 else 1.3 / 10 ^ 15) * |x| + 1 / 2 ^ 1065 := by
  have A := arith_double h
  have hlit : lit (9, 1) = 0.9 := by norm_num [lit]
  have hc := A.rnd 0.9
  rw [abs_of_pos (show (0 : ℝ) < 0.9 by norm_num)] at hc
  have hc1 : x < rd 0.9 := by
    have := (abs_le.1 hc).1; norm_num at this h2 ⊢; linarith
  have hx901 : x < 0.901 := by norm_num at h2 ⊢; linarith
  have hbase : ∃ v, finite rd lg x = .fin v ∧
      |v - log (Gamma (1 + x))| ≤ (3.35 / 10 ^ 16 + (kap x + 1.2) * (1 / 2 ^ 53)) * |x| + 540 * (1 / 2 ^ 1075) := by
    rw [finite, if_neg (not_le.2 (by linarith)), hlit]
    by_cases h01 : x = 0 ∨ x = 1
    · rw [if_pos h01]
      have hx0 : x = 0 := h01.resolve_right (by norm_num at h2; linarith)
      subst hx0
      refine ⟨0, rfl, ?_⟩
      rw [add_zero, Gamma_one, log_one, sub_zero, abs_zero, mul_zero, zero_add]
      positivity
    · rw [if_neg h01, if_pos ⟨h1, hc1⟩]
      refine ⟨_, rfl, ?_⟩
      have q1 := small_round A h1.le hx901
      have q2 := pade_gamma h1.le hx901
      calc |smallX rd x - log (Gamma (1 + x))| = |(smallX rd x - pade x) + (pade x - log (Gamma (1 + x)))| := by congr 1; ring
        _ ≤ _ := abs_add_le _ _
        _ ≤ _ := by linarith
  obtain ⟨v, hv, hb⟩ := hbase
  refine ⟨v, hv, hb.trans (add_le_add (mul_le_mul_of_nonneg_right ?_ (abs_nonneg x)) (by norm_num))⟩
  rw [kap]
  have h0 := abs_nonneg x
  have h20 := sq_nonneg x
  split_ifs
  · norm_num; linarith
  · norm_num

theorem cert_rel : cell (psub (psmul (-100) pP1) (psmul 57 pQ)) (-10) 10 10000 10000 = true := by decide +kernel
theorem cert_rel1 : cell (psub (psmul (-100) pP1) (psmul 57 pQ)) (-2500) 1 10000 10000 = true := by decide +kernel
theorem cert_rel2 : cell (psub (psmul (-100) pP1) (psmul 24 pQ)) 0 5001 10000 10000 = true := by decide +kernel

/-- The size of `log Γ(1+x)` in the range of the approximant. -/
theorem logGamma_size {x c : ℝ} (h1 : -1 / 4 ≤ x) (h2 : x < 0.901)
    (h : c * val x qCoeffs ≤ -val x p1Coeffs) : (c - 1 / 10 ^ 15) * |x| ≤ |log (Gamma (1 + x))| := by
  have hq := q_lower h1 h2
  have hq0 : 0 < val x qCoeffs := by norm_num at hq; linarith
  have hp := pade_gamma h1 h2
  have hlit0 : lit (0, 0) = 0 := by simp [lit]
  have eV : val x pCoeffs = val x p1Coeffs * x := by
    have : val x pCoeffs = val x p1Coeffs * x + lit (0, 0) := rfl
    rw [this, hlit0, add_zero]
  have hpad : c * |x| ≤ |pade x| := by
    rw [← val_pade, eV, mul_div_right_comm, abs_mul]
    apply mul_le_mul_of_nonneg_right _ (abs_nonneg x)
    rw [abs_div, abs_of_pos hq0, le_div_iff₀ hq0]
    exact h.trans (neg_le_abs _)
  have : |pade x| ≤ |pade x - log (Gamma (1 + x))| + |log (Gamma (1 + x))| := by
    calc |pade x| = |(pade x - log (Gamma (1 + x))) + log (Gamma (1 + x))| := by congr 1; ring
      _ ≤ _ := abs_add_le _ _
  have h0 := abs_nonneg x
  have e : (c - 1 / 10 ^ 15) * |x| = c * |x| - 1 / 10 ^ 15 * |x| := by ring
  rw [e]
  norm_num at hp ⊢
  linarith

theorem cert_val {k : ℤ} {x : ℝ} (h : 0 ≤ peval (psub (psmul (-100) pP1) (psmul k pQ)) x) :
    (k / 100 : ℝ) * val x qCoeffs ≤ -val x p1Coeffs := by
  have w4 := val_peval 22 x p1Coeffs (by decide)
  have w5 := val_peval 22 x qCoeffs (by decide)
  rw [← pP1] at w4
  rw [← pQ] at w5
  simp only [psub, peval_padd, peval_psmul, ← w4, ← w5] at h
  push_cast at h
  have h22 : (0 : ℝ) < 10 ^ 22 := by positivity
  refine le_of_mul_le_mul_right ?_ h22
  linarith

/-- **C73, relative accuracy near zero**: the result has the accuracy of the format where the
expression `log Γ(1 + x)` computed from the rounded sum would not. -/
theorem C73_relative {rd lg : ℝ → ℝ} (h : Nearest 53 (-1074) rd) {x : ℝ} (h1 : -1 / 4 < x) (h2 : x ≤ 1 / 2) :
    ∃ v, loggamma1p rd lg (.fin x) = .fin v ∧
      |v - log (Gamma (1 + x))| ≤ (if |x| < 1 / 1000 then 2.5 / 10 ^ 15 else 2 / 10 ^ 14) * |log (Gamma (1 + x))| + 1 / 2 ^ 1065 := by
  obtain ⟨v, hv, hb⟩ := C73_small (lg := lg) h h1 (by norm_num; linarith)
  refine ⟨v, hv, hb.trans (add_le_add ?_ le_rfl)⟩
  have hx901 : x < 0.901 := by norm_num; linarith
  have h0 := abs_nonneg x
  by_cases hs : |x| < 1 / 1000
  · rw [if_pos hs]
    have hs' := abs_lt.1 hs
    have := logGamma_size h1.le hx901 (cert_val (k := 57)
      (cell_sound _ _ _ _ _ cert_rel (by push_cast; linarith [hs'.1]) (by push_cast; linarith [hs'.2])))
    norm_num at this
    split_ifs with hneg
    · have hx2 : x ^ 2 ≤ 1 / 10 ^ 6 := by
        rw [← sq_abs]
        have := mul_le_mul hs.le hs.le h0 (by norm_num)
        norm_num at this ⊢; nlinarith
      have : (1 / 10 ^ 15 + 7 / 10 ^ 15 * |x| + 1.2 / 10 ^ 13 * x ^ 2) * |x| ≤ 1.13 / 10 ^ 15 * |x| := by
        apply mul_le_mul_of_nonneg_right _ h0; norm_num at hx2 ⊢; linarith
      norm_num at this ⊢; linarith
    · norm_num; linarith
  · rw [if_neg hs]
    split_ifs with hneg
    · have := logGamma_size h1.le hx901 (cert_val (k := 57)
        (cell_sound _ _ _ _ _ cert_rel1 (by push_cast; linarith) (by push_cast; linarith)))
      norm_num at this
      have hx4 : |x| ≤ 1 / 4 := by rw [abs_of_neg hneg]; linarith
      have hx2 : x ^ 2 ≤ 1 / 16 := by
        rw [← sq_abs]; nlinarith
      have : (1 / 10 ^ 15 + 7 / 10 ^ 15 * |x| + 1.2 / 10 ^ 13 * x ^ 2) * |x| ≤ 1.1 / 10 ^ 14 * |x| := by
        apply mul_le_mul_of_nonneg_right _ h0; norm_num at hx2 ⊢; linarith
      norm_num at this ⊢; linarith
    · have := logGamma_size h1.le hx901 (cert_val (k := 24)
        (cell_sound _ _ _ _ _ cert_rel2 (by push_cast; linarith) (by push_cast; linarith)))
      norm_num at this
      norm_num; linarith

/-- The README's example `x = -3e-11` meets the hypotheses. -/
example {rd lg : ℝ → ℝ} (h : Nearest 53 (-1074) rd) : ∃ v, loggamma1p rd lg (.fin (-3 / 10 ^ 11)) = .fin v ∧
    |v - log (Gamma (1 + -3 / 10 ^ 11))| ≤ 2.5 / 10 ^ 15 * |log (Gamma (1 + -3 / 10 ^ 11))| + 1 / 2 ^ 1065 := by
  have := C73_relative (lg := lg) h (x := -3 / 10 ^ 11) (by norm_num) (by norm_num)
  rwa [if_pos (by rw [abs_lt]; constructor <;> norm_num)] at this

/-- **C73, the zeros of `log Γ`**: the results at 0 and 1 are exactly zero. -/
theorem C73_zeros (rd lg : ℝ → ℝ) :
    loggamma1p rd lg (.fin 0) = .fin 0 ∧ loggamma1p rd lg (.fin 1) = .fin 0 ∧
    log (Gamma (1 + 0)) = 0 ∧ log (Gamma (1 + 1)) = 0 := by
  refine ⟨by simp [loggamma1p, finite], ?_, ?_, ?_⟩
  · rw [loggamma1p, finite, if_neg (by norm_num), if_pos (Or.inr rfl)]
  · rw [add_zero, Gamma_one, log_one]
  · rw [Gamma_add_one one_ne_zero, Gamma_one, mul_one, log_one]

/-- **C73, the domain**: the result is NaN exactly for NaN, `-inf` and the numbers up to -1, and
infinite exactly for `+inf`. -/
theorem C73_domain (rd lg : ℝ → ℝ) (x : XF ℝ) :
    (loggamma1p rd lg x = .nan ↔ x = .nan ∨ x = .ninf ∨ ∃ a ≤ -1, x = .fin a) ∧
    (loggamma1p rd lg x = .pinf ↔ x = .pinf) ∧ loggamma1p rd lg x ≠ .ninf := by
  cases x with
  | nan => simp [loggamma1p]
  | ninf => simp [loggamma1p]
  | pinf => simp [loggamma1p]
  | fin a =>
    rw [loggamma1p, finite]
    split_ifs with h1 h2 h3 <;> simp [h1]

set_option maxHeartbeats 1000000 in
/-- **C73, the other zero.** Next to `x = 1`, the second zero of `log Γ(1+x)`, the accuracy is absolute
only: at the double after 1 the error is at least the value itself, whatever the rounding of ties
and however accurate the C library's logarithm. -/
theorem C73_near_one_violated {rd lg : ℝ → ℝ} (h : Nearest 53 (-1074) rd)
    (hlg : ∀ z, 0 < z → |lg z - log z| ≤ 1 / 1000 * |log z|) :
    ∃ x v, IsFloat 53 (-1074) x ∧ -1 < x ∧ loggamma1p rd lg (.fin x) = .fin v ∧
      0 < log (Gamma (1 + x)) ∧ log (Gamma (1 + x)) ≤ |v - log (Gamma (1 + x))| := by
  obtain ⟨d, hd⟩ : ∃ d : ℝ, d = 1 / 2 ^ 52 := ⟨_, rfl⟩
  have hd0 : 0 < d := by positivity
  have hds : d ≤ 1 / 10 ^ 15 := by rw [hd]; norm_num
  have hfl : IsFloat 53 (-1074) (1 + d) := ⟨2 ^ 52 + 1, -52, by norm_num, by norm_num, by rw [hd]; norm_num⟩
  have A := arith_double h
  -- the value
  have F1 : log (Gamma (1 + (1 + d))) = log (1 + d) + log (Gamma (1 + d)) := by
    rw [add_comm 1 (1 + d)]; exact logGamma_add_one (by linarith)
  have hdiff := logGamma_diff (show (0 : ℝ) < 2 by norm_num) (show (2 : ℝ) < 2 + d by linarith)
  have hG2 : log (Gamma 2) = 0 := by
    rw [show (2 : ℝ) = 1 + 1 by norm_num, Gamma_add_one one_ne_zero, Gamma_one, mul_one, log_one]
  rw [hG2, sub_zero] at hdiff
  have hy2 : 1 + (1 + d) = 2 + d := by ring
  have hlog2 := log_two_gt_d9
  have hpos : 0 < log (Gamma (2 + d)) := by
    refine lt_of_lt_of_le ?_ hdiff.2
    have h1 : log (2 + d) - log 2 ≤ d / 2 := by
      rw [← log_div (by linarith) (by norm_num)]
      have := log_le_sub_one_of_pos (show 0 < (2 + d) / 2 by linarith)
      linarith
    rw [add_sub_cancel_left]
    have h2 : d * 0.6931471803 ≤ d * log 2 := mul_le_mul_of_nonneg_left hlog2.le hd0.le
    norm_num at h2; linarith
  have hupp : log (Gamma (2 + d)) ≤ d / 2 := by
    rw [← hy2, F1]
    have h1 := log_le_sub_one_of_pos (show 0 < 1 + d by linarith)
    have hp := pade_gamma (x := d) (by linarith) (by norm_num at hds ⊢; linarith)
    have hc := cert_val (k := 57) (x := d) (cell_sound _ _ _ _ _ cert_rel (by push_cast; linarith) (by push_cast; norm_num at hds ⊢; linarith))
    have hq := q_lower (x := d) (by linarith) (by norm_num at hds ⊢; linarith)
    have hq0 : 0 < val d qCoeffs := by norm_num at hq; linarith
    have hlit0 : lit (0, 0) = 0 := by simp [lit]
    have eV : val d pCoeffs = val d p1Coeffs * d := by
      have : val d pCoeffs = val d p1Coeffs * d + lit (0, 0) := rfl
      rw [this, hlit0, add_zero]
    have hpad : pade d ≤ -0.57 * d := by
      rw [← val_pade, eV, mul_div_right_comm]
      apply mul_le_mul_of_nonneg_right _ hd0.le
      rw [div_le_iff₀ hq0]
      norm_num at hc ⊢; linarith
    rw [abs_of_pos hd0] at hp
    have := (abs_le.1 hp).1
    norm_num at this hpad ⊢
    linarith
  -- the computation
  have hlit : lit (9, 1) = 0.9 := by norm_num [lit]
  have hc9 := abs_le.1 (A.rnd 0.9)
  rw [abs_of_pos (show (0 : ℝ) < 0.9 by norm_num)] at hc9
  have hnot : ¬(-1 / 4 < 1 + d ∧ 1 + d < rd 0.9) := by
    rintro ⟨_, hlt⟩
    have := hc9.2
    norm_num at this; linarith
  obtain ⟨t, ht⟩ : ∃ t, t = rd (2 + d) := ⟨_, rfl⟩
  have hrel := add_one_rel h hfl (by linarith)
  rw [hy2, ← ht] at hrel
  have htb := abs_le.1 hrel
  have ht2 : |t - 2| ≤ 1 / 10 ^ 14 := by
    rw [abs_le]; constructor <;> norm_num at htb hds ⊢ <;> linarith [htb.1, htb.2]
  have htb2 := abs_le.1 ht2
  have ht0 : 0 < t := by norm_num at htb2; linarith [htb2.1]
  have hcs := abs_le.1 (A.rnd (1 / 10 ^ 20))
  rw [abs_of_pos (show (0 : ℝ) < 1 / 10 ^ 20 by positivity)] at hcs
  have hbig : ¬ t < rd (1 / 10 ^ 20) := by
    intro hlt
    have := hcs.2
    norm_num at this htb2; linarith [htb2.1]
  obtain ⟨r, p, er, ep, hr, hp, -⟩ := big_round A hlg (by norm_num) le_rfl (t := t) (by norm_num at htb2 ⊢; linarith [htb2.1])
  have hval : loggamma1p rd lg (.fin (1 + d)) = .fin (rd (r + p)) := by
    rw [loggamma1p, finite, if_neg (by linarith), if_neg (by rintro (h | h) <;> linarith), hlit, if_neg hnot, hy2, ← ht, mLgamma,
      if_neg (by rintro (h | h) <;> norm_num at htb2 <;> linarith [htb2.1]), abs_of_pos ht0]
    simp only [show lit (1, 20) = 1 / 10 ^ 20 by simp [lit]]
    rw [if_neg hbig, er, ep]
  refine ⟨1 + d, _, hfl, by linarith, hval, by rw [hy2]; exact hpos, ?_⟩
  rw [hy2]
  -- r is near -1.53 and p near 1.53
  obtain ⟨g1, g2⟩ := gR_bounds
  have hgv : gR = 808618867 / 134217728 := by rw [gR]; norm_num
  obtain ⟨l, hl⟩ : ∃ l, l = log (t + gR - 1 / 2) := ⟨_, rfl⟩
  rw [← hl] at hp
  have hl1 : 2 ≤ l := by
    rw [hl, le_log_iff_exp_le (by norm_num at g1; linarith)]
    have e2 : exp 2 = exp 1 ^ 2 := by rw [← exp_nat_mul]; norm_num
    have e3 : exp 1 ^ 2 ≤ 2.7182818286 ^ 2 := pow_le_pow_left₀ (exp_pos _).le exp_one_lt_d9.le 2
    rw [e2]
    refine e3.trans ?_
    rw [hgv]; norm_num at htb2 ⊢; linarith [htb2.1]
  have hl2 : l ≤ 2.03 := by
    rw [hl, log_le_iff_le_exp (by norm_num at g1; linarith)]
    have e2 : exp 2.03 = exp 1 ^ 2 * exp 0.03 := by rw [← exp_nat_mul, ← exp_add]; norm_num
    have e3 : (2.7182818283 : ℝ) ^ 2 ≤ exp 1 ^ 2 := pow_le_pow_left₀ (by norm_num) exp_one_gt_d9.le 2
    have e4 := add_one_le_exp (0.03 : ℝ)
    rw [e2]
    refine le_trans ?_ (mul_le_mul e3 e4 (by norm_num) (by positivity))
    rw [hgv]; norm_num at htb2 ⊢; linarith [htb2.2]
  have hτ : |t - 1 / 2| ≤ 1.51 := by rw [abs_le]; constructor <;> norm_num at htb2 ⊢ <;> linarith [htb2.1, htb2.2]
  have hτ0 := abs_nonneg (t - 1 / 2)
  have hτv : 1.49 ≤ t - 1 / 2 := by norm_num at htb2 ⊢; linarith [htb2.1]
  have hτv2 : t - 1 / 2 ≤ 1.51 := (le_abs_self _).trans hτ
  have hP1 : 1.49 ≤ (t - 1 / 2) * (l - 1) := by nlinarith
  have hP2 : (t - 1 / 2) * (l - 1) ≤ 1.556 := by
    have := mul_le_mul hτv2 (show l - 1 ≤ 1.03 by linarith) (by linarith) (by norm_num)
    norm_num at this ⊢; linarith
  have hLam := Lam_gamma ht0
  have hcI := cInf_bound
  have hv0 := v0_le ht0.le
  have hcond := logGamma_cond (u := 1 / 10 ^ 10) (by norm_num) (by norm_num) (show (0 : ℝ) < 2 by norm_num) (t := t) (by norm_num at ht2 ⊢; linarith)
  rw [hG2, sub_zero, abs_of_pos (log_pos (by norm_num : (1 : ℝ) < 2))] at hcond
  have hl2u := log_two_lt_d9
  have hLt : |Lam t| ≤ 0.01 := by
    have e : Lam t = log (Gamma t) - (log (Gamma t) - (Lam t - cInf)) + cInf := by ring
    rw [e]
    refine ((abs_add_le _ _).trans (add_le_add (abs_sub _ _) le_rfl)).trans ?_
    norm_num at hcond hLam hcI hv0 hl2u ⊢; linarith
  have eLam : Lam t = log (S t) - gR + (t - 1 / 2) * (l - 1) := by rw [hl]; rfl
  have hLtb := abs_le.1 hLt
  have hLS : |log (S t)| ≤ 5 := by
    rw [abs_le]; constructor <;> norm_num at hLtb g1 g2 hP1 hP2 ⊢ <;> linarith [hLtb.1, hLtb.2]
  have hτl : |t - 1 / 2| * l ≤ 1.51 * 2.03 := mul_le_mul hτ hl2 (by linarith) (by norm_num)
  have hτl2 : |t - 1 / 2| * (3.04 * l + 3.42) ≤ 1.51 * 10 := mul_le_mul hτ (by norm_num at hl2 ⊢; linarith) (by positivity) (by norm_num)
  have hrb := abs_le.1 hr
  have hpb := abs_le.1 hp
  have hr1 : 1 ≤ |r| ∧ r < -1 ∧ -2 < r := by
    have a : r < -1 := by norm_num at hrb hLtb hP1 hLS ⊢; linarith [hrb.2, hLtb.2]
    have b : -2 < r := by norm_num at hrb hLtb hP2 hLS ⊢; linarith [hrb.1, hLtb.1]
    exact ⟨by rw [abs_of_neg (by linarith)]; linarith, a, b⟩
  have hp1 : 1 ≤ |p| ∧ 1 < p ∧ p < 2 := by
    have a : 1 < p := by norm_num at hpb hP1 hτl hτl2 ⊢; linarith [hpb.1]
    have b : p < 2 := by norm_num at hpb hP2 hτl hτl2 ⊢; linarith [hpb.2]
    exact ⟨by rw [abs_of_pos (by linarith)]; linarith, a, b⟩
  have hrF : IsFloat 53 (-1074) r := by rw [← er]; exact (h _).1
  have hpF : IsFloat 53 (-1074) p := by rw [← ep]; exact (h _).1
  have e53 : (2 : ℝ) ^ 53 * 2 ^ (-53 : ℤ) = 1 := by norm_num
  have hrg := hrF.big_grid (k := -53) (by rw [e53]; exact hr1.1)
  have hpg := hpF.big_grid (k := -53) (by rw [e53]; exact hp1.1)
  obtain ⟨n, hn⟩ := hrg.add hpg
  have e52 : (2 : ℝ) ^ ((-53 : ℤ) + 1) = d := by rw [hd]; norm_num
  rw [e52] at hn
  have hrp : |r + p| ≤ 2 ^ 53 * 2 ^ (-52 : ℤ) := by
    have : (2 : ℝ) ^ 53 * 2 ^ (-52 : ℤ) = 2 := by norm_num
    rw [this, abs_le]; constructor <;> linarith [hr1.2.1, hr1.2.2, hp1.2.1, hp1.2.2]
  have hex : rd (r + p) = r + p := by
    apply h.exact
    apply isFloat_of_grid (by norm_num) (k := -52) (by norm_num) _ hrp
    exact hrg.add hpg
  rw [hex, hn]
  set F := log (Gamma (2 + d))
  rcases lt_trichotomy n 0 with hn0 | hn0 | hn0
  · have : (n : ℝ) ≤ -1 := by exact_mod_cast (by omega : n ≤ -1)
    have : (n : ℝ) * d ≤ -1 * d := mul_le_mul_of_nonneg_right this hd0.le
    rw [abs_of_neg (by linarith)]; linarith
  · rw [hn0]; simp only [Int.cast_zero, zero_mul, zero_sub, abs_neg]; exact le_abs_self _
  · have : (1 : ℝ) ≤ n := by exact_mod_cast (by omega : 1 ≤ n)
    have : 1 * d ≤ (n : ℝ) * d := mul_le_mul_of_nonneg_right this hd0.le
    rw [abs_of_nonneg (by linarith)]; linarith

/-- **C73, the single-precision loop**: the double result, rounded. -/
theorem C73_single {rf rd lg : ℝ → ℝ} (hf : Nearest 24 (-149) rf) (h : Nearest 53 (-1074) rd)
    (hlg : ∀ z, 0 < z → |lg z - log z| ≤ 1 / 2 ^ 52 * |log z|) {x : ℝ} (hx : IsFloat 53 (-1074) x) (h1 : -1 < x) :
    ∃ v w, loggamma1p rd lg (.fin x) = .fin v ∧ rnd rf (loggamma1p rd lg (.fin x)) = .fin w ∧
      |w - v| ≤ 1 / 2 ^ 24 * |v| + 1 / 2 ^ 150 ∧
      |v - log (Gamma (1 + x))| ≤ 1.5 / 10 ^ 14 + 2.4 / 10 ^ 15 * (1 + x + |log (1 + x)| + (1 + x) * |log (1 + x)|) := by
  obtain ⟨v, hv, hb⟩ := C73_accuracy h hlg hx h1
  refine ⟨v, rf v, hv, by rw [hv]; rfl, ?_, hb⟩
  have h1 := hf.error (by norm_num) v
  rw [show (2 : ℝ) ^ (-149 : ℤ) = 1 / 2 ^ 149 from Log1p.zpow_neg_nat 149, ← one_div] at h1
  norm_num at h1 ⊢
  linarith

theorem loop_eq {α : Type _} (f : α → α) (is os : Int) (n : Nat) (pin pout : Int) (m : Mem α) :
    loop f is os n pin pout m = Log1p.loop f is os n pin pout m := by
  induction n generalizing pin pout m with
  | zero => rfl
  | succ n ih => rw [loop, Log1p.loop, ih]

/-- **C73, the loop**: every output element is the function of the input element at the same index,
nothing else is written. -/
theorem C73_loop {α : Type _} (f : α → α) (n : Nat) (pin is pout os : Int) (m : Mem α) (hos : os ≠ 0)
    (h : ∀ i j, i < j → j < n → pout + (i : Int) * os ≠ pin + (j : Int) * is) :
    elems (loop f is os n pin pout m) pout os n = (elems m pin is n).map f ∧
    ∀ b, (∀ i < n, b ≠ pout + (i : Int) * os) → loop f is os n pin pout m b = m b := by
  rw [loop_eq]
  refine ⟨?_, fun b hb => Log1p.loop_frame _ _ _ _ _ _ _ _ hb⟩
  apply List.ext_getElem
  · simp
  · intro j h1 h2
    rw [elems_getElem, List.getElem_map, elems_getElem]
    exact Log1p.loop_get f is os hos n pin pout m h j (by simpa using h1)

/-- In place. -/
example (f : ℤ → ℤ) (n : Nat) (p : Int) (m : Mem ℤ) :
    elems (loop f 8 8 n p p m) p 8 n = (elems m p 8 n).map f :=
  (C73_loop f n p 8 p 8 m (by omega) (by intro i j h _ he; omega)).1

end Ufunclab.Loggamma1p
