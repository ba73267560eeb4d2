import Verif.Proof.Debye1Cell
/-! # debye1 near zero: the first cell -/
namespace Ufunclab.Debye1
open Real

def qE : List ℤ := [106418812500000000000, 10641881250000000000, 709458750000000000, 35472937500000000, 1418917500000000, 47297250000000, 1351350000000, 33783750000, 750750000, 15015000, 273000, 4550, 70, 1]

/-- `(e^x - 1)/x` for `x = t/5`. -/
theorem exp_E {t : ℝ} (ht0 : 0 < t) (ht : t ≤ 1 + 1 / 10 ^ 11) :
    |(exp (t / 5) - 1) / (t / 5) - peval eCert t / 10 ^ 30| ≤ 2 / 10 ^ 22 := by
  have hx0 : 0 < t / 5 := by positivity
  have hx : t / 5 ≤ 0.2 + 1 / 10 ^ 11 := by norm_num at ht ⊢; linarith
  have h1 := Real.exp_bound (x := t / 5) (by rw [abs_of_pos hx0]; norm_num at hx ⊢; linarith) (n := 15) (by norm_num)
  rw [abs_of_pos hx0] at h1
  have h3 : (∑ m ∈ Finset.range 15, (t / 5) ^ m / (m.factorial : ℝ)) = 1 + t / 5 * (peval qE t / 106418812500000000000) := by
    simp only [Finset.sum_range_succ, Finset.sum_range_zero, qE, peval, Nat.factorial]
    push_cast
    ring
  rw [h3] at h1
  have h2 : |(exp (t / 5) - 1) / (t / 5) - peval qE t / 106418812500000000000| ≤ 1.5 / 10 ^ 22 := by
    have e : (exp (t / 5) - 1) / (t / 5) - peval qE t / 106418812500000000000 =
        (exp (t / 5) - (1 + t / 5 * (peval qE t / 106418812500000000000))) / (t / 5) := by
      field_simp
      ring
    rw [e, abs_div, abs_of_pos hx0, div_le_iff₀ hx0]
    refine h1.trans ?_
    have := pow_le_pow_left₀ hx0.le hx 14
    calc (t / 5) ^ 15 * ((Nat.succ 15 : ℕ) / ((Nat.factorial 15 : ℕ) * (15 : ℕ)) : ℝ)
        = (t / 5) ^ 14 * ((Nat.succ 15 : ℕ) / ((Nat.factorial 15 : ℕ) * (15 : ℕ)) : ℝ) * (t / 5) := by ring
      _ ≤ _ := by
        apply mul_le_mul_of_nonneg_right _ hx0.le
        calc (t / 5) ^ 14 * ((Nat.succ 15 : ℕ) / ((Nat.factorial 15 : ℕ) * (15 : ℕ)) : ℝ)
          ≤ (0.2 + 1 / 10 ^ 11) ^ 14 * ((Nat.succ 15 : ℕ) / ((Nat.factorial 15 : ℕ) * (15 : ℕ)) : ℝ) :=
            mul_le_mul_of_nonneg_right this (by positivity)
          _ ≤ _ := by norm_num [Nat.factorial]
  have ht' : |t| ≤ 1 + 1 / 10 ^ 11 := by rw [abs_of_pos ht0]; exact ht
  have h4 : |peval (padd (psmul (10 ^ 30) qE) (psmul (-106418812500000000000) eCert)) t| ≤ 1.001 * (15 * 106418812500000000000) := by
    refine (peval_abs_le _ (by decide +kernel) ht').trans ?_
    have : pabs (padd (psmul (10 ^ 30) qE) (psmul (-106418812500000000000) eCert)) ≤ 15 * 106418812500000000000 := by decide +kernel
    have : ((pabs (padd (psmul (10 ^ 30) qE) (psmul (-106418812500000000000) eCert)) : ℤ) : ℝ) ≤ ((15 * 106418812500000000000 : ℤ) : ℝ) := by
      exact_mod_cast this
    push_cast at this
    linarith
  rw [peval_padd, peval_psmul, peval_psmul] at h4
  have h5 : |peval qE t / 106418812500000000000 - peval eCert t / 10 ^ 30| ≤ 2 / 10 ^ 29 := by
    have e : peval qE t / 106418812500000000000 - peval eCert t / 10 ^ 30 =
        (((10 ^ 30 : ℤ) : ℝ) * peval qE t + ((-106418812500000000000 : ℤ) : ℝ) * peval eCert t) / (106418812500000000000 * 10 ^ 30) := by
      push_cast; ring
    rw [e, abs_div, abs_of_pos (show (0 : ℝ) < 106418812500000000000 * 10 ^ 30 by norm_num), div_le_iff₀ (by norm_num)]
    exact h4.trans (by norm_num)
  calc |(exp (t / 5) - 1) / (t / 5) - peval eCert t / 10 ^ 30|
      = |((exp (t / 5) - 1) / (t / 5) - peval qE t / 106418812500000000000) + (peval qE t / 106418812500000000000 - peval eCert t / 10 ^ 30)| := by ring_nf
    _ ≤ _ := abs_add_le _ _
    _ ≤ 1.5 / 10 ^ 22 + 2 / 10 ^ 29 := add_le_add h2 h5
    _ ≤ _ := by norm_num

theorem f_zero_approx {t : ℝ} (ht0 : 0 ≤ t) (ht : t ≤ 1 + 1 / 10 ^ 11) :
    |f (t / 5) - peval g0Cert t / 10 ^ 30| ≤ 3 / 10 ^ 21 := by
  rcases ht0.eq_or_lt with h0 | h0
  · subst h0
    norm_num [f, g0Cert]
  have hx0 : 0 < t / 5 := by positivity
  have hE := exp_E h0 ht
  set E := (exp (t / 5) - 1) / (t / 5) with hEd
  set e := peval eCert t / 10 ^ 30 with he
  set G := peval g0Cert t / 10 ^ 30 with hG
  have ht' : |t| ≤ 1 + 1 / 10 ^ 11 := by rw [abs_of_pos h0]; exact ht
  have hE1 : 1 ≤ E := by
    rw [hEd, le_div_iff₀ hx0]
    have := add_one_le_exp (t / 5)
    linarith
  have hf : f (t / 5) = 1 / E := by rw [f, if_neg hx0.ne', hEd, one_div_div]
  have hGb : |G| ≤ 1.2 := by
    rw [hG, abs_div, abs_of_pos (show (0 : ℝ) < 10 ^ 30 by norm_num), div_le_iff₀ (by norm_num)]
    refine (peval_abs_le g0Cert (by decide +kernel) ht').trans ?_
    have : pabs g0Cert ≤ 11 * 10 ^ 29 + 10 ^ 28 := by decide +kernel
    have : ((pabs g0Cert : ℤ) : ℝ) ≤ ((11 * 10 ^ 29 + 10 ^ 28 : ℤ) : ℝ) := by exact_mod_cast this
    norm_num at this ⊢; linarith
  have hR : |1 - G * e| ≤ 2.6 / 10 ^ 21 := by
    have h := peval_abs_le (padd [10 ^ 60] (psmul (-1) (pmul g0Cert eCert))) (by decide +kernel) ht'
    have h2 : pabs (padd [10 ^ 60] (psmul (-1) (pmul g0Cert eCert))) ≤ 255 * 10 ^ 37 := by decide +kernel
    have h3 : ((pabs (padd [10 ^ 60] (psmul (-1) (pmul g0Cert eCert))) : ℤ) : ℝ) ≤ ((255 * 10 ^ 37 : ℤ) : ℝ) := by
      exact_mod_cast h2
    rw [peval_padd, peval_psmul, peval_pmul, peval_cons, peval_nil] at h
    have e2 : 1 - G * e = (((10 ^ 60 : ℤ) : ℝ) + t * 0 + ((-1 : ℤ) : ℝ) * (peval g0Cert t * peval eCert t)) / 10 ^ 60 := by
      rw [hG, he]; push_cast; ring
    rw [e2, abs_div, abs_of_pos (show (0 : ℝ) < 10 ^ 60 by norm_num), div_le_iff₀ (by norm_num)]
    refine h.trans ?_
    norm_num at h3 ⊢; linarith
  have hm : (f (t / 5) - G) * E = (1 - G * e) - G * (E - e) := by
    have : (1 / E) * E = 1 := by field_simp
    rw [hf, sub_mul, this]; ring
  have hb : |(f (t / 5) - G) * E| ≤ 3 / 10 ^ 21 := by
    rw [hm]
    calc |(1 - G * e) - G * (E - e)| ≤ |1 - G * e| + |G * (E - e)| := abs_sub _ _
      _ ≤ 2.6 / 10 ^ 21 + 1.2 * (2 / 10 ^ 22) := add_le_add hR
          (by rw [abs_mul]; exact mul_le_mul hGb hE (abs_nonneg _) (by norm_num))
      _ ≤ _ := by norm_num
  rw [abs_mul, abs_of_pos (by linarith : 0 < E)] at hb
  exact (le_mul_of_one_le_right (abs_nonneg _) hE1).trans hb

end Ufunclab.Debye1
