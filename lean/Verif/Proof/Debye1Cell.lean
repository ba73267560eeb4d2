import Verif.Proof.Debye1Check
import Verif.Proof.Debye1Int
import Verif.Model.Debye1
import Mathlib.Analysis.Complex.ExponentialBounds
/-! # From the kernel check to the approximation of the integral, cell by cell -/
namespace Ufunclab.Debye1
open Real

def qS : List ℤ := [8717829120000000000000000, -871782912000000000000000, 43589145600000000000000, -1452971520000000000000, 36324288000000000000, -726485760000000000, 12108096000000000, -172972800000000, 2162160000000, -24024000000, 240240000, -2184000, 18200, -140, 1]

theorem exp_S {t : ℝ} (ht : |t| ≤ 1 + 1 / 10 ^ 11) : |exp (-t / 10) - peval sCert t / 10 ^ 30| ≤ 1 / 10 ^ 27 := by
  have hx : |-t / 10| ≤ 0.1 + 1 / 10 ^ 12 := by rw [abs_div, abs_neg, abs_of_pos (show (0 : ℝ) < 10 by norm_num)]; linarith
  have h1 := Real.exp_bound (x := -t / 10) (by linarith) (n := 15) (by norm_num)
  have h2 : |-t / 10| ^ 15 * ((Nat.succ 15 : ℕ) / ((Nat.factorial 15 : ℕ) * (15 : ℕ)) : ℝ) ≤ 8.5 / 10 ^ 28 := by
    have := pow_le_pow_left₀ (abs_nonneg _) hx 15
    calc |-t / 10| ^ 15 * ((Nat.succ 15 : ℕ) / ((Nat.factorial 15 : ℕ) * (15 : ℕ)) : ℝ)
        ≤ (0.1 + 1 / 10 ^ 12) ^ 15 * ((Nat.succ 15 : ℕ) / ((Nat.factorial 15 : ℕ) * (15 : ℕ)) : ℝ) :=
          mul_le_mul_of_nonneg_right this (by positivity)
      _ ≤ _ := by norm_num [Nat.factorial]
  have h3 : (∑ m ∈ Finset.range 15, (-t / 10) ^ m / (m.factorial : ℝ)) = peval qS t / 8717829120000000000000000 := by
    simp only [Finset.sum_range_succ, Finset.sum_range_zero, qS, peval, Nat.factorial]
    push_cast
    ring
  have h4 : |peval (padd (psmul (10 ^ 30) qS) (psmul (-8717829120000000000000000) sCert)) t| ≤ 1.001 * (15 * 8717829120000000000000000) := by
    refine (peval_abs_le _ (by decide +kernel) ht).trans ?_
    have : pabs (padd (psmul (10 ^ 30) qS) (psmul (-8717829120000000000000000) sCert)) ≤ 15 * 8717829120000000000000000 := by decide +kernel
    have : ((pabs (padd (psmul (10 ^ 30) qS) (psmul (-8717829120000000000000000) sCert)) : ℤ) : ℝ) ≤ ((15 * 8717829120000000000000000 : ℤ) : ℝ) := by
      exact_mod_cast this
    push_cast at this
    linarith
  rw [peval_padd, peval_psmul, peval_psmul] at h4
  have h5 : |peval qS t / 8717829120000000000000000 - peval sCert t / 10 ^ 30| ≤ 2 / 10 ^ 29 := by
    have e : peval qS t / 8717829120000000000000000 - peval sCert t / 10 ^ 30 =
        (((10 ^ 30 : ℤ) : ℝ) * peval qS t + ((-8717829120000000000000000 : ℤ) : ℝ) * peval sCert t) / (8717829120000000000000000 * 10 ^ 30) := by
      push_cast; ring
    rw [e, abs_div, abs_of_pos (show (0 : ℝ) < 8717829120000000000000000 * 10 ^ 30 by norm_num), div_le_iff₀ (by norm_num)]
    exact h4.trans (by norm_num)
  rw [h3] at h1
  calc |exp (-t / 10) - peval sCert t / 10 ^ 30|
      = |(exp (-t / 10) - peval qS t / 8717829120000000000000000) + (peval qS t / 8717829120000000000000000 - peval sCert t / 10 ^ 30)| := by ring_nf
    _ ≤ _ := abs_add_le _ _
    _ ≤ 8.5 / 10 ^ 28 + 2 / 10 ^ 29 := add_le_add (h1.trans h2) h5
    _ ≤ _ := by norm_num

/-- The centre of cell `j`, shifted by `t` tenths. -/
noncomputable def pt (j : ℕ) (t : ℝ) : ℝ := (2 * j + 1 + t) / 10

theorem f_approx {j : ℕ} {b : ℤ} {g : List ℤ} (hj1 : 1 ≤ j) (hj : j < 200) (hc : checkG j b g = true)
    (hb : |exp (-(2 * j + 1) / 10) - b / 10 ^ 30| ≤ 4 / 10 ^ 26) {t : ℝ} (ht : |t| ≤ 1 + 1 / 10 ^ 11) :
    |f (pt j t) - peval g t / 10 ^ 30| ≤ 1 / 10 ^ 22 := by
  simp only [checkG, Bool.and_eq_true, decide_eq_true_eq] at hc
  obtain ⟨⟨⟨⟨⟨hb0, hb1⟩, hRl⟩, hR⟩, hgl⟩, hg⟩ := hc
  have jR1 : (1 : ℝ) ≤ j := by exact_mod_cast hj1
  have jR : (j : ℝ) ≤ 199 := by exact_mod_cast (by omega : j ≤ 199)
  have htb := abs_le.1 ht
  set x := pt j t with hx
  have hx0 : 0.19 ≤ x := by rw [hx, pt]; norm_num at htb ⊢; linarith
  have hx1 : x ≤ 41 := by rw [hx, pt]; norm_num at htb ⊢; linarith
  set B : ℝ := b / 10 ^ 30 with hB
  have hB0 : 0 ≤ B := by rw [hB]; exact div_nonneg (by exact_mod_cast hb0) (by norm_num)
  have hB1 : B ≤ 1 := by
    rw [hB, div_le_one (by norm_num)]; exact_mod_cast hb1
  set S : ℝ := peval sCert t / 10 ^ 30 with hS
  set G : ℝ := peval g t / 10 ^ 30 with hG
  have hSe := exp_S ht
  rw [← hS] at hSe
  have hGb : |G| ≤ 2.01 := by
    rw [hG, abs_div, abs_of_pos (show (0 : ℝ) < 10 ^ 30 by norm_num), div_le_iff₀ (by norm_num)]
    have h1 := peval_abs_le g hgl ht
    have h2 : (pabs g : ℝ) ≤ 2 * 10 ^ 30 := by exact_mod_cast hg
    norm_num at h2 ⊢; linarith
  have hR' := peval_abs_le _ hRl ht
  have hR2 : ((pabs (padd (psmul (10 * 10 ^ 60) g)
    (psmul (-b) (pmul sCert (padd (psmul 10 g) (psmul (10 ^ 30) [2 * (j : ℤ) + 1, 1]))))) : ℤ) : ℝ) ≤ 10 ^ 68 := by
    exact_mod_cast hR
  simp only [peval_padd, peval_psmul, peval_pmul, peval_cons, peval_nil] at hR'
  set E := exp (-x) with hE
  have hRr : |G - B * S * (x + G)| ≤ 1.002 / 10 ^ 23 := by
    have e : G - B * S * (x + G) = (((10 * 10 ^ 60 : ℤ) : ℝ) * peval g t + ((-b : ℤ) : ℝ) * (peval sCert t *
        (((10 : ℤ) : ℝ) * peval g t + ((10 ^ 30 : ℤ) : ℝ) * (((2 * (j : ℤ) + 1 : ℤ) : ℝ) + t * (((1 : ℤ) : ℝ) + t * 0)))))
        / (10 ^ 91) := by
      rw [hG, hB, hS, hx, pt]; push_cast; ring
    rw [e, abs_div, abs_of_pos (show (0 : ℝ) < 10 ^ 91 by norm_num), div_le_iff₀ (by norm_num)]
    refine hR'.trans ?_
    norm_num at hR2 ⊢; linarith
  have hEs : E = exp (-(2 * j + 1) / 10) * exp (-t / 10) := by
    rw [hE, ← exp_add, hx, pt]; congr 1; ring
  have het : exp (-t / 10) ≤ 1.2 := by
    have h1 : -t / 10 ≤ 0.11 := by norm_num at htb ⊢; linarith
    have h2 : exp (-t / 10) ≤ exp 0.11 := exp_le_exp.2 h1
    have h3 : exp (0.11 : ℝ) ≤ 1 / (1 - 0.11) := by
      have := Real.one_sub_le_exp_neg (0.11 : ℝ)
      rw [exp_neg] at this
      rw [le_div_iff₀ (by norm_num)]
      have hp := exp_pos (0.11 : ℝ)
      calc exp 0.11 * (1 - 0.11) ≤ exp 0.11 * (exp 0.11)⁻¹ := mul_le_mul_of_nonneg_left this hp.le
        _ = 1 := mul_inv_cancel₀ hp.ne'
    norm_num at h3 ⊢; linarith
  have hEB : |E - B * S| ≤ 5 / 10 ^ 26 := by
    rw [hEs]
    calc |exp (-(2 * j + 1) / 10) * exp (-t / 10) - B * S|
        = |(exp (-(2 * j + 1) / 10) - B) * exp (-t / 10) + B * (exp (-t / 10) - S)| := by ring_nf
      _ ≤ |(exp (-(2 * j + 1) / 10) - B) * exp (-t / 10)| + |B * (exp (-t / 10) - S)| := abs_add_le _ _
      _ = |exp (-(2 * j + 1) / 10) - B| * exp (-t / 10) + B * |exp (-t / 10) - S| := by
          rw [abs_mul, abs_mul, abs_of_pos (exp_pos (-t / 10)), abs_of_nonneg hB0]
      _ ≤ 4 / 10 ^ 26 * 1.2 + 1 * (1 / 10 ^ 27) := add_le_add
          (mul_le_mul hb het (exp_pos _).le (by norm_num)) (mul_le_mul hB1 hSe (abs_nonneg _) (by norm_num))
      _ ≤ _ := by norm_num
  have hxG : |x + G| ≤ 43.1 := (abs_add_le _ _).trans (by rw [abs_of_pos (by linarith : 0 < x)]; linarith)
  have hE1 : E ≤ 1 / 1.19 := by
    rw [hE, exp_neg, ← one_div]
    apply one_div_le_one_div_of_le (by norm_num)
    have := add_one_le_exp x
    linarith
  have h1E : 0.15 ≤ 1 - E := by norm_num at hE1 ⊢; linarith
  have hfx : f x * (1 - E) = x * E := by
    have hx0' : x ≠ 0 := by linarith
    have h2 := exp_sub_one_ne hx0'
    have h3 := exp_pos x
    rw [f, if_neg hx0', hE, exp_neg]
    field_simp
  have hmain : (f x - G) * (1 - E) = (E - B * S) * (x + G) - (G - B * S * (x + G)) := by
    have : (f x - G) * (1 - E) = x * E - G + G * E := by rw [sub_mul, hfx]; ring
    rw [this]; ring
  have hb2 : |(f x - G) * (1 - E)| ≤ 1.3 / 10 ^ 23 := by
    rw [hmain]
    calc |(E - B * S) * (x + G) - (G - B * S * (x + G))|
        ≤ |(E - B * S) * (x + G)| + |G - B * S * (x + G)| := abs_sub _ _
      _ ≤ 5 / 10 ^ 26 * 43.1 + 1.002 / 10 ^ 23 := add_le_add
          (by rw [abs_mul]; exact mul_le_mul hEB hxG (abs_nonneg _) (by norm_num)) hRr
      _ ≤ _ := by norm_num
  rw [abs_mul, abs_of_pos (show 0 < 1 - E by linarith)] at hb2
  have h0 := abs_nonneg (f x - G)
  have h7 : |f x - G| * 0.15 ≤ |f x - G| * (1 - E) := mul_le_mul_of_nonneg_left h1E h0
  norm_num at hb2 h7 ⊢
  linarith

end Ufunclab.Debye1
