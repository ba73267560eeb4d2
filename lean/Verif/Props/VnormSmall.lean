import Verif.Props.VnormPow
import Verif.Proof.PmeanSmall
/-!
# C83: vnorm in floating point for orders below 1
-/
namespace Ufunclab.Vnorm
open Ufunclab.Float Ufunclab.Corr
variable {T : Type _} {p : ℕ} {emin : ℤ} {rd : ℝ → ℝ} {pw : ℝ → ℝ → ℝ} {ε : ℝ}

/-- C83: every positive order that is not too small for the length (`q ≥ 120 n u + 60 ε`) nor too large:
the error relative to the "norm" is at most `((1.2 n + 1.1 log n + 1.2)/q + 2.4) u + (1.2/q + 1.1) ε`, plus half a
least subnormal.  Elements other than 0 must not be so small that their quotient with the largest one
underflows. -/
theorem C83_vnorm_accuracy_small_partial (h : Nearest p emin rd) (hp : 10 ≤ p) (he : emin ≤ -4 * p) (hpw : SignedPow p emin ε pw) (hε0 : 0 ≤ ε)
    (hε : ε ≤ 1 / 100) (x : List T) (hn : 100 * (x.length : ℝ) ≤ 2 ^ p) (a : T → ℝ) (ha : ∀ v ∈ x, 0 ≤ a v ∧ IsFloat p emin (a v)) (q : ℝ)
    (hq0 : 0 < q) (hqu : 100 * q ≤ 2 ^ p) (hsmall : 30 * (4 * (x.length * (2 ^ p)⁻¹) + 2 * ε) ≤ q)
    (hnorm : ∀ v ∈ x, a v = 0 ∨ ∀ w ∈ x, 2 ^ (emin + p + 9) * a w ≤ a v) :
    ∃ r, vnormR (rnd rd) (xpowR pw) (fun v => .fin (a v)) x (.fin q) = .fin r ∧
      |r - (x.map fun v => a v ^ q).sum ^ (1 / q)| ≤
        (((1.2 * x.length + 1.1 * Real.log x.length + 1.2) / q + 2.4) * (2 ^ p)⁻¹ + (1.2 / q + 1.1) * ε) * (x.map fun v => a v ^ q).sum ^ (1 / q) + 2 ^ emin / 2 := by
  obtain ⟨M, h2, h3, h4, h5⟩ := vnormR_formula (rd := rd) (pw := pw) a x q hq0
  refine ⟨_, h5, ?_⟩
  have hη0 : (0 : ℝ) < 2 ^ emin := by positivity
  by_cases hM : M = 0
  · rw [if_pos hM, sum_rpow_zero a x q hq0 (fun v hv => le_antisymm (hM ▸ h3 v hv) (ha v hv).1), Real.zero_rpow (by positivity)]
    simp only [sub_zero, abs_zero, mul_zero, zero_add]; positivity
  rw [if_neg hM]
  have hM0 : 0 < M := lt_of_le_of_ne h2 (Ne.symm hM)
  obtain ⟨w, hw, hwM⟩ := h4.resolve_left hM
  have hu := Mad.unit_le_thousandth (K := ℝ) hp
  have hu0 : (0 : ℝ) < (2 ^ p)⁻¹ := by positivity
  have hnu : (x.length : ℝ) * (2 ^ p)⁻¹ ≤ 1 / 100 := by rw [← div_eq_mul_inv, div_le_iff₀ (by positivity)]; linarith
  have hqu' : |q| * (2 ^ p)⁻¹ ≤ 1 / 100 := by rw [abs_of_pos hq0, ← div_eq_mul_inv, div_le_iff₀ (by positivity)]; linarith
  have hn1 : (1 : ℝ) ≤ x.length := by
    have : 1 ≤ x.length := List.length_pos_of_mem hw
    exact_mod_cast this
  have hlog0 : 0 ≤ Real.log x.length := Real.log_nonneg hn1
  by_cases h1 : q = 1
  · subst h1
    rw [if_pos rfl]
    obtain ⟨r, e1, e2⟩ := C83_one_norm (pw := pw) h (by omega) x hn a ha
    rw [h5, if_neg hM, if_pos rfl, XF.fin.injEq] at e1
    rw [← e1] at e2
    simp only [Real.rpow_one, div_one]
    have hs0 : 0 ≤ (x.map a).sum := List.sum_nonneg (by intro y hy; obtain ⟨v, hv, rfl⟩ := List.mem_map.1 hy; exact (ha v hv).1)
    have e3 : 1.02 * x.length * (2 ^ p)⁻¹ ≤ (1.2 * (x.length : ℝ) + 1.1 * Real.log x.length + 1.2 + 2.4) * (2 ^ p)⁻¹ + (1.2 + 1.1) * ε := by
      have : 1.02 * (x.length : ℝ) * (2 ^ p)⁻¹ ≤ (1.2 * (x.length : ℝ) + 1.1 * Real.log x.length + 1.2 + 2.4) * (2 ^ p)⁻¹ :=
        mul_le_mul_of_nonneg_right (by norm_num at *; linarith) hu0.le
      linarith
    have := mul_le_mul_of_nonneg_right e3 hs0
    linarith
  rw [if_neg h1]
  have hsn : 0 ≤ (x.map (fun v => a v ^ q)).sum := List.sum_nonneg (by
    intro y hy; obtain ⟨v, hv, rfl⟩ := List.mem_map.1 hy; exact Real.rpow_nonneg (ha v hv).1 q)
  have hr1 : ∀ v ∈ x, (a v / M) ^ q ≤ 1 := fun v hv => Real.rpow_le_one (div_nonneg (ha v hv).1 hM0.le) ((div_le_one hM0).2 (h3 v hv)) hq0.le
  have hrn : ∀ v ∈ x, a v / M = 0 ∧ 0 < q ∨ (2 : ℝ) ^ (emin + p + 9) ≤ a v / M := by
    intro v hv
    rcases hnorm v hv with k | k
    · left; exact ⟨by rw [k, zero_div], hq0⟩
    · right; rw [le_div_iff₀ hM0, ← hwM]; exact k w hw
  obtain ⟨S, hSdef, hS1, hSn, E, hEdef, hE1, hE⟩ := scaled_sum_rel h hp he hpw hε0 hε x hn (fun v => a v / M) q hq0.ne' (by rwa [abs_of_pos hq0]) hrn hr1 hw
    (by simp only [hwM, div_self hM])
  have hN : (x.map fun v => a v ^ q).sum ^ (1 / q) = M * S ^ (1 / q) := by
    have hs : S = (x.map (fun v => a v ^ q)).sum / M ^ q := by
      rw [hSdef, div_eq_mul_inv, mul_comm, ← List.sum_map_mul_left]
      congr 1
      apply List.map_congr_left
      intro v hv
      rw [Real.div_rpow (ha v hv).1 hM0.le]; ring
    rw [hs, Real.div_rpow hsn (by positivity), ← Real.rpow_mul hM0.le, mul_one_div_cancel hq0.ne', Real.rpow_one]
    field_simp
  generalize rsum rd 0 (x.map fun v => pw (rd (a v / M)) q) = S' at *
  obtain ⟨hηu, hηuu⟩ := eta_small hp he
  have herr := fun z => h.error (by omega : 1 ≤ p) z
  have hexp := exponent_error_signed hq0.ne' hu0 hqu' (by norm_num at hηuu ⊢; linarith) (herr (1 / q))
  have he'0 := exponent_pos hq0 hu0 hu (by rwa [abs_of_pos hq0] at hexp)
  have hS0 : 0 < S := by linarith
  have hE' : |S' - S| ≤ (E + 1.04 * (2 ^ p)⁻¹) * S := hE.trans (mul_le_mul_of_nonneg_right (by linarith [show (0 : ℝ) ≤ 1.04 * (2 ^ p)⁻¹ by positivity]) hS0.le)
  have hLn : |Real.log S| ≤ Real.log x.length := by
    rw [abs_of_nonneg (Real.log_nonneg hS1)]
    exact Real.log_le_log hS0 hSn
  have hfin := finish_rel hu0 hu hε0 hε hη0.le hηu hq0.ne' hqu' (by rwa [abs_of_pos hq0]) hnu hn1 hM0 hS0 hLn hEdef hE' hE1 hexp
    (fun k => hpw.error _ _ k.le he'0.ne' (.inr k)) (herr (M * pw S' (rd (1 / q))))
  rw [abs_of_pos hq0] at hfin
  rw [hN]
  refine hfin.trans ?_
  have hS1' : 1 ≤ S ^ (1 / q) := Real.one_le_rpow hS1 (by positivity)
  have hMS : M ≤ M * S ^ (1 / q) := le_mul_of_one_le_right hM0.le hS1'
  have hηM : 2 ^ emin * M ≤ 0.001 * (2 ^ p)⁻¹ * (M * S ^ (1 / q)) := mul_le_mul hηu hMS hM0.le (by positivity)
  generalize (1.2 * (x.length : ℝ) + 1.1 * Real.log x.length + 1.2) / q = C at *
  generalize (1.2 / q + 1.1) * ε = D at *
  have hpos : 0 < (2 ^ p)⁻¹ * (M * S ^ (1 / q)) := by positivity
  clear * - hηM hpos
  generalize M * S ^ (1 / q) = N at *
  generalize ((2 : ℝ) ^ p)⁻¹ = u at *
  have e : 0.001 * u * N = 0.001 * (u * N) := by ring
  rw [e] at hηM
  norm_num at *; linarith

/-- Numbers far below the least subnormal round to 0. -/
theorem round_tiny (h : Nearest 53 (-1074) rd) {z : ℝ} (h2 : 0 ≤ z) (h1 : z ≤ 2 ^ (-1174 : ℤ)) : rd z = 0 := by
  have h3 := (h z).2 0 isFloat_zero
  rw [zero_sub, abs_neg, abs_of_nonneg h2] at h3
  by_contra hne
  have h4 : (2 : ℝ) ^ (-1074 : ℤ) ≤ |rd z| := by
    obtain ⟨k, hk⟩ := (h z).1.grid
    rw [hk] at hne ⊢
    have k0 : k ≠ 0 := by rintro rfl; simp at hne
    have k1 : (1 : ℝ) ≤ |(k : ℝ)| := by rw [← Int.cast_abs]; exact_mod_cast Int.one_le_abs k0
    rw [abs_mul, abs_of_pos (by positivity : (0 : ℝ) < 2 ^ (-1074 : ℤ))]
    exact le_mul_of_one_le_left (by positivity) k1
  have h5 : (2 : ℝ) ^ (-1174 : ℤ) ≤ 2 ^ (-1074 : ℤ) * (1 / 4) := by
    rw [show (1 / 4 : ℝ) = 2 ^ (-2 : ℤ) by norm_num, ← zpow_add₀ (by norm_num)]
    exact zpow_le_zpow_right₀ (by norm_num) (by norm_num)
  have h6 : |rd z| ≤ |rd z - z| + |z| := by
    calc |rd z| = |(rd z - z) + z| := by congr 1; ring
      _ ≤ _ := abs_add_le _ _
  have h7 : (0 : ℝ) < 2 ^ (-1074 : ℤ) := by positivity
  rw [abs_of_nonneg h2] at h6
  generalize (2 : ℝ) ^ (-1074 : ℤ) = η at *
  generalize (2 : ℝ) ^ (-1174 : ℤ) = η' at *
  linarith

theorem lost_aux (h : Nearest 53 (-1074) rd) (t s : ℝ) (ht : 0 < t) (hf : IsFloat 53 (-1074) t) (hs : 0 < s) (hst : s < t)
    (h1 : s / t ≤ 2 ^ (-1174 : ℤ)) (h2 : 2 ^ (-1280 : ℤ) ≤ s / t) :
    vnormR (rnd rd) (xpowR fun b e => rd (b ^ e)) (fun v : ℝ => .fin v) [t, s] (.fin (1 / 256)) = .fin t ∧
      9 * t ≤ (t ^ ((1 : ℝ) / 256) + s ^ ((1 : ℝ) / 256)) ^ (256 : ℝ) := by
  constructor
  · obtain ⟨M, k2, k3, k4, k5⟩ := vnormR_formula (rd := rd) (pw := fun b e => rd (b ^ e)) (fun v : ℝ => v) [t, s] (1 / 256) (by norm_num)
    have kt := k3 t (by simp)
    have eM : M = t := by
      rcases k4 with k | ⟨v, hv, rfl⟩
      · linarith
      · simp only [List.mem_cons, List.not_mem_nil, or_false] at hv
        rcases hv with rfl | rfl
        · rfl
        · linarith
    rw [k5, eM, if_neg ht.ne', if_neg (by norm_num)]
    have f0 : rd 0 = 0 := h.exact isFloat_zero
    have f1 : rd 1 = 1 := h.exact (isFloat_one (by norm_num) (by norm_num))
    have f2 : rd (s / t) = 0 := round_tiny h (by positivity) h1
    simp only [List.map_cons, List.map_nil, rsum, div_self ht.ne', f1, f2, Real.one_rpow, Real.zero_rpow (by norm_num : (1 : ℝ) / 256 ≠ 0), f0, zero_add, add_zero, mul_one]
    rw [h.exact hf]
  · have e1 : (t ^ ((1 : ℝ) / 256) + s ^ ((1 : ℝ) / 256)) = t ^ ((1 : ℝ) / 256) * (1 + (s / t) ^ ((1 : ℝ) / 256)) := by
      rw [Real.div_rpow hs.le ht.le, mul_add, mul_one, mul_div_cancel₀ _ (by positivity)]
    have e2 : (1 : ℝ) / 32 ≤ (s / t) ^ ((1 : ℝ) / 256) := by
      have : ((1 : ℝ) / 32) = (2 ^ (-1280 : ℤ) : ℝ) ^ ((1 : ℝ) / 256) := by
        rw [← Real.rpow_intCast, ← Real.rpow_mul (by norm_num)]
        rw [show (((-1280 : ℤ) : ℝ) * (1 / 256)) = ((-5 : ℤ) : ℝ) by norm_num, Real.rpow_intCast]
        norm_num
      rw [this]
      exact Real.rpow_le_rpow (by positivity) h2 (by norm_num)
    have e3 : (9 : ℝ) ≤ (1 + (s / t) ^ ((1 : ℝ) / 256)) ^ (256 : ℝ) := by
      have hb := one_add_mul_le_pow (a := (s / t) ^ ((1 : ℝ) / 256)) (by linarith) 256
      have : (1 + (s / t) ^ ((1 : ℝ) / 256)) ^ (256 : ℝ) = (1 + (s / t) ^ ((1 : ℝ) / 256)) ^ (256 : ℕ) := by
        rw [← Real.rpow_natCast]; norm_num
      rw [this]
      refine le_trans ?_ hb
      generalize (s / t) ^ ((1 : ℝ) / 256) = y at *
      push_cast
      linarith
    have hy : 0 ≤ (s / t) ^ ((1 : ℝ) / 256) := by positivity
    rw [e1, Real.mul_rpow (by positivity) (by positivity), ← Real.rpow_mul ht.le, show ((1 : ℝ) / 256 * 256) = 1 by norm_num, Real.rpow_one]
    have := mul_le_mul_of_nonneg_left e3 ht.le
    linarith

/-- C83: the condition on the quotients is needed: in double `vnorm([2**100, 2**-1074], 2**-8)` is `2**100`, the
second element is lost; the exact value is more than nine times as large.  `pow` is correctly rounded. -/
theorem C83_vnorm_small_violated (h : Nearest 53 (-1074) rd) :
    vnormR (rnd rd) (xpowR fun b e => rd (b ^ e)) (fun v : ℝ => .fin v) [2 ^ (100 : ℤ), 2 ^ (-1074 : ℤ)] (.fin (1 / 256)) = .fin (2 ^ (100 : ℤ)) ∧
      9 * (2 : ℝ) ^ (100 : ℤ) ≤ (((2 : ℝ) ^ (100 : ℤ)) ^ ((1 : ℝ) / 256) + ((2 : ℝ) ^ (-1074 : ℤ)) ^ ((1 : ℝ) / 256)) ^ (256 : ℝ) := by
  have e : (2 : ℝ) ^ (-1074 : ℤ) / 2 ^ (100 : ℤ) = 2 ^ (-1174 : ℤ) := by
    rw [← zpow_sub₀ (by norm_num)]; rfl
  refine lost_aux h _ _ (by positivity) ⟨1, 100, by norm_num, by norm_num, by simp⟩ (by positivity) ?_ e.le ?_
  · exact zpow_lt_zpow_right₀ (by norm_num) (by norm_num)
  · rw [e]; exact zpow_le_zpow_right₀ (by norm_num) (by norm_num)

/-! ### Non-vacuity: doubles, order 1/2 of (1, 4) -/
example (h : Nearest 53 (-1074) rd) :
    ∃ r, vnormR (rnd rd) (xpowR fun b e => rd (b ^ e)) (fun v : ℝ => .fin v) [1, 4] (.fin (1 / 2)) = .fin r ∧ |r - 9| ≤ 1 / 10 ^ 13 := by
  have hpw : SignedPow 53 (-1074) ((2 ^ 53)⁻¹) (fun b e => rd (b ^ e)) :=
    ⟨fun b e _ _ _ => (h _).1, fun b e hb _ _ => by
      have := h.error (by norm_num) (b ^ e)
      have h0 : (0 : ℝ) < 2 ^ (-1074 : ℤ) := by positivity
      rw [abs_of_nonneg (Real.rpow_nonneg hb e)] at this
      linarith⟩
  have h1 : (2 : ℝ) ^ ((-1074 : ℤ) + (53 : ℕ) + 9) * 4 ≤ 1 := by
    rw [show (4 : ℝ) = 2 ^ (2 : ℤ) by norm_num, ← zpow_add₀ (by norm_num)]
    exact zpow_le_one_of_nonpos₀ (by norm_num) (by norm_num)
  have h2 : (0 : ℝ) < (2 : ℝ) ^ ((-1074 : ℤ) + (53 : ℕ) + 9) := by positivity
  obtain ⟨r, e, hr⟩ := C83_vnorm_accuracy_small_partial h (by norm_num) (by norm_num) hpw (by positivity) (by norm_num) [1, 4] (by norm_num) (fun v : ℝ => v)
    (by
      intro v hv
      simp only [List.mem_cons, List.not_mem_nil, or_false] at hv
      rcases hv with rfl | rfl
      · exact ⟨by norm_num, 1, 0, by norm_num, by norm_num, by norm_num⟩
      · exact ⟨by norm_num, 4, 0, by norm_num, by norm_num, by norm_num⟩) (1 / 2) (by norm_num) (by norm_num) (by norm_num)
    (by
      generalize (2 : ℝ) ^ ((-1074 : ℤ) + (53 : ℕ) + 9) = t at *
      intro v hv
      right
      intro w hw
      simp only [List.mem_cons, List.not_mem_nil, or_false] at hv hw
      rcases hv with rfl | rfl <;> rcases hw with rfl | rfl <;> linarith)
  refine ⟨r, e, ?_⟩
  have e9 : ([(1 : ℝ), 4].map fun v => v ^ ((1 : ℝ) / 2)).sum ^ ((1 : ℝ) / (1 / 2)) = 9 := by
    simp only [List.map_cons, List.map_nil, List.sum_cons, List.sum_nil]
    rw [← Real.sqrt_eq_rpow, ← Real.sqrt_eq_rpow, show (4 : ℝ) = 2 ^ 2 by norm_num, Real.sqrt_sq (by norm_num), show (1 : ℝ) / (1 / 2) = (2 : ℕ) by norm_num, Real.rpow_natCast]
    norm_num
  rw [e9] at hr
  refine hr.trans ?_
  have l2 : Real.log (([(1 : ℝ), 4].length : ℕ) : ℝ) ≤ 1 := by
    refine (Real.log_le_sub_one_of_pos (by norm_num)).trans ?_; norm_num
  have eη : (2 : ℝ) ^ (-1074 : ℤ) ≤ 2 ^ (-60 : ℤ) := zpow_le_zpow_right₀ (by norm_num) (by norm_num)
  have e60 : (2 : ℝ) ^ (-60 : ℤ) ≤ 1 / 10 ^ 18 := by norm_num [zpow_neg]
  have hη := eη.trans e60
  clear hr eη e60 h1 h2
  generalize Real.log (([(1 : ℝ), 4].length : ℕ) : ℝ) = L at *
  generalize (2 : ℝ) ^ (-1074 : ℤ) = η at *
  norm_num at *; linarith

end Ufunclab.Vnorm
