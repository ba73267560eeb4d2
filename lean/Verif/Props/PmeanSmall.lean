import Verif.Props.PmeanRound
import Verif.Proof.PmeanSmall
/-!
# C84: pmean in floating point for orders below 1

Double data; the library function `pow` is a parameter.
-/
namespace Ufunclab.Means
open Ufunclab.Float Ufunclab.Corr MeansSpec
variable {p P : ℕ} {emin Emin : ℤ} {rd rx lg : ℝ → ℝ} {ex : XF ℝ → XF ℝ} {pw : ℝ → ℝ → ℝ} {ε : ℝ}

theorem power_equal {q c : ℝ} (hq : q ≠ 0) (hc : 0 ≤ c) (x : List ℝ) (hne : x ≠ []) (hx : ∀ a ∈ x, a = c) : power q x = c := by
  have hn0 : (0 : ℝ) < x.length := by exact_mod_cast List.length_pos_iff.2 hne
  rw [power, List.map_congr_left (g := fun _ => c ^ q) (fun a ha => by rw [hx a ha])]
  rw [List.map_const', List.sum_replicate, nsmul_eq_mul, mul_div_cancel_left₀ _ hn0.ne', ← Real.rpow_mul hc, mul_one_div_cancel hq, Real.rpow_one]

theorem power_scaled {q c : ℝ} (hq : q ≠ 0) (hc : 0 < c) (x : List ℝ) (hx : ∀ a ∈ x, 0 ≤ a) :
    power q x = c * ((x.map fun a => (a / c) ^ q).sum / x.length) ^ (1 / q) := by
  have hs : (x.map fun a => (a / c) ^ q).sum = (x.map (fun a => a ^ q)).sum / c ^ q := by
    rw [div_eq_mul_inv, mul_comm, ← List.sum_map_mul_left]
    congr 1
    apply List.map_congr_left
    intro v hv
    rw [Real.div_rpow (hx v hv) hc.le]; ring
  have hsn : 0 ≤ (x.map (fun a => a ^ q)).sum := List.sum_nonneg (by
    intro y hy; obtain ⟨v, hv, rfl⟩ := List.mem_map.1 hy; exact Real.rpow_nonneg (hx v hv) q)
  rw [power, hs, div_right_comm, Real.div_rpow (x := (x.map (fun a => a ^ q)).sum / x.length) (y := c ^ q) (by positivity) (by positivity), ← Real.rpow_mul hc.le,
    mul_one_div_cancel hq, Real.rpow_one]
  field_simp

/-- Both signs: `c` is the scale, the largest element for `q > 0` and the smallest for `q < 0`. -/
theorem pmean_accuracy_signed (h : Nearest p emin rd) (hp : 10 ≤ p) (he : emin ≤ -4 * p) (hpw : SignedPow p emin ε pw) (hε0 : 0 ≤ ε)
    (hε : ε ≤ 1 / 100) (x : List ℝ) (hne : x ≠ []) (hn : 100 * (x.length : ℝ) ≤ 2 ^ p) (hx : ∀ a ∈ x, 0 ≤ a) (q : ℝ)
    (hpos : 0 < q ∨ ∀ a ∈ x, 0 < a) (hq : 2e-6 ≤ |q|) (hq1 : q ≠ -1) (hqu : 100 * |q| ≤ 2 ^ p) (hsmall : 30 * (4 * (x.length * (2 ^ p)⁻¹) + 2 * ε) ≤ |q|)
    (hnorm : 0 < q → ∀ a ∈ x, a = 0 ∨ ∀ b ∈ x, 2 ^ (emin + p + 9) * b ≤ a) :
    ∃ c ∈ x, (∀ a ∈ x, 0 < q ∧ a ≤ c ∨ q < 0 ∧ c ≤ a) ∧
      ∃ r, pmean1dR (rnd rd) (rnd rx) lg ex (xpowR pw) (x.map XF.fin) (.fin q) = .fin r ∧
        |r - power q x| ≤ (((1.2 * x.length + 1.1 * Real.log x.length + 1.2) / |q| + 2.3) * (2 ^ p)⁻¹ + (1.2 / |q| + 1.1) * ε) * power q x + 1.01 * (2 ^ emin * c) + 2 ^ emin / 2 := by
  have hq0 : q ≠ 0 := by rintro rfl; norm_num at hq
  have hs0 : 0 < |q| := abs_pos.2 hq0
  obtain ⟨M, hM, m, hm, hb, e⟩ := pmean_formula (rx := rx) (lg := lg) (ex := ex) (pw := pw) h (by omega) (by omega) x hne (by linarith) q hq hq1 hx hpos
  have hn0 : (0 : ℝ) < x.length := by exact_mod_cast List.length_pos_iff.2 hne
  have hn1 : (1 : ℝ) ≤ x.length := by exact_mod_cast List.length_pos_iff.2 hne
  have hlog0 : 0 ≤ Real.log x.length := Real.log_nonneg hn1
  have hη0 : (0 : ℝ) < 2 ^ emin := by positivity
  refine ⟨if 0 < q then M else m, by split_ifs <;> assumption, ?_, ?_⟩
  · intro a ha
    by_cases h0 : 0 < q
    · rw [if_pos h0]; exact .inl ⟨h0, (hb a ha).1⟩
    · rw [if_neg h0]; exact .inr ⟨lt_of_le_of_ne (not_lt.1 h0) hq0, (hb a ha).2⟩
  by_cases c : M = m
  · refine ⟨M, by rw [e, if_pos c], ?_⟩
    rw [power_equal hq0 (hx M hM) x hne (fun a ha => le_antisymm (hb a ha).1 (c ▸ (hb a ha).2)), sub_self, abs_zero, ← c, ite_self]
    have := hx M hM
    positivity
  rw [if_neg c] at e
  have hmM : m < M := lt_of_le_of_ne (hb M hM).2 (Ne.symm c)
  have hcm : (if 0 < q then M else m) ∈ x := by split_ifs <;> assumption
  have hc0 : 0 < (if 0 < q then M else m) := by
    by_cases h0 : 0 < q
    · rw [if_pos h0]; exact lt_of_le_of_lt (hx m hm) hmM
    · rw [if_neg h0]; exact hpos.resolve_left h0 m hm
  have hsc : ∀ a ∈ x, 0 < q ∧ a ≤ (if 0 < q then M else m) ∨ q < 0 ∧ (if 0 < q then M else m) ≤ a := by
    intro a ha
    by_cases h0 : 0 < q
    · rw [if_pos h0]; exact .inl ⟨h0, (hb a ha).1⟩
    · rw [if_neg h0]; exact .inr ⟨lt_of_le_of_ne (not_lt.1 h0) hq0, (hb a ha).2⟩
  generalize (if 0 < q then M else m) = c at *
  have hr1 : ∀ a ∈ x, (a / c) ^ q ≤ 1 := by
    intro a ha
    rcases hsc a ha with k | k
    · exact Real.rpow_le_one (div_nonneg (hx a ha) hc0.le) ((div_le_one hc0).2 k.2) k.1.le
    · exact Real.rpow_le_one_of_one_le_of_nonpos ((one_le_div hc0).2 k.2) k.1.le
  have hpn : ((2 : ℝ) ^ p)⁻¹ = 2 ^ (-(p : ℤ)) := by rw [zpow_neg, zpow_natCast]
  have hrn : ∀ a ∈ x, a / c = 0 ∧ 0 < q ∨ (2 : ℝ) ^ (emin + p + 9) ≤ a / c := by
    intro a ha
    rcases hsc a ha with k | k
    · rcases hnorm k.1 a ha with k2 | k2
      · left; exact ⟨by rw [k2, zero_div], k.1⟩
      · right; rw [le_div_iff₀ hc0]; exact k2 c hcm
    · right
      refine le_trans ?_ ((one_le_div hc0).2 k.2)
      exact zpow_le_one_of_nonpos₀ (by norm_num) (by omega)
  obtain ⟨S, hSdef, hS1, hSn, E, hEdef, hE1, hE⟩ := scaled_sum_rel h hp he hpw hε0 hε x hn (fun a => a / c) q hq0 hqu hrn hr1 hcm (div_self hc0.ne')
  have hpow : power q x = c * (S / x.length) ^ (1 / q) := by rw [power_scaled hq0 hc0 x hx, hSdef]
  have hu := Mad.unit_le_thousandth (K := ℝ) hp
  have hu0 : (0 : ℝ) < (2 ^ p)⁻¹ := by positivity
  have hnu : (x.length : ℝ) * (2 ^ p)⁻¹ ≤ 1 / 100 := by rw [← div_eq_mul_inv, div_le_iff₀ (by positivity)]; linarith
  have hqu' : |q| * (2 ^ p)⁻¹ ≤ 1 / 100 := by rw [← div_eq_mul_inv, div_le_iff₀ (by positivity)]; linarith
  obtain ⟨hηu, hηuu⟩ := eta_small hp he
  have herr := fun z => h.error (by omega : 1 ≤ p) z
  have hexp := exponent_error_signed hq0 hu0 hqu' (by norm_num at hηuu ⊢; linarith) (herr (1 / q))
  have he'0 : rd (1 / q) ≠ 0 := by
    intro h0
    rw [h0, zero_sub, abs_neg, abs_div, abs_one] at hexp
    have := mul_le_mul_of_nonneg_right hexp hs0.le
    rw [div_mul_cancel₀ _ hs0.ne', div_mul_cancel₀ _ hs0.ne'] at this
    clear * - this hu
    norm_num at *; linarith
  generalize rsum rd 0 (x.map fun a => pw (rd (a / c)) q) = S' at *
  have hS'0 : 0 ≤ S' := by
    have := (abs_le.1 hE).1
    have k : E * S ≤ 0.033 * S := mul_le_mul_of_nonneg_right hE1 (by linarith)
    clear * - this k hS1
    norm_num at *; linarith
  have hy := herr (S' / x.length)
  rw [abs_of_nonneg (div_nonneg hS'0 hn0.le)] at hy
  have hT := mean_error hu0 hu hηuu hn1 hnu hS1 hE hE1 hS'0 hy
  have hT0 : 0 < rd (S' / x.length) := by
    have k0 : 0 < S / x.length := by positivity
    have k1 := (abs_le.1 hT).1
    have k2 : (E + 1.04 * (2 ^ p)⁻¹) * (S / x.length) ≤ 0.04 * (S / x.length) := by
      apply mul_le_mul_of_nonneg_right _ k0.le
      clear * - hE1 hu
      norm_num at *; linarith
    clear * - k0 k1 k2
    norm_num at *; linarith
  rw [xpowR_fin hT0.le he'0 (.inr hT0), XF.mul_fin, rnd_fin] at e
  refine ⟨_, e, ?_⟩
  rw [hpow]
  exact pmean_finish_rel hu0 hu hε0 hε hη0.le hηu hq0 hqu' hsmall hnu hn1 hc0 hS1 hSn hEdef hT hE1 hexp (fun k => hpw.error _ _ k.le he'0 (.inr k)) (herr _)

/-- C84: pmean for positive orders down to `2e-6`.  The relative error is at most
`((1.2 n + 1.1 log n + 1.2)/q + 2.3) u + (1.2/q + 1.1) ε`; added to it is a least subnormal times the
largest element, because `pow` may underflow (see `C84_pmean_underflow_violated`).  Elements other
than 0 must not be so small that their quotient with the largest element underflows. -/
theorem C84_pmean_accuracy_small_partial (h : Nearest p emin rd) (hp : 10 ≤ p) (he : emin ≤ -4 * p) (hpw : SignedPow p emin ε pw) (hε0 : 0 ≤ ε)
    (hε : ε ≤ 1 / 100) (x : List ℝ) (hne : x ≠ []) (hn : 100 * (x.length : ℝ) ≤ 2 ^ p) (hx : ∀ a ∈ x, 0 ≤ a) (q : ℝ) (hq : 2e-6 ≤ q)
    (hqu : 100 * q ≤ 2 ^ p) (hsmall : 30 * (4 * (x.length * (2 ^ p)⁻¹) + 2 * ε) ≤ q) (hnorm : ∀ a ∈ x, a = 0 ∨ ∀ b ∈ x, 2 ^ (emin + p + 9) * b ≤ a)
    (M : ℝ) (hM : ∀ a ∈ x, a ≤ M) :
    ∃ r, pmean1dR (rnd rd) (rnd rx) lg ex (xpowR pw) (x.map XF.fin) (.fin q) = .fin r ∧
      |r - power q x| ≤ (((1.2 * x.length + 1.1 * Real.log x.length + 1.2) / q + 2.3) * (2 ^ p)⁻¹ + (1.2 / q + 1.1) * ε) * power q x + 1.01 * (2 ^ emin * M) + 2 ^ emin / 2 := by
  have hq0 : 0 < q := by norm_num at hq; linarith
  obtain ⟨c, hc, -, r, e, hr⟩ := pmean_accuracy_signed (rx := rx) (lg := lg) (ex := ex) h hp he hpw hε0 hε x hne hn hx q (.inl hq0) (by rwa [abs_of_pos hq0])
    (by linarith) (by rwa [abs_of_pos hq0]) (by rwa [abs_of_pos hq0]) (fun _ => hnorm)
  refine ⟨r, e, hr.trans ?_⟩
  rw [abs_of_pos hq0]
  have := mul_le_mul_of_nonneg_left (hM c hc) (by positivity : (0 : ℝ) ≤ 1.01 * 2 ^ emin)
  linarith

/-- C84: pmean for negative orders (not -1, which is hmean): positive data of any magnitude. -/
theorem C84_pmean_accuracy_negative_partial (h : Nearest p emin rd) (hp : 10 ≤ p) (he : emin ≤ -4 * p) (hpw : SignedPow p emin ε pw) (hε0 : 0 ≤ ε)
    (hε : ε ≤ 1 / 100) (x : List ℝ) (hne : x ≠ []) (hn : 100 * (x.length : ℝ) ≤ 2 ^ p) (hx : ∀ a ∈ x, 0 < a) (s : ℝ) (hs : 2e-6 ≤ s) (hs1 : s ≠ 1)
    (hsu : 100 * s ≤ 2 ^ p) (hsmall : 30 * (4 * (x.length * (2 ^ p)⁻¹) + 2 * ε) ≤ s) :
    ∃ r, pmean1dR (rnd rd) (rnd rx) lg ex (xpowR pw) (x.map XF.fin) (.fin (-s)) = .fin r ∧
      |r - power (-s) x| ≤ (((1.2 * x.length + 1.1 * Real.log x.length + 1.2) / s + 2.4) * (2 ^ p)⁻¹ + (1.2 / s + 1.1) * ε) * power (-s) x + 2 ^ emin / 2 := by
  have hs0 : 0 < s := by norm_num at hs; linarith
  have ha : |-s| = s := by rw [abs_neg, abs_of_pos hs0]
  obtain ⟨c, hc, hcb, r, e, hr⟩ := pmean_accuracy_signed (rx := rx) (lg := lg) (ex := ex) h hp he hpw hε0 hε x hne hn (fun a ha => (hx a ha).le) (-s) (.inr hx) (by rwa [ha])
    (fun h1 => hs1 (by linarith)) (by rwa [ha]) (by rwa [ha]) (fun h1 => absurd h1 (by linarith))
  refine ⟨r, e, hr.trans ?_⟩
  rw [ha]
  have hc0 := hx c hc
  have hn0 : (0 : ℝ) < x.length := by exact_mod_cast List.length_pos_iff.2 hne
  have hcp : c ≤ power (-s) x := by
    rw [power_scaled (by linarith : -s ≠ 0) hc0 x (fun a ha => (hx a ha).le)]
    apply le_mul_of_one_le_right hc0.le
    have hcb' : ∀ a ∈ x, c ≤ a := fun a ha => by rcases hcb a ha with k | k; exact absurd k.1 (by linarith); exact k.2
    have h1 : (x.map fun a => (a / c) ^ (-s)).sum / x.length ≤ 1 := by
      rw [div_le_one hn0]
      have := List.sum_le_card_nsmul (x.map fun a => (a / c) ^ (-s)) 1 (by
        intro y hy; obtain ⟨v, hv, rfl⟩ := List.mem_map.1 hy
        exact Real.rpow_le_one_of_one_le_of_nonpos ((one_le_div hc0).2 (hcb' v hv)) (by linarith))
      simpa using this
    have h0 : 0 < (x.map fun a => (a / c) ^ (-s)).sum / x.length := by
      apply div_pos _ hn0
      have e1 : (c / c) ^ (-s) = (1 : ℝ) := by rw [div_self hc0.ne', Real.one_rpow]
      refine lt_of_lt_of_le one_pos ?_
      rw [← e1]
      exact List.single_le_sum (by intro y hy; obtain ⟨v, hv, rfl⟩ := List.mem_map.1 hy; have := hx v hv; positivity) _ (List.mem_map.2 ⟨c, hc, rfl⟩)
    exact Real.one_le_rpow_of_pos_of_le_one_of_nonpos h0 h1 (by rw [one_div, inv_neg]; have := inv_pos.2 hs0; linarith)
  have hpos : 0 < power (-s) x := lt_of_lt_of_le hc0 hcp
  have hηu := (eta_small hp he).1
  have k1 : (2 : ℝ) ^ emin * c ≤ (0.001 * (2 ^ p)⁻¹) * power (-s) x := by
    have hu0 : (0 : ℝ) < (2 ^ p)⁻¹ := by positivity
    exact mul_le_mul hηu hcp hc0.le (by positivity)
  have k2 : 0 ≤ (2 ^ p)⁻¹ * power (-s) x := by positivity
  generalize power (-s) x = A at *
  generalize ((2 : ℝ) ^ p)⁻¹ = u at *
  generalize (1.2 * x.length + 1.1 * Real.log x.length + 1.2) / s = C at *
  generalize 1.2 / s = C' at *
  norm_num at *; linarith

theorem tiny_power {T : ℝ} (h0 : 0 ≤ T) (h1 : T ≤ 3 / 8) : T ^ 1024 ≤ 2 ^ (-1280 : ℤ) := by
  have a0 : (3 / 8 : ℝ) ^ 2 ≤ (1 / 2) ^ 2 * (9 / 16) := by norm_num
  have a1 : (9 / 16 : ℝ) ^ 2 ≤ 1 / 2 := by norm_num
  calc T ^ 1024 ≤ (3 / 8) ^ 1024 := pow_le_pow_left₀ h0 h1 _
    _ = ((3 / 8) ^ 2) ^ 512 := by rw [← pow_mul]
    _ ≤ ((1 / 2) ^ 2 * (9 / 16)) ^ 512 := pow_le_pow_left₀ (by norm_num) a0 _
    _ = (1 / 2) ^ 1024 * ((9 / 16) ^ 2) ^ 256 := by rw [mul_pow, ← pow_mul, ← pow_mul]
    _ ≤ (1 / 2) ^ 1024 * (1 / 2) ^ 256 := by
      apply mul_le_mul_of_nonneg_left _ (by positivity)
      exact pow_le_pow_left₀ (by norm_num) a1 _
    _ = 2 ^ (-1280 : ℤ) := by
      rw [← pow_add, one_div, inv_pow, ← zpow_natCast, ← zpow_neg]
      norm_cast

theorem third_power : (2 : ℝ) ^ (-1640 : ℤ) ≤ (1 / 3) ^ 1024 := by
  have a0 : (1 / 2 : ℝ) ^ 8 ≤ (1 / 3) ^ 5 := by norm_num
  calc (2 : ℝ) ^ (-1640 : ℤ) = (1 / 2) ^ 1640 := by
        rw [one_div, inv_pow, ← zpow_natCast, ← zpow_neg]; norm_cast
    _ = ((1 / 2) ^ 8) ^ 205 := by rw [← pow_mul]
    _ ≤ ((1 / 3) ^ 5) ^ 205 := pow_le_pow_left₀ (by norm_num) a0 _
    _ = (1 / 3) ^ 1025 := by rw [← pow_mul]
    _ ≤ (1 / 3) ^ 1024 := pow_le_pow_of_le_one (by norm_num) (by norm_num) (by norm_num)

theorem underflow_aux (h : Nearest 53 (-1074) rd) (t : ℝ) (ht : 0 < t) :
    pmean1dR (rnd rd) (rnd rx) lg ex (xpowR fun b e => rd (b ^ e)) [.fin t, .fin 0, .fin 0] (.fin (1 / 1024)) = .fin 0 ∧
      power (1 / 1024) [t, 0, 0] = t * (1 / 3) ^ 1024 := by
  have hq1 : (1 : ℝ) / (1 / 1024) = ((1024 : ℕ) : ℝ) := by norm_num
  have hx : ∀ a ∈ [t, 0, 0], 0 ≤ a := by
    intro a ha; simp only [List.mem_cons, List.not_mem_nil, or_false] at ha; rcases ha with rfl | rfl | rfl <;> linarith
  constructor
  · obtain ⟨M, hM, m, hm, hb, e⟩ := pmean_formula (rx := rx) (lg := lg) (ex := ex) (pw := fun b e => rd (b ^ e)) h (by norm_num) (by norm_num) [t, 0, 0] (by simp) (by norm_num)
      (1 / 1024) (by rw [abs_of_pos (by norm_num)]; norm_num) (by norm_num) hx (.inl (by norm_num))
    have eM : M = t := by
      have := (hb t (by simp)).1
      simp only [List.mem_cons, List.not_mem_nil, or_false] at hM
      rcases hM with k | k | k
      · exact k
      · linarith
      · linarith
    have em : m = 0 := by
      have := (hb 0 (by simp)).2
      simp only [List.mem_cons, List.not_mem_nil, or_false] at hm
      rcases hm with k | k | k
      · linarith
      · exact k
      · exact k
    have f0 : rd 0 = 0 := h.exact isFloat_zero
    have f1 : rd 1 = 1 := h.exact (isFloat_one (by norm_num) (by norm_num))
    rw [eM, em, if_neg ht.ne', if_pos (by norm_num)] at e
    simp only [List.map_cons, List.map_nil, rsum, List.length_cons, List.length_nil] at e
    rw [zero_div, div_self ht.ne', f0, f1, Real.one_rpow, Real.zero_rpow (by norm_num)] at e
    simp only [f0, f1, zero_add, add_zero] at e
    simp only [hq1] at e
    have f1024 : rd ((1024 : ℕ) : ℝ) = ((1024 : ℕ) : ℝ) := h.exact (Mad.isFloat_nat (by norm_num) (by norm_num) (by norm_num))
    have hT0 : 0 ≤ rd (1 / ((0 + 1 + 1 + 1 : ℕ) : ℝ)) := h.mono_float isFloat_zero (by norm_num)
    have hT1 : rd (1 / ((0 + 1 + 1 + 1 : ℕ) : ℝ)) ≤ 3 / 8 := by
      apply h.mono_float'
      · exact ⟨3, -3, by norm_num, by norm_num, by norm_num⟩
      · norm_num
    rw [f1024, xpowR_fin hT0 (by norm_num) (.inl (by norm_num)), XF.mul_fin, rnd_fin] at e
    rw [e]
    generalize rd (1 / ((0 + 1 + 1 + 1 : ℕ) : ℝ)) = T at *
    have hu : rd (T ^ ((1024 : ℕ) : ℝ)) = 0 := by
      rw [Real.rpow_natCast]
      have h1 := tiny_power hT0 hT1
      have h2 : 0 ≤ T ^ 1024 := by positivity
      generalize T ^ 1024 = z at *
      have h3 := (h z).2 0 isFloat_zero
      rw [zero_sub, abs_neg, abs_of_nonneg h2] at h3
      by_contra hne
      have h4 : (2 : ℝ) ^ (-1074 : ℤ) ≤ |rd z| := by
        obtain ⟨k, hk⟩ := (h z).1.grid
        rw [hk] at hne ⊢
        have k0 : k ≠ 0 := by rintro rfl; simp at hne
        have k1 : (1 : ℝ) ≤ |(k : ℝ)| := by rw [← Int.cast_abs]; exact_mod_cast Int.one_le_abs k0
        rw [abs_mul, abs_of_pos (by positivity : (0 : ℝ) < 2 ^ (-1074 : ℤ))]
        exact le_mul_of_one_le_left (by positivity) k1
      have h5 : (2 : ℝ) ^ (-1280 : ℤ) ≤ 2 ^ (-1074 : ℤ) * (1 / 4) := by
        rw [show (1 / 4 : ℝ) = 2 ^ (-2 : ℤ) by norm_num, ← zpow_add₀ (by norm_num)]
        exact zpow_le_zpow_right₀ (by norm_num) (by norm_num)
      have h6 : |rd z| ≤ |rd z - z| + |z| := by
        calc |rd z| = |(rd z - z) + z| := by congr 1; ring
          _ ≤ _ := abs_add_le _ _
      have h7 : (0 : ℝ) < 2 ^ (-1074 : ℤ) := by positivity
      rw [abs_of_nonneg h2] at h6
      generalize (2 : ℝ) ^ (-1074 : ℤ) = η at *
      generalize (2 : ℝ) ^ (-1280 : ℤ) = η' at *
      linarith
    rw [hu, mul_zero, f0]
  · rw [power_scaled (by norm_num) ht _ hx]
    simp only [List.map_cons, List.map_nil, List.sum_cons, List.sum_nil, List.length_cons, List.length_nil]
    rw [zero_div, div_self ht.ne', Real.one_rpow, Real.zero_rpow (by norm_num), hq1, Real.rpow_natCast]
    congr 2
    norm_num

/-- C84: for small orders the root underflows although the mean is well within the range: in double
`pmean([2**1023, 0, 0], 2**-10)` is 0, the power mean is more than `2**-617`.  `pow` is correctly rounded. -/
theorem C84_pmean_underflow_violated (h : Nearest 53 (-1074) rd) :
    pmean1dR (rnd rd) (rnd rx) lg ex (xpowR fun b e => rd (b ^ e)) [.fin (2 ^ (1023 : ℤ)), .fin 0, .fin 0] (.fin (1 / 1024)) = .fin 0 ∧
      2 ^ (-617 : ℤ) ≤ power (1 / 1024) [2 ^ (1023 : ℤ), 0, 0] := by
  obtain ⟨h1, h2⟩ := underflow_aux (rx := rx) (lg := lg) (ex := ex) h (2 ^ (1023 : ℤ)) (by positivity)
  refine ⟨h1, ?_⟩
  rw [h2]
  refine le_trans (le_of_eq ?_) (mul_le_mul_of_nonneg_left third_power (by positivity))
  rw [← zpow_add₀ (by norm_num)]
  norm_cast

/-- A correctly rounded `pow` meets the requirement. -/
theorem signedPow_round (h : Nearest p emin rd) (hp : 1 ≤ p) : SignedPow p emin ((2 ^ p)⁻¹) (fun b e => rd (b ^ e)) where
  float := fun b e _ _ _ => (h _).1
  error := fun b e hb _ _ => by
    have := h.error hp (b ^ e)
    have h0 : (0 : ℝ) < 2 ^ emin := by positivity
    rw [abs_of_nonneg (Real.rpow_nonneg hb e)] at this
    linarith

example (h : Nearest 53 (-1074) rd) : ∃ r, pmean1dR (rnd rd) (rnd rx) lg ex (xpowR fun b e => rd (b ^ e)) [.fin 1, .fin 4, .fin 0] (.fin (1 / 2)) = .fin r ∧
    |r - 1| ≤ 1 / 10 ^ 14 := by
  obtain ⟨r, e, hr⟩ := C84_pmean_accuracy_small_partial (rx := rx) (lg := lg) (ex := ex) h (by norm_num) (by norm_num) (signedPow_round h (by norm_num)) (by positivity) (by norm_num)
    [1, 4, 0] (by simp) (by norm_num) (by simp) (1 / 2) (by norm_num) (by norm_num) (by norm_num)
    (by
      have h1 : (2 : ℝ) ^ ((-1074 : ℤ) + (53 : ℕ) + 9) * 4 ≤ 1 := by
        rw [show (4 : ℝ) = 2 ^ (2 : ℤ) by norm_num, ← zpow_add₀ (by norm_num)]
        exact zpow_le_one_of_nonpos₀ (by norm_num) (by norm_num)
      have h2 : (0 : ℝ) < (2 : ℝ) ^ ((-1074 : ℤ) + (53 : ℕ) + 9) := by positivity
      generalize (2 : ℝ) ^ ((-1074 : ℤ) + (53 : ℕ) + 9) = t at *
      intro a ha
      simp only [List.mem_cons, List.not_mem_nil, or_false] at ha
      rcases ha with rfl | rfl | rfl
      · right; intro b hb; simp only [List.mem_cons, List.not_mem_nil, or_false] at hb
        rcases hb with rfl | rfl | rfl <;> linarith
      · right; intro b hb; simp only [List.mem_cons, List.not_mem_nil, or_false] at hb
        rcases hb with rfl | rfl | rfl <;> linarith
      · left; rfl) 4 (by
      intro a ha
      simp only [List.mem_cons, List.not_mem_nil, or_false] at ha
      rcases ha with rfl | rfl | rfl <;> norm_num)
  refine ⟨r, e, ?_⟩
  have hpw1 : power (1 / 2) [1, 4, 0] = 1 := by
    simp only [power, List.map_cons, List.map_nil, List.sum_cons, List.sum_nil, List.length_cons, List.length_nil]
    rw [← Real.sqrt_eq_rpow, ← Real.sqrt_eq_rpow, ← Real.sqrt_eq_rpow, show (4 : ℝ) = 2 ^ 2 by norm_num, Real.sqrt_sq (by norm_num)]
    norm_num
  rw [hpw1] at hr
  have hlog : Real.log (3 : ℝ) ≤ 2 := (Real.log_le_sub_one_of_pos (by norm_num)).trans (by norm_num)
  have h74 : (2 : ℝ) ^ (-1074 : ℤ) ≤ 1 / 10 ^ 18 := by
    calc (2 : ℝ) ^ (-1074 : ℤ) ≤ 2 ^ (-64 : ℤ) := zpow_le_zpow_right₀ (by norm_num) (by norm_num)
      _ ≤ _ := by norm_num
  simp only [List.length_cons, List.length_nil] at hr
  generalize (2 : ℝ) ^ (-1074 : ℤ) = η at *
  norm_num at hr h74 ⊢
  linarith

example (h : Nearest 53 (-1074) rd) : ∃ r, pmean1dR (rnd rd) (rnd rx) lg ex (xpowR fun b e => rd (b ^ e)) [.fin 1, .fin (1 / 7)] (.fin (-2)) = .fin r ∧
    |r - 1 / 5| ≤ 1 / 10 ^ 14 := by
  obtain ⟨r, e, hr⟩ := C84_pmean_accuracy_negative_partial (rx := rx) (lg := lg) (ex := ex) h (by norm_num) (by norm_num) (signedPow_round h (by norm_num)) (by positivity) (by norm_num)
    [1, 1 / 7] (by simp) (by norm_num) (by simp) 2 (by norm_num) (by norm_num) (by norm_num) (by norm_num)
  refine ⟨r, e, ?_⟩
  have hpw1 : power (-2) [1, 1 / 7] = 1 / 5 := by
    simp only [power, List.map_cons, List.map_nil, List.sum_cons, List.sum_nil, List.length_cons, List.length_nil]
    rw [show (1 : ℝ) / -2 = -(1 / 2) by norm_num, Real.rpow_neg (by positivity), ← Real.sqrt_eq_rpow, show ((-2 : ℝ)) = ((-2 : ℤ) : ℝ) by norm_num, Real.rpow_intCast, Real.rpow_intCast]
    rw [show ((1 : ℝ) ^ (-2 : ℤ) + ((1 / 7) ^ (-2 : ℤ) + 0)) / ((0 + 1 + 1 : ℕ) : ℝ) = 5 ^ 2 by norm_num, Real.sqrt_sq (by norm_num)]
    norm_num
  rw [hpw1] at hr
  have hlog : Real.log (2 : ℝ) ≤ 2 := (Real.log_le_sub_one_of_pos (by norm_num)).trans (by norm_num)
  have h74 : (2 : ℝ) ^ (-1074 : ℤ) ≤ 1 / 10 ^ 18 := by
    calc (2 : ℝ) ^ (-1074 : ℤ) ≤ 2 ^ (-64 : ℤ) := zpow_le_zpow_right₀ (by norm_num) (by norm_num)
      _ ≤ _ := by norm_num
  simp only [List.length_cons, List.length_nil] at hr
  generalize (2 : ℝ) ^ (-1074 : ℤ) = η at *
  norm_num at hr h74 ⊢
  linarith

end Ufunclab.Means
