import Verif.Props.PmeanSmall
import Verif.Proof.PmeanTiny
import Verif.Props.Means
/-!
# C84: pmean in floating point for tiny orders

`0 < |q| < 2e-6`: the code returns `gmean(x)·(1 + q/2·var(log x))`.
-/
namespace Ufunclab.Means
open Ufunclab.Float Ufunclab.Corr MeansSpec
variable {p : ℕ} {emin : ℤ} {rd lg ex : ℝ → ℝ} {rx : XF ℝ → XF ℝ} {pow : XF ℝ → XF ℝ → XF ℝ} {ε : ℝ}

theorem logSumsR_fin (x : List ℝ) (hx : ∀ a ∈ x, 0 < a) : ∀ s t, logSumsR (rnd rd) lg (.fin s) (.fin t) (x.map XF.fin) =
    (.fin (rsum rd s (x.map lg)), .fin (rsum rd t (x.map fun a => rd (lg a * lg a)))) := by
  induction x with
  | nil => intro s t; rfl
  | cons a x ih =>
    intro s t
    have ha := hx a (by simp)
    have e : xlogR lg (.fin a) = .fin (lg a) := by simp only [xlogR]; rw [if_neg ha.not_gt, if_neg ha.ne']
    simp only [List.map_cons, logSumsR, e, XF.add_fin, XF.mul_fin, rnd_fin, rsum]
    exact ih (fun b hb => hx b (by simp [hb])) _ _

theorem sq_sum_le (x : List ℝ) (f : ℝ → ℝ) : (x.map f).sum ^ 2 ≤ x.length * (x.map fun a => f a ^ 2).sum := by
  induction x with
  | nil => simp
  | cons a x ih =>
    simp only [List.map_cons, List.sum_cons, List.length_cons]
    push_cast
    by_cases hn : x.length = 0
    · have : x = [] := List.length_eq_zero_iff.1 hn
      subst this; simp
    · have hn0 : (0 : ℝ) < x.length := by exact_mod_cast Nat.pos_of_ne_zero hn
      generalize (x.map f).sum = s at *
      generalize (x.map fun a => f a ^ 2).sum = t at *
      have h1 : 2 * f a * s ≤ x.length * f a ^ 2 + t := by
        have h2 : 0 ≤ (x.length * f a - s) ^ 2 := sq_nonneg _
        have h3 : x.length * (2 * f a * s) ≤ x.length * (x.length * f a ^ 2 + t) := by nlinarith
        exact le_of_mul_le_mul_left h3 hn0
      nlinarith

/-- C84: pmean for tiny orders, as an approximation of what the code sets out to compute. -/
theorem C84_pmean_tiny_formula (h : Nearest p emin rd) (hp : 10 ≤ p) (he : emin ≤ -4 * p) (hε0 : 0 ≤ ε) (hε : ε ≤ 1 / 1000)
    (hl : GoodLog p emin ε lg) (hexp : GoodExp emin ε ex) (x : List ℝ) (hne : x ≠ []) (hn : 100 * (x.length : ℝ) ≤ 2 ^ p)
    (hx : ∀ a ∈ x, 0 < a) (hxf : ∀ a ∈ x, IsFloat p emin a) (Λ : ℝ) (hΛ1 : 1 ≤ Λ) (hΛ : ∀ a ∈ x, |Real.log a| ≤ Λ)
    (hb : ((x.length + 1) * (2 ^ p)⁻¹ + ε) * Λ ≤ 1 / 50) (q : ℝ) (hq0 : q ≠ 0) (hq : |q| < 2e-6) (hqΛ : |q| * Λ ^ 2 ≤ 1) {m v : ℝ}
    (hm : m = (x.map Real.log).sum / x.length) (hv : v = (x.map fun a => Real.log a ^ 2).sum / x.length - m ^ 2) :
    ∃ r, pmean1dR (rnd rd) rx lg (xexpR ex) pow (x.map XF.fin) (.fin q) = .fin r ∧ (0 < 1 + q / 2 * v ∧ 1 + q / 2 * v ≤ 3 / 2) ∧
      |r - geo x * (1 + q / 2 * v)| ≤ ((1.3 * Λ + 8 * (|q| * Λ ^ 2)) * ((x.length + 1) * (2 ^ p)⁻¹ + ε) + 1.3 * ε + 6 * (2 ^ p)⁻¹) * (geo x * (1 + q / 2 * v)) + 2.3 * 2 ^ emin := by
  have hnl : 0 < x.length := List.length_pos_iff.2 hne
  have hn0 : (0 : ℝ) < x.length := by exact_mod_cast hnl
  have hη : (0 : ℝ) < 2 ^ emin := by positivity
  have hu0 : (0 : ℝ) < (2 ^ p)⁻¹ := by positivity
  have hu := Mad.unit_le_thousandth (K := ℝ) hp
  have hΛ0 : 0 < Λ := by linarith
  obtain ⟨L, hL⟩ : ∃ L, L = (x.map fun a => |Real.log a|).sum / x.length := ⟨_, rfl⟩
  have hLΛ : L ≤ Λ := by
    rw [hL, div_le_iff₀ hn0]
    have := List.sum_le_card_nsmul (x.map fun a => |Real.log a|) Λ (by intro y hy; obtain ⟨w, hw, rfl⟩ := List.mem_map.1 hy; exact hΛ w hw)
    simpa [mul_comm] using this
  have hL0 : 0 ≤ L := by
    rw [hL]; exact div_nonneg (List.sum_nonneg (by intro y hy; obtain ⟨v, -, rfl⟩ := List.mem_map.1 hy; positivity)) hn0.le
  obtain ⟨K, hK⟩ : ∃ K : ℝ, K = (x.length + 1) * (2 ^ p)⁻¹ + ε := ⟨_, rfl⟩
  have hK0 : 0 < K := by rw [hK]; positivity
  have hnu : (x.length : ℝ) * (2 ^ p)⁻¹ ≤ 1 / 100 := by rw [← div_eq_mul_inv, div_le_iff₀ (by positivity)]; linarith
  have huK : ((2 : ℝ) ^ p)⁻¹ ≤ K := by
    rw [hK]; have : 0 ≤ (x.length : ℝ) * (2 ^ p)⁻¹ := by positivity
    linarith
  obtain ⟨g', eg, hg'0, hg'⟩ := C84_gmean_accuracy h hp (by omega) hε0 hε hl hexp x hne hn hx hxf hL
    ((mul_le_mul_of_nonneg_left hLΛ (by rw [← hK]; exact hK0.le)).trans hb)
  rw [← hK] at hb hg' ⊢
  have hg : 0 < geo x := Real.exp_pos _
  have hg'' : |g' - geo x| ≤ (1.1 * (K * Λ) + 1.1 * ε + 2 ^ emin) * geo x + 2 ^ emin := by
    refine hg'.trans (by
      have := mul_le_mul_of_nonneg_left hLΛ hK0.le
      have k := mul_le_mul_of_nonneg_right this hg.le
      linarith)
  have hnr : rd x.length = x.length := by
    apply h.exact; apply Mad.isFloat_nat (by omega) (by omega)
    have : (x.length : ℝ) ≤ 2 ^ p := by linarith
    exact_mod_cast this
  have herr := fun z => h.error (by omega : 1 ≤ p) z
  -- the formula
  have hform : pmean1dR (rnd rd) rx lg (xexpR ex) pow (x.map XF.fin) (.fin q) =
      .fin (rd (g' * rd (1 + rd (rd (1 / 2 * q) * rd (rd (rsum rd 0 (x.map fun a => rd (lg a * lg a)) / x.length) -
        rd (rd (rsum rd 0 (x.map lg) / x.length) * rd (rsum rd 0 (x.map lg) / x.length))))))) := by
    have hne0 : XF.ne (.fin q) (.fin 0) = true := by simp [XF.ne, hq0]
    rw [pmean1dR]
    simp only [XF.isnan_fin, XF.abs_fin, XF.lt_fin, Bool.false_eq_true, if_false, decide_eq_true_eq, if_pos hq, hne0, if_true]
    rw [eg, logSumsR_fin x hx]
    simp only [List.length_map, rnd_fin, hnr]
    rw [XF.div_fin _ _ hn0.ne', XF.div_fin _ _ hn0.ne']
    simp only [rnd_fin, XF.mul_fin, XF.sub_fin, XF.add_fin]
  have hηs := eta_small hp he
  have hη4 : (2 : ℝ) ^ emin ≤ (2 ^ p)⁻¹ * (2 ^ p)⁻¹ * (2 ^ p)⁻¹ * (2 ^ p)⁻¹ := by
    rw [← zpow_natCast, ← zpow_neg, ← zpow_add₀ (by norm_num), ← zpow_add₀ (by norm_num), ← zpow_add₀ (by norm_num)]
    exact zpow_le_zpow_right₀ (by norm_num) (by omega)
  -- the mean of the logarithms
  have hpu := Mad.pow_bound (u := ((2 : ℝ) ^ p)⁻¹) hu0.le x.length hnu
  have hP1 : 1 ≤ (1 + ((2 : ℝ) ^ p)⁻¹) ^ x.length := one_le_pow₀ (by linarith)
  have hma : |m| ≤ Λ := by
    rw [hm, abs_div, abs_of_pos hn0]
    refine le_trans (div_le_div_of_nonneg_right (abs_sum_map_le x Real.log) hn0.le) ?_
    rw [← hL]; exact hLΛ
  have t1 := rsum_terms_list h (by omega) x lg Real.log (fun v hv => hl.float v (hxf v hv) (hx v hv)) (a := ε) (b := 0)
    (fun v hv => by rw [add_zero]; exact hl.error v (hxf v hv) (hx v hv))
  rw [mul_zero, mul_zero, add_zero] at t1
  have t4 : |rsum rd 0 (x.map lg) / x.length - m| ≤ (1.02 * (x.length * (2 ^ p)⁻¹) + 1.02 * ε) * Λ := by
    refine le_trans ?_ (mul_le_mul_of_nonneg_left hLΛ (by positivity))
    rw [hm, ← sub_div, abs_div, abs_of_pos hn0, hL, ← mul_div_assoc]
    apply div_le_div_of_nonneg_right (t1.trans _) hn0.le
    apply mul_le_mul_of_nonneg_right _ (List.sum_nonneg (by intro y hy; obtain ⟨v, -, rfl⟩ := List.mem_map.1 hy; positivity))
    have q1 := mul_le_mul_of_nonneg_right hpu (by linarith : 0 ≤ 1 + ε)
    have q2 : (x.length * (2 ^ p)⁻¹ : ℝ) * ε ≤ 1 / 100 * ε := mul_le_mul_of_nonneg_right hnu hε0
    rw [mul_assoc 1.02] at q1
    clear * - q1 q2 hε0
    generalize (x.length * (2 ^ p)⁻¹ : ℝ) = X at *
    norm_num at *; linarith
  have hm' : |rd (rsum rd 0 (x.map lg) / x.length) - m| ≤ 1.03 * (K * Λ) := by
    have k1 := herr (rsum rd 0 (x.map lg) / x.length)
    generalize rsum rd 0 (x.map lg) / x.length = z at *
    have k2 : |z| ≤ |z - m| + |m| := by
      calc |z| = |(z - m) + m| := by congr 1; ring
        _ ≤ _ := abs_add_le _ _
    have k3 : (1.02 * (x.length * (2 ^ p)⁻¹) + 1.02 * ε) * Λ ≤ 1.02 * (K * Λ) := by
      have : (1.02 * (x.length * (2 ^ p)⁻¹) + 1.02 * ε) ≤ 1.02 * K - 1.02 * (2 ^ p)⁻¹ := by rw [hK]; clear * -; norm_num at *; linarith
      have := mul_le_mul_of_nonneg_right this hΛ0.le
      have k : 0 ≤ (2 ^ p)⁻¹ * Λ := by positivity
      clear * - this k
      generalize ((2 : ℝ) ^ p)⁻¹ = u at *
      norm_num at *; linarith
    have k4 : (2 ^ p)⁻¹ * |z| ≤ (2 ^ p)⁻¹ * (1.0204 * Λ) := by
      apply mul_le_mul_of_nonneg_left _ hu0.le
      clear * - k2 k3 t4 hma hb hΛ1
      norm_num at *; linarith
    have k5 : (1.02 * (x.length * (2 ^ p)⁻¹) + 1.02 * ε) * Λ + 1.02 * ((2 ^ p)⁻¹ * Λ) = 1.02 * (K * Λ) := by rw [hK]; ring
    have k6 : (2 ^ p)⁻¹ * 1 ≤ (2 ^ p)⁻¹ * Λ := mul_le_mul_of_nonneg_left hΛ1 hu0.le
    have k7 : (2 ^ p)⁻¹ * Λ ≤ K * Λ := mul_le_mul_of_nonneg_right huK hΛ0.le
    have k8 := hηs.1
    calc |rd z - m| = |(rd z - z) + (z - m)| := by congr 1; ring
      _ ≤ _ := abs_add_le _ _
      _ ≤ _ := by
        clear * - k1 k4 k5 k6 k7 k8 t4 hu0 hΛ0
        generalize ((2 : ℝ) ^ p)⁻¹ = u at *
        generalize (2 : ℝ) ^ emin = η at *
        generalize K * Λ = z1 at *
        generalize (1.02 * (x.length * u) + 1.02 * ε) * Λ = z3 at *
        norm_num at *; linarith
  -- the mean of the squares
  obtain ⟨Q, hQ⟩ : ∃ Q, Q = (x.map fun a => Real.log a ^ 2).sum / x.length := ⟨_, rfl⟩
  have hQΛ : Q ≤ Λ ^ 2 := by
    rw [hQ, div_le_iff₀ hn0]
    have := List.sum_le_card_nsmul (x.map fun a => Real.log a ^ 2) (Λ ^ 2) (by
      intro y hy; obtain ⟨w, hw, rfl⟩ := List.mem_map.1 hy
      rw [← sq_abs]; exact pow_le_pow_left₀ (abs_nonneg _) (hΛ w hw) 2)
    simpa [mul_comm] using this
  have hQ0 : 0 ≤ Q := by
    rw [hQ]; exact div_nonneg (List.sum_nonneg (by intro y hy; obtain ⟨v, -, rfl⟩ := List.mem_map.1 hy; positivity)) hn0.le
  have hmQ : m ^ 2 ≤ Q := by
    rw [hm, hQ, div_pow, div_le_div_iff₀ (by positivity) hn0]
    have := sq_sum_le x Real.log
    nlinarith
  have hterm : ∀ a ∈ x, |rd (lg a * lg a) - Real.log a ^ 2| ≤ (2.01 * ε + 1.003 * (2 ^ p)⁻¹) * |Real.log a ^ 2| + 2 ^ emin / 2 := by
    intro a ha
    have k1 := hl.error a (hxf a ha) (hx a ha)
    have k2 := herr (lg a * lg a)
    rw [abs_of_nonneg (mul_self_nonneg (lg a))] at k2
    rw [abs_of_nonneg (sq_nonneg (Real.log a))]
    have k3 : |lg a * lg a - Real.log a ^ 2| ≤ (2 * ε + ε * ε) * Real.log a ^ 2 := by
      have e : lg a * lg a - Real.log a ^ 2 = (lg a - Real.log a) * ((lg a - Real.log a) + 2 * Real.log a) := by ring
      rw [e, abs_mul]
      have c1 : |(lg a - Real.log a) + 2 * Real.log a| ≤ ε * |Real.log a| + 2 * |Real.log a| := by
        refine (abs_add_le _ _).trans ?_
        rw [abs_mul, abs_two]; linarith
      have c2 := mul_le_mul k1 c1 (abs_nonneg _) (by positivity)
      refine c2.trans (le_of_eq ?_)
      rw [← sq_abs (Real.log a)]; ring
    have k4 : ε * ε ≤ 1 / 1000 * ε := mul_le_mul_of_nonneg_right hε hε0
    have hl0 := sq_nonneg (Real.log a)
    generalize Real.log a ^ 2 = τ at *
    generalize lg a * lg a = z at *
    have k5 : (2 * ε + ε * ε) * τ ≤ 2.001 * ε * τ := by
      apply mul_le_mul_of_nonneg_right _ hl0
      clear * - k4; norm_num at *; linarith
    have k6 : z ≤ 1.003 * τ := by
      have := (abs_le.1 k3).2
      have c : 2.001 * ε * τ ≤ 0.002001 * τ := by
        apply mul_le_mul_of_nonneg_right _ hl0
        clear * - hε; norm_num at *; linarith
      clear * - this c k5 hl0
      norm_num at *; linarith
    have k7 := mul_le_mul_of_nonneg_left k6 hu0.le
    have k8 : 0 ≤ ε * τ := by positivity
    calc |rd z - τ| = |(rd z - z) + (z - τ)| := by congr 1; ring
      _ ≤ _ := abs_add_le _ _
      _ ≤ _ := by
        clear * - k2 k3 k5 k7 k8
        generalize ((2 : ℝ) ^ p)⁻¹ = u at *
        norm_num at *; linarith
  have s1 := rsum_terms_list h (by omega) x (fun a => rd (lg a * lg a)) (fun a => Real.log a ^ 2) (fun v _ => (h _).1) hterm
  have eabs : (x.map fun a => |Real.log a ^ 2|).sum = (x.map fun a => Real.log a ^ 2).sum := by
    congr 1; apply List.map_congr_left; intro v _; exact abs_of_nonneg (sq_nonneg _)
  rw [eabs] at s1
  have s2 : |rsum rd 0 (x.map fun a => rd (lg a * lg a)) / x.length - Q| ≤ (1.02 * (x.length * (2 ^ p)⁻¹) + 2.1 * ε + 1.04 * (2 ^ p)⁻¹) * Λ ^ 2 + 0.51 * 2 ^ emin := by
    have c1 : |rsum rd 0 (x.map fun a => rd (lg a * lg a)) / x.length - Q| ≤
        ((1 + (2 ^ p)⁻¹) ^ x.length * (1 + (2.01 * ε + 1.003 * (2 ^ p)⁻¹)) - 1) * Q + (1 + (2 ^ p)⁻¹) ^ x.length * (2 ^ emin / 2) := by
      rw [hQ, ← sub_div, abs_div, abs_of_pos hn0, div_le_iff₀ hn0]
      refine s1.trans (le_of_eq ?_)
      field_simp
    have hP2 : (1 + ((2 : ℝ) ^ p)⁻¹) ^ x.length ≤ 1.0102 := by
      clear * - hpu hnu
      generalize (1 + ((2 : ℝ) ^ p)⁻¹) ^ x.length = P at *
      rw [mul_assoc] at hpu
      norm_num at *; linarith
    generalize (1 + ((2 : ℝ) ^ p)⁻¹) ^ x.length = P at *
    have c2 : P * (2.01 * ε + 1.003 * (2 ^ p)⁻¹) ≤ 1.0102 * (2.01 * ε + 1.003 * (2 ^ p)⁻¹) := mul_le_mul_of_nonneg_right hP2 (by positivity)
    have c3 : P * (1 + (2.01 * ε + 1.003 * (2 ^ p)⁻¹)) - 1 ≤ 1.02 * (x.length * (2 ^ p)⁻¹) + 2.1 * ε + 1.04 * (2 ^ p)⁻¹ := by
      clear * - c2 hpu hε0 hu0
      rw [mul_assoc] at hpu
      generalize ((2 : ℝ) ^ p)⁻¹ = u at *
      norm_num at *; linarith
    have c4 : (P * (1 + (2.01 * ε + 1.003 * (2 ^ p)⁻¹)) - 1) * Q ≤ (1.02 * (x.length * (2 ^ p)⁻¹) + 2.1 * ε + 1.04 * (2 ^ p)⁻¹) * Λ ^ 2 :=
      (mul_le_mul_of_nonneg_right c3 hQ0).trans (mul_le_mul_of_nonneg_left hQΛ (by positivity))
    have c5 : P * ((2 : ℝ) ^ emin / 2) ≤ 1.0102 * (2 ^ emin / 2) := mul_le_mul_of_nonneg_right hP2 (by positivity)
    clear * - c1 c4 c5 hη
    generalize (2 : ℝ) ^ emin = η at *
    norm_num at *; linarith
  have hQ' : |rd (rsum rd 0 (x.map fun a => rd (lg a * lg a)) / x.length) - Q| ≤ 2.2 * (K * Λ ^ 2) := by
    have k1 := herr (rsum rd 0 (x.map fun a => rd (lg a * lg a)) / x.length)
    generalize rsum rd 0 (x.map fun a => rd (lg a * lg a)) / x.length = z at *
    have hΛ2 : 1 ≤ Λ ^ 2 := one_le_pow₀ hΛ1
    have k2 : |z| ≤ |z - Q| + |Q| := by
      calc |z| = |(z - Q) + Q| := by congr 1; ring
        _ ≤ _ := abs_add_le _ _
    rw [abs_of_nonneg hQ0] at k2
    have k0 : (1.02 * (x.length * (2 ^ p)⁻¹) + 2.1 * ε + 1.04 * (2 ^ p)⁻¹) * Λ ^ 2 ≤ 0.02 * Λ ^ 2 := by
      apply mul_le_mul_of_nonneg_right _ (by positivity)
      clear * - hnu hε hu
      norm_num at *; linarith
    have k8 := hηs.1
    have k3 : |z| ≤ 1.03 * Λ ^ 2 := by
      clear * - k2 k0 s2 hQΛ hΛ2 k8 hu hη
      generalize (2 : ℝ) ^ emin = η at *
      generalize Λ ^ 2 = Z at *
      norm_num at *; linarith
    have k4 := mul_le_mul_of_nonneg_left k3 hu0.le
    have k5 : (1.02 * (x.length * (2 ^ p)⁻¹) + 2.1 * ε + 1.04 * (2 ^ p)⁻¹ + 1.12 * (2 ^ p)⁻¹) * Λ ^ 2 ≤ 2.2 * K * Λ ^ 2 := by
      apply mul_le_mul_of_nonneg_right _ (by positivity)
      rw [hK]
      have : 0 ≤ (x.length : ℝ) * (2 ^ p)⁻¹ := by positivity
      clear * - this hε0 hu0
      generalize ((2 : ℝ) ^ p)⁻¹ = u at *
      norm_num at *; linarith
    have k6 : (2 ^ p)⁻¹ * 1 ≤ (2 ^ p)⁻¹ * Λ ^ 2 := mul_le_mul_of_nonneg_left hΛ2 hu0.le
    calc |rd z - Q| = |(rd z - z) + (z - Q)| := by congr 1; ring
      _ ≤ _ := abs_add_le _ _
      _ ≤ _ := by
        clear * - k1 k4 k5 k6 k8 s2 hη
        generalize (2 : ℝ) ^ emin = η at *
        generalize ((2 : ℝ) ^ p)⁻¹ = u at *
        generalize Λ ^ 2 = Z at *
        norm_num at *; linarith
  have hvQ : v = Q - m ^ 2 := by rw [hv, hQ]
  refine ⟨_, hform, ?_⟩
  generalize rd (rsum rd 0 (x.map fun a => rd (lg a * lg a)) / x.length) = Q' at *
  generalize rd (rsum rd 0 (x.map lg) / x.length) = m' at *
  obtain ⟨hv1, hv2⟩ := tiny_var hu0.le hΛ1 huK hb hη.le hηs.1 hQΛ hma hmQ hQ' hm' (herr _) (herr _)
  rw [← hvQ] at hv1
  have hf := tiny_finish hu0 hu hΛ1 huK hb hε0 hε hη.le hη4 hqΛ (by rw [hvQ]; linarith) (by rw [hvQ]; have := sq_nonneg m; linarith) hv1 hv2 (herr _) (herr _) (herr _) hg hg'' (herr _)
  refine ⟨hf.1, hf.2.trans (le_of_eq ?_)⟩
  ring

/-- C84: pmean for tiny orders against the power mean itself: `R` bounds the deviations of the
logarithms from their mean; the last term of the coefficient is the error of the approximation. -/
theorem C84_pmean_accuracy_tiny_partial (h : Nearest p emin rd) (hp : 10 ≤ p) (he : emin ≤ -4 * p) (hε0 : 0 ≤ ε) (hε : ε ≤ 1 / 1000)
    (hl : GoodLog p emin ε lg) (hexp : GoodExp emin ε ex) (x : List ℝ) (hne : x ≠ []) (hn : 100 * (x.length : ℝ) ≤ 2 ^ p)
    (hx : ∀ a ∈ x, 0 < a) (hxf : ∀ a ∈ x, IsFloat p emin a) (Λ : ℝ) (hΛ1 : 1 ≤ Λ) (hΛ : ∀ a ∈ x, |Real.log a| ≤ Λ)
    (hb : ((x.length + 1) * (2 ^ p)⁻¹ + ε) * Λ ≤ 1 / 50) (q : ℝ) (hq0 : q ≠ 0) (hq : |q| < 2e-6) (hqΛ : |q| * Λ ^ 2 ≤ 1)
    (R : ℝ) (hR : ∀ a ∈ x, |Real.log a - (x.map Real.log).sum / x.length| ≤ R) (hR2 : R ≤ 700) :
    ∃ r, pmean1dR (rnd rd) rx lg (xexpR ex) pow (x.map XF.fin) (.fin q) = .fin r ∧
      |r - power q x| ≤ ((2 * Λ + 21) * ((x.length + 1) * (2 ^ p)⁻¹ + ε) + 2 * ε + q ^ 2 * R ^ 3 * (1 + R)) * geo x + 2.3 * 2 ^ emin := by
  have hn0 : (0 : ℝ) < x.length := by exact_mod_cast List.length_pos_iff.2 hne
  obtain ⟨r, e, ⟨h1, hv32⟩, h2⟩ := C84_pmean_tiny_formula (rx := rx) (pow := pow) h hp he hε0 hε hl hexp x hne hn hx hxf Λ hΛ1 hΛ hb q hq0 hq hqΛ rfl rfl
  refine ⟨r, e, ?_⟩
  have hl1 : ((x.map fun a => (a, (1 : ℝ))).map Prod.snd).sum = x.length := by simp [Function.comp_def]
  have hw : Weights (x.map fun a => (a, (1 : ℝ))) := by
    refine ⟨?_, by rw [hl1]; exact hn0⟩
    intro v hv; obtain ⟨a, -, rfl⟩ := List.mem_map.1 hv; exact zero_le_one
  have havg : ∀ f : ℝ → ℝ, avg (x.map fun a => (a, (1 : ℝ))) f = (x.map f).sum / x.length := by
    intro f; rw [avg, hl1]; simp [Function.comp_def]
  obtain ⟨a0, ha0⟩ := List.exists_mem_of_ne_nil x hne
  have hR0 : 0 ≤ R := (abs_nonneg _).trans (hR a0 ha0)
  have k := small_p (x.map fun a => (a, (1 : ℝ))) q R hq0 hw (by intro v hv; obtain ⟨a, ha, rfl⟩ := List.mem_map.1 hv; exact hx a ha)
    (by intro v hv; obtain ⟨a, ha, rfl⟩ := List.mem_map.1 hv; rw [havg]; exact hR a ha)
    ((mul_le_mul hq.le hR2 hR0 (by norm_num)).trans (by norm_num))
    ((mul_le_mul hq.le (pow_le_pow_left₀ hR0 hR2 2) (by positivity) (by norm_num)).trans (by norm_num))
  rw [havg, havg, unit_geo, unit_power] at k
  have hg : 0 < geo x := Real.exp_pos _
  generalize (x.map fun a => Real.log a ^ 2).sum / x.length - ((x.map Real.log).sum / x.length) ^ 2 = v at *
  have hu0 : (0 : ℝ) < (2 ^ p)⁻¹ := by positivity
  obtain ⟨K, hK⟩ : ∃ K : ℝ, K = (x.length + 1) * (2 ^ p)⁻¹ + ε := ⟨_, rfl⟩
  have huK : ((2 : ℝ) ^ p)⁻¹ ≤ K := by
    rw [hK]; have : 0 ≤ (x.length : ℝ) * (2 ^ p)⁻¹ := by positivity
    linarith
  rw [← hK] at h2 ⊢
  have hK0 : 0 < K := lt_of_lt_of_le hu0 huK
  have hw1 : 1 + q / 2 * v ≤ 3 / 2 := hv32
  have c1 : (1.3 * Λ + 8 * (|q| * Λ ^ 2)) * K + 1.3 * ε + 6 * (2 ^ p)⁻¹ ≤ (1.3 * Λ + 14) * K + 1.3 * ε := by
    have := mul_le_mul_of_nonneg_right hqΛ hK0.le
    linarith
  have c2 : ((1.3 * Λ + 8 * (|q| * Λ ^ 2)) * K + 1.3 * ε + 6 * (2 ^ p)⁻¹) * (geo x * (1 + q / 2 * v)) ≤ ((1.3 * Λ + 14) * K + 1.3 * ε) * (geo x * (3 / 2)) :=
    mul_le_mul c1 (mul_le_mul_of_nonneg_left hw1 hg.le) (by positivity) (by positivity)
  have c3 : ((1.3 * Λ + 14) * K + 1.3 * ε) * (geo x * (3 / 2)) ≤ ((2 * Λ + 21) * K + 2 * ε) * geo x := by
    have a1 : 0 ≤ Λ * K * geo x := by positivity
    have a2 : 0 ≤ ε * geo x := by positivity
    norm_num; nlinarith
  calc |r - power q x| = |(r - geo x * (1 + q / 2 * v)) + (geo x * (1 + q / 2 * v) - power q x)| := by congr 1; ring
    _ ≤ _ := abs_add_le _ _
    _ ≤ _ := by linarith

/-- `pmean([1, 4], 2**-20)` in double. -/
example (h : Nearest 53 (-1074) rd) : ∃ r, pmean1dR (rnd rd) rx (fun a => rd (Real.log a)) (xexpR fun y => rd (Real.exp y)) pow [.fin 1, .fin 4] (.fin (1 / 2 ^ 20)) = .fin r ∧
    |r - power (1 / 2 ^ 20) [1, 4]| ≤ 1 / 10 ^ 10 := by
  have hl4 : Real.log 4 ≤ 3 := (Real.log_le_sub_one_of_pos (by norm_num)).trans (by norm_num)
  have hl0 : 0 ≤ Real.log 4 := Real.log_nonneg (by norm_num)
  have hgeo : geo [1, 4] ≤ 4 := by
    have e : geo [1, 4] = Real.exp (Real.log 4 / 2) := by
      simp [geo]
    rw [e]
    calc Real.exp (Real.log 4 / 2) ≤ Real.exp (Real.log 4) := Real.exp_le_exp.2 (by linarith)
      _ ≤ 4 := by rw [Real.exp_log (by norm_num)]
  obtain ⟨r, e, hr⟩ := C84_pmean_accuracy_tiny_partial (rx := rx) (pow := pow) h (by norm_num) (by norm_num) (by positivity) (by norm_num) (goodLog_round h (by norm_num) (by norm_num))
    (goodExp_round h (by norm_num)) [1, 4] (by simp) (by norm_num) (by simp)
    (by
      intro a ha
      simp only [List.mem_cons, List.not_mem_nil, or_false] at ha
      rcases ha with rfl | rfl
      · exact isFloat_one (by norm_num) (by norm_num)
      · exact ⟨4, 0, by norm_num, by norm_num, by norm_num⟩)
    3 (by norm_num)
    (by
      intro a ha
      simp only [List.mem_cons, List.not_mem_nil, or_false] at ha
      rcases ha with rfl | rfl
      · simp
      · rw [abs_of_nonneg hl0]; exact hl4)
    (by norm_num) (1 / 2 ^ 20) (by norm_num) (by rw [abs_of_pos (by positivity)]; norm_num) (by rw [abs_of_pos (by positivity)]; norm_num)
    2
    (by
      intro a ha
      simp only [List.mem_cons, List.not_mem_nil, or_false] at ha
      simp only [List.map_cons, List.map_nil, List.sum_cons, List.sum_nil, List.length_cons, List.length_nil, Real.log_one]
      norm_num
      rcases ha with rfl | rfl
      · rw [Real.log_one, abs_le]; constructor <;> linarith
      · rw [abs_le]; constructor <;> linarith)
    (by norm_num)
  refine ⟨r, e, hr.trans ?_⟩
  have hg0 : 0 < geo [1, 4] := Real.exp_pos _
  have h74 : (2 : ℝ) ^ (-1074 : ℤ) ≤ 1 / 10 ^ 18 := by
    calc (2 : ℝ) ^ (-1074 : ℤ) ≤ 2 ^ (-64 : ℤ) := zpow_le_zpow_right₀ (by norm_num) (by norm_num)
      _ ≤ _ := by norm_num
  simp only [List.length_cons, List.length_nil]
  generalize (2 : ℝ) ^ (-1074 : ℤ) = η at *
  generalize geo [1, 4] = g at *
  norm_num at h74 ⊢
  linarith

end Ufunclab.Means
