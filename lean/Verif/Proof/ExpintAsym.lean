import Verif.Proof.ExpintSeries
import Verif.Proof.ExpintBound
/-! # E1 for large arguments; the loops of the model; the error near 1 -/
namespace Ufunclab.Expint
open MeasureTheory Set Filter Topology XF

/-- `∫_x^∞ e^{-t}/t^n dt`. -/
noncomputable def I (n : Nat) (x : ℝ) : ℝ := ∫ t in Ioi x, Real.exp (-t) / t ^ n

theorem integrable_I {x : ℝ} (n : Nat) (hx : 0 < x) : IntegrableOn (fun t : ℝ => Real.exp (-t) / t ^ n) (Ioi x) := by
  have hg : IntegrableOn (fun t : ℝ => Real.exp (-1 * t) / x ^ n) (Ioi x) := (exp_neg_integrableOn_Ioi x one_pos).div_const _
  refine Integrable.mono' hg ?_ ?_
  · refine ContinuousOn.aestronglyMeasurable ?_ measurableSet_Ioi
    intro u hu
    have hu' : x < u := hu
    have : u ^ n ≠ 0 := by have : 0 < u := by linarith
                           positivity
    fun_prop (disch := assumption)
  · refine (ae_restrict_iff' measurableSet_Ioi).2 (Eventually.of_forall fun u hu => ?_)
    have hu' : x < u := hu
    have hu0 : 0 < u := by linarith
    rw [Real.norm_of_nonneg (by positivity), neg_one_mul]
    exact div_le_div_of_nonneg_left (Real.exp_pos _).le (by positivity) (pow_le_pow_left₀ hx.le hu'.le n)

theorem I_rec {x : ℝ} (n : Nat) (hx : 0 < x) : I n x = Real.exp (-x) / x ^ n - n * I (n + 1) x := by
  have hd : ∀ u ∈ Ici x, HasDerivAt (fun u : ℝ => Real.exp (-u) / u ^ n)
      (-(Real.exp (-u) / u ^ n) - n * (Real.exp (-u) / u ^ (n + 1))) u := by
    intro u hu
    have hu' : x ≤ u := hu
    have hu0 : 0 < u := by linarith
    have h1 : HasDerivAt (fun u : ℝ => Real.exp (-u)) (Real.exp (-u) * (-1)) u := by
      simpa using (hasDerivAt_neg u).exp
    refine (h1.div (hasDerivAt_pow n u) (by positivity)).congr_deriv ?_
    rcases n with _ | n
    · simp
    · rw [Nat.add_sub_cancel]
      simp only [pow_succ]
      field_simp
  have hi1 : IntegrableOn (fun u : ℝ => -(Real.exp (-u) / u ^ n)) (Ioi x) := (integrable_I n hx).neg
  have hi2 : IntegrableOn (fun u : ℝ => (n : ℝ) * (Real.exp (-u) / u ^ (n + 1))) (Ioi x) := (integrable_I (n + 1) hx).const_mul _
  have ht : Tendsto (fun u : ℝ => Real.exp (-u) / u ^ n) atTop (𝓝 0) := by
    have h1 : Tendsto (fun u : ℝ => u ^ 0 * Real.exp (-u)) atTop (𝓝 0) := Real.tendsto_pow_mul_exp_neg_atTop_nhds_zero 0
    refine squeeze_zero' ?_ ?_ h1
    · filter_upwards [eventually_ge_atTop 1] with u hu
      positivity
    · filter_upwards [eventually_ge_atTop 1] with u hu
      rw [pow_zero, one_mul]
      exact div_le_self (Real.exp_pos _).le (one_le_pow₀ hu)
  have h := integral_Ioi_of_hasDerivAt_of_tendsto' hd (hi1.sub hi2) ht
  rw [integral_sub hi1 hi2, integral_neg, integral_const_mul] at h
  rw [I, I]
  linarith

theorem I_bounds {x : ℝ} (n : Nat) (hx : 0 < x) : 0 ≤ I n x ∧ I n x ≤ Real.exp (-x) / x ^ n := by
  have h : ∀ m, 0 ≤ I m x := fun m => by
    refine setIntegral_nonneg measurableSet_Ioi fun u hu => ?_
    have hu' : x < u := hu
    have hu0 : 0 < u := by linarith
    positivity
  refine ⟨h n, ?_⟩
  have := I_rec n hx
  have h2 := h (n + 1)
  have : 0 ≤ (n : ℝ) * I (n + 1) x := by positivity
  linarith

/-- The correction `s` of the asymptotic branch. -/
noncomputable def asym (x : ℝ) : ℝ := (-1 + (2 + (-6 + (24 - 120 / x) / x) / x) / x) / x

theorem asym_bounds {x : ℝ} (hx : 0 < x) :
    1 + asym x ≤ x * Real.exp x * E1 x ∧ x * Real.exp x * E1 x ≤ 1 + asym x + 720 / x ^ 6 := by
  have e1 : E1 x = I 1 x := by rw [E1, I]; simp only [pow_one]
  have r1 := I_rec 1 hx
  have r2 := I_rec 2 hx
  have r3 := I_rec 3 hx
  have r4 := I_rec 4 hx
  have r5 := I_rec 5 hx
  have r6 := I_rec 6 hx
  obtain ⟨b1, b2⟩ := I_bounds 7 hx
  norm_num at r1 r2 r3 r4 r5 r6
  have hE : Real.exp x * Real.exp (-x) = 1 := by rw [← Real.exp_add]; simp
  have hep := Real.exp_pos x
  have key : x * Real.exp x * E1 x = 1 + asym x + 720 * (x * Real.exp x * I 7 x) := by
    rw [e1, r1, r2, r3, r4, r5, r6, asym]
    have hx0 := hx.ne'
    have hem : Real.exp (-x) = (Real.exp x)⁻¹ := Real.exp_neg x
    rw [hem]
    field_simp
    ring
  have p1 : 0 ≤ x * Real.exp x * I 7 x := by positivity
  have p2 : x * Real.exp x * I 7 x ≤ 1 / x ^ 6 := by
    have := mul_le_mul_of_nonneg_left b2 (show 0 ≤ x * Real.exp x by positivity)
    refine this.trans (le_of_eq ?_)
    rw [Real.exp_neg]
    field_simp
  rw [key]
  have e : (720 : ℝ) / x ^ 6 = 720 * (1 / x ^ 6) := by ring
  rw [e]
  constructor <;> linarith

/-! ### The series loop -/

theorem loop01_fin {x : ℝ} (hx : 0 < x) (n k : Nat) (hk : 1 ≤ k) :
    loop01 (.fin x) n k (.fin ((-1) ^ (k - 1) * x ^ (k - 1) / (k * (k.factorial : ℝ)))) (.fin (Q k x / x)) =
      .fin (Q (k + n) x / x) := by
  induction n generalizing k with
  | zero => simp [loop01]
  | succ n ih =>
    obtain ⟨k, rfl⟩ : ∃ j, k = j + 1 := ⟨k - 1, by omega⟩
    simp only [loop01, Nat.add_sub_cancel]
    have hd : (((k + 1 + 1) * (k + 1 + 1) : ℕ) : ℝ) ≠ 0 := by positivity
    rw [neg_fin, mul_fin, mul_fin, div_fin _ _ hd, add_fin, eq_fin]
    have er : -((-1) ^ k * x ^ k / (((k + 1 : ℕ) : ℝ) * ((k + 1).factorial : ℝ))) * ((k + 1 : ℕ) : ℝ) * x / (((k + 1 + 1) * (k + 1 + 1) : ℕ) : ℝ) =
        (-1) ^ (k + 1) * x ^ (k + 1) / (((k + 1 + 1 : ℕ) : ℝ) * ((k + 1 + 1).factorial : ℝ)) := by
      have h1 : ((k + 1).factorial : ℝ) ≠ 0 := by positivity
      have h2 : ((k + 1 : ℕ) : ℝ) ≠ 0 := by positivity
      have h3 : ((k + 1 + 1 : ℕ) : ℝ) ≠ 0 := by positivity
      rw [Nat.factorial_succ (k + 1), pow_succ, pow_succ, Nat.cast_mul, Nat.cast_mul]
      field_simp
    rw [er]
    have hne : (-1 : ℝ) ^ (k + 1) * x ^ (k + 1) / (((k + 1 + 1 : ℕ) : ℝ) * ((k + 1 + 1).factorial : ℝ)) ≠ 0 := by
      have : (-1 : ℝ) ^ (k + 1) ≠ 0 := pow_ne_zero _ (by norm_num)
      positivity
    have hif : decide (Q (k + 1) x / x + (-1 : ℝ) ^ (k + 1) * x ^ (k + 1) / (((k + 1 + 1 : ℕ) : ℝ) * ((k + 1 + 1).factorial : ℝ)) = Q (k + 1) x / x) = false := by
      rw [decide_eq_false_iff_not]
      intro h
      exact hne (by linarith)
    rw [hif]
    simp only [Bool.false_eq_true, if_false]
    have hQ : Q (k + 1) x / x + (-1 : ℝ) ^ (k + 1) * x ^ (k + 1) / (((k + 1 + 1 : ℕ) : ℝ) * ((k + 1 + 1).factorial : ℝ)) = Q (k + 1 + 1) x / x := by
      rw [Q, Q, Finset.sum_range_succ _ (k + 1), add_div]
      congr 1
      push_cast
      rw [pow_succ x (k + 1)]
      field_simp
    rw [hQ]
    have := ih (k + 1 + 1) (by omega)
    rw [Nat.add_sub_cancel] at this
    rw [this]
    congr 3
    omega

/-- What `expint1_01` computes. -/
theorem expint01_fin {x : ℝ} (hx : 0 < x) : expint01 (.fin x) = .fin (-euler - Real.log x + Q 26 x) := by
  have h := loop01_fin hx 25 1 le_rfl
  have e1 : (-1 : ℝ) ^ (1 - 1) * x ^ (1 - 1) / (((1 : ℕ) : ℝ) * ((Nat.factorial 1 : ℕ) : ℝ)) = 1 := by simp
  have e2 : Q 1 x / x = 1 := by rw [Q]; simp [hx.ne']
  rw [e1, e2] at h
  rw [expint01, h]
  have hl : Means.xlog (.fin x) = .fin (Real.log x) := by
    simp [Means.xlog, not_lt.2 hx.le, hx.ne']
  rw [hl, neg_fin, sub_fin, mul_fin, add_fin]
  congr 1
  have : x * (Q (1 + 25) x / x) = Q 26 x := by field_simp
  rw [this]

/-! ### A lower bound for the truncation error -/

theorem chain_scale {x a b : ℝ} (hab : a = b * x) (m n : Nat) (s U D : ℝ) :
    chain a b m n (s * b * U) (s * D) = (s * b ^ n * b * (chain x 1 m n U D).1, s * b ^ n * (chain x 1 m n U D).2) := by
  induction n generalizing s U D with
  | zero => simp [chain]
  | succ n ih =>
    simp only [chain]
    have := ih (s * b) (x * (U + ((m + n + 1 : ℕ) : ℝ) * 1 * D) + ((m + n + 1 : ℕ) : ℝ) * 1 * U) (U + ((m + n + 1 : ℕ) : ℝ) * 1 * D)
    have q : s * b * b ^ n = s * b ^ (n + 1) := by rw [pow_succ]; ring
    rw [q] at this
    rw [← this, hab]
    congr 1 <;> ring

theorem worstOk :
    let lo := chain 1025 1024 99 20 1025 1
    let hi := chain 1025 1024 99 20 (1025 + 1024 * 120) 1
    let hi0 := chain 1025 1024 0 99 hi.1 hi.2
    let code := chain 1025 1024 0 99 1025 1
    11 * (1024 * lo.2) * hi0.2 * code.1 + Nat.factorial 99 * Nat.factorial 99 * (1025 * lo.2) * 1024 ^ 99 * hi.2 * 1024 ^ 100 * 10 ^ 17 ≤
      Nat.factorial 99 * Nat.factorial 99 * lo.1 * 1024 ^ 99 * hi.2 * 1024 ^ 100 * 10 ^ 17 := by
  decide +kernel

theorem combine_lower (F xB num den Am l0 l2 c C E P b : ℝ) (hF : 0 < F) (hden : 0 < den) (hnum : 0 ≤ num)
    (hl0 : 0 < l0) (hE : 0 < E) (hP : 0 < P) (hb : 0 < b)
    (h1 : num * Am ≤ xB * den) (l1 : F * (P * l2 * E) ≤ Am * l0) (lc : c = P * b * C)
    (h2 : 11 * den * l0 * c ≤ F * F * num * P * l2 * (P * b) * 10 ^ 17) :
    11 / 10 ^ 17 * (C * E) ≤ F * xB := by
  have hQ : 0 < den * l0 * (P * b) * 10 ^ 17 := by positivity
  refine le_of_mul_le_mul_right ?_ hQ
  calc 11 / 10 ^ 17 * (C * E) * (den * l0 * (P * b) * 10 ^ 17) = (11 * den * l0 * (P * b * C)) * E := by ring
    _ = (11 * den * l0 * c) * E := by rw [lc]
    _ ≤ (F * F * num * P * l2 * (P * b) * 10 ^ 17) * E := mul_le_mul_of_nonneg_right h2 hE.le
    _ = F * num * (P * b) * 10 ^ 17 * (F * (P * l2 * E)) := by ring
    _ ≤ F * num * (P * b) * 10 ^ 17 * (Am * l0) := mul_le_mul_of_nonneg_left l1 (by positivity)
    _ = F * l0 * (P * b) * 10 ^ 17 * (num * Am) := by ring
    _ ≤ F * l0 * (P * b) * 10 ^ 17 * (xB * den) := mul_le_mul_of_nonneg_left h1 (by positivity)
    _ = F * xB * (den * l0 * (P * b) * 10 ^ 17) := by ring

attribute [local irreducible] chain

/-- Just above 1 the relative truncation error is more than `1.1e-16`. -/
theorem defect_ge : let x : ℝ := 1025 / 1024
    11 / 10 ^ 17 * ((chain x 1 0 99 x 1).1 * E1 x) ≤ ((Nat.factorial 99 : ℕ) : ℝ) * (x * B x (99 + 1)) := by
  intro x
  have hx : 0 < x := by norm_num [x]
  have hab : ((1025 : ℕ) : ℝ) = ((1024 : ℕ) : ℝ) * x := by norm_num [x]
  have h24 : (0 : ℝ) < ((1024 : ℕ) : ℝ) := by norm_num
  have h25 : (0 : ℝ) < ((1025 : ℕ) : ℝ) := by norm_num
  have hA := A_pos hx (99 + 20)
  have hA99 := A_pos hx 99
  have hE := E1_pos hx
  have hok := worstOk
  simp only [] at hok
  -- lower bound of the tail
  have c1 := chain_cast 1025 1024 99 20 1025 1
  have p1 := chain_pos h25 h24 99 20 ((1025 : ℕ) : ℝ) ((1 : ℕ) : ℝ) h25 (by norm_num)
  have l1 := (chain_lower hx h25 h24 hab.le 99 20 ((1025 : ℕ) : ℝ) ((1 : ℕ) : ℝ) h25 (by norm_num) (by
      rw [B_rec hx (99 + 20), hab]
      have hB := B_pos hx (99 + 20 + 1)
      have q2 : 0 ≤ ((1024 : ℕ) : ℝ) * (x * B x (99 + 20 + 1)) := by positivity
      clear hok c1 p1
      generalize A x (99 + 20) = a1 at *
      generalize B x (99 + 20 + 1) = b1 at *
      generalize ((1024 : ℕ) : ℝ) = q at *
      rw [Nat.cast_one, mul_one, mul_add, mul_add]
      linarith [mul_assoc q x a1])).1
  rw [c1] at l1 p1
  -- upper bounds of the ratios
  have c2 := chain_cast 1025 1024 99 20 (1025 + 1024 * 120) 1
  have hU : (0 : ℝ) < ((1025 + 1024 * 120 : ℕ) : ℝ) := by norm_num
  have p2 := chain_pos h25 h24 99 20 ((1025 + 1024 * 120 : ℕ) : ℝ) ((1 : ℕ) : ℝ) hU (by norm_num)
  have l2 := (chain_upper hx h25 h24 hab.ge 99 20 ((1025 + 1024 * 120 : ℕ) : ℝ) ((1 : ℕ) : ℝ) hU (by norm_num) (by
      have e : ((1025 + 1024 * 120 : ℕ) : ℝ) = ((1024 : ℕ) : ℝ) * x + ((1024 : ℕ) : ℝ) * 120 := by rw [← hab]; norm_num
      rw [B_rec hx (99 + 20), e]
      have hB := xB_le hx (99 + 20)
      have q2 := mul_le_mul_of_nonneg_left hB h24.le
      have e2 : ((99 + 20 : ℕ) : ℝ) + 1 = 120 := by norm_num
      rw [e2] at q2
      clear hok c1 c2 p1 p2 l1
      generalize A x (99 + 20) = a1 at *
      generalize B x (99 + 20 + 1) = b1 at *
      generalize ((1024 : ℕ) : ℝ) = q at *
      rw [Nat.cast_one, mul_one, mul_add, mul_add]
      linarith [mul_assoc q x a1, mul_assoc q 120 a1])).1
  rw [c2] at l2 p2
  generalize chain 1025 1024 99 20 1025 1 = lo at *
  generalize chain 1025 1024 99 20 (1025 + 1024 * 120) 1 = hi at *
  have c3 := chain_cast 1025 1024 0 99 hi.1 hi.2
  have p3 := chain_pos h25 h24 0 99 (hi.1 : ℝ) (hi.2 : ℝ) p2.1 p2.2
  have l3 := (chain_upper hx h25 h24 hab.ge 0 99 (hi.1 : ℝ) (hi.2 : ℝ) p2.1 p2.2 (by rw [Nat.zero_add]; exact l2)).2
  rw [c3, Nat.zero_add, A_zero hx, Nat.factorial_zero, Nat.cast_one, one_mul] at l3
  rw [c3] at p3
  generalize chain 1025 1024 0 99 hi.1 hi.2 = hi0 at *
  have c4 := chain_cast 1025 1024 0 99 1025 1
  have l4 := congrArg Prod.fst (chain_scale hab 0 99 1 x 1)
  rw [one_mul, one_mul, one_mul, ← hab, ← Nat.cast_one, c4] at l4
  simp only [Nat.cast_one] at l4
  generalize chain 1025 1024 0 99 1025 1 = code at *
  generalize (chain x 1 0 99 x 1).1 = C at *
  have hf : (0 : ℝ) < ((Nat.factorial 99 : ℕ) : ℝ) := by positivity
  have hok' := (Nat.cast_le (α := ℝ)).2 hok
  generalize Nat.factorial 99 = F at *
  have hBr := B_rec hx 99
  have hl1 : (lo.1 : ℝ) * A x 99 ≤ ((1024 : ℕ) : ℝ) * (x * B x 99) * lo.2 := l1
  refine combine_lower (F : ℝ) _ ((lo.1 : ℝ) - ((1025 : ℕ) : ℝ) * lo.2) (((1024 : ℕ) : ℝ) * lo.2) _ (hi0.2 : ℝ) (hi.2 : ℝ) (code.1 : ℝ) _ _
    (((1024 : ℕ) : ℝ) ^ 99) ((1024 : ℕ) : ℝ) hf (mul_pos h24 p1.2) ?_ p3.2 hE (pow_pos h24 99) h24 ?_ l3 l4 ?_
  · have hle : F * F * (1025 * lo.2) * 1024 ^ 99 * hi.2 * 1024 ^ 100 * 10 ^ 17 ≤ F * F * lo.1 * 1024 ^ 99 * hi.2 * 1024 ^ 100 * 10 ^ 17 := by
      omega
    have hF0 : 0 < F := Nat.cast_pos.1 hf
    have hh2 : 0 < hi.2 := Nat.cast_pos.1 p2.2
    have hle2 : 1025 * lo.2 ≤ lo.1 := by
      have hpos : 0 < F * F * 1024 ^ 99 * hi.2 * 1024 ^ 100 * 10 ^ 17 := by positivity
      refine Nat.le_of_mul_le_mul_left ?_ hpos
      calc F * F * 1024 ^ 99 * hi.2 * 1024 ^ 100 * 10 ^ 17 * (1025 * lo.2) = F * F * (1025 * lo.2) * 1024 ^ 99 * hi.2 * 1024 ^ 100 * 10 ^ 17 := by ring
        _ ≤ F * F * lo.1 * 1024 ^ 99 * hi.2 * 1024 ^ 100 * 10 ^ 17 := hle
        _ = _ := by ring
    have := (Nat.cast_le (α := ℝ)).2 hle2
    rw [Nat.cast_mul] at this
    linarith
  · have e : x * B x (99 + 1) = x * B x 99 - x * A x 99 := by rw [hBr]; ring
    rw [e, hab]
    nlinarith
  · rw [← pow_succ]
    have e : (10 : ℝ) ^ 17 = ((10 ^ 17 : ℕ) : ℝ) := by norm_num
    rw [e]
    generalize 10 ^ 17 = q at *
    rw [← Nat.cast_pow, ← Nat.cast_pow]
    generalize 1024 ^ 99 = r at *
    generalize 1024 ^ (99 + 1) = r' at *
    generalize 1024 = s at *
    generalize 1025 = s' at *
    push_cast at hok'
    linarith

end Ufunclab.Expint
