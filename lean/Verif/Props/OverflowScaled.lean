import Verif.Model.Overflow
import Verif.Proof.Overflow
import Verif.Props.VnormPow
import Verif.Props.VnormRound
import Verif.Props.SoftmaxRound
/-!
# C86: overflow in softmax and vnorm

These functions scale their data, or work with logarithms, so that an intermediate result does not
overflow.  `ov rd Ω` rounds and replaces what is beyond `Ω`, the largest number of the format, by an
infinity; `ov id Ω` does so without rounding.
-/
namespace Ufunclab.Softmax
open Ufunclab.Float
variable {p : ℕ} {emin : ℤ} {rd exp : ℝ → ℝ} {Ω : ℝ}

theorem xexp_ov (h : Nearest p emin rd) (hΩ0 : 0 ≤ Ω) (hexp : ∀ z, z < -Ω → exp z = 0) (v : XF ℝ) (M : ℝ) (hn : XF.isnan v = false) (hp : v ≠ .pinf)
    (hM : ∀ a, v = .fin a → a ≤ M) : xexp exp (ov rd Ω (XF.sub v (.fin M))) = .fin (term rd exp M v) := by
  cases v with
  | nan => simp [XF.isnan] at hn
  | pinf => simp at hp
  | ninf => simp [XF.sub, XF.add, XF.neg, xexp, term, ov]
  | fin a =>
    have h0 : rd (a - M) ≤ 0 := h.mono_float' isFloat_zero (by linarith [hM a rfl])
    rw [XF.sub_fin]
    show xexp exp (if Ω < rd (a - M) then XF.pinf else if rd (a - M) < -Ω then .ninf else .fin (rd (a - M))) = .fin (exp (rd (a - M)))
    rw [if_neg (by linarith)]
    by_cases h1 : rd (a - M) < -Ω
    · rw [if_pos h1, hexp _ h1]; rfl
    · rw [if_neg h1]; rfl

theorem foldl_ov (h : Nearest p emin rd) (hp : 1 ≤ p) (he : emin ≤ 0) (hΩ : IsFloat p emin Ω) (hΩp : 2 ^ p ≤ Ω) (hx : ExpOK p emin exp)
    (hexp : ∀ z, z < -Ω → exp z = 0) (M : ℝ) (x : List (XF ℝ)) : ∀ (k : ℕ) (acc : ℝ), 0 ≤ acc → acc ≤ k → k + x.length ≤ 2 ^ p →
    (∀ v ∈ x, XF.isnan v = false ∧ v ≠ .pinf) → (∀ a, .fin a ∈ x → a ≤ M) →
    x.foldl (fun acc v => ov rd Ω (XF.add acc (xexp exp (ov rd Ω (XF.sub v (.fin M)))))) (.fin acc) =
      .fin ((x.map (term rd exp M)).foldl (fun a b => rd (a + b)) acc) := by
  have hΩ0 : 0 ≤ Ω := le_trans (by positivity) hΩp
  induction x with
  | nil => intros; rfl
  | cons v x ih =>
    intro k acc h0 hk hn hv hM
    obtain ⟨h1, h2⟩ := hv v (by simp)
    obtain ⟨-, t0⟩ := term_ok h hx hM v (by simp)
    have t1 : term rd exp M v ≤ 1 := by
      cases v with
      | fin a =>
        have := hx.mono (rd (a - M)) 0 (h.mono_float' isFloat_zero (by linarith [hM a (by simp)])) le_rfl
        rwa [hx.zero] at this
      | nan => exact zero_le_one
      | pinf => exact zero_le_one
      | ninf => exact zero_le_one
    have hk1 : acc + term rd exp M v ≤ ((k + 1 : ℕ) : ℝ) := by push_cast; linarith
    have hkp : k + 1 ≤ 2 ^ p := by rw [List.length_cons] at hn; omega
    have fk : IsFloat p emin ((k + 1 : ℕ) : ℝ) := Mad.isFloat_nat hp he hkp
    have hkΩ : ((k + 1 : ℕ) : ℝ) ≤ Ω := le_trans (by exact_mod_cast hkp) hΩp
    simp only [List.foldl_cons, List.map_cons]
    rw [xexp_ov h hΩ0 hexp v M h1 h2 (fun a ha => hM a (by simp [ha])), XF.add_fin, ov_le h hΩ (by rw [abs_of_nonneg (by linarith)]; linarith)]
    exact ih (k + 1) _ (h.mono_float isFloat_zero (by linarith)) (h.mono_float' fk hk1) (by rw [List.length_cons] at hn; omega)
      (fun w hw => hv w (by simp [hw])) (fun a ha => hM a (by simp [ha]))

/-- C86: softmax never overflows: for data without NaN and `+inf`, however large and however far apart, the
result is the one without overflow, of which C80 gives the range and the accuracy.  `exp` of numbers
below `-Ω` is 0. -/
theorem C86_softmax (h : Nearest p emin rd) (hp : 1 ≤ p) (he : emin ≤ 0) (hΩ : IsFloat p emin Ω) (hΩp : 2 ^ p ≤ Ω) (hx : ExpOK p emin exp)
    (hexp : ∀ z, z < -Ω → exp z = 0) (x : List (XF ℝ)) (hn : x.length ≤ 2 ^ p) (hv : ∀ v ∈ x, XF.isnan v = false ∧ v ≠ .pinf)
    (hf : ∃ v ∈ x, XF.isfinite v = true) : softmaxR (ov rd Ω) exp x = softmaxR (rnd rd) exp x := by
  obtain ⟨M, h1, h2, h3, -⟩ := softmax_formula x hv hf
  have hΩ0 : 0 ≤ Ω := le_trans (by positivity) hΩp
  have hΩ1 : 1 ≤ Ω := le_trans (one_le_pow₀ (by norm_num)) hΩp
  have hfo := foldl_ov h hp he hΩ hΩp hx hexp M x 0 0 le_rfl (by simp) (by omega) hv h2
  have hfr := foldl_term (rd := rd) (exp := exp) M x 0 hv
  have hok := term_ok h hx h2
  obtain ⟨-, i2, -⟩ := le_fold h (x.map (term rd exp M)) 0 isFloat_zero le_rfl (by
    intro v hv; obtain ⟨w, hw, rfl⟩ := List.mem_map.1 hv; exact hok w hw)
  simp only [softmaxR, h3, hfo, hfr]
  by_cases c1 : ((scan 0 0 0 (.fin 0) x).hasNan || decide ((scan 0 0 0 (.fin 0) x).nposinf > 1) || XF.eq (XF.fin M) XF.ninf) = true
  · rw [if_pos c1, if_pos c1]
  rw [if_neg c1, if_neg c1]
  by_cases c2 : (scan 0 0 0 (.fin 0) x).nposinf = 1
  · rw [if_pos c2, if_pos c2]
  rw [if_neg c2, if_neg c2]
  apply List.map_congr_left
  intro v hv'
  obtain ⟨a1, a2⟩ := hv v hv'
  rw [xexp_ov h hΩ0 hexp v M a1 a2 (fun a ha => h2 a (ha ▸ hv')), xexp_rnd v M a1 a2]
  have hE : 1 ≤ (x.map (term rd exp M)).foldl (fun a b => rd (a + b)) 0 := by
    have := i2 _ (List.mem_map_of_mem h1)
    rwa [term_max h hx] at this
  rw [XF.div_fin _ _ (by linarith), ov_le h hΩ, rnd_fin]
  rw [abs_of_nonneg (div_nonneg (hok v hv').2 (by linarith))]
  exact (div_le_one_of_le₀ (i2 _ (List.mem_map_of_mem hv')) (by linarith)).trans hΩ1

theorem maxDouble_ge_60 : (2 : ℝ) ^ 60 ≤ maxDouble := by
  refine le_trans ?_ maxDouble_ge
  rw [← zpow_natCast]
  exact zpow_le_zpow_right₀ (by norm_num) (by norm_num)

/-- The correctly rounded exponential of doubles is 0 far below zero. -/
theorem round_exp_zero (h : Nearest 53 (-1074) rd) (z : ℝ) (hz : z < -1000) : rd (Real.exp z) = 0 := by
  have e1 : Real.exp z ≤ 2 ^ (-1400 : ℤ) := by
    have k1 : (2 : ℝ) ^ 7 ≤ Real.exp 5 := by
      have h27 : (2.7 : ℝ) ≤ Real.exp 1 := by linarith [Real.exp_one_gt_d9]
      have : Real.exp 5 = Real.exp 1 ^ 5 := by rw [← Real.exp_nat_mul]; norm_num
      rw [this]
      exact le_trans (by norm_num) (pow_le_pow_left₀ (by norm_num) h27 5)
    have k2 : (2 : ℝ) ^ 1400 ≤ Real.exp 1000 := by
      have : Real.exp 1000 = Real.exp 5 ^ 200 := by rw [← Real.exp_nat_mul]; norm_num
      rw [this, show (2 : ℝ) ^ 1400 = (2 ^ 7) ^ 200 by rw [← pow_mul]]
      exact pow_le_pow_left₀ (by norm_num) k1 200
    have k3 : Real.exp z ≤ (Real.exp 1000)⁻¹ := by rw [← Real.exp_neg]; exact Real.exp_le_exp.2 hz.le
    refine k3.trans ?_
    rw [zpow_neg]
    exact inv_anti₀ (by positivity) (by exact_mod_cast k2)
  have e2 : (2 : ℝ) ^ (-1400 : ℤ) < 2 ^ (-1075 : ℤ) := zpow_lt_zpow_right₀ (by norm_num) (by norm_num)
  have e0 : 0 < Real.exp z := Real.exp_pos z
  by_contra hne
  obtain ⟨f, hmin⟩ := h (Real.exp z)
  have h0 : 0 ≤ rd (Real.exp z) := h.mono_float isFloat_zero e0.le
  have hg : (2 : ℝ) ^ (-1074 : ℤ) ≤ rd (Real.exp z) := by
    obtain ⟨m, k, hm, hk, e⟩ := f
    have hm1 : 1 ≤ m := by
      by_contra hc
      have : (m : ℝ) ≤ 0 := by exact_mod_cast (by omega : m ≤ 0)
      have : (m : ℝ) * 2 ^ k ≤ 0 := mul_nonpos_of_nonpos_of_nonneg this (by positivity)
      apply hne
      apply le_antisymm _ h0
      rw [e]; exact this
    have hm1' : (1 : ℝ) ≤ m := by exact_mod_cast hm1
    rw [e]
    calc (2 : ℝ) ^ (-1074 : ℤ) ≤ 2 ^ k := zpow_le_zpow_right₀ (by norm_num) hk
      _ = 1 * 2 ^ k := (one_mul _).symm
      _ ≤ m * 2 ^ k := mul_le_mul_of_nonneg_right hm1' (by positivity)
  have e3 : (2 : ℝ) ^ (-1074 : ℤ) = 2 * 2 ^ (-1075 : ℤ) := by rw [show (-1074 : ℤ) = 1 + (-1075) by norm_num, zpow_add₀ (by norm_num)]; norm_num
  have := hmin 0 isFloat_zero
  rw [abs_of_nonneg (by linarith), zero_sub, abs_neg, abs_of_pos e0] at this
  linarith

/-- The hypotheses of `C86_softmax` hold for doubles and the correctly rounded exponential; the difference of the two data overflows. -/
example : ∃ rd : ℝ → ℝ, Nearest 53 (-1074) rd ∧ softmaxR (ov rd maxDouble) (fun z => rd (Real.exp z)) [.fin maxDouble, .fin (-maxDouble)] =
    softmaxR (rnd rd) (fun z => rd (Real.exp z)) [.fin maxDouble, .fin (-maxDouble)] := by
  obtain ⟨rd, h⟩ := exists_nearest (K := ℝ) (p := 53) (by norm_num) (-1074)
  have hbig := maxDouble_ge_60
  refine ⟨rd, h, C86_softmax h (by norm_num) (by norm_num) isFloat_maxDouble (le_trans (by norm_num) hbig) (expOK_rounded h (by norm_num) (by norm_num)).1
    (fun z hz => round_exp_zero h z (lt_of_lt_of_le hz ?_)) _ (by norm_num) (by simp [XF.isnan]) ⟨.fin maxDouble, by simp, rfl⟩⟩
  have : (1000 : ℝ) ≤ maxDouble := le_trans (by norm_num) hbig
  exact neg_le_neg this

end Ufunclab.Softmax

namespace Ufunclab.Vnorm
open Ufunclab.Float Ufunclab.Corr
variable {T : Type _} {p : ℕ} {emin : ℤ} {rd : ℝ → ℝ} {pw : ℝ → ℝ → ℝ} {ε Ω : ℝ}

/-- The library function `pow`, whose results beyond `Ω` are infinite. -/
noncomputable def xpowO (Ω : ℝ) (pw : ℝ → ℝ → ℝ) (b e : XF ℝ) : XF ℝ := ov id Ω (xpowR pw b e)

theorem ov_id_le {z : ℝ} (hz : |z| ≤ Ω) : ov id Ω (.fin z) = .fin z := ov_fin (rd := id) hz
theorem ov_id_gt {z : ℝ} (hz : Ω < z) : ov id Ω (.fin z) = .pinf := if_pos hz
theorem ov_eq (z : ℝ) : ov rd Ω (.fin z) = ov id Ω (.fin (rd z)) := rfl

theorem foldl_pinf (x : List T) (f : T → ℝ) : x.foldl (fun s v => ov rd Ω (XF.add s (XF.fin (f v)))) XF.pinf = .pinf := by
  induction x with
  | nil => rfl
  | cons v x ih => exact ih

/-- A sum of numbers that are not negative overflows exactly when the sum without overflow is beyond the range. -/
theorem foldl_nonneg_ov (h : Nearest p emin rd) (x : List T) (f : T → ℝ) : ∀ s : ℝ, 0 ≤ s → s ≤ Ω → IsFloat p emin s →
    (∀ v ∈ x, 0 ≤ f v ∧ IsFloat p emin (f v)) →
    x.foldl (fun s v => ov rd Ω (XF.add s (XF.fin (f v)))) (XF.fin s) = ov id Ω (.fin (rsum rd s (x.map f))) := by
  induction x with
  | nil => intro s h0 hs _ _; exact (ov_id_le (by rwa [abs_of_nonneg h0])).symm
  | cons v x ih =>
    intro s h0 hs fs hx
    obtain ⟨v0, fv⟩ := hx v (by simp)
    have r0 : 0 ≤ rd (s + f v) := h.mono_float isFloat_zero (by linarith)
    simp only [List.foldl_cons, List.map_cons, rsum, XF.add_fin]
    by_cases hb : rd (s + f v) ≤ Ω
    · rw [ov_fin (by rwa [abs_of_nonneg r0])]
      exact ih _ r0 hb (h _).1 (fun w hw => hx w (by simp [hw]))
    · have hb := not_le.1 hb
      rw [ov_eq, ov_id_gt hb, foldl_pinf, ov_id_gt]
      refine lt_of_lt_of_le hb (le_rsum h (x.map f) _ (h _).1 ?_ r0).1
      intro y hy; obtain ⟨w, hw, rfl⟩ := List.mem_map.1 hy; exact hx w (by simp [hw])

/-- C86: for orders from 1 on (not too large) and finite data of any magnitude, vnorm overflows only at the end: the result is the one without
overflow (C83), or infinity if that one is beyond the range. -/
theorem C86_vnorm_partial (h : Nearest p emin rd) (hp : 10 ≤ p) (he : emin ≤ -4 * p) (hΩ : IsFloat p emin Ω) (hΩp : 2 ^ p ≤ Ω) (hpw : GoodPow p emin ε pw)
    (hε0 : 0 ≤ ε) (hε : ε ≤ 1 / 100) (x : List T) (hn : 100 * (x.length : ℝ) ≤ 2 ^ p) (a : T → ℝ) (ha : ∀ v ∈ x, 0 ≤ a v ∧ IsFloat p emin (a v))
    (q : ℝ) (hq : 1 ≤ q) (hqu : 100 * q ≤ 2 ^ p) :
    vnormR (ov rd Ω) (xpowO Ω pw) (fun v => .fin (a v)) x (.fin q) =
      ov id Ω (vnormR (rnd rd) (xpowR pw) (fun v => .fin (a v)) x (.fin q)) := by
  have hq0 : 0 < q := by linarith
  have hp1 : 1 ≤ p := by omega
  have he0 : emin ≤ 0 := by omega
  have hΩ0 : 0 ≤ Ω := le_trans (by positivity) hΩp
  obtain ⟨M, h1, h2, h3, h4⟩ := foldl_max a x 0
  have hM : maxAbs (fun v => .fin (a v)) x = .fin M := h1
  have hp0 : XF.le (XF.fin q) (.fin 0) = false := by simp [hq0]
  simp only [vnormR, hp0, hM, Bool.false_eq_true, if_false, XF.eq_fin, decide_eq_true_eq, XF.isinf_fin, Bool.false_or]
  by_cases hM0 : M = 0
  · rw [if_pos hM0, if_pos hM0, ov_id_le (by simpa using hΩ0)]
  rw [if_neg hM0, if_neg hM0]
  by_cases hq1 : q = 1
  · simp only [hq1, if_true]
    rw [foldl_rsum x a 0]
    exact foldl_nonneg_ov h x a 0 le_rfl hΩ0 isFloat_zero ha
  simp only [hq1, if_false, XF.div_fin _ _ hM0, XF.div_fin _ _ hq0.ne', rnd_fin, xpowR_fin]
  have hMpos : 0 < M := lt_of_le_of_ne h2 (Ne.symm hM0)
  obtain ⟨w, hw, hwM⟩ := h4.resolve_left hM0
  have r1 : rd 1 = 1 := h.exact (isFloat_one hp1 he0)
  have hu := Mad.unit_le_thousandth (K := ℝ) hp
  have hu0 : (0 : ℝ) < (2 ^ p)⁻¹ := by positivity
  have hnu : (x.length : ℝ) * (2 ^ p)⁻¹ ≤ 1 / 100 := by rw [← div_eq_mul_inv, div_le_iff₀ (by positivity)]; linarith
  have hqu' : q * (2 ^ p)⁻¹ ≤ 1 / 100 := by rw [← div_eq_mul_inv, div_le_iff₀ (by positivity)]; linarith
  have hn1 : (1 : ℝ) ≤ x.length := by
    have : 1 ≤ x.length := List.length_pos_of_mem hw
    exact_mod_cast this
  have hη1 : (2 : ℝ) ^ emin ≤ 1 / 100 := by
    have hηu := (eta_small hp he).1
    clear * - hηu hu hu0
    generalize ((2 : ℝ) ^ p)⁻¹ = u at *
    norm_num at *; linarith
  have hΩ1 : (100 : ℝ) ≤ Ω := by linarith
  -- the scaled elements and their powers
  have hs0 : ∀ v ∈ x, 0 ≤ a v / M := fun v hv => div_nonneg (ha v hv).1 hMpos.le
  have hs1 : ∀ v ∈ x, a v / M ≤ 1 := fun v hv => div_le_one_of_le₀ (h3 v hv) hMpos.le
  have hr0 : ∀ v ∈ x, 0 ≤ rd (a v / M) := fun v hv => h.mono_float isFloat_zero (hs0 v hv)
  have hr1 : ∀ v ∈ x, rd (a v / M) ≤ 1 := fun v hv => h.mono_float' (isFloat_one hp1 he0) (hs1 v hv)
  have ht0 : ∀ v ∈ x, 0 ≤ pw (rd (a v / M)) q := fun v hv => hpw.nonneg _ _ (hr0 v hv) hq0
  have ht1 : ∀ v ∈ x, pw (rd (a v / M)) q ≤ 1.02 := by
    intro v hv
    have k := (abs_le.1 (hpw.error _ q (hr0 v hv) hq0)).2
    have k1 : rd (a v / M) ^ q ≤ 1 := Real.rpow_le_one (hr0 v hv) (hr1 v hv) hq0.le
    have k2 : ε * rd (a v / M) ^ q ≤ 1 / 100 * 1 := mul_le_mul hε k1 (Real.rpow_nonneg (hr0 v hv) q) (by norm_num)
    clear * - k k1 k2 hη1
    norm_num at *; linarith
  have hterm : ∀ v ∈ x, xpowO Ω pw (ov rd Ω (.fin (a v / M))) (.fin q) = .fin (pw (rd (a v / M)) q) := by
    intro v hv
    rw [ov_le h hΩ (by rw [abs_of_nonneg (hs0 v hv)]; linarith [hs1 v hv]), xpowO, xpowR_fin, ov_id_le]
    rw [abs_of_nonneg (ht0 v hv)]
    refine (ht1 v hv).trans (le_trans (by norm_num) hΩ1)
  have hcongr : ∀ s, x.foldl (fun s v => ov rd Ω (XF.add s (xpowO Ω pw (ov rd Ω (.fin (a v / M))) (.fin q)))) s =
      x.foldl (fun s v => ov rd Ω (XF.add s (.fin (pw (rd (a v / M)) q)))) s := by
    intro s
    apply List.foldl_ext
    intro s v hv
    rw [hterm v hv]
  rw [hcongr, foldl_nonneg_ov h x (fun v => pw (rd (a v / M)) q) 0 le_rfl hΩ0 isFloat_zero
    (fun v hv => ⟨ht0 v hv, hpw.float _ _ (hr0 v hv) hq0⟩), foldl_rsum x (fun v => pw (rd (a v / M)) q) 0]
  have hfl : ∀ v ∈ x.map (fun v => pw (rd (a v / M)) q), IsFloat p emin v := by
    intro y hy; obtain ⟨v, hv, rfl⟩ := List.mem_map.1 hy; exact hpw.float _ _ (hr0 v hv) hq0
  have hS1 : 1 ≤ rsum rd 0 (x.map fun v => pw (rd (a v / M)) q) := by
    have e1 : pw (rd (a w / M)) q = 1 := by rw [hwM, div_self hM0, r1, hpw.one q hq0]
    rw [← e1]
    refine (le_rsum h (x.map fun v => pw (rd (a v / M)) q) 0 isFloat_zero ?_ le_rfl).2 _ (List.mem_map.2 ⟨w, hw, rfl⟩)
    intro y hy; obtain ⟨v, hv, rfl⟩ := List.mem_map.1 hy
    exact ⟨ht0 v hv, hpw.float _ _ (hr0 v hv) hq0⟩
  have hSn : rsum rd 0 (x.map fun v => pw (rd (a v / M)) q) ≤ 1.04 * x.length := by
    have k := (le_abs_self _).trans (abs_rsum_le h hp1 _ 0 isFloat_zero hfl)
    rw [List.length_map, abs_zero, zero_add] at k
    have k2 : ((x.map fun v => pw (rd (a v / M)) q).map abs).sum ≤ 1.02 * x.length := by
      have : ((x.map fun v => pw (rd (a v / M)) q).map abs).sum ≤ (x.map fun _ => (1.02 : ℝ)).sum := by
        rw [List.map_map]
        apply List.sum_le_sum
        intro v hv
        show |pw (rd (a v / M)) q| ≤ 1.02
        rw [abs_of_nonneg (ht0 v hv)]; exact ht1 v hv
      rw [List.map_const', List.sum_replicate, nsmul_eq_mul] at this
      linarith
    have k3 := (Vnorm.pow_le' hnu hu0.le).2
    refine k.trans ((mul_le_mul k3 k2 (List.sum_nonneg (by simp)) (by norm_num)).trans ?_)
    clear * - hn1
    norm_num; linarith
  generalize rsum rd 0 (x.map fun v => pw (rd (a v / M)) q) = S' at *
  have hSΩ : S' ≤ Ω := hSn.trans (le_trans (by clear * - hn hn1; norm_num; linarith) hΩp)
  have hi1 : 1 / q ≤ 1 := by rw [div_le_one hq0]; exact hq
  have hi0 : 0 < 1 / q := by positivity
  have hei : rd (1 / q) ≤ 1 := h.mono_float' (isFloat_one hp1 he0) hi1
  have hexp0 := h.error hp1 (1 / q)
  rw [abs_of_pos hi0] at hexp0
  obtain ⟨hηu, hηuu⟩ := eta_small hp he
  have hexp := exponent_error hq0 hu0 hqu' (by norm_num at hηuu ⊢; linarith) hexp0
  have he'0 := exponent_pos hq0 hu0 hu hexp
  have hP0 := hpw.nonneg S' _ (by linarith) he'0
  have hP : pw S' (rd (1 / q)) ≤ Ω := by
    have k := (abs_le.1 (hpw.error S' (rd (1 / q)) (by linarith) he'0)).2
    have k1 : S' ^ rd (1 / q) ≤ S' := by
      have := Real.rpow_le_rpow_of_exponent_le hS1 hei
      rwa [Real.rpow_one] at this
    have k2 : ε * S' ^ rd (1 / q) ≤ 1 / 100 * S' := mul_le_mul hε k1 (Real.rpow_nonneg (by linarith) _) (by norm_num)
    refine le_trans ?_ hΩp
    generalize pw S' (rd (1 / q)) = P at *
    generalize S' ^ rd (1 / q) = Q at *
    clear * - k k1 k2 hη1 hSn hn hn1
    generalize (x.length : ℝ) = n at *
    norm_num at *; linarith
  rw [ov_id_le (by rwa [abs_of_nonneg (by linarith)]), ov_le h hΩ (by rw [abs_of_pos hi0]; linarith), xpowO, xpowR_fin, ov_id_le (by rwa [abs_of_nonneg hP0]),
    XF.mul_fin, rnd_fin, ov_eq]

/-- C86: when the exact norm is in the range (with the margin of the error bound of C83), vnorm is finite and accurate, however large the
elements are. -/
theorem C86_vnorm_in_range_partial (h : Nearest p emin rd) (hp : 10 ≤ p) (he : emin ≤ -4 * p) (hΩ : IsFloat p emin Ω) (hΩp : 2 ^ p ≤ Ω)
    (hpw : GoodPow p emin ε pw) (hε0 : 0 ≤ ε) (hε : ε ≤ 1 / 100) (x : List T) (hn : 100 * (x.length : ℝ) ≤ 2 ^ p) (a : T → ℝ)
    (ha : ∀ v ∈ x, 0 ≤ a v ∧ IsFloat p emin (a v)) (q : ℝ) (hq : 1 ≤ q) (hqu : 100 * q ≤ 2 ^ p) {N E : ℝ}
    (hN : N = (x.map fun v => a v ^ q).sum ^ (1 / q))
    (hE : E = ((1.2 * x.length + 1.1 * Real.log x.length) / q + 2.3) * (2 ^ p)⁻¹ + 2.3 * ε) (hr : (1 + E) * N + 2 ^ emin / 2 ≤ Ω) :
    ∃ r, vnormR (ov rd Ω) (xpowO Ω pw) (fun v => .fin (a v)) x (.fin q) = .fin r ∧ |r - N| ≤ E * N + 2 ^ emin / 2 := by
  obtain ⟨r, e1, e2⟩ := C83_vnorm_accuracy h hp he hpw hε0 hε x hn a ha q hq hqu
  rw [← hN, ← hE] at e2
  refine ⟨r, ?_, e2⟩
  have hN0 : 0 ≤ N := by
    rw [hN]
    apply Real.rpow_nonneg
    apply List.sum_nonneg
    intro y hy; obtain ⟨v, hv, rfl⟩ := List.mem_map.1 hy
    exact Real.rpow_nonneg (ha v hv).1 q
  rw [C86_vnorm_partial h hp he hΩ hΩp hpw hε0 hε x hn a ha q hq hqu, e1, ov_id_le]
  obtain ⟨k1, k2⟩ := abs_le.1 e2
  exact abs_le.2 ⟨by linarith, by linarith⟩

/-- C86: for order infinity vnorm does no arithmetic and does not overflow. -/
theorem C86_maxnorm (absf : T → XF ℝ) (x : List T) : vnormR (ov rd Ω) (xpowO Ω pw) absf x .pinf = vnorm absf x .pinf := by
  simp only [vnormR, vnorm, show XF.isinf (XF.pinf : XF ℝ) = true from rfl, if_true, Bool.true_or]

/-- C86 (defect): for orders below 1 the scaling is not enough: the power of the sum of the scaled elements overflows.  `vnorm([a, a], 2^-11)`
is infinite for every `a > 0`; the exact value is `a * 2^2048`, a double for small `a`. -/
theorem C86_vnorm_violated (h : Nearest 53 (-1074) rd) (hpw : GoodPow 53 (-1074) ε pw) (hε : ε ≤ 1 / 100) (a : ℝ) (ha : 0 < a) :
    vnormR (ov rd maxDouble) (xpowO maxDouble pw) (fun v : ℝ => .fin v) [a, a] (.fin (2 ^ (-11 : ℤ))) = .pinf ∧
      ([a, a].map fun v => v ^ ((2 : ℝ) ^ (-11 : ℤ))).sum ^ (1 / (2 : ℝ) ^ (-11 : ℤ)) = a * 2 ^ 2048 := by
  have hq0 : (0 : ℝ) < 2 ^ (-11 : ℤ) := by positivity
  have hbig := Softmax.maxDouble_ge_60
  have hinv : (1 : ℝ) / 2 ^ (-11 : ℤ) = 2048 := by norm_num
  have h2048 : (2 : ℝ) ^ (2048 : ℝ) = 2 ^ 2048 := by rw [show (2048 : ℝ) = ((2048 : ℕ) : ℝ) by norm_num, Real.rpow_natCast]
  constructor
  · have hm : maxAbs (fun v : ℝ => XF.fin v) [a, a] = .fin a := by
      simp only [maxAbs, List.foldl_cons, List.foldl_nil]
      simp [ha]
    have f1 : IsFloat 53 (-1074) (1 : ℝ) := isFloat_one (by norm_num) (by norm_num)
    have f2 : IsFloat 53 (-1074) (2 : ℝ) := ⟨2, 0, by norm_num, by norm_num, by norm_num⟩
    have f2048 : IsFloat 53 (-1074) (2048 : ℝ) := ⟨2048, 0, by norm_num, by norm_num, by norm_num⟩
    have l1 : |(1 : ℝ)| ≤ maxDouble := le_trans (by norm_num) hbig
    have l2 : |(2 : ℝ)| ≤ maxDouble := le_trans (by norm_num) hbig
    have l2048 : |(2048 : ℝ)| ≤ maxDouble := le_trans (by norm_num) hbig
    have o1 : ov rd maxDouble (.fin 1) = .fin 1 := by rw [ov_le h isFloat_maxDouble l1, h.exact f1]
    have o2 : ov rd maxDouble (.fin 2) = .fin 2 := by rw [ov_le h isFloat_maxDouble l2, h.exact f2]
    have o2048 : ov rd maxDouble (.fin 2048) = .fin 2048 := by rw [ov_le h isFloat_maxDouble l2048, h.exact f2048]
    have p1 : xpowO maxDouble pw (.fin 1) (.fin (2 ^ (-11 : ℤ))) = .fin 1 := by rw [xpowO, xpowR_fin, hpw.one _ hq0, ov_id_le l1]
    have p2 : xpowO maxDouble pw (.fin 2) (.fin 2048) = .pinf := by
      rw [xpowO, xpowR_fin, ov_id_gt]
      have k := (abs_le.1 (hpw.error 2 2048 (by norm_num) (by norm_num))).1
      rw [h2048] at k
      have k1 : ε * (2 : ℝ) ^ 2048 ≤ 1 / 100 * 2 ^ 2048 := mul_le_mul_of_nonneg_right hε (by positivity)
      have k2 : (2 : ℝ) ^ (-1074 : ℤ) ≤ 1 := by
        rw [← zpow_zero (2 : ℝ)]; exact zpow_le_zpow_right₀ (by norm_num) (by norm_num)
      have k3 : maxDouble < (2 : ℝ) ^ 1024 := by exact_mod_cast maxDouble_lt
      have k4 : (2 : ℝ) ^ 2048 = 2 ^ 1024 * 2 ^ 1024 := by rw [← pow_add]
      have k5 : (100 : ℝ) ≤ 2 ^ 1024 := le_trans (by norm_num : (100 : ℝ) ≤ 2 ^ 7) (pow_le_pow_right₀ (by norm_num) (by norm_num))
      rw [k4] at k k1
      generalize (2 : ℝ) ^ 1024 = B at *
      have k6 : 100 * B ≤ B * B := mul_le_mul_of_nonneg_right k5 (by linarith)
      linarith
    have hle : XF.le (XF.fin ((2 : ℝ) ^ (-11 : ℤ))) (.fin 0) = false := by simp
    have hne1 : ((2 : ℝ) ^ (-11 : ℤ)) ≠ 1 := by norm_num
    simp only [vnormR, hle, hm, Bool.false_eq_true, if_false, XF.eq_fin, decide_eq_true_eq, XF.isinf_fin, Bool.false_or, if_neg ha.ne', if_neg hne1]
    rw [XF.div_fin _ _ hq0.ne', hinv, o2048]
    simp only [List.foldl_cons, List.foldl_nil, XF.div_fin _ _ ha.ne', div_self ha.ne', o1, p1, XF.add_fin, zero_add]
    rw [show (1 : ℝ) + 1 = 2 by norm_num, o2, p2]
    have hmul : XF.mul (XF.fin a) .pinf = .pinf := by simp [XF.mul, XF.infMul, ha, ha.not_gt, ha.ne']
    rw [hmul]; rfl
  · rw [hinv]
    simp only [List.map_cons, List.map_nil, List.sum_cons, List.sum_nil, add_zero]
    rw [← two_mul, Real.mul_rpow (by norm_num) (Real.rpow_nonneg ha.le _), ← Real.rpow_mul ha.le, h2048,
      show (2 : ℝ) ^ (-11 : ℤ) * 2048 = 1 by norm_num, Real.rpow_one, mul_comm]

/-- The exact value in `C86_vnorm_violated` is a double for the smallest positive double. -/
example : (2 : ℝ) ^ (-1074 : ℤ) * 2 ^ 2048 ≤ maxDouble ∧ IsFloat 53 (-1074) ((2 : ℝ) ^ (-1074 : ℤ) * 2 ^ 2048) := by
  have e : (2 : ℝ) ^ (-1074 : ℤ) * 2 ^ 2048 = 2 ^ (974 : ℤ) := by
    rw [← zpow_natCast, ← zpow_add₀ (by norm_num)]; norm_num
  rw [e]
  exact ⟨le_trans (zpow_le_zpow_right₀ (by norm_num) (by norm_num)) maxDouble_ge, isFloat_zpow (by norm_num) (by norm_num)⟩

/-- `C86_vnorm_in_range_partial` for doubles whose squares overflow. -/
example (h : Nearest 53 (-1074) rd) : ∃ r, vnormR (ov rd maxDouble) (xpowO maxDouble fun b e => rd (b ^ e)) (fun v : ℝ => .fin v)
    [3 * 2 ^ 1000, 4 * 2 ^ 1000] (.fin 2) = .fin r ∧ |r - 5 * 2 ^ 1000| ≤ 1 / 10 ^ 14 * 2 ^ 1000 := by
  have hbig := Softmax.maxDouble_ge_60
  have hg := goodPow_round h (by norm_num) (by norm_num)
  have hf : ∀ v ∈ [(3 : ℝ) * 2 ^ 1000, 4 * 2 ^ 1000], (0 : ℝ) ≤ v ∧ IsFloat 53 (-1074) v := by
    intro v hv
    simp only [List.mem_cons, List.not_mem_nil, or_false] at hv
    rcases hv with rfl | rfl
    · exact ⟨by positivity, 3, 1000, by norm_num, by norm_num, by rw [← zpow_natCast]; norm_num⟩
    · exact ⟨by positivity, 4, 1000, by norm_num, by norm_num, by rw [← zpow_natCast]; norm_num⟩
  have hN : (5 : ℝ) * 2 ^ 1000 = (([(3 : ℝ) * 2 ^ 1000, 4 * 2 ^ 1000]).map fun v => v ^ (2 : ℝ)).sum ^ (1 / (2 : ℝ)) := by
    have : (([(3 : ℝ) * 2 ^ 1000, 4 * 2 ^ 1000]).map fun v => v ^ (2 : ℝ)).sum = (5 * 2 ^ 1000) ^ 2 := by
      simp only [List.map_cons, List.map_nil, List.sum_cons, List.sum_nil, Real.rpow_two]
      generalize (2 : ℝ) ^ 1000 = B
      ring
    rw [this, ← Real.sqrt_eq_rpow, Real.sqrt_sq (by positivity)]
  have hlog : Real.log 2 ≤ 0.7 := by linarith [Real.log_two_lt_d9]
  have hlog0 : 0 ≤ Real.log 2 := Real.log_nonneg (by norm_num)
  have hη : (2 : ℝ) ^ (-1074 : ℤ) ≤ 1 := by rw [← zpow_zero (2 : ℝ)]; exact zpow_le_zpow_right₀ (by norm_num) (by norm_num)
  have hη2 : (2 : ℝ) ^ (-1074 : ℤ) / 2 ≤ 1 / 10 ^ 16 * 2 ^ 1000 := by
    refine le_trans (by linarith : _ ≤ (1 : ℝ)) ?_
    have : (2 : ℝ) ^ 60 ≤ 2 ^ 1000 := pow_le_pow_right₀ (by norm_num) (by norm_num)
    refine le_trans ?_ (mul_le_mul_of_nonneg_left this (by norm_num))
    norm_num
  set E : ℝ := ((1.2 * (([(3 : ℝ) * 2 ^ 1000, 4 * 2 ^ 1000]).length : ℝ) + 1.1 * Real.log (([(3 : ℝ) * 2 ^ 1000, 4 * 2 ^ 1000]).length : ℝ)) / 2 + 2.3) *
    (2 ^ 53)⁻¹ + 2.3 * (2 ^ 53)⁻¹ with hEdef
  have hE1 : E ≤ 1 / 10 ^ 15 := by
    rw [hEdef]
    simp only [List.length_cons, List.length_nil]
    norm_num
    norm_num at hlog
    linarith
  have hB : (0 : ℝ) < 2 ^ 1000 := by positivity
  have hm : E * (5 * 2 ^ 1000) ≤ 1 / 10 ^ 15 * (5 * 2 ^ 1000) := mul_le_mul_of_nonneg_right hE1 (by positivity)
  obtain ⟨r, e1, e2⟩ := C86_vnorm_in_range_partial h (by norm_num) (by norm_num) isFloat_maxDouble (le_trans (by norm_num) hbig) hg (by positivity) (by norm_num)
    [3 * 2 ^ 1000, 4 * 2 ^ 1000] (by norm_num) (fun v => v) hf 2 (by norm_num) (by norm_num) hN hEdef (by
      have hbig' : (2 : ℝ) ^ 1023 ≤ maxDouble := by exact_mod_cast maxDouble_ge
      refine le_trans ?_ hbig'
      have : (2 : ℝ) ^ 1023 = 2 ^ 23 * 2 ^ 1000 := by rw [← pow_add]
      rw [this, one_add_mul]
      clear_value E
      clear * - hm hη2 hB
      generalize (2 : ℝ) ^ 1000 = B at *
      norm_num at *; linarith)
  refine ⟨r, e1, e2.trans ?_⟩
  clear * - hm hη2 hB
  generalize (2 : ℝ) ^ 1000 = B at *
  norm_num at *; linarith

end Ufunclab.Vnorm
