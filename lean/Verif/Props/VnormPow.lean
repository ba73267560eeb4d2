import Verif.Model.VnormRound
import Verif.Proof.VnormPow
import Verif.Props.Vnorm
import Verif.Props.Wjaccard
/-!
# C83: vnorm and wjaccard in floating point

`a v` is the computed absolute value of the element `v` (exact for real numbers).  `u = 2^-p`.
-/
namespace Ufunclab.Vnorm
open Ufunclab.Float Ufunclab.Corr
variable {T : Type _} {p : ℕ} {emin : ℤ} {rd : ℝ → ℝ} {pw : ℝ → ℝ → ℝ} {ε : ℝ}

theorem rnd_fin (a : ℝ) : rnd rd (.fin a) = .fin (rd a) := rfl
theorem xpowR_fin (a b : ℝ) : xpowR pw (.fin a) (.fin b) = .fin (pw a b) := rfl

theorem rnd_id : ∀ v : XF ℝ, rnd id v = v := fun v => by cases v <;> rfl
theorem xpowR_exact (b e : XF ℝ) : xpowR (fun a r => a ^ r) b e = xpow b e := by cases b <;> cases e <;> rfl

/-- C83: without rounding and with the exact power the code is the one of C41. -/
theorem C83_exact_arithmetic (absf : T → XF ℝ) (x : List T) (order : XF ℝ) :
    vnormR (rnd id) (xpowR fun a r => a ^ r) absf x order = vnorm absf x order := by
  simp only [vnormR, vnorm, rnd_id, xpowR_exact]

/-- C83: for order infinity nothing is rounded: the result is that of exact arithmetic (C41). -/
theorem C83_maxnorm (absf : T → XF ℝ) (x : List T) : vnormR (rnd rd) (xpowR pw) absf x .pinf = vnorm absf x .pinf := by
  simp only [vnormR, vnorm, show XF.isinf (XF.pinf : XF ℝ) = true from rfl, if_true, Bool.true_or]

theorem foldl_rsum (x : List T) (f : T → ℝ) (s : ℝ) :
    x.foldl (fun s v => rnd rd (XF.add s (XF.fin (f v)))) (XF.fin s) = .fin (rsum rd s (x.map f)) := by
  induction x generalizing s with
  | nil => rfl
  | cons v x ih => simp only [List.foldl_cons, XF.add_fin, rnd_fin, ih, List.map_cons, rsum]

/-- What vnorm computes for finite data and a finite order. -/
theorem vnormR_formula (a : T → ℝ) (x : List T) (q : ℝ) (hq : 0 < q) :
    ∃ M, 0 ≤ M ∧ (∀ v ∈ x, a v ≤ M) ∧ (M = 0 ∨ ∃ v ∈ x, a v = M) ∧
    vnormR (rnd rd) (xpowR pw) (fun v => .fin (a v)) x (.fin q) = .fin (if M = 0 then 0 else if q = 1 then rsum rd 0 (x.map a)
      else rd (M * pw (rsum rd 0 (x.map fun v => pw (rd (a v / M)) q)) (rd (1 / q)))) := by
  obtain ⟨M, h1, h2, h3, h4⟩ := foldl_max a x 0
  have hM : maxAbs (fun v => .fin (a v)) x = .fin M := h1
  refine ⟨M, h2, h3, h4, ?_⟩
  have hp0 : XF.le (XF.fin q) (.fin 0) = false := by simp [hq]
  simp only [vnormR, hp0, hM, Bool.false_eq_true, if_false, XF.eq_fin, decide_eq_true_eq, XF.isinf_fin, Bool.false_or]
  by_cases hM0 : M = 0
  · rw [if_pos hM0, if_pos hM0]
  · rw [if_neg hM0, if_neg hM0]
    by_cases h1 : q = 1
    · simp only [h1, if_true]
      exact foldl_rsum x a 0
    · simp only [h1, if_false, XF.div_fin _ _ hM0, XF.div_fin _ _ hq.ne', rnd_fin, xpowR_fin]
      rw [foldl_rsum x (fun v => pw (rd (a v / M)) q) 0]
      simp only [xpowR_fin, XF.mul_fin, rnd_fin]

/-- C83: order 1: the relative error is at most `1.02 n u`. -/
theorem C83_one_norm (h : Nearest p emin rd) (hp : 1 ≤ p) (x : List T) (hn : 100 * (x.length : ℝ) ≤ 2 ^ p) (a : T → ℝ)
    (ha : ∀ v ∈ x, 0 ≤ a v ∧ IsFloat p emin (a v)) :
    ∃ r, vnormR (rnd rd) (xpowR pw) (fun v => .fin (a v)) x (.fin 1) = .fin r ∧
      |r - (x.map a).sum| ≤ 1.02 * x.length * (2 ^ p)⁻¹ * (x.map a).sum := by
  obtain ⟨M, h2, h3, h4, h5⟩ := vnormR_formula (rd := rd) (pw := pw) a x 1 one_pos
  refine ⟨_, h5, ?_⟩
  have hs0 : 0 ≤ (x.map a).sum := List.sum_nonneg (by intro y hy; obtain ⟨v, hv, rfl⟩ := List.mem_map.1 hy; exact (ha v hv).1)
  by_cases hM : M = 0
  · have : (x.map a).sum = 0 := by
      apply List.sum_eq_zero
      intro y hy; obtain ⟨v, hv, rfl⟩ := List.mem_map.1 hy
      exact le_antisymm (hM ▸ h3 v hv) (ha v hv).1
    rw [if_pos hM, this]; simp
  · rw [if_neg hM, if_pos rfl]
    have k := rsum_error h hp (x.map a) 0 isFloat_zero (by intro y hy; obtain ⟨v, hv, rfl⟩ := List.mem_map.1 hy; exact (ha v hv).2)
    have e : ((x.map a).map abs).sum = (x.map a).sum := by
      rw [List.map_map]; congr 1; apply List.map_congr_left; intro v hv; exact abs_of_nonneg (ha v hv).1
    rw [zero_add, abs_zero, zero_add, List.length_map, e] at k
    have hb := Mad.pow_bound (u := ((2 : ℝ) ^ p)⁻¹) (by positivity) x.length (by
      rw [← div_eq_mul_inv, div_le_iff₀ (by positivity)]; linarith)
    exact k.trans (mul_le_mul_of_nonneg_right (by linarith) hs0)

theorem le_rsum (h : Nearest p emin rd) (l : List ℝ) : ∀ s, IsFloat p emin s → (∀ v ∈ l, 0 ≤ v ∧ IsFloat p emin v) → 0 ≤ s →
    s ≤ rsum rd s l ∧ ∀ v ∈ l, v ≤ rsum rd s l := by
  induction l with
  | nil => intro s _ _ _; exact ⟨le_rfl, by simp⟩
  | cons t l ih =>
    intro s hs hl hs0
    obtain ⟨t0, tf⟩ := hl t (by simp)
    have h1 : s ≤ rd (s + t) := h.mono_float hs (by linarith)
    have h2 : t ≤ rd (s + t) := h.mono_float tf (by linarith)
    obtain ⟨i1, i2⟩ := ih (rd (s + t)) (h _).1 (fun v hv => hl v (by simp [hv])) (hs0.trans h1)
    refine ⟨h1.trans i1, ?_⟩
    intro v hv
    rcases List.mem_cons.1 hv with rfl | hv
    · exact h2.trans i1
    · exact i2 v hv

/-- C83: for every positive order that is a number, the norm is at least the largest absolute value,
rounding included; hence it is 0 only when all elements are 0, however small they are. -/
theorem C83_ge_max (h : Nearest p emin rd) (hp : 1 ≤ p) (he : emin ≤ 0) (hpw : GoodPow p emin ε pw) (x : List T) (a : T → ℝ)
    (ha : ∀ v ∈ x, 0 ≤ a v ∧ IsFloat p emin (a v)) (q : ℝ) (hq : 0 < q) (hqi : 0 < rd (1 / q)) :
    ∃ r, vnormR (rnd rd) (xpowR pw) (fun v => .fin (a v)) x (.fin q) = .fin r ∧ 0 ≤ r ∧ (∀ v ∈ x, a v ≤ r) ∧ (r = 0 ↔ ∀ v ∈ x, a v = 0) := by
  obtain ⟨M, h2, h3, h4, h5⟩ := vnormR_formula (rd := rd) (pw := pw) a x q hq
  have r1 : rd 1 = 1 := h.exact (isFloat_one hp he)
  refine ⟨_, h5, ?_⟩
  by_cases hM : M = 0
  · rw [if_pos hM]
    exact ⟨le_rfl, fun v hv => hM ▸ h3 v hv, ⟨fun _ v hv => le_antisymm (hM ▸ h3 v hv) (ha v hv).1, fun _ => rfl⟩⟩
  · rw [if_neg hM]
    have hM0 : 0 < M := lt_of_le_of_ne h2 (Ne.symm hM)
    obtain ⟨w, hw, hwM⟩ := h4.resolve_left hM
    have key : M ≤ if q = 1 then rsum rd 0 (x.map a) else rd (M * pw (rsum rd 0 (x.map fun v => pw (rd (a v / M)) q)) (rd (1 / q))) := by
      by_cases h1 : q = 1
      · rw [if_pos h1, ← hwM]
        refine (le_rsum h (x.map a) 0 isFloat_zero ?_ le_rfl).2 _ (List.mem_map.2 ⟨w, hw, rfl⟩)
        intro y hy; obtain ⟨v, hv, rfl⟩ := List.mem_map.1 hy; exact ha v hv
      · rw [if_neg h1]
        have hr : ∀ v ∈ x, 0 ≤ rd (a v / M) := fun v hv => h.mono_float isFloat_zero (div_nonneg (ha v hv).1 hM0.le)
        have hS : 1 ≤ rsum rd 0 (x.map fun v => pw (rd (a v / M)) q) := by
          have e1 : pw (rd (a w / M)) q = 1 := by rw [hwM, div_self hM, r1, hpw.one q hq]
          rw [← e1]
          refine (le_rsum h (x.map fun v => pw (rd (a v / M)) q) 0 isFloat_zero ?_ le_rfl).2 _ (List.mem_map.2 ⟨w, hw, rfl⟩)
          intro y hy; obtain ⟨v, hv, rfl⟩ := List.mem_map.1 hy
          exact ⟨hpw.nonneg _ _ (hr v hv) hq, hpw.float _ _ (hr v hv) hq⟩
        have hG := hpw.one_le _ _ hS hqi
        exact h.mono_float (hwM ▸ (ha w hw).2) (by nlinarith)
    refine ⟨h2.trans key, fun v hv => (h3 v hv).trans key, ?_⟩
    constructor
    · intro h0; rw [h0] at key; linarith
    · intro h0; rw [h0 w hw] at hwM; exact absurd hwM.symm hM

/-- C83: the norm of a single number is its absolute value, exactly, for every positive order. -/
theorem C83_single (h : Nearest p emin rd) (hp : 1 ≤ p) (he : emin ≤ 0) (hpw : GoodPow p emin ε pw) (v : T) (a : T → ℝ)
    (ha : 0 ≤ a v ∧ IsFloat p emin (a v)) (q : ℝ) (hq : 0 < q) (hqi : 0 < rd (1 / q)) :
    vnormR (rnd rd) (xpowR pw) (fun v => .fin (a v)) [v] (.fin q) = .fin (a v) := by
  obtain ⟨M, h2, h3, h4, h5⟩ := vnormR_formula (rd := rd) (pw := pw) a [v] q hq
  have r1 : rd 1 = 1 := h.exact (isFloat_one hp he)
  rw [h5]
  congr 1
  have hv := h3 v (by simp)
  by_cases hM : M = 0
  · rw [if_pos hM]; exact le_antisymm ha.1 (hM ▸ hv)
  · rw [if_neg hM]
    obtain ⟨w, hw, hwM⟩ := h4.resolve_left hM
    rw [List.mem_singleton.1 hw] at hwM
    by_cases h1 : q = 1
    · simp only [h1, if_true, List.map_cons, List.map_nil, rsum, zero_add]; exact h.exact ha.2
    · rw [if_neg h1]
      simp only [List.map_cons, List.map_nil, hwM, div_self hM, r1, hpw.one q hq, rsum, zero_add, hpw.one _ hqi, mul_one]
      exact h.exact (hwM ▸ ha.2)

/-- C83: order at least 1 (not too large), finite data of any magnitude: the error relative to the
norm is at most `((1.2 n + 1.1 log n)/q + 2.3) u + 2.3 ε`, plus half a least subnormal.  `ε` is the
relative error of the library function `pow`. -/
theorem C83_vnorm_accuracy (h : Nearest p emin rd) (hp : 10 ≤ p) (he : emin ≤ -4 * p) (hpw : GoodPow p emin ε pw) (hε0 : 0 ≤ ε)
    (hε : ε ≤ 1 / 100) (x : List T) (hn : 100 * (x.length : ℝ) ≤ 2 ^ p) (a : T → ℝ) (ha : ∀ v ∈ x, 0 ≤ a v ∧ IsFloat p emin (a v)) (q : ℝ)
    (hq : 1 ≤ q) (hqu : 100 * q ≤ 2 ^ p) :
    ∃ r, vnormR (rnd rd) (xpowR pw) (fun v => .fin (a v)) x (.fin q) = .fin r ∧
      |r - (x.map fun v => a v ^ q).sum ^ (1 / q)| ≤
        (((1.2 * x.length + 1.1 * Real.log x.length) / q + 2.3) * (2 ^ p)⁻¹ + 2.3 * ε) * (x.map fun v => a v ^ q).sum ^ (1 / q) + 2 ^ emin / 2 := by
  have hq0 : 0 < q := by linarith
  obtain ⟨M, h2, h3, h4, h5⟩ := vnormR_formula (rd := rd) (pw := pw) a x q hq0
  refine ⟨_, h5, ?_⟩
  have hη0 : (0 : ℝ) < 2 ^ emin := by positivity
  by_cases hM : M = 0
  · rw [if_pos hM, sum_rpow_zero a x q hq0 (fun v hv => le_antisymm (hM ▸ h3 v hv) (ha v hv).1), Real.zero_rpow (by positivity)]
    simp only [sub_zero, abs_zero, mul_zero, zero_add]; positivity
  rw [if_neg hM]
  have hM0 : 0 < M := lt_of_le_of_ne h2 (Ne.symm hM)
  obtain ⟨w, hw, hwM⟩ := h4.resolve_left hM
  have hu := Mad.unit_le_thousandth (K := ℝ) hp
  have hu0 : (0 : ℝ) < (2 ^ p)⁻¹ := by positivity
  have hnu : (x.length : ℝ) * (2 ^ p)⁻¹ ≤ 1 / 100 := by rw [← div_eq_mul_inv, div_le_iff₀ (by positivity)]; linarith
  have hqu' : q * (2 ^ p)⁻¹ ≤ 1 / 100 := by rw [← div_eq_mul_inv, div_le_iff₀ (by positivity)]; linarith
  have hn1 : (1 : ℝ) ≤ x.length := by
    have : 1 ≤ x.length := List.length_pos_of_mem hw
    exact_mod_cast this
  have hlog0 : 0 ≤ Real.log x.length := Real.log_nonneg hn1
  by_cases h1 : q = 1
  · subst h1
    rw [if_pos rfl]
    obtain ⟨r, e1, e2⟩ := C83_one_norm (pw := pw) h (by omega) x hn a ha
    rw [h5, if_neg hM, if_pos rfl, XF.fin.injEq] at e1
    rw [← e1] at e2
    simp only [Real.rpow_one, div_one]
    have hs0 : 0 ≤ (x.map a).sum := List.sum_nonneg (by intro y hy; obtain ⟨v, hv, rfl⟩ := List.mem_map.1 hy; exact (ha v hv).1)
    have e3 : 1.02 * x.length * (2 ^ p)⁻¹ ≤ (1.2 * (x.length : ℝ) + 1.1 * Real.log x.length + 2.3) * (2 ^ p)⁻¹ + 2.3 * ε := by
      have : 1.02 * (x.length : ℝ) * (2 ^ p)⁻¹ ≤ (1.2 * (x.length : ℝ) + 1.1 * Real.log x.length + 2.3) * (2 ^ p)⁻¹ :=
        mul_le_mul_of_nonneg_right (by norm_num at *; linarith) hu0.le
      linarith
    have := mul_le_mul_of_nonneg_right e3 hs0
    linarith
  rw [if_neg h1]
  -- the scaled sum
  have hsn : 0 ≤ (x.map (fun v => a v ^ q)).sum := List.sum_nonneg (by
    intro y hy; obtain ⟨v, hv, rfl⟩ := List.mem_map.1 hy; exact Real.rpow_nonneg (ha v hv).1 q)
  obtain ⟨S, hSdef, hS1, hSn, E, hEdef, hE1, hE⟩ := scaled_sum h hp he hpw hε0 hε x hn a (fun v hv => (ha v hv).1) q hq hqu hM0 h3 hw hwM
  have hN : (x.map fun v => a v ^ q).sum ^ (1 / q) = M * S ^ (1 / q) := by
    have hs : S = (x.map (fun v => a v ^ q)).sum / M ^ q := by
      rw [hSdef, div_eq_mul_inv, mul_comm, ← List.sum_map_mul_left]
      congr 1
      apply List.map_congr_left
      intro v hv
      rw [Real.div_rpow (ha v hv).1 hM0.le]; ring
    rw [hs, Real.div_rpow hsn (by positivity), ← Real.rpow_mul hM0.le, mul_one_div_cancel hq0.ne', Real.rpow_one]
    field_simp
  generalize rsum rd 0 (x.map fun v => pw (rd (a v / M)) q) = S' at *
  have hiq0 : 0 < 1 / q := by positivity
  obtain ⟨hηu, hηuu⟩ := eta_small hp he
  have herr := fun z => h.error (by omega : 1 ≤ p) z
  have hexp0 := herr (1 / q)
  rw [abs_of_pos hiq0] at hexp0
  have hexp := exponent_error hq0 hu0 hqu' (by norm_num at hηuu ⊢; linarith) hexp0
  have he'0 := exponent_pos hq0 hu0 hu hexp
  have hE0 : 0 ≤ E := by rw [hEdef]; positivity
  have hS'0 : 0 ≤ S' := by
    have := (abs_le.1 hE).1
    have k : E * S ≤ 0.033 * S := mul_le_mul_of_nonneg_right hE1 (by linarith)
    clear * - this k hS1
    norm_num at *; linarith
  have hfin := herr (M * pw S' (rd (1 / q)))
  rw [abs_of_nonneg (mul_nonneg hM0.le (hpw.nonneg _ _ hS'0 he'0))] at hfin
  rw [hN]
  exact finish hu0 hu hε0 hε hη0.le hηu hq hqu' hnu hn1 hM0 hS1 hSn hEdef hE hE1 hexp (hpw.error S' (rd (1 / q)) hS'0 he'0) hfin

/-- The power rounded to nearest is such a library function, with `ε = 2^-p`. -/
theorem goodPow_round (h : Nearest p emin rd) (hp : 1 ≤ p) (he : emin ≤ 0) : GoodPow p emin (2 ^ p)⁻¹ (fun b e => rd (b ^ e)) where
  float _ _ _ _ := (h _).1
  error b e hb _ := by
    have := h.error hp (b ^ e)
    rw [abs_of_nonneg (Real.rpow_nonneg hb e)] at this
    have : (0 : ℝ) < 2 ^ emin := by positivity
    linarith
  one e _ := by rw [Real.one_rpow]; exact h.exact (isFloat_one hp he)
  nonneg b e hb _ := h.mono_float isFloat_zero (Real.rpow_nonneg hb e)
  one_le b e hb he' := h.mono_float (isFloat_one hp he) (Real.one_le_rpow hb he'.le)

/-! ### Non-vacuity: doubles, the Euclidean norm of (3, 4), with pow rounded to nearest -/
example : ∃ rd : ℝ → ℝ, Nearest 53 (-1074) rd := exists_nearest (by norm_num) _

example (h : Nearest 53 (-1074) rd) :
    ∃ r, vnormR (rnd rd) (xpowR fun b e => rd (b ^ e)) (fun v : ℝ => .fin v) [3, 4] (.fin 2) = .fin r ∧ 4 ≤ r ∧ |r - 5| ≤ 1 / 10 ^ 14 := by
  have hf : ∀ v ∈ [(3 : ℝ), 4], (0 : ℝ) ≤ v ∧ IsFloat 53 (-1074) v := by
    intro v hv
    simp only [List.mem_cons, List.not_mem_nil, or_false] at hv
    rcases hv with rfl | rfl
    · exact ⟨by norm_num, 3, 0, by norm_num, by norm_num, by norm_num⟩
    · exact ⟨by norm_num, 4, 0, by norm_num, by norm_num, by norm_num⟩
  have hg := goodPow_round h (by norm_num) (by norm_num)
  have hhalf : rd (1 / 2) = 1 / 2 := h.exact ⟨1, -1, by norm_num, by norm_num, by norm_num⟩
  obtain ⟨r, e1, -, e2, -⟩ := C83_ge_max h (by norm_num) (by norm_num) hg [3, 4] (fun v => v) hf 2 (by norm_num) (by rw [hhalf]; norm_num)
  obtain ⟨r', e1', e3⟩ := C83_vnorm_accuracy h (by norm_num) (by norm_num) hg (by positivity) (by norm_num) [3, 4] (by norm_num) (fun v => v) hf 2
    (by norm_num) (by norm_num)
  rw [e1, XF.fin.injEq] at e1'
  subst e1'
  refine ⟨r, e1, e2 4 (by simp), ?_⟩
  have e5 : ([(3 : ℝ), 4].map fun v => v ^ (2 : ℝ)).sum ^ ((1 : ℝ) / 2) = 5 := by
    rw [← Real.sqrt_eq_rpow]
    have : ([(3 : ℝ), 4].map fun v => v ^ (2 : ℝ)).sum = 5 ^ 2 := by norm_num
    rw [this]; exact Real.sqrt_sq (by norm_num)
  rw [e5] at e3
  refine e3.trans ?_
  have l2 : Real.log (([(3 : ℝ), 4].length : ℕ) : ℝ) ≤ 1 := by
    refine (Real.log_le_sub_one_of_pos (by norm_num)).trans ?_; norm_num
  have eη : (2 : ℝ) ^ (-1074 : ℤ) ≤ 2 ^ (-60 : ℤ) := zpow_le_zpow_right₀ (by norm_num) (by norm_num)
  have e60 : (2 : ℝ) ^ (-60 : ℤ) ≤ 1 / 10 ^ 18 := by norm_num [zpow_neg]
  have hη := eη.trans e60
  clear e3 eη e60
  generalize Real.log (([(3 : ℝ), 4].length : ℕ) : ℝ) = L at *
  generalize (2 : ℝ) ^ (-1074 : ℤ) = η at *
  norm_num at *; linarith

end Ufunclab.Vnorm

namespace Ufunclab.Wjaccard
open Ufunclab.Float Ufunclab.Corr
variable {p : ℕ} {emin : ℤ} {rd : ℝ → ℝ}

theorem loop_rsum (l : List (ℝ × ℝ)) (a b : ℝ) :
    loop (rounded rd XF.add) (.fin a) (.fin b) (l.map finPair) =
      some (.fin (rsum rd a (l.map fun p => min p.1 p.2)), .fin (rsum rd b (l.map fun p => max p.1 p.2))) := by
  induction l generalizing a b with
  | nil => rfl
  | cons q l ih =>
    simp only [List.map_cons, loop, finPair, XF.isnan_fin, Bool.or_self, Bool.false_eq_true, if_false, stdMin_fin, stdMax_fin, rounded, XF.add_fin, rsum]
    exact ih _ _

/-- C83: wjaccard of data that are not negative, not all 0: the error is at most `(2.1 n + 1.1) u`
plus half a least subnormal.  (That the result is in [0,1] is C40.) -/
theorem C83_wjaccard_accuracy (h : Nearest p emin rd) (hp : 1 ≤ p) (l : List (ℝ × ℝ)) (hn : 100 * (l.length : ℝ) ≤ 2 ^ p)
    (hl : ∀ q ∈ l, (0 ≤ q.1 ∧ IsFloat p emin q.1) ∧ (0 ≤ q.2 ∧ IsFloat p emin q.2)) (hpos : ∃ q ∈ l, q.1 ≠ 0 ∨ q.2 ≠ 0) :
    ∃ r, wjaccard (rounded rd XF.add) (rounded rd XF.div) (l.map finPair) = .fin r ∧
      |r - (l.map fun q => min q.1 q.2).sum / (l.map fun q => max q.1 q.2).sum| ≤ (2.1 * l.length + 1.1) * (2 ^ p)⁻¹ + 2 ^ emin / 2 := by
  have hu0 : (0 : ℝ) < (2 ^ p)⁻¹ := by positivity
  have hmin : ∀ q ∈ l, 0 ≤ min q.1 q.2 ∧ IsFloat p emin (min q.1 q.2) := by
    intro q hq
    obtain ⟨⟨a1, a2⟩, b1, b2⟩ := hl q hq
    exact ⟨le_min a1 b1, by rcases min_choice q.1 q.2 with e | e <;> rw [e] <;> assumption⟩
  have hmax : ∀ q ∈ l, 0 ≤ max q.1 q.2 ∧ IsFloat p emin (max q.1 q.2) := by
    intro q hq
    obtain ⟨⟨a1, a2⟩, b1, b2⟩ := hl q hq
    exact ⟨a1.trans (le_max_left _ _), by rcases max_choice q.1 q.2 with e | e <;> rw [e] <;> assumption⟩
  have hD : 0 < (l.map fun q => max q.1 q.2).sum := by
    obtain ⟨q, hq, hor⟩ := hpos
    have h1 : 0 < max q.1 q.2 := by
      obtain ⟨⟨a1, a2⟩, b1, b2⟩ := hl q hq
      rcases hor with hh | hh
      · exact lt_of_lt_of_le (lt_of_le_of_ne a1 (Ne.symm hh)) (le_max_left _ _)
      · exact lt_of_lt_of_le (lt_of_le_of_ne b1 (Ne.symm hh)) (le_max_right _ _)
    exact lt_of_lt_of_le h1 (List.single_le_sum (by intro y hy; obtain ⟨v, hv, rfl⟩ := List.mem_map.1 hy; exact (hmax v hv).1) _
      (List.mem_map.2 ⟨q, hq, rfl⟩))
  have hND : (l.map fun q => min q.1 q.2).sum ≤ (l.map fun q => max q.1 q.2).sum :=
    List.sum_le_sum (fun q _ => min_le_max)
  have hN0 : 0 ≤ (l.map fun q => min q.1 q.2).sum := List.sum_nonneg (by intro y hy; obtain ⟨v, hv, rfl⟩ := List.mem_map.1 hy; exact (hmin v hv).1)
  cases l with
  | nil => simp at hpos
  | cons q l =>
    have hnu : (((q :: l).length : ℕ) : ℝ) * (2 ^ p)⁻¹ ≤ 1 / 100 := by rw [← div_eq_mul_inv, div_le_iff₀ (by positivity)]; linarith
    have err : ∀ f : ℝ × ℝ → ℝ, (∀ w ∈ q :: l, 0 ≤ f w ∧ IsFloat p emin (f w)) →
        |rsum rd (f q) (l.map f) - ((q :: l).map f).sum| ≤ 1.02 * (q :: l).length * (2 ^ p)⁻¹ * ((q :: l).map f).sum := by
      intro f hf
      have k := rsum_error h hp (l.map f) (f q) (hf q (by simp)).2 (by
        intro y hy; obtain ⟨v, hv, rfl⟩ := List.mem_map.1 hy; exact (hf v (by simp [hv])).2)
      have e : ((l.map f).map abs).sum = (l.map f).sum := by
        rw [List.map_map]; congr 1; apply List.map_congr_left; intro v hv; exact abs_of_nonneg (hf v (by simp [hv])).1
      rw [e, abs_of_nonneg (hf q (by simp)).1, List.length_map] at k
      have hS : 0 ≤ f q + (l.map f).sum := add_nonneg (hf q (by simp)).1 (List.sum_nonneg (by
        intro y hy; obtain ⟨v, hv, rfl⟩ := List.mem_map.1 hy; exact (hf v (by simp [hv])).1))
      have hb := Mad.pow_bound (u := ((2 : ℝ) ^ p)⁻¹) hu0.le l.length (by
        simp only [List.length_cons] at hnu; push_cast at hnu; linarith)
      simp only [List.map_cons, List.sum_cons, List.length_cons]
      refine k.trans (mul_le_mul_of_nonneg_right ?_ hS)
      push_cast
      linarith
    have eN := err (fun q => min q.1 q.2) hmin
    have eD := err (fun q => max q.1 q.2) hmax
    have hcomp : wjaccard (rounded rd XF.add) (rounded rd XF.div) ((q :: l).map finPair) =
        if rsum rd (max q.1 q.2) (l.map fun q => max q.1 q.2) = 0 then
          (if rsum rd (min q.1 q.2) (l.map fun q => min q.1 q.2) = 0 then .nan else .ninf)
        else rounded rd XF.div (.fin (rsum rd (min q.1 q.2) (l.map fun q => min q.1 q.2))) (.fin (rsum rd (max q.1 q.2) (l.map fun q => max q.1 q.2))) := by
      simp only [List.map_cons, wjaccard, finPair, XF.isnan_fin, Bool.or_self, Bool.false_eq_true, if_false, stdMin_fin, stdMax_fin]
      have := loop_rsum (rd := rd) l (min q.1 q.2) (max q.1 q.2)
      simp only [this, XF.eq_fin, decide_eq_true_eq]
    obtain ⟨t, ht⟩ : ∃ t : ℝ, t = 1.02 * (q :: l).length * (2 ^ p)⁻¹ := ⟨_, rfl⟩
    rw [← ht] at eN eD
    have hr : (2.1 * ((q :: l).length : ℝ) + 1.1) * (2 ^ p)⁻¹ = (2.1 / 1.02) * t + 1.1 * (2 ^ p)⁻¹ := by rw [ht]; ring
    have ht1 : t ≤ 0.0102 := by rw [ht, mul_assoc]; clear * - hnu; norm_num at *; linarith
    have ht0 : 0 ≤ t := by rw [ht]; positivity
    rw [hr]
    generalize rsum rd (min q.1 q.2) (l.map fun q => min q.1 q.2) = N' at *
    generalize rsum rd (max q.1 q.2) (l.map fun q => max q.1 q.2) = D' at *
    generalize ((q :: l).map fun q => min q.1 q.2).sum = N at *
    generalize ((q :: l).map fun q => max q.1 q.2).sum = D at *
    have htD : t * D ≤ 0.0102 * D := mul_le_mul_of_nonneg_right ht1 hD.le
    have htN : t * N ≤ t * D := mul_le_mul_of_nonneg_left hND ht0
    have hD' : 0.9898 * D ≤ D' := by have := (abs_le.1 eD).1; clear * - this htD; norm_num at *; linarith
    have hD'0 : 0 < D' := lt_of_lt_of_le (by positivity) hD'
    refine ⟨rd (N' / D'), by rw [hcomp, if_neg hD'0.ne']; simp only [rounded, XF.div_fin _ _ hD'0.ne'], ?_⟩
    have hq : |N' / D' - N / D| ≤ 2.04 * t := by
      have e1 : N' / D' - N / D = ((N' - N) * D - N * (D' - D)) / (D' * D) := by field_simp; ring
      rw [e1, abs_div, abs_of_pos (mul_pos hD'0 hD), div_le_iff₀ (mul_pos hD'0 hD)]
      calc |(N' - N) * D - N * (D' - D)| ≤ |(N' - N) * D| + |N * (D' - D)| := abs_sub _ _
        _ = |N' - N| * D + N * |D' - D| := by rw [abs_mul, abs_mul, abs_of_pos hD, abs_of_nonneg hN0]
        _ ≤ (t * N) * D + N * (t * D) := add_le_add (mul_le_mul_of_nonneg_right eN hD.le) (mul_le_mul_of_nonneg_left eD hN0)
        _ = 2 * (t * N) * D := by ring
        _ ≤ 2 * (t * D) * D := mul_le_mul_of_nonneg_right (by linarith) hD.le
        _ ≤ 2.04 * t * (D' * D) := by
          have : (2 * (t * D)) * D ≤ (2.04 * (t * D')) * D := by
            apply mul_le_mul_of_nonneg_right _ hD.le
            have := mul_le_mul_of_nonneg_left hD' ht0
            have : 0 ≤ t * D := by positivity
            norm_num at *; linarith
          linarith
    have hrd := h.error hp (N' / D')
    have hx : |N' / D'| ≤ 1.03 := by
      have h1 : N / D ≤ 1 := (div_le_one hD).2 hND
      have h2 : 0 ≤ N / D := div_nonneg hN0 hD.le
      have : |N' / D'| ≤ |N' / D' - N / D| + |N / D| := by
        calc |N' / D'| = |(N' / D' - N / D) + N / D| := by congr 1; ring
          _ ≤ _ := abs_add_le _ _
      rw [abs_of_nonneg h2] at this
      clear * - this hq ht1 h1
      norm_num at *; linarith
    have hux := mul_le_mul_of_nonneg_left hx hu0.le
    clear * - hrd hq hux hu0 ht0
    generalize ((2 : ℝ) ^ p)⁻¹ = u at *
    calc |rd (N' / D') - N / D| = |(rd (N' / D') - N' / D') + (N' / D' - N / D)| := by congr 1; ring
      _ ≤ _ := abs_add_le _ _
      _ ≤ _ := by norm_num at *; linarith

example (h : Nearest 53 (-1074) rd) : ∃ r, wjaccard (rounded rd XF.add) (rounded rd XF.div) ([(1, 2), (5, 4)].map finPair) = .fin r ∧
    |r - 5 / 7| ≤ (2.1 * (2 : ℕ) + 1.1) * (2 ^ 53)⁻¹ + 2 ^ (-1074 : ℤ) / 2 := by
  have f : ∀ m : ℤ, |m| < 2 ^ 53 → IsFloat 53 (-1074) (m : ℝ) := fun m hm => ⟨m, 0, hm, by norm_num, by simp⟩
  obtain ⟨r, e1, e2⟩ := C83_wjaccard_accuracy h (by norm_num) [(1, 2), (5, 4)] (by norm_num) (by
    intro q hq
    simp only [List.mem_cons, List.not_mem_nil, or_false] at hq
    rcases hq with rfl | rfl
    · exact ⟨⟨by norm_num, by simpa using f 1 (by norm_num)⟩, by norm_num, by simpa using f 2 (by norm_num)⟩
    · exact ⟨⟨by norm_num, by simpa using f 5 (by norm_num)⟩, by norm_num, by simpa using f 4 (by norm_num)⟩) ⟨(1, 2), by simp, by norm_num⟩
  refine ⟨r, e1, ?_⟩
  have e3 : ([((1 : ℝ), (2 : ℝ)), (5, 4)].map fun q => min q.1 q.2).sum / ([((1 : ℝ), (2 : ℝ)), (5, 4)].map fun q => max q.1 q.2).sum = 5 / 7 := by
    norm_num
  rw [e3] at e2
  exact e2

end Ufunclab.Wjaccard
