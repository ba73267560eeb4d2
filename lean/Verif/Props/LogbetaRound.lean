import Verif.Model.LogbetaRound
import Verif.Props.Logfact
import Verif.Proof.SoftmaxRound
import Verif.Proof.CorrRound
import Verif.Proof.TriAreaRound
import Mathlib.Analysis.SpecialFunctions.Gamma.BohrMollerup
import Mathlib.Analysis.SpecialFunctions.Gamma.Beta
import Mathlib.Analysis.SpecialFunctions.Log.Deriv
import Mathlib.Analysis.Complex.ExponentialBounds
/-!
# C105: `multivariate_logbeta` in floating point
-/
namespace Ufunclab.Logbeta
open Real Ufunclab.Float LogbetaSpec
variable {p : ℕ} {emin : ℤ} {rd lgm : ℝ → ℝ} {ε : ℝ}

/-- A library `lgamma` on the positive numbers of the format: its values are numbers of the format, with relative error at most `ε`. -/
structure GoodLgamma (p : ℕ) (emin : ℤ) (ε : ℝ) (lgm : ℝ → ℝ) : Prop where
  float : ∀ a, IsFloat p emin a → 0 < a → IsFloat p emin (lgm a)
  error : ∀ a, IsFloat p emin a → 0 < a → |lgm a - log (Gamma a)| ≤ ε * |log (Gamma a)|

/-! ### The logarithm of the gamma function is Lipschitz, up to a logarithm -/

theorem lgamma_succ {x : ℝ} (hx : 0 < x) : log (Gamma (x + 1)) = log x + log (Gamma x) := by
  rw [Gamma_add_one hx.ne', log_mul hx.ne' (Gamma_pos_of_pos hx).ne']

theorem lgamma_lip {a b : ℝ} (ha : 0 < a) (hab : a < b) :
    |log (Gamma b) - log (Gamma a)| ≤ (b - a) * (2 + log (1 + b)) + (log b - log a) := by
  have hb : 0 < b := ha.trans hab
  have cv := convexOn_log_Gamma
  have s1 := cv.slope_mono_adjacent (x := a + 1) (y := b + 1) (z := b + 1 + 1) (Set.mem_Ioi.2 (by linarith)) (Set.mem_Ioi.2 (by linarith)) (by linarith) (by linarith)
  have s2 := cv.slope_mono_adjacent (x := 1 / 2) (y := 1) (z := a + 1) (Set.mem_Ioi.2 (by norm_num)) (Set.mem_Ioi.2 (by linarith)) (by norm_num) (by linarith)
  have s3 := cv.slope_mono_adjacent (x := 1) (y := a + 1) (z := b + 1) (Set.mem_Ioi.2 (by norm_num)) (Set.mem_Ioi.2 (by linarith)) (by linarith) (by linarith)
  simp only [Function.comp] at s1 s2 s3
  rw [Gamma_one, log_one, Gamma_one_half_eq] at s2
  rw [Gamma_one, log_one] at s3
  have hd : 0 < b + 1 - (a + 1) := by linarith
  rw [lgamma_succ (by linarith : 0 < b + 1), show b + 1 + 1 - (b + 1) = 1 by ring, div_one, add_sub_cancel_right, div_le_iff₀ hd] at s1
  have s4 := s2.trans s3
  rw [le_div_iff₀ hd] at s4
  have lp : log (√π) ≤ 1 := by
    have h4 : log π ≤ 2 := by
      have e1 : log π ≤ log 4 := log_le_log pi_pos pi_le_four
      have e2 : log (4 : ℝ) = 2 * log 2 := by rw [show (4 : ℝ) = 2 ^ 2 by norm_num, log_pow]; norm_num
      have := Real.log_two_lt_d9
      linarith
    rw [log_sqrt pi_pos.le]; linarith
  have s5 : -2 * (b + 1 - (a + 1)) ≤ (0 - log (√π)) / (1 - 1 / 2) * (b + 1 - (a + 1)) := mul_le_mul_of_nonneg_right (by
    rw [show (1 : ℝ) - 1 / 2 = 1 / 2 by norm_num, le_div_iff₀ (by norm_num)]; linarith) hd.le
  rw [lgamma_succ ha, lgamma_succ hb] at s1 s4
  have l0 : 0 ≤ log b - log a := sub_nonneg.2 (log_le_log ha hab.le)
  have l1 : 0 ≤ log (1 + b) := log_nonneg (by linarith)
  have l2 : 0 ≤ (b - a) * log (1 + b) := mul_nonneg (by linarith) l1
  rw [add_comm b 1] at s1
  rw [abs_le]
  constructor <;> linarith

theorem lgamma_close {a b ρ : ℝ} (ha : 0 < a) (hρ : ρ ≤ 1 / 50) (h : |b - a| ≤ ρ * a) :
    |log (Gamma b) - log (Gamma a)| ≤ ρ * (a * (2 + log (1 + 1.02 * a)) + 1.03) := by
  have hρ0 : 0 ≤ ρ := by
    by_contra hn
    have := mul_neg_of_neg_of_pos (not_le.1 hn) ha
    have := abs_nonneg (b - a); linarith
  obtain ⟨h1, h2⟩ := abs_le.1 h
  have ρa := mul_le_mul_of_nonneg_right hρ ha.le
  have hb : 0 < b := by linarith
  have bl : b ≤ 1.02 * a := by norm_num at *; linarith
  have lm : 0 ≤ log (1 + 1.02 * a) := log_nonneg (by norm_num; linarith)
  have key : ∀ c d : ℝ, 0 < c → c < d → d ≤ 1.02 * a → d - c ≤ ρ * a → log d - log c ≤ 1.03 * ρ →
      |log (Gamma d) - log (Gamma c)| ≤ ρ * (a * (2 + log (1 + 1.02 * a)) + 1.03) := by
    intro c d hc hcd hd hdc hl
    have e := lgamma_lip hc hcd
    have m : log (1 + d) ≤ log (1 + 1.02 * a) := log_le_log (by linarith) (by linarith)
    have l0 : 0 ≤ log (1 + d) := log_nonneg (by linarith)
    have q : (d - c) * (2 + log (1 + d)) ≤ ρ * a * (2 + log (1 + 1.02 * a)) := mul_le_mul hdc (by linarith) (by linarith) (by positivity)
    linarith
  rcases lt_trichotomy a b with o | o | o
  · refine key a b ha o bl (by linarith) ?_
    rw [← log_div hb.ne' ha.ne']
    refine (log_le_sub_one_of_pos (by positivity)).trans ?_
    rw [sub_le_iff_le_add, div_le_iff₀ ha]
    have : 0 ≤ ρ * a := by positivity
    norm_num; linarith
  · rw [← o, sub_self, abs_zero]
    have : 0 ≤ a * (2 + log (1 + 1.02 * a)) := mul_nonneg ha.le (by linarith)
    exact mul_nonneg hρ0 (add_nonneg this (by norm_num))
  · rw [abs_sub_comm]
    refine key b a hb o (by norm_num; linarith) (by linarith) ?_
    rw [← log_div ha.ne' hb.ne']
    refine (log_le_sub_one_of_pos (by positivity)).trans ?_
    rw [sub_le_iff_le_add, div_le_iff₀ hb]
    have q : ρ * (98 / 100 * a) ≤ ρ * b := mul_le_mul_of_nonneg_left (by linarith) hρ0
    have : 0 ≤ ρ * a := by positivity
    norm_num; linarith

/-! ### The rounded sums -/

theorem foldl_rsum (l : List ℝ) : ∀ r, l.foldl (fun a b => rd (a + b)) r = Corr.rsum rd r l := by
  induction l with
  | nil => intro r; rfl
  | cons a l ih => intro r; rw [List.foldl_cons, ih]; rfl

theorem sum_lgamma_error (hg : GoodLgamma p emin ε lgm) (x : List ℝ) (hf : ∀ a ∈ x, IsFloat p emin a) (hx : ∀ a ∈ x, 0 < a) :
    |(x.map lgm).sum - (x.map fun a => log (Gamma a)).sum| ≤ ε * (x.map fun a => |log (Gamma a)|).sum ∧
    ((x.map lgm).map abs).sum ≤ (1 + ε) * (x.map fun a => |log (Gamma a)|).sum := by
  induction x with
  | nil => simp
  | cons a x ih =>
    obtain ⟨i1, i2⟩ := ih (fun b hb => hf b (by simp [hb])) (fun b hb => hx b (by simp [hb]))
    have e := hg.error a (hf a (by simp)) (hx a (by simp))
    simp only [List.map_cons, List.sum_cons]
    constructor
    · rw [show lgm a + (x.map lgm).sum - (log (Gamma a) + (x.map fun a => log (Gamma a)).sum) =
        (lgm a - log (Gamma a)) + ((x.map lgm).sum - (x.map fun a => log (Gamma a)).sum) by ring, mul_add]
      exact (abs_add_le _ _).trans (add_le_add e i1)
    · have := abs_sub_abs_le_abs_sub (lgm a) (log (Gamma a))
      linarith

theorem log_betaFn (x : List ℝ) (hne : x ≠ []) (hx : ∀ a ∈ x, 0 < a) : log (betaFn x) = (x.map fun a => log (Gamma a)).sum - log (Gamma x.sum) := by
  have h1 : ∀ l : List ℝ, (∀ a ∈ l, 0 < a) → 0 < (l.map Gamma).prod ∧ log ((l.map Gamma).prod) = (l.map fun a => log (Gamma a)).sum := by
    intro l hl
    induction l with
    | nil => simp
    | cons a l ih =>
      obtain ⟨i1, i2⟩ := ih (fun b hb => hl b (by simp [hb]))
      have := Gamma_pos_of_pos (hl a (by simp))
      simp only [List.map_cons, List.prod_cons, List.sum_cons]
      exact ⟨mul_pos this i1, by rw [log_mul this.ne' i1.ne', i2]⟩
  obtain ⟨p1, p2⟩ := h1 x hx
  have s : 0 < x.sum := List.sum_pos _ hx hne
  rw [betaFn, log_div p1.ne' (Gamma_pos_of_pos s).ne', p2]

theorem final_bound {u ν P W V Q sG sl L l GS Gs v : ℝ} (u0 : 0 < u) (u1 : u ≤ 1 / 100) (uν : u ≤ ν) (hν : ν ≤ 1 / 100) (hε0 : 0 ≤ ε) (hε : ε ≤ 1 / 100)
    (hP : P ≤ 1 + 1.02 * ν) (W0 : 0 ≤ W) (V0 : 0 ≤ V) (Q0 : 0 ≤ Q) (SW : |sG| ≤ W) (g1 : |sl - sG| ≤ ε * W) (g2 : V ≤ (1 + ε) * W) (el : |L - sl| ≤ (P - 1) * V)
    (lc : |GS - Gs| ≤ 1.02 * ν * (Q + 1.03)) (eS : |l - GS| ≤ ε * |GS|) (eo : |v - (L - l)| ≤ u * |L - l|) :
    |v - (sG - Gs)| ≤ (ε + 1.1 * (ν + u)) * (W + |Gs|) + 1.1 * ν * (Q + 1) := by
  have ν0 : 0 ≤ ν := by linarith
  have G0 : 0 ≤ |Gs| := abs_nonneg _
  have K0 : 0 ≤ ν * Q := mul_nonneg ν0 Q0
  obtain ⟨K, hK⟩ : ∃ K, K = 1.02 * ν * (Q + 1.03) := ⟨_, rfl⟩
  rw [← hK] at lc
  have Kp : 0 ≤ K := (abs_nonneg _).trans lc
  have εW1 := mul_le_mul_of_nonneg_right hε W0
  have εW : 0 ≤ ε * W := mul_nonneg hε0 W0
  have νW : 0 ≤ ν * W := mul_nonneg ν0 W0
  have νW1 := mul_le_mul_of_nonneg_right hν W0
  have V1 : V ≤ 1.01 * W := by norm_num at *; linarith
  have el' : |L - sl| ≤ 1.0302 * (ν * W) := by
    have a : (P - 1) * V ≤ 1.02 * ν * V := mul_le_mul_of_nonneg_right (by linarith) V0
    have b : 1.02 * ν * V ≤ 1.02 * ν * (1.01 * W) := mul_le_mul_of_nonneg_left V1 (by positivity)
    norm_num at *; linarith
  have GSb : |GS| ≤ |Gs| + K := by have := abs_sub_abs_le_abs_sub GS Gs; linarith
  have εGS := mul_le_mul_of_nonneg_left GSb hε0
  have eL : |L - sG| ≤ 1.0302 * (ν * W) + ε * W := by have := abs_sub_le L sl sG; linarith
  have el2 : |l - Gs| ≤ ε * |Gs| + ε * K + K := by have := abs_sub_le l GS Gs; linarith
  have εG := mul_le_mul_of_nonneg_right hε G0
  have εK := mul_le_mul_of_nonneg_right hε Kp
  have big : |L - l| ≤ 1.03 * (W + |Gs|) + 1.02 * K := by
    have a : |L - l| ≤ |L - sG| + |l - Gs| + |sG| + |Gs| := by
      have h1 : |(L - sG) - (l - Gs) + (sG - Gs)| ≤ |(L - sG) - (l - Gs)| + |sG - Gs| := abs_add_le _ _
      have h2 := abs_sub (L - sG) (l - Gs)
      have h3 := abs_sub sG Gs
      rw [show (L - sG) - (l - Gs) + (sG - Gs) = L - l by ring] at h1
      linarith
    norm_num at *
    have := abs_nonneg Gs
    linarith
  have ub := mul_le_mul_of_nonneg_left big u0.le
  have uK := mul_le_mul_of_nonneg_right u1 Kp
  have uW : 0 ≤ u * W := mul_nonneg u0.le W0
  have uG : 0 ≤ u * |Gs| := mul_nonneg u0.le G0
  have νG : 0 ≤ ν * |Gs| := mul_nonneg ν0 G0
  have tot : |v - (sG - Gs)| ≤ |v - (L - l)| + |L - sG| + |l - Gs| := by
    have h1 := abs_sub_le v (L - l) (sG - Gs)
    have h2 := abs_sub (L - sG) (l - Gs)
    rw [show (L - sG) - (l - Gs) = L - l - (sG - Gs) by ring] at h2
    linarith
  have KQ : 1.0202 * K ≤ 1.1 * (ν * Q) + 1.1 * ν := by rw [hK]; norm_num at *; linarith
  norm_num at *
  have := abs_nonneg Gs
  linarith

/-- C105: both implementations store, for a non-empty array, the same result (the rounded sum of the `lgamma`s minus the `lgamma` of the rounded sum), and nothing else is written. -/
theorem C105_paths (nan : ℝ) (size : Int) (m : Mem ℝ) (n : Nat) (q stride pout : Int) (hn : n ≠ 0) :
    logbetaR rd lgm nan size m n q stride pout =
      m.store pout (rd (((elems m q stride n).map lgm).foldl (fun a b => rd (a + b)) 0 - lgm ((elems m q stride n).foldl (fun a b => rd (a + b)) 0))) := by
  rw [logbetaR, C66_logbeta_paths, if_neg hn]

/-- C105: for positive numbers `x₁ … xₙ` of the format with sum `s` the result is within
`(ε + 1.1 (n+1) 2⁻ᵖ) (Σ |log Γ(xᵢ)| + |log Γ(s)|) + 1.1 n 2⁻ᵖ (s (2 + log(1 + 1.02 s)) + 1)` of `log B(x)`, where `ε` is the relative error of the
library `lgamma`: it is small compared with the terms, not with the result. -/
theorem C105_accuracy (h : Nearest p emin rd) (hp : 10 ≤ p) (he : emin ≤ 0) (hg : GoodLgamma p emin ε lgm) (hε0 : 0 ≤ ε) (hε : ε ≤ 1 / 100)
    (nan : ℝ) (size : Int) (m : Mem ℝ) (n : Nat) (q stride pout : Int) (hn : n ≠ 0) (hnu : (n : ℝ) * (2 ^ p)⁻¹ ≤ 1 / 100)
    (hf : ∀ a ∈ elems m q stride n, IsFloat p emin a) (hx : ∀ a ∈ elems m q stride n, 0 < a) :
    ∃ v, logbetaR rd lgm nan size m n q stride pout = m.store pout v ∧
      |v - log (betaFn (elems m q stride n))| ≤
        (ε + 1.1 * (n + 1) * (2 ^ p)⁻¹) * (((elems m q stride n).map fun a => |log (Gamma a)|).sum + |log (Gamma (elems m q stride n).sum)|) +
        1.1 * n * (2 ^ p)⁻¹ * ((elems m q stride n).sum * (2 + log (1 + 1.02 * (elems m q stride n).sum)) + 1) := by
  refine ⟨_, C105_paths nan size m n q stride pout hn, ?_⟩
  have hp1 : 1 ≤ p := by omega
  have hlen : (elems m q stride n).length = n := by simp [elems]
  generalize elems m q stride n = x at *
  have hne : x ≠ [] := by rintro rfl; exact hn hlen.symm
  have spos : 0 < x.sum := List.sum_pos _ hx hne
  rw [log_betaFn x hne hx, foldl_rsum]
  -- the sum of the arguments
  have es := Softmax.fsum_error h hp1 x (fun v hv => ⟨hf v hv, (hx v hv).le⟩) (by rw [hlen]; exact hnu)
  rw [Softmax.fsum, hlen] at es
  -- the sum of the logarithms
  have el := Corr.rsum_error h hp1 (x.map lgm) 0 isFloat_zero (by
    intro v hv
    obtain ⟨a, ha, rfl⟩ := List.mem_map.1 hv
    exact hg.float a (hf a ha) (hx a ha))
  rw [zero_add, abs_zero, zero_add, List.length_map, hlen] at el
  obtain ⟨g1, g2⟩ := sum_lgamma_error hg x hf hx
  have fL : IsFloat p emin (Corr.rsum rd 0 (x.map lgm)) := by
    have : ∀ l r, IsFloat p emin r → IsFloat p emin (Corr.rsum rd r l) := by
      intro l
      induction l with
      | nil => intro r hr; exact hr
      | cons a l ih => intro r _; exact ih _ (h _).1
    exact this _ _ isFloat_zero
  have fs : IsFloat p emin (x.foldl (fun a b => rd (a + b)) 0) := by
    rw [foldl_rsum]
    have : ∀ l r, IsFloat p emin r → IsFloat p emin (Corr.rsum rd r l) := by
      intro l
      induction l with
      | nil => intro r hr; exact hr
      | cons a l ih => intro r _; exact ih _ (h _).1
    exact this _ _ isFloat_zero
  have u0 : (0 : ℝ) < (2 ^ p)⁻¹ := by positivity
  have hb := Mad.pow_bound u0.le n hnu
  have u1 : ((2 : ℝ) ^ p)⁻¹ ≤ 1 / 100 := by
    have : (1 : ℝ) ≤ n := by exact_mod_cast Nat.one_le_iff_ne_zero.2 hn
    nlinarith
  have lc := lgamma_close spos (ρ := 1.02 * n * (2 ^ p)⁻¹) (by norm_num at *; linarith) es
  have Sp : 0 < x.foldl (fun a b => rd (a + b)) 0 := by
    have a := (abs_le.1 es).1
    have b : 1.02 * n * (2 ^ p)⁻¹ * x.sum ≤ 1 / 50 * x.sum := mul_le_mul_of_nonneg_right (by norm_num at *; linarith) spos.le
    linarith
  have eS := hg.error _ fs Sp
  have fS := hg.float _ fs Sp
  have eo := h.rel_error hp1 (fL.grid.sub fS.grid)
  have Q0 : 0 ≤ x.sum * (2 + log (1 + 1.02 * x.sum)) := by
    have : 0 ≤ log (1 + 1.02 * x.sum) := log_nonneg (by norm_num; linarith)
    exact mul_nonneg spos.le (by linarith)
  generalize lgm (x.foldl (fun a b => rd (a + b)) 0) = l at *
  generalize log (Gamma (x.foldl (fun a b => rd (a + b)) 0)) = GS at *
  generalize Corr.rsum rd 0 (x.map lgm) = L at *
  generalize log (Gamma x.sum) = Gs at *
  generalize x.sum * (2 + log (1 + 1.02 * x.sum)) = Q at *
  have W0 : 0 ≤ (x.map fun a => |log (Gamma a)|).sum := List.sum_nonneg (by
    intro v hv; obtain ⟨w, _, rfl⟩ := List.mem_map.1 hv; exact abs_nonneg _)
  have V0 : 0 ≤ ((x.map lgm).map abs).sum := List.sum_nonneg (by
    intro v hv; obtain ⟨w, _, rfl⟩ := List.mem_map.1 hv; exact abs_nonneg _)
  have SW : |(x.map fun a => log (Gamma a)).sum| ≤ (x.map fun a => |log (Gamma a)|).sum := by
    clear * -
    induction x with
    | nil => simp
    | cons a x ih => simp only [List.map_cons, List.sum_cons]; exact (abs_add_le _ _).trans (by linarith)
  generalize (x.map fun a => |log (Gamma a)|).sum = W at *
  generalize ((x.map lgm).map abs).sum = V at *
  generalize (x.map fun a => log (Gamma a)).sum = sG at *
  generalize (x.map lgm).sum = sl at *
  generalize rd (L - l) = v at *
  have n1 : (1 : ℝ) ≤ n := by exact_mod_cast Nat.one_le_iff_ne_zero.2 hn
  obtain ⟨ν, hν⟩ : ∃ ν, ν = (n : ℝ) * (2 ^ p)⁻¹ := ⟨_, rfl⟩
  have uν : (2 ^ p : ℝ)⁻¹ ≤ ν := by rw [hν]; exact le_mul_of_one_le_left u0.le n1
  rw [show 1.02 * (n : ℝ) * (2 ^ p)⁻¹ = 1.02 * ν by rw [hν]; ring] at lc hb
  rw [show 1.1 * ((n : ℝ) + 1) * (2 ^ p)⁻¹ = 1.1 * (ν + (2 ^ p)⁻¹) by rw [hν]; ring, show 1.1 * (n : ℝ) * (2 ^ p)⁻¹ = 1.1 * ν by rw [hν]; ring]
  rw [← hν] at hnu
  generalize (1 + (2 ^ p : ℝ)⁻¹) ^ n = P at *
  generalize (2 ^ p : ℝ)⁻¹ = u at *
  have ν0 : 0 ≤ ν := by linarith
  exact final_bound u0 u1 uν hnu hε0 hε hb W0 V0 Q0 SW g1 g2 el lc eS eo

/-- C105: the relative accuracy of the result is not bounded, whatever the library `lgamma`: in `double`, for `x = (2⁶⁰, 1)`, the result is
exactly `0` although `log B(x) = -60 log 2 < -41`. -/
theorem C105_relative_violated (h : Nearest 53 (-1074) rd) (hg : GoodLgamma 53 (-1074) ε lgm) (nan : ℝ) (m : Mem ℝ) (h0 : m 0 = 2 ^ 60) (h1 : m 8 = 1) :
    logbetaR rd lgm nan 8 m 2 0 8 16 16 = 0 ∧ log (betaFn (elems m 0 8 2)) = -(60 * log 2) ∧ log (betaFn (elems m 0 8 2)) < -41 := by
  have f60 : IsFloat 53 (-1074) ((2 : ℝ) ^ 60) := by
    have := isFloat_zpow (K := ℝ) (p := 53) (by norm_num) (emin := -1074) (e := 60) (by norm_num)
    exact_mod_cast this
  have f1 : IsFloat 53 (-1074) (1 : ℝ) := isFloat_one (by norm_num) (by norm_num)
  have el : elems m 0 8 2 = [2 ^ 60, 1] := by
    simp [elems, get, List.range_succ, h0, h1]
  have l1 : lgm 1 = 0 := by
    have := hg.error 1 f1 one_pos
    rw [Gamma_one, log_one, abs_zero, mul_zero, sub_zero] at this
    exact abs_eq_zero.1 (le_antisymm this (abs_nonneg _))
  have r60 : rd (2 ^ 60 + 1) = 2 ^ 60 := by
    obtain ⟨ff, fn⟩ := h (2 ^ 60 + 1)
    have k := fn _ f60
    generalize rd (2 ^ 60 + 1) = f at *
    have k' : |f - (2 ^ 60 + 1)| ≤ 1 := by refine k.trans ?_; norm_num
    obtain ⟨k1, k2⟩ := abs_le.1 k'
    have big : (2 : ℝ) ^ 53 * 2 ^ (6 : ℤ) ≤ |f| := by
      refine le_trans ?_ (le_abs_self f)
      norm_num at k1 ⊢; linarith
    obtain ⟨n, hn⟩ := ff.big_grid big
    rw [hn] at k1 k2 ⊢
    norm_num at k1 k2 ⊢
    have g1 : (2 ^ 53 - 1 : ℝ) < n := by norm_num; linarith
    have g2 : (n : ℝ) < 2 ^ 53 + 1 := by norm_num; linarith
    have : n = 2 ^ 53 := by
      have g1' : (2 ^ 53 - 1 : ℤ) < n := by exact_mod_cast g1
      have g2' : n < (2 ^ 53 + 1 : ℤ) := by exact_mod_cast g2
      omega
    rw [this]; norm_num
  have lb : log (betaFn (elems m 0 8 2)) = -(60 * log 2) := by
    rw [el, log_betaFn _ (by simp) (by intro a ha; simp at ha; rcases ha with rfl | rfl <;> norm_num)]
    simp only [List.map_cons, List.map_nil, List.sum_cons, List.sum_nil, Gamma_one, log_one, add_zero]
    rw [lgamma_succ (by positivity), log_pow]
    push_cast; ring
  refine ⟨?_, lb, ?_⟩
  · rw [C105_paths _ _ _ _ _ _ _ (by norm_num), el]
    simp only [List.map_cons, List.map_nil, List.foldl_cons, List.foldl_nil, zero_add, l1, add_zero, h.exact f60, r60]
    rw [h.exact (hg.float _ f60 (by positivity)), h.exact (hg.float _ f60 (by positivity)), sub_self, h.exact isFloat_zero]
    simp [Mem.store]
  · rw [lb]
    have := log_two_gt_d9
    linarith

/-! ### A correctly rounded `lgamma` is admissible -/

theorem log_four_pi : 1 / 8 ≤ -(2 * (log (√π) - log 2)) := by
  rw [log_sqrt pi_pos.le]
  have a : log π ≤ log 3.15 := log_le_log pi_pos (by have := pi_lt_d2; linarith)
  have b : log (3.15 : ℝ) = log (4 * (1 - 17 / 80)) := by norm_num
  rw [log_mul (by norm_num) (by norm_num), show (4 : ℝ) = 2 ^ 2 by norm_num, log_pow] at b
  have c := log_le_sub_one_of_pos (show (0 : ℝ) < 1 - 17 / 80 by norm_num)
  push_cast at b
  linarith

theorem lgamma_three_half : log (Gamma (3 / 2)) = log (√π) - log 2 := by
  have := lgamma_succ (x := 1 / 2) (by norm_num)
  rw [Gamma_one_half_eq, show (1 : ℝ) / 2 + 1 = 3 / 2 by norm_num, show log (1 / 2 : ℝ) = -log 2 by rw [one_div, log_inv]] at this
  linarith

/-- `log Γ` vanishes only at `1` and `2`, and there it crosses with a slope. -/
theorem lgamma_lower {a : ℝ} (ha : 0 < a) : 1 / 8 * min |a - 1| |a - 2| ≤ |log (Gamma a)| := by
  have cv := convexOn_log_Gamma
  have f4 := log_four_pi
  have f3 := lgamma_three_half
  have g1 : log (Gamma 1) = 0 := by rw [Gamma_one, log_one]
  have g2 : log (Gamma 2) = 0 := by rw [Gamma_two, log_one]
  have m1 : min |a - 1| |a - 2| ≤ |a - 1| := min_le_left _ _
  have m2 : min |a - 1| |a - 2| ≤ |a - 2| := min_le_right _ _
  have key : ∀ {x y z : ℝ}, 0 < x → x < y → y < z →
      (log (Gamma y) - log (Gamma x)) * (z - y) ≤ (log (Gamma z) - log (Gamma y)) * (y - x) := by
    intro x y z hx hxy hyz
    have s := cv.slope_mono_adjacent (x := x) (y := y) (z := z) (Set.mem_Ioi.2 hx) (Set.mem_Ioi.2 (by linarith)) hxy hyz
    simp only [Function.comp] at s
    rw [div_le_div_iff₀ (by linarith) (by linarith)] at s
    exact s
  have m0 : min |a - 1| |a - 2| = 0 ∨ a ≠ 1 ∧ a ≠ 2 := by
    by_cases h1 : a = 1
    · left; rw [h1]; simp
    by_cases h2 : a = 2
    · left; rw [h2]; simp
    exact .inr ⟨h1, h2⟩
  generalize min |a - 1| |a - 2| = M at *
  rcases m0 with m0 | ⟨n1, n2⟩
  · rw [m0, mul_zero]; exact abs_nonneg _
  rcases lt_or_gt_of_ne n1 with o | o
  · have k := key ha o (show (1 : ℝ) < 3 / 2 by norm_num)
    rw [g1, f3] at k
    rw [abs_of_neg (by linarith)] at m1
    refine le_trans ?_ (le_abs_self _)
    nlinarith
  rcases lt_trichotomy a (3 / 2) with o2 | o2 | o2
  · have k := key one_pos o o2
    rw [g1, f3] at k
    rw [abs_of_pos (by linarith)] at m1
    refine le_trans ?_ (neg_le_abs _)
    nlinarith
  · refine le_trans ?_ (neg_le_abs _)
    rw [abs_of_pos (by linarith)] at m1
    rw [o2, f3]
    linarith
  rcases lt_or_gt_of_ne n2 with o3 | o3
  · have k := key (show (0 : ℝ) < 3 / 2 by norm_num) o2 o3
    rw [g2, f3] at k
    rw [abs_of_neg (by linarith : a - 2 < 0)] at m2
    refine le_trans ?_ (neg_le_abs _)
    nlinarith
  · have k := key (show (0 : ℝ) < 3 / 2 by norm_num) (show (3 / 2 : ℝ) < 2 by norm_num) o3
    rw [g2, f3] at k
    rw [abs_of_pos (by linarith : 0 < a - 2)] at m2
    refine le_trans ?_ (le_abs_self _)
    nlinarith

theorem float_gap (hp : 1 ≤ p) {a : ℝ} (hf : IsFloat p emin a) (ha : 0 < a) (c : ℕ) (hc : 1 ≤ c) (h1 : a ≠ c) : (2 ^ p : ℝ)⁻¹ ≤ |a - c| := by
  have hcr : (1 : ℝ) ≤ c := by exact_mod_cast hc
  have hu : (2 ^ p : ℝ)⁻¹ ≤ 1 / 2 := by
    rw [one_div]; refine inv_anti₀ (by norm_num) ?_
    calc (2 : ℝ) = 2 ^ 1 := by norm_num
      _ ≤ 2 ^ p := pow_le_pow_right₀ (by norm_num) hp
  rcases le_or_gt (1 / 2) a with hb | hb
  · have hg : OnGrid (-(p : ℤ)) a := by
      have := hf.big_grid (k := -(p : ℤ) - 1) (by
        rw [abs_of_pos ha, zpow_sub₀ (by norm_num), zpow_neg, zpow_natCast, zpow_one, mul_div_assoc', mul_inv_cancel₀ (by positivity)]; exact hb)
      simpa using this
    obtain ⟨n, hn⟩ := hg
    rw [zpow_neg, zpow_natCast] at hn
    have e3 : a - c = ((n - c * 2 ^ p : ℤ) : ℝ) * (2 ^ p)⁻¹ := by
      push_cast; rw [sub_mul, mul_assoc, mul_inv_cancel₀ (by positivity), mul_one, hn]
    have hz : n - c * 2 ^ p ≠ 0 := by
      intro h0; rw [h0] at e3; simp at e3; exact h1 (by linarith)
    have h2 : (1 : ℝ) ≤ |((n - c * 2 ^ p : ℤ) : ℝ)| := by
      rw [← Int.cast_abs]; exact_mod_cast Int.one_le_abs hz
    rw [e3, abs_mul, abs_of_pos (by positivity : (0 : ℝ) < (2 ^ p)⁻¹)]
    exact le_mul_of_one_le_left (by positivity) h2
  · rw [abs_of_neg (by linarith)]; linarith

/-- The correctly rounded `lgamma` has relative error at most `2⁻ᵖ`: the hypothesis of `C105_accuracy` can be met. -/
theorem goodLgamma_round (h : Nearest p emin rd) (hp : 1 ≤ p) (he : emin ≤ -(2 * p) - 3) : GoodLgamma p emin (2 ^ p)⁻¹ (fun a => rd (log (Gamma a))) where
  float _ _ _ := (h _).1
  error a hf ha := by
    by_cases h1 : a = 1
    · subst h1; rw [Gamma_one, log_one, h.exact isFloat_zero]; simp
    by_cases h2 : a = 2
    · subst h2; rw [Gamma_two, log_one, h.exact isFloat_zero]; simp
    apply TriArea.rel_normal h hp
    have a1 := float_gap hp hf ha 1 le_rfl (by simpa using h1)
    have a2 := float_gap hp hf ha 2 (by norm_num) (by simpa using h2)
    push_cast at a1 a2
    have b := lgamma_lower ha
    have c : (2 ^ p : ℝ)⁻¹ ≤ min |a - 1| |a - 2| := le_min a1 a2
    have d : (2 : ℝ) ^ p * 2 ^ emin ≤ 1 / 8 * (2 ^ p)⁻¹ := by
      have : (2 : ℝ) ^ emin ≤ 2 ^ (-(2 * p : ℤ) - 3) := zpow_le_zpow_right₀ (by norm_num) he
      calc (2 : ℝ) ^ p * 2 ^ emin ≤ 2 ^ p * 2 ^ (-(2 * p : ℤ) - 3) := mul_le_mul_of_nonneg_left this (by positivity)
        _ = 1 / 8 * (2 ^ p)⁻¹ := by
          rw [zpow_sub₀ (by norm_num), zpow_neg, zpow_mul]
          norm_num
          field_simp
          rw [← pow_mul, mul_comm, pow_mul]; norm_num
    linarith

example : ∃ rd : ℝ → ℝ, Nearest 53 (-1074) rd ∧ GoodLgamma 53 (-1074) (2 ^ 53)⁻¹ (fun a => rd (log (Gamma a))) := by
  obtain ⟨rd, h⟩ := exists_nearest (K := ℝ) (p := 53) (by norm_num) (-1074)
  exact ⟨rd, h, goodLgamma_round h (by norm_num) (by norm_num)⟩

end Ufunclab.Logbeta
