import Verif.Model.MeansWRound
import Verif.Props.MeansRound
import Verif.Props.PmeanRound
import Mathlib.Analysis.Complex.ExponentialBounds
/-!
# C93: hmeanw and gmeanw in floating point

`rd` rounds to the type of the data, of the weights and of the result (`p` bits, `u = 2^-p`).
-/
namespace Ufunclab.Means
open Ufunclab.Float Ufunclab.Corr MeansSpec
variable {p : ℕ} {emin : ℤ} {rd lg ex : ℝ → ℝ} {ε : ℝ}

set_option quotPrecheck false
/-- A finite weighted vector as the functions receive it. -/
local notation "W " l => List.map (fun a : ℝ × ℝ => (XF.fin a.1, XF.fin a.2)) l

theorem hmeanwSumR_exact (x : List (XF ℝ × XF ℝ)) : ∀ sw s, hmeanwSumR (rnd id) sw s x = hmeanwSum sw s x := by
  induction x with
  | nil => intro sw s; rfl
  | cons v x ih => intro sw s; simp only [hmeanwSumR, hmeanwSum, rnd_id, ih]

theorem gmeanwLoopR_exact (x : List (XF ℝ × XF ℝ)) : ∀ k s, gmeanwLoopR (rnd id) Real.log k s x = gmeanwLoop k s x := by
  induction x with
  | nil => intro k s; rfl
  | cons v x ih => intro k s; simp only [gmeanwLoopR, gmeanwLoop, rnd_id, xlogR_exact, ih]

theorem logSumsWR_exact (x : List (XF ℝ × XF ℝ)) : ∀ sw s q, logSumsWR (rnd id) Real.log sw s q x = logSumsW sw s q x := by
  induction x with
  | nil => intro sw s q; rfl
  | cons v x ih => intro sw s q; simp only [logSumsWR, logSumsW, rnd_id, xlogR_exact, ih]

theorem powSumWR_exact (sc q : XF ℝ) (x : List (XF ℝ × XF ℝ)) : ∀ sw s, powSumWR (rnd id) (xpowR fun a r => a ^ r) sc q sw s x = powSumW sc q sw s x := by
  induction x with
  | nil => intro sw s; rfl
  | cons v x ih => intro sw s; simp only [powSumWR, powSumW, rnd_id, xpowR_exact, ih]

/-- C93: without rounding and with the exact functions the code is the one of C65. -/
theorem C93_exact_arithmetic (x : List (XF ℝ × XF ℝ)) (q : XF ℝ) :
    hmeanw1dR (rnd id) x = hmeanw1d x ∧ gmeanw1dR (rnd id) Real.log (xexpR Real.exp) x = gmeanw1d x ∧
      pmeanw1dR (rnd id) Real.log (xexpR Real.exp) (xpowR fun a r => a ^ r) x q = pmeanw1d x q := by
  have h1 : hmeanw1dR (rnd id) x = hmeanw1d x := by simp only [hmeanw1dR, hmeanw1d, rnd_id, hmeanwSumR_exact]
  have h2 : gmeanw1dR (rnd id) Real.log (xexpR Real.exp) x = gmeanw1d x := by
    simp only [gmeanw1dR, gmeanw1d, gmeanwFinishR, gmeanwFinish, rnd_id, xexpR_exact, gmeanwLoopR_exact]
  refine ⟨h1, h2, ?_⟩
  simp only [pmeanw1dR, pmeanw1d, h1, h2, rnd_id, logSumsWR_exact, powSumWR_exact, xpowR_exact]
  rfl

/-! ### Quotients of two sums -/

theorem quot_error {A A' B B' Λ a a0 b : ℝ} (hA : |A' - A| ≤ a * Λ + a0) (hAL : |A| ≤ Λ) (hB0 : 0 < B) (hB : |B' - B| ≤ b * B) (hb : b ≤ 0.02) :
    0 < B' ∧ |A' / B' - A / B| ≤ 1.03 * ((a + b) * (Λ / B) + a0 / B) := by
  have hbB : b * B ≤ 0.02 * B := mul_le_mul_of_nonneg_right hb hB0.le
  have hB' : 0.98 * B ≤ B' := by have := (abs_le.1 hB).1; norm_num at *; linarith
  have hB'0 : 0 < B' := lt_of_lt_of_le (by positivity) hB'
  refine ⟨hB'0, ?_⟩
  have e : A' / B' - A / B = ((A' - A) - A / B * (B' - B)) / B' := by field_simp; ring
  have hb0 : 0 ≤ b := by by_contra hh; have := (abs_nonneg _).trans hB; nlinarith
  have h2 : |A / B * (B' - B)| ≤ b * Λ := by
    rw [abs_mul, abs_div, abs_of_pos hB0]
    calc |A| / B * |B' - B| ≤ Λ / B * (b * B) := mul_le_mul (div_le_div_of_nonneg_right hAL hB0.le) hB (abs_nonneg _) (div_nonneg ((abs_nonneg _).trans hAL) hB0.le)
      _ = b * Λ := by field_simp
  have h3 : |(A' - A) - A / B * (B' - B)| ≤ (a + b) * Λ + a0 := by
    calc _ ≤ |A' - A| + |A / B * (B' - B)| := abs_sub _ _
      _ ≤ _ := by linarith
  have h30 := (abs_nonneg _).trans h3
  rw [e, abs_div, abs_of_pos hB'0, div_le_iff₀ hB'0]
  refine h3.trans ?_
  have e2 : (a + b) * (Λ / B) + a0 / B = ((a + b) * Λ + a0) / B := by ring
  rw [e2]
  generalize (a + b) * Λ + a0 = z at *
  have : 1.03 * (z / B) * (0.98 * B) ≤ 1.03 * (z / B) * B' := mul_le_mul_of_nonneg_left hB' (by positivity)
  have e3 : 1.03 * (z / B) * (0.98 * B) = 1.0094 * z := by field_simp; ring
  norm_num at *; linarith

theorem weight_sum_error (h : Nearest p emin rd) (hp : 1 ≤ p) (l : List (ℝ × ℝ)) (hw : ∀ v ∈ l, 0 ≤ v.2) (hf : ∀ v ∈ l, IsFloat p emin v.2)
    (hn : (l.length : ℝ) * (2 ^ p)⁻¹ ≤ 1 / 100) :
    |rsum rd 0 (l.map Prod.snd) - (l.map Prod.snd).sum| ≤ 1.02 * (l.length * (2 ^ p)⁻¹) * (l.map Prod.snd).sum := by
  have t := rsum_terms_list h hp l Prod.snd Prod.snd hf (a := 0) (b := 0) (fun v _ => by simp)
  rw [mul_zero, mul_zero, add_zero, add_zero, mul_one] at t
  have e : (l.map fun v => |v.2|).sum = (l.map Prod.snd).sum := by
    congr 1; apply List.map_congr_left; intro v hv; exact abs_of_nonneg (hw v hv)
  rw [e] at t
  refine t.trans (mul_le_mul_of_nonneg_right ?_ (List.sum_nonneg (by intro y hy; obtain ⟨v, hv, rfl⟩ := List.mem_map.1 hy; exact hw v hv)))
  have := Mad.pow_bound (u := ((2 : ℝ) ^ p)⁻¹) (by positivity) l.length hn
  linarith

/-! ### hmeanw -/

theorem hmeanwSumR_fin (l : List (ℝ × ℝ)) (hx : ∀ v ∈ l, v.1 ≠ 0) : ∀ a b, hmeanwSumR (rnd rd) (.fin a) (.fin b) (W l) =
    (.fin (rsum rd a (l.map Prod.snd)), .fin (rsum rd b (l.map fun v => rd (v.2 / v.1)))) := by
  induction l with
  | nil => intro a b; rfl
  | cons v l ih =>
    intro a b
    have hv := hx v (by simp)
    simp only [List.map_cons, hmeanwSumR, XF.eq_fin, hv, decide_false, Bool.false_eq_true, if_false, XF.div_fin _ _ hv, rnd_fin, XF.add_fin, rsum]
    exact ih (fun b hb => hx b (by simp [hb])) _ _

/-- C93: hmeanw of positive numbers with weights that are not negative: the relative error is at
most `2.2 (n+1) 2^-p`, plus half a least subnormal.  The quotients `w/x` must not underflow. -/
theorem C93_hmeanw_accuracy (h : Nearest p emin rd) (hp : 10 ≤ p) (l : List (ℝ × ℝ)) (hn : 200 * ((l.length : ℝ) + 1) ≤ 2 ^ p)
    (hw : Weights l) (hwf : ∀ v ∈ l, IsFloat p emin v.2) (hx : ∀ v ∈ l, 0 < v.1) (hnorm : ∀ v ∈ l, v.2 = 0 ∨ 2 ^ p * 2 ^ emin ≤ v.2 / v.1) :
    ∃ r, hmeanw1dR (rnd rd) (W l) = .fin r ∧ 0 ≤ r ∧ |r - harmW l| ≤ 2.2 * (l.length + 1) * (2 ^ p)⁻¹ * harmW l + 2 ^ emin / 2 := by
  have hu0 : (0 : ℝ) < (2 ^ p)⁻¹ := by positivity
  have hu := Mad.unit_le_thousandth (K := ℝ) hp
  have hnu : ((l.length : ℝ) + 1) * (2 ^ p)⁻¹ ≤ 1 / 200 := by rw [← div_eq_mul_inv, div_le_iff₀ (by positivity)]; linarith
  have hq0 : ∀ v ∈ l, 0 ≤ v.2 / v.1 := fun v hv => div_nonneg (hw.1 v hv) (hx v hv).le
  have hS0 : 0 < (l.map fun v => v.2 / v.1).sum := by
    have hd := sum_mul_pos l (fun a => 1 / a) hw.1 (fun v hv => one_div_pos.2 (hx v hv)) hw.2
    have e : (l.map fun v => v.2 * (1 / v.1)) = l.map fun v => v.2 / v.1 := List.map_congr_left fun v _ => by rw [mul_one_div]
    rwa [e] at hd
  have t1 := weight_sum_error h (by omega) l hw.1 hwf (by linarith)
  have t2 := rsum_terms_list h (by omega) l (fun v => rd (v.2 / v.1)) (fun v => v.2 / v.1) (fun v _ => (h _).1) (a := (2 ^ p)⁻¹) (b := 0) (by
    intro v hv
    rw [add_zero]
    rcases hnorm v hv with k | k
    · rw [k, zero_div, h.round_zero]; simp
    · exact TriArea.rel_normal h (by omega) (by rw [abs_of_nonneg (hq0 v hv)]; exact k))
  have e1 : (l.map fun v => |v.2 / v.1|).sum = (l.map fun v => v.2 / v.1).sum := by
    congr 1; apply List.map_congr_left; intro v hv; exact abs_of_nonneg (hq0 v hv)
  rw [mul_zero, mul_zero, add_zero, e1, ← pow_succ] at t2
  have hpu := Mad.pow_bound (u := ((2 : ℝ) ^ p)⁻¹) hu0.le (l.length + 1) (by push_cast; linarith)
  have hform : hmeanw1dR (rnd rd) (W l) = rnd rd (XF.div (.fin (rsum rd 0 (l.map Prod.snd))) (.fin (rsum rd 0 (l.map fun v => rd (v.2 / v.1))))) := by
    rw [hmeanw1dR, hmeanwSumR_fin l (fun v hv => (hx v hv).ne')]
  have hW := hw.2
  have herr := fun z => h.error (by omega : 1 ≤ p) z
  have hrn : ∀ z, 0 ≤ z → 0 ≤ rd z := fun z hz => h.mono_float isFloat_zero hz
  have hH : harmW l = (l.map Prod.snd).sum / (l.map fun v => v.2 / v.1).sum := rfl
  rw [hform, hH]
  generalize rsum rd 0 (l.map Prod.snd) = A' at *
  generalize rsum rd 0 (l.map fun v => rd (v.2 / v.1)) = B' at *
  generalize (l.map Prod.snd).sum = A at *
  generalize (l.map fun v => v.2 / v.1).sum = B at *
  push_cast at hpu
  clear hform hH hnorm hwf hx hw e1 hq0 hn
  have t3 : |B' - B| ≤ 1.02 * ((l.length + 1) * (2 ^ p)⁻¹) * B := t2.trans (mul_le_mul_of_nonneg_right (by linarith) hS0.le)
  obtain ⟨hB', t4⟩ := quot_error (a0 := 0) (Λ := A) (by rw [add_zero]; exact t1) (abs_of_pos hW).le hS0 t3 (by clear * - hnu; norm_num at *; linarith)
  rw [XF.div_fin _ _ hB'.ne', rnd_fin]
  have hA' : 0 ≤ A' := by
    have := (abs_le.1 t1).1
    have k : 1.02 * (l.length * (2 ^ p)⁻¹) * A ≤ 0.01 * A := by
      apply mul_le_mul_of_nonneg_right _ hW.le
      clear * - hnu hu0
      generalize ((2 : ℝ) ^ p)⁻¹ = u at *
      norm_num at *; linarith
    clear * - this k hW
    norm_num at *; linarith
  refine ⟨_, rfl, hrn _ (div_nonneg hA' hB'.le), ?_⟩
  have t5 := herr (A' / B')
  rw [abs_of_nonneg (div_nonneg hA' hB'.le)] at t5
  rw [zero_div, add_zero] at t4
  have hH0 : 0 ≤ A / B := by positivity
  generalize A' / B' = m at *
  generalize A / B = H at *
  generalize rd m = r at *
  clear t1 t2 t3 hpu herr hrn
  have hmH := (abs_le.1 t4).2
  have hx0 : 0 ≤ (l.length + 1) * ((2 : ℝ) ^ p)⁻¹ := by positivity
  have e5 : 2.2 * (l.length + 1) * (2 ^ p)⁻¹ * H = 2.2 * ((l.length + 1) * (2 ^ p)⁻¹) * H := by ring
  have e6 : (l.length : ℝ) * (2 ^ p)⁻¹ = (l.length + 1) * (2 ^ p)⁻¹ - (2 ^ p)⁻¹ := by ring
  rw [e5]
  rw [e6] at t4 hmH
  generalize (l.length + 1) * ((2 : ℝ) ^ p)⁻¹ = X at *
  generalize ((2 : ℝ) ^ p)⁻¹ = u at *
  have k1 : m ≤ 1.03 * H := by
    have : (1.02 * (X - u) + 1.02 * X) * H ≤ 0.0102 * H := by
      apply mul_le_mul_of_nonneg_right _ hH0; norm_num at *; linarith
    norm_num at *; linarith
  have k2 := mul_le_mul_of_nonneg_left k1 hu0.le
  have k3 : 0 ≤ u * H := by positivity
  have k4 : 0 ≤ X * H := by positivity
  calc |r - H| = |(r - m) + (m - H)| := by congr 1; ring
    _ ≤ _ := abs_add_le _ _
    _ ≤ _ := by norm_num at *; linarith

/-! ### gmeanw -/

theorem gmeanwLoopR_pos (l : List (ℝ × ℝ)) (k : Nat) (s : GState) (a b : ℝ) (h : ∀ v ∈ l, 0 < v.1) (hs : s.sumlog = .fin a) (hw : s.sumw = .fin b) :
    ∃ (B : Bool) (Q : XF ℝ), gmeanwLoopR (rnd rd) lg k s (W l) =
        { s with allSame := B, prev := Q, sumlog := .fin (rsum rd a (l.map fun v => rd (v.2 * lg v.1))), sumw := .fin (rsum rd b (l.map Prod.snd)) } ∧
      (B = true ↔ s.allSame = true ∧ (∀ v ∈ l, Q = .fin v.1) ∧ (k ≠ 0 → l ≠ [] → Q = s.prev)) ∧ Q = (l.map fun v => XF.fin v.1).getLastD s.prev := by
  induction l generalizing k s a b with
  | nil => exact ⟨s.allSame, s.prev, by simp [gmeanwLoopR, ← hs, ← hw, rsum], by simp, by simp⟩
  | cons v l ih =>
    obtain ⟨x, w⟩ := v
    have hx : 0 < x := h (x, w) (by simp)
    have hl : xlogR lg (.fin x) = .fin (lg x) := by simp [xlogR, hx.not_gt, hx.ne']
    have e : gmeanwLoopR (rnd rd) lg k s (W ((x, w) :: l)) = gmeanwLoopR (rnd rd) lg (k + 1) (GState.mk s.hasZero s.hasNeg s.hasNan s.hasInf
        (s.allSame && XF.eq (if k = 0 then .fin x else s.prev) (.fin x)) (.fin x) (.fin (rd (a + rd (w * lg x)))) (.fin (rd (b + w)))) (W l) := by
      rw [List.map_cons]
      simp only [gmeanwLoopR, hs, hw, hl, XF.add_fin, XF.mul_fin, rnd_fin]
      generalize (if k = 0 then XF.fin x else s.prev) = pv
      simp [XF.isnan, XF.isinf, hx.ne', hx.le]
    generalize hpv : (if k = 0 then XF.fin x else s.prev) = pv at e
    obtain ⟨B, Q, h1, h2, h3⟩ := ih (k + 1) (GState.mk s.hasZero s.hasNeg s.hasNan s.hasInf
        (s.allSame && XF.eq pv (.fin x)) (.fin x) (.fin (rd (a + rd (w * lg x)))) (.fin (rd (b + w)))) (rd (a + rd (w * lg x))) (rd (b + w))
        (fun v hv => h v (by simp [hv])) rfl rfl
    refine ⟨B, Q, ?_, ?_, by rw [List.map_cons, List.getLastD_cons]; exact h3⟩
    · rw [e, h1]; simp [rsum]
    · have hpx : XF.eq pv (.fin x) = true ↔ pv = .fin x := by cases pv <;> simp [XF.eq]
      rw [h2]
      simp only [Bool.and_eq_true, hpx]
      constructor
      · rintro ⟨⟨g1, g2⟩, g3, g4⟩
        have g5 : Q = .fin x := by
          by_cases hl : l = []
          · rw [h3, hl]; rfl
          · exact g4 (by omega) hl
        refine ⟨g1, ?_, fun hk _ => ?_⟩
        · intro v hv
          rcases List.mem_cons.1 hv with rfl | hv
          · exact g5
          · exact g3 v hv
        · rw [if_neg hk] at hpv; rw [g5, hpv, g2]
      · rintro ⟨g1, g2, g3⟩
        have g5 : Q = .fin x := g2 (x, w) (by simp)
        refine ⟨⟨g1, ?_⟩, fun v hv => g2 v (by simp [hv]), fun _ _ => g5⟩
        by_cases hk : k = 0
        · rw [← hpv, if_pos hk]
        · rw [← hpv, if_neg hk, ← g3 hk (by simp), g5]

/-- C93: the weighted geometric mean of equal numbers is that number, whatever the library and
the weights. -/
theorem C93_gmeanw_equal (l : List (ℝ × ℝ)) (a : ℝ) (ha : 0 < a) (hne : l ≠ []) (hx : ∀ v ∈ l, v.1 = a) : gmeanw1dR (rnd rd) lg (xexpR ex) (W l) = .fin a := by
  obtain ⟨B, Q, h1, h2, h3⟩ := gmeanwLoopR_pos (rd := rd) (lg := lg) l 0 {} 0 0 (by intro v hv; rw [hx v hv]; exact ha) rfl rfl
  have hQ : Q = .fin a := by
    rw [h3, List.getLastD_eq_getLast?, List.getLast?_map, List.getLast?_eq_getLast_of_ne_nil hne]
    show XF.fin (l.getLast hne).1 = _
    rw [hx _ (List.getLast_mem hne)]
  have hB : B = true := h2.2 ⟨rfl, fun v hv => by rw [hQ, hx v hv], by simp⟩
  rw [gmeanw1dR, h1, gmeanwFinishR]
  simp [hB, hQ]

/-- A weight times the computed logarithm of a number of the format does not underflow when the weight is
not tiny. -/
theorem wlog_error (h : Nearest p emin rd) (hp : 10 ≤ p) (he : emin ≤ -p) (hε0 : 0 ≤ ε) (hε : ε ≤ 1 / 2000)
    (hl : GoodLog p emin ε lg) {x w : ℝ} (hx : 0 < x) (hxf : IsFloat p emin x) (hw : w = 0 ∨ 2 ^ (emin + 2 * p + 2) ≤ w) :
    |rd (w * lg x) - w * Real.log x| ≤ (1.001 * (2 ^ p)⁻¹ + ε) * |w * Real.log x| := by
  rcases hw with rfl | hw
  · simp [h.round_zero]
  have hw0 : 0 < w := lt_of_lt_of_le (by positivity) hw
  have e := hl.error x hxf hx
  have hu0 : (0 : ℝ) < (2 ^ p)⁻¹ := by positivity
  by_cases h1 : x = 1
  · subst h1
    rw [Real.log_one, abs_zero, mul_zero, sub_zero] at e
    rw [abs_nonpos_iff.1 e]; simp [h.round_zero]
  have hll := log_lower (by omega : 1 ≤ p) he hxf hx h1
  have hlg : (1 - ε) * |Real.log x| ≤ |lg x| := by
    have : |Real.log x| ≤ |lg x - Real.log x| + |lg x| := by
      calc |Real.log x| = |lg x - (lg x - Real.log x)| := by congr 1; ring
        _ ≤ |lg x| + |lg x - Real.log x| := abs_sub _ _
        _ = _ := add_comm _ _
    linarith
  have hlg2 : |lg x| ≤ (1 + ε) * |Real.log x| := by
    have : |lg x| ≤ |lg x - Real.log x| + |Real.log x| := by
      calc |lg x| = |(lg x - Real.log x) + Real.log x| := by congr 1; ring
        _ ≤ _ := abs_add_le _ _
    linarith
  have hlg3 : (2 : ℝ) ^ (-(p : ℤ) - 2) ≤ |lg x| := by
    refine le_trans ?_ hlg
    have e1 : (2 : ℝ) ^ (-(p : ℤ) - 2) = 1 / 2 * 2 ^ (-(p : ℤ) - 1) := by
      rw [show -(p : ℤ) - 1 = (-(p : ℤ) - 2) + 1 by ring, zpow_add₀ (by norm_num), zpow_one]; ring
    rw [e1]
    exact mul_le_mul (by linarith) hll (by positivity) (by linarith)
  have hnorm : (2 : ℝ) ^ p * 2 ^ emin ≤ |w * lg x| := by
    rw [abs_mul, abs_of_pos hw0]
    calc (2 : ℝ) ^ p * 2 ^ emin = 2 ^ (emin + 2 * p + 2) * 2 ^ (-(p : ℤ) - 2) := by
          rw [pow_zpow, ← zpow_add₀ (by norm_num)]; congr 1; ring
      _ ≤ w * |lg x| := mul_le_mul hw hlg3 (by positivity) hw0.le
  have e2 := TriArea.rel_normal h (by omega) hnorm
  rw [abs_mul, abs_of_pos hw0] at e2
  rw [abs_mul, abs_of_pos hw0]
  have e3 : |w * lg x - w * Real.log x| ≤ w * (ε * |Real.log x|) := by
    rw [← mul_sub, abs_mul, abs_of_pos hw0]; exact mul_le_mul_of_nonneg_left e hw0.le
  have e4 : (2 ^ p)⁻¹ * (w * |lg x|) ≤ (2 ^ p)⁻¹ * (w * ((1 + ε) * |Real.log x|)) :=
    mul_le_mul_of_nonneg_left (mul_le_mul_of_nonneg_left hlg2 hw0.le) hu0.le
  have e5 : ε * ((2 ^ p)⁻¹ * (w * |Real.log x|)) ≤ 1 / 2000 * ((2 ^ p)⁻¹ * (w * |Real.log x|)) := mul_le_mul_of_nonneg_right hε (by positivity)
  have e6 : 0 ≤ (2 ^ p)⁻¹ * (w * |Real.log x|) := by positivity
  clear * - e2 e3 e4 e5 e6
  calc |rd (w * lg x) - w * Real.log x| = |(rd (w * lg x) - w * lg x) + (w * lg x - w * Real.log x)| := by congr 1; ring
    _ ≤ _ := abs_add_le _ _
    _ ≤ (2 ^ p)⁻¹ * (w * |lg x|) + w * (ε * |Real.log x|) := by linarith
    _ ≤ _ := by
      generalize ((2 : ℝ) ^ p)⁻¹ = u at *
      generalize |Real.log x| = z at *
      norm_num at *; nlinarith

theorem abs_sum_map_le' {T : Type _} (x : List T) (f : T → ℝ) : |(x.map f).sum| ≤ (x.map fun a => |f a|).sum := by
  induction x with
  | nil => simp
  | cons a x ih => simp only [List.map_cons, List.sum_cons]; exact (abs_add_le _ _).trans (by linarith)

/-- C93: gmeanw of positive numbers with weights that are 0 or not tiny.  With `L` the weighted mean of
the magnitudes of the logarithms, the relative error is at most `1.1 (2.1 (n+2) 2^-p + 1.1 ε) L + 1.21 ε`,
up to underflow of the result. -/
theorem C93_gmeanw_accuracy (h : Nearest p emin rd) (hp : 10 ≤ p) (he : (p : ℤ) + emin ≤ 0) (hε0 : 0 ≤ ε) (hε : ε ≤ 1 / 2000)
    (hl : GoodLog p emin ε lg) (hexp : GoodExp emin ε ex) (l : List (ℝ × ℝ)) (hn : 300 * ((l.length : ℝ) + 1) ≤ 2 ^ p)
    (hw : Weights l) (hwf : ∀ v ∈ l, IsFloat p emin v.2) (hwn : ∀ v ∈ l, v.2 = 0 ∨ 2 ^ (emin + 2 * p + 2) ≤ v.2)
    (hx : ∀ v ∈ l, 0 < v.1) (hxf : ∀ v ∈ l, IsFloat p emin v.1) {L : ℝ} (hL : L = avg l fun a => |Real.log a|)
    (hb : (2.1 * (l.length + 2) * (2 ^ p)⁻¹ + 1.1 * ε) * L ≤ 1 / 50) :
    ∃ r, gmeanw1dR (rnd rd) lg (xexpR ex) (W l) = .fin r ∧ 0 ≤ r ∧
      |r - geoW l| ≤ (1.1 * (2.1 * (l.length + 2) * (2 ^ p)⁻¹ + 1.1 * ε) * L + 1.21 * ε + 2 ^ emin) * geoW l + 2 ^ emin := by
  obtain ⟨B, Q, h1, h2, -⟩ := gmeanwLoopR_pos (rd := rd) (lg := lg) l 0 {} 0 0 hx rfl rfl
  have hne : l ≠ [] := by rintro rfl; exact absurd hw.2 (by simp)
  have hη : (0 : ℝ) < 2 ^ emin := by positivity
  have hu0 : (0 : ℝ) < (2 ^ p)⁻¹ := by positivity
  have hW := hw.2
  have habs : ∀ v ∈ l, |v.2 * Real.log v.1| = v.2 * |Real.log v.1| := fun v hv => by rw [abs_mul, abs_of_nonneg (hw.1 v hv)]
  have eabs : (l.map fun v => |v.2 * Real.log v.1|).sum = (l.map fun v => v.2 * |Real.log v.1|).sum := by
    congr 1; exact List.map_congr_left habs
  have hΛ0 : 0 ≤ (l.map fun v => v.2 * |Real.log v.1|).sum := List.sum_nonneg (by
    intro y hy; obtain ⟨v, hv, rfl⟩ := List.mem_map.1 hy; exact mul_nonneg (hw.1 v hv) (abs_nonneg _))
  have hL0 : 0 ≤ L := by rw [hL]; exact div_nonneg hΛ0 hW.le
  have hG : 0 < geoW l := Real.exp_pos _
  by_cases hB : B = true
  · obtain ⟨-, g2, -⟩ := h2.1 hB
    obtain ⟨v, hv⟩ := List.exists_mem_of_ne_nil l hne
    have hall : ∀ a ∈ l, a.1 = v.1 := fun a ha => by
      have : XF.fin a.1 = XF.fin v.1 := by rw [← g2 a ha, g2 v hv]
      exact XF.fin.inj this
    have hgeo : geoW l = v.1 := by
      have e : (l.map fun a => a.2 * Real.log a.1) = l.map fun a => a.2 * Real.log v.1 := List.map_congr_left fun a ha => by rw [hall a ha]
      have e2 : (l.map fun a => a.2 * Real.log v.1).sum = (l.map Prod.snd).sum * Real.log v.1 := List.sum_map_mul_right ..
      rw [geoW, e, e2, mul_div_assoc, mul_comm, div_mul_cancel₀ _ hW.ne', Real.exp_log (hx v hv)]
    refine ⟨v.1, C93_gmeanw_equal l v.1 (hx v hv) hne hall, (hx v hv).le, ?_⟩
    rw [hgeo, sub_self, abs_zero]
    have := hx v hv
    positivity
  · have hu := Mad.unit_le_thousandth (K := ℝ) hp
    have hηu : (2 : ℝ) ^ emin ≤ (2 ^ p)⁻¹ := by
      rw [← zpow_natCast, ← zpow_neg]; exact zpow_le_zpow_right₀ (by norm_num) (by omega)
    have hnu : ((l.length : ℝ) + 1) * (2 ^ p)⁻¹ ≤ 1 / 300 := by rw [← div_eq_mul_inv, div_le_iff₀ (by positivity)]; linarith
    have t0 := weight_sum_error h (by omega) l hw.1 hwf (by linarith)
    have t1 := rsum_terms_list h (by omega) l (fun v => rd (v.2 * lg v.1)) (fun v => v.2 * Real.log v.1) (fun v _ => (h _).1)
      (a := 1.001 * (2 ^ p)⁻¹ + ε) (b := 0)
      (fun v hv => by rw [add_zero]; exact wlog_error h hp (by omega) hε0 hε hl (hx v hv) (hxf v hv) (hwn v hv))
    rw [mul_zero, mul_zero, add_zero, eabs] at t1
    have hpu := Mad.pow_bound (u := ((2 : ℝ) ^ p)⁻¹) hu0.le l.length (by linarith)
    have hAL := abs_sum_map_le' l fun v => v.2 * Real.log v.1
    rw [eabs] at hAL
    have hgeo : geoW l = Real.exp ((l.map fun a => a.2 * Real.log a.1).sum / (l.map Prod.snd).sum) := rfl
    have hL' : L = (l.map fun v => v.2 * |Real.log v.1|).sum / (l.map Prod.snd).sum := hL
    rw [hgeo, gmeanw1dR, h1, gmeanwFinishR]
    have herr := fun z => h.error (by omega : 1 ≤ p) z
    clear hL h1 h2 hgeo eabs habs hx hxf hwn hwf hw hG
    generalize rsum rd 0 (l.map fun v => rd (v.2 * lg v.1)) = A' at *
    generalize rsum rd 0 (l.map Prod.snd) = B' at *
    generalize (l.map fun a => a.2 * Real.log a.1).sum = A at *
    generalize (l.map Prod.snd).sum = D at *
    generalize (l.map fun v => v.2 * |Real.log v.1|).sum = Λ at *
    obtain ⟨a, ha⟩ : ∃ a : ℝ, a = 1.02 * (l.length * (2 ^ p)⁻¹) + 1.012 * (2 ^ p)⁻¹ + 1.0102 * ε := ⟨_, rfl⟩
    have t2 : |A' - A| ≤ a * Λ + 0 := by
      rw [add_zero]
      refine t1.trans (mul_le_mul_of_nonneg_right ?_ hΛ0)
      have k := mul_le_mul_of_nonneg_right hpu (by positivity : 0 ≤ 1 + (1.001 * (2 ^ p)⁻¹ + ε))
      have k2 : (l.length * (2 ^ p)⁻¹) * (1.001 * (2 ^ p)⁻¹ + ε) ≤ 1 / 300 * (1.001 * (2 ^ p)⁻¹ + ε) := mul_le_mul_of_nonneg_right (by linarith) (by positivity)
      rw [ha]
      clear * - k k2 hu0 hε0
      generalize (1 + ((2 : ℝ) ^ p)⁻¹) ^ l.length = P at *
      rw [mul_assoc 1.02] at k
      generalize ((2 : ℝ) ^ p)⁻¹ = u at *
      generalize (l.length : ℝ) * u = X at *
      norm_num at *; linarith
    obtain ⟨hB', t4⟩ := quot_error t2 hAL hW t0 (by
      clear * - hnu hu0
      generalize ((2 : ℝ) ^ p)⁻¹ = u at *
      norm_num at *; linarith)
    have t5 := herr (A' / B')
    have t6 := hexp.error (rd (A' / B'))
    have hform : (if (false || false || (false && false)) = true then XF.nan else if false = true then .pinf else if false = true then .fin 0
        else if B = true then Q else if XF.eq (.fin B') (.fin 0) = true then .nan else xexpR ex (rnd rd (XF.div (.fin A') (.fin B')))) = XF.fin (ex (rd (A' / B'))) := by
      simp only [Bool.or_self, Bool.and_self, Bool.false_eq_true, if_false, if_neg hB, XF.eq_fin, hB'.ne', decide_false, XF.div_fin _ _ hB'.ne']
      rfl
    refine ⟨_, hform, hexp.nonneg _, ?_⟩
    have hML : |A / D| ≤ L := by rw [abs_div, abs_of_pos hW, hL']; exact div_le_div_of_nonneg_right hAL hW.le
    rw [zero_div, add_zero, ← hL'] at t4
    have t7 : |A' / B' - A / D| ≤ (1.02 * ((2.1 * (l.length + 2) - 1) * (2 ^ p)⁻¹) + 1.02 * (1.1 * ε)) * L := by
      refine t4.trans ?_
      rw [← mul_assoc]
      apply mul_le_mul_of_nonneg_right _ hL0
      rw [ha]
      have : 0 ≤ (l.length : ℝ) * (2 ^ p)⁻¹ := by positivity
      have e1 : (2.1 * ((l.length : ℝ) + 2) - 1) * (2 ^ p)⁻¹ = 2.1 * (l.length * (2 ^ p)⁻¹) + 3.2 * (2 ^ p)⁻¹ := by ring
      rw [e1]
      clear * - this hu0 hε0
      generalize (l.length : ℝ) * (2 ^ p)⁻¹ = X at *
      generalize ((2 : ℝ) ^ p)⁻¹ = u at *
      norm_num at *; linarith
    have := gmean_finish (n := 2.1 * (l.length + 2) - 1) (ε := 1.1 * ε) hu0.le (by
        have e1 : (2.1 * ((l.length : ℝ) + 2) - 1) * (2 ^ p)⁻¹ = 2.1 * ((l.length + 1) * (2 ^ p)⁻¹) + 1.1 * (2 ^ p)⁻¹ := by ring
        rw [e1]
        clear * - hnu hu
        norm_num at *; linarith) (by positivity) (by norm_num at *; linarith) hη (by linarith) hL0 (by rw [sub_add_cancel]; exact hb) hML t7 t5 (t6.trans (by
        have := mul_nonneg hε0 (Real.exp_pos (rd (A' / B'))).le
        norm_num at *; linarith))
    rw [sub_add_cancel] at this
    refine this.trans (le_of_eq ?_)
    ring

/-! ### What does not hold -/

theorem hmeanw_one (h : Nearest 53 (-1074) rd) {x w s : ℝ} (hx : x ≠ 0) (hw : IsFloat 53 (-1074) w) (hs : rd (w / x) = s) (h0 : s ≠ 0) :
    hmeanw1dR (rnd rd) [(.fin x, .fin w)] = .fin (rd (w / s)) := by
  have e := hmeanwSumR_fin (rd := rd) [(x, w)] (by simpa using hx) 0 0
  simp only [List.map_cons, List.map_nil, rsum, zero_add, h.exact hw, h.exact (h _).1] at e
  rw [hmeanw1dR, e, hs]
  show rnd rd (XF.div (.fin w) (.fin s)) = _
  rw [XF.div_fin _ _ h0, rnd_fin]

/-- C93: the weighted harmonic mean of a single number need not be that number, although C65 shows
that it is in exact arithmetic, and a factor of the weights matters: with weight 9 the mean of 7 is
below 7, with weight 17 it is above 7. -/
theorem C93_hmeanw_equal_violated (h : Nearest 53 (-1074) rd) :
    hmeanw1dR (rnd rd) [(.fin 7, .fin 9)] = .fin (7 - 2 ^ (-50 : ℤ)) ∧ hmeanw1dR (rnd rd) [(.fin 7, .fin 17)] = .fin (7 + 2 ^ (-50 : ℤ)) := by
  constructor
  · rw [hmeanw_one h (s := (5790342378047781 : ℤ) * 2 ^ ((-53 : ℤ) + 1)) (by norm_num) ⟨9, 0, by norm_num, by norm_num, by norm_num⟩
      (h.pin (by norm_num) _ _ (by norm_num) (by norm_num) (by norm_num [abs_of_pos]) (by norm_num [abs_lt])) (by positivity)]
    congr 1
    rw [h.pin (by norm_num) 7881299347898367 (-51) (by norm_num) (by norm_num) (by norm_num [abs_of_pos]) (by norm_num [abs_lt])]
    norm_num
  · rw [hmeanw_one h (s := (5468656690378459 : ℤ) * 2 ^ ((-52 : ℤ) + 1)) (by norm_num) ⟨17, 0, by norm_num, by norm_num, by norm_num⟩
      (h.pin (by norm_num) _ _ (by norm_num) (by norm_num) (by norm_num [abs_of_pos]) (by norm_num [abs_lt])) (by positivity)]
    congr 1
    rw [h.pin (by norm_num) 7881299347898369 (-51) (by norm_num) (by norm_num) (by norm_num [abs_of_pos]) (by norm_num [abs_lt])]
    norm_num

/-- A value near the least positive number rounds to it. -/
theorem round_least (h : Nearest p emin rd) (hp : 1 ≤ p) {t : ℝ} (h1 : 1 / 2 < t) (h2 : t < 3 / 2) : rd (2 ^ emin * t) = 2 ^ emin := by
  have hη : (0 : ℝ) < 2 ^ emin := by positivity
  obtain ⟨n, hn⟩ := (h (2 ^ emin * t)).1.grid
  have e := (h (2 ^ emin * t)).2 _ (isFloat_zpow hp le_rfl)
  rw [hn] at e ⊢
  rw [show (n : ℝ) * 2 ^ emin - 2 ^ emin * t = 2 ^ emin * (n - t) by ring, show (2 : ℝ) ^ emin - 2 ^ emin * t = 2 ^ emin * (1 - t) by ring, abs_mul, abs_mul,
    abs_of_pos hη] at e
  have e2 := le_of_mul_le_mul_left e hη
  have e3 : |1 - t| < 1 / 2 := by rw [abs_lt]; constructor <;> linarith
  have e4 := abs_lt.1 (lt_of_le_of_lt e2 e3)
  have n1 : (0 : ℝ) < n := by linarith
  have n2 : (n : ℝ) < 2 := by linarith
  have n3 : n = 1 := by
    have a : 0 < n := by exact_mod_cast n1
    have b : n < 2 := by exact_mod_cast n2
    omega
  rw [n3]; simp

/-- C93: a factor of the weights matters also for gmeanw.  With both weights equal to the least positive
double the mean of 2 and 9/4 exceeds both, by 20 percent of the larger. -/
theorem C93_gmeanw_tiny_weights_violated (h : Nearest 53 (-1074) rd) (hε : ε ≤ 1 / 100) (hl : GoodLog 53 (-1074) ε lg)
    (hexp : GoodExp (-1074) ε ex) :
    ∃ r, gmeanw1dR (rnd rd) lg (xexpR ex) [(.fin 2, .fin (2 ^ (-1074 : ℤ))), (.fin (9 / 4), .fin (2 ^ (-1074 : ℤ)))] = .fin r ∧ 1.15 * (9 / 4) ≤ r := by
  obtain ⟨B, Q, h1, h2, -⟩ := gmeanwLoopR_pos (rd := rd) (lg := lg) [(2, 2 ^ (-1074 : ℤ)), (9 / 4, 2 ^ (-1074 : ℤ))] 0 {} 0 0 (by simp) rfl rfl
  have hB : ¬ B = true := by
    intro hB
    obtain ⟨-, g2, -⟩ := h2.1 hB
    have a := g2 (2, 2 ^ (-1074 : ℤ)) (by simp)
    have b := g2 (9 / 4, 2 ^ (-1074 : ℤ)) (by simp)
    rw [a] at b
    have := XF.fin.inj b
    norm_num at this
  have fη : IsFloat 53 (-1074) ((2 : ℝ) ^ (-1074 : ℤ)) := isFloat_zpow (by norm_num) le_rfl
  have f2 : IsFloat 53 (-1074) ((2 : ℝ) ^ (-1074 : ℤ) + 2 ^ (-1074 : ℤ)) := by rw [← two_mul]; exact fη.two_mul
  have a1 := Real.log_two_gt_d9
  have a2 := Real.log_two_lt_d9
  have b1 : Real.log (9 / 4) = Real.log 2 + Real.log (9 / 8) := by rw [← Real.log_mul (by norm_num) (by norm_num)]; norm_num
  have b2 : 0 < Real.log (9 / 8) := Real.log_pos (by norm_num)
  have b3 : Real.log (9 / 8) ≤ 1 / 8 := (Real.log_le_sub_one_of_pos (by norm_num)).trans (by norm_num)
  have e1 := hl.error 2 ⟨2, 0, by norm_num, by norm_num, by norm_num⟩ (by norm_num)
  have e2 := hl.error (9 / 4) ⟨9, -2, by norm_num, by norm_num, by norm_num⟩ (by norm_num)
  rw [abs_of_pos (by linarith : 0 < Real.log 2)] at e1
  rw [abs_of_pos (by linarith : 0 < Real.log (9 / 4))] at e2
  have c1 : ε * Real.log 2 ≤ 1 / 100 * Real.log 2 := mul_le_mul_of_nonneg_right hε (by linarith)
  have c2 : ε * Real.log (9 / 4) ≤ 1 / 100 * Real.log (9 / 4) := mul_le_mul_of_nonneg_right hε (by linarith)
  have d1 := abs_le.1 (e1.trans c1)
  have d2 := abs_le.1 (e2.trans c2)
  have r1 : rd (2 ^ (-1074 : ℤ) * lg 2) = 2 ^ (-1074 : ℤ) := round_least h (by norm_num) (by linarith) (by linarith)
  have r2 : rd (2 ^ (-1074 : ℤ) * lg (9 / 4)) = 2 ^ (-1074 : ℤ) := round_least h (by norm_num) (by linarith) (by linarith)
  have hη : (0 : ℝ) < 2 ^ (-1074 : ℤ) := by positivity
  have hη1 : (2 : ℝ) ^ (-1074 : ℤ) ≤ 2 ^ (-10 : ℤ) := zpow_le_zpow_right₀ (by norm_num) (by norm_num)
  have r3 : rd 1 = 1 := h.exact ⟨1, 0, by norm_num, by norm_num, by norm_num⟩
  have hone := hexp.error 1
  simp only [List.map_cons, List.map_nil, rsum, zero_add, r1, r2, h.exact fη, h.exact f2] at h1
  generalize (2 : ℝ) ^ (-1074 : ℤ) = η at *
  refine ⟨ex 1, ?_, ?_⟩
  · rw [gmeanw1dR, h1, gmeanwFinishR]
    have : η + η ≠ 0 := by positivity
    simp only [Bool.or_self, Bool.and_self, Bool.false_eq_true, if_false, if_neg hB, XF.eq_fin, this, decide_false, XF.div_fin _ _ this, div_self this, rnd_fin, r3]
    rfl
  · have g1 := Real.exp_one_gt_d9
    have c3 : ε * Real.exp 1 ≤ 1 / 100 * Real.exp 1 := mul_le_mul_of_nonneg_right hε (by positivity)
    have := (abs_le.1 hone).1
    norm_num at *; linarith

/-! ### Non-vacuity -/

/-- The harmonic mean of 1 and 4 with weights 3 and 2 is 10/7 up to `1e-14`. -/
example (h : Nearest 53 (-1074) rd) :
    ∃ r, hmeanw1dR (rnd rd) [(.fin 1, .fin 3), (.fin 4, .fin 2)] = .fin r ∧ |r - 10 / 7| ≤ 1 / 10 ^ 14 := by
  have hlow : (2 : ℝ) ^ 53 * 2 ^ (-1074 : ℤ) ≤ 1 / 2 := by
    rw [pow_zpow, show (1 / 2 : ℝ) = 2 ^ (-1 : ℤ) by norm_num]; exact zpow_le_zpow_right₀ (by norm_num) (by norm_num)
  obtain ⟨r, e, -, hr⟩ := C93_hmeanw_accuracy h (by norm_num) [(1, 3), (4, 2)] (by norm_num) ⟨by simp, by norm_num⟩
    (by
      simp only [List.mem_cons, List.not_mem_nil, or_false]
      rintro a (rfl | rfl)
      · exact ⟨3, 0, by norm_num, by norm_num, by norm_num⟩
      · exact ⟨2, 0, by norm_num, by norm_num, by norm_num⟩)
    (by simp)
    (by
      simp only [List.mem_cons, List.not_mem_nil, or_false]
      rintro a (rfl | rfl)
      · exact .inr (hlow.trans (by norm_num))
      · exact .inr (hlow.trans (by norm_num)))
  refine ⟨r, e, ?_⟩
  have hh : harmW [(1, 3), (4, 2)] = 10 / 7 := by rw [harmW]; norm_num
  have hη : (2 : ℝ) ^ (-1074 : ℤ) ≤ 2 ^ (-60 : ℤ) := zpow_le_zpow_right₀ (by norm_num) (by norm_num)
  rw [hh] at hr
  refine hr.trans ?_
  generalize (2 : ℝ) ^ (-1074 : ℤ) = η at *
  norm_num at *; linarith

/-- The geometric mean of 1 and 4 with weights 3 and 3 is 2 up to `1e-14`. -/
example (h : Nearest 53 (-1074) rd) : ∃ r, gmeanw1dR (rnd rd) (fun a => rd (Real.log a)) (xexpR fun y => rd (Real.exp y)) [(.fin 1, .fin 3), (.fin 4, .fin 3)] = .fin r ∧
    |r - 2| ≤ 1 / 10 ^ 14 := by
  have hl4 : Real.log 4 ≤ 3 := (Real.log_le_sub_one_of_pos (by norm_num)).trans (by norm_num)
  have hl0 : 0 ≤ Real.log 4 := Real.log_nonneg (by norm_num)
  have hlow : (2 : ℝ) ^ (-1074 + 2 * ((53 : ℕ) : ℤ) + 2) ≤ 3 := (zpow_le_one_of_nonpos₀ (by norm_num) (by norm_num)).trans (by norm_num)
  obtain ⟨r, e, -, hr⟩ := C93_gmeanw_accuracy h (by norm_num) (by norm_num) (by positivity) (by norm_num) (goodLog_round h (by norm_num) (by norm_num))
    (goodExp_round h (by norm_num)) [(1, 3), (4, 3)] (by norm_num) ⟨by simp, by norm_num⟩
    (by
      simp only [List.mem_cons, List.not_mem_nil, or_false]
      rintro a (rfl | rfl) <;> exact ⟨3, 0, by norm_num, by norm_num, by norm_num⟩)
    (by
      simp only [List.mem_cons, List.not_mem_nil, or_false]
      rintro a (rfl | rfl) <;> exact .inr hlow)
    (by simp)
    (by
      simp only [List.mem_cons, List.not_mem_nil, or_false]
      rintro a (rfl | rfl)
      · exact ⟨1, 0, by norm_num, by norm_num, by norm_num⟩
      · exact ⟨4, 0, by norm_num, by norm_num, by norm_num⟩) (L := Real.log 4 / 2)
    (by simp [avg, abs_of_nonneg hl0]; ring) (by norm_num; linarith)
  refine ⟨r, e, ?_⟩
  have hg : geoW [(1, 3), (4, 3)] = 2 := by
    rw [geoW]
    simp only [List.map_cons, List.map_nil, Real.log_one, List.sum_cons, List.sum_nil]
    rw [show (4 : ℝ) = 2 ^ 2 by norm_num, Real.log_pow, show (3 * 0 + (3 * ((2 : ℕ) * Real.log 2) + 0)) / (3 + (3 + 0)) = Real.log 2 by push_cast; ring]
    exact Real.exp_log (by norm_num)
  have hη : (2 : ℝ) ^ (-1074 : ℤ) ≤ 2 ^ (-60 : ℤ) := zpow_le_zpow_right₀ (by norm_num) (by norm_num)
  have hη0 : (0 : ℝ) < 2 ^ (-1074 : ℤ) := by positivity
  rw [hg] at hr
  refine hr.trans ?_
  clear hr e hlow
  generalize (2 : ℝ) ^ (-1074 : ℤ) = η at *
  norm_num at *; linarith

end Ufunclab.Means
