import Verif.Proof.Loggamma1pSmall
/-! # Rounding errors of Lanczos's formula -/
namespace Ufunclab.Loggamma1p
open Ufunclab.Debye1 Ufunclab.PolyPos Real

noncomputable section

theorem log_rel {a b δ : ℝ} (hb : 0 < b) (hδ : δ ≤ 1 / 100) (h : |a - b| ≤ δ * b) : 0 < a ∧ |log a - log b| ≤ 1.02 * δ := by
  have hab := abs_le.1 h
  have hδ0 : 0 ≤ δ := by
    by_contra hc
    have : δ * b < 0 := mul_neg_of_neg_of_pos (not_le.1 hc) hb
    linarith [abs_nonneg (a - b)]
  have hδb : δ * b ≤ 1 / 100 * b := mul_le_mul_of_nonneg_right hδ hb.le
  have ha : 0 < a := by linarith
  refine ⟨ha, ?_⟩
  have h1 : log a - log b ≤ δ := by
    rw [← log_div ha.ne' hb.ne']
    have := log_le_sub_one_of_pos (div_pos ha hb)
    have : a / b - 1 ≤ δ := by
      rw [sub_le_iff_le_add, div_le_iff₀ hb]; linarith
    linarith
  have h2 : log b - log a ≤ 1.02 * δ := by
    rw [← log_div hb.ne' ha.ne']
    have := log_le_sub_one_of_pos (div_pos hb ha)
    have : b / a - 1 ≤ 1.02 * δ := by
      rw [sub_le_iff_le_add, div_le_iff₀ ha]
      have h3 : 0.99 * b ≤ a := by norm_num; linarith
      have h4 : δ * (0.99 * b) ≤ δ * a := mul_le_mul_of_nonneg_left h3 hδ0
      have h5 : 0 ≤ δ * b := by positivity
      norm_num at h4 ⊢; nlinarith
    linarith
  rw [abs_le]; constructor <;> norm_num at h2 ⊢ <;> linarith

/-- The accuracy of the C library's logarithm. -/
def LogAcc (ε : ℝ) (lg : ℝ → ℝ) : Prop := ∀ z, 0 < z → |lg z - log z| ≤ ε * |log z|

variable {u η ε : ℝ} {rd lg : ℝ → ℝ}

set_option maxHeartbeats 1600000 in
theorem big_round (A : Arith u η rd) (hlg : LogAcc ε lg) (hε0 : 0 ≤ ε) (hε : ε ≤ 1 / 1000) {t : ℝ} (ht : 1 / 10 ^ 21 ≤ t) :
    ∃ r p, rd (lg (lanczosSum rd t) - rd (lit lanczosG)) = r ∧
      rd (rd (t - 1 / 2) * rd (lg (rd (rd (t + rd (lit lanczosG)) - 1 / 2)) - 1)) = p ∧
      |r - (log (S t) - gR)| ≤ ε * |log (S t)| + u * (1.001 * |log (S t)| + 67.7) ∧
      |p - (t - 1 / 2) * (log (t + gR - 1 / 2) - 1)| ≤ ε * (|t - 1 / 2| * log (t + gR - 1 / 2)) +
        u * (|t - 1 / 2| * (3.04 * log (t + gR - 1 / 2) + 3.42)) + 0.3 * u ∧
      |rd (r + p) - Lam t| ≤
      ε * (1.01 * |log (S t)| + 1 + 1.1 * (|t - 1 / 2| * log (t + gR - 1 / 2))) +
      u * (2.1 * |log (S t)| + 80 + |t - 1 / 2| * (5 * log (t + gR - 1 / 2) + 4)) := by
  have ht0 : 0 < t := lt_of_lt_of_le (by norm_num) ht
  have hS := lanczosSum_rel A ht
  have hS0 := S_pos ht0
  obtain ⟨h, hz, hu0, hu, hη, hη'⟩ := A
  obtain ⟨g1, g2⟩ := gR_bounds
  rw [gR_eq]
  have eL : Lam t = log (S t) - gR + (t - 1 / 2) * (log (t + gR - 1 / 2) - 1) := rfl
  rw [eL]
  have hηu : η ≤ 1 / 10 ^ 60 * u := by norm_num at hη' ⊢; linarith
  have hu3 : u ≤ 1 / 1000 := by norm_num at hu ⊢; linarith
  have huu : u * u ≤ 1 / 10 ^ 15 * u := mul_le_mul_of_nonneg_right hu hu0
  -- the sum
  obtain ⟨hSp, s1⟩ := log_rel hS0 (by norm_num at hu ⊢; linarith) hS
  have s2 := hlg _ hSp
  set Sh := lanczosSum rd t
  set L := log (S t) with hL
  have s3 : |log Sh| ≤ |L| + 56 * u := by
    calc |log Sh| = |(log Sh - L) + L| := by congr 1; ring
      _ ≤ _ := abs_add_le _ _
      _ ≤ _ := by norm_num at s1 ⊢; linarith
  have s4 : ε * |log Sh| ≤ ε * (|L| + 56 * u) := mul_le_mul_of_nonneg_left s3 hε0
  have hεu : ε * u ≤ 1 / 1000 * u := mul_le_mul_of_nonneg_right hε hu0
  have hL0 := abs_nonneg L
  have hεL : ε * |L| ≤ 1 / 1000 * |L| := mul_le_mul_of_nonneg_right hε hL0
  have s5 : |lg Sh - L| ≤ ε * |L| + 55.3 * u := by
    calc |lg Sh - L| = |(lg Sh - log Sh) + (log Sh - L)| := by congr 1; ring
      _ ≤ _ := abs_add_le _ _
      _ ≤ _ := by norm_num at s1 hεu ⊢; linarith
  have s6 : |lg Sh| ≤ 1.001 * |L| + 0.1 := by
    calc |lg Sh| = |(lg Sh - L) + L| := by congr 1; ring
      _ ≤ _ := abs_add_le _ _
      _ ≤ _ := by norm_num at s5 hεL hu3 hu ⊢; linarith
  -- minus g
  have hg := h gR
  rw [abs_of_pos (show (0 : ℝ) < gR by norm_num at g1; linarith)] at hg
  have hug : u * gR ≤ u * 6.03 := mul_le_mul_of_nonneg_left g2.le hu0
  have hg' : |rd gR - gR| ≤ 6.04 * u := by norm_num at hug hηu ⊢; linarith
  have hgm : |rd gR| ≤ 6.1 := by
    calc |rd gR| = |(rd gR - gR) + gR| := by congr 1; ring
      _ ≤ _ := abs_add_le _ _
      _ ≤ _ := by rw [abs_of_pos (show (0 : ℝ) < gR by norm_num at g1; linarith)]; norm_num at hg' g2 hu3 ⊢; linarith
  have r1 := h (lg Sh - rd gR)
  have r2 : |lg Sh - rd gR| ≤ 1.001 * |L| + 6.2 := (abs_sub _ _).trans (by norm_num at s6 hgm ⊢; linarith)
  have r3 : u * |lg Sh - rd gR| ≤ u * (1.001 * |L| + 6.2) := mul_le_mul_of_nonneg_left r2 hu0
  have huL : 0 ≤ u * |L| := by positivity
  set r := rd (lg Sh - rd gR) with hr
  have r4 : |r - (L - gR)| ≤ ε * |L| + u * (1.001 * |L| + 67.7) := by
    have e : r - (L - gR) = (r - (lg Sh - rd gR)) + (lg Sh - L) + -(rd gR - gR) := by ring
    rw [e]
    refine ((abs_add_le _ _).trans (add_le_add (abs_add_le _ _) le_rfl)).trans ?_
    rw [abs_neg]
    norm_num at r1 r3 s5 hg' hηu ⊢; linarith
  have r5 : |r| ≤ 1.01 * |L| + 6.2 := by
    calc |r| = |(r - (L - gR)) + L + -gR| := by congr 1; ring
      _ ≤ |r - (L - gR)| + |L| + |-gR| := (abs_add_le _ _).trans (add_le_add (abs_add_le _ _) le_rfl)
      _ ≤ _ := by
        rw [abs_neg, abs_of_pos (show (0 : ℝ) < gR by norm_num at g1; linarith)]
        have : u * |L| ≤ 1 / 1000 * |L| := mul_le_mul_of_nonneg_right hu3 hL0
        norm_num at r4 hεL hu this g2 ⊢; linarith
  -- the second logarithm
  set w := t + gR - 1 / 2 with hw
  have hw5 : 5.52 < w := by norm_num at g1 ⊢; linarith
  have hw0 : 0 < w := by norm_num at hw5; linarith
  have hl17 : 1.6 ≤ log w := by
    rw [le_log_iff_exp_le hw0]
    have e1 : exp 1.6 = exp 1 * exp 0.6 := by rw [← exp_add]; norm_num
    have e2 := exp_one_lt_d9
    have e3 : exp 0.6 ≤ 1.825 := by
      have := Real.exp_bound' (x := 0.6) (by norm_num) (by norm_num) (n := 5) (by norm_num)
      refine this.trans ?_
      norm_num [Finset.sum_range_succ, Nat.factorial]
    rw [e1]
    have := mul_le_mul e2.le e3 (exp_pos _).le (by norm_num)
    norm_num at this hw5 ⊢; linarith
  set l := log w with hl
  have htg : t + gR ≤ 1.1 * w := by norm_num at g1 ⊢; linarith
  have htg0 : 0 < t + gR := by norm_num at g1; linarith
  have b1 := h (t + rd gR)
  have b0 : |t + rd gR| ≤ 1.01 * (t + gR) := by
    calc |t + rd gR| = |(t + gR) + (rd gR - gR)| := by congr 1; ring
      _ ≤ _ := abs_add_le _ _
      _ ≤ _ := by rw [abs_of_pos htg0]; norm_num at hg' hu3 g1 ⊢; linarith
  have b2 : u * |t + rd gR| ≤ u * (1.01 * (t + gR)) := mul_le_mul_of_nonneg_left b0 hu0
  have huw : u * (t + gR) ≤ 1.1 * (u * w) := by
    calc u * (t + gR) ≤ u * (1.1 * w) := mul_le_mul_of_nonneg_left htg hu0
      _ = _ := by ring
  have huw5 : u * 5.52 ≤ u * w := mul_le_mul_of_nonneg_left hw5.le hu0
  have b3 : |rd (t + rd gR) - (t + gR)| ≤ 2.25 * (u * w) := by
    calc |rd (t + rd gR) - (t + gR)| = |(rd (t + rd gR) - (t + rd gR)) + (rd gR - gR)| := by congr 1; ring
      _ ≤ _ := abs_add_le _ _
      _ ≤ _ := by norm_num at b1 b2 huw hg' hηu huw5 ⊢; linarith
  have huw3 : u * w ≤ 1 / 1000 * w := mul_le_mul_of_nonneg_right hu3 hw0.le
  have b4 := h (rd (t + rd gR) - 1 / 2)
  have b5 : |rd (t + rd gR) - 1 / 2| ≤ 1.01 * w := by
    calc |rd (t + rd gR) - 1 / 2| = |(rd (t + rd gR) - (t + gR)) + w| := by rw [hw]; congr 1; ring
      _ ≤ _ := abs_add_le _ _
      _ ≤ _ := by rw [abs_of_pos hw0]; norm_num at b3 huw3 ⊢; linarith
  have b6 : u * |rd (t + rd gR) - 1 / 2| ≤ u * (1.01 * w) := mul_le_mul_of_nonneg_left b5 hu0
  have b7 : |rd (rd (t + rd gR) - 1 / 2) - w| ≤ 3.3 * u * w := by
    calc |rd (rd (t + rd gR) - 1 / 2) - w| = |(rd (rd (t + rd gR) - 1 / 2) - (rd (t + rd gR) - 1 / 2)) + (rd (t + rd gR) - (t + gR))| := by
          rw [hw]; congr 1; ring
      _ ≤ _ := abs_add_le _ _
      _ ≤ _ := by norm_num at b4 b6 b3 hηu huw5 ⊢; linarith
  obtain ⟨hbp, b8⟩ := log_rel hw0 (by norm_num at hu ⊢; linarith) b7
  have b9 := hlg _ hbp
  set wh := rd (rd (t + rd gR) - 1 / 2)
  have hl0 : 0 < l := by norm_num at hl17; linarith
  have b10 : |log wh| ≤ l + 3.4 * u := by
    calc |log wh| = |(log wh - l) + l| := by congr 1; ring
      _ ≤ _ := abs_add_le _ _
      _ ≤ _ := by rw [abs_of_pos hl0]; norm_num at b8 ⊢; linarith
  have b11 : ε * |log wh| ≤ ε * (l + 3.4 * u) := mul_le_mul_of_nonneg_left b10 hε0
  have c1 : |lg wh - l| ≤ ε * l + 3.4 * u := by
    calc |lg wh - l| = |(lg wh - log wh) + (log wh - l)| := by congr 1; ring
      _ ≤ _ := abs_add_le _ _
      _ ≤ _ := by norm_num at b8 b9 b11 hεu ⊢; linarith
  have hεl : ε * l ≤ 1 / 1000 * l := mul_le_mul_of_nonneg_right hε hl0.le
  have hul : u * l ≤ 1 / 1000 * l := mul_le_mul_of_nonneg_right hu3 hl0.le
  have hul0 : 0 ≤ u * l := by positivity
  have hεl0 : 0 ≤ ε * l := by positivity
  have c2 : |lg wh - 1| ≤ 1.01 * l := by
    calc |lg wh - 1| = |(lg wh - l) + (l - 1)| := by congr 1; ring
      _ ≤ _ := abs_add_le _ _
      _ ≤ _ := by rw [abs_of_pos (show 0 < l - 1 by norm_num at hl17; linarith)]; norm_num at c1 hεl hu ⊢; linarith
  have c3 := h (lg wh - 1)
  have c4 : u * |lg wh - 1| ≤ u * (1.01 * l) := mul_le_mul_of_nonneg_left c2 hu0
  set D := rd (lg wh - 1) with hD
  have c5 : |D - (l - 1)| ≤ ε * l + u * (1.01 * l + 3.41) := by
    calc |D - (l - 1)| = |(D - (lg wh - 1)) + (lg wh - l)| := by congr 1; ring
      _ ≤ _ := abs_add_le _ _
      _ ≤ _ := by norm_num at c1 c3 c4 hηu ⊢; linarith
  have c6 : |D| ≤ 1.01 * l := by
    calc |D| = |(D - (l - 1)) + (l - 1)| := by congr 1; ring
      _ ≤ _ := abs_add_le _ _
      _ ≤ _ := by rw [abs_of_pos (show 0 < l - 1 by norm_num at hl17; linarith)]; norm_num at c5 hεl hul hu ⊢; linarith
  -- the product
  set τ := t - 1 / 2 with hτ
  have d1 := h τ
  set a := rd τ
  have hτ0 := abs_nonneg τ
  have hlw : l ≤ |τ| + 7 := by
    have := log_le_sub_one_of_pos hw0
    have : t ≤ |τ| + 1 / 2 := by have := le_abs_self τ; linarith
    norm_num at g2 ⊢; linarith
  have hηl : η * l ≤ 1 / 10 ^ 60 * (u * |τ|) + 7 / 10 ^ 60 * u := by
    calc η * l ≤ η * (|τ| + 7) := mul_le_mul_of_nonneg_left hlw hη
      _ ≤ 1 / 10 ^ 60 * u * (|τ| + 7) := mul_le_mul_of_nonneg_right hηu (by positivity)
      _ = _ := by ring
  have huτ : 0 ≤ u * |τ| := by positivity
  have huτl : 0 ≤ u * (|τ| * l) := by positivity
  have hετl : 0 ≤ ε * (|τ| * l) := by positivity
  have d2 : |a * D - τ * (l - 1)| ≤ ε * (|τ| * l) + u * (|τ| * (2.02 * l + 3.42)) + 0.1 * u := by
    have e : a * D - τ * (l - 1) = (a - τ) * D + τ * (D - (l - 1)) := by ring
    rw [e]
    refine (abs_add_le _ _).trans ?_
    rw [abs_mul, abs_mul]
    have t1 : |a - τ| * |D| ≤ (u * |τ| + η) * (1.01 * l) := mul_le_mul d1 c6 (abs_nonneg _) (by positivity)
    have t2 : |τ| * |D - (l - 1)| ≤ |τ| * (ε * l + u * (1.01 * l + 3.41)) := mul_le_mul_of_nonneg_left c5 hτ0
    have e1 : (u * |τ| + η) * (1.01 * l) = 1.01 * (u * (|τ| * l)) + 1.01 * (η * l) := by ring
    have e2 : |τ| * (ε * l + u * (1.01 * l + 3.41)) = ε * (|τ| * l) + 1.01 * (u * (|τ| * l)) + 3.41 * (u * |τ|) := by ring
    have e3 : u * (|τ| * (2.02 * l + 3.42)) = 2.02 * (u * (|τ| * l)) + 3.42 * (u * |τ|) := by ring
    rw [e1] at t1
    rw [e2] at t2
    rw [e3]
    norm_num at t1 t2 hηl ⊢; linarith
  have d3 : |τ * (l - 1)| ≤ |τ| * l := by
    rw [abs_mul]; apply mul_le_mul_of_nonneg_left _ hτ0
    rw [abs_of_pos (show 0 < l - 1 by norm_num at hl17; linarith)]; linarith
  have hτl0 : 0 ≤ |τ| * l := by positivity
  have d4 : |a * D| ≤ 1.02 * (|τ| * l) + 0.1 := by
    have t1 : |a * D| ≤ |a * D - τ * (l - 1)| + |τ * (l - 1)| := by
      calc |a * D| = |(a * D - τ * (l - 1)) + τ * (l - 1)| := by congr 1; ring
        _ ≤ _ := abs_add_le _ _
    have t2 : ε * (|τ| * l) ≤ 1 / 1000 * (|τ| * l) := mul_le_mul_of_nonneg_right hε hτl0
    have t3 : u * (|τ| * (2.02 * l + 3.42)) ≤ 1 / 1000 * (|τ| * (2.02 * l + 3.42)) :=
      mul_le_mul_of_nonneg_right hu3 (by positivity)
    have t4 : |τ| * 1.6 ≤ |τ| * l := mul_le_mul_of_nonneg_left hl17 hτ0
    have e3 : |τ| * (2.02 * l + 3.42) = 2.02 * (|τ| * l) + 3.42 * |τ| := by ring
    rw [e3] at t3 d2
    replace t1 := t1.trans (add_le_add le_rfl d3)
    norm_num at t1 t2 t3 t4 d2 hu3 ⊢; linarith
  have d5 := h (a * D)
  have d6 : u * |a * D| ≤ u * (1.02 * (|τ| * l) + 0.1) := mul_le_mul_of_nonneg_left d4 hu0
  set p := rd (a * D)
  have d7 : |p - τ * (l - 1)| ≤ ε * (|τ| * l) + u * (|τ| * (3.04 * l + 3.42)) + 0.3 * u := by
    have t1 : |p - τ * (l - 1)| ≤ |p - a * D| + |a * D - τ * (l - 1)| := by
      calc |p - τ * (l - 1)| = |(p - a * D) + (a * D - τ * (l - 1))| := by congr 1; ring
        _ ≤ _ := abs_add_le _ _
    have e3 : u * (|τ| * (2.02 * l + 3.42)) = 2.02 * (u * (|τ| * l)) + 3.42 * (u * |τ|) := by ring
    have e4 : u * (|τ| * (3.04 * l + 3.42)) = 3.04 * (u * (|τ| * l)) + 3.42 * (u * |τ|) := by ring
    have e5 : u * (1.02 * (|τ| * l) + 0.1) = 1.02 * (u * (|τ| * l)) + 0.1 * u := by ring
    rw [e3] at d2
    rw [e5] at d6
    rw [e4]
    norm_num at t1 d2 d5 d6 hηu ⊢; linarith
  have d8 : |p| ≤ 1.03 * (|τ| * l) + 0.2 := by
    have t1 : |p| ≤ |p - a * D| + |a * D| := by
      calc |p| = |(p - a * D) + a * D| := by congr 1; ring
        _ ≤ _ := abs_add_le _ _
    have t2 : u * (|τ| * l) ≤ 1 / 1000 * (|τ| * l) := mul_le_mul_of_nonneg_right hu3 hτl0
    have e5 : u * (1.02 * (|τ| * l) + 0.1) = 1.02 * (u * (|τ| * l)) + 0.1 * u := by ring
    rw [e5] at d6
    norm_num at t1 t2 d4 d5 d6 hηu hu3 ⊢; linarith
  refine ⟨r, p, rfl, rfl, r4, d7, ?_⟩
  -- the final sum
  have f1 := h (r + p)
  have f2 : |r + p| ≤ 1.01 * |L| + 6.4 + 1.03 * (|τ| * l) := (abs_add_le _ _).trans (by norm_num at r5 d8 ⊢; linarith)
  have f3 : u * |r + p| ≤ u * (1.01 * |L| + 6.4 + 1.03 * (|τ| * l)) := mul_le_mul_of_nonneg_left f2 hu0
  have f4 : |rd (r + p) - (L - gR + τ * (l - 1))| ≤ |rd (r + p) - (r + p)| + |r - (L - gR)| + |p - τ * (l - 1)| := by
    calc |rd (r + p) - (L - gR + τ * (l - 1))| = |(rd (r + p) - (r + p)) + (r - (L - gR)) + (p - τ * (l - 1))| := by congr 1; ring
      _ ≤ _ := (abs_add_le _ _).trans (add_le_add (abs_add_le _ _) le_rfl)
  refine f4.trans ?_
  have e1 : u * (1.01 * |L| + 6.4 + 1.03 * (|τ| * l)) = 1.01 * (u * |L|) + 6.4 * u + 1.03 * (u * (|τ| * l)) := by ring
  have e2 : u * (1.001 * |L| + 67.7) = 1.001 * (u * |L|) + 67.7 * u := by ring
  have e3 : u * (|τ| * (3.04 * l + 3.42)) = 3.04 * (u * (|τ| * l)) + 3.42 * (u * |τ|) := by ring
  have e4 : ε * (1.01 * |L| + 1 + 1.1 * (|τ| * l)) + u * (2.1 * |L| + 80 + |τ| * (5 * l + 4)) =
      1.01 * (ε * |L|) + ε + 1.1 * (ε * (|τ| * l)) + (2.1 * (u * |L|) + 80 * u + 5 * (u * (|τ| * l)) + 4 * (u * |τ|)) := by ring
  have hεL0 : 0 ≤ ε * |L| := by positivity
  rw [e1] at f3
  rw [e2] at r4
  rw [e3] at d7
  rw [e4]
  norm_num at f1 f3 r4 d7 hηu ⊢
  linarith

end
end Ufunclab.Loggamma1p
