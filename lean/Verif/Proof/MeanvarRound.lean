import Verif.Model.Meanvar
import Mathlib.Algebra.Order.Field.Basic
import Mathlib.Algebra.Order.Ring.Abs
import Mathlib.Tactic.Linarith
import Mathlib.Tactic.Positivity
import Mathlib.Tactic.Ring
import Mathlib.Tactic.FieldSimp
import Mathlib.Tactic.NormNum
/-! # Rounding errors of meanvar: the compensated updates -/
namespace Ufunclab.Meanvar
variable {K : Type _} [Field K] [LinearOrder K] [IsStrictOrderedRing K]

/-- One compensated update: the value minus the compensation is the exact sum up to an error that
does not contain the size of `val` to first order. -/
theorem update_error {rd : K → K} {u η : K} (h : ∀ z, |rd z - z| ≤ u * |z| + η) (hu0 : 0 ≤ u) (hu : u ≤ 1 / 1000) (hη : 0 ≤ η)
    {v q c A Q C : K} (hv : |v| ≤ A) (hq : |q| ≤ Q) (hc : |c| ≤ C) :
    |(compensatedUpdate rd v q c).1 - (compensatedUpdate rd v q c).2 - (v - c + q)| ≤
      2.02 * (u * (Q + C)) + 2.01 * (u * (u * A)) + 4 * η ∧
    |(compensatedUpdate rd v q c).2| ≤ 1.01 * (u * A) + 2.02 * (u * (Q + C)) + 4 * η := by
  set P := Q + C with hP
  have hA0 : 0 ≤ A := (abs_nonneg v).trans hv
  have hP0 : 0 ≤ P := by have := abs_nonneg q; have := abs_nonneg c; linarith
  simp only [compensatedUpdate]
  set y := rd (q - c) with hy
  set t := rd (v + y) with ht
  set w := rd (t - v) with hw
  set c' := rd (w - y) with hc'
  have qc : |q - c| ≤ P := (abs_sub _ _).trans (add_le_add hq hc)
  have e1 : |y - (q - c)| ≤ u * P + η := (h _).trans (add_le_add (mul_le_mul_of_nonneg_left qc hu0) le_rfl)
  have yb : |y| ≤ P + (u * P + η) := by
    calc |y| = |(q - c) + (y - (q - c))| := by congr 1; ring
      _ ≤ _ := abs_add_le _ _
      _ ≤ _ := add_le_add qc e1
  set Y := P + (u * P + η) with hY
  have r : |t - (v + y)| ≤ u * (A + Y) + η := (h _).trans (add_le_add
    (mul_le_mul_of_nonneg_left ((abs_add_le _ _).trans (add_le_add hv yb)) hu0) le_rfl)
  set R := u * (A + Y) + η with hR
  have tv : |t - v| ≤ Y + R := by
    calc |t - v| = |y + (t - (v + y))| := by congr 1; ring
      _ ≤ _ := abs_add_le _ _
      _ ≤ _ := add_le_add yb r
  have e2 : |w - (t - v)| ≤ u * (Y + R) + η := (h _).trans (add_le_add (mul_le_mul_of_nonneg_left tv hu0) le_rfl)
  set E2 := u * (Y + R) + η with hE2
  have wy : |w - y| ≤ R + E2 := by
    calc |w - y| = |(t - (v + y)) + (w - (t - v))| := by congr 1; ring
      _ ≤ _ := abs_add_le _ _
      _ ≤ _ := add_le_add r e2
  have e3 : |c' - (w - y)| ≤ u * (R + E2) + η := (h _).trans (add_le_add (mul_le_mul_of_nonneg_left wy hu0) le_rfl)
  have small : ∀ z, 0 ≤ z → u * z ≤ 0.001 * z := fun z hz => by
    apply mul_le_mul_of_nonneg_right _ hz; norm_num at hu ⊢; exact hu
  have huP : 0 ≤ u * P := by positivity
  have huA : 0 ≤ u * A := by positivity
  have huuA : 0 ≤ u * (u * A) := by positivity
  have huuP : 0 ≤ u * (u * P) := by positivity
  have huη : 0 ≤ u * η := by positivity
  have s1 := small _ huP
  have s2 := small _ hη
  have s3 := small _ huuA
  have s4 := small _ huuP
  have s5 := small _ huη
  have s6 := small _ huA
  have x1 : u * Y = u * P + u * (u * P) + u * η := by rw [hY]; ring
  have x2 : R = u * A + (u * P + u * (u * P) + u * η) + η := by rw [hR, ← x1]; ring
  have x3 : u * R = u * (u * A) + u * (u * P) + u * (u * (u * P)) + u * (u * η) + u * η := by rw [x2]; ring
  have x4 : E2 = u * Y + u * R + η := by rw [hE2]; ring
  have x5 : u * E2 = u * (u * Y) + u * (u * R) + u * η := by rw [x4]; ring
  have x6 : u * (u * Y) ≤ 0.001 * (u * Y) := small _ (by rw [x1]; linarith)
  have hR0 : 0 ≤ u * R := by rw [x3]; have := small _ huuP; positivity
  have x7 : u * (u * R) ≤ 0.001 * (u * R) := small _ hR0
  constructor
  · calc |t - c' - (v - c + q)| = |(y - (q - c)) + -(w - (t - v)) + -(c' - (w - y))| := by congr 1; ring
      _ ≤ |y - (q - c)| + |-(w - (t - v))| + |-(c' - (w - y))| := (abs_add_le _ _).trans (add_le_add (abs_add_le _ _) le_rfl)
      _ ≤ (u * P + η) + E2 + (u * (R + E2) + η) := by rw [abs_neg, abs_neg]; exact add_le_add (add_le_add e1 e2) e3
      _ = u * P + 2 * η + E2 + u * R + u * E2 := by ring
      _ ≤ _ := by rw [x5, x4]; linarith
  · calc |c'| = |(w - y) + (c' - (w - y))| := by congr 1; ring
      _ ≤ _ := abs_add_le _ _
      _ ≤ (R + E2) + (u * (R + E2) + η) := add_le_add wy e3
      _ = R + E2 + u * R + u * E2 + η := by ring
      _ ≤ _ := by rw [x5, x4]; linarith

/-- One division by the number of elements. -/
theorem quotient_error {rd : K → K} {u η : K} (h : ∀ z, |rd z - z| ≤ u * |z| + η) (hu0 : 0 ≤ u) (hu : u ≤ 1 / 1000)
    (hηu : η ≤ u * u) {d a D k : K} (hk : 1 ≤ k) (ha : |d - a| ≤ D * u) (hb : |d| ≤ D) :
    |rd (d / rd k) - a / k| * k ≤ 3.02 * (u * D) + η * k := by
  have hk0 : 0 < k := by linarith
  have hD0 : 0 ≤ D := (abs_nonneg d).trans hb
  have hN : |rd k - k| ≤ 1.001 * u * k := by
    have h1 := h k
    rw [abs_of_pos hk0] at h1
    have h2 : u * u ≤ 0.001 * u := mul_le_mul_of_nonneg_right (by norm_num at hu ⊢; exact hu) hu0
    have h3 : u ≤ u * k := le_mul_of_one_le_right hu0 hk
    norm_num at h2 ⊢
    linarith
  have hNb := abs_le.1 hN
  have huk : u * k ≤ 0.001 * k := mul_le_mul_of_nonneg_right (by norm_num at hu ⊢; exact hu) hk0.le
  have hN0 : 0.998 * k ≤ rd k := by norm_num at hNb huk ⊢; linarith [hNb.1]
  have hNp : 0 < rd k := lt_of_lt_of_le (by positivity) hN0
  set N := rd k with hNd
  have q1 : |d / N| * k ≤ 1.003 * D := by
    rw [abs_div, abs_of_pos hNp, div_mul_eq_mul_div, div_le_iff₀ hNp]
    have h1 : |d| * k ≤ D * k := mul_le_mul_of_nonneg_right hb hk0.le
    have h2 : 1.003 * D * (0.998 * k) ≤ 1.003 * D * N := mul_le_mul_of_nonneg_left hN0 (by positivity)
    have h3 : 0 ≤ D * k := by positivity
    linarith
  have q2 : |d / N - d / k| * k ≤ 1.005 * (u * D) := by
    have e : (d / N - d / k) * k = d * (k - N) / N := by field_simp
    have e2 : |d / N - d / k| * k = |d * (k - N) / N| := by rw [← e, abs_mul, abs_of_pos hk0]
    rw [e2, abs_div, abs_of_pos hNp, div_le_iff₀ hNp, abs_mul, abs_sub_comm k N]
    have h1 : |d| * |N - k| ≤ D * (1.001 * u * k) := mul_le_mul hb hN (abs_nonneg _) hD0
    have h2 : 1.005 * (u * D) * (0.998 * k) ≤ 1.005 * (u * D) * N := mul_le_mul_of_nonneg_left hN0 (by positivity)
    have h3 : 0 ≤ u * D * k := by positivity
    linarith
  have q3 : |d / k - a / k| * k ≤ u * D := by
    have e : (d / k - a / k) * k = d - a := by field_simp
    have e2 : |d / k - a / k| * k = |d - a| := by rw [← e, abs_mul, abs_of_pos hk0]
    rw [e2]; linarith
  have q4 : |rd (d / N) - d / N| * k ≤ 1.003 * (u * D) + η * k := by
    have h1 := mul_le_mul_of_nonneg_right (h (d / N)) hk0.le
    have h2 := mul_le_mul_of_nonneg_left q1 hu0
    linarith
  have : |rd (d / N) - a / k| ≤ |rd (d / N) - d / N| + |d / N - d / k| + |d / k - a / k| := by
    calc |rd (d / N) - a / k| = |(rd (d / N) - d / N) + (d / N - d / k) + (d / k - a / k)| := by congr 1; ring
      _ ≤ _ := (abs_add_le _ _).trans (add_le_add (abs_add_le _ _) le_rfl)
  have h5 := mul_le_mul_of_nonneg_right this hk0.le
  have h6 : 0 ≤ u * D := by positivity
  linarith

/-- One pass of the loop, the mean. -/
theorem mean_step {rd : K → K} {u η M : K} (h : ∀ z, |rd z - z| ≤ u * |z| + η) (hu0 : 0 ≤ u) (hu : u ≤ 1 / 1000) (hη : 0 ≤ η)
    (hηu : η ≤ u * u) (hηM : η ≤ u * (u * M)) (hM : 0 ≤ M) {k x m c μ : K} (hk0 : 0 ≤ k) (hku : (k + 1) * u ≤ 1 / 100)
    (hx : |x| ≤ M) (hμ : |μ| ≤ M) (hc : |c| ≤ 6.5 * (u * M)) (hE : |m - c - μ| ≤ 19 * (u * M)) :
    |(compensatedUpdate rd m (rd (rd (x - m) / rd (k + 1))) c).2| ≤ 6.5 * (u * M) ∧
    |(compensatedUpdate rd m (rd (rd (x - m) / rd (k + 1))) c).1 - (compensatedUpdate rd m (rd (rd (x - m) / rd (k + 1))) c).2 -
      (μ + (x - μ) / (k + 1))| ≤ 19 * (u * M) ∧ |rd (x - m) - (x - m)| ≤ 2.04 * (u * M) ∧ |μ + (x - μ) / (k + 1)| ≤ M := by
  have hk1 : 1 ≤ k + 1 := by linarith
  have hkp : 0 < k + 1 := by linarith
  have huM : 0 ≤ u * M := by positivity
  have small : ∀ z, 0 ≤ z → u * z ≤ 0.001 * z := fun z hz => by
    apply mul_le_mul_of_nonneg_right _ hz; norm_num at hu ⊢; exact hu
  have s1 := small _ hM
  have s2 := small _ huM
  have hm : |m| ≤ 1.03 * M := by
    calc |m| = |(m - c - μ) + c + μ| := by congr 1; ring
      _ ≤ |m - c - μ| + |c| + |μ| := (abs_add_le _ _).trans (add_le_add (abs_add_le _ _) le_rfl)
      _ ≤ _ := by linarith
  have hxm : |x - m| ≤ 2.03 * M := (abs_sub _ _).trans (by linarith)
  have hd1 : |rd (x - m) - (x - m)| ≤ 2.04 * (u * M) := by
    have := h (x - m)
    have := mul_le_mul_of_nonneg_left hxm hu0
    linarith
  have hd2 : |rd (x - m)| ≤ 2.04 * M := by
    calc |rd (x - m)| = |(rd (x - m) - (x - m)) + (x - m)| := by congr 1; ring
      _ ≤ _ := abs_add_le _ _
      _ ≤ _ := by linarith
  have hq := quotient_error h hu0 hu hηu hk1 (a := x - m) (D := 2.04 * M) (by linarith) hd2
  set q := rd (rd (x - m) / rd (k + 1)) with hqd
  have hkη : η * (k + 1) ≤ 0.01 * (u * M) := by
    have h1 := mul_le_mul_of_nonneg_right hηM hkp.le
    have h2 := mul_le_mul_of_nonneg_right hku huM
    linarith
  have hq' : |q - (x - m) / (k + 1)| * (k + 1) ≤ 6.2 * (u * M) := by linarith
  have hqb : |q| * (k + 1) ≤ 2.04 * M := by
    have e : |(x - m) / (k + 1)| * (k + 1) ≤ 2.03 * M := by
      rw [abs_div, abs_of_pos hkp, div_mul_cancel₀ _ hkp.ne']; exact hxm
    have h1 : |q| ≤ |q - (x - m) / (k + 1)| + |(x - m) / (k + 1)| := by
      calc |q| = |(q - (x - m) / (k + 1)) + (x - m) / (k + 1)| := by congr 1; ring
        _ ≤ _ := abs_add_le _ _
    have h2 := mul_le_mul_of_nonneg_right h1 hkp.le
    linarith
  obtain ⟨u1, u2⟩ := update_error h hu0 hu hη hm (le_refl |q|) hc
  have hq1 : |q| ≤ 2.04 * M := by
    have : |q| ≤ |q| * (k + 1) := le_mul_of_one_le_right (abs_nonneg _) hk1
    linarith
  have huq := mul_le_mul_of_nonneg_left hq1 hu0
  set t := (compensatedUpdate rd m q c).1
  set c' := (compensatedUpdate rd m q c).2
  have hc0 := abs_nonneg c
  refine ⟨?_, ?_, hd1, ?_⟩
  · have e : u * (|q| + 6.5 * (u * M)) = u * |q| + 6.5 * (u * (u * M)) := by ring
    rw [e] at u2
    linarith
  · have e : u * (|q| + 6.5 * (u * M)) = u * |q| + 6.5 * (u * (u * M)) := by ring
    rw [e] at u1
    -- multiply by k + 1
    have h1 := mul_le_mul_of_nonneg_right u1 hkp.le
    have h2 : (k + 1) * (u * (u * M)) ≤ 0.01 * (u * M) := by
      have := mul_le_mul_of_nonneg_right hku huM; linarith
    have h3 : u * |q| * (k + 1) ≤ u * (2.04 * M) := by
      have := mul_le_mul_of_nonneg_left hqb hu0; linarith
    have h4 : |t - c' - (m - c + q)| * (k + 1) ≤ 4.8 * (u * M) := by linarith
    have key : (t - c' - (μ + (x - μ) / (k + 1))) * (k + 1) =
        (t - c' - (m - c + q)) * (k + 1) + (q - (x - m) / (k + 1)) * (k + 1) + (m - c - μ) * k - c := by
      field_simp; ring
    have h5 : |(t - c' - (μ + (x - μ) / (k + 1))) * (k + 1)| ≤ 4.8 * (u * M) + 6.2 * (u * M) + 19 * (u * M) * k + 6.5 * (u * M) := by
      rw [key]
      refine (abs_sub _ _).trans (add_le_add ((abs_add_le _ _).trans (add_le_add ((abs_add_le _ _).trans (add_le_add ?_ ?_)) ?_)) hc)
      · rw [abs_mul, abs_of_pos hkp]; exact h4
      · rw [abs_mul, abs_of_pos hkp]; exact hq'
      · rw [abs_mul, abs_of_nonneg hk0]; exact mul_le_mul_of_nonneg_right hE hk0
    rw [abs_mul, abs_of_pos hkp] at h5
    have h6 : 0 < (k + 1) := hkp
    by_contra hcon
    have h7 := mul_lt_mul_of_pos_right (not_le.1 hcon) hkp
    linarith
  · have e : μ + (x - μ) / (k + 1) = (k * μ + x) / (k + 1) := by field_simp; ring
    rw [e, abs_div, abs_of_pos hkp, div_le_iff₀ hkp]
    calc |k * μ + x| ≤ |k * μ| + |x| := abs_add_le _ _
      _ ≤ k * M + M := by rw [abs_mul, abs_of_nonneg hk0]; exact add_le_add (mul_le_mul_of_nonneg_left hμ hk0) hx
      _ = _ := by ring

/-- One pass of the loop, the sum of squares: `d`, `g` are the computed deviations. -/
theorem m2_step {rd : K → K} {u η M : K} (h : ∀ z, |rd z - z| ≤ u * |z| + η) (hu0 : 0 ≤ u) (hu : u ≤ 1 / 1000) (hη : 0 ≤ η)
    (hηM : η ≤ u * (u * (M * M))) (hM : 0 ≤ M) {k s c T d g a b : K} (hk0 : 0 ≤ k) (hku : (k + 1) * u ≤ 1 / 100)
    (ha : |a| ≤ 2 * M) (hb : |b| ≤ 2 * M) (hd : |d - a| ≤ 27.6 * (u * M)) (hg : |g - b| ≤ 27.6 * (u * M))
    (hc : |c| ≤ 10 * k * (u * (M * M))) (hT : |T| ≤ k * (M * M)) (hE : |s - c - T| ≤ 126 * k * (u * (M * M))) :
    |(compensatedUpdate rd s (rd (d * g)) c).2| ≤ 10 * (k + 1) * (u * (M * M)) ∧
    |(compensatedUpdate rd s (rd (d * g)) c).1 - (compensatedUpdate rd s (rd (d * g)) c).2 - (T + a * b)| ≤
      126 * (k + 1) * (u * (M * M)) := by
  have hkp : 0 < k + 1 := by linarith
  have huM : 0 ≤ u * M := by positivity
  have hM2 : 0 ≤ M * M := by positivity
  have huM2 : 0 ≤ u * (M * M) := by positivity
  have hkM2 : 0 ≤ k * (M * M) := by positivity
  have small : ∀ z, 0 ≤ z → u * z ≤ 0.001 * z := fun z hz => by
    apply mul_le_mul_of_nonneg_right _ hz; norm_num at hu ⊢; exact hu
  have s1 := small _ hM
  have s2 := small _ hM2
  have s3 := small _ huM2
  have s4 := small _ hkM2
  have hku' : k * u ≤ 1 / 100 := by
    have : k * u ≤ (k + 1) * u := mul_le_mul_of_nonneg_right (by linarith) hu0
    linarith
  have hku2 : k * (u * (M * M)) ≤ 0.01 * (M * M) := by
    have := mul_le_mul_of_nonneg_right hku' hM2; norm_num at this ⊢; linarith
  have hku3 : u * (k * (u * (M * M))) ≤ 0.01 * (u * (M * M)) := by
    have := mul_le_mul_of_nonneg_left hku2 hu0; linarith
  have hs : |s| ≤ 1.2 * (k * (M * M)) := by
    have e : k * (u * (M * M)) = u * (k * (M * M)) := by ring
    calc |s| = |(s - c - T) + c + T| := by congr 1; ring
      _ ≤ |s - c - T| + |c| + |T| := (abs_add_le _ _).trans (add_le_add (abs_add_le _ _) le_rfl)
      _ ≤ 136 * (u * (k * (M * M))) + k * (M * M) := by rw [← e]; linarith
      _ ≤ _ := by linarith
  have hdb : |d| ≤ 2.03 * M := by
    calc |d| = |(d - a) + a| := by congr 1; ring
      _ ≤ _ := abs_add_le _ _
      _ ≤ _ := by linarith
  have hprod : |d * g - a * b| ≤ 112 * (u * (M * M)) := by
    calc |d * g - a * b| = |d * (g - b) + (d - a) * b| := by congr 1; ring
      _ ≤ |d * (g - b)| + |(d - a) * b| := abs_add_le _ _
      _ ≤ 2.03 * M * (27.6 * (u * M)) + 27.6 * (u * M) * (2 * M) := by
        rw [abs_mul, abs_mul]
        exact add_le_add (mul_le_mul hdb hg (abs_nonneg _) (by positivity)) (mul_le_mul hd hb (abs_nonneg _) (by positivity))
      _ = (2.03 * 27.6 + 27.6 * 2) * (u * (M * M)) := by ring
      _ ≤ _ := by norm_num; linarith
  have hab : |a * b| ≤ 4 * (M * M) := by
    rw [abs_mul]
    calc |a| * |b| ≤ 2 * M * (2 * M) := mul_le_mul ha hb (abs_nonneg _) (by positivity)
      _ = _ := by ring
  have hdg : |d * g| ≤ 4.12 * (M * M) := by
    calc |d * g| = |(d * g - a * b) + a * b| := by congr 1; ring
      _ ≤ _ := abs_add_le _ _
      _ ≤ _ := by linarith
  have hq : |rd (d * g) - a * b| ≤ 116.2 * (u * (M * M)) := by
    have h1 := h (d * g)
    have h2 := mul_le_mul_of_nonneg_left hdg hu0
    calc |rd (d * g) - a * b| = |(rd (d * g) - d * g) + (d * g - a * b)| := by congr 1; ring
      _ ≤ _ := abs_add_le _ _
      _ ≤ _ := by linarith
  set q := rd (d * g) with hqd
  have hqb : |q| ≤ 4.2 * (M * M) := by
    calc |q| = |(q - a * b) + a * b| := by congr 1; ring
      _ ≤ _ := abs_add_le _ _
      _ ≤ _ := by linarith
  obtain ⟨u1, u2⟩ := update_error h hu0 hu hη hs hqb hc
  have e1 : u * (4.2 * (M * M) + 10 * k * (u * (M * M))) = 4.2 * (u * (M * M)) + 10 * (u * (k * (u * (M * M)))) := by ring
  have e2 : u * (1.2 * (k * (M * M))) = 1.2 * (k * (u * (M * M))) := by ring
  have e3 : u * (u * (1.2 * (k * (M * M)))) = 1.2 * (u * (k * (u * (M * M)))) := by ring
  rw [e1, e2] at u2
  rw [e1, e3] at u1
  constructor
  · have : 0 ≤ k * (u * (M * M)) := by positivity
    linarith
  · set t := (compensatedUpdate rd s q c).1
    set c' := (compensatedUpdate rd s q c).2
    calc |t - c' - (T + a * b)| = |(t - c' - (s - c + q)) + (s - c - T) + (q - a * b)| := by congr 1; ring
      _ ≤ |t - c' - (s - c + q)| + |s - c - T| + |q - a * b| := (abs_add_le _ _).trans (add_le_add (abs_add_le _ _) le_rfl)
      _ ≤ _ := by linarith

/-- The whole loop against exact arithmetic. -/
theorem loop_error {rd : K → K} {u η M : K} (h : ∀ z, |rd z - z| ≤ u * |z| + η) (hu0 : 0 ≤ u) (hu : u ≤ 1 / 1000) (hη : 0 ≤ η)
    (hηu : η ≤ u * u) (hηM : η ≤ u * (u * M)) (hηM2 : η ≤ u * (u * (M * M))) (hM : 0 ≤ M) (xs : List K) :
    ∀ (k : ℕ) (m s c1 c2 μ T : K), (∀ x ∈ xs, |x| ≤ M) → ((k + xs.length : ℕ) : K) * u ≤ 1 / 100 →
    |μ| ≤ M → |c1| ≤ 6.5 * (u * M) → |m - c1 - μ| ≤ 19 * (u * M) → 0 ≤ T → T + k * μ ^ 2 ≤ k * (M * M) →
    |c2| ≤ 10 * k * (u * (M * M)) → |s - c2 - T| ≤ 126 * k * (u * (M * M)) →
    |(loop rd k m s c1 c2 xs).1 - (loop id k μ T 0 0 xs).1| ≤ 25.5 * (u * M) ∧
    |(loop rd k m s c1 c2 xs).2 - (loop id k μ T 0 0 xs).2| ≤ 136 * ((k + xs.length : ℕ) : K) * (u * (M * M)) ∧
    0 ≤ (loop id k μ T 0 0 xs).2 ∧ (loop id k μ T 0 0 xs).2 ≤ ((k + xs.length : ℕ) : K) * (M * M) := by
  induction xs with
  | nil =>
    intro k m s c1 c2 μ T _ _ _ hc1 hE hT0 hT hc2 hE2
    simp only [loop, List.length_nil, Nat.add_zero]
    refine ⟨?_, ?_, hT0, ?_⟩
    · calc |m - μ| = |(m - c1 - μ) + c1| := by congr 1; ring
        _ ≤ _ := abs_add_le _ _
        _ ≤ _ := by linarith
    · calc |s - T| = |(s - c2 - T) + c2| := by congr 1; ring
        _ ≤ _ := abs_add_le _ _
        _ ≤ _ := by linarith
    · have : (0 : K) ≤ k * μ ^ 2 := by positivity
      linarith
  | cons x xs ih =>
    intro k m s c1 c2 μ T hx hlen hμ hc1 hE hT0 hT hc2 hE2
    have hk0 : (0 : K) ≤ k := Nat.cast_nonneg k
    have hkp : (0 : K) < (k : K) + 1 := by linarith
    have hku : ((k : K) + 1) * u ≤ 1 / 100 := by
      refine le_trans (mul_le_mul_of_nonneg_right ?_ hu0) hlen
      simp only [List.length_cons]; push_cast
      have : (0 : K) ≤ xs.length := Nat.cast_nonneg _
      linarith
    have hxM := hx x (by simp)
    obtain ⟨a1, a2, a3, a4⟩ := mean_step h hu0 hu hη hηu hηM hM hk0 hku hxM hμ hc1 hE
    have hcast : ((k + 1 : ℕ) : K) = k + 1 := by push_cast; rfl
    set μ' := μ + (x - μ) / ((k : K) + 1) with hμ'
    set r1 := compensatedUpdate rd m (rd (rd (x - m) / rd ((k : K) + 1))) c1 with hr1
    have huM : 0 ≤ u * M := by positivity
    have s2 : u * (u * M) ≤ 0.001 * (u * M) := mul_le_mul_of_nonneg_right (by norm_num at hu ⊢; exact hu) huM
    have s1 : u * M ≤ 0.001 * M := mul_le_mul_of_nonneg_right (by norm_num at hu ⊢; exact hu) hM
    have hd : |rd (x - m) - (x - μ)| ≤ 27.6 * (u * M) := by
      calc |rd (x - m) - (x - μ)| = |(rd (x - m) - (x - m)) + -(m - c1 - μ) + -c1| := by congr 1; ring
        _ ≤ |rd (x - m) - (x - m)| + |-(m - c1 - μ)| + |-c1| := (abs_add_le _ _).trans (add_le_add (abs_add_le _ _) le_rfl)
        _ ≤ _ := by rw [abs_neg, abs_neg]; linarith
    have hr1μ : |r1.1 - μ'| ≤ 25.5 * (u * M) := by
      calc |r1.1 - μ'| = |(r1.1 - r1.2 - μ') + r1.2| := by congr 1; ring
        _ ≤ _ := abs_add_le _ _
        _ ≤ _ := by linarith
    have hg : |rd (x - r1.1) - (x - μ')| ≤ 27.6 * (u * M) := by
      have h1 : |x - r1.1| ≤ 2.03 * M := by
        calc |x - r1.1| = |x + -(r1.1 - μ') + -μ'| := by congr 1; ring
          _ ≤ |x| + |-(r1.1 - μ')| + |-μ'| := (abs_add_le _ _).trans (add_le_add (abs_add_le _ _) le_rfl)
          _ ≤ _ := by rw [abs_neg, abs_neg]; linarith
      have h2 := h (x - r1.1)
      have h3 := mul_le_mul_of_nonneg_left h1 hu0
      calc |rd (x - r1.1) - (x - μ')| = |(rd (x - r1.1) - (x - r1.1)) + -(r1.1 - μ')| := by congr 1; ring
        _ ≤ _ := abs_add_le _ _
        _ ≤ _ := by rw [abs_neg]; linarith
    have hTk : |T| ≤ k * (M * M) := by
      rw [abs_of_nonneg hT0]
      have : (0 : K) ≤ k * μ ^ 2 := by positivity
      linarith
    obtain ⟨b1, b2⟩ := m2_step h hu0 hu hη hηM2 hM hk0 hku (a := x - μ) (b := x - μ')
      ((abs_sub _ _).trans (by linarith)) ((abs_sub _ _).trans (by linarith)) hd hg hc2 hTk hE2
    have hprod : (x - μ) * (x - μ') = k * (x - μ) ^ 2 / (k + 1) := by rw [hμ']; field_simp; ring
    have hT' : 0 ≤ T + (x - μ) * (x - μ') := by rw [hprod]; positivity
    have hTT : (T + (x - μ) * (x - μ')) + (k + 1) * μ' ^ 2 = T + k * μ ^ 2 + x ^ 2 := by
      rw [hμ']; field_simp; ring
    have hx2 : x ^ 2 ≤ M * M := by
      rw [← sq_abs, ← pow_two]; exact pow_le_pow_left₀ (abs_nonneg _) hxM 2
    have := ih (k + 1) r1.1 _ r1.2 _ μ' (T + (x - μ) * (x - μ')) (fun y hy => hx y (by simp [hy]))
      (by rw [show k + 1 + xs.length = k + (x :: xs).length by simp only [List.length_cons]; omega]; exact hlen)
      a4 a1 a2 hT' (by rw [hcast, hTT]; linarith) (by rw [hcast]; exact b1) (by rw [hcast]; exact b2)
    rw [show k + 1 + xs.length = k + (x :: xs).length by simp only [List.length_cons]; omega] at this
    simp only [loop, compensatedUpdate, sub_zero, id, add_sub_cancel_left, sub_self, hcast]
    simp only [loop, compensatedUpdate, hr1] at this
    exact this

/-- The final division of `m2` by `n - ddof`. -/
theorem var_error {rd : K → K} {u η M : K} (h : ∀ z, |rd z - z| ≤ u * |z| + η) (hu0 : 0 ≤ u) (hu : u ≤ 1 / 1000)
    (hηu : η ≤ u * u) {n N s T : K} (hn : 0 ≤ n) (hN : 1 ≤ N) (hs : |s - T| ≤ 136 * n * (u * (M * M)))
    (hT0 : 0 ≤ T) (hT : T ≤ n * (M * M)) :
    |rd (s / rd N) - T / N| ≤ 140 * (u * (M * M)) * (n / N) + η := by
  have hNp : 0 < N := by linarith
  have hM2 : 0 ≤ M * M := mul_self_nonneg M
  have hnM : 0 ≤ n * (M * M) := mul_nonneg hn hM2
  have e : n * (u * (M * M)) = u * (n * (M * M)) := by ring
  have s1 : u * (n * (M * M)) ≤ 0.001 * (n * (M * M)) := by
    apply mul_le_mul_of_nonneg_right _ hnM; norm_num at hu ⊢; exact hu
  have hsb : |s| ≤ 1.2 * (n * (M * M)) := by
    calc |s| = |(s - T) + T| := by congr 1; ring
      _ ≤ _ := abs_add_le _ _
      _ ≤ _ := by rw [abs_of_nonneg hT0]; linarith
  have hq := quotient_error h hu0 hu hηu hN (a := s) (d := s) (D := 1.2 * (n * (M * M)))
    (by rw [sub_self, abs_zero]; positivity) hsb
  have h1 : |rd (s / rd N) - T / N| * N ≤ 140 * (u * (n * (M * M))) + η * N := by
    have e2 : |s / N - T / N| * N = |s - T| := by
      rw [← sub_div, abs_div, abs_of_pos hNp, div_mul_cancel₀ _ hNp.ne']
    have e3 : |rd (s / rd N) - T / N| ≤ |rd (s / rd N) - s / N| + |s / N - T / N| := by
      calc |rd (s / rd N) - T / N| = |(rd (s / rd N) - s / N) + (s / N - T / N)| := by congr 1; ring
        _ ≤ _ := abs_add_le _ _
    have := mul_le_mul_of_nonneg_right e3 hNp.le
    have : 0 ≤ u * (n * (M * M)) := by positivity
    linarith
  rw [← le_div_iff₀ hNp] at h1
  refine h1.trans (le_of_eq ?_)
  field_simp

end Ufunclab.Meanvar
