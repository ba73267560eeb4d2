import Verif.Proof.TriAreaWhole
import Verif.Props.TriArea
/-!
# C76: `tri_area` in floating point

`rd` rounds every operation to a nearest number of the format with `p` bits and least exponent `emin`.
-/
namespace Ufunclab.TriArea
open Finset Float Spec

/-- C76: without rounding the code returns the area by Heron's formula from the three distances, and never NaN. -/
theorem C76_exact_arithmetic (n : Nat) (x : Int → Nat → ℝ) :
    triAreaR id n x = .fin (heron (Spec.dist n (x 0) (x 1)) (Spec.dist n (x 0) (x 2)) (Spec.dist n (x 1) (x 2)))
      ∧ triAreaR id n x = .fin (triArea n x) := by
  have e : ∀ i j, normDiffR id n x i j = normDiff n x i j := by
    intro i j; simp only [normDiffR, normDiff, sumSqDiffR_id, id]
  have main : triAreaR id n x = .fin (triArea n x) := by
    simp only [triAreaR, triAreaCommonR, triArea, triAreaCommon, e]
    apply kahanR_id
    rw [product_sort]
    have g := gram_nonneg n (fun j => x 1 j - x 0 j) (fun j => x 2 j - x 0 j)
    have sq' : ∀ i j, normDiff n x i j ^ 2 = ∑ k ∈ range n, (x j k - x i k) ^ 2 := by
      intro i j
      rw [normDiff_eq, Real.sq_sqrt (sum_nonneg (fun k _ => sq_nonneg _))]
    have hc : ∑ k ∈ range n, (x 2 k - x 1 k) ^ 2 = ∑ k ∈ range n, (x 1 k - x 0 k) ^ 2 + ∑ k ∈ range n, (x 2 k - x 0 k) ^ 2
        - 2 * ∑ k ∈ range n, (x 1 k - x 0 k) * (x 2 k - x 0 k) := by
      rw [mul_sum, ← sum_add_distrib, ← sum_sub_distrib]
      exact sum_congr rfl fun j _ => by ring
    have key : (normDiff n x 0 1 + normDiff n x 0 2 + normDiff n x 1 2) * (normDiff n x 0 2 + normDiff n x 1 2 - normDiff n x 0 1)
        * (normDiff n x 1 2 + normDiff n x 0 1 - normDiff n x 0 2) * (normDiff n x 0 1 + normDiff n x 0 2 - normDiff n x 1 2)
        = 4 * (normDiff n x 0 1 ^ 2 * normDiff n x 0 2 ^ 2) - (normDiff n x 0 1 ^ 2 + normDiff n x 0 2 ^ 2 - normDiff n x 1 2 ^ 2) ^ 2 := by ring
    rw [key, sq', sq', sq', hc]
    unfold gram at g
    nlinarith
  refine ⟨?_, main⟩
  rw [main, triArea, triAreaCommon]
  simp only [kahan_sort]
  rw [← kahan_eq_heron, normDiff_dist, normDiff_dist, normDiff_dist]

/-- C76: a computed side is within `(0.52 n + 4) u` of the distance of the two points,
`u` being half an ulp of one, unless its square is close to the least positive number. -/
theorem C76_side {p : ℕ} {emin : ℤ} {rd : ℝ → ℝ} (h : Nearest p emin rd) (hp : 11 ≤ p) (hemin : emin ≤ -2 * p) (n : Nat)
    (hn : (n + 3 : ℝ) * (2 ^ p)⁻¹ ≤ 1 / 100) (x : Int → Nat → ℝ) (hx : ∀ i k, IsFloat p emin (x i k)) (i1 i2 : Int)
    (hbig : Spec.dist n (x i1) (x i2) = 0 ∨ n * (2 ^ p * 2 ^ emin) ≤ Spec.dist n (x i1) (x i2) ^ 2) :
    |normDiffR rd n x i1 i2 - Spec.dist n (x i1) (x i2)| ≤ (0.52 * n + 4) * (2 ^ p)⁻¹ * Spec.dist n (x i1) (x i2) :=
  side_round h hp n hn x hx i1 i2 hemin hbig

/-- C76 (Kahan): for numbers `a ≥ b ≥ c` of the format with `a ≤ b + c` the formula of the last step does not
give NaN and has a relative error of at most `6.001 u`, however thin the triangle is. -/
theorem C76_kahan {p : ℕ} {emin : ℤ} {rd : ℝ → ℝ} (h : Nearest p emin rd) (hp : 24 ≤ p) (hemin : emin ≤ -2 * p - 4)
    {a b c : ℝ} (ha : IsFloat p emin a) (hb : IsFloat p emin b) (hc : IsFloat p emin c) (hab : b ≤ a) (hbc : c ≤ b)
    (hc0 : 0 ≤ c) (htri : a ≤ b + c) (hbig : 2 ^ p * (2 ^ p * 2 ^ emin) ≤ c ^ 4) :
    ∃ r, kahanR rd a b c = .fin r ∧ |r - heron a b c| ≤ 6.001 * (2 ^ p)⁻¹ * heron a b c :=
  kahan_round h hp hemin ha hb hc hab hbc hc0 htri hbig

/-- C76: for points that are far enough from collinear the result is finite and accurate.  `a`, `b`, `c` are the
three distances; `δ` compares the error of the sides with the three differences of Heron's formula. -/
theorem C76_accuracy_partial {p : ℕ} {emin : ℤ} {rd : ℝ → ℝ} (h : Nearest p emin rd) (hp : 24 ≤ p) (hemin : emin ≤ -2 * p - 4)
    (n : Nat) (hn : (n + 3 : ℝ) * (2 ^ p)⁻¹ ≤ 1 / 100) (x : Int → Nat → ℝ) (hx : ∀ i k, IsFloat p emin (x i k))
    {a b c δ : ℝ} (ha : a = Spec.dist n (x 0) (x 1)) (hb : b = Spec.dist n (x 0) (x 2)) (hc : c = Spec.dist n (x 1) (x 2))
    (hδ0 : 0 ≤ δ) (hδ : δ ≤ 1 / 8)
    (h1 : (0.52 * n + 4) * (2 ^ p)⁻¹ * (a + b + c) ≤ δ * (b + c - a))
    (h2 : (0.52 * n + 4) * (2 ^ p)⁻¹ * (a + b + c) ≤ δ * (c + a - b))
    (h3 : (0.52 * n + 4) * (2 ^ p)⁻¹ * (a + b + c) ≤ δ * (a + b - c))
    (hbig : 2 * (2 ^ p * (2 ^ p * 2 ^ emin)) ≤ a ^ 4 ∧ 2 * (2 ^ p * (2 ^ p * 2 ^ emin)) ≤ b ^ 4
      ∧ 2 * (2 ^ p * (2 ^ p * 2 ^ emin)) ≤ c ^ 4) :
    ∃ r, triAreaR rd n x = .fin r ∧ |r - heron a b c| ≤ (2.2 * δ + 8 * (2 ^ p)⁻¹) * heron a b c := by
  have ha0 : 0 ≤ a := by rw [ha]; exact dist_nonneg' _ _ _
  have hb0 : 0 ≤ b := by rw [hb]; exact dist_nonneg' _ _ _
  have hc0 : 0 ≤ c := by rw [hc]; exact dist_nonneg' _ _ _
  have hs : 0 ≤ (0.52 * n + 4) * ((2 : ℝ) ^ p)⁻¹ * (a + b + c) := by positivity
  rcases hδ0.lt_or_eq with hpos | hz
  · have t : ∀ y : ℝ, 0 ≤ δ * y → 0 ≤ y := fun y hy => nonneg_of_mul_nonneg_right hy hpos
    exact tri_round h hp hemin n hn x hx 0 1 2 ha hb hc hδ h1 h2 h3 (t _ (by linarith)) (t _ (by linarith)) (t _ (by linarith))
      hbig.1 hbig.2.1 hbig.2.2
  · exfalso
    rw [← hz, zero_mul] at h1
    have hX : (0 : ℝ) < 2 ^ p * (2 ^ p * 2 ^ emin) := by positivity
    have hcp : 0 < c := by
      rcases hc0.lt_or_eq with h0 | h0
      · exact h0
      · have := hbig.2.2
        rw [← h0] at this; norm_num at this; linarith
    have : 0 < (0.52 * n + 4) * ((2 : ℝ) ^ p)⁻¹ * (a + b + c) := by positivity
    linarith

/-! ### Where the claim fails -/

/-- The points (0, 0), (1, 1), (4, 4). -/
def line : Int → Nat → ℝ := fun i _ => if i = 0 then 0 else if i = 1 then 1 else 4

theorem float_int {p : ℕ} {emin : ℤ} (m : ℤ) (hm : |m| < 2 ^ p) (h0 : emin ≤ 0) : IsFloat p emin (m : ℝ) := ⟨m, 0, hm, h0, by simp⟩

section
variable {rd : ℝ → ℝ} (h : Nearest 53 (-1074) rd)
include h

theorem rd_int (m : ℤ) (hm : |m| < 2 ^ 53) : rd (m : ℝ) = m := h.exact (float_int m hm (by norm_num))

/-- The roots of 2, 32 and 18 in double precision. -/
theorem rd_roots : rd (Real.sqrt 2) = 6369051672525773 * 2 ^ (-52 : ℤ) ∧ rd (Real.sqrt 32) = 6369051672525773 * 2 ^ (-50 : ℤ)
    ∧ rd (Real.sqrt 18) = 4776788754394329 * 2 ^ (-50 : ℤ) := by
  have go : ∀ (z : ℝ) (m k : ℤ), |m| < 2 ^ 53 → -1074 ≤ k → k - 1 + 1 = k → (2 : ℝ) ^ 53 * 2 ^ (k - 1) ≤ Real.sqrt z → IsFloat 53 (-1074) ((2 : ℝ) ^ 53 * 2 ^ (k - 1))
      → 0 ≤ ((m : ℝ) - 1 / 2) * 2 ^ k → (((m : ℝ) - 1 / 2) * 2 ^ k) ^ 2 < z → z < (((m : ℝ) + 1 / 2) * 2 ^ k) ^ 2 → rd (Real.sqrt z) = m * 2 ^ k := by
    intro z m k hm hk hkk hb hbf hm0 hlo hhi
    have hk0 : (0 : ℝ) < 2 ^ k := by positivity
    have hlo' : ((m : ℝ) - 1 / 2) * 2 ^ k < Real.sqrt z := Real.lt_sqrt hm0 |>.2 hlo
    have hhi' : Real.sqrt z < ((m : ℝ) + 1 / 2) * 2 ^ k := (Real.sqrt_lt' (by nlinarith)).2 hhi
    have hrg := (h (Real.sqrt z)).1.big_grid (k := k - 1) (by
      have h0 := h.mono_float hbf hb
      exact le_trans h0 (le_abs_self _))
    rw [hkk] at hrg
    refine pin h (k := k) ⟨m, k, hm, hk, rfl⟩ ⟨m, rfl⟩ hrg ?_
    rw [abs_lt]; constructor <;> linarith
  have f1 : ∀ j : ℕ, IsFloat 53 (-1074) ((2 : ℝ) ^ j) := fun j =>
    ⟨1, j, by norm_num, by omega, by simp⟩
  refine ⟨?_, ?_, ?_⟩
  · have e : (2 : ℝ) ^ 53 * 2 ^ ((-52 : ℤ) - 1) = 2 ^ 0 := by norm_num
    have := go 2 6369051672525773 (-52) (by norm_num) (by norm_num) (by norm_num) (by rw [e]; exact Real.le_sqrt_of_sq_le (by norm_num)) (by rw [e]; exact f1 0) (by norm_num) (by norm_num) (by norm_num)
    exact_mod_cast this
  · have e : (2 : ℝ) ^ 53 * 2 ^ ((-50 : ℤ) - 1) = 2 ^ 2 := by norm_num
    have := go 32 6369051672525773 (-50) (by norm_num) (by norm_num) (by norm_num) (by rw [e]; exact Real.le_sqrt_of_sq_le (by norm_num)) (by rw [e]; exact f1 2) (by norm_num) (by norm_num) (by norm_num)
    exact_mod_cast this
  · have e : (2 : ℝ) ^ 53 * 2 ^ ((-50 : ℤ) - 1) = 2 ^ 2 := by norm_num
    have := go 18 4776788754394329 (-50) (by norm_num) (by norm_num) (by norm_num) (by rw [e]; exact Real.le_sqrt_of_sq_le (by norm_num)) (by rw [e]; exact f1 2) (by norm_num) (by norm_num) (by norm_num)
    exact_mod_cast this

theorem line_sides : normDiffR rd 2 line 0 1 = 6369051672525773 * 2 ^ (-52 : ℤ) ∧ normDiffR rd 2 line 0 2 = 6369051672525773 * 2 ^ (-50 : ℤ)
    ∧ normDiffR rd 2 line 1 2 = 4776788754394329 * 2 ^ (-50 : ℤ) := by
  obtain ⟨r2, r32, r18⟩ := rd_roots h
  have i := fun m hm => rd_int h m hm
  have i0 := h.round_zero
  have i1 : rd 1 = 1 := by simpa using i 1 (by norm_num)
  have i2 : rd 2 = 2 := by simpa using i 2 (by norm_num)
  have i3 : rd 3 = 3 := by simpa using i 3 (by norm_num)
  have i4 : rd 4 = 4 := by simpa using i 4 (by norm_num)
  have i9 : rd 9 = 9 := by simpa using i 9 (by norm_num)
  have i16 : rd 16 = 16 := by simpa using i 16 (by norm_num)
  have i18 : rd 18 = 18 := by simpa using i 18 (by norm_num)
  have i32 : rd 32 = 32 := by simpa using i 32 (by norm_num)
  refine ⟨?_, ?_, ?_⟩
  · simp only [normDiffR, sumSqDiffR, line]
    norm_num [i0, i1, i2]
    rw [r2]; norm_num
  · simp only [normDiffR, sumSqDiffR, line]
    norm_num [i0, i4, i16, i32]
    rw [r32]; norm_num
  · simp only [normDiffR, sumSqDiffR, line]
    norm_num [i0, i3, i9, i18]
    rw [r18]; norm_num

/-- C76: in double precision `tri_area` of the collinear points (0, 0), (1, 1), (4, 4) is NaN, not 0, under every
rule for ties: the rounded sides do not satisfy the triangle inequality. -/
theorem C76_collinear_violated : triAreaR rd 2 line = .nan ∧ triArea 2 line = 0 := by
  constructor
  · obtain ⟨e1, e2, e3⟩ := line_sides h
    simp only [triAreaR, triAreaCommonR, e1, e2, e3]
    have hs : sort3 (6369051672525773 * 2 ^ (-52 : ℤ)) (6369051672525773 * 2 ^ (-50 : ℤ)) (4776788754394329 * 2 ^ (-50 : ℤ))
        = (6369051672525773 * 2 ^ (-50 : ℤ), 4776788754394329 * 2 ^ (-50 : ℤ), 6369051672525773 * 2 ^ (-52 : ℤ)) := by
      unfold sort3
      rw [if_pos (by norm_num)]
      simp only
      rw [if_neg (by norm_num), if_pos (by norm_num)]
    rw [hs]
    simp only [kahanR]
    have fl1 : IsFloat 53 (-1074) (1 : ℝ) := by simpa using float_int (p := 53) (emin := -1074) 1 (by norm_num) (by norm_num)
    have hd : rd (6369051672525773 * 2 ^ (-50 : ℤ) - 4776788754394329 * 2 ^ (-50 : ℤ)) = 1592262918131444 * 2 ^ (-50 : ℤ) := by
      rw [show (6369051672525773 * 2 ^ (-50 : ℤ) - 4776788754394329 * 2 ^ (-50 : ℤ) : ℝ) = ((1592262918131444 : ℤ) : ℝ) * 2 ^ (-50 : ℤ) by norm_num]
      rw [h.exact ⟨_, _, by norm_num, by norm_num, rfl⟩]; norm_num
    have hf2 : rd (6369051672525773 * 2 ^ (-52 : ℤ) - 1592262918131444 * 2 ^ (-50 : ℤ)) = -3 * 2 ^ (-52 : ℤ) := by
      rw [show (6369051672525773 * 2 ^ (-52 : ℤ) - 1592262918131444 * 2 ^ (-50 : ℤ) : ℝ) = ((-3 : ℤ) : ℝ) * 2 ^ (-52 : ℤ) by norm_num]
      rw [h.exact ⟨_, _, by norm_num, by norm_num, rfl⟩]; norm_num
    rw [hd, hf2]
    have g1 : 1 ≤ rd (6369051672525773 * 2 ^ (-50 : ℤ) + rd (4776788754394329 * 2 ^ (-50 : ℤ) + 6369051672525773 * 2 ^ (-52 : ℤ))) := by
      apply h.mono_float fl1
      have := h.mono_float fl1 (show (1 : ℝ) ≤ 4776788754394329 * 2 ^ (-50 : ℤ) + 6369051672525773 * 2 ^ (-52 : ℤ) by norm_num)
      have e : (0 : ℝ) ≤ 6369051672525773 * 2 ^ (-50 : ℤ) := by positivity
      linarith
    have g3 : 1 ≤ rd (6369051672525773 * 2 ^ (-52 : ℤ) + 1592262918131444 * 2 ^ (-50 : ℤ)) := h.mono_float fl1 (by norm_num)
    have g4 : 1 ≤ rd (6369051672525773 * 2 ^ (-50 : ℤ) + rd (4776788754394329 * 2 ^ (-50 : ℤ) - 6369051672525773 * 2 ^ (-52 : ℤ))) := by
      apply h.mono_float fl1
      have := h.mono_float fl1 (show (1 : ℝ) ≤ 4776788754394329 * 2 ^ (-50 : ℤ) - 6369051672525773 * 2 ^ (-52 : ℤ) by norm_num)
      have e : (0 : ℝ) ≤ 6369051672525773 * 2 ^ (-50 : ℤ) := by positivity
      linarith
    generalize rd (6369051672525773 * 2 ^ (-50 : ℤ) + rd (4776788754394329 * 2 ^ (-50 : ℤ) + 6369051672525773 * 2 ^ (-52 : ℤ))) = F1 at *
    generalize rd (6369051672525773 * 2 ^ (-52 : ℤ) + 1592262918131444 * 2 ^ (-50 : ℤ)) = F3 at *
    generalize rd (6369051672525773 * 2 ^ (-50 : ℤ) + rd (4776788754394329 * 2 ^ (-50 : ℤ) - 6369051672525773 * 2 ^ (-52 : ℤ))) = F4 at *
    obtain ⟨w, hw⟩ : ∃ w : ℝ, w = 3 * 2 ^ (-52 : ℤ) := ⟨_, rfl⟩
    have hw0 : 0 < w := by rw [hw]; positivity
    have hwf : IsFloat 53 (-1074) (-w) := ⟨-3, -52, by norm_num, by norm_num, by rw [hw]; norm_num⟩
    rw [show (-3 * 2 ^ (-52 : ℤ) : ℝ) = -w by rw [hw]; ring]
    have m : ∀ {y F : ℝ}, y ≤ -w → 1 ≤ F → rd (y * F) ≤ -w := fun hy hF => h.mono_float' hwf (by nlinarith)
    have p1 : rd (F1 * -w) ≤ -w := by rw [mul_comm]; exact m le_rfl g1
    rw [if_pos]
    exact lt_of_le_of_lt (m (m p1 g3) g4) (by linarith)
  · rw [C44_plane]; norm_num [line]

/-- The vertices of an equilateral triangle with sides `√2 · 2^-300`. -/
noncomputable def tiny : Int → Nat → ℝ := fun i k => if (k : Int) = i then 2 ^ (-300 : ℤ) else 0

omit h in
theorem tiny_heron : (2 : ℝ) ^ (-601 : ℤ) ≤ heron (Spec.dist 3 (tiny 0) (tiny 1)) (Spec.dist 3 (tiny 0) (tiny 2)) (Spec.dist 3 (tiny 1) (tiny 2)) := by
  have e : ∀ i j : Int, (i, j) = (0, 1) ∨ (i, j) = (0, 2) ∨ (i, j) = (1, 2) → Spec.dist 3 (tiny i) (tiny j) = Real.sqrt (2 * (2 ^ (-300 : ℤ)) ^ 2) := by
    intro i j hij
    rw [Spec.dist]
    congr 1
    rcases hij with h1 | h1 | h1 <;> (obtain ⟨rfl, rfl⟩ := Prod.mk.inj h1) <;>
      (simp only [sum_range_succ, sum_range_zero, tiny]; norm_num; ring)
  rw [e 0 1 (by simp), e 0 2 (by simp), e 1 2 (by simp)]
  obtain ⟨s, hs⟩ : ∃ s : ℝ, s = 2 ^ (-300 : ℤ) := ⟨_, rfl⟩
  have hss : (2 : ℝ) ^ (-601 : ℤ) = s ^ 2 / 2 := by
    rw [hs, ← zpow_natCast, ← zpow_mul]
    rw [show (-601 : ℤ) = -300 * ((2 : ℕ) : ℤ) - 1 by norm_num, zpow_sub_one₀ (by norm_num)]; ring
  rw [← hs, hss]
  obtain ⟨t, ht⟩ : ∃ t, t = Real.sqrt (2 * s ^ 2) := ⟨_, rfl⟩
  have ht2 : t ^ 2 = 2 * s ^ 2 := by rw [ht]; exact Real.sq_sqrt (by positivity)
  rw [← ht]
  simp only [heron]
  apply Real.le_sqrt_of_sq_le
  have : (t + t + t) / 2 * ((t + t + t) / 2 - t) * ((t + t + t) / 2 - t) * ((t + t + t) / 2 - t) = 3 / 16 * (t ^ 2) ^ 2 := by ring
  rw [this, ht2]
  nlinarith [sq_nonneg (s ^ 2)]

/-- C76: in double precision a triangle whose area is a normal number can have computed area zero: the product
under the root underflows before the root is taken. -/
theorem C76_underflow_violated : triAreaR rd 3 tiny = .fin 0
    ∧ (2 : ℝ) ^ (-601 : ℤ) ≤ heron (Spec.dist 3 (tiny 0) (tiny 1)) (Spec.dist 3 (tiny 0) (tiny 2)) (Spec.dist 3 (tiny 1) (tiny 2)) := by
  refine ⟨?_, tiny_heron⟩
  have fz : ∀ k : ℤ, -1074 ≤ k → IsFloat 53 (-1074) ((2 : ℝ) ^ k) := fun k hk => ⟨1, k, by norm_num, hk, by simp⟩
  obtain ⟨s, hs⟩ : ∃ s : ℝ, s = 2 ^ (-300 : ℤ) := ⟨_, rfl⟩
  have hsf : rd s = s := h.exact (hs ▸ fz _ (by norm_num))
  have hsn : rd (-s) = -s := h.exact ⟨-1, -300, by norm_num, by norm_num, by rw [hs]; norm_num⟩
  have hq : s * s = 2 ^ (-600 : ℤ) := by rw [hs, ← zpow_add₀ (by norm_num)]; norm_num
  have hq2 : s * s + s * s = 2 ^ (-599 : ℤ) := by
    rw [hq, show (-599 : ℤ) = -600 + 1 by norm_num, zpow_add_one₀ (by norm_num)]; ring
  have hqf : rd (s * s) = s * s := h.exact (hq ▸ fz _ (by norm_num))
  have hq2f : rd (s * s + s * s) = s * s + s * s := h.exact (hq2 ▸ fz _ (by norm_num))
  have h0 := h.round_zero
  have side : ∀ i j : Int, (i, j) = (0, 1) ∨ (i, j) = (0, 2) ∨ (i, j) = (1, 2) → normDiffR rd 3 tiny i j = rd (Real.sqrt (s * s + s * s)) := by
    intro i j hij
    rcases hij with h1 | h1 | h1 <;> (obtain ⟨rfl, rfl⟩ := Prod.mk.inj h1) <;>
      (simp only [normDiffR, sumSqDiffR, tiny]
       rw [← hs]
       norm_num [h0, hsf, hsn, hqf, hq2f])
  simp only [triAreaR, triAreaCommonR]
  rw [side 0 1 (by simp), side 0 2 (by simp), side 1 2 (by simp)]
  have hL0 : 0 ≤ rd (Real.sqrt (s * s + s * s)) := h.mono_float isFloat_zero (Real.sqrt_nonneg _)
  have hL1 : rd (Real.sqrt (s * s + s * s)) ≤ 2 ^ (-299 : ℤ) := by
    apply h.mono_float' (fz _ (by norm_num))
    apply Real.sqrt_le_iff.2 ⟨by positivity, ?_⟩
    rw [hq2, ← zpow_natCast, ← zpow_mul]
    exact zpow_le_zpow_right₀ (by norm_num) (by norm_num)
  have hLf : rd (rd (Real.sqrt (s * s + s * s))) = rd (Real.sqrt (s * s + s * s)) := h.exact (h _).1
  generalize rd (Real.sqrt (s * s + s * s)) = L at *
  have hs3 : sort3 L L L = (L, L, L) := by unfold sort3; simp
  rw [hs3]
  simp only [kahanR, sub_self, h0, sub_zero, add_zero, hLf]
  have dbl : ∀ k : ℤ, (2 : ℝ) ^ (k + 1) = 2 * 2 ^ k := fun k => by rw [zpow_add_one₀ (by norm_num)]; ring
  have a1 : 0 ≤ rd (L + L) := h.mono_float isFloat_zero (by linarith)
  have a2 : rd (L + L) ≤ 2 ^ (-298 : ℤ) := h.mono_float' (fz _ (by norm_num)) (by
    rw [show (-298 : ℤ) = -299 + 1 by norm_num, dbl]; linarith)
  have b1 : 0 ≤ rd (L + rd (L + L)) := h.mono_float isFloat_zero (by linarith)
  have b2 : rd (L + rd (L + L)) ≤ 2 ^ (-297 : ℤ) := h.mono_float' (fz _ (by norm_num)) (by
    have e1 := dbl (-298)
    have e2 := dbl (-299)
    norm_num only at e1 e2 a2 hL1 ⊢
    linarith)
  generalize rd (L + rd (L + L)) = F1 at *
  have mul : ∀ {y : ℝ} (k : ℤ), 0 ≤ y → y ≤ 2 ^ k → 0 ≤ y * L ∧ y * L ≤ 2 ^ (k - 299) := by
    intro y k hy0 hy
    refine ⟨mul_nonneg hy0 hL0, ?_⟩
    calc y * L ≤ 2 ^ k * 2 ^ (-299 : ℤ) := mul_le_mul hy hL1 hL0 (by positivity)
      _ = 2 ^ (k - 299) := by rw [← zpow_add₀ (by norm_num)]; rfl
  have c := mul (-297) b1 b2
  have c1 := h.mono_float isFloat_zero c.1
  have c2 := h.mono_float' (fz _ (by norm_num)) c.2
  generalize rd (F1 * L) = P1 at *
  have d := mul _ c1 c2
  have d1 := h.mono_float isFloat_zero d.1
  have d2 := h.mono_float' (fz _ (by norm_num)) d.2
  generalize rd (P1 * L) = P2 at *
  have e := mul _ d1 d2
  have z : rd (P2 * L) = 0 := by
    refine pin h (k := -1074) isFloat_zero ⟨0, by simp⟩ (h _).1.grid ?_
    rw [zero_sub, abs_neg, abs_of_nonneg e.1]
    refine lt_of_le_of_lt e.2 ?_
    rw [show (2 : ℝ) ^ (-1074 : ℤ) / 2 = 2 ^ (-1075 : ℤ) by
      rw [show (-1074 : ℤ) = -1075 + 1 by norm_num, dbl]; ring]
    exact zpow_lt_zpow_right₀ (by norm_num) (by norm_num)
  rw [z]
  simp [h0]

end

/-! ### The hypotheses can be met -/

/-- The right triangle (0, 0), (3, 0), (0, 4). -/
def right345 : Int → Nat → ℝ := fun i k => if i = 1 ∧ k = 0 then 3 else if i = 2 ∧ k = 1 then 4 else 0

theorem right345_sides : (3 : ℝ) = Spec.dist 2 (right345 0) (right345 1) ∧ (4 : ℝ) = Spec.dist 2 (right345 0) (right345 2)
    ∧ (5 : ℝ) = Spec.dist 2 (right345 1) (right345 2) := by
  have e : ∀ y : ℝ, 0 ≤ y → ∀ z, z = y ^ 2 → y = Real.sqrt z := fun y hy z hz => by rw [hz, Real.sqrt_sq hy]
  refine ⟨?_, ?_, ?_⟩ <;> (rw [Spec.dist]; apply e _ (by norm_num); simp only [sum_range_succ, sum_range_zero, right345]; norm_num)

/-- In double precision the area of the 3-4-5 triangle is 6 up to 80 units of `2^-53`, relatively. -/
example : ∃ rd : ℝ → ℝ, Nearest 53 (-1074) rd ∧ ∃ r, triAreaR rd 2 right345 = .fin r ∧ |r - 6| ≤ 80 * (2 ^ 53)⁻¹ * 6 := by
  obtain ⟨rd, h⟩ := exists_nearest (K := ℝ) (p := 53) (by norm_num) (-1074)
  refine ⟨rd, h, ?_⟩
  obtain ⟨e1, e2, e3⟩ := right345_sides
  have tinyb : (2 : ℝ) * (2 ^ 53 * (2 ^ 53 * 2 ^ (-1074 : ℤ))) ≤ 1 := by
    have e : (2 : ℝ) ^ (-1074 : ℤ) ≤ 2 ^ (-107 : ℤ) := zpow_le_zpow_right₀ (by norm_num) (by norm_num)
    generalize (2 : ℝ) ^ (-1074 : ℤ) = y at *
    norm_num at e ⊢
    linarith
  obtain ⟨r, hr, he⟩ := C76_accuracy_partial h (by norm_num) (by norm_num) 2 (by norm_num) right345
    (fun i k => by
      unfold right345
      split_ifs
      · exact_mod_cast float_int (p := 53) (emin := -1074) 3 (by norm_num) (by norm_num)
      · exact_mod_cast float_int (p := 53) (emin := -1074) 4 (by norm_num) (by norm_num)
      · exact isFloat_zero)
    e1 e2 e3 (δ := 32 * (2 ^ 53)⁻¹) (by norm_num) (by norm_num) (by norm_num) (by norm_num) (by norm_num)
    ⟨by linarith, by linarith, by linarith⟩
  refine ⟨r, hr, ?_⟩
  have e6 : heron 3 4 5 = 6 := by
    rw [heron, show ((3 : ℝ) + 4 + 5) / 2 * ((3 + 4 + 5) / 2 - 3) * ((3 + 4 + 5) / 2 - 4) * ((3 + 4 + 5) / 2 - 5) = 6 ^ 2 by norm_num]
    exact Real.sqrt_sq (by norm_num)
  rw [e6] at he
  refine le_trans he ?_
  norm_num

/-- Kahan's theorem covers thin triangles: sides 2^52 + 1, 2^52, 1 + 2^-52 in double. -/
example : ∃ rd : ℝ → ℝ, Nearest 53 (-1074) rd ∧ ∃ r, kahanR rd (2 ^ 52 + 1) (2 ^ 52) (1 + 2 ^ (-52 : ℤ)) = .fin r
    ∧ |r - heron (2 ^ 52 + 1) (2 ^ 52) (1 + 2 ^ (-52 : ℤ))| ≤ 6.001 * (2 ^ 53)⁻¹ * heron (2 ^ 52 + 1) (2 ^ 52) (1 + 2 ^ (-52 : ℤ)) := by
  obtain ⟨rd, h⟩ := exists_nearest (K := ℝ) (p := 53) (by norm_num) (-1074)
  refine ⟨rd, h, ?_⟩
  have tinyb : (2 : ℝ) ^ 53 * (2 ^ 53 * 2 ^ (-1074 : ℤ)) ≤ 1 := by
    have e : (2 : ℝ) ^ (-1074 : ℤ) ≤ 2 ^ (-107 : ℤ) := zpow_le_zpow_right₀ (by norm_num) (by norm_num)
    generalize (2 : ℝ) ^ (-1074 : ℤ) = y at *
    norm_num at e ⊢
    linarith
  exact C76_kahan h (by norm_num) (by norm_num) ⟨2 ^ 52 + 1, 0, by norm_num, by norm_num, by norm_num⟩
    ⟨2 ^ 52, 0, by norm_num, by norm_num, by norm_num⟩ ⟨2 ^ 52 + 1, -52, by norm_num, by norm_num, by norm_num⟩
    (by norm_num) (by norm_num) (by positivity) (by norm_num) (le_trans tinyb (one_le_pow₀ (by norm_num)))

/-- `C76_side` applies to the collinear points of `C76_collinear_violated`: its sides are fine, the formula is not. -/
example {rd : ℝ → ℝ} (h : Nearest 53 (-1074) rd) :
    |normDiffR rd 2 line 0 1 - Spec.dist 2 (line 0) (line 1)| ≤ (0.52 * (2 : ℕ) + 4) * (2 ^ 53)⁻¹ * Spec.dist 2 (line 0) (line 1) := by
  have e : Spec.dist 2 (line 0) (line 1) ^ 2 = 2 := by
    rw [Spec.dist, Real.sq_sqrt (sum_nonneg fun j _ => sq_nonneg _)]
    simp only [sum_range_succ, sum_range_zero, line]; norm_num
  have tinyb : ((2 : ℕ) : ℝ) * (2 ^ 53 * 2 ^ (-1074 : ℤ)) ≤ 1 := by
    have e : (2 : ℝ) ^ (-1074 : ℤ) ≤ 2 ^ (-107 : ℤ) := zpow_le_zpow_right₀ (by norm_num) (by norm_num)
    generalize (2 : ℝ) ^ (-1074 : ℤ) = y at *
    norm_num at e ⊢
    linarith
  refine C76_side h (by norm_num) (by norm_num) 2 (by norm_num) line (fun i k => ?_) 0 1 (Or.inr (by rw [e]; linarith))
  unfold line
  split_ifs
  · exact isFloat_zero
  · exact_mod_cast float_int (p := 53) (emin := -1074) 1 (by norm_num) (by norm_num)
  · exact_mod_cast float_int (p := 53) (emin := -1074) 4 (by norm_num) (by norm_num)

end Ufunclab.TriArea
