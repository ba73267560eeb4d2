import Verif.Proof.TriAreaSide
namespace Ufunclab.TriArea
open Finset Float Spec

/-! ### Exact arithmetic -/

theorem sumSqDiffR_id (x : Int → Nat → ℝ) (i1 i2 : Int) (fuel k : Nat) (s : ℝ) :
    sumSqDiffR id x i1 i2 fuel k s = sumSqDiff x i1 i2 fuel k s := by
  induction fuel generalizing k s with
  | zero => rfl
  | succ f ih => simp only [sumSqDiffR, sumSqDiff, id, ih]

theorem normDiff_dist (n : Nat) (x : Int → Nat → ℝ) (i1 i2 : Int) : normDiff n x i1 i2 = Spec.dist n (x i1) (x i2) := by
  rw [normDiff_eq, Spec.dist]
  congr 1
  exact sum_congr rfl fun j _ => by ring

theorem kahanR_id (a b c : ℝ) (h : 0 ≤ (a + (b + c)) * (c - (a - b)) * (c + (a - b)) * (a + (b - c))) :
    kahanR id a b c = .fin (kahan a b c) := by
  simp only [kahanR, kahan, id]
  rw [if_neg (not_lt.2 h)]

/-- The product under the root is the same for every order of the sides. -/
theorem product_sort (a b c : ℝ) :
    ((sort3 a b c).1 + ((sort3 a b c).2.1 + (sort3 a b c).2.2)) * ((sort3 a b c).2.2 - ((sort3 a b c).1 - (sort3 a b c).2.1))
      * ((sort3 a b c).2.2 + ((sort3 a b c).1 - (sort3 a b c).2.1)) * ((sort3 a b c).1 + ((sort3 a b c).2.1 - (sort3 a b c).2.2))
    = (a + b + c) * (b + c - a) * (c + a - b) * (a + b - c) := by
  unfold sort3
  split_ifs <;> simp only <;> split_ifs <;> simp only <;> ring

theorem heron_sort (a b c : ℝ) : heron (sort3 a b c).1 (sort3 a b c).2.1 (sort3 a b c).2.2 = heron a b c := by
  rw [kahan_eq_heron, kahan_eq_heron, kahan_sort]

/-- `sort3` returns its arguments in decreasing order; any property of all three is kept. -/
theorem sort3_spec (P : ℝ → Prop) (a b c : ℝ) (ha : P a) (hb : P b) (hc : P c) (h1 : a ≤ b + c) (h2 : b ≤ c + a) (h3 : c ≤ a + b) :
    (sort3 a b c).2.1 ≤ (sort3 a b c).1 ∧ (sort3 a b c).2.2 ≤ (sort3 a b c).2.1
      ∧ P (sort3 a b c).1 ∧ P (sort3 a b c).2.1 ∧ P (sort3 a b c).2.2
      ∧ (sort3 a b c).1 ≤ (sort3 a b c).2.1 + (sort3 a b c).2.2 := by
  unfold sort3
  split_ifs <;> simp only <;> split_ifs <;> simp only <;>
    exact ⟨by linarith, by linarith, by assumption, by assumption, by assumption, by linarith⟩

/-! ### Comparing two Heron formulas -/

theorem heron_perturb {a b c a' b' c' ε δ : ℝ} (ha : 0 ≤ a) (hb : 0 ≤ b) (hc : 0 ≤ c)
    (ea : |a' - a| ≤ ε * a) (eb : |b' - b| ≤ ε * b) (ec : |c' - c| ≤ ε * c) (hδ0 : 0 ≤ δ) (hδ1 : δ ≤ 1)
    (h1 : ε * (a + b + c) ≤ δ * (b + c - a)) (h2 : ε * (a + b + c) ≤ δ * (c + a - b)) (h3 : ε * (a + b + c) ≤ δ * (a + b - c))
    (t1 : 0 ≤ b + c - a) (t2 : 0 ≤ c + a - b) (t3 : 0 ≤ a + b - c) :
    Within δ 2 (heron a' b' c') (heron a b c) ∧ a' ≤ b' + c' ∧ b' ≤ c' + a' ∧ c' ≤ a' + b' := by
  rw [abs_le] at ea eb ec
  have fac : ∀ {x y : ℝ}, 0 ≤ y → |x - y| ≤ δ * y → Within δ 1 x y := by
    intro x y hy hxy
    exact Within.of_err hδ0 hδ1 hy (by rwa [abs_of_nonneg hy])
  have f1 : Within δ 1 (a' + b' + c') (a + b + c) := by
    apply fac (by linarith)
    rw [abs_le]
    have : δ * (b + c - a) ≤ δ * (a + b + c) := mul_le_mul_of_nonneg_left (by linarith) hδ0
    constructor <;> linarith
  have f2 : Within δ 1 (b' + c' - a') (b + c - a) := by
    apply fac t1; rw [abs_le]; constructor <;> linarith
  have f3 : Within δ 1 (c' + a' - b') (c + a - b) := by
    apply fac t2; rw [abs_le]; constructor <;> linarith
  have f4 : Within δ 1 (a' + b' - c') (a + b - c) := by
    apply fac t3; rw [abs_le]; constructor <;> linarith
  have P := ((f1.mul hδ0 hδ1 f2).mul hδ0 hδ1 f3).mul hδ0 hδ1 f4
  have Q := Within.sqrt hδ0 hδ1 (k := 2) P
  have e : ∀ a b c : ℝ, heron a b c = Real.sqrt ((a + b + c) * (b + c - a) * (c + a - b) * (a + b - c)) / 4 := by
    intro a b c
    rw [kahan_eq_heron, kahan]
    congr 2; ring
  refine ⟨?_, by linarith [f2.nonneg hδ0 hδ1], by linarith [f3.nonneg hδ0 hδ1], by linarith [f4.nonneg hδ0 hδ1]⟩
  rw [e, e]
  exact ⟨by have := Q.nn; linarith, by have := Q.lo; linarith, by have := Q.hi; linarith⟩

theorem dist_nonneg' (n : Nat) (x y : Nat → ℝ) : 0 ≤ Spec.dist n x y := Real.sqrt_nonneg _

variable {p : ℕ} {emin : ℤ} {rd : ℝ → ℝ}

set_option maxHeartbeats 1000000 in
theorem tri_round (h : Nearest p emin rd) (hp : 24 ≤ p) (hemin : emin ≤ -2 * p - 4) (n : Nat)
    (hn : (n + 3 : ℝ) * (2 ^ p)⁻¹ ≤ 1 / 100) (x : Int → Nat → ℝ) (hx : ∀ i k, IsFloat p emin (x i k)) (i0 i1 i2 : Int)
    {a b c δ : ℝ} (ha : a = Spec.dist n (x i0) (x i1)) (hb : b = Spec.dist n (x i0) (x i2)) (hc : c = Spec.dist n (x i1) (x i2))
    (hδ : δ ≤ 1 / 8)
    (h1 : (0.52 * n + 4) * (2 ^ p)⁻¹ * (a + b + c) ≤ δ * (b + c - a))
    (h2 : (0.52 * n + 4) * (2 ^ p)⁻¹ * (a + b + c) ≤ δ * (c + a - b))
    (h3 : (0.52 * n + 4) * (2 ^ p)⁻¹ * (a + b + c) ≤ δ * (a + b - c))
    (t1 : 0 ≤ b + c - a) (t2 : 0 ≤ c + a - b) (t3 : 0 ≤ a + b - c)
    (ga : 2 * (2 ^ p * (2 ^ p * 2 ^ emin)) ≤ a ^ 4) (gb : 2 * (2 ^ p * (2 ^ p * 2 ^ emin)) ≤ b ^ 4)
    (gc : 2 * (2 ^ p * (2 ^ p * 2 ^ emin)) ≤ c ^ 4) :
    ∃ r, triAreaCommonR rd n x i0 i1 i2 = .fin r ∧ |r - heron a b c| ≤ (2.2 * δ + 8 * (2 ^ p)⁻¹) * heron a b c := by
  have ha0 : 0 ≤ a := by rw [ha]; exact dist_nonneg' _ _ _
  have hb0 : 0 ≤ b := by rw [hb]; exact dist_nonneg' _ _ _
  have hc0 : 0 ≤ c := by rw [hc]; exact dist_nonneg' _ _ _
  have hX : (0 : ℝ) < 2 ^ p * (2 ^ p * 2 ^ emin) := by positivity
  have hu0 : (0 : ℝ) < (2 ^ p)⁻¹ := by positivity
  have hn0 : (0 : ℝ) ≤ n := Nat.cast_nonneg n
  have hcp : 0 < c := by
    rcases hc0.lt_or_eq with h0 | h0
    · exact h0
    · rw [← h0] at gc; norm_num at gc; linarith
  have hε0 : 0 ≤ (0.52 * n + 4) * ((2 : ℝ) ^ p)⁻¹ := by positivity
  have hδ0 : 0 ≤ δ := by
    by_contra hneg
    have hs : 0 < (0.52 * n + 4) * ((2 : ℝ) ^ p)⁻¹ * (a + b + c) := by positivity
    nlinarith
  have hε : (0.52 * n + 4) * ((2 : ℝ) ^ p)⁻¹ ≤ 1 / 100 := by
    have hu2 : ((2 : ℝ) ^ p)⁻¹ ≤ 1 / 16777216 := by
      rw [inv_eq_one_div]
      apply one_div_le_one_div_of_le (by norm_num)
      calc (16777216 : ℝ) = 2 ^ 24 := by norm_num
        _ ≤ 2 ^ p := pow_le_pow_right₀ (by norm_num) hp
    have : 0 ≤ n * ((2 : ℝ) ^ p)⁻¹ := by positivity
    linarith
  -- the sides are far above the underflow threshold
  have big : ∀ d : ℝ, 0 ≤ d → 2 * (2 ^ p * (2 ^ p * 2 ^ emin)) ≤ d ^ 4 → n * (2 ^ p * 2 ^ emin) ≤ d ^ 2 := by
    intro d hd hd4
    have e1 : (n : ℝ) * (2 ^ p * 2 ^ emin) ≤ 2 ^ p * (2 ^ p * 2 ^ emin) := by
      apply mul_le_mul_of_nonneg_right _ (by positivity)
      have : (n : ℝ) * (2 ^ p)⁻¹ ≤ 1 := by linarith
      calc (n : ℝ) = 2 ^ p * (n * (2 ^ p)⁻¹) := by
            rw [mul_comm (n : ℝ), ← mul_assoc, mul_inv_cancel₀ (by positivity), one_mul]
        _ ≤ 2 ^ p * 1 := mul_le_mul_of_nonneg_left this (by positivity)
        _ = 2 ^ p := mul_one _
    have e2 : (2 : ℝ) ^ p * (2 ^ p * 2 ^ emin) ≤ 1 := by
      rw [pow_zpow, pow_zpow]
      calc (2 : ℝ) ^ ((p : ℤ) + (p + emin)) ≤ 2 ^ (0 : ℤ) := zpow_le_zpow_right₀ (by norm_num) (by omega)
        _ = 1 := by norm_num
    refine le_trans e1 ?_
    generalize (2 : ℝ) ^ p * (2 ^ p * 2 ^ emin) = X at *
    by_contra hlt
    have hlt := not_le.1 hlt
    have : d ^ 4 = d ^ 2 * d ^ 2 := by ring
    have h4 : d ^ 2 * d ^ 2 ≤ X * X := mul_le_mul hlt.le hlt.le (sq_nonneg d) hX.le
    nlinarith
  have sa := side_round h (by omega) n hn x hx i0 i1 (by omega) (Or.inr (by rw [← ha]; exact big a ha0 ga))
  have sb := side_round h (by omega) n hn x hx i0 i2 (by omega) (Or.inr (by rw [← hb]; exact big b hb0 gb))
  have sc := side_round h (by omega) n hn x hx i1 i2 (by omega) (Or.inr (by rw [← hc]; exact big c hc0 gc))
  rw [← ha] at sa
  rw [← hb] at sb
  rw [← hc] at sc
  obtain ⟨W, u1, u2, u3⟩ := heron_perturb ha0 hb0 hc0 sa sb sc hδ0 (by linarith) h1 h2 h3 t1 t2 t3
  have big4 : ∀ d d' : ℝ, 0 ≤ d → |d' - d| ≤ (0.52 * n + 4) * (2 ^ p)⁻¹ * d → 2 * (2 ^ p * (2 ^ p * 2 ^ emin)) ≤ d ^ 4 →
      0 ≤ d' ∧ 2 ^ p * (2 ^ p * 2 ^ emin) ≤ d' ^ 4 := by
    intro d d' hd hdd hd4
    have : 0.99 * d ≤ d' := by
      have := (abs_le.1 hdd).1
      have := mul_le_mul_of_nonneg_right hε hd
      linarith
    have h99 : 0 ≤ 0.99 * d := by positivity
    refine ⟨by linarith, ?_⟩
    calc (2 : ℝ) ^ p * (2 ^ p * 2 ^ emin) ≤ d ^ 4 / 2 := by linarith
      _ ≤ (0.99 * d) ^ 4 := by rw [mul_pow]; have : 0 ≤ d ^ 4 := by positivity
                               nlinarith
      _ ≤ d' ^ 4 := pow_le_pow_left₀ h99 this 4
  have fl : ∀ i j, IsFloat p emin (normDiffR rd n x i j) := fun i j => (h _).1
  obtain ⟨s1, s2, q1, q2, q3, s3⟩ := sort3_spec (fun d => IsFloat p emin d ∧ 0 ≤ d ∧ 2 ^ p * (2 ^ p * 2 ^ emin) ≤ d ^ 4) _ _ _
    ⟨fl i0 i1, big4 _ _ ha0 sa ga⟩ ⟨fl i0 i2, big4 _ _ hb0 sb gb⟩ ⟨fl i1 i2, big4 _ _ hc0 sc gc⟩ u1 u2 u3
  obtain ⟨r, hr, he⟩ := kahan_round h hp hemin q1.1 q2.1 q3.1 s1 s2 q3.2.1 s3 q3.2.2
  refine ⟨r, hr, ?_⟩
  rw [heron_sort] at he
  generalize heron (normDiffR rd n x i0 i1) (normDiffR rd n x i0 i2) (normDiffR rd n x i1 i2) = H' at *
  generalize heron a b c = H at *
  have hH := W.nn
  have w1 := W.lo
  have w2 := W.hi
  have k1 : (1 + δ) ^ 2 ≤ 1 + 2.2 * δ := by nlinarith
  have k2 : 1 - 2.2 * δ ≤ (1 - δ) ^ 2 := by nlinarith
  have m1 := mul_le_mul_of_nonneg_right k1 hH
  have m2 := mul_le_mul_of_nonneg_right k2 hH
  have m3 : H' ≤ 1.3 * H := by
    have : (1 + 2.2 * δ) * H ≤ 1.3 * H := mul_le_mul_of_nonneg_right (by linarith) hH
    linarith
  have m4 := mul_le_mul_of_nonneg_left m3 hu0.le
  have m5 : 0 ≤ ((2 : ℝ) ^ p)⁻¹ * H := mul_nonneg hu0.le hH
  have m6 : |H' - H| ≤ 2.2 * δ * H := by rw [abs_le]; constructor <;> linarith
  calc |r - H| ≤ |r - H'| + |H' - H| := abs_sub_le _ _ _
    _ ≤ _ := by linarith

/-! ### Pinning a rounded value -/

/-- The only float on the grid `2^k` closer than half a step. -/
theorem pin (h : Nearest p emin rd) {k : ℤ} {z f : ℝ} (hf : IsFloat p emin f) (hfg : OnGrid k f) (hrg : OnGrid k (rd z))
    (hz : |f - z| < 2 ^ k / 2) : rd z = f := by
  have h1 := (h z).2 f hf
  obtain ⟨a, ha⟩ := hfg
  obtain ⟨b, hb⟩ := hrg
  have h2 : |rd z - f| < 2 ^ k := by
    calc |rd z - f| ≤ |rd z - z| + |z - f| := abs_sub_le _ _ _
      _ < 2 ^ k / 2 + 2 ^ k / 2 := by
          rw [abs_sub_comm z f]
          linarith
      _ = 2 ^ k := by ring
  have h3 : |((b - a : ℤ) : ℝ)| < 1 := by
    rw [hb, ha, ← sub_mul, abs_mul, abs_two_zpow] at h2
    push_cast
    have : (0 : ℝ) < 2 ^ k := by positivity
    nlinarith
  have h4 : b - a = 0 := by
    have : |b - a| < 1 := by exact_mod_cast h3
    exact Int.abs_lt_one_iff.1 this
  rw [hb, ha, show b = a by omega]

end Ufunclab.TriArea
