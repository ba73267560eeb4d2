import Verif.Proof.PmeanSmall
/-!
# Auxiliary facts for C84: the branch of pmean for tiny orders
-/
namespace Ufunclab.Float

/-- The variance of the logarithms with rounding: `Q`, `m` the exact means. -/
theorem tiny_var {u η K Λ Q m Q' m' s d : ℝ} (hu0 : 0 ≤ u) (hΛ : 1 ≤ Λ) (huK : u ≤ K) (hKΛ : K * Λ ≤ 1 / 50) (hη0 : 0 ≤ η) (hη : η ≤ 0.001 * u)
    (hQ : Q ≤ Λ ^ 2) (hm : |m| ≤ Λ) (hmQ : m ^ 2 ≤ Q) (hQ' : |Q' - Q| ≤ 2.2 * (K * Λ ^ 2)) (hm' : |m' - m| ≤ 1.03 * (K * Λ))
    (hs : |s - m' * m'| ≤ u * |m' * m'| + η / 2) (hd : |d - (Q' - s)| ≤ u * |Q' - s| + η / 2) :
    |d - (Q - m ^ 2)| ≤ 6.5 * (K * Λ ^ 2) ∧ |d| ≤ 1.13 * Λ ^ 2 := by
  have hK0 : 0 ≤ K := hu0.trans huK
  have hΛ0 : 0 < Λ := by linarith
  have hKΛ2 : K * Λ ^ 2 ≤ 1 / 50 * Λ := by
    have := mul_le_mul_of_nonneg_right hKΛ hΛ0.le
    linarith [show K * Λ * Λ = K * Λ ^ 2 by ring]
  have hΛΛ : Λ ≤ Λ ^ 2 := by nlinarith
  have h1 : (1 : ℝ) ≤ Λ ^ 2 := by linarith
  have huΛ : u * Λ ^ 2 ≤ K * Λ ^ 2 := mul_le_mul_of_nonneg_right huK (by positivity)
  have hηK : η ≤ 0.001 * (K * Λ ^ 2) := by
    have : u * 1 ≤ u * Λ ^ 2 := mul_le_mul_of_nonneg_left h1 hu0
    norm_num at *; linarith
  have ha : |m'| ≤ 1.0206 * Λ := by
    have : |m'| ≤ |m' - m| + |m| := by
      calc |m'| = |(m' - m) + m| := by congr 1; ring
        _ ≤ _ := abs_add_le _ _
    norm_num at *; linarith
  have hsum : |m' + m| ≤ 2.0206 * Λ := (abs_add_le _ _).trans (by norm_num at *; linarith)
  have hsq : |m' * m' - m ^ 2| ≤ 2.09 * (K * Λ ^ 2) := by
    have e : m' * m' - m ^ 2 = (m' - m) * (m' + m) := by ring
    rw [e, abs_mul]
    have := mul_le_mul hm' hsum (abs_nonneg _) (by positivity)
    have k : 0 ≤ K * Λ ^ 2 := by positivity
    have e2 : 1.03 * (K * Λ) * (2.0206 * Λ) = 1.03 * 2.0206 * (K * Λ ^ 2) := by ring
    rw [e2] at this
    norm_num at *; linarith
  have hsq2 : |m' * m'| ≤ 1.05 * Λ ^ 2 := by
    have e3 : |m' * m'| ≤ |m' * m' - m ^ 2| + |m ^ 2| := by
      calc |m' * m'| = |(m' * m' - m ^ 2) + m ^ 2| := by congr 1; ring
        _ ≤ _ := abs_add_le _ _
    rw [abs_mul]
    have := mul_le_mul ha ha (abs_nonneg _) (by positivity)
    have e2 : 1.0206 * Λ * (1.0206 * Λ) = 1.0206 * 1.0206 * Λ ^ 2 := by ring
    rw [e2] at this
    norm_num at *; linarith
  have hs2 : |s - m ^ 2| ≤ 3.15 * (K * Λ ^ 2) := by
    have k := mul_le_mul_of_nonneg_left hsq2 hu0
    calc |s - m ^ 2| = |(s - m' * m') + (m' * m' - m ^ 2)| := by congr 1; ring
      _ ≤ _ := abs_add_le _ _
      _ ≤ _ := by norm_num at *; linarith
  have hdiff : |(Q' - s) - (Q - m ^ 2)| ≤ 5.35 * (K * Λ ^ 2) := by
    calc |(Q' - s) - (Q - m ^ 2)| = |(Q' - Q) + (m ^ 2 - s)| := by congr 1; ring
      _ ≤ _ := abs_add_le _ _
      _ ≤ _ := by rw [abs_sub_comm (m ^ 2)]; norm_num at *; linarith
  have hv0 : |Q - m ^ 2| ≤ Λ ^ 2 := by rw [abs_le]; constructor <;> nlinarith [sq_nonneg m]
  have hdiff2 : |Q' - s| ≤ 1.107 * Λ ^ 2 := by
    have : |Q' - s| ≤ |(Q' - s) - (Q - m ^ 2)| + |Q - m ^ 2| := by
      calc |Q' - s| = |((Q' - s) - (Q - m ^ 2)) + (Q - m ^ 2)| := by congr 1; ring
        _ ≤ _ := abs_add_le _ _
    norm_num at *; linarith
  have k := mul_le_mul_of_nonneg_left hdiff2 hu0
  have r1 : |d - (Q - m ^ 2)| ≤ 6.5 * (K * Λ ^ 2) := by
    calc |d - (Q - m ^ 2)| = |(d - (Q' - s)) + ((Q' - s) - (Q - m ^ 2))| := by congr 1; ring
      _ ≤ _ := abs_add_le _ _
      _ ≤ _ := by norm_num at *; linarith
  refine ⟨r1, ?_⟩
  have r2 : |d| ≤ |d - (Q - m ^ 2)| + |Q - m ^ 2| := by
    calc |d| = |(d - (Q - m ^ 2)) + (Q - m ^ 2)| := by congr 1; ring
      _ ≤ _ := abs_add_le _ _
  norm_num at *; linarith

theorem tiny_product {u η ε X Y w t3 g g' r : ℝ} (hu0 : 0 < u) (hu : u ≤ 1 / 1000) (hε0 : 0 ≤ ε) (hε : ε ≤ 1 / 1000) (hη0 : 0 ≤ η) (hηu : η ≤ 0.001 * u)
    (hX0 : 0 ≤ X) (hX1 : X ≤ 1 / 50) (hY0 : 0 ≤ Y) (hKΛ : Y ≤ 1 / 50) (e5 : |t3 - w| ≤ 3.85 * X + 2.25 * u) (hw0 : 1 / 2 ≤ w) (hw1 : w ≤ 3 / 2)
    (hg : 0 < g) (hg' : |g' - g| ≤ (1.1 * Y + 1.1 * ε + η) * g + η) (hr : |r - g' * t3| ≤ u * |g' * t3| + η / 2) :
    |r - g * w| ≤ (1.3 * Y + 8 * X + 1.3 * ε + 6 * u) * (g * w) + 2.3 * η := by
  have f1 : |t3| ≤ 1.16 * w := by
    have : |t3| ≤ |t3 - w| + |w| := by
      calc |t3| = |(t3 - w) + w| := by congr 1; ring
        _ ≤ _ := abs_add_le _ _
    rw [abs_of_nonneg (by linarith : 0 ≤ w)] at this
    norm_num at *; linarith
  have f2 : |g' * t3 - g * w| ≤ (1.276 * Y + 1.276 * ε + 1.16 * η + 7.7 * X + 4.5 * u) * (g * w) + 1.74 * η := by
    have a1 : g' * t3 - g * w = (g' - g) * t3 + g * (t3 - w) := by ring
    rw [a1]
    refine (abs_add_le _ _).trans ?_
    rw [abs_mul, abs_mul, abs_of_pos hg]
    have a2 := mul_le_mul hg' f1 (abs_nonneg _) (by positivity)
    have a3 : 3.85 * X + 2.25 * u ≤ (7.7 * X + 4.5 * u) * w := by
      have := mul_le_mul_of_nonneg_left hw0 (by positivity : 0 ≤ 7.7 * X + 4.5 * u)
      norm_num at *; linarith
    have a4 := mul_le_mul_of_nonneg_left (e5.trans a3) hg.le
    have a5 : ((1.1 * Y + 1.1 * ε + η) * g + η) * (1.16 * w) = (1.276 * Y + 1.276 * ε + 1.16 * η) * (g * w) + 1.16 * η * w := by ring
    have a6 : η * w ≤ η * (3 / 2) := mul_le_mul_of_nonneg_left hw1 hη0
    rw [a5] at a2
    norm_num at *; linarith
  have hgw : 0 < g * w := mul_pos hg (by linarith)
  have f3 : |g' * t3| ≤ 1.2 * (g * w) + 1.74 * η := by
    have : |g' * t3| ≤ |g' * t3 - g * w| + |g * w| := by
      calc |g' * t3| = |(g' * t3 - g * w) + g * w| := by congr 1; ring
        _ ≤ _ := abs_add_le _ _
    rw [abs_of_pos hgw] at this
    have k : (1.276 * Y + 1.276 * ε + 1.16 * η + 7.7 * X + 4.5 * u) * (g * w) ≤ 0.2 * (g * w) := by
      apply mul_le_mul_of_nonneg_right _ hgw.le
      clear * - hKΛ hε hηu hX1 hu
      norm_num at *; linarith
    clear * - this k f2
    norm_num at *; linarith
  have f4 := mul_le_mul_of_nonneg_left f3 hu0.le
  have f5 : u * η ≤ 1 / 1000 * η := mul_le_mul_of_nonneg_right hu hη0
  have f6 : (1.276 * Y + 1.276 * ε + 1.16 * η + 7.7 * X + 4.5 * u + 1.2 * u) * (g * w) ≤ (1.3 * Y + 8 * X + 1.3 * ε + 6 * u) * (g * w) := by
    apply mul_le_mul_of_nonneg_right _ hgw.le
    clear * - hY0 hε0 hηu hX0 hu0
    norm_num at *; linarith
  calc |r - g * w| = |(r - g' * t3) + (g' * t3 - g * w)| := by congr 1; ring
    _ ≤ _ := abs_add_le _ _
    _ ≤ _ := by
      clear * - hr f2 f4 f5 f6 hη0
      generalize g * w = G at *
      norm_num at *; linarith

/-- The last steps: `t1 = q/2`, `t2 = t1·var`, `t3 = 1 + t2`, the product with the geometric mean. -/
theorem tiny_finish {u η ε K Λ q v v' t1 t2 t3 g g' r : ℝ} (hu0 : 0 < u) (hu : u ≤ 1 / 1000) (hΛ : 1 ≤ Λ) (huK : u ≤ K) (hKΛ : K * Λ ≤ 1 / 50) (hε0 : 0 ≤ ε)
    (hε : ε ≤ 1 / 1000)
    (hη0 : 0 ≤ η) (hη : η ≤ u * u * u * u) (hqΛ : |q| * Λ ^ 2 ≤ 1) (hv0 : 0 ≤ v) (hv : v ≤ Λ ^ 2) (hv' : |v' - v| ≤ 6.5 * (K * Λ ^ 2)) (hva : |v'| ≤ 1.13 * Λ ^ 2)
    (h1 : |t1 - 1 / 2 * q| ≤ u * |1 / 2 * q| + η / 2) (h2 : |t2 - t1 * v'| ≤ u * |t1 * v'| + η / 2) (h3 : |t3 - (1 + t2)| ≤ u * |1 + t2| + η / 2)
    (hg : 0 < g) (hg' : |g' - g| ≤ (1.1 * (K * Λ) + 1.1 * ε + η) * g + η) (hr : |r - g' * t3| ≤ u * |g' * t3| + η / 2) :
    (0 < 1 + q / 2 * v ∧ 1 + q / 2 * v ≤ 3 / 2) ∧ |r - g * (1 + q / 2 * v)| ≤ (1.3 * (K * Λ) + 8 * (|q| * Λ ^ 2 * K) + 1.3 * ε + 6 * u) * (g * (1 + q / 2 * v)) + 2.3 * η := by
  have hK0 : 0 < K := lt_of_lt_of_le hu0 huK
  have hΛ0 : 0 < Λ := by linarith
  have hΛΛ : Λ ≤ Λ ^ 2 := by nlinarith
  have hKs : K ≤ 1 / 50 := by nlinarith
  have hq0 := abs_nonneg q
  have hηΛ : η * Λ ^ 2 ≤ 0.001 * u := by
    have a1 : u * Λ ≤ 1 / 50 := (mul_le_mul_of_nonneg_right huK hΛ0.le).trans hKΛ
    have a2 : (u * Λ) ^ 2 ≤ (1 / 50) ^ 2 := pow_le_pow_left₀ (by positivity) a1 2
    have a3 : η * Λ ^ 2 ≤ u * u * u * u * Λ ^ 2 := mul_le_mul_of_nonneg_right hη (by positivity)
    have a4 : u * u * ((u * Λ) ^ 2) ≤ u * u * (1 / 50) ^ 2 := mul_le_mul_of_nonneg_left a2 (by positivity)
    have a5 : u * u ≤ 1 / 1000 * u := mul_le_mul_of_nonneg_right hu hu0.le
    have a6 : u * u * u * u * Λ ^ 2 = u * u * ((u * Λ) ^ 2) := by ring
    norm_num at *; linarith
  have hηu : η ≤ 0.001 * u := by
    have := mul_le_mul_of_nonneg_left (show (1 : ℝ) ≤ Λ ^ 2 by linarith) hη0
    linarith
  obtain ⟨X, hX⟩ : ∃ X, X = |q| * Λ ^ 2 * K := ⟨_, rfl⟩
  have hX0 : 0 ≤ X := by rw [hX]; positivity
  have hX1 : X ≤ 1 / 50 := by rw [hX]; nlinarith
  have huX : |q| * Λ ^ 2 * u ≤ X := by rw [hX]; exact mul_le_mul_of_nonneg_left huK (by positivity)
  have hab : |1 / 2 * q| = 1 / 2 * |q| := by rw [abs_mul]; norm_num
  rw [hab] at h1
  have hdd : |q / 2 * v| ≤ 1 / 2 := by
    rw [abs_mul, abs_of_nonneg hv0, abs_div, abs_two]
    have := mul_le_mul_of_nonneg_left hv hq0
    linarith
  have e1 : |t1 * v' - q / 2 * v| ≤ 3.85 * X + 0.001 * u := by
    have a1 : t1 * v' - q / 2 * v = (t1 - 1 / 2 * q) * v' + q / 2 * (v' - v) := by ring
    rw [a1]
    refine (abs_add_le _ _).trans ?_
    rw [abs_mul, abs_mul, abs_div, abs_two]
    have a2 := mul_le_mul h1 hva (abs_nonneg _) (by positivity)
    have a3 := mul_le_mul_of_nonneg_left hv' (by positivity : 0 ≤ |q| / 2)
    have a4 : |q| / 2 * (6.5 * (K * Λ ^ 2)) = 3.25 * X := by rw [hX]; ring
    have a5 : (u * (1 / 2 * |q|) + η / 2) * (1.13 * Λ ^ 2) = 0.565 * (|q| * Λ ^ 2 * u) + 0.565 * (η * Λ ^ 2) := by ring
    rw [a4] at a3
    rw [a5] at a2
    norm_num at *; linarith
  have e2 : |t1 * v'| ≤ 0.58 := by
    have : |t1 * v'| ≤ |t1 * v' - q / 2 * v| + |q / 2 * v| := by
      calc |t1 * v'| = |(t1 * v' - q / 2 * v) + q / 2 * v| := by congr 1; ring
        _ ≤ _ := abs_add_le _ _
    norm_num at *; linarith
  have e3 : |t2 - q / 2 * v| ≤ 3.85 * X + 0.6 * u := by
    have k := mul_le_mul_of_nonneg_left e2 hu0.le
    calc |t2 - q / 2 * v| = |(t2 - t1 * v') + (t1 * v' - q / 2 * v)| := by congr 1; ring
      _ ≤ _ := abs_add_le _ _
      _ ≤ _ := by norm_num at *; linarith
  have e4 : |1 + t2| ≤ 1.6 := by
    have : |1 + t2| ≤ |t2 - q / 2 * v| + |1 + q / 2 * v| := by
      calc |1 + t2| = |(t2 - q / 2 * v) + (1 + q / 2 * v)| := by congr 1; ring
        _ ≤ _ := abs_add_le _ _
    have k : |1 + q / 2 * v| ≤ 1 + 1 / 2 := (abs_add_le _ _).trans (by rw [abs_one]; linarith)
    norm_num at *; linarith
  have e5 : |t3 - (1 + q / 2 * v)| ≤ 3.85 * X + 2.25 * u := by
    have k := mul_le_mul_of_nonneg_left e4 hu0.le
    calc |t3 - (1 + q / 2 * v)| = |(t3 - (1 + t2)) + (t2 - q / 2 * v)| := by congr 1; ring
      _ ≤ _ := abs_add_le _ _
      _ ≤ _ := by norm_num at *; linarith
  have hw0 : 1 / 2 ≤ 1 + q / 2 * v := by have := (abs_le.1 hdd).1; linarith
  have hw1 : 1 + q / 2 * v ≤ 3 / 2 := by have := (abs_le.1 hdd).2; linarith
  refine ⟨⟨by linarith, hw1⟩, ?_⟩
  rw [← hX]
  have hY0 : 0 ≤ K * Λ := by positivity
  exact tiny_product hu0 hu hε0 hε hη0 hηu hX0 hX1 hY0 hKΛ e5 hw0 hw1 hg hg' hr

end Ufunclab.Float
