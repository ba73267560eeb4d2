import Verif.Proof.Log1pSquare
/-! # The accuracy of `xsquared_plus_2x_plus_ysquared` (binary64) -/
set_option exponentiation.threshold 3000
namespace Ufunclab.Log1p
open Ufunclab.Float
variable {K : Type _} [Field K] [LinearOrder K] [IsStrictOrderedRing K] [Archimedean K]
variable {rd : K → K}

/-- The unit roundoff of binary64. -/
def u53 (K : Type _) [Field K] : K := 1 / 2 ^ 53
/-- A bound for everything that underflows. -/
def eta (K : Type _) [Field K] : K := 1 / 2 ^ 800

theorem inv_u53 : ((2 : K) ^ 53)⁻¹ = u53 K := (one_div _).symm

theorem rel53 (h : Nearest 53 (-1074) rd) {a b : K} (ha : IsFloat 53 (-1074) a) (hb : IsFloat 53 (-1074) b) :
    |rd (a + b) - (a + b)| ≤ u53 K * |a + b| := by
  rw [← inv_u53]; exact h.rel_error (by norm_num) (ha.grid.add hb.grid)

theorem rel53_sub (h : Nearest 53 (-1074) rd) {a b : K} (ha : IsFloat 53 (-1074) a) (hb : IsFloat 53 (-1074) b) :
    |rd (a - b) - (a - b)| ≤ u53 K * |a - b| := by
  rw [← inv_u53]; exact h.rel_error (by norm_num) (ha.grid.sub hb.grid)

theorem zpow_neg_nat (n : ℕ) : (2 : K) ^ (-(n : ℤ)) = 1 / 2 ^ n := by
  rw [zpow_neg, zpow_natCast, one_div]

theorem err53 (h : Nearest 53 (-1074) rd) (z : K) : |rd z - z| ≤ u53 K * |z| + eta K := by
  have h1 := h.error (by norm_num) z
  have h2 : (2 : K) ^ (-1074 : ℤ) / 2 ≤ eta K := by
    have : (2 : K) ^ (-1074 : ℤ) = 1 / 2 ^ 1074 := zpow_neg_nat 1074
    rw [this, eta]; norm_num
  rw [inv_u53] at h1
  linarith

theorem square_big (h : Nearest 53 (-1074) rd) (fma : Bool) {x : K} (hx : IsFloat 53 (-1074) x) (hb : 1 / 2 ^ 485 ≤ |x|) :
    (fma = false → (square fma rd x).upper + (square fma rd x).lower = x * x) ∧
    |(square fma rd x).upper + (square fma rd x).lower - x * x| ≤ 8 * (u53 K * u53 K) * (x * x) := by
  have hx0 : x ≠ 0 := by
    rintro rfl
    rw [abs_zero] at hb
    have : (0 : K) < 1 / 2 ^ 485 := by positivity
    linarith
  obtain ⟨k, hk, gk, lk, hn⟩ := hx.normal (by norm_num) hx0
  have hk5 : -537 ≤ k := by
    by_contra hc
    have h1 : k ≤ -538 := by omega
    have h2 : (2 : K) ^ k ≤ 2 ^ (-538 : ℤ) := zpow_le_zpow_right₀ (by norm_num) h1
    have h3 : (2 : K) ^ (-538 : ℤ) = 1 / 2 ^ 538 := zpow_neg_nat 538
    rw [h3] at h2
    have : (2 : K) ^ 53 * (1 / 2 ^ 538) = 1 / 2 ^ 485 := by norm_num
    have h4 : (2 : K) ^ 53 * 2 ^ k ≤ 2 ^ 53 * (1 / 2 ^ 538) := mul_le_mul_of_nonneg_left h2 (by positivity)
    linarith
  have hn' : 2 ^ 52 * 2 ^ k ≤ |x| := by
    rcases hn with rfl | hn
    · omega
    · exact hn
  obtain ⟨-, q2, q3⟩ := square_normal h fma hk (by omega) gk hn' lk
  have hC : (2 : K) ^ 104 * (2 ^ k * 2 ^ k) ≤ x * x := by
    rw [← abs_mul_abs_self x]
    calc (2 : K) ^ 104 * (2 ^ k * 2 ^ k) = (2 ^ 52 * 2 ^ k) * (2 ^ 52 * 2 ^ k) := by ring
      _ ≤ _ := mul_le_mul hn' hn' (by positivity) (abs_nonneg _)
  refine ⟨q2, q3.trans ?_⟩
  have : (8 : K) * (u53 K * u53 K) = 2 / 2 ^ 104 := by rw [u53]; norm_num
  rw [this]; linarith

theorem square_bounds (h : Nearest 53 (-1074) rd) (fma : Bool) {x : K} (hx : IsFloat 53 (-1074) x) :
    |(square fma rd x).upper - x * x| ≤ u53 K * (x * x) + eta K ∧
    |(square fma rd x).lower| ≤ 2 * u53 K * (x * x) + eta K ∧
    |(square fma rd x).upper + (square fma rd x).lower - x * x| ≤ 8 * (u53 K * u53 K) * (x * x) + eta K := by
  have hxx : |x * x| = x * x := abs_mul_self x
  have hxx0 : 0 ≤ x * x := mul_self_nonneg x
  have hη : (0 : K) < eta K := by rw [eta]; positivity
  have hU : |(square fma rd x).upper - x * x| ≤ u53 K * (x * x) + eta K := by
    have := err53 h (x * x)
    rwa [hxx] at this
  rcases le_or_gt (1 / 2 ^ 485) |x| with hb | hs
  · have h3 := (square_big h fma hx hb).2
    refine ⟨hU, ?_, by linarith⟩
    have a1 := abs_le.1 h3
    have a2 := abs_le.1 hU
    have hu : (8 : K) * (u53 K * u53 K) ≤ u53 K := by rw [u53]; norm_num
    have : 8 * (u53 K * u53 K) * (x * x) ≤ u53 K * (x * x) := mul_le_mul_of_nonneg_right hu hxx0
    rw [abs_le]; constructor <;> linarith
  · obtain ⟨t1, t2⟩ := square_tiny h fma x
    have hx2 : x * x ≤ 1 / 2 ^ 970 := by
      rw [← abs_mul_abs_self x]
      calc |x| * |x| ≤ (1 / 2 ^ 485) * (1 / 2 ^ 485) := mul_le_mul hs.le hs.le (abs_nonneg _) (by positivity)
        _ = _ := by norm_num
    have hz : (2 : K) ^ 100 * (1 / 2 ^ 970) ≤ eta K := by rw [eta]; norm_num
    have hu : (0 : K) < u53 K := by rw [u53]; positivity
    have p1 : 0 ≤ 2 * u53 K * (x * x) := by positivity
    have p2 : 0 ≤ 8 * (u53 K * u53 K) * (x * x) := by positivity
    refine ⟨hU, by linarith, ?_⟩
    have a1 := abs_le.1 t1
    have a2 := abs_le.1 t2
    rw [abs_le]; constructor <;> linarith

theorem quick_err (h : Nearest 53 (-1074) rd) {s l : K} (hs : IsFloat 53 (-1074) s) (hl : IsFloat 53 (-1074) l) :
    |(twoSumQuick rd s l).upper - (s + l)| ≤ u53 K * |s + l| ∧
    |(twoSumQuick rd s l).upper + (twoSumQuick rd s l).lower - (s + l)| ≤ 2 * u53 K * |l| := by
  have hr := rel53 h hs hl
  refine ⟨hr, ?_⟩
  have hu : (0 : K) < u53 K := by rw [u53]; positivity
  have hu1 : u53 K ≤ 1 / 1000 := by rw [u53]; norm_num
  rcases le_or_gt |l| |s| with hc | hc
  · rw [twoSumQuick_exact h (by norm_num) hs hl hc, sub_self, abs_zero]; positivity
  · simp only [twoSumQuick]
    set r := rd (s + l) with hrd
    have hrf : IsFloat 53 (-1074) r := (h _).1
    set z := rd (r - s) with hz
    have hzf : IsFloat 53 (-1074) z := (h _).1
    have e1 := rel53_sub h hrf hs
    have e2 := rel53_sub h hl hzf
    rw [← hz] at e1
    have hl0 := abs_nonneg l
    have hul := mul_nonneg hu.le hl0
    have b1 : |r - (s + l)| ≤ u53 K * (2 * |l|) := by
      refine hr.trans (mul_le_mul_of_nonneg_left ?_ hu.le)
      exact (abs_add_le _ _).trans (by linarith)
    have b1' : |r - (s + l)| ≤ |l| / 500 := b1.trans (by nlinarith)
    have b2 : |r - s| ≤ 1.01 * |l| := by
      calc |r - s| = |(r - (s + l)) + l| := by ring_nf
        _ ≤ |r - (s + l)| + |l| := abs_add_le _ _
        _ ≤ _ := by linarith
    have b3 : |z - (r - s)| ≤ u53 K * (1.01 * |l|) := e1.trans (mul_le_mul_of_nonneg_left b2 hu.le)
    have b4 : |l - z| ≤ u53 K * (4 * |l|) := by
      calc |l - z| = |(-(r - (s + l))) + (-(z - (r - s)))| := by ring_nf
        _ ≤ |r - (s + l)| + |z - (r - s)| := by
          refine (abs_add_le _ _).trans ?_
          rw [abs_neg, abs_neg]
        _ ≤ _ := by linarith
    have b5 : |rd (l - z) - (l - z)| ≤ u53 K * (0.01 * |l|) := by
      refine e2.trans (mul_le_mul_of_nonneg_left (b4.trans ?_) hu.le)
      nlinarith
    calc |r + rd (l - z) - (s + l)| = |(rd (l - z) - (l - z)) + (-(z - (r - s)))| := by ring_nf
      _ ≤ |rd (l - z) - (l - z)| + |z - (r - s)| := by
        refine (abs_add_le _ _).trans ?_
        rw [abs_neg]
      _ ≤ _ := by linarith

/-- The accuracy of `double_sum`; `D` bounds the low-order parts. -/
theorem doubleSum_err (h : Nearest 53 (-1074) rd) {X Y : DD K} (h1 : IsFloat 53 (-1074) X.upper)
    (h2 : IsFloat 53 (-1074) X.lower) (h3 : IsFloat 53 (-1074) Y.upper) (h4 : IsFloat 53 (-1074) Y.lower) {D tot : K}
    (hD : u53 K * |X.upper + Y.upper| + 2 * (|X.lower| + |Y.lower|) ≤ D)
    (htot : tot = X.upper + X.lower + (Y.upper + Y.lower)) :
    |(doubleSum rd X Y).upper - tot| ≤ u53 K * |tot| + 3 * u53 K * D ∧
    |(doubleSum rd X Y).upper + (doubleSum rd X Y).lower - tot| ≤ 6 * u53 K * D ∧
    |(doubleSum rd X Y).lower| ≤ 5 * u53 K * D + u53 K * |tot| := by
  have hu : (0 : K) < u53 K := by rw [u53]; positivity
  have hu1 : u53 K ≤ 1 / 1000 := by rw [u53]; norm_num
  have hx0 := abs_nonneg X.lower
  have hy0 := abs_nonneg Y.lower
  have hs0 := abs_nonneg (X.upper + Y.upper)
  have hD0 : 0 ≤ D := le_trans (by positivity) hD
  have ts := twoSum_exact h (by norm_num) h1 h3
  have tsf := twoSum_floats h X.upper Y.upper
  simp only [doubleSum]
  have hse : (twoSum rd X.upper Y.upper).upper = rd (X.upper + Y.upper) := rfl
  set s := (twoSum rd X.upper Y.upper).upper
  set e := (twoSum rd X.upper Y.upper).lower
  have be : |e| ≤ u53 K * |X.upper + Y.upper| := by
    have := rel53 h h1 h3
    rw [← hse] at this
    rw [show e = -(s - (X.upper + Y.upper)) by linarith, abs_neg]; exact this
  have eL1 := rel53 h h2 h4
  set L1 := rd (X.lower + Y.lower) with hL1
  have hxy := abs_add_le X.lower Y.lower
  have hL1f : IsFloat 53 (-1074) L1 := (h _).1
  have eL := rel53 h tsf.2 hL1f
  set L := rd (e + L1) with hL
  have hLf : IsFloat 53 (-1074) L := (h _).1
  have bL1e : |L1 - (X.lower + Y.lower)| ≤ u53 K * (|X.lower| + |Y.lower|) :=
    eL1.trans (mul_le_mul_of_nonneg_left hxy hu.le)
  have bL1 : |L1| ≤ 2 * (|X.lower| + |Y.lower|) := by
    have : |L1| ≤ |L1 - (X.lower + Y.lower)| + |X.lower + Y.lower| := by
      calc |L1| = |(L1 - (X.lower + Y.lower)) + (X.lower + Y.lower)| := by ring_nf
        _ ≤ _ := abs_add_le _ _
    nlinarith
  have beL1 : |e + L1| ≤ D := (abs_add_le _ _).trans (by linarith)
  have bLe : |L - (e + L1)| ≤ u53 K * D := eL.trans (mul_le_mul_of_nonneg_left beL1 hu.le)
  have bL : |L| ≤ 1.01 * D := by
    have : |L| ≤ |L - (e + L1)| + |e + L1| := by
      calc |L| = |(L - (e + L1)) + (e + L1)| := by ring_nf
        _ ≤ _ := abs_add_le _ _
    nlinarith
  obtain ⟨q1, q2⟩ := quick_err h tsf.1 hLf
  have hsl : |s + L - tot| ≤ 1.5 * u53 K * D := by
    have e0 : s + L - tot = (L - (e + L1)) + (L1 - (X.lower + Y.lower)) := by rw [htot]; linarith
    rw [e0]
    refine (abs_add_le _ _).trans ?_
    have : u53 K * (|X.lower| + |Y.lower|) ≤ u53 K * (D / 2) :=
      mul_le_mul_of_nonneg_left (by linarith [mul_nonneg hu.le hs0]) hu.le
    linarith
  have hslt : |s + L| ≤ |tot| + 1.5 * u53 K * D := by
    calc |s + L| = |(s + L - tot) + tot| := by ring_nf
      _ ≤ |s + L - tot| + |tot| := abs_add_le _ _
      _ ≤ _ := by linarith
  have hq1 : |(twoSumQuick rd s L).upper - (s + L)| ≤ u53 K * |tot| + 0.01 * u53 K * D := by
    refine q1.trans ((mul_le_mul_of_nonneg_left hslt hu.le).trans ?_)
    have : u53 K * (1.5 * u53 K * D) ≤ u53 K * (0.01 * D) := by
      apply mul_le_mul_of_nonneg_left _ hu.le
      nlinarith
    linarith
  have hq2 : |(twoSumQuick rd s L).upper + (twoSumQuick rd s L).lower - (s + L)| ≤ 2.1 * u53 K * D := by
    refine q2.trans ?_
    have := mul_le_mul_of_nonneg_left bL (show (0 : K) ≤ 2 * u53 K by linarith)
    have p : 0 ≤ u53 K * D := mul_nonneg hu.le hD0
    linarith
  have p : 0 ≤ u53 K * D := mul_nonneg hu.le hD0
  have a1 := abs_le.1 hq1
  have a2 := abs_le.1 hq2
  have a3 := abs_le.1 hsl
  refine ⟨?_, ?_, ?_⟩ <;> rw [abs_le] <;> constructor <;> linarith

set_option maxHeartbeats 1000000 in
/-- The accuracy of `xsquared_plus_2x_plus_ysquared`: one rounding of the exact value, plus an
error of the order of the square of the roundoff. -/
theorem xsq_err (h : Nearest 53 (-1074) rd) (fma : Bool) {x y : K} (hx : IsFloat 53 (-1074) x)
    (hy : IsFloat 53 (-1074) y) :
    |xsqPlus2xPlusYsq fma rd x y - (x * x + 2 * x + y * y)| ≤
      u53 K * |x * x + 2 * x + y * y| + 80 * (u53 K * u53 K) * (x * x + 2 * |x| + y * y) + 5 * eta K := by
  have hu : (0 : K) < u53 K := by rw [u53]; positivity
  have hu1 : u53 K ≤ 1 / 1000 := by rw [u53]; norm_num
  have hη : (0 : K) < eta K := by rw [eta]; positivity
  have h2x : rd (2 * x) = 2 * x := by
    apply h.exact
    obtain ⟨m, e, hm, he, rfl⟩ := hx
    exact ⟨m, e + 1, hm, by omega, by rw [zpow_add_one₀ (by norm_num)]; ring⟩
  have f2x : IsFloat 53 (-1074) (2 * x) := by rw [← h2x]; exact (h _).1
  obtain ⟨x1, x2, x3⟩ := square_bounds h fma hx
  obtain ⟨y1, y2, y3⟩ := square_bounds h fma hy
  have xf1 : IsFloat 53 (-1074) (square fma rd x).upper := (h _).1
  have xf2 : IsFloat 53 (-1074) (square fma rd x).lower := (h _).1
  have yf1 : IsFloat 53 (-1074) (square fma rd y).upper := (h _).1
  have yf2 : IsFloat 53 (-1074) (square fma rd y).lower := (h _).1
  simp only [xsqPlus2xPlusYsq, h2x]
  set X := square fma rd x
  set Y := square fma rd y
  have hA : 0 ≤ x * x := mul_self_nonneg x
  have hB : 0 ≤ y * y := mul_self_nonneg y
  have hT : 0 ≤ 2 * |x| := by positivity
  have hTx : |2 * x| = 2 * |x| := by rw [abs_mul, abs_two]
  set A := x * x
  set B := y * y
  set T := 2 * |x|
  have huA := mul_nonneg hu.le hA
  have huB := mul_nonneg hu.le hB
  have huT := mul_nonneg hu.le hT
  have huη := mul_nonneg hu.le hη.le
  have huA1 : u53 K * A ≤ A / 1000 := by nlinarith
  have huB1 : u53 K * B ≤ B / 1000 := by nlinarith
  have huT1 : u53 K * T ≤ T / 1000 := by nlinarith
  have huη1 : u53 K * eta K ≤ eta K / 1000 := by nlinarith
  have huuA : 8 * (u53 K * u53 K) * A ≤ u53 K * A / 100 := by
    have := mul_le_mul_of_nonneg_right hu1 huA
    linarith
  have ax1 := abs_le.1 x1
  have ax3 := abs_le.1 x3
  have ay1 := abs_le.1 y1
  have ay3 := abs_le.1 y3
  have aT := abs_le.1 (le_of_eq hTx)
  -- first sum
  set D1 := u53 K * (6 * A + 2 * T) + 3 * eta K with hD1
  have bD1 : u53 K * |X.upper + 2 * x| + 2 * (|X.lower| + |(0 : K)|) ≤ D1 := by
    have b : |X.upper + 2 * x| ≤ 1.001 * A + eta K + T := by
      rw [abs_le]; constructor <;> linarith
    have := mul_le_mul_of_nonneg_left b hu.le
    rw [abs_zero, hD1]
    linarith
  obtain ⟨s1, s2, s3⟩ := doubleSum_err (Y := ⟨2 * x, 0⟩) h xf1 xf2 f2x isFloat_zero bD1 rfl
  have sf1 : IsFloat 53 (-1074) (doubleSum rd X ⟨2 * x, 0⟩).upper := (twoSumQuick_floats h _ _).1
  have sf2 : IsFloat 53 (-1074) (doubleSum rd X ⟨2 * x, 0⟩).lower := (twoSumQuick_floats h _ _).2
  set S := doubleSum rd X ⟨2 * x, 0⟩
  simp only [add_zero] at s1 s2 s3
  have hD1s : D1 ≤ (A + T) / 100 + 3 * eta K := by rw [hD1]; linarith
  have hD10 : 0 ≤ D1 := by rw [hD1]; positivity
  have huD1 : u53 K * D1 ≤ D1 / 1000 := by nlinarith
  have huD1' : u53 K * D1 ≤ (u53 K * u53 K) * (6 * A + 2 * T) + eta K / 100 := by
    rw [hD1, mul_add, ← mul_assoc]; linarith
  have bt1 : |X.upper + X.lower + 2 * x| ≤ 1.01 * (A + T) + 1.1 * eta K := by
    rw [abs_le]; constructor <;> linarith
  have hut1 : u53 K * |X.upper + X.lower + 2 * x| ≤ 1.01 * (u53 K * (A + T)) + eta K / 100 := by
    have := mul_le_mul_of_nonneg_left bt1 hu.le
    linarith
  have as1 := abs_le.1 s1
  have as2 := abs_le.1 s2
  have hat1 := abs_le.1 bt1
  -- bounds for the first sum
  have bSu : |S.upper| ≤ 1.1 * (A + T) + 2 * eta K := by
    rw [abs_le]; constructor <;> linarith
  have bSl : |S.lower| ≤ 2 * (u53 K * (A + T)) + eta K := by
    have : 5 * u53 K * D1 ≤ u53 K * (A + T) / 2 + eta K / 2 := by
      have := mul_le_mul_of_nonneg_left hD1s hu.le
      have h5 : u53 K * ((A + T) / 100 + 3 * eta K) = u53 K * (A + T) / 100 + 3 * (u53 K * eta K) := by ring
      linarith
    linarith [mul_nonneg hu.le (add_nonneg hA hT)]
  have bS : |S.upper + S.lower - (A + 2 * x)| ≤ 44 * (u53 K * u53 K) * (A + T) + 1.2 * eta K := by
    have hn : 0 ≤ (u53 K * u53 K) * T := by positivity
    rw [abs_le]; constructor <;> linarith only [hn, as2.1, as2.2, ax3.1, ax3.2, huD1', hη]
  -- second sum
  set D2 := u53 K * (8 * (A + T + B)) + 5 * eta K with hD2
  have bD2 : u53 K * |S.upper + Y.upper| + 2 * (|S.lower| + |Y.lower|) ≤ D2 := by
    have aSu := abs_le.1 bSu
    have b : |S.upper + Y.upper| ≤ 1.1 * (A + T) + 1.001 * B + 3 * eta K := by
      rw [abs_le]; constructor <;> linarith
    have := mul_le_mul_of_nonneg_left b hu.le
    rw [hD2]
    linarith
  obtain ⟨r1, -, -⟩ := doubleSum_err (Y := Y) h sf1 sf2 yf1 yf2 bD2 rfl
  set R := (doubleSum rd S Y).upper
  set E := A + 2 * x + B with hE
  set tot := S.upper + S.lower + (Y.upper + Y.lower) with htot
  have bt : |tot - E| ≤ 44 * (u53 K * u53 K) * (A + T + B) + 2.3 * eta K := by
    have hn : 0 ≤ (u53 K * u53 K) * B := by positivity
    have aS := abs_le.1 bS
    rw [htot, hE, abs_le]; constructor <;> linarith only [hn, aS.1, aS.2, ay3.1, ay3.2, hη]
  have btt : |tot| ≤ |E| + |tot - E| := by
    calc |tot| = |E + (tot - E)| := by ring_nf
      _ ≤ _ := abs_add_le _ _
  have hM : 0 ≤ (u53 K * u53 K) * (A + T + B) := by positivity
  have hut : u53 K * |tot| ≤ u53 K * |E| + (u53 K * u53 K) * (A + T + B) + eta K / 100 := by
    have h1 := mul_le_mul_of_nonneg_left (btt.trans (add_le_add_right bt _)) hu.le
    have h2 : u53 K * (44 * (u53 K * u53 K) * (A + T + B)) ≤ (u53 K * u53 K) * (A + T + B) := by
      have := mul_le_mul_of_nonneg_right hu1 hM
      linarith
    linarith
  have huD2 : 3 * u53 K * D2 ≤ 24 * (u53 K * u53 K) * (A + T + B) + eta K / 10 := by
    rw [hD2]; linarith
  have ar := abs_le.1 r1
  have at' := abs_le.1 bt
  rw [abs_le]; constructor <;> linarith only [ar.1, ar.2, at'.1, at'.2, huD2, hut, hM, hη]

end Ufunclab.Log1p
