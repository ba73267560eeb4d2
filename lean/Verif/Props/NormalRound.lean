import Verif.Proof.NormalRound
import Verif.Props.YeoJohnsonRound
import Verif.Props.Erfcx
/-!
# C101: normal_cdf, normal_sf, normal_logcdf and normal_logsf in floating point

The type `T` has precision `p` and least positive number `2^emin`, `long double` has `P` and `2^Emin`.  The library's
`erfc`, `log` and `log1p` have relative error `ε`, `εl`, `ε1` (`erfc` and `log1p` up to underflow).  The exact
distribution function is that of Mathlib's Gaussian measure.  `argErr p P = 1.01 · 2^-p + 2.1 · 2^-P`.
-/
namespace Ufunclab.Normal
open Real Set MeasureTheory ProbabilityTheory Ufunclab.Float Ufunclab.Erfcx
variable {p P : ℕ} {emin Emin : ℤ} {rT rL er lg l1 : ℝ → ℝ} {ε εl ε1 δ : ℝ}

/-- A library `erfc`: relative error at most `ε`, up to underflow. -/
structure GoodErfc (emin : ℤ) (ε : ℝ) (er : ℝ → ℝ) : Prop where
  nonneg : ∀ y, 0 ≤ er y
  error : ∀ y, |er y - erfc y| ≤ ε * erfc y + 2 ^ emin

/-- The formats: `T` and a `long double` that contains it. -/
structure Formats (p P : ℕ) (emin Emin : ℤ) (rT rL : ℝ → ℝ) : Prop where
  hT : Nearest p emin rT
  hL : Nearest P Emin rL
  hp : 16 ≤ p
  hP : p ≤ P
  hP' : P ≤ 113
  hE : Emin ≤ emin
  hep : emin + p ≤ -10
  hEP : Emin + P ≤ -1

theorem η_le_u (hep : emin + p ≤ -10) : (2 : ℝ) ^ emin ≤ 1 / 1024 * (2 ^ p)⁻¹ := by
  have h : (2 : ℝ) ^ emin ≤ 2 ^ (-10 - p : ℤ) := zpow_le_zpow_right₀ (by norm_num) (by omega)
  refine h.trans (le_of_eq ?_)
  rw [zpow_sub₀ (by norm_num), zpow_natCast, div_eq_mul_inv]
  norm_num

theorem u_small16 (hp : 16 ≤ p) : (0 : ℝ) < (2 ^ p)⁻¹ ∧ ((2 : ℝ) ^ p)⁻¹ ≤ 1 / 65536 := by
  refine ⟨by positivity, ?_⟩
  have : (2 : ℝ) ^ 16 ≤ 2 ^ p := pow_le_pow_right₀ (by norm_num) hp
  rw [inv_le_comm₀ (by positivity) (by norm_num)]
  norm_num at *; linarith

/-- What is needed about the sizes. -/
theorem Formats.sizes (F : Formats p P emin Emin rT rL) : (0 : ℝ) < (2 ^ p)⁻¹ ∧ ((2 : ℝ) ^ p)⁻¹ ≤ 1 / 65536 ∧ (0 : ℝ) < 2 ^ emin ∧
    (2 : ℝ) ^ emin ≤ 1 / 1024 * (2 ^ p)⁻¹ ∧ (2 ^ p)⁻¹ ≤ argErr p P ∧ argErr p P ≤ 3.11 * (2 ^ p)⁻¹ := by
  obtain ⟨u0, u1⟩ := u_small16 F.hp
  have U1 := Scalar.U_le F.hP
  have U0 : (0 : ℝ) < (2 ^ P)⁻¹ := by positivity
  refine ⟨u0, u1, two_zpow_pos emin, η_le_u F.hep, ?_, ?_⟩ <;> unfold argErr <;> linarith

theorem Formats.arg (F : Formats p P emin Emin rT rL) (x : ℝ) :
    |scaledR rT rL x - x * (1 / √2)| ≤ argErr p P * |x * (1 / √2)| + 1.01 * 2 ^ emin :=
  scaled_error F.hT F.hL F.hp F.hP F.hP' F.hE F.hEP x

theorem scale_sq (x : ℝ) : (x * (1 / √2)) ^ 2 = x ^ 2 / 2 := by
  rw [mul_pow, div_pow, Real.sq_sqrt (by norm_num)]; ring

theorem scale_abs (x : ℝ) : 0.7071 * |x| ≤ |x * (1 / √2)| ∧ |x * (1 / √2)| ≤ 0.70711 * |x| := by
  obtain ⟨h1, h2⟩ := abs_le.1 sqrt_near
  rw [abs_mul, abs_of_pos (show (0 : ℝ) < 1 / √2 by positivity)]
  have := abs_nonneg x
  constructor
  · have : 0.7071 ≤ 1 / √2 := by norm_num at h1 h2 ⊢; linarith
    nlinarith
  · have : 1 / √2 ≤ 0.70711 := by norm_num at h1 h2 ⊢; linarith
    nlinarith

theorem recip_pos (F : Formats p P emin Emin rT rL) : 0 < recipSqrt2R rL := by
  have h := recip_near F.hL (by have := F.hp; have := F.hP; omega) F.hP' F.hEP
  obtain ⟨u0, u1⟩ := u_small16 (show 16 ≤ P from F.hp.trans F.hP)
  have s : (0 : ℝ) < 1 / √2 := by positivity
  have h1 := (abs_le.1 h).1
  have : 1.01 * (2 ^ P : ℝ)⁻¹ * (1 / √2) ≤ 0.5 * (1 / √2) := mul_le_mul_of_nonneg_right (by linarith) s.le
  linarith

theorem scaled_mono (F : Formats p P emin Emin rT rL) : Monotone (scaledR rT rL) := fun x y h =>
  F.hT.monotone (F.hL.monotone (mul_le_mul_of_nonneg_right h (recip_pos F).le))

theorem scaled_zero (F : Formats p P emin Emin rT rL) : scaledR rT rL 0 = 0 := by
  unfold scaledR; rw [zero_mul, F.hL.round_zero, F.hT.round_zero]

/-! ## normal_cdf and normal_sf -/

/-- The computed half of `erfc`. -/
theorem half_error (hT : Nearest p emin rT) (her : GoodErfc emin ε er) (hp : 1 ≤ p) (a : ℝ) :
    |rT (er a / 2) - erfc a / 2| ≤ (2 ^ p)⁻¹ * (er a / 2) + ε * erfc a / 2 + 2 ^ emin := by
  have h1 := hT.error hp (er a / 2)
  have h2 := her.error a
  have h3 := her.nonneg a
  rw [abs_of_nonneg (show 0 ≤ er a / 2 by linarith)] at h1
  have h4 := abs_sub_le (rT (er a / 2)) (er a / 2) (erfc a / 2)
  rw [← sub_div (er a), abs_div, abs_two] at h4
  linarith

/-- C101: the left tail of normal_cdf.  The relative error grows with `x²`: the rounding of the scaled argument is
magnified. -/
theorem C101_cdf_left (F : Formats p P emin Emin rT rL) (her : GoodErfc emin ε er) (hε0 : 0 ≤ ε) (hε : ε ≤ 1 / 1000) (x : ℝ) (hx : x ≤ 0)
    (hx2 : argErr p P * x ^ 2 ≤ 1 / 200) :
    |cdfR rT rL er x - (gaussianReal 0 1).real (Iic x)| ≤
      1.1 * (argErr p P * (x ^ 2 + 1.5 * |x|) + ε + (2 ^ p)⁻¹ + 3 * 2 ^ emin) * (gaussianReal 0 1).real (Iic x) + 2 * 2 ^ emin := by
  obtain ⟨u0, u1, η0, η1, σ1, σ2⟩ := F.sizes
  have A := F.arg x
  have s0 : scaledR rT rL x ≤ 0 := by have := scaled_mono F hx; rwa [scaled_zero F] at this
  have C1 : cdfR rT rL er x = rT (er (-scaledR rT rL x) / 2) := by
    unfold cdfR; simp only [gt_iff_lt]; rw [if_neg (by linarith)]
  obtain ⟨q1, q2⟩ := scale_abs x
  have sq := scale_sq x
  have y0 : x * (1 / √2) ≤ 0 := mul_nonpos_of_nonpos_of_nonneg hx (by positivity)
  have CE := close_erfc (a := -scaledR rT rL x) (b := -(x * (1 / √2))) (by linarith) (by linarith)
  have HE := half_error F.hT her (by have := F.hp; omega) (-scaledR rT rL x)
  have EE := her.error (-scaledR rT rL x)
  rw [C1, gaussian_cdf]
  rw [show -scaledR rT rL x - -(x * (1 / √2)) = -(scaledR rT rL x - x * (1 / √2)) by ring, abs_neg] at CE
  have x0 := abs_nonneg x
  have xx : |x| ^ 2 = x ^ 2 := sq_abs x
  rw [abs_of_nonpos y0] at A q1 q2
  obtain ⟨a, ha⟩ : ∃ a, a = -scaledR rT rL x := ⟨_, rfl⟩
  obtain ⟨b, hb⟩ : ∃ b, b = -(x * (1 / √2)) := ⟨_, rfl⟩
  have D0 := abs_nonneg (scaledR rT rL x - x * (1 / √2))
  have ab : a - b ≤ |scaledR rT rL x - x * (1 / √2)| := by
    have := neg_le_abs (scaledR rT rL x - x * (1 / √2)); linarith
  have sqb : b ^ 2 = |x| ^ 2 / 2 := by rw [hb, neg_sq, sq, xx]
  rw [← ha] at CE HE EE ⊢
  rw [← hb] at CE A q1 q2 ⊢
  generalize |scaledR rT rL x - x * (1 / √2)| = D at *
  rw [← xx] at hx2 ⊢
  generalize |x| = X at *
  generalize argErr p P = σ at *
  generalize ((2 : ℝ) ^ p)⁻¹ = u at *
  generalize (2 : ℝ) ^ emin = η at *
  clear ha hb sq s0 y0 C1
  have b0 : 0 ≤ b := by linarith
  -- the argument's error
  have e1 : a + b + 2 ≤ 2.001 * b + 2.001 := by
    have : σ * b ≤ 0.0001 * b := mul_le_mul_of_nonneg_right (by linarith) b0
    linarith
  have e2 : D * (a + b + 2) ≤ (σ * b + 1.01 * η) * (2.001 * b + 2.001) := by
    have := (mul_le_mul_of_nonneg_left e1 D0).trans (mul_le_mul_of_nonneg_right A (by linarith : 0 ≤ 2.001 * b + 2.001))
    exact this
  have e3 : σ * (2 * b ^ 2) = σ * X ^ 2 := by rw [sqb]; ring
  have e4 : η * b ≤ 0.001 * (σ * X) := by
    have h1 : η * b ≤ η * (0.70711 * X) := mul_le_mul_of_nonneg_left q2 η0.le
    have h2 : η * X ≤ 1 / 1024 * σ * X := mul_le_mul_of_nonneg_right (by linarith) x0
    have h3 := mul_nonneg η0.le x0
    linarith
  have e5 : σ * b ≤ 0.70711 * (σ * X) := by
    have := mul_le_mul_of_nonneg_left q2 (by linarith : 0 ≤ σ); linarith
  have sX : 0 ≤ σ * X := mul_nonneg (by linarith) x0
  have e6 : σ * X ≤ 0.003 := by
    have : σ * X ≤ σ * ((1 + X ^ 2) / 2) := mul_le_mul_of_nonneg_left (by nlinarith [sq_nonneg (X - 1)]) (by linarith)
    linarith
  have e7 : D * (a + b + 2) ≤ 1.001 * (σ * X ^ 2) + 1.42 * (σ * X) + 2.03 * η := by
    have : (σ * b + 1.01 * η) * (2.001 * b + 2.001) = 1.0005 * (σ * (2 * b ^ 2)) + 2.001 * (σ * b) + 2.02101 * (η * b) + 2.02101 * η := by ring
    rw [this, e3] at e2
    have : 0 ≤ σ * X ^ 2 := mul_nonneg (by linarith) (sq_nonneg X)
    linarith
  have c := CE.mono e7
  have r := c.rel (by linarith)
  -- erfc and the roundings
  have B0 : 0 < erfc b := erfc_pos b
  generalize erfc a = V at *
  generalize erfc b = B at *
  generalize er a = w at *
  generalize rT (w / 2) = W at *
  obtain ⟨τ, hτ⟩ : ∃ τ, τ = 1.001 * (σ * X ^ 2) + 1.42 * (σ * X) + 2.03 * η := ⟨_, rfl⟩
  rw [← hτ] at r
  have t1 : τ ≤ 0.0098 := by linarith
  have k1 : V ≤ 1.01 * B := by
    have := mul_le_mul_of_nonneg_right (show 1.02 * τ ≤ 0.01 by linarith) B0.le
    linarith [(abs_le.1 r).2]
  have k2 := mul_le_mul_of_nonneg_left k1 hε0
  have p1 := mul_nonneg hε0 B0.le
  have p1' : ε * B ≤ 0.001 * B := mul_le_mul_of_nonneg_right (by linarith) B0.le
  have k3 : w ≤ 1.012 * B + η := by linarith [(abs_le.1 EE).2]
  have k4 := mul_le_mul_of_nonneg_left k3 u0.le
  have k5 : u * η ≤ 0.001 * η := mul_le_mul_of_nonneg_right (by linarith) η0.le
  have k6 := abs_sub_le W (V / 2) (B / 2)
  rw [← sub_div V, abs_div, abs_two] at k6
  have k7 : |W - B / 2| ≤ (1.02 * τ + 1.012 * u + 1.01 * ε) * (B / 2) + 1.1 * η := by linarith
  refine k7.trans ?_
  have k8 : (1.02 * τ + 1.012 * u + 1.01 * ε) * (B / 2) ≤ 1.1 * (σ * (X ^ 2 + 1.5 * X) + ε + u + 3 * η) * (B / 2) := by
    apply mul_le_mul_of_nonneg_right _ (by linarith)
    have : 0 ≤ σ * X ^ 2 := mul_nonneg (by linarith) (sq_nonneg X)
    rw [hτ]
    linarith
  linarith

/-- C101: normal_cdf for positive arguments: a few units in the last place. -/
theorem C101_cdf_right (F : Formats p P emin Emin rT rL) (her : GoodErfc emin ε er) (hε0 : 0 ≤ ε) (hε : ε ≤ 1 / 1000) (x : ℝ) (hx : 0 < x) :
    |cdfR rT rL er x - (gaussianReal 0 1).real (Iic x)| ≤ 0.6 * ε + 0.3 * argErr p P + 1.6 * (2 ^ p)⁻¹ + 3 * 2 ^ emin := by
  obtain ⟨u0, u1, η0, η1, σ1, σ2⟩ := F.sizes
  have A := F.arg x
  have s0 : 0 ≤ scaledR rT rL x := by have := scaled_mono F hx.le; rwa [scaled_zero F] at this
  have y0 : 0 < x * (1 / √2) := mul_pos hx (by positivity)
  have cl := c_le
  have cp := c_pos
  rw [gaussian_cdf, erfc_neg]
  rw [abs_of_pos y0] at A
  have HE := half_error F.hT her (by have := F.hp; omega) (scaledR rT rL x)
  have EE := her.error (scaledR rT rL x)
  have a1 : erfc (scaledR rT rL x) ≤ 1 := by have := erfc_anti s0; rwa [erfc_zero] at this
  have b1 : erfc (x * (1 / √2)) ≤ 1 := by have := erfc_anti y0.le; rwa [erfc_zero] at this
  have a2 := erfc_pos (scaledR rT rL x)
  have b2 := erfc_pos (x * (1 / √2))
  -- the argument's error
  have key : |erfc (scaledR rT rL x) - erfc (x * (1 / √2))| ≤ 0.58 * argErr p P + 1.16 * 2 ^ emin := by
    obtain ⟨A1, A2⟩ := abs_le.1 A
    generalize scaledR rT rL x = a at *
    generalize x * (1 / √2) = b at *
    generalize argErr p P = σ at *
    generalize ((2 : ℝ) ^ p)⁻¹ = u at *
    generalize (2 : ℝ) ^ emin = η at *
    have sb : σ * b ≤ 0.001 * b := mul_le_mul_of_nonneg_right (by linarith) y0.le
    have m : ∀ {m n d : ℝ}, 0 ≤ m → m ≤ n → n - m ≤ d → d ≤ σ * (1.002 * m) + 1.02 * η →
        erfc m - erfc n ≤ 0.58 * σ + 1.16 * η := by
      intro m n d h0 h1 h2 h3
      have g1 := erfc_abs h0 h1
      have g2 := mul_exp_neg_sq m
      have g3 : exp (-m ^ 2) ≤ 1 := exp_le_one_iff.2 (by nlinarith [sq_nonneg m])
      have g0 := exp_pos (-m ^ 2)
      have g4 : exp (-m ^ 2) * (n - m) ≤ exp (-m ^ 2) * (σ * (1.002 * m) + 1.02 * η) := mul_le_mul_of_nonneg_left (by linarith) g0.le
      have g5 : exp (-m ^ 2) * (σ * (1.002 * m) + 1.02 * η) = 1.002 * (σ * (m * exp (-m ^ 2))) + 1.02 * (η * exp (-m ^ 2)) := by ring
      have g6 := mul_le_mul_of_nonneg_left g2 (by linarith : 0 ≤ σ)
      have g7 := mul_le_mul_of_nonneg_left g3 η0.le
      have g8 : exp (-m ^ 2) * (n - m) ≤ 0.501 * σ + 1.02 * η := by linarith
      have g9 : 2 * c * (exp (-m ^ 2) * (n - m)) ≤ 2 * c * (0.501 * σ + 1.02 * η) := mul_le_mul_of_nonneg_left g8 (by linarith)
      have g10 : 2 * c * (0.501 * σ + 1.02 * η) ≤ 1.1284 * (0.501 * σ + 1.02 * η) := mul_le_mul_of_nonneg_right (by linarith) (by linarith)
      linarith
    have sη : σ * η ≤ 0.001 * η := mul_le_mul_of_nonneg_right (by linarith) η0.le
    rcases le_total a b with h | h
    · rw [abs_of_nonneg (by linarith [erfc_anti h])]
      have hb : b ≤ 1.0011 * a + 1.02 * η := by linarith
      have := mul_le_mul_of_nonneg_left hb (by linarith : 0 ≤ σ)
      have sa : 0 ≤ σ * a := mul_nonneg (by linarith) s0
      exact m (d := σ * b + 1.01 * η) s0 h (by linarith) (by linarith)
    · rw [abs_of_nonpos (by linarith [erfc_anti h]), neg_sub]
      have sa : 0 ≤ σ * b := mul_nonneg (by linarith) y0.le
      exact m (d := σ * b + 1.01 * η) y0.le h (by linarith) (by linarith)
  have p1 := mul_nonneg hε0 a2.le
  have p2 : ε * erfc (scaledR rT rL x) ≤ ε * 1 := mul_le_mul_of_nonneg_left a1 hε0
  have k3 : er (scaledR rT rL x) ≤ 1.002 := by linarith [(abs_le.1 EE).2]
  have k4 := mul_le_mul_of_nonneg_left k3 u0.le
  have k6 := abs_sub_le (rT (er (scaledR rT rL x) / 2)) (erfc (scaledR rT rL x) / 2) (erfc (x * (1 / √2)) / 2)
  rw [← sub_div (erfc _), abs_div, abs_two] at k6
  have k7 : |rT (er (scaledR rT rL x) / 2) - erfc (x * (1 / √2)) / 2| ≤ 0.29 * argErr p P + 0.502 * (2 ^ p)⁻¹ + 0.5 * ε + 1.58 * 2 ^ emin := by
    linarith
  unfold cdfR
  simp only [gt_iff_lt]
  split_ifs with hc
  · have k8 := F.hT.error (by have := F.hp; omega) (1 - rT (er (scaledR rT rL x) / 2))
    obtain ⟨k9, k10⟩ := abs_le.1 k7
    have k11 : |1 - rT (er (scaledR rT rL x) / 2)| ≤ 1.01 := by rw [abs_le]; constructor <;> linarith
    have k12 := mul_le_mul_of_nonneg_left k11 u0.le
    have k13 := abs_sub_le (rT (1 - rT (er (scaledR rT rL x) / 2))) (1 - rT (er (scaledR rT rL x) / 2)) ((2 - erfc (x * (1 / √2))) / 2)
    have k14 : |1 - rT (er (scaledR rT rL x) / 2) - (2 - erfc (x * (1 / √2))) / 2| = |rT (er (scaledR rT rL x) / 2) - erfc (x * (1 / √2)) / 2| := by
      rw [← abs_neg]; congr 1; ring
    rw [k14] at k13
    linarith
  · have hs : scaledR rT rL x = 0 := le_antisymm (by linarith) s0
    rw [hs] at k7 A ⊢
    rw [neg_zero]
    have yb : x * (1 / √2) ≤ 1.02 * 2 ^ emin := by
      rw [zero_sub, abs_neg, abs_of_pos y0] at A
      have : argErr p P * (x * (1 / √2)) ≤ 0.001 * (x * (1 / √2)) := mul_le_mul_of_nonneg_right (by linarith) y0.le
      linarith
    have g := erfc_abs le_rfl y0.le
    rw [erfc_zero] at g
    simp only [ne_eq, OfNat.ofNat_ne_zero, not_false_eq_true, zero_pow, neg_zero, exp_zero, mul_one, sub_zero] at g
    have g2 : 2 * c * (x * (1 / √2)) ≤ 1.1284 * (1.02 * 2 ^ emin) := mul_le_mul (by linarith) yb y0.le (by norm_num)
    have k13 := abs_sub_le (rT (er 0 / 2)) (erfc (x * (1 / √2)) / 2) ((2 - erfc (x * (1 / √2))) / 2)
    have k14 : |erfc (x * (1 / √2)) / 2 - (2 - erfc (x * (1 / √2))) / 2| = 1 - erfc (x * (1 / √2)) := by
      rw [← abs_neg, abs_of_nonneg] <;> linarith
    rw [k14] at k13
    linarith

/-- C101: normal_cdf is nondecreasing if the library's `erfc` is nonincreasing (and 1 at 0), and stays in [0, 1]. -/
theorem C101_cdf_monotone (F : Formats p P emin Emin rT rL) (ha : Antitone er) (h0 : er 0 = 1) : Monotone (cdfR rT rL er) := by
  intro x y hxy
  have m := scaled_mono F hxy
  have fh : IsFloat p emin (1 / 2 : ℝ) := by
    have := isFloat_zpow (K := ℝ) (p := p) (by have := F.hp; omega) (emin := emin) (e := -1) (by have := F.hep; have := F.hp; omega)
    norm_num at this ⊢; exact this
  unfold cdfR
  simp only [gt_iff_lt]
  have up : ∀ {t : ℝ}, 0 < t → 1 / 2 ≤ rT (1 - rT (er t / 2)) := fun {t} ht =>
    F.hT.mono_float fh (by
      have := F.hT.mono_float' fh (by have := ha ht.le; linarith : er t / 2 ≤ 1 / 2)
      linarith)
  have dn : ∀ {t : ℝ}, t ≤ 0 → rT (er (-t) / 2) ≤ 1 / 2 := fun {t} ht =>
    F.hT.mono_float' fh (by have := ha (by linarith : 0 ≤ -t); linarith)
  split_ifs with h1 h2 h2
  · apply F.hT.monotone
    have := F.hT.monotone (show er (scaledR rT rL y) / 2 ≤ er (scaledR rT rL x) / 2 by have := ha m; linarith)
    linarith
  · linarith
  · exact (dn (by linarith)).trans (up h2)
  · apply F.hT.monotone
    have := ha (neg_le_neg m)
    linarith

theorem C101_cdf_range (F : Formats p P emin Emin rT rL) (ha : Antitone er) (h0 : er 0 = 1) (hn : ∀ y, 0 ≤ er y) (x : ℝ) :
    0 ≤ cdfR rT rL er x ∧ cdfR rT rL er x ≤ 1 ∧ cdfR rT rL er 0 = 1 / 2 := by
  have hp1 : 1 ≤ p := by have := F.hp; omega
  have he : emin ≤ -1 := by have := F.hep; have := F.hp; omega
  have fh : IsFloat p emin (1 / 2 : ℝ) := by
    have := isFloat_zpow (K := ℝ) (p := p) hp1 (emin := emin) (e := -1) (by omega)
    norm_num at this ⊢; exact this
  have z : cdfR rT rL er 0 = 1 / 2 := by
    unfold cdfR; simp only [scaled_zero F, gt_iff_lt, lt_irrefl, if_false, neg_zero, h0]; exact F.hT.exact fh
  refine ⟨?_, ?_, z⟩
  · unfold cdfR
    simp only [gt_iff_lt]
    split_ifs with h1
    · refine F.hT.mono_float isFloat_zero ?_
      have := F.hT.mono_float' fh (by have := ha h1.le; linarith : er (scaledR rT rL x) / 2 ≤ 1 / 2)
      linarith
    · exact F.hT.mono_float isFloat_zero (by have := hn (-scaledR rT rL x); linarith)
  · unfold cdfR
    simp only [gt_iff_lt]
    split_ifs with h1
    · refine F.hT.mono_float' (isFloat_one hp1 (by omega)) ?_
      have := F.hT.mono_float isFloat_zero (by have := hn (scaledR rT rL x); linarith : 0 ≤ er (scaledR rT rL x) / 2)
      linarith
    · refine (F.hT.mono_float' fh (by have := ha (by linarith : 0 ≤ -scaledR rT rL x); linarith)).trans (by norm_num)

/-- C101: for roundings that commute with negation (such as ties to even), `normal_cdf(x)` is exactly the rounded
complement of `normal_sf(x)` wherever the scaled argument is positive. -/
theorem C101_complement (oT : ∀ z, rT (-z) = -rT z) (oL : ∀ z, rL (-z) = -rL z) (x : ℝ) (h : 0 < scaledR rT rL x) :
    cdfR rT rL er x = rT (1 - sfR rT rL er x) := by
  have e : scaledR rT rL (-x) = -scaledR rT rL x := by unfold scaledR; rw [neg_mul, oL, oT]
  unfold sfR cdfR
  simp only [gt_iff_lt, e]
  rw [if_pos h, if_neg (by linarith), neg_neg]

theorem upper (x : ℝ) : (gaussianReal 0 1).real (Ioi x) = (gaussianReal 0 1).real (Iic (-x)) := by
  have hsf := C68_sf x
  rw [sf, XF.neg_fin, C68_cdf, XF.fin.injEq] at hsf
  exact hsf.symm

/-- C101: the right tail of normal_sf. -/
theorem C101_sf_right (F : Formats p P emin Emin rT rL) (her : GoodErfc emin ε er) (hε0 : 0 ≤ ε) (hε : ε ≤ 1 / 1000) (x : ℝ) (hx : 0 ≤ x)
    (hx2 : argErr p P * x ^ 2 ≤ 1 / 200) :
    |sfR rT rL er x - (gaussianReal 0 1).real (Ioi x)| ≤
      1.1 * (argErr p P * (x ^ 2 + 1.5 * |x|) + ε + (2 ^ p)⁻¹ + 3 * 2 ^ emin) * (gaussianReal 0 1).real (Ioi x) + 2 * 2 ^ emin := by
  have := C101_cdf_left F her hε0 hε (-x) (by linarith) (by rwa [neg_sq])
  rw [upper]
  rwa [neg_sq, abs_neg] at this

/-- C101: normal_sf for negative arguments. -/
theorem C101_sf_left (F : Formats p P emin Emin rT rL) (her : GoodErfc emin ε er) (hε0 : 0 ≤ ε) (hε : ε ≤ 1 / 1000) (x : ℝ) (hx : x < 0) :
    |sfR rT rL er x - (gaussianReal 0 1).real (Ioi x)| ≤ 0.6 * ε + 0.3 * argErr p P + 1.6 * (2 ^ p)⁻¹ + 3 * 2 ^ emin := by
  rw [upper]
  exact C101_cdf_right F her hε0 hε (-x) (by linarith)

theorem C101_sf_antitone (F : Formats p P emin Emin rT rL) (ha : Antitone er) (h0 : er 0 = 1) : Antitone (sfR rT rL er) :=
  fun _ _ h => C101_cdf_monotone F ha h0 (neg_le_neg h)

theorem round_eq_pos {rd : ℝ → ℝ} (h : Nearest p emin rd) (hp : 1 ≤ p) {z : ℝ} {m k : ℤ} (hk : emin ≤ k) (hm1 : 2 ^ (p - 1) + 1 ≤ m)
    (hm2 : m < 2 ^ p) (hz : 2 * |(m : ℝ) * 2 ^ k - z| < 2 ^ k) : rd z = m * 2 ^ k := by
  have hpk : (0 : ℝ) < 2 ^ k := zpow_pos (by norm_num) _
  have hm0 : (0 : ℤ) ≤ m := le_trans (by positivity) hm1
  have hf : IsFloat p emin ((m : ℝ) * 2 ^ k) := ⟨m, k, by rw [abs_of_nonneg hm0]; exact hm2, hk, rfl⟩
  have h1 := (h z).2 _ hf
  have h2 : |rd z - (m : ℝ) * 2 ^ k| < 2 ^ k := by
    calc |rd z - (m : ℝ) * 2 ^ k| = |(rd z - z) - ((m : ℝ) * 2 ^ k - z)| := by congr 1; ring
      _ ≤ _ := abs_sub _ _
      _ < _ := by linarith
  refine grid_eq (onGrid_of_big hp (h z).1 ?_) ⟨m, rfl⟩ h2
  have h3 := (abs_lt.mp h2).1
  have h4 : ((2 : ℝ) ^ (p - 1) + 1) ≤ m := by exact_mod_cast hm1
  have h5 := mul_le_mul_of_nonneg_right h4 hpk.le
  have h6 := le_abs_self (rd z)
  linarith

theorem E_ge {b : ℝ} (hb : 0 ≤ b) : c ≤ (b + 1) * E b := by have := slope_nonneg hb; linarith

theorem scaled_37 (hT : Nearest 53 (-1074) rT) (hL : Nearest 64 (-16445) rL) : scaledR rT rL (-37) = -7364215996357925 * 2 ^ (-48 : ℤ) := by
  have h1 : recipSqrt2R rL = ((13043817825332782212 : ℤ) : ℝ) * 2 ^ (-64 : ℤ) :=
    round_eq_pos hL (by norm_num) (by norm_num) (by norm_num) (by norm_num) (by
      norm_num [abs_lt, abs_of_pos, abs_of_neg])
  have h2 : rL (-37 * recipSqrt2R rL) = -((15081914360541029433 : ℤ) : ℝ) * 2 ^ (-59 : ℤ) :=
    round_eq hL (by norm_num) (by norm_num) (by norm_num) (by norm_num) (by
      rw [h1]; norm_num [abs_lt, abs_of_pos, abs_of_neg])
  have h3 : rT (rL (-37 * recipSqrt2R rL)) = -((7364215996357925 : ℤ) : ℝ) * 2 ^ (-48 : ℤ) :=
    round_eq hT (by norm_num) (by norm_num) (by norm_num) (by norm_num) (by
      rw [h2]; norm_num [abs_lt, abs_of_pos, abs_of_neg])
  unfold scaledR
  rw [h3]; norm_num

/-- C101: in the left tail a few units in the last place is not true: however good the library's `erfc` is,
`normal_cdf(-37)` is too small by more than 780 · 2⁻⁵³ (relative) in `double`. -/
theorem C101_tail_violated (hT : Nearest 53 (-1074) rT) (hL : Nearest 64 (-16445) rL) (her : GoodErfc (-1074) ε er) (hε0 : 0 ≤ ε)
    (hε : ε ≤ 2 / 2 ^ 53) :
    cdfR rT rL er (-37) ≤ (1 - 780 / 2 ^ 53) * (gaussianReal 0 1).real (Iic (-37)) := by
  have hs := scaled_37 hT hL
  have C1 : cdfR rT rL er (-37) = rT (er (7364215996357925 * 2 ^ (-48 : ℤ)) / 2) := by
    unfold cdfR; simp only [gt_iff_lt, hs]; rw [if_neg (by norm_num), neg_mul, neg_neg]
  have HE := half_error hT her (by norm_num) (7364215996357925 * 2 ^ (-48 : ℤ))
  have EE := her.error (7364215996357925 * 2 ^ (-48 : ℤ))
  rw [C1, gaussian_cdf]
  have sqb : (-(-37 * (1 / √2))) ^ 2 = (684.5 : ℝ) := by rw [neg_sq, scale_sq]; norm_num
  have b0 : 0 ≤ -(-37 * (1 / √2)) := by have : (0 : ℝ) < 1 / √2 := by positivity
                                        linarith
  generalize -(-37 * (1 / √2)) = b at *
  have b27 : b ≤ 27 := by nlinarith
  obtain ⟨a, ha⟩ : ∃ a : ℝ, a = 7364215996357925 * 2 ^ (-48 : ℤ) := ⟨_, rfl⟩
  rw [← ha] at HE EE ⊢
  have sqa : 684.5 + 790 / 2 ^ 53 ≤ a ^ 2 := by rw [ha]; norm_num
  have a0 : 0 ≤ a := by rw [ha]; positivity
  clear ha C1 hs
  have hab : b ≤ a := by nlinarith
  have B0 := erfc_pos b
  -- the value is large enough
  have B1 : 2 ^ (-1000 : ℤ) ≤ erfc b := by
    rw [← E_mul_exp, sqb]
    have h1 := E_ge b0
    have h2 : 0.56 ≤ c := by
      have := (abs_le.1 c_bounds).1
      have e : (0.56 : ℝ) ≤ (cN : ℝ) / 10 ^ 30 - 1 / 10 ^ 21 := by norm_num [cN]
      linarith
    have h3 : 0.02 ≤ E b := by
      have := E_pos b
      nlinarith
    have h4 : (2 : ℝ) ^ (-988 : ℤ) ≤ exp (-684.5) := by
      rw [← Real.rpow_intCast, Real.rpow_def_of_pos (by norm_num)]
      apply exp_le_exp.2
      have := Real.log_two_gt_d9
      push_cast
      linarith
    calc (2 : ℝ) ^ (-1000 : ℤ) = 2 ^ (-12 : ℤ) * 2 ^ (-988 : ℤ) := by rw [← zpow_add₀ (by norm_num)]; norm_num
      _ ≤ 0.02 * exp (-684.5) := mul_le_mul (by norm_num) h4 (by positivity) (by norm_num)
      _ ≤ _ := mul_le_mul_of_nonneg_right h3 (exp_pos _).le
  have η1 : (2 : ℝ) ^ (-1074 : ℤ) ≤ 1 / 2 ^ 70 * erfc b := by
    calc (2 : ℝ) ^ (-1074 : ℤ) = 2 ^ (-74 : ℤ) * 2 ^ (-1000 : ℤ) := by rw [← zpow_add₀ (by norm_num)]; norm_num
      _ ≤ _ := mul_le_mul (by norm_num) B1 (by positivity) (by norm_num)
  have η0 : (0 : ℝ) < 2 ^ (-1074 : ℤ) := by positivity
  generalize (2 : ℝ) ^ (-1074 : ℤ) = η at *
  -- the argument is too large
  have V1 : erfc a ≤ (1 - 789 / 2 ^ 53) * erfc b := by
    have h1 : E a ≤ E b := E_antitone b0 hab
    have h2 : exp (-a ^ 2) ≤ (1 - 789 / 2 ^ 53) * exp (-b ^ 2) := by
      have h3 : exp (-a ^ 2) ≤ exp (-(790 / 2 ^ 53)) * exp (-b ^ 2) := by rw [← exp_add]; exact exp_le_exp.2 (by linarith)
      refine h3.trans (mul_le_mul_of_nonneg_right ?_ (exp_pos _).le)
      have h4 := add_one_le_exp (790 / 2 ^ 53 : ℝ)
      rw [exp_neg, inv_le_comm₀ (exp_pos _) (by norm_num)]
      refine le_trans ?_ h4
      norm_num
    rw [← E_mul_exp a, ← E_mul_exp b]
    calc E a * exp (-a ^ 2) ≤ E b * ((1 - 789 / 2 ^ 53) * exp (-b ^ 2)) := mul_le_mul h1 h2 (exp_pos _).le (E_pos b).le
      _ = _ := by ring
  have A0 := erfc_pos a
  generalize erfc a = V at *
  generalize erfc b = B at *
  generalize er a = w at *
  generalize rT (w / 2) = W at *
  have k1 : ε * V ≤ 2 / 2 ^ 53 * V := mul_le_mul_of_nonneg_right hε A0.le
  have k2 := (abs_le.1 HE).2
  have k3 := (abs_le.1 EE).2
  norm_num at k1 k2 k3 V1 η1 ⊢
  linarith

/-! ## normal_logcdf and normal_logsf -/

theorem log_cdf_left (x : ℝ) : Real.log ((gaussianReal 0 1).real (Iic x)) = Real.log (E (-(x * (1 / √2))) / 2) - (x * (1 / √2)) ^ 2 := by
  rw [gaussian_cdf, ← E_mul_exp, neg_sq, mul_div_right_comm, log_mul (by have := E_pos (-(x * (1 / √2))); positivity) (exp_pos _).ne', log_exp]
  ring

set_option maxHeartbeats 1000000 in
/-- The arithmetic of the left branch. -/
theorem logcdf_left_aux (F : Formats p P emin Emin rT rL) (hl : Means.GoodLog p emin εl lg) (hεl0 : 0 ≤ εl) (hεl : εl ≤ 1 / 1000) (hδ0 : 0 ≤ δ)
    (hδ : δ ≤ 1 / 1000) (x : ℝ) (hx : x < -1) (hbig : |x| * (2 ^ p * 2 ^ emin) ≤ 1 / 16) {r : ℝ}
    (hr : |r - E (-scaledR rT rL x)| ≤ δ * E (-scaledR rT rL x) + 2 ^ emin) :
    |rT (lg (rT (r / 2)) - rT (scaledR rT rL x * scaledR rT rL x)) - Real.log ((gaussianReal 0 1).real (Iic x))| ≤
      1.1 * (εl + 9 * argErr p P + 1.5 * δ + 4 * (2 ^ p)⁻¹ + 15 * 2 ^ emin) * |Real.log ((gaussianReal 0 1).real (Iic x))| := by
  obtain ⟨u0, u1, η0, η1, σ1, σ2⟩ := F.sizes
  have hp7 : 7 ≤ p := by have := F.hp; omega
  have hp8 : 8 ≤ p := by have := F.hp; omega
  have N0 : (0 : ℝ) < 2 ^ p * 2 ^ emin := mul_pos (by positivity) (two_zpow_pos emin)
  have N1 := (Scalar.N_small (p := p) (emin := emin) (by have := F.hep; omega)).2
  have A := F.arg x
  obtain ⟨q1, q2⟩ := scale_abs x
  rw [abs_of_neg (by linarith : x < 0)] at hbig q1 q2
  have y0 : x * (1 / √2) < 0 := mul_neg_of_neg_of_pos (by linarith) (by positivity)
  rw [abs_of_neg y0] at A q1 q2
  rw [log_cdf_left]
  obtain ⟨a, ha⟩ : ∃ a, a = -scaledR rT rL x := ⟨_, rfl⟩
  obtain ⟨b, hb⟩ : ∃ b, b = -(x * (1 / √2)) := ⟨_, rfl⟩
  rw [show scaledR rT rL x - x * (1 / √2) = b - a by rw [ha, hb]; ring, abs_sub_comm, ← hb] at A
  rw [show scaledR rT rL x * scaledR rT rL x = a * a by rw [ha]; ring]
  rw [show (x * (1 / √2)) ^ 2 = b * b by rw [hb]; ring, ← hb]
  rw [← ha] at hr
  rw [← hb] at q1 q2
  clear ha y0
  have b0 : 0.707 ≤ b := by linarith
  have hep10 := F.hep
  have hT := F.hT
  clear F
  generalize argErr p P = σ at *
  -- the argument
  have c1 : Close (1.02 * (σ + 1.5 * 2 ^ emin)) a b := by
    refine close_of_rel (by linarith) (by linarith) (A.trans ?_)
    have := mul_le_mul_of_nonneg_left b0 η0.le
    linarith
  -- erfcx
  have cE := close_E c1
  have Eb : 4 * (2 ^ p * 2 ^ emin) ≤ E b := by
    have h1 := E_ge (by linarith : 0 ≤ b)
    have h2 : 0.56 ≤ c := by
      have := (abs_le.1 c_bounds).1
      have e : (0.56 : ℝ) ≤ (cN : ℝ) / 10 ^ 30 - 1 / 10 ^ 21 := by norm_num [cN]
      linarith
    have h3 : (b + 1) * (2 ^ p * 2 ^ emin) ≤ 1.70711 * -x * (2 ^ p * 2 ^ emin) := mul_le_mul_of_nonneg_right (by linarith) N0.le
    by_contra hn
    push Not at hn
    have h4 : (b + 1) * E b ≤ (b + 1) * (4 * (2 ^ p * 2 ^ emin)) := mul_le_mul_of_nonneg_left hn.le (by linarith)
    linarith
  have Eb0 := E_pos b
  have rE := cE.rel (by linarith)
  have Ea : 3.9 * (2 ^ p * 2 ^ emin) ≤ E a := by
    have := mul_le_mul_of_nonneg_right (show 1.02 * (6 * (1.02 * (σ + 1.5 * 2 ^ emin))) ≤ 0.01 by linarith) Eb0.le
    linarith [(abs_le.1 rE).1]
  have c2 : SClose (1.02 * (δ + (2 ^ p)⁻¹)) r (E a) := sclose_lib hp8 hδ (by rw [abs_of_pos (E_pos a)]; linarith)
    (by rw [abs_of_pos (E_pos a)]; exact hr)
  have r0 : 0 < r := by
    have h := c2.1
    exact pos_of_mul_pos_left h (E_pos a).le
  have c3 : Close (1.02 * (δ + (2 ^ p)⁻¹)) r (E a) := by have := c2.2; rwa [abs_of_pos r0, abs_of_pos (E_pos a)] at this
  have c4 := (c3.trans cE).div (Close.refl (show (0 : ℝ) < 2 by norm_num))
  have rr : 3.7 * (2 ^ p * 2 ^ emin) ≤ r := by
    have h1 := c3.rel (by linarith)
    have := mul_le_mul_of_nonneg_right (show 1.02 * (1.02 * (δ + (2 ^ p)⁻¹)) ≤ 0.01 by linarith) (E_pos a).le
    linarith [(abs_le.1 h1).1]
  have c5 := (close_round hT hp7 (a := r / 2) (by linarith)).trans c4
  obtain ⟨τ, hτ⟩ : ∃ τ, τ = 6.12 * σ + 9.2 * 2 ^ emin + 1.02 * δ + 2.04 * (2 ^ p)⁻¹ := ⟨_, rfl⟩
  have c6 : Close τ (rT (r / 2)) (E b / 2) := c5.mono (by linarith)
  -- the logarithm
  have qneg : Real.log (E b / 2) ≤ -0.693 := by
    have h1 : E b / 2 ≤ 1 / 2 := by have := E_le_one (by linarith : 0 ≤ b); linarith
    have h2 := log_le_log (by linarith) h1
    have h3 : Real.log (1 / 2) = -Real.log 2 := by rw [one_div, log_inv]
    have := Real.log_two_gt_d9
    linarith
  have τ1 : τ ≤ 0.003 := by linarith
  have τ0 := c6.nonneg
  have d1 : Close (1.02 * (1.45 * τ)) (-Real.log (rT (r / 2))) (-Real.log (E b / 2)) := by
    refine close_of_rel (by linarith) (by linarith) ?_
    rw [neg_sub_neg, abs_sub_comm]
    refine c6.2.2.trans ?_
    have := mul_le_mul_of_nonneg_left (show 0.693 ≤ -Real.log (E b / 2) by linarith) τ0
    linarith
  have fl : IsFloat p emin (rT (r / 2)) := (hT _).1
  have d2 : Close (1.02 * εl) (-lg (rT (r / 2))) (-Real.log (rT (r / 2))) := by
    refine close_of_rel d1.1 (by linarith) ?_
    rw [neg_sub_neg, abs_sub_comm]
    have := hl.error _ fl c6.1
    rwa [← abs_neg (Real.log _), abs_of_pos d1.1] at this
  have d3 := d2.trans d1
  -- the square
  have a0 : 0.7 ≤ a := by
    have := mul_le_mul_of_nonneg_right (show σ ≤ 0.001 by linarith) (by linarith : 0 ≤ b)
    linarith [(abs_le.1 A).1]
  have aa : 0.7 * 0.7 ≤ a * a := mul_le_mul a0 a0 (by norm_num) (by linarith)
  have bb : 0.7 * 0.7 ≤ b * b := mul_le_mul (by linarith) (by linarith) (by norm_num) (by linarith)
  have s1 := (close_round hT hp7 (a := a * a) (by linarith)).trans (c1.mul c1)
  -- the sum
  obtain ⟨κ, hκ⟩ : ∃ κ, κ = 1.02 * εl + 1.48 * τ := ⟨_, rfl⟩
  have t1 := (d3.mono (show _ ≤ κ by rw [hκ]; linarith)).add (s1.mono (show _ ≤ κ by rw [hκ]; linarith))
  have big : 1 ≤ -Real.log (E b / 2) + b * b := by linarith
  have t2 := t1.rel (by rw [hκ]; linarith)
  have bigger : 2 ^ p * 2 ^ emin ≤ -lg (rT (r / 2)) + rT (a * a) := by
    have := mul_le_mul_of_nonneg_right (show 1.02 * κ ≤ 0.01 by rw [hκ]; linarith) (by linarith : 0 ≤ -Real.log (E b / 2) + b * b)
    linarith [(abs_le.1 t2).1]
  have t3 := (sclose_round hT hp7 (a := -(-lg (rT (r / 2)) + rT (a * a))) (by rw [abs_neg, abs_of_pos t1.1]; exact bigger)).trans t1.sclose.neg
  have t4 := t3.rel (by rw [hκ]; linarith)
  have e1 : -(-lg (rT (r / 2)) + rT (a * a)) = lg (rT (r / 2)) - rT (a * a) := by ring
  have e2 : -(-Real.log (E b / 2) + b * b) = Real.log (E b / 2) - b * b := by ring
  rw [e1, e2] at t4
  refine t4.trans (mul_le_mul_of_nonneg_right ?_ (abs_nonneg _))
  rw [hκ, hτ]
  linarith

/-- C101: normal_logcdf below -1: a small relative error however far to the left.  `ecx` is any function that
computes `exp(y²) erfc(y)` with relative error `δ` for `y > 0`; `2^(p+emin)` is twice the least normal number. -/
theorem C101_logcdf_left (F : Formats p P emin Emin rT rL) (hl : Means.GoodLog p emin εl lg) (hεl0 : 0 ≤ εl) (hεl : εl ≤ 1 / 1000) (hδ0 : 0 ≤ δ)
    (hδ : δ ≤ 1 / 1000) {ecx : XF ℝ → XF ℝ}
    (hecx : ∀ y, 0 < y → ∃ r, ecx (.fin y) = .fin r ∧ |r - erfcxVal y| ≤ δ * erfcxVal y + 2 ^ emin / 2)
    (x : ℝ) (hx : x < -1) (hbig : |x| * (2 ^ p * 2 ^ emin) ≤ 1 / 16) :
    ∃ r, logcdfR rT rL er lg l1 ecx x = .fin r ∧ |r - Real.log ((gaussianReal 0 1).real (Iic x))| ≤
      1.1 * (εl + 9 * argErr p P + 1.5 * δ + 4 * (2 ^ p)⁻¹ + 15 * 2 ^ emin) * |Real.log ((gaussianReal 0 1).real (Iic x))| := by
  obtain ⟨u0, u1, η0, η1, σ1, σ2⟩ := F.sizes
  have t0 : 0 < -scaledR rT rL x := by
    have A := F.arg x
    obtain ⟨q1, q2⟩ := scale_abs x
    have y0 : x * (1 / √2) < 0 := mul_neg_of_neg_of_pos (by linarith) (by positivity)
    rw [abs_of_neg y0] at A q1
    rw [abs_of_neg (by linarith : x < 0)] at q1
    have : argErr p P * -(x * (1 / √2)) ≤ 0.001 * -(x * (1 / √2)) := mul_le_mul_of_nonneg_right (by linarith) (by linarith)
    linarith [(abs_le.1 A).2]
  obtain ⟨v, hv, hv'⟩ := hecx _ t0
  refine ⟨_, ?_, logcdf_left_aux F hl hεl0 hεl hδ0 hδ x hx hbig (hv'.trans (by
    have : erfcxVal (-scaledR rT rL x) = E (-scaledR rT rL x) := rfl
    rw [this]; linarith))⟩
  unfold logcdfR
  simp only
  rw [if_pos hx, hv]

/-- C101: with ufunclab's own `erfcx`, in `double`. -/
theorem C101_logcdf_left_double (F : Formats 53 64 (-1074) (-16445) rT rL) (hl : Means.GoodLog 53 (-1074) εl lg) (hεl0 : 0 ≤ εl)
    (hεl : εl ≤ 1 / 1000) (ex : ℝ → ℝ) (x : ℝ) (hx : x < -1) (hbig : -(2 : ℝ) ^ (1000 : ℤ) ≤ x) :
    ∃ r, logcdfR rT rL er lg l1 (Erfcx.erfcx rT ex doubleV) x = .fin r ∧ |r - Real.log ((gaussianReal 0 1).real (Iic x))| ≤
      (1.1 * εl + 43 * 2⁻¹ ^ 53) * |Real.log ((gaussianReal 0 1).real (Iic x))| := by
  obtain ⟨r, h1, h2⟩ := C101_logcdf_left (er := er) (l1 := l1) (ecx := Erfcx.erfcx rT ex doubleV) (δ := 17 / 2 ^ 53) F hl hεl0 hεl
    (by norm_num) (by norm_num) (fun y hy => C74_positive_double F.hT hy) x hx (by
      rw [abs_of_neg (by linarith)]
      have : (0 : ℝ) < 2 ^ 53 * 2 ^ (-1074 : ℤ) := by positivity
      calc -x * (2 ^ 53 * 2 ^ (-1074 : ℤ)) ≤ 2 ^ (1000 : ℤ) * (2 ^ (53 : ℤ) * 2 ^ (-1074 : ℤ)) := by rw [zpow_ofNat 2 53] at *; exact mul_le_mul_of_nonneg_right (by linarith) this.le
        _ ≤ 1 / 16 := by rw [← zpow_add₀ (by norm_num), ← zpow_add₀ (by norm_num)]; norm_num)
  refine ⟨r, h1, h2.trans (mul_le_mul_of_nonneg_right ?_ (abs_nonneg _))⟩
  have e : (2 : ℝ) ^ (-1074 : ℤ) ≤ 1 / 2 ^ 60 := by
    calc (2 : ℝ) ^ (-1074 : ℤ) ≤ 2 ^ (-60 : ℤ) := zpow_le_zpow_right₀ (by norm_num) (by norm_num)
      _ = _ := by norm_num
  unfold argErr
  generalize (2 : ℝ) ^ (-1074 : ℤ) = η at *
  norm_num at e ⊢
  linarith

/-- C101: the odds are at most 7 for `x ≥ -1`. -/
theorem C101_odds (x : ℝ) (hx : -1 ≤ x) : (gaussianReal 0 1).real (Ioi x) / (gaussianReal 0 1).real (Iic x) ≤ 7 := by
  have h1 : (gaussianReal 0 1).real (Ioi x) = 1 - (gaussianReal 0 1).real (Iic x) := by
    rw [← compl_Iic, probReal_compl_eq_one_sub measurableSet_Iic]
  have h2 : 1 / 8 ≤ (gaussianReal 0 1).real (Iic x) := by
    rw [gaussian_cdf]
    have s : 1 / √2 ≤ (0.70711 : ℝ) := by have := (scale_abs 1).2; rw [one_mul, abs_one, abs_of_pos (by positivity)] at this; linarith
    have s0 : (0 : ℝ) < 1 / √2 := by positivity
    have a1 : erfc 0.70711 ≤ erfc (-(x * (1 / √2))) := erfc_anti (by nlinarith)
    rw [← E_mul_exp] at a1
    have a2 := E_ge_rat (x := 0.70711) (by norm_num)
    have a3 : 0.56 ≤ c := by
      have := (abs_le.1 c_bounds).1
      have e : (0.56 : ℝ) ≤ (cN : ℝ) / 10 ^ 30 - 1 / 10 ^ 21 := by norm_num [cN]
      linarith
    have a4 : 0.416 ≤ E 0.70711 := by
      refine le_trans ?_ a2
      rw [le_div_iff₀ (by norm_num)]
      norm_num at a3 ⊢; linarith
    have a5 : 0.606 ≤ exp (-0.70711 ^ 2) := by
      have b1 : exp (0.70711 ^ 2) ≤ 1.65 := by
        have b2 := Real.exp_bound' (x := 0.70711 ^ 2) (by norm_num) (by norm_num) (n := 6) (by norm_num)
        refine b2.trans ?_
        simp only [Finset.sum_range_succ, Finset.sum_range_zero, Nat.factorial]
        norm_num
      rw [exp_neg, le_inv_comm₀ (by norm_num) (exp_pos _)]
      exact b1.trans (by norm_num)
    have a6 := mul_le_mul a4 a5 (by norm_num) (by linarith)
    norm_num at a6 a1 ⊢
    linarith
  rw [h1, div_le_iff₀ (by linarith)]
  linarith

set_option maxHeartbeats 1000000 in
/-- C101: normal_logcdf from -1 on, where the upper tail is not subnormal.  The errors are magnified by the odds
`P(X > x) / P(X ≤ x)`, which are at most 7 (`C101_odds`), and in the right tail by `x²`. -/
theorem C101_logcdf_right (F : Formats p P emin Emin rT rL) (her : GoodErfc emin ε er) (hl1 : Scalar.GoodL1 emin ε1 l1) (hε0 : 0 ≤ ε)
    (hε : ε ≤ 1 / 4000) (hε10 : 0 ≤ ε1) (hε1 : ε1 ≤ 1 / 1000) (ecx : XF ℝ → XF ℝ) (x : ℝ) (hx : -1 ≤ x)
    (hx2 : argErr p P * (x ^ 2 + 3 * |x|) ≤ 1 / 4000) (hn : 8 * (2 ^ p * 2 ^ emin) ≤ (gaussianReal 0 1).real (Ioi x)) :
    ∃ r, logcdfR rT rL er lg l1 ecx x = .fin r ∧ |r - Real.log ((gaussianReal 0 1).real (Iic x))| ≤
      1.1 * ((argErr p P * (x ^ 2 + 3 * |x|) + 5 * 2 ^ emin + ε + 2 * (2 ^ p)⁻¹) *
        (1 + (gaussianReal 0 1).real (Ioi x) / (gaussianReal 0 1).real (Iic x)) + ε1 + (2 ^ p)⁻¹) * |Real.log ((gaussianReal 0 1).real (Iic x))| := by
  have odds := C101_odds x hx
  obtain ⟨u0, u1, η0, η1, σ1, σ2⟩ := F.sizes
  have hp7 : 7 ≤ p := by have := F.hp; omega
  have hp8 : 8 ≤ p := by have := F.hp; omega
  have N0 : (0 : ℝ) < 2 ^ p * 2 ^ emin := mul_pos (by positivity) (two_zpow_pos emin)
  have N1 := (Scalar.N_small (p := p) (emin := emin) (by have := F.hep; omega)).2
  have h1 : (gaussianReal 0 1).real (Ioi x) = 1 - (gaussianReal 0 1).real (Iic x) := by
    rw [← compl_Iic, probReal_compl_eq_one_sub measurableSet_Iic]
  have h2 : (gaussianReal 0 1).real (Iic x) = 1 + -(erfc (x * (1 / √2)) / 2) := by rw [gaussian_cdf, erfc_neg]; ring
  have h3 : (gaussianReal 0 1).real (Ioi x) = erfc (x * (1 / √2)) / 2 := by rw [h1, h2]; ring
  have A := F.arg x
  obtain ⟨q1, q2⟩ := scale_abs x
  have sq := scale_sq x
  have B0 := erfc_pos (x * (1 / √2))
  have B2 := erfc_lt_two (x * (1 / √2))
  refine ⟨l1 (rT (-er (scaledR rT rL x) / 2)), by unfold logcdfR; simp only; rw [if_neg (by linarith)], ?_⟩
  rw [h3] at hn odds ⊢
  rw [h2] at odds ⊢
  have sA : |x * (1 / √2)| ^ 2 = |x| ^ 2 / 2 := by rw [sq_abs, sq_abs, sq]
  rw [← sq_abs x] at hx2 ⊢
  have x0 := abs_nonneg x
  have y1 : -0.7072 ≤ x * (1 / √2) := by
    have s : 1 / √2 ≤ (0.70711 : ℝ) := by have := (scale_abs 1).2; rw [one_mul, abs_one, abs_of_pos (by positivity)] at this; linarith
    have s0 : (0 : ℝ) < 1 / √2 := by positivity
    nlinarith
  clear sq h1 h2 h3
  generalize |x| = X at *
  generalize x * (1 / √2) = b at *
  obtain ⟨Y, hY⟩ : ∃ Y, Y = |b| := ⟨_, rfl⟩
  have nb := neg_abs_le b
  have nb' := le_abs_self b
  have Y0 := abs_nonneg b
  rw [← hY] at nb nb' Y0 q1 q2 sA A
  have hT := F.hT
  clear F
  generalize scaledR rT rL x = a at *
  generalize argErr p P = σ at *
  have sY : σ * Y ≤ 0.0002 * Y := mul_le_mul_of_nonneg_right (by linarith) Y0
  obtain ⟨A1, A2⟩ := abs_le.1 A
  have sX2 : 0 ≤ σ * X ^ 2 := mul_nonneg (by linarith) (sq_nonneg X)
  have sX : σ * X ≤ 1 / 12000 := by linarith
  have sX0 : 0 ≤ σ * X := mul_nonneg (by linarith) x0
  have sYX : σ * Y ≤ σ * (0.70711 * X) := mul_le_mul_of_nonneg_left q2 (by linarith)
  have a0 : -1 ≤ a := by linarith
  have c1 := close_erfc4 a0 (by linarith : -1 ≤ b)
  -- the argument
  have e1 : |a - b| * (a + b + 4) ≤ 1.001 * (σ * (X ^ 2 + 3 * X)) + 5 * 2 ^ emin := by
    have f1 : a + b + 4 ≤ 2.001 * Y + 4.001 := by linarith
    have f2 := (mul_le_mul_of_nonneg_left f1 (abs_nonneg (a - b))).trans (mul_le_mul_of_nonneg_right A (by linarith : 0 ≤ 2.001 * Y + 4.001))
    refine f2.trans ?_
    have f3 : (σ * Y + 1.01 * 2 ^ emin) * (2.001 * Y + 4.001)
        = 2.001 * (σ * Y ^ 2) + 4.001 * (σ * Y) + 2.02101 * (2 ^ emin * Y) + 4.04101 * 2 ^ emin := by ring
    rw [f3, sA]
    have f4 : (2 : ℝ) ^ emin * Y ≤ 0.001 * (σ * X) := by
      have g1 : (2 : ℝ) ^ emin * Y ≤ 2 ^ emin * (0.70711 * X) := mul_le_mul_of_nonneg_left q2 η0.le
      have g2 : (2 : ℝ) ^ emin * X ≤ 1 / 1024 * σ * X := mul_le_mul_of_nonneg_right (by linarith) x0
      have g3 := mul_nonneg η0.le x0
      linarith
    linarith
  have c2 := c1.mono e1
  have rA := c2.rel (by linarith)
  have Ea : 15 * (2 ^ p * 2 ^ emin) ≤ erfc a := by
    have := mul_le_mul_of_nonneg_right (show 1.02 * (1.001 * (σ * (X ^ 2 + 3 * X)) + 5 * 2 ^ emin) ≤ 0.01 by linarith) B0.le
    linarith [(abs_le.1 rA).1]
  have Ea0 := erfc_pos a
  -- erfc
  have c3 : SClose (1.02 * (ε + (2 ^ p)⁻¹)) (er a) (erfc a) := sclose_lib hp8 (by linarith) (by rw [abs_of_pos Ea0]; linarith)
    (by rw [abs_of_pos Ea0]; exact her.error a)
  have r3 := c3.rel (by linarith)
  rw [abs_of_pos Ea0] at r3
  have era : 14 * (2 ^ p * 2 ^ emin) ≤ er a := by
    have := mul_le_mul_of_nonneg_right (show 1.02 * (1.02 * (ε + (2 ^ p)⁻¹)) ≤ 0.01 by linarith) Ea0.le
    linarith [(abs_le.1 r3).1]
  have c4 := ((c3.trans c2.sclose).neg).div (SClose.refl (show (2 : ℝ) ≠ 0 by norm_num))
  have c5 := (sclose_round hT hp7 (a := -er a / 2) (by rw [abs_of_neg (by linarith)]; linarith)).trans c4
  rw [neg_div (2 : ℝ) (erfc b)] at c5
  obtain ⟨k, hk⟩ : ∃ k, k = 1.02 * (σ * (X ^ 2 + 3 * X) + 5 * 2 ^ emin + ε + 2 * (2 ^ p)⁻¹) := ⟨_, rfl⟩
  have sXX : 0 ≤ σ * (X ^ 2 + 3 * X) := by linarith
  have c6 : SClose k (rT (-er a / 2)) (-(erfc b / 2)) := c5.mono (by rw [hk]; linarith)
  have k0 := c6.nonneg
  -- log1p
  have mx : max 0 (- -(erfc b / 2)) = erfc b / 2 := by rw [neg_neg]; exact max_eq_right (by linarith)
  obtain ⟨ρ, hρ⟩ : ∃ ρ, ρ = erfc b / 2 / (1 + -(erfc b / 2)) := ⟨_, rfl⟩
  rw [← hρ] at odds ⊢
  have ρ0 : 0 ≤ ρ := by rw [hρ]; exact div_nonneg (by linarith) (by linarith)
  have k7 : k * ρ ≤ k * 7 := mul_le_mul_of_nonneg_left odds k0
  have k8 : k ≤ 0.0007 := by rw [hk]; linarith
  obtain ⟨d1, d2⟩ := c6.log1p (by linarith) (by rw [mx, ← hρ]; linarith) (by linarith)
  rw [mx, ← hρ] at d2
  have L := c6.large (by linarith) (show 0 ≤ 4 * (2 ^ p * 2 ^ emin : ℝ) by linarith) (by rw [abs_neg, abs_of_pos (by linarith)]; linarith)
  have g := abs_log1p_ge d1
  have n1 : 2 ^ p * 2 ^ emin ≤ |Real.log (1 + rT (-er a / 2))| := by
    refine le_trans ?_ g
    rw [le_div_iff₀ (by norm_num)]
    exact le_min (by linarith) (by linarith)
  have d3 := (sclose_lib hp8 hε1 n1 (hl1.error _ d1)).trans d2
  have kρ : 0 ≤ k * ρ := mul_nonneg k0 ρ0
  have d4 := d3.rel (by linarith)
  refine d4.trans (mul_le_mul_of_nonneg_right ?_ (abs_nonneg _))
  have fin : k * (1 + 1.05 * ρ) ≤ 1.05 * (k * (1 + ρ)) := by linarith
  have fin2 : k * (1 + ρ) = 1.02 * ((σ * (X ^ 2 + 3 * X) + 5 * 2 ^ emin + ε + 2 * (2 ^ p)⁻¹) * (1 + ρ)) := by rw [hk]; ring
  have fin3 : 0 ≤ (σ * (X ^ 2 + 3 * X) + 5 * 2 ^ emin + ε + 2 * (2 ^ p)⁻¹) * (1 + ρ) := mul_nonneg (by linarith) (by linarith)
  linarith

/-- C101: normal_logsf above 1, with ufunclab's own `erfcx`, in `double`. -/
theorem C101_logsf_right_double (F : Formats 53 64 (-1074) (-16445) rT rL) (hl : Means.GoodLog 53 (-1074) εl lg) (hεl0 : 0 ≤ εl)
    (hεl : εl ≤ 1 / 1000) (ex : ℝ → ℝ) (x : ℝ) (hx : 1 < x) (hbig : x ≤ 2 ^ (1000 : ℤ)) :
    ∃ r, logsfR rT rL er lg l1 (Erfcx.erfcx rT ex doubleV) x = .fin r ∧ |r - Real.log ((gaussianReal 0 1).real (Ioi x))| ≤
      (1.1 * εl + 43 * 2⁻¹ ^ 53) * |Real.log ((gaussianReal 0 1).real (Ioi x))| := by
  rw [upper]
  exact C101_logcdf_left_double F hl hεl0 hεl ex (-x) (by linarith) (by linarith)

theorem goodErfc_round {rd : ℝ → ℝ} (h : Nearest p emin rd) (hp : 1 ≤ p) : GoodErfc emin (2 ^ p)⁻¹ (fun y => rd (erfc y)) where
  nonneg y := h.mono_float isFloat_zero (erfc_pos y).le
  error y := by
    have := h.error hp (erfc y)
    rw [abs_of_pos (erfc_pos y)] at this
    have := two_zpow_pos (K := ℝ) emin
    linarith

theorem exists_formats : ∃ rT rL : ℝ → ℝ, Formats 53 64 (-1074) (-16445) rT rL := by
  obtain ⟨rT, hT⟩ := exists_nearest (K := ℝ) (p := 53) (by norm_num) (-1074)
  obtain ⟨rL, hL⟩ := exists_nearest (K := ℝ) (p := 64) (by norm_num) (-16445)
  exact ⟨rT, rL, hT, hL, by norm_num, by norm_num, by norm_num, by norm_num, by norm_num, by norm_num⟩

/-- The hypotheses are met: in `double`, with correctly rounded library functions, `normal_cdf(-2)` has a relative error
of at most `12 · 2⁻⁵³`, `normal_logcdf(-50)` of at most `45 · 2⁻⁵³`. -/
example : ∃ rT rL : ℝ → ℝ, Formats 53 64 (-1074) (-16445) rT rL ∧
    |cdfR rT rL (fun y => rT (erfc y)) (-2) - (gaussianReal 0 1).real (Iic (-2))| ≤
      12 / 2 ^ 53 * (gaussianReal 0 1).real (Iic (-2)) + 2 * 2 ^ (-1074 : ℤ) ∧
    ∃ r, logcdfR rT rL (fun y => rT (erfc y)) (fun y => rT (Real.log y)) (fun y => rT (Real.log (1 + y))) (Erfcx.erfcx rT exp doubleV) (-50) = .fin r ∧
      |r - Real.log ((gaussianReal 0 1).real (Iic (-50)))| ≤ 45 / 2 ^ 53 * |Real.log ((gaussianReal 0 1).real (Iic (-50)))| := by
  obtain ⟨rT, rL, F⟩ := exists_formats
  have e : (2 : ℝ) ^ (-1074 : ℤ) ≤ 1 / 2 ^ 60 := by
    calc (2 : ℝ) ^ (-1074 : ℤ) ≤ 2 ^ (-60 : ℤ) := zpow_le_zpow_right₀ (by norm_num) (by norm_num)
      _ = _ := by norm_num
  refine ⟨rT, rL, F, ?_, ?_⟩
  · refine (C101_cdf_left F (goodErfc_round F.hT (by norm_num)) (by norm_num) (by norm_num) (-2) (by norm_num) (by norm_num [argErr])).trans ?_
    have := measureReal_nonneg (μ := gaussianReal 0 1) (s := Iic (-2))
    refine add_le_add (mul_le_mul_of_nonneg_right ?_ this) le_rfl
    generalize (2 : ℝ) ^ (-1074 : ℤ) = η at *
    rw [abs_of_neg (by norm_num)]
    unfold argErr
    norm_num at e ⊢
    linarith
  · obtain ⟨r, h1, h2⟩ := C101_logcdf_left_double (er := fun y => rT (erfc y)) (l1 := fun y => rT (Real.log (1 + y))) F
      (Means.goodLog_round F.hT (by norm_num) (by norm_num)) (by norm_num) (by norm_num) exp (-50) (by norm_num) (by
        have : (2 : ℝ) ^ (10 : ℤ) ≤ 2 ^ (1000 : ℤ) := zpow_le_zpow_right₀ (by norm_num) (by norm_num)
        have e : (2 : ℝ) ^ (10 : ℤ) = 1024 := by norm_num
        rw [e] at this
        generalize (2 : ℝ) ^ (1000 : ℤ) = M at *
        linarith)
    refine ⟨r, h1, h2.trans (mul_le_mul_of_nonneg_right (by norm_num) (abs_nonneg _))⟩

/-- And those of the other branch, at 0. -/
example : ∃ rT rL : ℝ → ℝ, Formats 53 64 (-1074) (-16445) rT rL ∧
    argErr 53 64 * ((0 : ℝ) ^ 2 + 3 * |0|) ≤ 1 / 4000 ∧ 8 * ((2 : ℝ) ^ 53 * 2 ^ (-1074 : ℤ)) ≤ (gaussianReal 0 1).real (Ioi 0) := by
  obtain ⟨rT, rL, F⟩ := exists_formats
  refine ⟨rT, rL, F, by norm_num, ?_⟩
  rw [upper, gaussian_cdf, neg_zero, zero_mul, neg_zero, erfc_zero]
  calc 8 * ((2 : ℝ) ^ 53 * 2 ^ (-1074 : ℤ)) = 2 ^ (3 : ℤ) * (2 ^ (53 : ℤ) * 2 ^ (-1074 : ℤ)) := by norm_num
    _ = 2 ^ (-1018 : ℤ) := by rw [← zpow_add₀ (by norm_num), ← zpow_add₀ (by norm_num)]; norm_num
    _ ≤ 2 ^ (-1 : ℤ) := zpow_le_zpow_right₀ (by norm_num) (by norm_num)
    _ = 1 / 2 := by norm_num

end Ufunclab.Normal
