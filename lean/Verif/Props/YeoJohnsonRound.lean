import Verif.Props.LogisticRound
import Verif.Props.YeoJohnson
import Verif.Proof.TriAreaWhole
import Verif.Proof.ErfcxOverflow
/-!
# C99: yeo_johnson, inv_yeo_johnson and pow1pm1 in floating point

`rd` rounds to a nearest number of precision `p` with least positive number `2^emin`; `log1p` and `expm1` are
library functions of relative error `ε'` and `ε` (up to underflow).  `2^(emin+p)` is twice the least normal number.
-/
namespace Ufunclab.Scalar
open Real Ufunclab.Float
variable {p : ℕ} {emin : ℤ} {rd l1 em : ℝ → ℝ} {ε ε' : ℝ}

/-- A library `log1p`: relative error at most `ε`, up to underflow. -/
structure GoodL1 (emin : ℤ) (ε : ℝ) (l1 : ℝ → ℝ) : Prop where
  zero : l1 0 = 0
  error : ∀ a, -1 < a → |l1 a - Real.log (1 + a)| ≤ ε * |Real.log (1 + a)| + 2 ^ emin

/-- A library `expm1`: relative error at most `ε`, up to underflow. -/
structure GoodE1 (emin : ℤ) (ε : ℝ) (em : ℝ → ℝ) : Prop where
  zero : em 0 = 0
  error : ∀ w, |em w - (exp w - 1)| ≤ ε * |exp w - 1| + 2 ^ emin

theorem u_small10 (hp : 10 ≤ p) : (0 : ℝ) < (2 ^ p)⁻¹ ∧ ((2 : ℝ) ^ p)⁻¹ ≤ 1 / 1024 := by
  refine ⟨by positivity, ?_⟩
  have : (2 : ℝ) ^ 10 ≤ 2 ^ p := pow_le_pow_right₀ (by norm_num) hp
  rw [inv_le_comm₀ (by positivity) (by norm_num)]
  norm_num at *; linarith

theorem N_small (hep : emin + p ≤ -2) : (0 : ℝ) < 2 ^ p * 2 ^ emin ∧ (2 : ℝ) ^ p * 2 ^ emin ≤ 1 / 4 := by
  refine ⟨mul_pos (by positivity) (two_zpow_pos emin), ?_⟩
  rw [← zpow_natCast, ← zpow_add₀ (by norm_num)]
  calc (2 : ℝ) ^ ((p : ℤ) + emin) ≤ 2 ^ (-2 : ℤ) := zpow_le_zpow_right₀ (by norm_num) (by omega)
    _ = 1 / 4 := by norm_num

/-- The exponent of the power: `c log1p(x)`. -/
theorem pow_arg (h : Nearest p emin rd) (hl : GoodL1 emin ε' l1) (hp : 10 ≤ p) (hε0' : 0 ≤ ε') (hε' : ε' ≤ 1 / 1000) {x c c₀ : ℝ}
    (hx : -1 < x) (hc : SClose (1.02 * (2 ^ p)⁻¹) c c₀) (hn : 2 ^ p * 2 ^ emin ≤ |Real.log (1 + x)|)
    (hn' : 4 * (2 ^ p * 2 ^ emin) ≤ |c₀ * Real.log (1 + x)|) :
    SClose (1.02 * (ε' + 3 * (2 ^ p)⁻¹)) (rd (c * l1 x)) (c₀ * Real.log (1 + x)) ∧ 3 * (2 ^ p * 2 ^ emin) ≤ |rd (c * l1 x)| := by
  obtain ⟨u0, u1⟩ := u_small10 hp
  have N0 : (0 : ℝ) < 2 ^ p * 2 ^ emin := mul_pos (by positivity) (two_zpow_pos emin)
  have c1 := sclose_lib (by omega) hε' hn (hl.error x hx)
  have c2 := hc.mul c1
  have L := c2.large (by linarith) (by linarith : 0 ≤ 2 * (2 ^ p * 2 ^ emin : ℝ)) (by linarith)
  have c3 := (sclose_round h (by omega) (by linarith : 2 ^ p * 2 ^ emin ≤ |c * l1 x|)).trans c2
  have c4 := c3.mono (show _ ≤ 1.02 * (ε' + 3 * (2 ^ p)⁻¹) by linarith)
  refine ⟨c4, ?_⟩
  have := c4.large (by linarith) (by linarith : 0 ≤ 2 * (2 ^ p * 2 ^ emin : ℝ)) (by linarith)
  linarith

/-- `expm1` of the exponent. -/
theorem pow_close (he : GoodE1 emin ε em) (hp : 10 ≤ p) (hep : emin + p ≤ -2) (hε : ε ≤ 1 / 1000) {σ W w : ℝ}
    (hW : SClose (1.02 * σ) W w) (hσ : σ ≤ 1 / 100) (hN : 3 * (2 ^ p * 2 ^ emin) ≤ |W|) :
    SClose (1.02 * σ + 1.05 * (σ * |w|) + 1.02 * (ε + (2 ^ p)⁻¹)) (em W) (exp w - 1) := by
  obtain ⟨N0, N1⟩ := N_small hep
  have r := hW.rel (by linarith)
  have c1 := hW.expm1
  have g := abs_expm1_ge W
  have n1 : 2 ^ p * 2 ^ emin ≤ |exp W - 1| := by
    refine le_trans ?_ g
    rw [le_div_iff₀ (by norm_num)]
    exact le_min (by linarith) (by linarith)
  have c2 := (sclose_lib (by omega) hε n1 (he.error W)).trans c1
  refine c2.mono ?_
  have s0 : 0 ≤ σ := by linarith [hW.nonneg]
  have := mul_nonneg s0 (abs_nonneg w)
  linarith

/-- C99: pow1pm1. -/
theorem C99_pow1pm1_accuracy (h : Nearest p emin rd) (hl : GoodL1 emin ε' l1) (he : GoodE1 emin ε em) (hp : 10 ≤ p) (hep : emin + p ≤ -2)
    (hε0 : 0 ≤ ε) (hε : ε ≤ 1 / 1000) (hε0' : 0 ≤ ε') (hε' : ε' ≤ 1 / 1000) (x y : ℝ) (hx : -1 < x)
    (hn : 2 ^ p * 2 ^ emin ≤ |Real.log (1 + x)|) (hn' : 4 * (2 ^ p * 2 ^ emin) ≤ |y * Real.log (1 + x)|)
    (hw : (ε' + 3 * (2 ^ p)⁻¹) * |y * Real.log (1 + x)| ≤ 1 / 100) :
    |pow1pm1R rd l1 em x y - ((1 + x) ^ y - 1)| ≤
      1.1 * ((ε' + 3 * (2 ^ p)⁻¹) * (1 + |y * Real.log (1 + x)|) + ε + (2 ^ p)⁻¹) * |(1 + x) ^ y - 1| := by
  obtain ⟨u0, u1⟩ := u_small10 hp
  obtain ⟨N0, N1⟩ := N_small hep
  have y0 : y ≠ 0 := by
    rintro rfl
    rw [zero_mul, abs_zero] at hn'
    linarith
  obtain ⟨c1, c2⟩ := pow_arg h hl hp hε0' hε' hx ((SClose.refl y0).mono (by linarith)) hn hn'
  have c3 := pow_close he hp hep hε c1 (by linarith) c2
  have r := c3.rel (by linarith)
  have e : (1 + x) ^ y = exp (y * Real.log (1 + x)) := by
    rw [rpow_def_of_pos (by linarith), mul_comm]
  unfold pow1pm1R
  rw [if_neg (by rintro ⟨h, _⟩; linarith), e]
  refine r.trans (mul_le_mul_of_nonneg_right ?_ (abs_nonneg _))
  have := mul_nonneg (by linarith : 0 ≤ ε' + 3 * (2 ^ p : ℝ)⁻¹) (abs_nonneg (y * Real.log (1 + x)))
  linarith

theorem C99_pow1pm1_zero (h : Nearest p emin rd) (hl : GoodL1 emin ε' l1) (he : GoodE1 emin ε em) (x y : ℝ) :
    pow1pm1R rd l1 em x 0 = 0 ∧ pow1pm1R rd l1 em 0 y = 0 := by
  unfold pow1pm1R
  constructor
  · split_ifs
    · rfl
    · rw [zero_mul, h.round_zero, he.zero]
  · rw [if_neg (by norm_num), hl.zero, mul_zero, h.round_zero, he.zero]

/-- One branch of `yeo_johnson`: `± expm1(c log1p(x)) / c`. -/
theorem yj_branch (h : Nearest p emin rd) (hl : GoodL1 emin ε' l1) (he : GoodE1 emin ε em) (hp : 10 ≤ p) (hep : emin + p ≤ -2)
    (hε0 : 0 ≤ ε) (hε : ε ≤ 1 / 1000) (hε0' : 0 ≤ ε') (hε' : ε' ≤ 1 / 1000) {x c c₀ : ℝ} (hx : 0 < x)
    (hc : SClose (1.02 * (2 ^ p)⁻¹) c c₀) (hn : 2 ^ p * 2 ^ emin ≤ Real.log (1 + x))
    (hn' : 4 * (2 ^ p * 2 ^ emin) ≤ |c₀| * Real.log (1 + x)) (hw : (ε' + 3 * (2 ^ p)⁻¹) * (|c₀| * Real.log (1 + x)) ≤ 1 / 100)
    {Q q : ℝ} (hQ : (Q = em (rd (c * l1 x)) / c ∧ q = ((1 + x) ^ c₀ - 1) / c₀) ∨ (Q = -(em (rd (c * l1 x)) / c) ∧ q = -(((1 + x) ^ c₀ - 1) / c₀))) :
    |rd Q - q| ≤ 1.1 * ((ε' + 3 * (2 ^ p)⁻¹) * (1 + |c₀| * Real.log (1 + x)) + ε + 3 * (2 ^ p)⁻¹) * |q| + 2 ^ emin / 2 := by
  obtain ⟨u0, u1⟩ := u_small10 hp
  obtain ⟨N0, N1⟩ := N_small hep
  have L0 : 0 < Real.log (1 + x) := log_pos (by linarith)
  have ew : |c₀ * Real.log (1 + x)| = |c₀| * Real.log (1 + x) := by rw [abs_mul, abs_of_pos L0]
  rw [← ew] at hn' hw ⊢
  obtain ⟨c1, c2⟩ := pow_arg h hl hp hε0' hε' (by linarith : -1 < x) hc (by rw [abs_of_pos L0]; exact hn) hn'
  have c3 := (pow_close he hp hep hε c1 (by linarith) c2).div hc
  have e : (1 + x) ^ c₀ = exp (c₀ * Real.log (1 + x)) := by
    rw [rpow_def_of_pos (by linarith), mul_comm]
  rw [← e] at c3
  have c4 : SClose (1.02 * (ε' + 3 * (2 ^ p)⁻¹) + 1.05 * ((ε' + 3 * (2 ^ p)⁻¹) * |c₀ * Real.log (1 + x)|) + 1.02 * (ε + (2 ^ p)⁻¹) + 1.02 * (2 ^ p)⁻¹) Q q := by
    rcases hQ with ⟨rfl, rfl⟩ | ⟨rfl, rfl⟩
    · exact c3
    · exact c3.neg
  have r := c4.rel (by linarith)
  have r2 := h.error (by omega) Q
  have aQ : |Q| ≤ |q| + |Q - q| := by linarith [abs_sub_abs_le_abs_sub Q q]
  have t := abs_sub_le (rd Q) Q q
  have W0 := mul_nonneg (by linarith : 0 ≤ ε' + 3 * (2 ^ p : ℝ)⁻¹) (abs_nonneg (c₀ * Real.log (1 + x)))
  have m : (ε' + 3 * (2 ^ p : ℝ)⁻¹) * (1 + |c₀ * Real.log (1 + x)|) = (ε' + 3 * (2 ^ p : ℝ)⁻¹) + (ε' + 3 * (2 ^ p : ℝ)⁻¹) * |c₀ * Real.log (1 + x)| := by ring
  rw [m]
  generalize (ε' + 3 * (2 ^ p : ℝ)⁻¹) * |c₀ * Real.log (1 + x)| = W at *
  generalize (2 ^ p : ℝ)⁻¹ = u at *
  have q0 := abs_nonneg q
  generalize |q| = B at *
  have r3 : |Q - q| ≤ 1 / 25 * B := r.trans (mul_le_mul_of_nonneg_right (by linarith) q0)
  have r4 : u * |Q| ≤ u * (1.04 * B) := mul_le_mul_of_nonneg_left (by linarith) u0.le
  have i1 := mul_nonneg hε0 q0
  have i2 := mul_nonneg hε0' q0
  have i3 := mul_nonneg u0.le q0
  have i4 := mul_nonneg W0 q0
  have z := two_zpow_pos (K := ℝ) emin
  generalize (2 : ℝ) ^ emin = η at *
  clear * - t r r2 r4 i1 i2 i3 i4
  nlinarith

/-- C99: yeo_johnson for positive `x`. -/
theorem C99_yeo_johnson_pos_accuracy (h : Nearest p emin rd) (hl : GoodL1 emin ε' l1) (he : GoodE1 emin ε em) (hp : 10 ≤ p) (hep : emin + p ≤ -2)
    (hε0 : 0 ≤ ε) (hε : ε ≤ 1 / 1000) (hε0' : 0 ≤ ε') (hε' : ε' ≤ 1 / 1000) (x l : ℝ) (hx : 0 < x) (hl0 : l ≠ 0)
    (hn : 2 ^ p * 2 ^ emin ≤ Real.log (1 + x)) (hn' : 4 * (2 ^ p * 2 ^ emin) ≤ |l| * Real.log (1 + x))
    (hw : (ε' + 3 * (2 ^ p)⁻¹) * (|l| * Real.log (1 + x)) ≤ 1 / 100) :
    |yeoJohnsonR rd l1 em x l - ((1 + x) ^ l - 1) / l| ≤
      1.1 * ((ε' + 3 * (2 ^ p)⁻¹) * (1 + |l| * Real.log (1 + x)) + ε + 3 * (2 ^ p)⁻¹) * |((1 + x) ^ l - 1) / l| + 2 ^ emin / 2 := by
  have hc : SClose (1.02 * (2 ^ p)⁻¹) l l := (SClose.refl hl0).mono (by positivity)
  unfold yeoJohnsonR
  rw [if_pos hx.le, if_neg hl0]
  exact yj_branch h hl he hp hep hε0 hε hε0' hε' hx hc hn hn' hw (Or.inl ⟨rfl, rfl⟩)

/-- C99: yeo_johnson for negative `x`. -/
theorem C99_yeo_johnson_neg_accuracy (h : Nearest p emin rd) (hl : GoodL1 emin ε' l1) (he : GoodE1 emin ε em) (hp : 10 ≤ p) (hep : emin + p ≤ -2)
    (hε0 : 0 ≤ ε) (hε : ε ≤ 1 / 1000) (hε0' : 0 ≤ ε') (hε' : ε' ≤ 1 / 1000) (x l : ℝ) (hx : x < 0) (fl : IsFloat p emin l) (hl0 : l ≠ 2)
    (hn : 2 ^ p * 2 ^ emin ≤ Real.log (1 - x)) (hn' : 4 * (2 ^ p * 2 ^ emin) ≤ |2 - l| * Real.log (1 - x))
    (hw : (ε' + 3 * (2 ^ p)⁻¹) * (|2 - l| * Real.log (1 - x)) ≤ 1 / 100) :
    |yeoJohnsonR rd l1 em x l - -(((1 - x) ^ (2 - l) - 1) / (2 - l))| ≤
      1.1 * ((ε' + 3 * (2 ^ p)⁻¹) * (1 + |2 - l| * Real.log (1 - x)) + ε + 3 * (2 ^ p)⁻¹) * |((1 - x) ^ (2 - l) - 1) / (2 - l)| + 2 ^ emin / 2 := by
  obtain ⟨u0, u1⟩ := u_small10 hp
  obtain ⟨N0, N1⟩ := N_small hep
  have f2 : IsFloat p emin (2 : ℝ) := by simpa using isFloat_zpow (K := ℝ) (p := p) (by omega) (emin := emin) (e := 1) (by omega)
  have hc : SClose (1.02 * (2 ^ p)⁻¹) (rd (2 - l)) (2 - l) :=
    sclose_of_rel (sub_ne_zero.2 (Ne.symm hl0)) (by linarith) (h.rel_error (by omega) (f2.grid.sub fl.grid))
  rw [sub_eq_add_neg 1 x] at hn hn' hw ⊢
  unfold yeoJohnsonR
  rw [if_neg (by linarith), if_neg hl0, ← abs_neg (((1 + -x) ^ (2 - l) - 1) / (2 - l))]
  exact yj_branch h hl he hp hep hε0 hε hε0' hε' (by linarith : 0 < -x) hc hn hn' hw (Or.inr ⟨by rw [neg_div], rfl⟩)

/-- C99: the special parameters, and 0. -/
theorem C99_yeo_johnson_special (h : Nearest p emin rd) (hl : GoodL1 emin ε' l1) (he : GoodE1 emin ε em) (x l : ℝ) :
    (0 ≤ x → |yeoJohnsonR rd l1 em x 0 - Real.log (1 + x)| ≤ ε' * Real.log (1 + x) + 2 ^ emin) ∧
    (x < 0 → |yeoJohnsonR rd l1 em x 2 - -Real.log (1 - x)| ≤ ε' * Real.log (1 - x) + 2 ^ emin) ∧
    yeoJohnsonR rd l1 em 0 l = 0 := by
  refine ⟨fun hx => ?_, fun hx => ?_, ?_⟩
  · unfold yeoJohnsonR
    rw [if_pos hx, if_pos rfl]
    have := hl.error x (by linarith)
    rwa [abs_of_nonneg (log_nonneg (by linarith))] at this
  · unfold yeoJohnsonR
    rw [if_neg (by linarith), if_pos rfl, neg_sub_neg, abs_sub_comm]
    have := hl.error (-x) (by linarith)
    rwa [← sub_eq_add_neg, abs_of_nonneg (log_nonneg (by linarith))] at this
  · unfold yeoJohnsonR
    rw [if_pos le_rfl, hl.zero, mul_zero, h.round_zero, he.zero, zero_div, h.round_zero, ite_self]

/-- `expm1(log1p(c x)/c)` for positive `x`. -/
theorem inv_branch (h : Nearest p emin rd) (hl : GoodL1 emin ε' l1) (he : GoodE1 emin ε em) (hp : 10 ≤ p) (hep : emin + p ≤ -2)
    (hε0 : 0 ≤ ε) (hε : ε ≤ 1 / 1000) (hε0' : 0 ≤ ε') (hε' : ε' ≤ 1 / 1000) {x c c₀ κ : ℝ} (hx : 0 < x)
    (hc : SClose (1.02 * (2 ^ p)⁻¹) c c₀) (hv : -1 < c₀ * x) (hn : 4 * (2 ^ p * 2 ^ emin) ≤ |c₀ * x|)
    (hn' : 4 * (2 ^ p * 2 ^ emin) ≤ Real.log (1 + c₀ * x) / c₀) (hκ : κ = max 0 (-(c₀ * x)) / (1 + c₀ * x)) (hk : (2 ^ p)⁻¹ * κ ≤ 1 / 2000)
    (hw : (ε' + (5 + 2.1 * κ) * (2 ^ p)⁻¹) * (Real.log (1 + c₀ * x) / c₀) ≤ 1 / 100) :
    -1 < rd (c * x) ∧ |em (rd (l1 (rd (c * x)) / c)) - ((1 + c₀ * x) ^ (1 / c₀) - 1)| ≤
      1.1 * ((ε' + (5 + 2.1 * κ) * (2 ^ p)⁻¹) * (1 + Real.log (1 + c₀ * x) / c₀) + ε + (2 ^ p)⁻¹) * ((1 + c₀ * x) ^ (1 / c₀) - 1) := by
  obtain ⟨u0, u1⟩ := u_small10 hp
  obtain ⟨N0, N1⟩ := N_small hep
  have k0 : 0 ≤ κ := by rw [hκ]; exact div_nonneg (le_max_left _ _) (by linarith)
  have c1 := hc.mul (SClose.refl hx.ne')
  have g1 := c1.large (by linarith) (by linarith : 0 ≤ 2 * (2 ^ p * 2 ^ emin : ℝ)) (by linarith)
  have c2 := (sclose_round h (by omega) (by linarith : 2 ^ p * 2 ^ emin ≤ |c * x|)).trans c1
  have c2' : SClose (2.04 * (2 ^ p)⁻¹) (rd (c * x)) (c₀ * x) := c2.mono (by linarith)
  have g2 := c2'.large (by linarith) (by linarith : 0 ≤ 2 * (2 ^ p * 2 ^ emin : ℝ)) (by linarith)
  obtain ⟨t1, c3⟩ := c2'.log1p hv (by rw [← hκ]; linarith) (by linarith)
  rw [← hκ] at c3
  refine ⟨t1, ?_⟩
  have g3 : 2 ^ p * 2 ^ emin ≤ |Real.log (1 + rd (c * x))| := by
    refine le_trans ?_ (abs_log1p_ge t1)
    rw [le_div_iff₀ (by norm_num)]
    exact le_min (by linarith) (by linarith)
  have c4 := (sclose_lib (by omega) hε' g3 (hl.error _ t1)).trans c3
  have c5 := c4.div hc
  have w0 : 0 < Real.log (1 + c₀ * x) / c₀ := by linarith
  have e5 : 1.02 * (ε' + (2 ^ p : ℝ)⁻¹) + 2.04 * (2 ^ p)⁻¹ * (1 + 1.05 * κ) + 1.02 * (2 ^ p)⁻¹ =
      1.02 * (ε' + 4 * (2 ^ p)⁻¹) + 2.142 * ((2 ^ p)⁻¹ * κ) := by ring
  rw [e5] at c5
  have g4 := c5.large (by linarith) (by linarith : 0 ≤ 2 * (2 ^ p * 2 ^ emin : ℝ)) (by rw [abs_of_pos w0]; linarith)
  have c6 := (sclose_round h (by omega) (by linarith : 2 ^ p * 2 ^ emin ≤ |l1 (rd (c * x)) / c|)).trans c5
  have c7 : SClose (1.02 * (ε' + (5 + 2.1 * κ) * (2 ^ p)⁻¹)) (rd (l1 (rd (c * x)) / c)) (Real.log (1 + c₀ * x) / c₀) := by
    refine c6.mono (le_of_eq ?_)
    ring
  have es : ε' + (5 + 2.1 * κ) * (2 ^ p : ℝ)⁻¹ = ε' + 5 * (2 ^ p)⁻¹ + 2.1 * ((2 ^ p)⁻¹ * κ) := by ring
  have sb : ε' + (5 + 2.1 * κ) * (2 ^ p : ℝ)⁻¹ ≤ 7 / 1000 := by rw [es]; linarith
  have s0 : 0 ≤ ε' + (5 + 2.1 * κ) * (2 ^ p : ℝ)⁻¹ := by
    rw [es]; have := mul_nonneg u0.le k0; linarith
  have g5 := c7.large (by linarith) (by linarith : 0 ≤ 2 * (2 ^ p * 2 ^ emin : ℝ)) (by rw [abs_of_pos w0]; linarith)
  have c8 := pow_close he hp hep hε c7 (by linarith) (by linarith)
  rw [abs_of_pos w0] at c8
  have r := c8.rel (by linarith)
  have e : (1 + c₀ * x) ^ (1 / c₀) = exp (Real.log (1 + c₀ * x) / c₀) := by
    rw [rpow_def_of_pos (by linarith)]
    ring_nf
  rw [e]
  have E0 : 0 < exp (Real.log (1 + c₀ * x) / c₀) - 1 := by
    have := add_one_lt_exp w0.ne'
    linarith
  rw [abs_of_pos E0] at r
  refine r.trans (mul_le_mul_of_nonneg_right ?_ E0.le)
  have := mul_nonneg s0 w0.le
  have m : (ε' + (5 + 2.1 * κ) * (2 ^ p : ℝ)⁻¹) * (1 + Real.log (1 + c₀ * x) / c₀) = (ε' + (5 + 2.1 * κ) * (2 ^ p : ℝ)⁻¹) +
      (ε' + (5 + 2.1 * κ) * (2 ^ p : ℝ)⁻¹) * (Real.log (1 + c₀ * x) / c₀) := by ring
  rw [m]
  generalize (ε' + (5 + 2.1 * κ) * (2 ^ p : ℝ)⁻¹) * (Real.log (1 + c₀ * x) / c₀) = W at *
  generalize ε' + (5 + 2.1 * κ) * (2 ^ p : ℝ)⁻¹ = S at *
  clear * - this s0 hε0 u0
  linarith

/-- The test for the end of the domain does not interfere. -/
theorem inv_end (h : Nearest p emin rd) (hp : 10 ≤ p) {x c c₀ : ℝ} (hx : 4 * (2 ^ p * 2 ^ emin) ≤ x)
    (hc : SClose (1.02 * (2 ^ p)⁻¹) c c₀) (hc0 : c₀ < 0) (hv : -1 < c₀ * x) (hk : (2 ^ p)⁻¹ * (max 0 (-(c₀ * x)) / (1 + c₀ * x)) ≤ 1 / 2000) :
    x < rd (-1 / c) ∧ rd (1 / c) < -x := by
  obtain ⟨u0, u1⟩ := u_small10 hp
  have N0 : (0 : ℝ) < 2 ^ p * 2 ^ emin := mul_pos (by positivity) (two_zpow_pos emin)
  have x0 : 0 < x := by linarith
  have c0 : c < 0 := by
    have := hc.1
    exact neg_of_mul_pos_left this hc0.le
  have v0 : c₀ * x < 0 := mul_neg_of_neg_of_pos hc0 x0
  rw [max_eq_right (by linarith), ← mul_div_assoc, div_le_iff₀ (by linarith)] at hk
  obtain ⟨b, hb⟩ : ∃ b, b = -(c₀ * x) := ⟨_, rfl⟩
  have b1 : b < 1 - 3 * (2 ^ p)⁻¹ := by
    rw [← hb] at hk
    have : 1 + c₀ * x = 1 - b := by rw [hb]; ring
    rw [this] at hk
    generalize (2 ^ p : ℝ)⁻¹ = u at *
    rcases le_or_gt (1 / 2) b with h1 | h1
    · nlinarith
    · linarith
  have r := hc.inv.rel (by linarith)
  have a0 : |c₀⁻¹| = x / b := by
    rw [abs_of_neg (inv_lt_zero.2 hc0), hb]
    field_simp
  have bp : 0 < b := by linarith
  rw [a0] at r
  have xb : x ≤ x / b := by rw [le_div_iff₀ bp]; nlinarith
  have r' := abs_le.1 r
  have i0 : c₀⁻¹ = -(x / b) := by rw [← a0, abs_of_neg (inv_lt_zero.2 hc0), neg_neg]
  have X0 : 0 < x / b := by positivity
  have key : x < (1 - 3 * (2 ^ p)⁻¹) * (x / b) := by
    rw [← mul_div_assoc, lt_div_iff₀ bp, mul_comm]
    exact mul_lt_mul_of_pos_right b1 x0
  have ci : -c⁻¹ ≥ (1 - 1.05 * (2 ^ p)⁻¹) * (x / b) := by
    rw [i0] at r'
    have := mul_pos u0 X0
    nlinarith [r'.2]
  have ca : |c⁻¹| = -c⁻¹ := abs_of_neg (inv_lt_zero.2 c0)
  have big : 2 ^ p * 2 ^ emin ≤ |c⁻¹| := by
    rw [ca]
    have : (1 / 2) * (x / b) ≤ (1 - 1.05 * (2 ^ p)⁻¹) * (x / b) := mul_le_mul_of_nonneg_right (by linarith) X0.le
    linarith
  have e1 := abs_le.1 (TriArea.rel_normal h (by omega) big)
  have e2 := abs_le.1 (TriArea.rel_normal h (z := -c⁻¹) (by omega) (by rw [abs_neg]; exact big))
  rw [abs_neg] at e2
  rw [ca] at e1 e2
  have fin : x < (1 - (2 ^ p)⁻¹) * -c⁻¹ := by
    have := mul_le_mul_of_nonneg_left ci (show 0 ≤ 1 - (2 ^ p : ℝ)⁻¹ by linarith)
    have : (1 - 3 * (2 ^ p)⁻¹) * (x / b) ≤ (1 - (2 ^ p : ℝ)⁻¹) * ((1 - 1.05 * (2 ^ p)⁻¹) * (x / b)) := by
      rw [← mul_assoc]
      apply mul_le_mul_of_nonneg_right _ X0.le
      generalize (2 ^ p : ℝ)⁻¹ = u at *
      nlinarith
    linarith
  rw [show -1 / c = -c⁻¹ by rw [neg_div, one_div], one_div]
  constructor <;> linarith [e1.2, e2.1]

/-- C99: inv_yeo_johnson for positive `x`, inside the domain; `κ` is 0 for `l > 0` and grows towards the end of
the domain `x = -1/l` for `l < 0`. -/
theorem C99_inv_pos_accuracy (h : Nearest p emin rd) (hl : GoodL1 emin ε' l1) (he : GoodE1 emin ε em) (hp : 10 ≤ p) (hep : emin + p ≤ -2)
    (hε0 : 0 ≤ ε) (hε : ε ≤ 1 / 1000) (hε0' : 0 ≤ ε') (hε' : ε' ≤ 1 / 1000) (x l : ℝ) (hl0 : l ≠ 0)
    (hx : 4 * (2 ^ p * 2 ^ emin) ≤ x) (hv : -1 < l * x) (hn : 4 * (2 ^ p * 2 ^ emin) ≤ |l * x|)
    (hn' : 4 * (2 ^ p * 2 ^ emin) ≤ Real.log (1 + l * x) / l) :
    let κ := max 0 (-(l * x)) / (1 + l * x)
    let f := (1 + l * x) ^ (1 / l) - 1
    let w := Real.log (1 + l * x) / l
    (2 ^ p)⁻¹ * κ ≤ 1 / 2000 → (ε' + (5 + 2.1 * κ) * (2 ^ p)⁻¹) * w ≤ 1 / 100 →
    ∃ y, invYeoJohnsonR rd l1 em x l = .fin y ∧
      |y - f| ≤ 1.1 * ((ε' + (5 + 2.1 * κ) * (2 ^ p)⁻¹) * (1 + w) + ε + (2 ^ p)⁻¹) * f := by
  intro κ f w hk hw
  have N0 : (0 : ℝ) < 2 ^ p * 2 ^ emin := mul_pos (by positivity) (two_zpow_pos emin)
  have hc : SClose (1.02 * (2 ^ p)⁻¹) l l := (SClose.refl hl0).mono (by positivity)
  obtain ⟨b1, b2⟩ := inv_branch h hl he hp hep hε0 hε hε0' hε' (by linarith : 0 < x) hc hv hn hn' rfl hk hw
  refine ⟨_, ?_, b2⟩
  unfold invYeoJohnsonR
  rw [if_pos (by linarith), if_neg hl0, if_neg, if_neg (by linarith), if_neg (by linarith)]
  rintro ⟨h1, h2⟩
  exact absurd (inv_end h hp hx hc h1 hv hk).1 (not_lt.2 h2)

/-- C99: inv_yeo_johnson for negative `x`. -/
theorem C99_inv_neg_accuracy (h : Nearest p emin rd) (hl : GoodL1 emin ε' l1) (he : GoodE1 emin ε em) (hp : 10 ≤ p) (hep : emin + p ≤ -2)
    (hε0 : 0 ≤ ε) (hε : ε ≤ 1 / 1000) (hε0' : 0 ≤ ε') (hε' : ε' ≤ 1 / 1000) (x l : ℝ) (fl : IsFloat p emin l) (hl0 : l ≠ 2)
    (hx : 4 * (2 ^ p * 2 ^ emin) ≤ -x) (hv : -1 < (2 - l) * -x) (hn : 4 * (2 ^ p * 2 ^ emin) ≤ |(2 - l) * -x|)
    (hn' : 4 * (2 ^ p * 2 ^ emin) ≤ Real.log (1 + (2 - l) * -x) / (2 - l)) :
    let κ := max 0 (-((2 - l) * -x)) / (1 + (2 - l) * -x)
    let f := (1 + (2 - l) * -x) ^ (1 / (2 - l)) - 1
    let w := Real.log (1 + (2 - l) * -x) / (2 - l)
    (2 ^ p)⁻¹ * κ ≤ 1 / 2000 → (ε' + (5 + 2.1 * κ) * (2 ^ p)⁻¹) * w ≤ 1 / 100 →
    ∃ y, invYeoJohnsonR rd l1 em x l = .fin y ∧
      |y - -f| ≤ 1.1 * ((ε' + (5 + 2.1 * κ) * (2 ^ p)⁻¹) * (1 + w) + ε + (2 ^ p)⁻¹) * f := by
  intro κ f w hk hw
  obtain ⟨u0, u1⟩ := u_small10 hp
  have N0 : (0 : ℝ) < 2 ^ p * 2 ^ emin := mul_pos (by positivity) (two_zpow_pos emin)
  have f2 : IsFloat p emin (2 : ℝ) := by simpa using isFloat_zpow (K := ℝ) (p := p) (by omega) (emin := emin) (e := 1) (by omega)
  have hc : SClose (1.02 * (2 ^ p)⁻¹) (rd (2 - l)) (2 - l) :=
    sclose_of_rel (sub_ne_zero.2 (Ne.symm hl0)) (by linarith) (h.rel_error (by omega) (f2.grid.sub fl.grid))
  obtain ⟨b1, b2⟩ := inv_branch h hl he hp hep hε0 hε hε0' hε' (by linarith : 0 < -x) hc hv hn hn' rfl hk hw
  rw [show rd (2 - l) * -x = -rd (2 - l) * x by ring] at b1 b2
  refine ⟨-em (rd (l1 (rd (-rd (2 - l) * x)) / rd (2 - l))), ?_, ?_⟩
  · unfold invYeoJohnsonR
    rw [if_neg (by linarith), if_neg hl0, if_neg, if_neg (by linarith), if_neg (by linarith)]
    rintro ⟨h1, h2⟩
    have := (inv_end h hp hx hc (by linarith) hv hk).2
    linarith
  · rw [neg_sub_neg, abs_sub_comm]
    exact b2

/-- C99: the special parameters of the inverse, and 0. -/
theorem C99_inv_special (h : Nearest p emin rd) (hl : GoodL1 emin ε' l1) (he : GoodE1 emin ε em) (hp : 1 ≤ p) (x l : ℝ) :
    (0 ≤ x → ∃ y, invYeoJohnsonR rd l1 em x 0 = .fin y ∧ |y - (exp x - 1)| ≤ ε * (exp x - 1) + 2 ^ emin) ∧
    (x < 0 → ∃ y, invYeoJohnsonR rd l1 em x 2 = .fin y ∧ |y - -(exp (-x) - 1)| ≤ ε * (exp (-x) - 1) + 2 ^ emin) ∧
    (|l| * 2 ^ emin < 2 → invYeoJohnsonR rd l1 em 0 l = .fin 0) := by
  refine ⟨fun hx => ⟨em x, ?_, ?_⟩, fun hx => ⟨-em (-x), ?_, ?_⟩, fun hl2 => ?_⟩
  · unfold invYeoJohnsonR
    rw [if_pos hx, if_pos rfl]
  · have := he.error x
    rwa [abs_of_nonneg (show 0 ≤ exp x - 1 by linarith [one_le_exp hx])] at this
  · unfold invYeoJohnsonR
    rw [if_neg (by linarith), if_pos rfl]
  · have := he.error (-x)
    rw [neg_sub_neg, abs_sub_comm]
    rwa [abs_of_nonneg (show 0 ≤ exp (-x) - 1 by linarith [one_le_exp (by linarith : 0 ≤ -x)])] at this
  · unfold invYeoJohnsonR
    rw [if_pos le_rfl, mul_zero, h.round_zero, hl.zero, zero_div, h.round_zero, he.zero]
    have key : ¬(l < 0 ∧ 0 ≥ rd (-1 / l)) := by
      rintro ⟨h1, h2⟩
      have z0 : 2 ^ emin / 2 < -1 / l := by
        rw [abs_of_neg h1] at hl2
        rw [neg_div, ← div_neg, lt_div_iff₀ (by linarith)]
        linarith
      have e0 := two_zpow_pos (K := ℝ) emin
      have r0 : rd (-1 / l) = 0 := le_antisymm h2 (h.mono_float isFloat_zero (by linarith))
      have n := (h (-1 / l)).2 (2 ^ emin) (isFloat_zpow hp le_rfl)
      rw [r0, zero_sub, abs_neg, abs_of_pos (by linarith)] at n
      rcases le_total (2 ^ emin) (-1 / l) with h3 | h3
      · rw [abs_of_nonpos (by linarith)] at n; linarith
      · rw [abs_of_nonneg (by linarith)] at n; linarith
    rw [if_neg key, if_neg (by norm_num : ¬(0 : ℝ) < -1), if_neg (by norm_num : ¬(0 : ℝ) = -1), ite_self]

/-- Correctly rounded `log1p` and `expm1`. -/
theorem goodL1_round (h : Nearest p emin rd) (hp : 1 ≤ p) : GoodL1 emin (2 ^ p)⁻¹ (fun y => rd (Real.log (1 + y))) :=
  ⟨by simp [h.round_zero], fun y _ => by
    have := h.error hp (Real.log (1 + y))
    linarith [two_zpow_pos (K := ℝ) emin]⟩

theorem goodE1_round (h : Nearest p emin rd) (hp : 1 ≤ p) : GoodE1 emin (2 ^ p)⁻¹ (fun y => rd (exp y - 1)) :=
  ⟨by simp [h.round_zero], fun y => by
    have := h.error hp (exp y - 1)
    linarith [two_zpow_pos (K := ℝ) emin]⟩

/-- C99 fails for subnormal parameters: in double precision, with correctly rounded library functions,
`yeo_johnson(3, 2^-1074)` is 1 although the value is more than `1.38`. -/
theorem C99_tiny_lambda_violated (h : Nearest 53 (-1074) rd) :
    yeoJohnsonR rd (fun y => rd (Real.log (1 + y))) (fun y => rd (exp y - 1)) 3 (2 ^ (-1074 : ℤ)) = 1 ∧
    1.38 < ((1 + 3 : ℝ) ^ ((2 : ℝ) ^ (-1074 : ℤ)) - 1) / 2 ^ (-1074 : ℤ) := by
  have η0 := two_zpow_pos (K := ℝ) (-1074)
  have η1 : (2 : ℝ) ^ (-1074 : ℤ) ≤ 1 / 1000 := (η_small (by norm_num)).2
  have fη : IsFloat 53 (-1074) ((2 : ℝ) ^ (-1074 : ℤ)) := isFloat_zpow (by norm_num) le_rfl
  have l4 : Real.log (1 + 3) = 2 * Real.log 2 := by
    rw [show (1 + 3 : ℝ) = 2 ^ 2 by norm_num, log_pow]; norm_num
  have a1 : 1.3862 < Real.log (1 + 3) := by rw [l4]; have := Real.log_two_gt_d9; linarith
  have a2 : Real.log (1 + 3) < 1.3863 := by rw [l4]; have := Real.log_two_lt_d9; linarith
  clear l4
  have near : ∀ z : ℝ, |2 ^ (-1074 : ℤ) - z| < 2 ^ (-1074 : ℤ) / 2 → rd z = 2 ^ (-1074 : ℤ) := fun z hz =>
    TriArea.pin h fη fη.grid (h z).1.grid hz
  constructor
  · unfold yeoJohnsonR
    rw [if_pos (by norm_num), if_neg η0.ne']
    have e0 := h.error (by norm_num) (Real.log (1 + 3))
    have u1 := (u_small10 (p := 53) (by norm_num))
    have e1 : |rd (Real.log (1 + 3)) - Real.log (1 + 3)| ≤ 1 / 100 := by
      rw [abs_of_pos (lt_trans (by norm_num) a1)] at e0
      refine e0.trans ?_
      generalize Real.log (1 + 3) = L at *
      have := mul_le_mul_of_nonneg_right u1.2 (show 0 ≤ L by linarith)
      linarith
    have e1' := abs_le.1 e1
    have s1 : rd (2 ^ (-1074 : ℤ) * rd (Real.log (1 + 3))) = 2 ^ (-1074 : ℤ) := by
      apply near
      have m1 : 1.37 ≤ rd (Real.log (1 + 3)) := by
        generalize Real.log (1 + 3) = L at *; linarith [e1'.1]
      have m2 : rd (Real.log (1 + 3)) ≤ 1.4 := by
        generalize Real.log (1 + 3) = L at *; linarith [e1'.2]
      generalize rd (Real.log (1 + 3)) = A at *
      generalize (2 : ℝ) ^ (-1074 : ℤ) = η at *
      clear * - η0 m1 m2
      rw [abs_lt]
      constructor <;> nlinarith
    rw [s1]
    have s2 : rd (exp (2 ^ (-1074 : ℤ)) - 1) = 2 ^ (-1074 : ℤ) := by
      apply near
      have b1 := add_one_le_exp ((2 : ℝ) ^ (-1074 : ℤ))
      have b2 := abs_exp_sub_one_sub_id_le (x := (2 : ℝ) ^ (-1074 : ℤ)) (by rw [abs_of_pos η0]; linarith)
      rw [abs_of_nonneg (by linarith)] at b2
      generalize (2 : ℝ) ^ (-1074 : ℤ) = η at *
      rw [abs_lt]
      constructor <;> nlinarith
    show rd (rd (exp (2 ^ (-1074 : ℤ)) - 1) / 2 ^ (-1074 : ℤ)) = 1
    rw [s2, div_self η0.ne', h.exact (isFloat_one (by norm_num) (by norm_num))]
  · rw [lt_div_iff₀ η0, rpow_def_of_pos (by norm_num)]
    have := add_one_le_exp (Real.log (1 + 3) * 2 ^ (-1074 : ℤ))
    generalize Real.log (1 + 3) = L at *
    generalize (2 : ℝ) ^ (-1074 : ℤ) = η at *
    nlinarith

/-- C99 fails next to the end of the domain: in double precision `inv_yeo_johnson(x, -3)` is infinite for the number
`x` nearest to 1/3, although `x < 1/3` and the value is `2^18 - 1`. -/
theorem C99_inv_end_violated (h : Nearest 53 (-1074) rd) :
    let x : ℝ := 6004799503160661 * 2 ^ (-54 : ℤ)
    IsFloat 53 (-1074) x ∧ invYeoJohnsonR rd l1 em x (-3) = .pinf ∧ invYeoJohnson x (-3) = .fin (2 ^ 18 - 1) := by
  intro x
  have fx : IsFloat 53 (-1074) x := ⟨6004799503160661, -54, by norm_num, by norm_num, by norm_num [x]⟩
  have gx : OnGrid (-54) x := ⟨6004799503160661, by norm_num [x]⟩
  have x3 : x = 1 / 3 * (1 - 2 ^ (-54 : ℤ)) := by norm_num [x]
  have p54 := two_zpow_pos (K := ℝ) (-54)
  have fq : IsFloat 53 (-1074) (1 / 4 : ℝ) := by
    have := isFloat_zpow (K := ℝ) (p := 53) (by norm_num) (emin := -1074) (e := -2) (by norm_num)
    norm_num at this ⊢; exact this
  have r13 : rd (1 / 3) = x := by
    refine TriArea.pin h fx gx ?_ ?_
    · apply Erfcx.onGrid_of_big (by norm_num) (h _).1
      have := h.mono_float fq (show (1 / 4 : ℝ) ≤ 1 / 3 by norm_num)
      rw [abs_of_nonneg (by linarith)]
      refine le_trans ?_ this
      norm_num
    · rw [x3, abs_of_nonpos (by linarith)]
      linarith
  refine ⟨fx, ?_, ?_⟩
  · unfold invYeoJohnsonR
    rw [show (-1 : ℝ) / -3 = 1 / 3 by norm_num, r13, if_pos (by norm_num [x]), if_neg (by norm_num), if_pos ⟨by norm_num, le_rfl⟩, if_neg (lt_irrefl _)]
  · unfold invYeoJohnson
    rw [if_pos (by norm_num [x]), if_neg (by norm_num), if_neg]
    · unfold expm1 log1p
      rw [show (1 : ℝ) + -3 * x = 2 ^ (-54 : ℤ) by rw [x3]; ring, log_zpow]
      rw [show ((-54 : ℤ) : ℝ) * Real.log 2 / -3 = Real.log 2 * (18 : ℕ) by push_cast; ring, exp_mul, exp_log (by norm_num), rpow_natCast]
    · rintro ⟨_, h2⟩
      rw [x3] at h2
      norm_num at h2

example : ∃ rd : ℝ → ℝ, Nearest 53 (-1074) rd ∧
    |yeoJohnsonR rd (fun y => rd (Real.log (1 + y))) (fun y => rd (exp y - 1)) 1 2 - 3 / 2| ≤ 1 / 10 ^ 14 := by
  obtain ⟨rd, h⟩ := exists_nearest (K := ℝ) (p := 53) (by norm_num) (-1074)
  refine ⟨rd, h, ?_⟩
  have a1 := Real.log_two_gt_d9
  have a2 := Real.log_two_lt_d9
  have N := N_small (p := 53) (emin := -1074) (by norm_num)
  have N1 : (2 : ℝ) ^ 53 * 2 ^ (-1074 : ℤ) ≤ 1 / 10 := by
    rw [← zpow_natCast, ← zpow_add₀ (by norm_num)]
    calc (2 : ℝ) ^ (((53 : ℕ) : ℤ) + -1074) ≤ 2 ^ (-4 : ℤ) := zpow_le_zpow_right₀ (by norm_num) (by norm_num)
      _ ≤ 1 / 10 := by norm_num
  have e11 : (1 + 1 : ℝ) = 2 := by norm_num
  have := C99_yeo_johnson_pos_accuracy h (goodL1_round h (by norm_num)) (goodE1_round h (by norm_num)) (by norm_num) (by norm_num)
    (by positivity) (by norm_num) (by positivity) (by norm_num) 1 2 (by norm_num) (by norm_num)
    (by rw [e11]; linarith) (by rw [e11, abs_of_pos (by norm_num)]; linarith)
    (by rw [e11, abs_of_pos (by norm_num)]; norm_num at *; linarith)
  rw [e11, show ((2 : ℝ) ^ (2 : ℝ) - 1) / 2 = 3 / 2 by rw [show (2 : ℝ) ^ (2 : ℝ) = 4 by norm_num]; norm_num] at this
  refine this.trans ?_
  have η1 : (2 : ℝ) ^ (-1074 : ℤ) ≤ 1 / 10 ^ 15 := by
    calc (2 : ℝ) ^ (-1074 : ℤ) ≤ 2 ^ (-50 : ℤ) := zpow_le_zpow_right₀ (by norm_num) (by norm_num)
      _ ≤ _ := by norm_num
  generalize (2 : ℝ) ^ (-1074 : ℤ) = η at *
  rw [abs_of_pos (by norm_num), abs_of_pos (by norm_num)]
  norm_num at *
  linarith

end Ufunclab.Scalar
