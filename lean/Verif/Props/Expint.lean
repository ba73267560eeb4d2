import Verif.Proof.ExpintAsym
import Mathlib.Analysis.Complex.ExponentialBounds
/-! # C69: `expint1` and `logexpint1` approximate the exponential integral -/
namespace Ufunclab.Expint
open XF

/-- The conversion `(int) r` of C++ on the numbers that fit an `int`: truncation. -/
def TruncOk (toInt : XF ℝ → Int) : Prop := ∀ r : ℝ, 0 ≤ r → r < 2 ^ 31 → toInt (.fin r) = ⌊r⌋

variable {toInt : XF ℝ → Int} {x : ℝ}

theorem E1_ge (hx : 0 < x) (h1 : x ≤ 1) : 9 / 50 ≤ E1 x := by
  -- `E1` decreases, and `E1 1 ≥ e^{-1}/2`
  have hanti : AntitoneOn E1 (Set.Ioi 0) := by
    refine antitoneOn_of_hasDerivWithinAt_nonpos (convex_Ioi 0) (f' := fun y => -(Real.exp (-y) / y)) ?_ ?_ ?_
    · exact fun y hy => (E1_deriv hy).continuousAt.continuousWithinAt
    · exact fun y hy => (E1_deriv (interior_subset hy)).hasDerivWithinAt
    · intro y hy
      have hy' : (0 : ℝ) < y := interior_subset hy
      have : 0 ≤ Real.exp (-y) / y := by positivity
      linarith
  have h2 : E1 1 ≤ E1 x := hanti hx (Set.mem_Ioi.2 one_pos) h1
  have h3 := B_zero (x := 1) one_pos
  have h4 := B_rec (x := 1) one_pos 0
  have h5 := xB_le (x := 1) one_pos 0
  rw [A_zero one_pos] at h4 h5
  have h6 : (0.36 : ℝ) < Real.exp (-1) := by
    have := Real.exp_neg_one_gt_d9
    linarith
  norm_num at h3 h4 h5 h6
  linarith

/-- The value computed on `(0, 1]`. -/
theorem value_low (hx : 0 < x) (h1 : x ≤ 1) :
    ∃ v, expint01 (.fin x) = .fin v ∧ |v - E1 x| ≤ 1 / 10 ^ 19 * E1 x := by
  refine ⟨_, expint01_fin hx, ?_⟩
  have hs := series_bound 26 hx h1
  have he := EulerConst.euler_bounds
  have hE := E1_ge hx h1
  have hp : x ^ (26 + 1) ≤ 1 := pow_le_one₀ hx.le h1
  have hp0 : 0 ≤ x ^ (26 + 1) := by positivity
  set c : ℝ := (((26 + 1).succ : ℕ) / ((Nat.factorial (26 + 1) : ℕ) * ((26 + 1 : ℕ) : ℝ)) : ℝ) / (((26 : ℕ) : ℝ) + 1) with hc
  have hc1 : c ≤ 1 / 10 ^ 25 := by rw [hc]; norm_num [Nat.factorial]
  have hc0 : 0 ≤ c := by rw [hc]; positivity
  have hb : c * x ^ (26 + 1) ≤ 1 / 10 ^ 25 := (mul_le_of_le_one_right hc0 hp).trans hc1
  rw [abs_le] at hs he ⊢
  rw [euler]
  norm_num at hs he hb ⊢
  constructor <;> nlinarith

theorem expintT_fin (ht : TruncOk toInt) (h1 : 1 < x) :
    ∃ j : Nat, j < 80 ∧ 80 ≤ ((j + 1 : ℕ) : ℝ) * x ∧ (j : ℝ) * x ≤ 80 ∧
      expintT toInt (.fin x) = .fin ((chain x 1 0 (j + 20) x 1).2 / (chain x 1 0 (j + 20) x 1).1) := by
  have hx : 0 < x := by linarith
  have hq0 : 0 ≤ 80 / x := by positivity
  have hq1 : 80 / x < 80 := by rw [div_lt_iff₀ hx]; linarith
  refine ⟨⌊80 / x⌋.toNat, ?_, ?_, ?_, ?_⟩
  · have : ⌊80 / x⌋ < 80 := Int.floor_lt.2 (by exact_mod_cast hq1)
    omega
  · have h0 : 0 ≤ ⌊80 / x⌋ := Int.floor_nonneg.2 hq0
    have h2 : (((⌊80 / x⌋.toNat : ℕ) : ℤ) : ℝ) = (⌊80 / x⌋ : ℝ) := by rw [Int.toNat_of_nonneg h0]
    have h3 := Int.lt_floor_add_one (80 / x)
    rw [← h2] at h3
    push_cast at h3 ⊢
    rw [div_lt_iff₀ hx] at h3
    exact h3.le
  · have h0 : 0 ≤ ⌊80 / x⌋ := Int.floor_nonneg.2 hq0
    have h2 : (((⌊80 / x⌋.toNat : ℕ) : ℤ) : ℝ) = (⌊80 / x⌋ : ℝ) := by rw [Int.toNat_of_nonneg h0]
    have h3 := Int.floor_le (80 / x)
    rw [← h2] at h3
    push_cast at h3
    rwa [le_div_iff₀ hx] at h3
  · have h0 : 0 ≤ ⌊80 / x⌋ := Int.floor_nonneg.2 hq0
    simp only [expintT]
    rw [div_fin _ _ hx.ne', ht _ hq0 (by linarith)]
    have e : (20 + ⌊80 / x⌋).toNat = ⌊80 / x⌋.toNat + 20 := by omega
    rw [e, cfLoop_fin hx _ x 1 0 hx one_pos (by simp), add_fin]
    have hp := chain_pos (a := x) (b := 1) hx one_pos 0 (⌊80 / x⌋.toNat + 20) x 1 hx one_pos
    have e2 : x + ((chain x 1 0 (⌊80 / x⌋.toNat + 20) x 1).1 / (chain x 1 0 (⌊80 / x⌋.toNat + 20) x 1).2 - x) =
      (chain x 1 0 (⌊80 / x⌋.toNat + 20) x 1).1 / (chain x 1 0 (⌊80 / x⌋.toNat + 20) x 1).2 := by ring
    rw [e2, div_fin _ _ (div_pos hp.1 hp.2).ne', one_div_div]

/-- The factor computed by the continued fraction for `x > 1`. -/
theorem value_cf (ht : TruncOk toInt) (h1 : 1 < x) :
    ∃ v, expintT toInt (.fin x) = .fin v ∧ 0 < v ∧ E1 x < Real.exp (-x) * v ∧
      Real.exp (-x) * v ≤ E1 x + 14 / 10 ^ 17 * E1 x := by
  have hx : 0 < x := by linarith
  obtain ⟨j, hj, hlo, hhi, he⟩ := expintT_fin ht h1
  refine ⟨_, he, ?_⟩
  have hp := chain_pos (a := x) (b := 1) hx one_pos 0 (j + 20) x 1 hx one_pos
  have hd := cf_defect hx (j + 20)
  have hb := defect_le j hj hx hlo hhi
  have hB := B_pos hx (j + 20 + 1)
  have hpos : 0 < ((j + 20).factorial : ℝ) * (x * B x (j + 20 + 1)) := by positivity
  generalize (chain x 1 0 (j + 20) x 1).1 = U at *
  generalize (chain x 1 0 (j + 20) x 1).2 = D at *
  generalize ((j + 20).factorial : ℝ) * (x * B x (j + 20 + 1)) = d at *
  refine ⟨div_pos hp.2 hp.1, ?_, ?_⟩
  · rw [← mul_div_assoc, lt_div_iff₀ hp.1, hd]
    linarith
  · rw [← mul_div_assoc, div_le_iff₀ hp.1, hd]
    linarith

/-- C69: on `(0, 1]` the series (26 terms, and the 42 digit constant) is exact to `1e-19` relative. -/
theorem C69_expint1_series (hx : 0 < x) (h1 : x ≤ 1) :
    ∃ v, expint1 toInt (.fin x) = .fin v ∧ |v - E1 x| ≤ 1 / 10 ^ 19 * E1 x := by
  obtain ⟨v, hv, hb⟩ := value_low hx h1
  refine ⟨v, ?_, hb⟩
  simp only [expint1, lt_fin, eq_fin, le_fin, not_lt.2 hx.le, hx.ne', h1, decide_false, decide_true, if_true, Bool.false_eq_true, if_false]
  exact hv

/-- C69: above 1 the truncated continued fraction is never below `E1`, and at most `1.4e-16`
(relative) above it: the number of terms `20 + ⌊80/x⌋` is enough. -/
theorem C69_expint1_fraction (ht : TruncOk toInt) (h1 : 1 < x) :
    ∃ v, expint1 toInt (.fin x) = .fin v ∧ E1 x < v ∧ v ≤ E1 x * (1 + 1.4e-16) := by
  obtain ⟨v, hv, h0, hl, hu⟩ := value_cf ht h1
  have hx : 0 < x := by linarith
  refine ⟨Real.exp (-x) * v, ?_, hl, ?_⟩
  · simp only [expint1, lt_fin, eq_fin, le_fin, not_lt.2 hx.le, hx.ne', not_le.2 h1, decide_false, Bool.false_eq_true, if_false]
    rw [hv]
    rfl
  · refine hu.trans (le_of_eq ?_)
    norm_num
    ring

/-- C69: for every positive finite `x`, `expint1(x)` is `E1(x)` to within the rounding unit of
double precision (exact arithmetic otherwise). -/
theorem C69_expint1 (ht : TruncOk toInt) (hx : 0 < x) :
    ∃ v, expint1 toInt (.fin x) = .fin v ∧ |v - E1 x| ≤ 2 ^ (-52 : ℤ) * E1 x := by
  have hE := E1_pos hx
  rcases le_or_gt x 1 with h1 | h1
  · obtain ⟨v, hv, hb⟩ := C69_expint1_series (toInt := toInt) hx h1
    refine ⟨v, hv, hb.trans (mul_le_mul_of_nonneg_right (by norm_num) hE.le)⟩
  · obtain ⟨v, hv, hl, hu⟩ := C69_expint1_fraction ht h1
    refine ⟨v, hv, ?_⟩
    rw [abs_of_pos (by linarith)]
    have : v - E1 x ≤ 1.4e-16 * E1 x := by linarith
    exact this.trans (mul_le_mul_of_nonneg_right (by norm_num) hE.le)

/-- Non-vacuity: both branches occur, and a conversion as assumed exists. -/
example : ∃ toInt, TruncOk toInt ∧
    (∃ v, expint1 toInt (.fin 1) = .fin v ∧ |v - E1 1| ≤ 2 ^ (-52 : ℤ) * E1 1) ∧
    (∃ v, expint1 toInt (.fin 2.5) = .fin v ∧ |v - E1 2.5| ≤ 2 ^ (-52 : ℤ) * E1 2.5) := by
  let c : XF ℝ → Int := fun r => match r with
    | .fin r => ⌊r⌋
    | _ => 0
  have hc : TruncOk c := fun _ _ _ => rfl
  exact ⟨c, hc, C69_expint1 hc (by norm_num), C69_expint1 hc (by norm_num)⟩

/-- C69 fails for `long double` (`g->g` is registered): just above 1 the truncation of the continued
fraction alone is wrong by more than `1.1e-16`, a thousand times the spacing `2^-63` of 80-bit
long doubles. -/
theorem C69_long_double_violated (ht : TruncOk toInt) :
    ∃ v, expint1 toInt (.fin (1 + 2 ^ (-10 : ℤ))) = .fin v ∧
      1000 * 2 ^ (-63 : ℤ) * E1 (1 + 2 ^ (-10 : ℤ)) < |v - E1 (1 + 2 ^ (-10 : ℤ))| := by
  have hd := defect_ge
  simp only [] at hd
  have e : (1 : ℝ) + 2 ^ (-10 : ℤ) = 1025 / 1024 := by norm_num
  rw [e]
  set x : ℝ := 1025 / 1024 with hxd
  have h1 : 1 < x := by norm_num [hxd]
  have hx : 0 < x := by linarith
  have hE := E1_pos hx
  obtain ⟨j, hj, hlo, hhi, he⟩ := expintT_fin ht h1
  have hj79 : j = 79 := by
    have : (80 : ℝ) * 1024 ≤ ((j + 1 : ℕ) : ℝ) * 1025 := by
      rw [hxd] at hlo; linarith
    have : 80 * 1024 ≤ (j + 1) * 1025 := by exact_mod_cast this
    omega
  subst hj79
  have hp := chain_pos (a := x) (b := 1) hx one_pos 0 (79 + 20) x 1 hx one_pos
  have hde := cf_defect hx (79 + 20)
  refine ⟨Real.exp (-x) * ((chain x 1 0 (79 + 20) x 1).2 / (chain x 1 0 (79 + 20) x 1).1), ?_, ?_⟩
  · simp only [expint1, lt_fin, eq_fin, le_fin, not_lt.2 hx.le, hx.ne', not_le.2 h1, decide_false, Bool.false_eq_true, if_false]
    rw [he]
    rfl
  · have hd' : 11 / 10 ^ 17 * ((chain x 1 0 (79 + 20) x 1).1 * E1 x) ≤ ((Nat.factorial (79 + 20) : ℕ) : ℝ) * (x * B x (79 + 20 + 1)) := hd
    generalize (chain x 1 0 (79 + 20) x 1).1 = U at *
    generalize (chain x 1 0 (79 + 20) x 1).2 = D at *
    generalize ((Nat.factorial (79 + 20) : ℕ) : ℝ) * (x * B x (79 + 20 + 1)) = d at *
    have hge : 11 / 10 ^ 17 * E1 x ≤ Real.exp (-x) * (D / U) - E1 x := by
      rw [← mul_div_assoc, hde, add_div, mul_div_assoc]
      have e3 : U * (E1 x / U) = E1 x := by have := hp.1.ne'; field_simp
      rw [e3, add_sub_cancel_left, le_div_iff₀ hp.1]
      linarith
    refine lt_of_lt_of_le ?_ (hge.trans (le_abs_self _))
    exact mul_lt_mul_of_pos_right (by norm_num) hE

/-- C69: `logexpint1` on `(0, 500]` is exactly the logarithm of `expint1`. -/
theorem C69_log_exact (ht : TruncOk toInt) (hx : 0 < x) (h500 : x ≤ 500) :
    ∃ v, 0 < v ∧ expint1 toInt (.fin x) = .fin v ∧ logexpint1 toInt (.fin x) = .fin (Real.log v) := by
  rcases le_or_gt x 1 with h1 | h1
  · obtain ⟨v, hv, hb⟩ := value_low hx h1
    have hE := E1_pos hx
    have hv0 : 0 < v := by
      have := (abs_le.1 hb).1
      norm_num at this
      linarith
    refine ⟨v, hv0, ?_, ?_⟩
    · simp only [expint1, lt_fin, eq_fin, le_fin, not_lt.2 hx.le, hx.ne', h1, decide_false, decide_true, if_true, Bool.false_eq_true, if_false]
      exact hv
    · simp only [logexpint1, lt_fin, eq_fin, le_fin, not_lt.2 hx.le, hx.ne', h1, decide_false, decide_true, if_true, Bool.false_eq_true, if_false]
      rw [hv]
      simp [Means.xlog, not_lt.2 hv0.le, hv0.ne']
  · obtain ⟨v, hv, h0, -, -⟩ := value_cf ht h1
    refine ⟨Real.exp (-x) * v, by positivity, ?_, ?_⟩
    · simp only [expint1, lt_fin, eq_fin, le_fin, not_lt.2 hx.le, hx.ne', not_le.2 h1, decide_false, Bool.false_eq_true, if_false]
      rw [hv]
      rfl
    · simp only [logexpint1, lt_fin, eq_fin, le_fin, not_lt.2 hx.le, hx.ne', not_le.2 h1, h500, decide_false, decide_true, if_true, Bool.false_eq_true, if_false]
      rw [hv, Real.log_mul (Real.exp_pos _).ne' h0.ne', Real.log_exp]
      simp [Means.xlog, not_lt.2 h0.le, h0.ne']

/-- The asymptotic expansion for `x > 500`. -/
theorem log_asym (h5 : 500 < x) : 0.99 ≤ 1 + asym x ∧ Real.log (E1 x) = -x - Real.log x + Real.log (x * Real.exp x * E1 x) ∧
    |Real.log (1 + asym x) - Real.log (x * Real.exp x * E1 x)| ≤ 4.7e-14 ∧ 500 ≤ |Real.log (E1 x)| ∧
    Real.log (x * Real.exp x * E1 x) ≤ 0 := by
  have hx : 0 < x := by linarith
  have h1 : 1 < x := by linarith
  have hx0 := hx.ne'
  have hE := E1_pos hx
  have hy : 0 < 1 / x := by positivity
  have hy1 : 1 / x < 1 / 500 := one_div_lt_one_div_of_lt (by norm_num) h5
  have ha : asym x = (-1 + (2 + (-6 + (24 - 120 * (1 / x)) * (1 / x)) * (1 / x)) * (1 / x)) * (1 / x) := by
    rw [asym]; field_simp
  have has2 : 0.99 ≤ 1 + asym x := by
    rw [ha]
    set y := 1 / x with hyd
    have p1 : -6 ≤ -6 + (24 - 120 * y) * y := by nlinarith
    have p2 : -6 * y ≤ (-6 + (24 - 120 * y) * y) * y := by nlinarith
    have p3 : 0 ≤ 2 + (-6 + (24 - 120 * y) * y) * y := by nlinarith
    have p4 : 0 ≤ (2 + (-6 + (24 - 120 * y) * y) * y) * y := by positivity
    nlinarith
  obtain ⟨b1, b2⟩ := asym_bounds hx
  have hpos : 0 < 1 + asym x := by linarith [has2]
  have hlog : Real.log (E1 x) = -x - Real.log x + Real.log (x * Real.exp x * E1 x) := by
    rw [Real.log_mul (by positivity) hE.ne', Real.log_mul hx0 (Real.exp_pos x).ne', Real.log_exp]
    ring
  have hx6 : (500 : ℝ) ^ 6 ≤ x ^ 6 := pow_le_pow_left₀ (by norm_num) h5.le 6
  have hdelta : 720 / x ^ 6 ≤ 720 / 500 ^ 6 := div_le_div_of_nonneg_left (by norm_num) (by norm_num) hx6
  -- the difference of the logarithms
  have hdiff : |Real.log (1 + asym x) - Real.log (x * Real.exp x * E1 x)| ≤ 4.7e-14 := by
    have hP : 0 < x * Real.exp x * E1 x := by positivity
    rw [abs_sub_comm, abs_of_nonneg (by have := Real.log_le_log hpos b1; linarith), ← Real.log_div hP.ne' hpos.ne']
    have hle := Real.log_le_sub_one_of_pos (div_pos hP hpos)
    refine hle.trans ?_
    rw [div_sub_one hpos.ne', div_le_iff₀ hpos]
    have : x * Real.exp x * E1 x - (1 + asym x) ≤ 720 / 500 ^ 6 := by linarith
    refine this.trans ?_
    have : (4.7e-14 : ℝ) * 0.99 ≤ 4.7e-14 * (1 + asym x) := by linarith [has2]
    refine le_trans ?_ this
    norm_num
  -- and `log E1 x` is large
  have hbig : 500 ≤ |Real.log (E1 x)| ∧ Real.log (x * Real.exp x * E1 x) ≤ 0 := by
    rw [hlog]
    have hl0 : 0 ≤ Real.log x := Real.log_nonneg h1.le
    have hu : x * Real.exp x * E1 x ≤ 1 := by
      have ha : asym x + 720 / x ^ 6 ≤ 0 := by
        have hy : 0 < 1 / x := by positivity
        have hy1 : 1 / x < 1 / 500 := one_div_lt_one_div_of_lt (by norm_num) h5
        have ha : asym x + 720 / x ^ 6 = (-1 + 2 * (1 / x) - 6 * (1 / x) ^ 2 + 24 * (1 / x) ^ 3 - 120 * (1 / x) ^ 4 + 720 * (1 / x) ^ 5) * (1 / x) := by
          rw [asym]; field_simp; ring
        rw [ha]
        set y := 1 / x with hyd
        have q2 : y ^ 2 ≤ 1 := pow_le_one₀ hy.le (by linarith)
        have q3 : y ^ 3 ≤ y := by
          have : y ^ 3 = y * y ^ 2 := by ring
          rw [this]; nlinarith
        have q5 : y ^ 5 ≤ y ^ 2 * (1 / 500) := by
          have : y ^ 5 = y ^ 2 * y ^ 3 := by ring
          rw [this]; exact mul_le_mul_of_nonneg_left (by linarith) (by positivity)
        have q4 : 0 ≤ y ^ 4 := by positivity
        have q6 : 0 ≤ y ^ 2 := by positivity
        have : -1 + 2 * y - 6 * y ^ 2 + 24 * y ^ 3 - 120 * y ^ 4 + 720 * y ^ 5 ≤ 0 := by nlinarith
        exact mul_nonpos_of_nonpos_of_nonneg this hy.le
      linarith
    have hl1 : Real.log (x * Real.exp x * E1 x) ≤ 0 := Real.log_nonpos (by positivity) hu
    rw [abs_of_nonpos (by linarith)]
    exact ⟨by linarith, hl1⟩
  exact ⟨has2, hlog, hdiff, hbig.1, hbig.2⟩

/-- C69: for every positive finite `x`, `logexpint1(x)` is `log E1(x)` to within `2.3e-16`, absolute
or relative, whichever is larger; in particular nothing underflows for large `x`. -/
theorem C69_logexpint1 (ht : TruncOk toInt) (hx : 0 < x) :
    ∃ v, logexpint1 toInt (.fin x) = .fin v ∧ |v - Real.log (E1 x)| ≤ 2.3e-16 * max 1 |Real.log (E1 x)| := by
  have hE := E1_pos hx
  rcases le_or_gt x 500 with h5 | h5
  · obtain ⟨v, hv0, hv, hl⟩ := C69_log_exact ht hx h5
    obtain ⟨v', hv', hb⟩ := C69_expint1 ht hx
    rw [hv, XF.fin.injEq] at hv'
    subst hv'
    refine ⟨_, hl, ?_⟩
    have hm : (2.3e-16 : ℝ) ≤ 2.3e-16 * max 1 |Real.log (E1 x)| := by
      have := le_max_left 1 |Real.log (E1 x)|
      linarith
    refine le_trans ?_ hm
    rw [← Real.log_div hv0.ne' hE.ne']
    have hr : |v / E1 x - 1| ≤ 2 ^ (-52 : ℤ) := by
      have : v / E1 x - 1 = (v - E1 x) / E1 x := by field_simp
      rw [this, abs_div, abs_of_pos hE, div_le_iff₀ hE]
      exact hb
    have hq : 0 < v / E1 x := div_pos hv0 hE
    have h2 : (2 : ℝ) ^ (-52 : ℤ) ≤ 2.23e-16 := by norm_num
    have hr' := abs_le.1 (hr.trans h2)
    rw [abs_le]
    have u1 := Real.log_le_sub_one_of_pos hq
    have u2 := Real.one_sub_inv_le_log_of_pos hq
    constructor
    · have h3 : (v / E1 x)⁻¹ ≤ 1 + 2.3e-16 := by
        rw [inv_le_comm₀ hq (by norm_num)]
        refine le_trans ?_ (show 1 - 2.23e-16 ≤ v / E1 x by linarith [hr'.1])
        norm_num
      linarith
    · linarith [hr'.2]
  · have h1 : 1 < x := by linarith
    have hx0 := hx.ne'
    have has : logexpint1 toInt (.fin x) = .fin (-x - Real.log x + Real.log (1 + asym x)) ∧ 0.99 ≤ 1 + asym x := by
      have hge := (log_asym h5).1
      refine ⟨?_, hge⟩
      have h5' : ¬ x ≤ 500 := not_le.2 h5
      simp only [logexpint1, lt_fin, eq_fin, le_fin, not_lt.2 hx.le, hx.ne', not_le.2 h1, h5', decide_false, Bool.false_eq_true, if_false]
      rw [div_fin _ _ hx0, sub_fin, div_fin _ _ hx0, add_fin, div_fin _ _ hx0, add_fin, div_fin _ _ hx0, add_fin, div_fin _ _ hx0]
      have hs : (-1 + (2 + (-6 + (24 - 120 / x) / x) / x) / x) / x = asym x := rfl
      rw [hs]
      have h3 : ¬ asym x < -1 := by linarith
      have h4 : ¬ asym x = -1 := by intro h; linarith
      simp [Elementary.xlog1p, Means.xlog, h3, h4, not_lt.2 hx.le, hx0]
    refine ⟨_, has.1, ?_⟩
    obtain ⟨-, hlog, hdiff, hbig, -⟩ := log_asym h5
    have hm : (2.3e-16 : ℝ) * 500 ≤ 2.3e-16 * max 1 |Real.log (E1 x)| :=
      mul_le_mul_of_nonneg_left (hbig.trans (le_max_right _ _)) (by norm_num)
    rw [hlog] at hm ⊢
    have e : -x - Real.log x + Real.log (1 + asym x) - (-x - Real.log x + Real.log (x * Real.exp x * E1 x)) =
      Real.log (1 + asym x) - Real.log (x * Real.exp x * E1 x) := by ring
    rw [e]
    refine hdiff.trans (le_trans ?_ hm)
    norm_num

/-- C69: special values: NaN for negative numbers, `-inf` and NaN, `+inf` at 0, and at `+inf` the
limits 0 and `-inf` (whatever the conversion of NaN to `int` gives). -/
theorem C69_special (ht : TruncOk toInt) :
    (∀ y : ℝ, y < 0 → expint1 toInt (.fin y) = .nan ∧ logexpint1 toInt (.fin y) = .nan) ∧
    expint1 toInt .ninf = .nan ∧ logexpint1 toInt .ninf = .nan ∧
    expint1 toInt (.fin 0) = .pinf ∧ logexpint1 toInt (.fin 0) = .pinf ∧
    expint1 toInt .pinf = .fin 0 ∧ logexpint1 toInt .pinf = .ninf ∧
    expint1 toInt .nan = .nan ∧ logexpint1 toInt .nan = .nan := by
  have hinf : ∀ n (t : ℝ), ∃ t', cfLoop .pinf n (.fin t) = .fin t' := by
    intro n
    induction n with
    | zero => exact fun t => ⟨t, rfl⟩
    | succ n ih =>
      intro t
      simp only [cfLoop, XF.add, XF.div]
      rw [if_neg (by norm_num)]
      exact ih _
  have ht0 := ht 0 le_rfl (by norm_num)
  rw [Int.floor_zero] at ht0
  refine ⟨fun y hy => ?_, rfl, rfl, ?_, ?_, ?_, ?_, ?_, ?_⟩
  · simp [expint1, logexpint1, hy]
  · simp [expint1]
  · simp [logexpint1]
  · obtain ⟨t', h⟩ := hinf 20 0
    simp only [expint1, expintT, XF.lt, XF.eq, XF.le, XF.div, ht0]
    simp only [add_zero, Bool.false_eq_true, if_false, Bool.or_self, XF.neg, Means.xexp]
    have : (20 : Int).toNat = 20 := rfl
    rw [this, h]
    simp [XF.add, XF.mul]
  · simp [logexpint1, XF.lt, XF.eq, XF.le, XF.div, XF.add, XF.sub, XF.neg, Means.xlog, Elementary.xlog1p,
      not_lt.2 (zero_le_one' ℝ)]
  · simp [expint1, XF.lt, XF.eq, XF.le, Means.xexp, XF.neg, XF.mul]
  · simp [logexpint1, XF.lt, XF.eq, XF.le, XF.neg, XF.add, XF.sub]

end Ufunclab.Expint
