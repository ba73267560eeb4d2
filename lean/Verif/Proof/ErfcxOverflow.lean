import Verif.Proof.ErfcxRound
import Mathlib.Analysis.SpecialFunctions.Log.Deriv
/-! # The bound below which `erfcx` returns infinity -/
namespace Ufunclab.Erfcx
open Real Set Ufunclab.Float

theorem log_two_near : |log 2 - 0.693147180559945309417232121458| ≤ 1 / 10 ^ 25 := by
  have h := Real.abs_log_sub_add_sum_range_le (x := 1 / 2) (by norm_num [abs_of_pos]) 90
  rw [show (1 : ℝ) - 1 / 2 = 2⁻¹ by norm_num, Real.log_inv] at h
  norm_num [Finset.sum_range_succ, abs_of_pos] at h
  rw [abs_le] at h ⊢
  constructor <;> linarith [h.1, h.2]

/-- `erfcx` decreases. -/
theorem E_anti_all {x y : ℝ} (hxy : x ≤ y) : E y ≤ E x := by
  have : Antitone E := by
    refine antitone_of_deriv_nonpos (fun x => (hasDerivAt_E x).differentiableAt) (fun x => ?_)
    rw [(hasDerivAt_E x).deriv]
    have hE := E_pos x
    have hc := c_pos
    rcases le_or_gt x 0 with h | h
    · nlinarith
    · have h1 := E_le_inv h
      rw [le_div_iff₀ h] at h1
      linarith
  exact this hxy

theorem grid_eq {k : ℤ} {x y : ℝ} (hx : OnGrid k x) (hy : OnGrid k y) (h : |x - y| < 2 ^ k) : x = y := by
  obtain ⟨a, rfl⟩ := hx
  obtain ⟨b, rfl⟩ := hy
  have hp : (0 : ℝ) < 2 ^ k := zpow_pos (by norm_num) _
  rw [← sub_mul, abs_mul, abs_of_pos hp] at h
  have h1 : |(a : ℝ) - b| < 1 := by
    by_contra hc
    push Not at hc
    nlinarith
  have h2 : |a - b| < 1 := by exact_mod_cast h1
  rw [Int.abs_lt_one_iff] at h2
  have : a = b := by omega
  rw [this]

theorem grid_lt {k : ℤ} {x : ℝ} {m : ℤ} (hx : OnGrid k x) (h : x < m * 2 ^ k) : x ≤ (m - 1) * 2 ^ k := by
  obtain ⟨a, rfl⟩ := hx
  have hp : (0 : ℝ) < 2 ^ k := zpow_pos (by norm_num) _
  have h1 : (a : ℝ) < m := lt_of_mul_lt_mul_right h hp.le
  have h2 : a < m := by exact_mod_cast h1
  have h3 : (a : ℝ) ≤ m - 1 := by
    have : a ≤ m - 1 := by omega
    exact_mod_cast this
  exact mul_le_mul_of_nonneg_right h3 hp.le

variable {p : ℕ} {emin : ℤ} {rd : ℝ → ℝ}

theorem onGrid_of_big {x : ℝ} (hp : 1 ≤ p) (hx : IsFloat p emin x) {k : ℤ} (h : 2 ^ (p - 1) * (2 : ℝ) ^ k ≤ |x|) : OnGrid k x := by
  have := hx.big_grid (k := k - 1) (by
    have e : (2 : ℝ) ^ p * 2 ^ (k - 1) = 2 ^ (p - 1) * 2 ^ k := by
      obtain ⟨q, rfl⟩ : ∃ q, p = q + 1 := ⟨p - 1, by omega⟩
      rw [zpow_sub₀ (by norm_num), Nat.add_sub_cancel, pow_succ]
      norm_num
      ring
    rw [e]; exact h)
  rwa [sub_add_cancel] at this

/-- The value of a rounded negative literal. -/
theorem round_eq (h : Nearest p emin rd) (hp : 1 ≤ p) {z : ℝ} {m k : ℤ} (hk : emin ≤ k) (hm1 : 2 ^ (p - 1) + 1 ≤ m) (hm2 : m < 2 ^ p)
    (hz : 2 * |(-m : ℝ) * 2 ^ k - z| < 2 ^ k) : rd z = -m * 2 ^ k := by
  have hpk : (0 : ℝ) < 2 ^ k := zpow_pos (by norm_num) _
  have hm0 : (0 : ℤ) ≤ m := le_trans (by positivity) hm1
  have hf : IsFloat p emin ((-m : ℝ) * 2 ^ k) := ⟨-m, k, by rw [abs_neg, abs_of_nonneg hm0]; exact hm2, hk, by push_cast; ring⟩
  have h1 := (h z).2 _ hf
  have h2 : |rd z - (-m : ℝ) * 2 ^ k| < 2 ^ k := by
    calc |rd z - (-m : ℝ) * 2 ^ k| = |(rd z - z) - ((-m : ℝ) * 2 ^ k - z)| := by congr 1; ring
      _ ≤ _ := abs_sub _ _
      _ < _ := by linarith
  refine grid_eq (onGrid_of_big hp (h z).1 ?_) ⟨-m, by push_cast; ring⟩ h2
  have h3 := (abs_lt.mp h2).2
  have h4 : ((2 : ℝ) ^ (p - 1) + 1) ≤ m := by exact_mod_cast hm1
  have h5 := mul_le_mul_of_nonneg_right h4 hpk.le
  have h6 := neg_le_abs (rd z)
  linarith

/-- Upper and lower bounds of `erfcx` at negative arguments. -/
theorem E_neg_ge {x : ℝ} (hx : x ≤ 0) (n : ℕ) (h : n * log 2 ≤ x ^ 2) : 2 ^ (n + 1) - 1 ≤ E x := by
  have h1 : (2 : ℝ) ^ n ≤ exp (x ^ 2) := by
    have : exp (n * log 2) = 2 ^ n := by rw [mul_comm, exp_mul, exp_log (by norm_num), rpow_natCast]
    rw [← this]; exact exp_le_exp.mpr h
  have h2 := E_neg x
  have h3 := E_antitone le_rfl (by linarith : (0 : ℝ) ≤ -x)
  rw [E_zero] at h3
  rw [pow_succ]
  linarith

theorem E_neg_le {x : ℝ} (n : ℕ) {δ : ℝ} (hδ : 0 ≤ δ) (hδ1 : δ ≤ 1) (h : x ^ 2 ≤ n * log 2 - δ) :
    E x ≤ 2 ^ (n + 1) * (1 - δ / 2) := by
  have h1 : exp (x ^ 2) ≤ 2 ^ n * exp (-δ) := by
    have : exp (n * log 2) = 2 ^ n := by rw [mul_comm, exp_mul, exp_log (by norm_num), rpow_natCast]
    rw [← this, ← exp_add]
    exact exp_le_exp.mpr (by linarith)
  have h2 := E_neg x
  have h3 := E_pos (-x)
  have h4 : exp (-δ) ≤ 1 - δ / 2 := by
    have h5 := Real.abs_exp_sub_one_sub_id_le (x := -δ) (by rw [abs_neg, abs_of_nonneg hδ]; exact hδ1)
    have h6 := (abs_le.mp h5).2
    have h7 : exp (-δ) ≤ 1 / (1 + δ) := by
      rw [exp_neg, one_div]
      exact inv_anti₀ (by linarith) (by have := add_one_le_exp δ; linarith)
    refine h7.trans ?_
    rw [div_le_iff₀ (by linarith)]
    nlinarith
  have h5 : (2 : ℝ) ^ n * exp (-δ) ≤ 2 ^ n * (1 - δ / 2) := mul_le_mul_of_nonneg_left h4 (by positivity)
  rw [pow_succ]
  linarith

/-- Which floats lie below the bound. -/
theorem below (h : Nearest p emin rd) (hp : 1 ≤ p) {x z : ℝ} (hx : IsFloat p emin x) {m k : ℤ} (hk : emin ≤ k)
    (hm1 : 2 ^ (p - 1) + 1 ≤ m) (hm2 : m < 2 ^ p) (hz : 2 * |(-m : ℝ) * 2 ^ k - z| < 2 ^ k) :
    (x < rd z → x ≤ (-(m + 1 : ℤ) : ℝ) * 2 ^ k) ∧
    (x < rd z → x ≠ (-(m + 1 : ℤ) : ℝ) * 2 ^ k → x ≤ (-(m + 2 : ℤ) : ℝ) * 2 ^ k) := by
  rw [round_eq h hp hk hm1 hm2 hz]
  have hpk : (0 : ℝ) < 2 ^ k := zpow_pos (by norm_num) _
  have hg : x < -m * 2 ^ k → OnGrid k x := by
    intro hlt
    refine onGrid_of_big hp hx ?_
    have h4 : ((2 : ℝ) ^ (p - 1) + 1) ≤ m := by exact_mod_cast hm1
    have h5 := mul_le_mul_of_nonneg_right h4 hpk.le
    have h6 := neg_le_abs x
    linarith
  have h1 : x < -m * 2 ^ k → x ≤ (-(m + 1 : ℤ) : ℝ) * 2 ^ k := by
    intro hlt
    have := grid_lt (m := -m) (hg hlt) (by push_cast; exact hlt)
    push_cast at this ⊢
    linarith
  refine ⟨h1, fun hlt hne => ?_⟩
  have h2 := lt_of_le_of_ne (h1 hlt) hne
  have := grid_lt (m := -(m + 1)) (hg hlt) (by push_cast at h2 ⊢; linarith)
  push_cast at this ⊢
  linarith

theorem E_le_one {x : ℝ} (hx : 0 ≤ x) : E x ≤ 1 := by
  have := E_antitone le_rfl hx
  rwa [E_zero] at this

theorem finite_pinf {ex : ℝ → ℝ} {v : Variant} {x : ℝ} (h0 : rd (lit v.lower) ≤ 0) :
    finite rd ex v x = .pinf ↔ x < rd (lit v.lower) := by
  unfold finite
  split_ifs with h1 h2 h3
  · simp; linarith
  · simp; linarith
  · simp [h3]
  · simp [h3]

variable {v : Variant} {emax : ℕ}

/-- What has to be checked about the constants of one type. -/
structure Over (v : Variant) (p : ℕ) (emin : ℤ) (emax : ℕ) (m k : ℤ) : Prop where
  hp : 2 ≤ p
  hk : emin ≤ k
  hm1 : 2 ^ (p - 1) + 1 ≤ m
  hm2 : m < 2 ^ p
  hz : 2 * |(-m : ℝ) * 2 ^ k - lit v.lower| < 2 ^ k
  hem : p < emax + 1
  /-- the bound itself does not overflow -/
  hlow : (m * 2 ^ k : ℝ) ^ 2 ≤ (emax : ℕ) * log 2 - 2 / 2 ^ p

theorem Over.rd_lower {m k : ℤ} (O : Over v p emin emax m k) (h : Nearest p emin rd) : rd (lit v.lower) = -m * 2 ^ k :=
  round_eq h (by have := O.hp; omega) O.hk O.hm1 O.hm2 O.hz

theorem Over.m_pos {m k : ℤ} (O : Over v p emin emax m k) : (0 : ℝ) < m := by
  have : (0 : ℤ) < m := lt_of_lt_of_le (by positivity) O.hm1
  exact_mod_cast this

theorem Over.lower_neg {m k : ℤ} (O : Over v p emin emax m k) (h : Nearest p emin rd) : rd (lit v.lower) ≤ 0 := by
  rw [O.rd_lower h]
  have := O.m_pos
  have hpk : (0 : ℝ) < 2 ^ k := zpow_pos (by norm_num) _
  nlinarith [mul_pos this hpk]

theorem le_maxFinite {x : ℝ} (hp : 2 ≤ p) (hx : x ^ 2 ≤ emax * log 2 - 2 / 2 ^ p) : E x ≤ maxFinite p (emax + 1) := by
  have h4 : (4 : ℝ) ≤ 2 ^ p := by
    calc (4 : ℝ) = 2 ^ 2 := by norm_num
      _ ≤ _ := pow_le_pow_right₀ (by norm_num) hp
  have hδ : (2 : ℝ) / 2 ^ p ≤ 1 := by rw [div_le_one (by positivity)]; linarith
  refine (E_neg_le emax (by positivity) hδ hx).trans (le_of_eq ?_)
  unfold maxFinite
  ring

/-- A finite result is returned only where the true value is finite in the type. -/
theorem Over.not_pinf {m k : ℤ} (O : Over v p emin emax m k) (h : Nearest p emin rd) {ex : ℝ → ℝ} {x : ℝ}
    (hx : finite rd ex v x ≠ .pinf) : E x ≤ maxFinite p (emax + 1) := by
  rw [Ne, finite_pinf (O.lower_neg h), O.rd_lower h, not_lt] at hx
  refine (E_anti_all hx).trans (le_maxFinite O.hp ?_)
  rw [neg_mul, neg_sq]
  exact O.hlow

theorem over_of_sq {x : ℝ} (hp : p < emax + 1) (hx0 : x ≤ 0) (hx : emax * log 2 ≤ x ^ 2) : maxFinite p (emax + 1) < E x := by
  refine lt_of_lt_of_le ?_ (E_neg_ge hx0 emax hx)
  unfold maxFinite
  have : (2 : ℝ) ^ p < 2 ^ (emax + 1) := pow_lt_pow_right₀ (by norm_num) hp
  have h2 : 1 < (2 : ℝ) ^ (emax + 1) * (1 / 2 ^ p) := by
    rw [mul_one_div, lt_div_iff₀ (by positivity)]
    linarith
  linarith

theorem Over.pinf_iff {m k : ℤ} (O : Over v p emin emax m k) (h : Nearest p emin rd) {ex : ℝ → ℝ} {x : ℝ}
    (hx : IsFloat p emin x) (hover : emax * log 2 ≤ ((m + 1) * 2 ^ k : ℝ) ^ 2) :
    finite rd ex v x = .pinf ↔ maxFinite p (emax + 1) < E x := by
  constructor
  · intro hp
    rw [finite_pinf (O.lower_neg h)] at hp
    have h1 := (below h (by have := O.hp; omega) hx O.hk O.hm1 O.hm2 O.hz).1 hp
    refine over_of_sq O.hem ?_ ?_
    · have := O.lower_neg h; linarith
    · refine hover.trans ?_
      have hpk : (0 : ℝ) < 2 ^ k := zpow_pos (by norm_num) _
      have hm := O.m_pos
      rw [← neg_sq x]
      refine pow_le_pow_left₀ (by positivity) ?_ 2
      push_cast at h1
      linarith
  · intro hp
    by_contra hc
    have := O.not_pinf h hc
    linarith

theorem Over.pinf_iff' {m k : ℤ} (O : Over v p emin emax m k) (h : Nearest p emin rd) {ex : ℝ → ℝ} {x : ℝ}
    (hx : IsFloat p emin x) (hover : emax * log 2 ≤ ((m + 2) * 2 ^ k : ℝ) ^ 2) :
    finite rd ex v x = .pinf ↔ maxFinite p (emax + 1) < E x ∨ x = (-(m + 1 : ℤ) : ℝ) * 2 ^ k := by
  have hpk : (0 : ℝ) < 2 ^ k := zpow_pos (by norm_num) _
  have hm := O.m_pos
  constructor
  · intro hp
    rw [finite_pinf (O.lower_neg h)] at hp
    by_cases hne : x = (-(m + 1 : ℤ) : ℝ) * 2 ^ k
    · exact Or.inr hne
    have h1 := (below h (by have := O.hp; omega) hx O.hk O.hm1 O.hm2 O.hz).2 hp hne
    refine Or.inl (over_of_sq O.hem ?_ ?_)
    · have := O.lower_neg h; linarith
    · refine hover.trans ?_
      rw [← neg_sq x]
      refine pow_le_pow_left₀ (by positivity) ?_ 2
      push_cast at h1
      linarith
  · rintro (hp | rfl)
    · by_contra hc
      have := O.not_pinf h hc
      linarith
    · rw [finite_pinf (O.lower_neg h), O.rd_lower h]
      push_cast
      linarith

theorem over_float : Over floatV 24 (-149) 127 9838173 (-20) := by
  have hl := abs_le.mp log_two_near
  refine ⟨by norm_num, by norm_num, by norm_num, by norm_num, ?_, by norm_num, ?_⟩
  · norm_num [floatV, lit, abs_of_pos, abs_of_neg]
  · norm_num at hl ⊢; linarith [hl.1, hl.2]

theorem over_double : Over doubleV 53 (-1074) 1023 7495322764862413 (-48) := by
  have hl := abs_le.mp log_two_near
  refine ⟨by norm_num, by norm_num, by norm_num, by norm_num, ?_, by norm_num, ?_⟩
  · norm_num [doubleV, lit, abs_of_pos, abs_of_neg]
  · norm_num at hl ⊢; linarith [hl.1, hl.2]

theorem over_longDouble : Over longDoubleV 64 (-16445) 16383 15357453145681441388 (-57) := by
  have hl := abs_le.mp log_two_near
  refine ⟨by norm_num, by norm_num, by norm_num, by norm_num, ?_, by norm_num, ?_⟩
  · norm_num [longDoubleV, lit, abs_of_pos, abs_of_neg]
  · norm_num at hl ⊢; linarith [hl.1, hl.2]

theorem hover_float : ((127 : ℕ) : ℝ) * log 2 ≤ (((9838173 : ℤ) + 2) * 2 ^ (-20 : ℤ) : ℝ) ^ 2 := by
  have hl := abs_le.mp log_two_near
  norm_num at hl ⊢; linarith [hl.1, hl.2]

theorem hover_double : ((1023 : ℕ) : ℝ) * log 2 ≤ (((7495322764862413 : ℤ) + 2) * 2 ^ (-48 : ℤ) : ℝ) ^ 2 := by
  have hl := abs_le.mp log_two_near
  norm_num at hl ⊢; linarith [hl.1, hl.2]

theorem hover_longDouble : ((16383 : ℕ) : ℝ) * log 2 ≤ (((15357453145681441388 : ℤ) + 1) * 2 ^ (-57 : ℤ) : ℝ) ^ 2 := by
  have hl := abs_le.mp log_two_near
  norm_num at hl ⊢; linarith [hl.1, hl.2]

theorem finite_at_float : ((-(9838174 : ℤ) : ℝ) * 2 ^ (-20 : ℤ)) ^ 2 ≤ (127 : ℕ) * log 2 - 2 / 2 ^ 24 := by
  have hl := abs_le.mp log_two_near
  norm_num at hl ⊢; linarith [hl.1, hl.2]

theorem finite_at_double : ((-(7495322764862414 : ℤ) : ℝ) * 2 ^ (-48 : ℤ)) ^ 2 ≤ (1023 : ℕ) * log 2 - 2 / 2 ^ 53 := by
  have hl := abs_le.mp log_two_near
  norm_num at hl ⊢; linarith [hl.1, hl.2]

/-- The square of the bound, rounded up. -/
structure SqBound (p : ℕ) (emin : ℤ) (emax : ℕ) (m k : ℤ) (f : ℝ) : Prop where
  isFloat : IsFloat p emin f
  sq_le : ((m : ℝ) * 2 ^ k) ^ 2 ≤ f
  le : f ≤ emax * log 2 - 8 / 2 ^ p

theorem isFloat_maxFinite (hp : 2 ≤ p) (he : emin ≤ 0) (hem : p < emax + 1) : IsFloat p emin (maxFinite p (emax + 1)) := by
  refine ⟨2 ^ p - 1, emax + 1 - p, ?_, by omega, ?_⟩
  · have : (1 : ℤ) ≤ 2 ^ p := one_le_pow₀ (by norm_num)
    rw [abs_of_nonneg (by linarith)]; linarith
  · unfold maxFinite
    rw [zpow_sub₀ (by norm_num), show ((emax : ℤ) + 1) = ((emax + 1 : ℕ) : ℤ) by push_cast; rfl, zpow_natCast, zpow_natCast]
    push_cast
    have : (2 : ℝ) ^ p ≠ 0 := by positivity
    field_simp

set_option maxHeartbeats 1000000 in
/-- Above the bound no intermediate value leaves the range of the type. -/
theorem no_overflow {k₀ B : ℕ} {m k : ℤ} {f ε : ℝ} (S : Setup v p emin k₀ B) (O : Over v p emin emax m k) (Q : SqBound p emin emax m k f)
    (h : Nearest p emin rd) {ex : ℝ → ℝ} (hex : ExpAcc ε ex) (hε : ε ≤ 2 / 2 ^ p) {x : ℝ} (hx : x ≤ 0) (hlow : rd (lit v.lower) ≤ x) :
    2 * ex (rd (x * x)) ≤ maxFinite p (emax + 1) ∧
    ∃ r, finite rd ex v x = .fin r ∧ r ≤ maxFinite p (emax + 1) := by
  have hfl := isFloat_maxFinite (emin := emin) O.hp (by have := S.he; omega) O.hem
  have hw0 : (0 : ℝ) < 1 / 2 ^ p := by positivity
  have hw1 : (1 : ℝ) / 2 ^ p ≤ 1 / 2 ^ 24 := one_div_le_one_div_of_le (by positivity) (pow_le_pow_right₀ (by norm_num) S.p0)
  have h1 : 2 * ex (rd (x * x)) ≤ maxFinite p (emax + 1) := by
    have h2 : rd (x * x) ≤ f := by
      refine h.mono_float' Q.isFloat (le_trans ?_ Q.sq_le)
      rw [O.rd_lower h] at hlow
      nlinarith
    have h3 : exp (rd (x * x)) ≤ 2 ^ emax * (1 - 4 / 2 ^ p) := by
      have : exp (emax * log 2) = 2 ^ emax := by rw [mul_comm, exp_mul, exp_log (by norm_num), rpow_natCast]
      rw [← this]
      have h7 : exp (-(8 / 2 ^ p : ℝ)) ≤ 1 - 4 / 2 ^ p := by
        have h7 : exp (-(8 / 2 ^ p : ℝ)) ≤ 1 / (1 + 8 / 2 ^ p) := by
          rw [exp_neg, one_div]
          exact inv_anti₀ (by positivity) (by have := add_one_le_exp (8 / 2 ^ p : ℝ); linarith)
        refine h7.trans ?_
        rw [div_le_iff₀ (by positivity), show (8 : ℝ) / 2 ^ p = 8 * (1 / 2 ^ p) by ring, show (4 : ℝ) / 2 ^ p = 4 * (1 / 2 ^ p) by ring]
        nlinarith
      refine le_trans ?_ (mul_le_mul_of_nonneg_left h7 (exp_pos _).le)
      rw [← exp_add]
      exact exp_le_exp.mpr (by linarith [Q.le])
    have h4 := (abs_le.mp (hex (rd (x * x)))).2
    have h5 := exp_pos (rd (x * x))
    have h6 : ε * exp (rd (x * x)) ≤ 2 / 2 ^ p * exp (rd (x * x)) := mul_le_mul_of_nonneg_right hε h5.le
    have h7 : (1 + 2 / 2 ^ p) * exp (rd (x * x)) ≤ (1 + 2 / 2 ^ p) * (2 ^ emax * (1 - 4 / 2 ^ p)) :=
      mul_le_mul_of_nonneg_left h3 (by positivity)
    have h8 : (1 + 2 / 2 ^ p) * (1 - 4 / 2 ^ p) ≤ (1 - 1 / 2 ^ p : ℝ) := by
      rw [show (2 : ℝ) / 2 ^ p = 2 * (1 / 2 ^ p) by ring, show (4 : ℝ) / 2 ^ p = 4 * (1 / 2 ^ p) by ring]
      nlinarith
    have h9 := mul_le_mul_of_nonneg_left h8 (by positivity : (0 : ℝ) ≤ 2 ^ emax)
    unfold maxFinite
    rw [pow_succ]
    linarith
  refine ⟨h1, ?_⟩
  unfold finite
  rw [if_neg (not_lt.mpr hx), if_neg (not_lt.mpr hlow)]
  refine ⟨_, rfl, ?_⟩
  refine h.mono_float' hfl ?_
  have h2 := h.mono_float' hfl h1
  have hB400 : B ≤ 400 := by have := S.lowk; have := S.k0; nlinarith
  have hB : -x ≤ B := by
    have := h.mono_float (isFloat_natCast S.p0 S.he hB400).neg S.lowB
    linarith
  have e1 := (abs_le.mp (piece_err S h (x := -x) (by linarith) hB S.lowk)).1
  rw [show 4 + -x = 4 - x by ring] at e1
  have hE := E_pos (-x)
  have h3 : 16.5 / 2 ^ p * E (-x) ≤ 1 * E (-x) := by
    refine mul_le_mul_of_nonneg_right ?_ hE.le
    rw [show (16.5 : ℝ) / 2 ^ p = 16.5 * (1 / 2 ^ p) by ring]
    norm_num at hw1 ⊢
    linarith
  linarith

theorem sq_float : SqBound 24 (-149) 127 9838173 (-20) (11538226 * 2 ^ (-17 : ℤ)) := by
  have hl := abs_le.mp log_two_near
  refine ⟨⟨11538226, -17, by norm_num, by norm_num, by push_cast; rfl⟩, by norm_num, ?_⟩
  norm_num at hl ⊢; linarith [hl.1, hl.2]

theorem sq_double : SqBound 53 (-1074) 1023 7495322764862413 (-48) (6237217781087071 * 2 ^ (-43 : ℤ)) := by
  have hl := abs_le.mp log_two_near
  refine ⟨⟨6237217781087071, -43, by norm_num, by norm_num, by push_cast; rfl⟩, by norm_num, ?_⟩
  norm_num at hl ⊢; linarith [hl.1, hl.2]

theorem sq_longDouble : SqBound 64 (-16445) 16383 15357453145681441388 (-57) (12785528230856634989 * 2 ^ (-50 : ℤ)) := by
  have hl := abs_le.mp log_two_near
  refine ⟨⟨12785528230856634989, -50, by norm_num, by norm_num, by push_cast; rfl⟩, by norm_num, ?_⟩
  norm_num at hl ⊢; linarith [hl.1, hl.2]

end Ufunclab.Erfcx
