import Verif.Proof.Float
/-! # Floating-point lemmas: error of one rounding, errors of sums are floats -/
namespace Ufunclab.Float
variable {K : Type _} [Field K] [LinearOrder K] [IsStrictOrderedRing K]
variable {p : ℕ} {emin : ℤ} {rd : K → K}

/-- The leading exponent of a float. -/
theorem IsFloat.normal (hp : 1 ≤ p) {x : K} (h : IsFloat p emin x) (hx : x ≠ 0) :
    ∃ k, emin ≤ k ∧ OnGrid k x ∧ |x| < 2 ^ p * 2 ^ k ∧ (k = emin ∨ 2 ^ (p - 1) * 2 ^ k ≤ |x|) := by
  obtain ⟨m, e, hm, he, rfl⟩ := h
  -- induct on how far `e` is from `emin`
  obtain ⟨d, rfl⟩ := Int.le.dest he
  induction d generalizing m with
  | zero =>
    refine ⟨emin, le_rfl, ⟨m, by simp⟩, ?_, .inl rfl⟩
    simp only [Nat.cast_zero, add_zero] at *
    rw [abs_mul, abs_two_zpow]
    exact mul_lt_mul_of_pos_right (by exact_mod_cast hm) (two_zpow_pos _)
  | succ d ih =>
    rcases le_or_gt (2 ^ (p - 1)) |m| with hb | hs
    · refine ⟨emin + ((d + 1 : ℕ) : ℤ), he, ⟨m, rfl⟩, ?_, .inr ?_⟩
      · rw [abs_mul, abs_two_zpow]
        exact mul_lt_mul_of_pos_right (by exact_mod_cast hm) (two_zpow_pos _)
      · rw [abs_mul, abs_two_zpow]
        exact mul_le_mul_of_nonneg_right (by exact_mod_cast hb) (two_zpow_pos _).le
    · have e1 : (m : K) * 2 ^ (emin + ((d + 1 : ℕ) : ℤ)) = ((2 * m : ℤ) : K) * 2 ^ (emin + (d : ℤ)) := by
        rw [show emin + ((d + 1 : ℕ) : ℤ) = emin + (d : ℤ) + 1 by push_cast; ring, zpow_add_one₀ (by norm_num)]
        push_cast; ring
      have h2 : |2 * m| < 2 ^ p := by
        obtain ⟨q, rfl⟩ : ∃ q, p = q + 1 := ⟨p - 1, by omega⟩
        rw [Nat.add_sub_cancel] at hs
        rw [abs_mul, pow_succ]; norm_num; omega
      rw [e1] at hx ⊢
      exact ih (2 * m) h2 (by omega) hx

/-- A number below `2^p * 2^k` rounds with an error of at most half of `2^k`. -/
theorem Nearest.half [Archimedean K] (h : Nearest p emin rd) (hp : 1 ≤ p) {k : ℤ} (hk : emin ≤ k) {z : K}
    (hz : |z| ≤ 2 ^ p * 2 ^ k) : |rd z - z| ≤ 2 ^ k / 2 := by
  have hpos : (0 : K) < 2 ^ k := two_zpow_pos k
  obtain ⟨n, hn1, hn2⟩ : ∃ n : ℤ, (n : K) ≤ z / 2 ^ k ∧ z / 2 ^ k < n + 1 := by
    obtain ⟨n, hn⟩ := exists_floor (z / 2 ^ k)
    refine ⟨n, (hn n).1 le_rfl, ?_⟩
    by_contra hc
    have := (hn (n + 1)).2 (by push_cast; exact not_lt.1 hc)
    omega
  rw [le_div_iff₀ hpos] at hn1
  rw [div_lt_iff₀ hpos] at hn2
  rw [abs_le] at hz
  have key : ∀ q : ℤ, |(q : K) * 2 ^ k| ≤ 2 ^ p * 2 ^ k → |(q : K) * 2 ^ k - z| ≤ 2 ^ k / 2 → |rd z - z| ≤ 2 ^ k / 2 := by
    intro q h1 h2
    exact le_trans ((h z).2 _ (isFloat_of_grid hp hk ⟨q, rfl⟩ h1)) h2
  have hint : ∀ q : ℤ, (q : K) * 2 ^ k < (2 ^ p + 1) * 2 ^ k → -((2 ^ p + 1) * 2 ^ k) < (q : K) * 2 ^ k →
      |(q : K) * 2 ^ k| ≤ 2 ^ p * 2 ^ k := by
    intro q h1 h2
    rw [← neg_mul] at h2
    have h3 := lt_of_mul_lt_mul_right h1 hpos.le
    have h4 := lt_of_mul_lt_mul_right h2 hpos.le
    have h5 : q < 2 ^ p + 1 := by exact_mod_cast h3
    have h6 : -(2 ^ p + 1) < q := by exact_mod_cast h4
    have h7 : |q| ≤ 2 ^ p := by rw [abs_le]; constructor <;> omega
    rw [abs_mul, abs_two_zpow]
    exact mul_le_mul_of_nonneg_right (by exact_mod_cast h7) hpos.le
  rcases le_total (z - n * 2 ^ k) (2 ^ k / 2) with c | c
  · apply key n
    · apply hint <;> nlinarith
    · rw [abs_le]; constructor <;> linarith
  · apply key (n + 1)
    · apply hint <;> push_cast <;> nlinarith
    · push_cast; rw [abs_le]; constructor <;> linarith

/-- Zero is a float, so a rounding error is never larger than the number. -/
theorem Nearest.err_le (h : Nearest p emin rd) (z : K) : |rd z - z| ≤ |z| := by
  have := (h z).2 0 isFloat_zero
  rwa [zero_sub, abs_neg] at this

theorem Nearest.abs_le_two (h : Nearest p emin rd) (z : K) : |rd z| ≤ 2 * |z| := by
  have := h.err_le z
  calc |rd z| = |(rd z - z) + z| := by ring_nf
    _ ≤ |rd z - z| + |z| := abs_add_le _ _
    _ ≤ _ := by linarith

/-- Rounding error of any number: relative `2^-p`, or half of the least positive float. -/
theorem Nearest.error [Archimedean K] (h : Nearest p emin rd) (hp : 1 ≤ p) (z : K) :
    |rd z - z| ≤ (2 ^ p)⁻¹ * |z| + 2 ^ emin / 2 := by
  rcases le_or_gt |z| (2 ^ p * 2 ^ emin) with hs | hb
  · have := h.half hp le_rfl hs
    have : (0 : K) ≤ (2 ^ p)⁻¹ * |z| := by positivity
    linarith
  · have hz0 : 0 < |z| := lt_trans (by positivity) hb
    obtain ⟨t, ht1, ht2⟩ := exists_mem_Ico_zpow hz0 (show (1 : K) < 2 by norm_num)
    obtain ⟨k, rfl⟩ : ∃ k, t = (p : ℤ) + k := ⟨t - p, by ring⟩
    have hk : emin ≤ k := by
      by_contra hc
      have : (p : ℤ) + k + 1 ≤ p + emin := by omega
      have h2 : (2 : K) ^ ((p : ℤ) + k + 1) ≤ 2 ^ ((p : ℤ) + emin) := zpow_le_zpow_right₀ (by norm_num) this
      rw [← pow_zpow] at h2
      linarith
    rw [← pow_zpow] at ht1
    rw [add_assoc, ← pow_zpow] at ht2
    have h1 := h.half hp (k := k + 1) (by omega) ht2.le
    rw [zpow_add_one₀ (by norm_num)] at h1
    have h2 : (2 : K) ^ k ≤ (2 ^ p)⁻¹ * |z| := by
      rw [inv_mul_eq_div, le_div_iff₀ (by positivity)]; linarith
    have := two_zpow_pos (K := K) emin
    linarith

/-- A float below a number is below the rounded number. -/
theorem Nearest.mono_float (h : Nearest p emin rd) {f z : K} (hf : IsFloat p emin f) (hfz : f ≤ z) : f ≤ rd z := by
  by_contra hc
  push Not at hc
  have := (h z).2 f hf
  rw [abs_of_nonpos (by linarith), abs_of_nonpos (by linarith)] at this
  linarith

theorem Nearest.mono_float' (h : Nearest p emin rd) {f z : K} (hf : IsFloat p emin f) (hfz : z ≤ f) : rd z ≤ f := by
  by_contra hc
  push Not at hc
  have := (h z).2 f hf
  rw [abs_of_nonneg (by linarith), abs_of_nonneg (by linarith)] at this
  linarith

theorem IsFloat.abs {x : K} (h : IsFloat p emin x) : IsFloat p emin |x| := by
  rcases abs_cases x with ⟨e, _⟩ | ⟨e, _⟩ <;> rw [e]
  exacts [h, h.neg]

theorem Nearest.abs_mono_float (h : Nearest p emin rd) {f z : K} (hf : IsFloat p emin f) (hfz : f ≤ |z|) : f ≤ |rd z| := by
  rcases le_total 0 z with h0 | h0
  · rw [abs_of_nonneg h0] at hfz
    exact le_trans (h.mono_float hf hfz) (le_abs_self _)
  · rw [abs_of_nonpos h0] at hfz
    have := h.mono_float' hf.neg (by linarith : z ≤ -f)
    exact le_trans (by linarith) (neg_le_abs _)

theorem Nearest.round_zero (h : Nearest p emin rd) : rd 0 = 0 := h.exact isFloat_zero

/-- The rounding error of a sum of two floats is a float. -/
theorem add_err_float (h : Nearest p emin rd) (hp : 1 ≤ p) {a b : K} (ha : IsFloat p emin a) (hb : IsFloat p emin b) :
    IsFloat p emin (rd (a + b) - (a + b)) := by
  have h1 : |rd (a + b) - (a + b)| ≤ |b| := by
    have := (h (a + b)).2 a ha
    rwa [show a - (a + b) = -b by ring, abs_neg] at this
  have h2 : |rd (a + b) - (a + b)| ≤ |a| := by
    have := (h (a + b)).2 b hb
    rwa [show b - (a + b) = -a by ring, abs_neg] at this
  obtain ⟨ma, ea, hma, hea, haa⟩ := ha
  obtain ⟨mb, eb, hmb, heb, hbb⟩ := hb
  have la : |a| < 2 ^ p * 2 ^ ea := by
    rw [haa, abs_mul, abs_two_zpow]
    exact mul_lt_mul_of_pos_right (by exact_mod_cast hma) (two_zpow_pos ea)
  have lb : |b| < 2 ^ p * 2 ^ eb := by
    rw [hbb, abs_mul, abs_two_zpow]
    exact mul_lt_mul_of_pos_right (by exact_mod_cast hmb) (two_zpow_pos eb)
  rcases le_total ea eb with hle | hle
  · have g : OnGrid ea (a + b) := OnGrid.add ⟨ma, haa⟩ (OnGrid.mono hle ⟨mb, hbb⟩)
    exact isFloat_of_grid hp hea ((h.grid hp hea g).sub g) (by linarith)
  · have g : OnGrid eb (a + b) := OnGrid.add (OnGrid.mono hle ⟨ma, haa⟩) ⟨mb, hbb⟩
    exact isFloat_of_grid hp heb ((h.grid hp heb g).sub g) (by linarith)

/-- A sum not larger than either addend is exact. -/
theorem add_exact_of_small (hp : 1 ≤ p) {a b : K} (ha : IsFloat p emin a) (hb : IsFloat p emin b)
    (h1 : |a + b| ≤ |a|) (h2 : |a + b| ≤ |b|) : IsFloat p emin (a + b) := by
  obtain ⟨ma, ea, hma, hea, haa⟩ := ha
  obtain ⟨mb, eb, hmb, heb, hbb⟩ := hb
  have la : |a| < 2 ^ p * 2 ^ ea := by
    rw [haa, abs_mul, abs_two_zpow]
    exact mul_lt_mul_of_pos_right (by exact_mod_cast hma) (two_zpow_pos ea)
  have lb : |b| < 2 ^ p * 2 ^ eb := by
    rw [hbb, abs_mul, abs_two_zpow]
    exact mul_lt_mul_of_pos_right (by exact_mod_cast hmb) (two_zpow_pos eb)
  rcases le_total ea eb with hle | hle
  · exact isFloat_of_grid hp hea (OnGrid.add ⟨ma, haa⟩ (OnGrid.mono hle ⟨mb, hbb⟩)) (by linarith)
  · exact isFloat_of_grid hp heb (OnGrid.add (OnGrid.mono hle ⟨ma, haa⟩) ⟨mb, hbb⟩) (by linarith)

end Ufunclab.Float
