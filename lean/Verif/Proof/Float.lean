import Verif.Spec.Float
import Mathlib.Tactic.Linarith
import Mathlib.Tactic.NormNum
import Mathlib.Algebra.Order.Field.Power
import Mathlib.Tactic.Ring
import Mathlib.Tactic.Positivity
import Mathlib.Algebra.Order.Ring.Archimedean
import Mathlib.Algebra.Order.Archimedean.Basic
import Mathlib.Algebra.Order.Round
import Mathlib.Data.Int.Log
/-! # Floating-point lemmas: the grid, the relative error of a sum, and Fast2Sum -/
namespace Ufunclab.Float
variable {K : Type _} [Field K] [LinearOrder K] [IsStrictOrderedRing K]

/-- A multiple of `2^k`. -/
def OnGrid (k : ℤ) (x : K) : Prop := ∃ n : ℤ, x = (n : K) * 2 ^ k

theorem two_zpow_pos (k : ℤ) : (0 : K) < 2 ^ k := zpow_pos (by norm_num) k

theorem abs_two_zpow (k : ℤ) : |(2 : K) ^ k| = 2 ^ k := abs_of_pos (two_zpow_pos k)

theorem OnGrid.add {k : ℤ} {x y : K} : OnGrid k x → OnGrid k y → OnGrid k (x + y) := by
  rintro ⟨a, rfl⟩ ⟨b, rfl⟩
  exact ⟨a + b, by push_cast; ring⟩

theorem OnGrid.neg {k : ℤ} {x : K} : OnGrid k x → OnGrid k (-x) := by
  rintro ⟨a, rfl⟩
  exact ⟨-a, by push_cast; ring⟩

theorem OnGrid.sub {k : ℤ} {x y : K} (h1 : OnGrid k x) (h2 : OnGrid k y) : OnGrid k (x - y) := by
  rw [sub_eq_add_neg]; exact h1.add h2.neg

theorem OnGrid.mono {j k : ℤ} (h : j ≤ k) {x : K} : OnGrid k x → OnGrid j x := by
  rintro ⟨a, rfl⟩
  obtain ⟨d, rfl⟩ := Int.le.dest h
  refine ⟨a * 2 ^ d, ?_⟩
  rw [zpow_add₀ (by norm_num), zpow_natCast]
  push_cast; ring

theorem pow_zpow (p : ℕ) (k : ℤ) : (2 : K) ^ p * 2 ^ k = 2 ^ ((p : ℤ) + k) := by
  rw [zpow_add₀ (by norm_num), zpow_natCast]

theorem IsFloat.grid {p : ℕ} {emin : ℤ} {x : K} (h : IsFloat p emin x) : OnGrid emin x := by
  obtain ⟨m, e, _, he, rfl⟩ := h
  exact OnGrid.mono he ⟨m, rfl⟩

theorem IsFloat.neg {p : ℕ} {emin : ℤ} {x : K} (h : IsFloat p emin x) : IsFloat p emin (-x) := by
  obtain ⟨m, e, hm, he, rfl⟩ := h
  exact ⟨-m, e, by rwa [abs_neg], he, by push_cast; ring⟩

theorem isFloat_zpow {p : ℕ} (hp : 1 ≤ p) {emin e : ℤ} (he : emin ≤ e) : IsFloat p emin ((2 : K) ^ e) :=
  ⟨1, e, by
    have : (2 : ℤ) ^ 1 ≤ 2 ^ p := pow_le_pow_right₀ (by norm_num) hp
    simpa using lt_of_lt_of_le (by norm_num) this, he, by simp⟩

theorem isFloat_zero {p : ℕ} {emin : ℤ} : IsFloat p emin (0 : K) := ⟨0, emin, by simp, le_rfl, by simp⟩

/-- On the grid `2^k` everything up to `2^p` grid steps is a float. -/
theorem isFloat_of_grid {p : ℕ} (hp : 1 ≤ p) {emin k : ℤ} (hk : emin ≤ k) {x : K} (hg : OnGrid k x)
    (hx : |x| ≤ 2 ^ p * 2 ^ k) : IsFloat p emin x := by
  obtain ⟨n, rfl⟩ := hg
  rw [abs_mul, abs_two_zpow] at hx
  have h1 : |(n : K)| ≤ 2 ^ p := le_of_mul_le_mul_right hx (two_zpow_pos k)
  have h2 : |n| ≤ 2 ^ p := by exact_mod_cast h1
  rcases h2.lt_or_eq with h | h
  · exact ⟨n, k, h, hk, rfl⟩
  · have hpk : emin ≤ (p : ℤ) + k := by omega
    rcases abs_choice n with c | c
    · have : n = 2 ^ p := by omega
      subst this
      have := isFloat_zpow (K := K) hp hpk
      rw [← pow_zpow] at this
      push_cast; exact this
    · have : n = -2 ^ p := by omega
      subst this
      have := (isFloat_zpow (K := K) hp hpk).neg
      rw [← pow_zpow] at this
      push_cast; rwa [neg_mul]

variable {p : ℕ} {emin : ℤ} {rd : K → K}

theorem Nearest.exact (h : Nearest p emin rd) {x : K} (hx : IsFloat p emin x) : rd x = x := by
  have := (h x).2 x hx
  rw [sub_self, abs_zero] at this
  exact sub_eq_zero.1 (abs_eq_zero.1 (le_antisymm this (abs_nonneg _)))

/-- A float of magnitude at least `2^p * 2^k` is on the grid `2^(k+1)`. -/
theorem IsFloat.big_grid {x : K} (h : IsFloat p emin x) {k : ℤ} (hx : 2 ^ p * 2 ^ k ≤ |x|) : OnGrid (k + 1) x := by
  obtain ⟨m, e, hm, he, rfl⟩ := h
  apply OnGrid.mono (k := e) _ ⟨m, rfl⟩
  by_contra hc
  have hek : e ≤ k := by omega
  rw [abs_mul, abs_two_zpow] at hx
  have h1 : (2 : K) ^ e ≤ 2 ^ k := zpow_le_zpow_right₀ (by norm_num) hek
  have hm' : |(m : K)| < 2 ^ p := by exact_mod_cast hm
  have : |(m : K)| * 2 ^ e < 2 ^ p * 2 ^ k := by
    calc |(m : K)| * 2 ^ e ≤ |(m : K)| * 2 ^ k := mul_le_mul_of_nonneg_left h1 (abs_nonneg _)
      _ < 2 ^ p * 2 ^ k := mul_lt_mul_of_pos_right hm' (two_zpow_pos k)
  exact absurd hx (not_le.2 this)

theorem Nearest.big (h : Nearest p emin rd) (hp : 1 ≤ p) {k : ℤ} (hk : emin ≤ k) {z : K} (hz : 2 ^ p * 2 ^ k ≤ |z|) :
    2 ^ p * 2 ^ k ≤ |rd z| := by
  have hf : IsFloat p emin ((2 : K) ^ p * 2 ^ k) := by
    rw [pow_zpow]; exact isFloat_zpow hp (by omega)
  rcases le_total 0 z with h0 | h0
  · rw [abs_of_nonneg h0] at hz
    have := (h z).2 _ hf
    rw [abs_of_nonpos (show (2 : K) ^ p * 2 ^ k - z ≤ 0 by linarith)] at this
    have h2 := neg_le_of_abs_le this
    exact le_trans (by linarith) (le_abs_self (rd z))
  · rw [abs_of_nonpos h0] at hz
    have := (h z).2 _ hf.neg
    rw [abs_of_nonneg (show (0 : K) ≤ -(2 ^ p * 2 ^ k) - z by linarith)] at this
    have h2 := le_of_abs_le this
    linarith [neg_le_abs (rd z)]

/-- Rounding keeps the grid. -/
theorem Nearest.grid (h : Nearest p emin rd) (hp : 1 ≤ p) {k : ℤ} (hk : emin ≤ k) {z : K} (hz : OnGrid k z) :
    OnGrid k (rd z) := by
  rcases le_total |z| (2 ^ p * 2 ^ k) with hs | hb
  · rw [h.exact (isFloat_of_grid hp hk hz hs)]; exact hz
  · exact OnGrid.mono (by omega) ((h z).1.big_grid (h.big hp hk hb))

/-- Dekker's Fast2Sum: for floats with `|b| ≤ |a|` the difference of the rounded sum and `a` and
the rounding error are floats. -/
theorem fast2sum_floats (h : Nearest p emin rd) (hp : 1 ≤ p) {a b : K} (ha : IsFloat p emin a) (hb : IsFloat p emin b)
    (hab : |b| ≤ |a|) : IsFloat p emin (rd (a + b) - a) ∧ IsFloat p emin (rd (a + b) - (a + b)) := by
  have hab0 := hab
  obtain ⟨ma, ea, hma, hea, haa⟩ := id ha
  obtain ⟨mb, eb, hmb, heb, hbb⟩ := id hb
  have ga : OnGrid ea a := ⟨ma, haa⟩
  have gb : OnGrid eb b := ⟨mb, hbb⟩
  have la : |a| < 2 ^ p * 2 ^ ea := by
    rw [haa, abs_mul, abs_two_zpow]
    exact mul_lt_mul_of_pos_right (by exact_mod_cast hma) (two_zpow_pos ea)
  have lb : |b| < 2 ^ p * 2 ^ eb := by
    rw [hbb, abs_mul, abs_two_zpow]
    exact mul_lt_mul_of_pos_right (by exact_mod_cast hmb) (two_zpow_pos eb)
  set s := rd (a + b) with hs
  have hr : |s - (a + b)| ≤ |b| := by
    have := (h (a + b)).2 a ha
    rwa [show a - (a + b) = -b by ring, abs_neg] at this
  rcases le_or_gt ea eb with hle | hlt
  · have gb' := OnGrid.mono hle gb
    have gs : OnGrid ea s := h.grid hp hea (ga.add gb')
    have f2 : IsFloat p emin (s - (a + b)) :=
      isFloat_of_grid hp hea (gs.sub (ga.add gb')) (by linarith)
    refine ⟨?_, f2⟩
    rcases le_total |a + b| (2 ^ p * 2 ^ ea) with hsm | hbig
    · rw [hs, h.exact (isFloat_of_grid hp hea (ga.add gb') hsm), show a + b - a = b by ring]
      exact hb
    · -- the error is at most one grid step
      have hone : |s - (a + b)| ≤ 2 ^ ea := by
        obtain ⟨n, hn⟩ := ga.add gb'
        have hzb : |a + b| < 2 ^ p * 2 ^ (ea + 1) := by
          calc |a + b| ≤ |a| + |b| := abs_add_le a b
            _ < 2 ^ p * 2 ^ ea + 2 ^ p * 2 ^ ea := by linarith
            _ = _ := by rw [zpow_add_one₀ (by norm_num)]; ring
        -- an even neighbour of `n`
        obtain ⟨q, hq⟩ : ∃ q : ℤ, |2 * q - n| ≤ 1 := ⟨n / 2, by rw [abs_le]; omega⟩
        have hq2 : |2 * (q : K) - n| ≤ 1 := by exact_mod_cast hq
        have hc : IsFloat p emin ((q : K) * 2 ^ (ea + 1)) := by
          apply isFloat_of_grid hp (by omega) ⟨q, rfl⟩
          rw [abs_mul, abs_two_zpow]
          apply mul_le_mul_of_nonneg_right _ (two_zpow_pos _).le
          rw [hn, abs_mul, abs_two_zpow, zpow_add_one₀ (by norm_num),
            show (2 : K) ^ p * (2 ^ ea * 2) = (2 ^ p * 2) * 2 ^ ea by ring] at hzb
          have h1 : |(n : K)| < 2 ^ p * 2 := lt_of_mul_lt_mul_right hzb (two_zpow_pos ea).le
          have h2 : |n| < 2 ^ p * 2 := by exact_mod_cast h1
          have h3 : |q| ≤ 2 ^ p := by
            rw [abs_le] at hq ⊢; rw [abs_lt] at h2; omega
          exact_mod_cast h3
        have := (h (a + b)).2 _ hc
        refine le_trans this ?_
        rw [hn, zpow_add_one₀ (by norm_num), show (q : K) * (2 ^ ea * 2) - n * 2 ^ ea = (2 * q - n) * 2 ^ ea by ring,
          abs_mul, abs_two_zpow]
        calc _ ≤ 1 * (2 : K) ^ ea := mul_le_mul_of_nonneg_right hq2 (two_zpow_pos ea).le
          _ = _ := one_mul _
      apply isFloat_of_grid hp hea (gs.sub ga)
      -- |b| ≤ (2^p - 1) 2^ea
      have hb1 : |b| + 2 ^ ea ≤ 2 ^ p * 2 ^ ea := by
        refine le_trans (add_le_add_left hab0 _) ?_
        rw [haa, abs_mul, abs_two_zpow]
        have : |ma| + 1 ≤ 2 ^ p := hma
        have h1 : |(ma : K)| + 1 ≤ 2 ^ p := by exact_mod_cast this
        calc |(ma : K)| * 2 ^ ea + 2 ^ ea = (|(ma : K)| + 1) * 2 ^ ea := by ring
          _ ≤ _ := mul_le_mul_of_nonneg_right h1 (two_zpow_pos ea).le
      calc |s - a| = |(s - (a + b)) + b| := by ring_nf
        _ ≤ |s - (a + b)| + |b| := abs_add_le _ _
        _ ≤ _ := by linarith
  · have ga' := OnGrid.mono hlt.le ga
    have gs : OnGrid eb s := h.grid hp heb (ga'.add gb)
    have f2 : IsFloat p emin (s - (a + b)) :=
      isFloat_of_grid hp heb (gs.sub (ga'.add gb)) (by linarith)
    refine ⟨?_, f2⟩
    rcases le_total |a + b| (2 ^ p * 2 ^ eb) with hsm | hbig
    · rw [hs, h.exact (isFloat_of_grid hp heb (ga'.add gb) hsm), show a + b - a = b by ring]
      exact hb
    · have gs' : OnGrid (eb + 1) s := (h _).1.big_grid (h.big hp heb hbig)
      have ga'' : OnGrid (eb + 1) a := OnGrid.mono hlt ga
      apply isFloat_of_grid hp (by omega) (gs'.sub ga'')
      calc |s - a| = |(s - (a + b)) + b| := by ring_nf
        _ ≤ |s - (a + b)| + |b| := abs_add_le _ _
        _ ≤ 2 ^ p * 2 ^ eb + 2 ^ p * 2 ^ eb := by linarith
        _ = _ := by rw [zpow_add_one₀ (by norm_num)]; ring

/-- Dekker's Fast2Sum: for floats with `|b| ≤ |a|` the two subtractions that recover the
rounding error of `a + b` are exact. -/
theorem fast2sum (h : Nearest p emin rd) (hp : 1 ≤ p) {a b : K} (ha : IsFloat p emin a) (hb : IsFloat p emin b)
    (hab : |b| ≤ |a|) : rd (rd (a - rd (a + b)) + b) = a + b - rd (a + b) := by
  obtain ⟨h1, h2⟩ := fast2sum_floats h hp ha hb hab
  have h1' : IsFloat p emin (a - rd (a + b)) := by simpa using h1.neg
  have h2' : IsFloat p emin (a + b - rd (a + b)) := by simpa using h2.neg
  rw [h.exact h1', show a - rd (a + b) + b = a + b - rd (a + b) by ring, h.exact h2']

/-- Relative error of a rounded number of the grid (in particular of a sum of two floats):
at most `2^-p`. -/
theorem Nearest.rel_error [Archimedean K] (h : Nearest p emin rd) (hp : 1 ≤ p) {z : K} (hz : OnGrid emin z) :
    |rd z - z| ≤ (2 ^ p)⁻¹ * |z| := by
  rcases le_or_gt |z| (2 ^ p * 2 ^ emin) with hs | hb
  · rw [h.exact (isFloat_of_grid hp le_rfl hz hs), sub_self, abs_zero]
    positivity
  · have hz0 : 0 < |z| := lt_trans (by positivity) hb
    obtain ⟨t, ht1, ht2⟩ := exists_mem_Ico_zpow hz0 (show (1 : K) < 2 by norm_num)
    -- 2^t ≤ |z| < 2^(t+1)
    obtain ⟨k, rfl⟩ : ∃ k, t = (p : ℤ) + k := ⟨t - p, by ring⟩
    have hk : emin ≤ k := by
      by_contra hc
      have : (p : ℤ) + k + 1 ≤ p + emin := by omega
      have h2 : (2 : K) ^ ((p : ℤ) + k + 1) ≤ 2 ^ ((p : ℤ) + emin) := zpow_le_zpow_right₀ (by norm_num) this
      rw [← pow_zpow] at h2
      linarith
    rw [← pow_zpow] at ht1
    rw [add_assoc, ← pow_zpow, zpow_add_one₀ (by norm_num)] at ht2
    -- nearest multiple of 2^(k+1)
    obtain ⟨n, hn1, hn2⟩ : ∃ n : ℤ, (n : K) ≤ z / (2 ^ k * 2) ∧ z / (2 ^ k * 2) < n + 1 := by
      obtain ⟨n, hn⟩ := exists_floor (z / (2 ^ k * 2))
      refine ⟨n, (hn n).1 le_rfl, ?_⟩
      by_contra hc
      have := (hn (n + 1)).2 (by push_cast; exact not_lt.1 hc)
      omega
    have hpos : (0 : K) < 2 ^ k * 2 := by positivity
    rw [le_div_iff₀ hpos] at hn1
    rw [div_lt_iff₀ hpos] at hn2
    obtain ⟨q, hq⟩ : ∃ q : ℤ, |(q : K) * (2 ^ k * 2) - z| ≤ 2 ^ k := by
      rcases le_total (z - n * (2 ^ k * 2)) (2 ^ k) with c | c
      · exact ⟨n, by rw [abs_le]; constructor <;> linarith [two_zpow_pos (K := K) k]⟩
      · refine ⟨n + 1, ?_⟩
        push_cast
        rw [abs_le]; constructor <;> linarith [two_zpow_pos (K := K) k]
    have hqf : IsFloat p emin ((q : K) * 2 ^ (k + 1)) := by
      apply isFloat_of_grid hp (by omega) ⟨q, rfl⟩
      have h1 : |(q : K) * (2 ^ k * 2)| < (2 ^ p + 1) * (2 ^ k * 2) := by
        calc |(q : K) * (2 ^ k * 2)| = |((q : K) * (2 ^ k * 2) - z) + z| := by ring_nf
          _ ≤ |(q : K) * (2 ^ k * 2) - z| + |z| := abs_add_le _ _
          _ < 2 ^ k + 2 ^ p * (2 ^ k * 2) := by linarith
          _ ≤ _ := by linarith [two_zpow_pos (K := K) k]
      rw [abs_mul, abs_of_pos hpos] at h1
      have h2 : |(q : K)| < 2 ^ p + 1 := lt_of_mul_lt_mul_right h1 hpos.le
      have h3 : |q| < 2 ^ p + 1 := by exact_mod_cast h2
      have h4 : |q| ≤ 2 ^ p := by omega
      rw [abs_mul, abs_two_zpow]
      exact mul_le_mul_of_nonneg_right (by exact_mod_cast h4) (two_zpow_pos _).le
    have := (h z).2 _ hqf
    rw [zpow_add_one₀ (by norm_num)] at this
    refine le_trans this (le_trans hq ?_)
    rw [inv_mul_eq_div, le_div_iff₀ (by positivity)]
    linarith

/-- A nearest rounding exists. -/
theorem exists_nearest [FloorRing K] (hp : 1 ≤ p) (emin : ℤ) : ∃ rd : K → K, Nearest p emin rd := by
  refine ⟨fun z => (round (z / 2 ^ (max emin (Int.log 2 |z| + 1 - p))) : K) * 2 ^ (max emin (Int.log 2 |z| + 1 - p)), ?_⟩
  intro z
  set e := max emin (Int.log 2 |z| + 1 - p) with he
  have hpos := two_zpow_pos (K := K) e
  have near : ∀ n : ℤ, |(round (z / 2 ^ e) : K) * 2 ^ e - z| ≤ |(n : K) * 2 ^ e - z| := by
    intro n
    have h1 := round_le (z / 2 ^ e) n
    have h2 : ∀ m : ℤ, |(m : K) * 2 ^ e - z| = |z / 2 ^ e - m| * 2 ^ e := by
      intro m
      rw [← abs_of_pos hpos, ← abs_mul, abs_of_pos hpos, sub_mul, div_mul_cancel₀ _ hpos.ne', abs_sub_comm]
    rw [h2, h2]
    exact mul_le_mul_of_nonneg_right h1 hpos.le
  constructor
  · apply isFloat_of_grid hp (le_max_left _ _) ⟨_, rfl⟩
    rcases eq_or_ne z 0 with rfl | hz
    · simp only [zero_div, round_zero, Int.cast_zero, zero_mul, abs_zero]; positivity
    · have hz0 : 0 < |z| := abs_pos.2 hz
      have hlt : |z| < (2 : K) ^ (Int.log 2 |z| + 1) := by exact_mod_cast Int.lt_zpow_succ_log_self (b := 2) (by norm_num) |z|
      have hle : (2 : K) ^ (Int.log 2 |z| + 1) ≤ 2 ^ p * 2 ^ e := by
        rw [pow_zpow]; exact zpow_le_zpow_right₀ (by norm_num) (by omega)
      rw [abs_mul, abs_of_pos hpos]
      apply mul_le_mul_of_nonneg_right _ hpos.le
      have hq : |z / 2 ^ e| < 2 ^ p := by
        rw [abs_div, abs_of_pos hpos, div_lt_iff₀ hpos]; linarith
      rw [abs_lt] at hq
      have har := abs_le.1 (abs_sub_round (z / 2 ^ e))
      have h1 : round (z / 2 ^ e) ≤ 2 ^ p := by
        have h : ((round (z / 2 ^ e) : ℤ) : K) < ((2 ^ p + 1 : ℤ) : K) := by push_cast; linarith [har.1]
        have := Int.cast_lt.1 h
        omega
      have h2 : -2 ^ p ≤ round (z / 2 ^ e) := by
        have h : ((-2 ^ p - 1 : ℤ) : K) < ((round (z / 2 ^ e) : ℤ) : K) := by push_cast; linarith [har.2]
        have := Int.cast_lt.1 h
        omega
      have h3 : |round (z / 2 ^ e)| ≤ 2 ^ p := abs_le.2 ⟨h2, h1⟩
      exact_mod_cast h3
  · intro y hy
    by_cases hg : OnGrid e y
    · obtain ⟨n, rfl⟩ := hg
      exact near n
    · -- `y` has a finer exponent, so a power of two on the grid lies between `y` and `z`
      obtain ⟨m, e', hm, he', rfl⟩ := hy
      have hlt : e' < e := by
        by_contra hc
        exact hg (OnGrid.mono (not_lt.1 hc) ⟨m, rfl⟩)
      have hee : e = Int.log 2 |z| + 1 - p := by
        rcases max_choice emin (Int.log 2 |z| + 1 - p) with c | c
        · omega
        · rw [he, c]
      have hz : z ≠ 0 ∨ z = 0 := ne_or_eq z 0
      have hyb : |(m : K) * 2 ^ e'| ≤ 2 ^ ((p : ℤ) + e - 1) := by
        rw [abs_mul, abs_two_zpow]
        have h1 : |(m : K)| ≤ 2 ^ p := by exact_mod_cast hm.le
        calc |(m : K)| * 2 ^ e' ≤ 2 ^ p * 2 ^ e' := mul_le_mul_of_nonneg_right h1 (two_zpow_pos e').le
          _ = 2 ^ ((p : ℤ) + e') := pow_zpow p e'
          _ ≤ _ := zpow_le_zpow_right₀ (by norm_num) (by omega)
      have hgrid : OnGrid e ((2 : K) ^ ((p : ℤ) + e - 1)) := by
        apply OnGrid.mono (k := (p : ℤ) + e - 1) (by omega)
        exact ⟨1, by simp⟩
      rcases hz with hz | hz
      · have hzb : (2 : K) ^ ((p : ℤ) + e - 1) ≤ |z| := by
          have := Int.zpow_log_le_self (R := K) (b := 2) (by norm_num) (abs_pos.2 hz)
          rw [show (p : ℤ) + e - 1 = Int.log 2 |z| by omega]
          exact_mod_cast this
        rw [abs_le] at hyb
        rcases le_total 0 z with c | c
        · obtain ⟨n, hn⟩ := hgrid
          refine le_trans (near n) ?_
          rw [← hn]
          rw [abs_of_nonneg c] at hzb
          rw [abs_of_nonpos (by linarith), abs_of_nonpos (by linarith)]
          linarith
        · obtain ⟨n, hn⟩ := hgrid.neg
          refine le_trans (near n) ?_
          rw [← hn]
          rw [abs_of_nonpos c] at hzb
          rw [abs_of_nonneg (by linarith), abs_of_nonneg (by linarith)]
          linarith
      · refine le_trans (near 0) ?_
        subst hz
        simp only [Int.cast_zero, zero_mul, sub_self, abs_zero]
        exact abs_nonneg _

end Ufunclab.Float
