import Verif.Model.AbsSqRound
import Verif.Proof.Overflow
import Verif.Proof.ScaleExists
import Verif.Proof.FloatRatio
import Verif.Props.Elementary
/-!
# C109: abs_squared and abssq in floating point
-/
namespace Ufunclab.Elementary
open Ufunclab.Float
variable {p : ℕ} {emin : ℤ} {rd : ℝ → ℝ} {Ω : ℝ}

theorem sq_nonneg_round (h : Nearest p emin rd) (x : ℝ) : 0 ≤ rd (x * x) := by
  have := h.monotone (mul_self_nonneg x)
  rwa [h.round_zero] at this

/-- C109: the result for a real argument is the square, correctly rounded. -/
theorem C109_real (x : Fl rd) : (absSq x).val = rd (x.val * x.val) := rfl

/-- C109: the error for a complex argument. -/
theorem C109_error (h : Nearest p emin rd) (hp : 1 ≤ p) (x y : Fl rd) :
    |(absSqC x y).val - (x.val * x.val + y.val * y.val)| ≤
      (2 * (2 ^ p)⁻¹ + (2 ^ p)⁻¹ * (2 ^ p)⁻¹) * (x.val * x.val + y.val * y.val) + (1 + (2 ^ p)⁻¹) * 2 ^ emin := by
  obtain ⟨x⟩ := x; obtain ⟨y⟩ := y
  show |rd (rd (x * x) + rd (y * y)) - (x * x + y * y)| ≤ _
  have hu : (0 : ℝ) < (2 ^ p)⁻¹ := by positivity
  have hη : (0 : ℝ) < 2 ^ emin := two_zpow_pos emin
  have ex := h.error hp (x * x)
  have ey := h.error hp (y * y)
  have xn := mul_self_nonneg x
  have yn := mul_self_nonneg y
  rw [abs_of_nonneg xn] at ex
  rw [abs_of_nonneg yn] at ey
  have es := h.rel_error hp ((h (x * x)).1.grid.add (h (y * y)).1.grid)
  have an := sq_nonneg_round h x
  have bn := sq_nonneg_round h y
  rw [abs_of_nonneg (add_nonneg an bn)] at es
  simp only
  generalize rd (x * x) = a at *
  generalize rd (y * y) = b at *
  generalize rd (a + b) = c at *
  generalize ((2 : ℝ) ^ p)⁻¹ = u at *
  generalize (2 : ℝ) ^ emin = η at *
  generalize x * x = X at *
  generalize y * y = Y at *
  rw [abs_le] at ex ey es ⊢
  obtain ⟨ex1, ex2⟩ := ex
  obtain ⟨ey1, ey2⟩ := ey
  obtain ⟨es1, es2⟩ := es
  have k : u * (a + b) ≤ u * (X + Y + u * (X + Y) + η) := mul_le_mul_of_nonneg_left (by linarith) hu.le
  constructor <;> linarith

/-- C109: the result is not negative, it is 0 exactly if both squares are rounded to 0, and positive if a part is at least
the root of the least positive number. -/
theorem C109_sign (h : Nearest p emin rd) (hp : 1 ≤ p) (x y : Fl rd) :
    0 ≤ (absSqC x y).val ∧ ((absSqC x y).val = 0 ↔ rd (x.val * x.val) = 0 ∧ rd (y.val * y.val) = 0) ∧
    (2 ^ emin ≤ x.val * x.val ∨ 2 ^ emin ≤ y.val * y.val → 0 < (absSqC x y).val) := by
  obtain ⟨x⟩ := x; obtain ⟨y⟩ := y
  have an := sq_nonneg_round h x
  have bn := sq_nonneg_round h y
  have fa := (h (x * x)).1
  have fb := (h (y * y)).1
  have pos : ∀ v : ℝ, 2 ^ emin ≤ v → 0 < rd v := fun v hv =>
    lt_of_lt_of_le (two_zpow_pos emin) (h.mono_float (isFloat_zpow hp le_rfl) hv)
  have key : 0 < rd (x * x) + rd (y * y) → 0 < rd (rd (x * x) + rd (y * y)) := by
    intro hs
    refine pos _ ?_
    obtain ⟨m, hm⟩ := fa.grid.add fb.grid
    rw [hm] at hs ⊢
    have h1 : (0 : ℝ) < m := by
      by_contra hc
      have := mul_nonpos_of_nonpos_of_nonneg (not_lt.1 hc) (two_zpow_pos (K := ℝ) emin).le
      linarith
    have h2 : (1 : ℝ) ≤ m := by exact_mod_cast Int.add_one_le_iff.2 (by exact_mod_cast h1 : 0 < m)
    have := mul_le_mul_of_nonneg_right h2 (two_zpow_pos (K := ℝ) emin).le
    linarith
  have e0 : (absSqC (⟨x⟩ : Fl rd) ⟨y⟩).val = rd (rd (x * x) + rd (y * y)) := rfl
  rw [e0]
  refine ⟨?_, ?_, ?_⟩
  · have := h.monotone (add_nonneg an bn)
    rwa [h.round_zero] at this
  · constructor
    · intro hz
      have : rd (x * x) + rd (y * y) ≤ 0 := by
        by_contra hc
        exact absurd hz (key (not_le.1 hc)).ne'
      exact ⟨by show rd (x * x) = 0; linarith, by show rd (y * y) = 0; linarith⟩
    · rintro ⟨h1, h2⟩
      simp only at h1 h2
      rw [h1, h2, add_zero, h.round_zero]
  · rintro (hv | hv)
    · exact key (by have := pos _ hv; linarith)
    · exact key (by have := pos _ hv; linarith)

/-- C109: conjugation, change of sign, exchange of the parts (multiplication by i) do not change any bit, and a complex number with
imaginary part 0 gives the same as the real number. -/
theorem C109_symmetry (h : Nearest p emin rd) (x y : ℝ) :
    absSqC (⟨x⟩ : Fl rd) ⟨-y⟩ = absSqC ⟨x⟩ ⟨y⟩ ∧ absSqC (⟨-x⟩ : Fl rd) ⟨y⟩ = absSqC ⟨x⟩ ⟨y⟩ ∧ absSqC (⟨y⟩ : Fl rd) ⟨x⟩ = absSqC ⟨x⟩ ⟨y⟩ ∧
    absSqC (⟨x⟩ : Fl rd) ⟨0⟩ = absSq ⟨x⟩ := by
  refine ⟨?_, ?_, ?_, ?_⟩
  · show (⟨rd (rd (x * x) + rd (-y * -y))⟩ : Fl rd) = ⟨rd (rd (x * x) + rd (y * y))⟩
    rw [neg_mul_neg]
  · show (⟨rd (rd (-x * -x) + rd (y * y))⟩ : Fl rd) = ⟨rd (rd (x * x) + rd (y * y))⟩
    rw [neg_mul_neg]
  · show (⟨rd (rd (y * y) + rd (x * x))⟩ : Fl rd) = ⟨rd (rd (x * x) + rd (y * y))⟩
    rw [add_comm]
  · show (⟨rd (rd (x * x) + rd (0 * 0))⟩ : Fl rd) = ⟨rd (x * x)⟩
    rw [mul_zero, h.round_zero, add_zero, h.exact (h (x * x)).1]

/-- C109: the result is nondecreasing in the absolute values of the parts. -/
theorem C109_monotone (h : Nearest p emin rd) (x y x' y' : Fl rd) (hx : |x.val| ≤ |x'.val|) (hy : |y.val| ≤ |y'.val|) :
    (absSqC x y).val ≤ (absSqC x' y').val := by
  have sq : ∀ a b : ℝ, |a| ≤ |b| → a * a ≤ b * b := by
    intro a b hab
    have := mul_self_le_mul_self (abs_nonneg a) hab
    rwa [abs_mul_abs_self, abs_mul_abs_self] at this
  exact h.monotone (add_le_add (h.monotone (sq _ _ hx)) (h.monotone (sq _ _ hy)))

/-- C109: Gaussian integers of absolute value at most `2^(p/2)` give the exact result. -/
theorem C109_integers (h : Nearest p emin rd) (hp : 1 ≤ p) (he : emin ≤ 0) (a b : ℤ) (hab : a * a + b * b ≤ 2 ^ p) :
    (absSqC (⟨a⟩ : Fl rd) ⟨b⟩).val = ((a * a + b * b : ℤ) : ℝ) := by
  have fl : ∀ n : ℤ, 0 ≤ n → n ≤ 2 ^ p → rd (n : ℝ) = n := by
    intro n h0 hn
    apply h.exact
    refine isFloat_of_grid hp he ⟨n, by simp⟩ ?_
    rw [abs_of_nonneg (by exact_mod_cast h0), zpow_zero, mul_one]
    exact_mod_cast hn
  have an := mul_self_nonneg a
  have bn := mul_self_nonneg b
  show rd (rd ((a : ℝ) * a) + rd ((b : ℝ) * b)) = _
  have e1 := fl (a * a) an (by linarith)
  have e2 := fl (b * b) bn (by linarith)
  have e3 := fl (a * a + b * b) (by linarith) hab
  push_cast at *
  rw [e1, e2, e3]

/-- C109: with overflow.  While the squared absolute value, increased by its rounding error, is in range, the result is the
one without overflow; a part whose square is beyond the range gives `+inf`; the result is NaN only for a NaN argument. -/
theorem C109_in_range (h : Nearest p emin rd) (hp : 1 ≤ p) (hΩ : IsFloat p emin Ω) (x y : ℝ)
    (hr : (1 + (2 ^ p)⁻¹) * (x * x + y * y) + 2 ^ emin ≤ Ω) :
    (absSqC (⟨.fin x⟩ : Fo rd Ω) ⟨.fin y⟩).val = .fin (absSqC (⟨x⟩ : Fl rd) ⟨y⟩).val := by
  have hu : (0 : ℝ) < (2 ^ p)⁻¹ := by positivity
  have hη : (0 : ℝ) < 2 ^ emin := two_zpow_pos emin
  have xn := mul_self_nonneg x
  have yn := mul_self_nonneg y
  have ex := h.error hp (x * x)
  have ey := h.error hp (y * y)
  rw [abs_of_nonneg xn, abs_le] at ex
  rw [abs_of_nonneg yn, abs_le] at ey
  have an := sq_nonneg_round h x
  have bn := sq_nonneg_round h y
  have ux := mul_nonneg hu.le xn
  have uy := mul_nonneg hu.le yn
  have e1 : ov rd Ω (.fin (x * x)) = .fin (rd (x * x)) := ov_fin (by rw [abs_of_nonneg an]; linarith)
  have e2 : ov rd Ω (.fin (y * y)) = .fin (rd (y * y)) := ov_fin (by rw [abs_of_nonneg bn]; linarith)
  have e3 : ov rd Ω (.fin (rd (x * x) + rd (y * y))) = .fin (rd (rd (x * x) + rd (y * y))) :=
    ov_le h hΩ (by rw [abs_of_nonneg (by linarith)]; linarith)
  show ov rd Ω (XF.add (ov rd Ω (.fin (x * x))) (ov rd Ω (.fin (y * y)))) = _
  rw [e1, e2]
  exact e3

theorem C109_overflow (h : Nearest p emin rd) (hp : 1 ≤ p) (h0 : 0 ≤ Ω) (k : ℤ) (hk : emin ≤ k) (hΩ : Ω < 2 ^ k) (x y : ℝ)
    (hb : 2 ^ k ≤ x * x ∨ 2 ^ k ≤ y * y) : (absSqC (⟨.fin x⟩ : Fo rd Ω) ⟨.fin y⟩).val = .pinf := by
  have nn : ∀ v : ℝ, ov rd Ω (.fin (v * v)) = .pinf ∨ ∃ w, ov rd Ω (.fin (v * v)) = .fin w := by
    intro v
    have := sq_nonneg_round h v
    simp only [ov]
    split_ifs with c1 c2
    · exact Or.inl rfl
    · exfalso; linarith
    · exact Or.inr ⟨_, rfl⟩
  show ov rd Ω (XF.add (ov rd Ω (.fin (x * x))) (ov rd Ω (.fin (y * y)))) = .pinf
  rcases hb with hb | hb
  · rw [ov_pos h hp hk hΩ hb]
    rcases nn y with e | ⟨w, e⟩ <;> rw [e] <;> rfl
  · rw [ov_pos h hp hk hΩ hb]
    rcases nn x with e | ⟨w, e⟩ <;> rw [e] <;> rfl

theorem C109_nan (h : Nearest p emin rd) (h0 : 0 ≤ Ω) (x y : Fo rd Ω) :
    (absSqC x y).val = .nan ↔ x.val = .nan ∨ y.val = .nan := by
  have nn : ∀ v : Fo rd Ω, v.val ≠ .nan → ov rd Ω (XF.mul v.val v.val) = .pinf ∨ ∃ w, ov rd Ω (XF.mul v.val v.val) = .fin w := by
    rintro ⟨v⟩ hv
    cases v with
    | nan => exact absurd rfl hv
    | ninf => exact Or.inl rfl
    | pinf => exact Or.inl rfl
    | fin v =>
      have := sq_nonneg_round h v
      simp only [XF.mul, ov]
      split_ifs with c1 c2
      · exact Or.inl rfl
      · exfalso; linarith
      · exact Or.inr ⟨_, rfl⟩
  have hn : ∀ z : XF ℝ, ov rd Ω z = .nan ↔ z = .nan := by
    intro z
    have := ov_isnan (rd := rd) (Ω := Ω) z
    rw [← XF.isnan_iff, ← XF.isnan_iff, this]
  show ov rd Ω (XF.add (ov rd Ω (XF.mul x.val x.val)) (ov rd Ω (XF.mul y.val y.val))) = .nan ↔ _
  rw [hn]
  constructor
  · intro he
    by_contra hc
    rw [not_or] at hc
    rcases nn x hc.1 with e1 | ⟨v, e1⟩ <;> rcases nn y hc.2 with e2 | ⟨w, e2⟩ <;> rw [e1, e2] at he <;> simp [XF.add] at he
  · rintro (e | e)
    · rw [e]; rfl
    · rw [e]
      cases hx : ov rd Ω (XF.mul x.val x.val) <;> rfl

/-- C109: "the result is 0 only for 0" is false: `abs_squared(2**-540)` underflows to 0 in double. -/
theorem C109_zero_violated (h : Nearest 53 (-1074) rd) :
    absSq (⟨2 ^ (-540 : ℤ)⟩ : Fl rd) = ⟨0⟩ ∧ absSqC (⟨2 ^ (-540 : ℤ)⟩ : Fl rd) ⟨2 ^ (-540 : ℤ)⟩ = ⟨0⟩ := by
  have e : rd (2 ^ (-540 : ℤ) * 2 ^ (-540 : ℤ)) = 0 := by
    rw [← zpow_add₀ two_ne_zero]
    by_contra hc
    have h1 := (h ((2 : ℝ) ^ (-540 + -540 : ℤ))).2 0 isFloat_zero
    obtain ⟨m, hm⟩ := (h ((2 : ℝ) ^ (-540 + -540 : ℤ))).1.grid
    rw [hm] at h1 hc
    have hη := two_zpow_pos (K := ℝ) (-1074)
    have hm0 : m ≠ 0 := by rintro rfl; simp at hc
    have h2 : (1 : ℝ) ≤ |(m : ℝ)| := by exact_mod_cast Int.one_le_abs hm0
    have h3 : (2 : ℝ) ^ (-540 + -540 : ℤ) = 2 ^ (-1074 : ℤ) / 64 := by
      rw [show (-540 + -540 : ℤ) = -1074 + -6 by norm_num, zpow_add₀ two_ne_zero, div_eq_mul_inv]
      congr 1
      norm_num
    rw [h3, zero_sub, abs_neg, abs_of_pos (by positivity : (0:ℝ) < 2 ^ (-1074 : ℤ) / 64)] at h1
    have h4 := abs_sub_abs_le_abs_sub ((m : ℝ) * 2 ^ (-1074 : ℤ)) (2 ^ (-1074 : ℤ) / 64)
    rw [abs_mul, abs_of_pos hη, abs_of_pos (by positivity : (0:ℝ) < 2 ^ (-1074 : ℤ) / 64)] at h4
    have h5 := mul_le_mul_of_nonneg_right h2 hη.le
    linarith
  refine ⟨?_, ?_⟩
  · show (⟨rd (2 ^ (-540 : ℤ) * 2 ^ (-540 : ℤ))⟩ : Fl rd) = _
    rw [e]
  · show (⟨rd (rd (2 ^ (-540 : ℤ) * 2 ^ (-540 : ℤ)) + rd (2 ^ (-540 : ℤ) * 2 ^ (-540 : ℤ)))⟩ : Fl rd) = _
    rw [e, add_zero, h.round_zero]

/-- C109: `abssq` computes the same bits as `abs_squared`, contiguous or not. -/
theorem C109_abssq_same (sz : Int) (n : Nat) (pin is pout os : Int) (m : Mem (Fl rd)) (hos : os ≠ 0)
    (h : ∀ i j, i < j → j < n → pout + (i : Int) * os ≠ pin + (j : Int) * is ∧ pout + (i : Int) * os ≠ pin + sz + (j : Int) * is) :
    elems (abssqComplex sz n pin is pout os m) pout os n = List.zipWith absSqC (elems m pin is n) (elems m (pin + sz) is n) ∧
    elems (abssqReal sz n pin is pout os m) pout os n = (elems m pin is n).map absSq :=
  ⟨(C67_abssq_complex sz n pin is pout os m hos h).1, (C67_abssq_real sz n pin is pout os m hos (fun i j hi hj => (h i j hi hj).1)).1⟩

/-- Double precision: `|3 + 4i|^2` is 25, and `10^154 + 10^154 i` is in range while `2^512` is not. -/
example : ∃ rd : ℝ → ℝ, Nearest 53 (-1074) rd ∧ (absSqC (⟨3⟩ : Fl rd) ⟨4⟩).val = 25 ∧
    (∃ v, (absSqC (⟨.fin (2 ^ (511 : ℤ))⟩ : Fo rd maxDouble) ⟨.fin (2 ^ (511 : ℤ))⟩).val = .fin v) ∧
    (absSqC (⟨.fin (2 ^ (512 : ℤ))⟩ : Fo rd maxDouble) ⟨.fin 0⟩).val = .pinf := by
  obtain ⟨rd, h⟩ := exists_nearest (K := ℝ) (p := 53) (by norm_num) (-1074)
  refine ⟨rd, h, ?_, ?_, ?_⟩
  · have := C109_integers h (by norm_num) (by norm_num) 3 4 (by norm_num)
    norm_num at this
    exact this
  · refine ⟨_, C109_in_range h (by norm_num) isFloat_maxDouble _ _ ?_⟩
    rw [← zpow_add₀ two_ne_zero]
    have h2 : (2 : ℝ) ^ (-1074 : ℤ) ≤ 1 := zpow_le_one_of_nonpos₀ (by norm_num) (by norm_num)
    have h4 : maxDouble = (2 ^ 53 - 1) * 2 ^ (971 : ℤ) := rfl
    have h5 : (2 : ℝ) ^ (511 + 511 : ℤ) = 2 ^ 51 * 2 ^ (971 : ℤ) := by
      rw [show (511 + 511 : ℤ) = 51 + 971 by norm_num, zpow_add₀ two_ne_zero]; norm_num
    have h6 : (1 : ℝ) ≤ 2 ^ (971 : ℤ) := one_le_zpow₀ (by norm_num) (by norm_num)
    rw [h4, h5]
    clear h4 h5
    generalize (2 : ℝ) ^ (971 : ℤ) = A at *
    generalize (2 : ℝ) ^ (-1074 : ℤ) = B at *
    norm_num
    linarith
  · refine C109_overflow h (by norm_num) (le_trans (by positivity) maxDouble_ge) 1024 (by norm_num) maxDouble_lt _ _ (Or.inl ?_)
    rw [← zpow_add₀ two_ne_zero]; norm_num

end Ufunclab.Elementary
