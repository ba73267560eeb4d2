import Verif.Proof.ErfcxOverflow
/-!
# C74: `erfcx` returns `exp(x²) erfc(x)`, accurately and up to the overflow threshold

`erfcxVal` is defined by an integral in Verif/Spec/Erfcx.lean.  `rd` is any rounding to nearest of
the type (24, 53 or 64 significand bits), `ex` the `exp` of the C library.  The theorems about
accuracy hold for every real argument, in particular for every float.
-/
namespace Ufunclab.Erfcx
open Ufunclab.Float

variable {rd ex : ℝ → ℝ} {x ε : ℝ}

/-! ## Positive arguments -/

/-- C74: for a positive argument the error of the `float` function is at most `17 · 2⁻²⁴` relative,
plus half of the least subnormal. -/
theorem C74_positive_float (h : Nearest 24 (-149) rd) (hx : 0 < x) :
    ∃ r, erfcx rd ex floatV (.fin x) = .fin r ∧ |r - erfcxVal x| ≤ 17 / 2 ^ 24 * erfcxVal x + 2 ^ (-149 : ℤ) / 2 :=
  pos_err setup_float h ex hx

/-- C74, `double`: `17 · 2⁻⁵³`. -/
theorem C74_positive_double (h : Nearest 53 (-1074) rd) (hx : 0 < x) :
    ∃ r, erfcx rd ex doubleV (.fin x) = .fin r ∧ |r - erfcxVal x| ≤ 17 / 2 ^ 53 * erfcxVal x + 2 ^ (-1074 : ℤ) / 2 :=
  pos_err setup_double h ex hx

/-- C74, `long double`: `17 · 2⁻⁶⁴`. -/
theorem C74_positive_longDouble (h : Nearest 64 (-16445) rd) (hx : 0 < x) :
    ∃ r, erfcx rd ex longDoubleV (.fin x) = .fin r ∧ |r - erfcxVal x| ≤ 17 / 2 ^ 64 * erfcxVal x + 2 ^ (-16445 : ℤ) / 2 :=
  pos_err setup_longDouble h ex hx

/-! ## Arguments that are not positive

The rounding of `x*x` is magnified by the exponential: the relative error grows with `x²`. -/

/-- C74: where the result is not infinite, the relative error of the `float` function is at most
`(2.01 x² + 20) · 2⁻²⁴` and 2.01 times that of `exp`. -/
theorem C74_negative_float (h : Nearest 24 (-149) rd) (hex : ExpAcc ε ex) (h0 : 0 ≤ ε) (h1 : ε ≤ 1 / 1000) (hx : x ≤ 0)
    (hf : erfcx rd ex floatV (.fin x) ≠ .pinf) :
    ∃ r, erfcx rd ex floatV (.fin x) = .fin r ∧
      |r - erfcxVal x| ≤ (2.01 * x ^ 2 / 2 ^ 24 + 2.01 * ε + 20 / 2 ^ 24) * erfcxVal x :=
  neg_err setup_float h hex h0 h1 hx (not_lt.mp (mt (finite_pinf (over_float.lower_neg h)).mpr hf))

theorem C74_negative_double (h : Nearest 53 (-1074) rd) (hex : ExpAcc ε ex) (h0 : 0 ≤ ε) (h1 : ε ≤ 1 / 1000) (hx : x ≤ 0)
    (hf : erfcx rd ex doubleV (.fin x) ≠ .pinf) :
    ∃ r, erfcx rd ex doubleV (.fin x) = .fin r ∧
      |r - erfcxVal x| ≤ (2.01 * x ^ 2 / 2 ^ 53 + 2.01 * ε + 20 / 2 ^ 53) * erfcxVal x :=
  neg_err setup_double h hex h0 h1 hx (not_lt.mp (mt (finite_pinf (over_double.lower_neg h)).mpr hf))

theorem C74_negative_longDouble (h : Nearest 64 (-16445) rd) (hex : ExpAcc ε ex) (h0 : 0 ≤ ε) (h1 : ε ≤ 1 / 1000) (hx : x ≤ 0)
    (hf : erfcx rd ex longDoubleV (.fin x) ≠ .pinf) :
    ∃ r, erfcx rd ex longDoubleV (.fin x) = .fin r ∧
      |r - erfcxVal x| ≤ (2.01 * x ^ 2 / 2 ^ 64 + 2.01 * ε + 20 / 2 ^ 64) * erfcxVal x :=
  neg_err setup_longDouble h hex h0 h1 hx (not_lt.mp (mt (finite_pinf (over_longDouble.lower_neg h)).mpr hf))

/-! ## Overflow -/

/-- C74: `erfcx(long double)` returns infinity exactly where the true value exceeds the largest
`long double`. -/
theorem C74_overflow_longDouble (h : Nearest 64 (-16445) rd) (hx : IsFloat 64 (-16445) x) :
    erfcx rd ex longDoubleV (.fin x) = .pinf ↔ maxFinite 64 16384 < erfcxVal x :=
  over_longDouble.pinf_iff h hx (by have := hover_longDouble; push_cast at this ⊢; exact this)

/-- The same does not hold for `double`: at `-7495322764862414 · 2⁻⁴⁸ ≈ -26.62873571375149` the true
value is finite, but the result is infinite. -/
theorem C74_overflow_double_violated (h : Nearest 53 (-1074) rd) :
    ∃ x : ℝ, IsFloat 53 (-1074) x ∧ erfcxVal x ≤ maxFinite 53 1024 ∧ erfcx rd ex doubleV (.fin x) = .pinf := by
  have hx : IsFloat (K := ℝ) 53 (-1074) ((-(7495322764862414 : ℤ) : ℝ) * 2 ^ (-48 : ℤ)) :=
    ⟨-7495322764862414, -48, by norm_num, by norm_num, by push_cast; ring⟩
  refine ⟨_, hx, le_maxFinite (by norm_num) finite_at_double, ?_⟩
  exact (over_double.pinf_iff' h hx (by have := hover_double; push_cast at this ⊢; exact this)).mpr (Or.inr (by norm_num))

/-- Nor for `float`, at `-9838174 · 2⁻²⁰ ≈ -9.382414`. -/
theorem C74_overflow_float_violated (h : Nearest 24 (-149) rd) :
    ∃ x : ℝ, IsFloat 24 (-149) x ∧ erfcxVal x ≤ maxFinite 24 128 ∧ erfcx rd ex floatV (.fin x) = .pinf := by
  have hx : IsFloat (K := ℝ) 24 (-149) ((-(9838174 : ℤ) : ℝ) * 2 ^ (-20 : ℤ)) :=
    ⟨-9838174, -20, by norm_num, by norm_num, by push_cast; ring⟩
  refine ⟨_, hx, le_maxFinite (by norm_num) finite_at_float, ?_⟩
  exact (over_float.pinf_iff' h hx (by have := hover_float; push_cast at this ⊢; exact this)).mpr (Or.inr (by norm_num))

/-- That one `double` is the only exception. -/
theorem C74_overflow_double_partial (h : Nearest 53 (-1074) rd) (hx : IsFloat 53 (-1074) x) :
    erfcx rd ex doubleV (.fin x) = .pinf ↔ maxFinite 53 1024 < erfcxVal x ∨ x = -7495322764862414 * 2 ^ (-48 : ℤ) := by
  have := over_double.pinf_iff' (ex := ex) h hx (by have := hover_double; push_cast at this ⊢; exact this)
  push_cast at this
  norm_num at this ⊢
  exact this

/-- That one `float` is the only exception. -/
theorem C74_overflow_float_partial (h : Nearest 24 (-149) rd) (hx : IsFloat 24 (-149) x) :
    erfcx rd ex floatV (.fin x) = .pinf ↔ maxFinite 24 128 < erfcxVal x ∨ x = -9838174 * 2 ^ (-20 : ℤ) := by
  have := over_float.pinf_iff' (ex := ex) h hx (by have := hover_float; push_cast at this ⊢; exact this)
  push_cast at this
  norm_num at this ⊢
  exact this

/-- C74: with an `exp` that is accurate to `2⁻²³`, a result that is not the explicit infinity does
not overflow either: twice the exponential, and the result, are within the range of `float`. -/
theorem C74_no_overflow_float (h : Nearest 24 (-149) rd) (hex : ExpAcc ε ex) (hε : ε ≤ 2 / 2 ^ 24) (hx : x ≤ 0)
    (hf : erfcx rd ex floatV (.fin x) ≠ .pinf) :
    2 * ex (rd (x * x)) ≤ maxFinite 24 128 ∧ ∃ r, erfcx rd ex floatV (.fin x) = .fin r ∧ r ≤ maxFinite 24 128 :=
  no_overflow setup_float over_float sq_float h hex hε hx (not_lt.mp (mt (finite_pinf (over_float.lower_neg h)).mpr hf))

theorem C74_no_overflow_double (h : Nearest 53 (-1074) rd) (hex : ExpAcc ε ex) (hε : ε ≤ 2 / 2 ^ 53) (hx : x ≤ 0)
    (hf : erfcx rd ex doubleV (.fin x) ≠ .pinf) :
    2 * ex (rd (x * x)) ≤ maxFinite 53 1024 ∧ ∃ r, erfcx rd ex doubleV (.fin x) = .fin r ∧ r ≤ maxFinite 53 1024 :=
  no_overflow setup_double over_double sq_double h hex hε hx (not_lt.mp (mt (finite_pinf (over_double.lower_neg h)).mpr hf))

theorem C74_no_overflow_longDouble (h : Nearest 64 (-16445) rd) (hex : ExpAcc ε ex) (hε : ε ≤ 2 / 2 ^ 64) (hx : x ≤ 0)
    (hf : erfcx rd ex longDoubleV (.fin x) ≠ .pinf) :
    2 * ex (rd (x * x)) ≤ maxFinite 64 16384 ∧
      ∃ r, erfcx rd ex longDoubleV (.fin x) = .fin r ∧ r ≤ maxFinite 64 16384 :=
  no_overflow setup_longDouble over_longDouble sq_longDouble h hex hε hx
    (not_lt.mp (mt (finite_pinf (over_longDouble.lower_neg h)).mpr hf))

/-! ## Special values -/

/-- C74: NaN gives NaN, `-inf` gives `+inf` and `+inf` gives 0, whatever the type. -/
theorem C74_special (v : Variant) :
    erfcx rd ex v .nan = .nan ∧ erfcx rd ex v .ninf = .pinf ∧ erfcx rd ex v .pinf = .fin 0 :=
  ⟨rfl, rfl, rfl⟩

/-! ## The hypotheses can be met -/

/-- Roundings to nearest exist, the exact `exp` is accurate, and `-1` lies in the finite range. -/
example : ∃ rd : ℝ → ℝ, Nearest 53 (-1074) rd ∧ ExpAcc 0 Real.exp ∧ erfcx rd Real.exp doubleV (.fin (-1)) ≠ .pinf := by
  obtain ⟨rd, h⟩ := exists_nearest (K := ℝ) (p := 53) (by norm_num) (-1074)
  refine ⟨rd, h, fun z => by simp, ?_⟩
  intro hc
  have hc' : finite rd Real.exp doubleV (-1) = .pinf := hc
  rw [finite_pinf (over_double.lower_neg h), over_double.rd_lower h] at hc'
  norm_num at hc'

/-- An argument that overflows: `-30`. -/
example (h : Nearest 53 (-1074) rd) : erfcx rd ex doubleV (.fin (-30)) = .pinf := by
  show finite rd ex doubleV (-30) = .pinf
  rw [finite_pinf (over_double.lower_neg h), over_double.rd_lower h]
  norm_num

end Ufunclab.Erfcx
