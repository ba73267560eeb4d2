import Verif.Model.Expint
/-!
# Model of src/expint1/expint1.h, with rounding

`rT` is the rounding of the type `T`, `rL` that of `long double`; `lg`, `ex`, `l1` are the library functions
`log`, `exp` and `log1p` of `T`.  The constant `EULER` is a `long double`, so the two sums of the last statement of
`expint1_01` are computed in `long double` and the result is converted to `T`.  Negation is exact; the conversion
to `int` truncates.  Finite arguments only (NaN and infinity are in Verif/Model/Expint.lean); overflow and excess
precision are not modelled.
-/
namespace Ufunclab.Expint

/-- The loop of `expint1_01`, lines 15-21, with its early exit: `n` iterations are left, `k` is the loop variable. -/
noncomputable def loop01R (rT : ℝ → ℝ) (x : ℝ) : (n k : Nat) → (r e1 : ℝ) → ℝ
  | 0, _, _, e1 => e1
  | n + 1, k, r, e1 =>
    let r' := rT (rT (rT (-r * (k : ℝ)) * x) / (((k + 1) * (k + 1) : ℕ) : ℝ))
    if rT (e1 + r') = e1 then e1 else loop01R rT x n (k + 1) r' (rT (e1 + r'))

/-- `expint1_01`, lines 10-24. -/
noncomputable def expint01R (rT rL lg : ℝ → ℝ) (x : ℝ) : ℝ :=
  rT (rL (rL (-rL euler - lg x) + rT (x * loop01R rT x 25 1 1 1)))

/-- The loop of `expint1_t`, lines 60-62: from `k` down to 1. -/
noncomputable def cfR (rT : ℝ → ℝ) (x : ℝ) : (k : Nat) → (t0 : ℝ) → ℝ
  | 0, t0 => t0
  | k + 1, t0 => cfR rT x k (rT (((k + 1 : ℕ) : ℝ) / rT (1 + rT (((k + 1 : ℕ) : ℝ) / rT (x + t0)))))

/-- The number of terms, line 58. -/
noncomputable def termsR (rT : ℝ → ℝ) (x : ℝ) : Nat := (20 + ⌊rT (80 / x)⌋).toNat

/-- `expint1_t`, lines 53-64. -/
noncomputable def expintTR (rT : ℝ → ℝ) (x : ℝ) : ℝ := rT (1 / rT (x + cfR rT x (termsR rT x) 0))

/-- `expint1`, lines 72-87. -/
noncomputable def expint1R (rT rL lg ex : ℝ → ℝ) (x : ℝ) : XF ℝ :=
  if x < 0 then .nan
  else if x = 0 then .pinf
  else if x ≤ 1 then .fin (expint01R rT rL lg x)
  else .fin (rT (ex (-x) * expintTR rT x))

/-- `logexpint1`, lines 92-114 (`lg` is applied to positive numbers only, which is proved). -/
noncomputable def logexpint1R (rT rL lg l1 : ℝ → ℝ) (x : ℝ) : XF ℝ :=
  if x < 0 then .nan
  else if x = 0 then .pinf
  else if x ≤ 1 then .fin (lg (expint01R rT rL lg x))
  else if x ≤ 500 then .fin (rT (-x + lg (expintTR rT x)))
  else
    let s := rT (rT (-1 + rT (rT (2 + rT (rT (-6 + rT (rT (24 - rT (120 / x)) / x)) / x)) / x)) / x)
    .fin (rT (rT (-x - lg x) + l1 s))

end Ufunclab.Expint
