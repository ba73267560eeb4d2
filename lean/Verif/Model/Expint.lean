import Verif.Model.XF
import Verif.Model.Means
import Verif.Model.Elementary
/-!
# Model of src/expint1/expint1.h

Exact real arithmetic with NaN and infinities.  The C++ conversion `(int) ((T) 80.0 / x)` is a
parameter `toInt`: on a number inside the range of `int` it truncates towards zero
(`TruncOk`); on NaN it is undefined behaviour, and the model lets it be any integer.
-/
namespace Ufunclab.Expint
open XF

/-- `EULER`, line 7. -/
noncomputable def euler : ℝ := 0.577215664901532860606512090082402431042159

/-- The loop of `expint1_01`, lines 15-21: `n` iterations are left, `k` is the loop variable. -/
noncomputable def loop01 (x : XF ℝ) : (n k : Nat) → (r e1 : XF ℝ) → XF ℝ
  | 0, _, _, e1 => e1
  | n + 1, k, r, e1 =>
    let r' := div (mul (mul (neg r) (.fin k)) x) (.fin (((k + 1) * (k + 1) : ℕ) : ℝ))
    if XF.eq (add e1 r') e1 then e1 else loop01 x n (k + 1) r' (add e1 r')

/-- `expint1_01`, lines 10-24. -/
noncomputable def expint01 (x : XF ℝ) : XF ℝ :=
  add (sub (neg (.fin euler)) (Means.xlog x)) (mul x (loop01 x 25 1 (.fin 1) (.fin 1)))

/-- The loop of `expint1_t`, lines 60-62: from `k` down to 1. -/
noncomputable def cfLoop (x : XF ℝ) : (k : Nat) → (t0 : XF ℝ) → XF ℝ
  | 0, t0 => t0
  | k + 1, t0 => cfLoop x k (div (.fin ((k + 1 : ℕ) : ℝ)) (add (.fin 1) (div (.fin ((k + 1 : ℕ) : ℝ)) (add x t0))))

/-- `expint1_t`, lines 53-64 (a loop from a number that is not positive does nothing: `toNat`). -/
noncomputable def expintT (toInt : XF ℝ → Int) (x : XF ℝ) : XF ℝ :=
  let m := 20 + toInt (div (.fin 80) x)
  div (.fin 1) (add x (cfLoop x m.toNat (.fin 0)))

/-- `expint1`, lines 72-87. -/
noncomputable def expint1 (toInt : XF ℝ → Int) (x : XF ℝ) : XF ℝ :=
  if lt x (.fin 0) then .nan
  else if XF.eq x (.fin 0) then .pinf
  else if le x (.fin 1) then expint01 x
  else mul (Means.xexp (neg x)) (expintT toInt x)

/-- `logexpint1`, lines 92-114. -/
noncomputable def logexpint1 (toInt : XF ℝ → Int) (x : XF ℝ) : XF ℝ :=
  if lt x (.fin 0) then .nan
  else if XF.eq x (.fin 0) then .pinf
  else if le x (.fin 1) then Means.xlog (expint01 x)
  else if le x (.fin 500) then add (neg x) (Means.xlog (expintT toInt x))
  else
    let s := div (add (.fin (-1)) (div (add (.fin 2) (div (add (.fin (-6))
      (div (sub (.fin 24) (div (.fin 120) x)) x)) x)) x)) x
    add (sub (neg x) (Means.xlog x)) (Elementary.xlog1p s)

end Ufunclab.Expint
