import Verif.Spec.Float
import Mathlib.Analysis.SpecialFunctions.Pow.Real
/-!
# Arithmetic with rounding

`Fl rd`: numbers whose operations are the exact ones followed by the rounding `rd`.  A model that
is generic in the operations (`Add`, `Sub`, `Mul`, `Zero`) becomes a floating-point model when it is
used at this type.
-/
namespace Ufunclab.Float

structure Fl (rd : ℝ → ℝ) where
  val : ℝ

variable {rd : ℝ → ℝ}
noncomputable instance : Add (Fl rd) := ⟨fun a b => ⟨rd (a.val + b.val)⟩⟩
noncomputable instance : Sub (Fl rd) := ⟨fun a b => ⟨rd (a.val - b.val)⟩⟩
noncomputable instance : Mul (Fl rd) := ⟨fun a b => ⟨rd (a.val * b.val)⟩⟩
noncomputable instance : Zero (Fl rd) := ⟨⟨0⟩⟩

/-- A library function `pow` on bases that are not negative: its values are numbers of the format,
the relative error is at most `ε` up to underflow, `pow(1, e)` is 1, and it does not go below 0,
nor below 1 for bases from 1 on. -/
structure GoodPow (p : ℕ) (emin : ℤ) (ε : ℝ) (pw : ℝ → ℝ → ℝ) : Prop where
  float : ∀ b e, 0 ≤ b → 0 < e → IsFloat p emin (pw b e)
  error : ∀ b e, 0 ≤ b → 0 < e → |pw b e - b ^ e| ≤ ε * b ^ e + 2 ^ emin
  one : ∀ e, 0 < e → pw 1 e = 1
  nonneg : ∀ b e, 0 ≤ b → 0 < e → 0 ≤ pw b e
  one_le : ∀ b e, 1 ≤ b → 0 < e → 1 ≤ pw b e

/-- A reasonable `pow` for exponents of both signs: for a base that is not negative (positive when the
exponent is negative) a float with relative error at most `ε` plus one least subnormal. -/
structure SignedPow (p : ℕ) (emin : ℤ) (ε : ℝ) (pw : ℝ → ℝ → ℝ) : Prop where
  float : ∀ b e, 0 ≤ b → e ≠ 0 → (0 < e ∨ 0 < b) → IsFloat p emin (pw b e)
  error : ∀ b e, 0 ≤ b → e ≠ 0 → (0 < e ∨ 0 < b) → |pw b e - b ^ e| ≤ ε * b ^ e + 2 ^ emin

end Ufunclab.Float
