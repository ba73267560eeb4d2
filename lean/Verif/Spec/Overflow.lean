import Verif.Spec.FloatArith
import Verif.Model.XF
/-!
# Overflow

`ov rd Ω` is the rounding of a format whose largest number is `Ω`: the exact result is rounded as if
the range had no end (`rd`), and a rounded result beyond `Ω` is replaced by the infinity of its sign
(IEEE 754, sections 4.3.1 and 7.4).  NaN and infinities are not changed.
-/
namespace Ufunclab.Float

noncomputable def ov (rd : ℝ → ℝ) (Ω : ℝ) : XF ℝ → XF ℝ
  | .fin z => if Ω < rd z then .pinf else if rd z < -Ω then .ninf else .fin (rd z)
  | s => s

/-- The numbers of the format, with NaN and the infinities: the operations are the exact ones followed
by `ov rd Ω`.  A model that is generic in the operations becomes a floating-point model with overflow
when it is used at this type. -/
structure Fo (rd : ℝ → ℝ) (Ω : ℝ) where
  val : XF ℝ

variable {rd : ℝ → ℝ} {Ω : ℝ}
noncomputable instance : Add (Fo rd Ω) := ⟨fun a b => ⟨ov rd Ω (XF.add a.val b.val)⟩⟩
noncomputable instance : Sub (Fo rd Ω) := ⟨fun a b => ⟨ov rd Ω (XF.sub a.val b.val)⟩⟩
noncomputable instance : Mul (Fo rd Ω) := ⟨fun a b => ⟨ov rd Ω (XF.mul a.val b.val)⟩⟩
noncomputable instance : Zero (Fo rd Ω) := ⟨⟨.fin 0⟩⟩

/-- The largest number of binary64. -/
noncomputable def maxDouble : ℝ := (2 ^ 53 - 1) * 2 ^ (971 : ℤ)

end Ufunclab.Float
