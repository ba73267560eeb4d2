import Verif.Model.XF
/-!
# Multiplication by a constant that commutes with the rounding

`Commutes rd s`: rounding `s*z` is rounding `z` and multiplying by `s`.  It holds for `s = -1` when
the rounding treats positive and negative numbers alike (all IEEE rounding to nearest does), and
for a power of two `s` when neither underflow nor overflow occurs.
-/
namespace Ufunclab.Float
variable {K : Type _} [Field K]

def Commutes (rd : K → K) (s : K) : Prop := ∀ z, rd (s * z) = s * rd z

end Ufunclab.Float

namespace Ufunclab.XF
variable {K : Type _} [Field K] [LinearOrder K]

/-- `s` times `a`; for `s ≠ 0` an infinity stays infinite. -/
abbrev scale (s : K) (a : XF K) : XF K := XF.mul (.fin s) a

end Ufunclab.XF
