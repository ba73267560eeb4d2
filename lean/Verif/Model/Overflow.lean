import Verif.Model.Vnorm
import Verif.Model.Corr
import Verif.Model.Wjaccard
import Verif.Spec.Overflow
/-!
# Rounding with overflow

The models of `rms`, `vdot`, `cross2`, `cross3`, `kbnsum` and `wjaccard` are generic in the arithmetic; only
the parts that are not sums and products are needed here.  Fused multiply-add and excess precision are not modelled.
-/
namespace Ufunclab.Vnorm
open Ufunclab.Float

/-- `std::sqrt(sum/n)`, src/vnorm/vnorm_gufunc.h lines 120, 146, 160 and 189; `n` is converted to the
type of `sum`. -/
noncomputable def rmsFinO (rd : ℝ → ℝ) (Ω : ℝ) (s : Fo rd Ω) (n : Nat) : Fo rd Ω :=
  ⟨ov rd Ω (Corr.xsqrt (ov rd Ω (XF.div s.val (ov rd Ω (.fin n)))))⟩

end Ufunclab.Vnorm

namespace Ufunclab.Wjaccard
open Ufunclab.Float

/-- `wjaccard_core`, src/wjaccard/wjaccard_gufunc.h lines 23-66, with overflow. -/
noncomputable def wjaccardO (rd : ℝ → ℝ) (Ω : ℝ) (l : List (XF ℝ × XF ℝ)) : XF ℝ :=
  wjaccard (fun a b => ov rd Ω (XF.add a b)) (fun a b => ov rd Ω (XF.div a b)) l

end Ufunclab.Wjaccard
