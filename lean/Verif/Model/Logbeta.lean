import Verif.Model.XF
import Verif.Model.Mem
import Mathlib.Analysis.SpecialFunctions.Gamma.Basic
/-!
# Model of src/multivariate_logbeta/multivariate_logbeta_gufunc.h
-/
namespace Ufunclab.Logbeta

section
variable {α : Type _}

/-- The loop of both cores, lines 24-28 and 52-56: `(alpha_sum, log_sum)`. -/
def loop (ad : α → α → α) (lg : α → α) (m : Mem α) (p stride : Int) : (fuel k : Nat) → α → α → α × α
  | 0, _, a, s => (a, s)
  | fuel + 1, k, a, s =>
    let x := get m p stride k
    loop ad lg m p stride fuel (k + 1) (ad a x) (ad s (lg x))

/-- `multivariate_logbeta_core_contig`, lines 15-31: the elements are `sizeof(T)` apart. -/
def contig (ad sb : α → α → α) (lg : α → α) (zero : α) (size : Int) (m : Mem α) (n : Nat) (p pout : Int) : Mem α :=
  let r := loop ad lg m p size n 0 zero zero
  m.store pout (sb r.2 (lg r.1))

/-- `multivariate_logbeta_core`, lines 34-59. -/
def core (ad sb : α → α → α) (lg : α → α) (zero nan : α) (size : Int) (m : Mem α) (n : Nat) (p stride pout : Int) : Mem α :=
  if n = 0 then m.store pout nan
  else if stride = size then contig ad sb lg zero size m n p pout
  else
    let r := loop ad lg m p stride n 0 zero zero
    m.store pout (sb r.2 (lg r.1))

end

open Classical in
/-- C `lgamma`: the logarithm of the absolute value of the gamma function, `+∞` at the poles. -/
noncomputable def lgamma : XF ℝ → XF ℝ
  | .fin a => if ∃ n : ℕ, a = -(n : ℝ) then .pinf else .fin (Real.log |Real.Gamma a|)
  | .nan => .nan
  | _ => .pinf

/-- The core in exact arithmetic with NaN and infinities. -/
noncomputable def logbeta (size : Int) (m : Mem (XF ℝ)) (n : Nat) (p stride pout : Int) : Mem (XF ℝ) :=
  core XF.add XF.sub lgamma (.fin 0) .nan size m n p stride pout

end Ufunclab.Logbeta
