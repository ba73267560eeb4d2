import Verif.Model.Logbeta
/-!
# Model of src/multivariate_logbeta/multivariate_logbeta_gufunc.h, with rounding

`rd` is the rounding of `T`, `lgm` the library function `std::lgamma` of `T`; finite values, no overflow.
-/
namespace Ufunclab.Logbeta

/-- `multivariate_logbeta_core`, lines 34-59 (with the contiguous core of lines 15-31), every operation rounded; `nan` is what is stored for an empty array. -/
noncomputable def logbetaR (rd lgm : ℝ → ℝ) (nan : ℝ) (size : Int) (m : Mem ℝ) (n : Nat) (p stride pout : Int) : Mem ℝ :=
  core (fun a b => rd (a + b)) (fun a b => rd (a - b)) lgm 0 nan size m n p stride pout

end Ufunclab.Logbeta
