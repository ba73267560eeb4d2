import Verif.Model.XF
/-!
# Model of src/meanvar/meanvar_gufunc.h

Every arithmetic operation, and the conversion of an index to the floating type, is followed by
the rounding `rd` of the type (`rd = id` is exact arithmetic; overflow is not described).  The
final division may be by zero, hence an `XF` result.
-/
namespace Ufunclab.Meanvar
variable {K : Type _} [Field K]

/-- `compensated_update`, lines 16-24. -/
def compensatedUpdate (rd : K → K) (val incr comp : K) : K × K :=
  let y := rd (incr - comp)
  let t := rd (val + y)
  let c := rd (rd (t - val) - y)
  (t, c)

/-- The loop of `meanvar_core`, lines 39-44: `(mean, m2)` after all elements. -/
def loop (rd : K → K) : (k : Nat) → (mean m2 c1 c2 : K) → List K → K × K
  | _, mean, m2, _, _, [] => (mean, m2)
  | k, mean, m2, c1, c2, xk :: xs =>
    let delta := rd (xk - mean)
    let u1 := compensatedUpdate rd mean (rd (delta / rd ((k + 1 : Nat) : K))) c1
    let mean := u1.1
    let u2 := compensatedUpdate rd m2 (rd (delta * rd (xk - mean))) c2
    loop rd (k + 1) mean u2.1 u1.2 u2.2 xs

/-- The rounding, applied to a finite result. -/
def rnd (rd : K → K) : XF K → XF K
  | .fin v => .fin (rd v)
  | v => v

/-- `meanvar_core`, lines 26-48: the two outputs. -/
def meanvar [LinearOrder K] (rd : K → K) (x : List K) (ddof : Int) : XF K × XF K :=
  let r := loop rd 0 0 0 0 0 x
  (.fin r.1, rnd rd (XF.div (.fin r.2) (.fin (rd (((x.length : Int) - ddof : Int) : K)))))

end Ufunclab.Meanvar
