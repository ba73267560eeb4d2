import Verif.Model.XF
/-!
# Model of src/wjaccard/wjaccard_gufunc.h

On numbers with NaN and infinities; `add` and `div` are parameters so that both
exact and rounded arithmetic can be used.  The input is the list of the pairs
`(x[k], y[k])`; it is not empty (nonzero_coredims).
-/
namespace Ufunclab.Wjaccard
variable {K : Type _} [LinearOrder K]

/-- `std::min(a, b)`: `(b < a) ? b : a`. -/
def stdMin (a b : XF K) : XF K := if XF.lt b a then b else a
/-- `std::max(a, b)`: `(a < b) ? b : a`. -/
def stdMax (a b : XF K) : XF K := if XF.lt a b then b else a

/-- Lines 42-53: `none` when a NaN is met. -/
def loop (add : XF K → XF K → XF K) : XF K → XF K → List (XF K × XF K) → Option (XF K × XF K)
  | numer, denom, [] => some (numer, denom)
  | numer, denom, (x, y) :: l =>
    if XF.isnan x || XF.isnan y then none
    else loop add (add numer (stdMin x y)) (add denom (stdMax x y)) l

/-- `wjaccard_core`, lines 23-66. -/
def wjaccard [Zero K] (add div : XF K → XF K → XF K) : List (XF K × XF K) → XF K
  | [] => .nan  -- not reachable: n ≥ 1
  | (x, y) :: l =>
    if XF.isnan x || XF.isnan y then .nan
    else match loop add (stdMin x y) (stdMax x y) l with
      | none => .nan
      | some (numer, denom) =>
        if XF.eq denom (.fin 0) then (if XF.eq numer (.fin 0) then .nan else .ninf)
        else div numer denom

/-- Arithmetic followed by rounding with `rnd` (no overflow). -/
def rounded [Field K] (rnd : K → K) (op : XF K → XF K → XF K) (a b : XF K) : XF K :=
  match op a b with
  | .fin v => .fin (rnd v)
  | s => s

end Ufunclab.Wjaccard
