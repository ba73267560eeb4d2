import Verif.Model.XF
/-!
# Model of src/softmax/softmax_gufunc.h

Exact arithmetic with NaN and infinities; `exp` is the exponential on the
underlying field.  The result is the list of the `n` outputs (each output index is
written exactly once in each branch but for the one-hot branch, which overwrites one).
-/
namespace Ufunclab.Softmax
variable {K : Type _} [Field K] [LinearOrder K]

/-- `std::exp`. -/
def xexp (exp : K → K) : XF K → XF K
  | .nan => .nan
  | .ninf => .fin 0
  | .pinf => .pinf
  | .fin a => .fin (exp a)

/-- `std::isinf(x) && x > 0`, line 33. -/
def isPosInf (x : XF K) : Bool := XF.isinf x && XF.lt (.fin 0) x

/-- What the first loop computes. -/
structure Scan (K : Type _) where
  hasNan : Bool
  nposinf : Nat
  posinfIndex : Nat
  xmax : XF K

/-- Lines 27-40. -/
def scan : (k : Nat) → (nposinf posinfIndex : Nat) → (xmax : XF K) → List (XF K) → Scan K
  | _, np, idx, xmax, [] => ⟨false, np, idx, xmax⟩
  | k, np, idx, xmax, x :: xs =>
    if XF.isnan x then ⟨true, np, idx, xmax⟩
    else scan (k + 1) (if isPosInf x then np + 1 else np) (if isPosInf x then k else idx)
      (if k = 0 ∨ XF.lt xmax x then x else xmax) xs

/-- `softmax_core`, lines 15-68. -/
def softmax (exp : K → K) (x : List (XF K)) : List (XF K) :=
  let s := scan 0 0 0 (.fin 0) x
  if s.hasNan || decide (s.nposinf > 1) || XF.eq s.xmax .ninf then
    List.replicate x.length .nan
  else if s.nposinf = 1 then
    (List.replicate x.length (.fin 0)).set s.posinfIndex (.fin 1)
  else
    let expsum := x.foldl (fun acc v => XF.add acc (xexp exp (XF.sub v s.xmax))) (.fin 0)
    x.map (fun v => XF.div (xexp exp (XF.sub v s.xmax)) expsum)

/-! ## The same function with rounding -/

/-- The rounding, applied to a finite result. -/
def rnd (rd : K → K) : XF K → XF K
  | .fin v => .fin (rd v)
  | v => v

/-- `softmax_core`, lines 15-68, with rounding: `r` rounds every operation of type `T` (no excess
precision) and `exp` is the library's exponential of that type.  `r = rnd rd` leaves overflow out,
`r = Float.ov rd Ω` (Spec/Overflow) has it. -/
def softmaxR (r : XF K → XF K) (exp : K → K) (x : List (XF K)) : List (XF K) :=
  let s := scan 0 0 0 (.fin 0) x
  if s.hasNan || decide (s.nposinf > 1) || XF.eq s.xmax .ninf then
    List.replicate x.length .nan
  else if s.nposinf = 1 then
    (List.replicate x.length (.fin 0)).set s.posinfIndex (.fin 1)
  else
    let expsum := x.foldl (fun acc v => r (XF.add acc (xexp exp (r (XF.sub v s.xmax))))) (.fin 0)
    x.map (fun v => r (XF.div (xexp exp (r (XF.sub v s.xmax))) expsum))

end Ufunclab.Softmax
