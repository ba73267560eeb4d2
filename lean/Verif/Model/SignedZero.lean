import Verif.Model.XF
import Verif.Model.Elementary
import Verif.Model.Log1p
import Verif.Model.Unwrap
/-!
# Numbers with NaN, infinities and two zeros, and the code that meets them

`SF K` is `XF K` with a negative zero: `fin 0` is `+0`, `nz` is `-0`.  Every arithmetic operation is
the exact one followed by the rounding `rd` of the type, with the signs of IEEE 754 (round to
nearest).  The library functions are exact, with the special values of annex F of the C standard.
No overflow.
-/
namespace Ufunclab.SZ

inductive SF (K : Type _) where
  | nan
  | ninf
  | pinf
  | nz
  | fin (k : K)
deriving DecidableEq

namespace SF
variable {K : Type _}

section Arith
variable [Field K] [LinearOrder K]

/-- The number without the sign of a zero. -/
def forget : SF K → XF K
  | nan => .nan
  | ninf => .ninf
  | pinf => .pinf
  | nz => .fin 0
  | fin a => .fin a

/-- `std::signbit` (of a number that is not NaN). -/
def signbit : SF K → Bool
  | ninf => true
  | nz => true
  | fin a => decide (a < 0)
  | _ => false

/-- The zero with the given sign. -/
def zero (s : Bool) : SF K := if s then nz else fin 0
/-- The infinity with the given sign. -/
def inf (s : Bool) : SF K := if s then ninf else pinf

/-- A rounded finite result that is not an exact zero: a zero keeps the sign of the exact result. -/
def rs (rd : K → K) (v : K) : SF K := if rd v = 0 ∧ v < 0 then nz else fin (rd v)

/-- A result, rounded. -/
def round (rd : K → K) : XF K → SF K
  | .nan => nan
  | .ninf => ninf
  | .pinf => pinf
  | .fin v => rs rd v

def neg : SF K → SF K
  | nan => nan
  | ninf => pinf
  | pinf => ninf
  | nz => fin 0
  | fin a => if a = 0 then nz else fin (-a)

/-- Addition: an exact zero is `+0` but for `-0 + -0`. -/
def add (rd : K → K) : SF K → SF K → SF K
  | nz, nz => nz
  | x, y => round rd (XF.add x.forget y.forget)

def sub (rd : K → K) (x y : SF K) : SF K := add rd x (neg y)

/-- A zero product has the product of the signs. -/
def mul (rd : K → K) (x y : SF K) : SF K :=
  match XF.mul x.forget y.forget with
  | .fin v => if v = 0 then zero (signbit x != signbit y) else rs rd v
  | w => round rd w

/-- Division by a zero gives an infinity with the product of the signs (or NaN for 0/0). -/
def div (rd : K → K) (x y : SF K) : SF K :=
  if y.forget = .fin 0 then
    if x = nan ∨ x.forget = .fin 0 then nan else inf (signbit x != signbit y)
  else match XF.div x.forget y.forget with
    | .fin v => if v = 0 then zero (signbit x != signbit y) else rs rd v
    | w => round rd w

/-- The comparisons do not see the sign of a zero. -/
def lt (x y : SF K) : Bool := XF.lt x.forget y.forget
def le (x y : SF K) : Bool := XF.le x.forget y.forget
def eq (x y : SF K) : Bool := XF.eq x.forget y.forget

def isnan (x : SF K) : Bool := x.forget.isnan

end Arith
end SF

open SF

/-! ## Library functions -/

/-- C `exp`. -/
noncomputable def exp : SF ℝ → SF ℝ
  | .nan => .nan
  | .ninf => .fin 0
  | .pinf => .pinf
  | .nz => .fin 1
  | .fin a => .fin (Real.exp a)

/-- C `log1p`: a zero is returned unchanged. -/
noncomputable def log1p : SF ℝ → SF ℝ
  | .nz => .nz
  | .fin a => if a < -1 then .nan else if a = -1 then .ninf else .fin (Real.log (1 + a))
  | .pinf => .pinf
  | _ => .nan

/-- C `expm1`: a zero is returned unchanged. -/
noncomputable def expm1 : SF ℝ → SF ℝ
  | .nan => .nan
  | .ninf => .fin (-1)
  | .pinf => .pinf
  | .nz => .nz
  | .fin a => .fin (Real.exp a - 1)

/-- C `sqrt`: the root of `-0` is `-0`. -/
noncomputable def sqrt : SF ℝ → SF ℝ
  | .nz => .nz
  | .fin a => if a < 0 then .nan else .fin (√a)
  | .pinf => .pinf
  | _ => .nan

/-- C `pow(2, x)`. -/
noncomputable def pow2 : SF ℝ → SF ℝ
  | .nan => .nan
  | .ninf => .fin 0
  | .pinf => .pinf
  | .nz => .fin 1
  | .fin a => .fin ((2 : ℝ) ^ a)

/-- C `atan2(y, x)`: for `y` a zero the result is a zero or a half turn with the sign of `y`, according
to the sign of `x`, that of a zero included. -/
noncomputable def atan2 (y x : SF ℝ) : SF ℝ :=
  if y = .nan ∨ x = .nan then .nan
  else if y.forget = .fin 0 then
    if signbit x then .fin (if signbit y then -Real.pi else Real.pi) else SF.zero (signbit y)
  else if x = .pinf ∧ y ≠ .pinf ∧ y ≠ .ninf then SF.zero (signbit y)
  else round id (Log1p.catan2 y.forget x.forget)

variable (rd : ℝ → ℝ)

/-! ## src/logistic/logistic.h -/

/-- `logistic`, lines 7-11. -/
noncomputable def logistic (x : SF ℝ) : SF ℝ := div rd (.fin 1) (add rd (.fin 1) (exp (neg x)))

/-- `logistic_deriv`, lines 14-18. -/
noncomputable def logisticDeriv (x : SF ℝ) : SF ℝ := mul rd (logistic rd x) (logistic rd (neg x))

/-- `log_logistic`, lines 21-30. -/
noncomputable def logLogistic (x : SF ℝ) : SF ℝ :=
  if lt x (.fin 0) then sub rd x (log1p (exp x)) else neg (log1p (exp (neg x)))

/-- `swish`, lines 33-37. -/
noncomputable def swish (x beta : SF ℝ) : SF ℝ := mul rd x (logistic rd (mul rd beta x))

/-! ## src/yeo_johnson/yeo_johnson.h -/

/-- `yeo_johnson`, lines 7-26. -/
noncomputable def yeoJohnson (x lmbda : SF ℝ) : SF ℝ :=
  if le (.fin 0) x then
    if eq lmbda (.fin 0) then log1p x
    else div rd (expm1 (mul rd lmbda (log1p x))) lmbda
  else
    if eq lmbda (.fin 2) then neg (log1p (neg x))
    else div rd (neg (expm1 (mul rd (sub rd (.fin 2) lmbda) (log1p (neg x))))) (sub rd (.fin 2) lmbda)

/-- `inv_yeo_johnson`, lines 28-60. -/
noncomputable def invYeoJohnson (x lmbda : SF ℝ) : SF ℝ :=
  if le (.fin 0) x then
    if eq lmbda (.fin 0) then expm1 x
    else if lt lmbda (.fin 0) && le (div rd (.fin (-1)) lmbda) x then
      if lt (div rd (.fin (-1)) lmbda) x then .nan else .pinf
    else expm1 (div rd (log1p (mul rd lmbda x)) lmbda)
  else
    if eq lmbda (.fin 2) then neg (expm1 (neg x))
    else if lt (.fin 2) lmbda && le x (div rd (.fin 1) (sub rd (.fin 2) lmbda)) then
      if lt x (div rd (.fin 1) (sub rd (.fin 2) lmbda)) then .nan else .ninf
    else neg (expm1 (div rd (log1p (mul rd (neg (sub rd (.fin 2) lmbda)) x)) (sub rd (.fin 2) lmbda)))

/-! ## src/pow1pm1/pow1pm1.h -/

/-- `pow1pm1`, lines 11-18. -/
noncomputable def pow1pm1 (x y : SF ℝ) : SF ℝ :=
  if eq x (.fin (-1)) && eq y (.fin 0) then .fin 0 else expm1 (mul rd y (log1p x))

/-! ## src/ramp/ramp.h (one rounding for the two types that occur) -/

/-- `std_hyperbolic_ramp`, lines 20-41. -/
noncomputable def stdHyperbolicRamp (x : SF ℝ) : SF ℝ :=
  if eq x (.fin 0) then .fin 1
  else
    let z := div rd x (.fin 2)
    if le (.fin 1) z then mul rd z (add rd (.fin 1) (sqrt (add rd (.fin 1) (div rd (.fin 1) (mul rd z z)))))
    else if lt (.fin 0) z then add rd z (sqrt (add rd (mul rd z z) (.fin 1)))
    else if lt (.fin (-1)) z then div rd (.fin 1) (sub rd (sqrt (add rd (mul rd z z) (.fin 1))) z)
    else div rd (div rd (.fin (-1)) z) (add rd (sqrt (add rd (.fin 1) (div rd (.fin 1) (mul rd z z)))) (.fin 1))

/-- `hyperbolic_ramp`, lines 59-69. -/
noncomputable def hyperbolicRamp (x a : SF ℝ) : SF ℝ :=
  if eq a (.fin 0) then (if lt x (.fin 0) then .fin 0 else x)
  else if lt a (.fin 0) then .nan
  else mul rd a (stdHyperbolicRamp rd (div rd x a))

/-- `std_exponential_ramp`, lines 79-91; `ln2` is the constant LN2. -/
noncomputable def stdExponentialRamp (ln2 : ℝ) (x : SF ℝ) : SF ℝ :=
  if eq x (.fin 0) then .fin 1
  else if lt (.fin 0) x then add rd x (div rd (log1p (pow2 (neg x))) (.fin ln2))
  else div rd (log1p (pow2 x)) (.fin ln2)

/-- `exponential_ramp`, lines 94-104. -/
noncomputable def exponentialRamp (ln2 : ℝ) (x a : SF ℝ) : SF ℝ :=
  if eq a (.fin 0) then (if lt x (.fin 0) then .fin 0 else x)
  else if lt a (.fin 0) then .nan
  else mul rd a (stdExponentialRamp rd ln2 (div rd x a))

/-! ## src/semivar/semivar.h -/

/-- `semivar_exponential`, lines 6-10. -/
noncomputable def semivarExponential (h nugget sill range : SF ℝ) : SF ℝ :=
  add rd nugget (mul rd (sub rd sill nugget) (sub rd (.fin 1) (exp (div rd (mul rd (.fin (-3)) h) range))))

/-- `semivar_linear`, lines 12-25. -/
noncomputable def semivarLinear (h nugget sill range : SF ℝ) : SF ℝ :=
  if lt range h then sill
  else
    let slope := div rd (sub rd sill nugget) range
    add rd nugget (mul rd slope h)

/-- `semivar_spherical`, lines 27-40. -/
noncomputable def semivarSpherical (h nugget sill range : SF ℝ) : SF ℝ :=
  if lt range h then sill
  else
    let hor := div rd h range
    add rd nugget (mul rd (mul rd (sub rd sill nugget) (div rd hor (.fin 2))) (sub rd (.fin 3) (mul rd hor hor)))

/-- `semivar_parabolic`, lines 42-55. -/
noncomputable def semivarParabolic (h nugget sill range : SF ℝ) : SF ℝ :=
  if lt range h then sill
  else
    let hor := div rd h range
    add rd nugget (mul rd (mul rd (sub rd sill nugget) hor) (sub rd (.fin 2) hor))

/-! ## src/means/means_gufunc.c.src -/

/-- The inner loop of `hmean_loop`, lines 225-233. -/
noncomputable def hmeanSum : SF ℝ → List (SF ℝ) → SF ℝ
  | s, [] => s
  | s, x :: xs => if eq x (.fin 0) then .pinf else hmeanSum (add rd s (div rd (.fin 1) x)) xs

/-- One row of `hmean_loop`, lines 223-235. -/
noncomputable def hmean1d (x : List (SF ℝ)) : SF ℝ := div rd (.fin (x.length : ℝ)) (hmeanSum rd (.fin 0) x)

/-! ## src/unwrap/unwrap_gufunc.h -/

section Unwrap
variable {K : Type _} [Field K] [LinearOrder K] [FloorRing K]

/-- `std::copysign(0.5, delta)`. -/
def copysignHalf (delta : SF K) : SF K := if signbit delta then .fin (-(1 / 2)) else .fin (1 / 2)

/-- `unwrap1`, lines 18-24, in exact arithmetic (the conversion of the integer `q` has no negative zero). -/
def unwrap1 (x0 x1 period : SF K) : Option (SF K) :=
  let delta := sub id x1 x0
  match Unwrap.toInt32 (add id (div id delta period) (copysignHalf delta)).forget with
  | none => none
  | some q => some (sub id x1 (mul id (.fin (q : K)) period))

/-- The loop of `unwrap_core`, lines 43-56. -/
def unwrapLoop (period : SF K) : SF K → List (SF K) → Option (List (SF K))
  | _, [] => some []
  | x0, x1 :: xs =>
    if !x1.forget.isfinite then some (List.replicate (xs.length + 1) .nan)
    else match unwrap1 x0 x1 period with
      | none => none
      | some x1' => match unwrapLoop period x1' xs with
        | none => none
        | some r => some (x1' :: r)

/-- `unwrap_core`, lines 26-57. -/
def unwrapCore (period : SF K) : List (SF K) → Option (List (SF K))
  | [] => some []
  | x0 :: xs => match unwrapLoop period x0 xs with
    | none => none
    | some r => some (x0 :: r)

end Unwrap

/-! ## src/log1p/log1p_ufunc.c -/

/-- The imaginary part of `log1p_doubledouble`, line 295: `atan2(y, x + 1.0)`. -/
noncomputable def log1pIm (x y : SF ℝ) : SF ℝ := atan2 y (add rd x (.fin 1))

/-- The real part of `log1p_doubledouble`, lines 271-294.  Simplified: in the innermost branch the
argument of `log1p` comes from Model/Log1p, where a zero has no sign. -/
noncomputable def log1pRe (fma : Bool) (x y : SF ℝ) : SF ℝ :=
  round id (Log1p.doubledouble fma rd (x.forget, y.forget)).1

end Ufunclab.SZ

namespace Ufunclab.SZ
open SF

variable (rd : ℝ → ℝ)

/-- The loop of `hmeanw_1d`, src/means/means_gufunc.c.src lines 243-254: `(sumw, sumrecip)`. -/
noncomputable def hmeanwSum : SF ℝ → SF ℝ → List (SF ℝ × SF ℝ) → SF ℝ × SF ℝ
  | sw, s, [] => (sw, s)
  | sw, s, (x, w) :: xs =>
    if eq x (.fin 0) then (sw, .pinf) else hmeanwSum (add rd sw w) (add rd s (div rd w x)) xs

/-- `hmeanw_1d`, lines 238-256. -/
noncomputable def hmeanw1d (x : List (SF ℝ × SF ℝ)) : SF ℝ :=
  let r := hmeanwSum rd (.fin 0) (.fin 0) x
  div rd r.1 r.2

/-- `abs_squared` for a real argument, src/abs_squared/abs_squared.h lines 6-10. -/
noncomputable def absSquared (x : SF ℝ) : SF ℝ := mul rd x x

/-- `abs_squared` for a complex argument, lines 12-16. -/
noncomputable def absSquaredC (z : SF ℝ × SF ℝ) : SF ℝ := add rd (mul rd z.1 z.1) (mul rd z.2 z.2)

/-- `std::sqrt(s/n)` of `rms_core_calc`, src/vnorm/vnorm_gufunc.h line 146 (lines 131-147). -/
noncomputable def rmsFinish (s : SF ℝ) (n : Nat) : SF ℝ := sqrt (div rd s (.fin (n : ℝ)))

/-- `KBNSummer::operator+=`, src/kbnsum/kbnsum_gufunc.h lines 64-93 (real branch). -/
noncomputable def kbnPush (s : SF ℝ × SF ℝ) (x : SF ℝ) : SF ℝ × SF ℝ :=
  let t := add rd s.1 x
  let c := if XF.ge (XF.abs s.1.forget) (XF.abs x.forget) then add rd s.2 (add rd (sub rd s.1 t) x)
           else add rd s.2 (add rd (sub rd x t) s.1)
  (t, c)

/-- Lines 122-130 (`p_x[j]` does not use the stride). -/
noncomputable def kbnScan (m : Mem (SF ℝ)) (p w : Int) (xk : SF ℝ) : (fuel j : Nat) → SF ℝ
  | 0, _ => xk
  | fuel + 1, j =>
    if isnan (add rd xk (m (p + (j : Int) * w))) then .nan else kbnScan m p w xk fuel (j + 1)

/-- The loop of `kbnsum_core_calc`, lines 115-135. -/
noncomputable def kbnLoop (m : Mem (SF ℝ)) (p stride w : Int) : (fuel k : Nat) → SF ℝ × SF ℝ → SF ℝ
  | 0, _, s => add rd s.1 s.2
  | fuel + 1, k, s =>
    let xk := get m p stride k
    if isnan xk then xk
    else if XF.isinf xk.forget then kbnScan rd m p w xk fuel (k + 1)
    else kbnLoop m p stride w fuel (k + 1) (kbnPush rd s xk)

/-- `kbnsum_core_calc`, lines 107-136. -/
noncomputable def kbnsum (m : Mem (SF ℝ)) (p stride w : Int) (n : Nat) : SF ℝ :=
  kbnLoop rd m p stride w n 0 (.fin 0, .fin 0)

/-- `compensated_update`, src/meanvar/meanvar_gufunc.h lines 16-24. -/
noncomputable def compensatedUpdate (val incr comp : SF ℝ) : SF ℝ × SF ℝ :=
  let y := sub rd incr comp
  let t := add rd val y
  let c := sub rd (sub rd t val) y
  (t, c)

/-- The loop of `meanvar_core`, lines 39-44: `(mean, m2)` after all elements. -/
noncomputable def meanvarLoop : (k : Nat) → (mean m2 c1 c2 : SF ℝ) → List (SF ℝ) → SF ℝ × SF ℝ
  | _, mean, m2, _, _, [] => (mean, m2)
  | k, mean, m2, c1, c2, xk :: xs =>
    let delta := sub rd xk mean
    let u1 := compensatedUpdate rd mean (div rd delta (.fin (rd ((k + 1 : Nat) : ℝ)))) c1
    let mean := u1.1
    let u2 := compensatedUpdate rd m2 (mul rd delta (sub rd xk mean)) c2
    meanvarLoop (k + 1) mean u2.1 u1.2 u2.2 xs

/-- `meanvar_core`, lines 26-48: the two outputs. -/
noncomputable def meanvar (x : List (SF ℝ)) (ddof : Int) : SF ℝ × SF ℝ :=
  let s := meanvarLoop rd 0 (.fin 0) (.fin 0) (.fin 0) (.fin 0) x
  (s.1, div rd s.2 (.fin (rd (((x.length : Int) - ddof : Int) : ℝ))))

/-- `std::min(a, b)`. -/
noncomputable def stdMin (a b : SF ℝ) : SF ℝ := if lt b a then b else a
/-- `std::max(a, b)`. -/
noncomputable def stdMax (a b : SF ℝ) : SF ℝ := if lt a b then b else a

/-- The loop of `wjaccard_core`, src/wjaccard/wjaccard_gufunc.h lines 42-53: `none` when a NaN is met. -/
noncomputable def wjaccardLoop : SF ℝ → SF ℝ → List (SF ℝ × SF ℝ) → Option (SF ℝ × SF ℝ)
  | numer, denom, [] => some (numer, denom)
  | numer, denom, (x, y) :: l =>
    if isnan x || isnan y then none
    else wjaccardLoop (add rd numer (stdMin x y)) (add rd denom (stdMax x y)) l

/-- `wjaccard_core`, lines 23-66. -/
noncomputable def wjaccard : List (SF ℝ × SF ℝ) → SF ℝ
  | [] => .nan  -- not reachable: n ≥ 1
  | (x, y) :: l =>
    if isnan x || isnan y then .nan
    else match wjaccardLoop rd (stdMin x y) (stdMax x y) l with
      | none => .nan
      | some (numer, denom) =>
        if eq denom (.fin 0) then (if eq numer (.fin 0) then .nan else .ninf)
        else div rd numer denom

/-- What the first loop of `softmax_core` computes, src/softmax/softmax_gufunc.h lines 27-40. -/
structure Scan where
  hasNan : Bool
  nposinf : Nat
  posinfIndex : Nat
  xmax : SF ℝ

/-- Lines 27-40. -/
noncomputable def scan : (k : Nat) → (nposinf posinfIndex : Nat) → (xmax : SF ℝ) → List (SF ℝ) → Scan
  | _, np, idx, xmax, [] => ⟨false, np, idx, xmax⟩
  | k, np, idx, xmax, x :: xs =>
    if isnan x then ⟨true, np, idx, xmax⟩
    else
      let posinf := XF.isinf x.forget && lt (.fin 0) x
      scan (k + 1) (if posinf then np + 1 else np) (if posinf then k else idx)
        (if k = 0 ∨ lt xmax x then x else xmax) xs

/-- `softmax_core`, lines 15-68, with the exact exponential. -/
noncomputable def softmax (x : List (SF ℝ)) : List (SF ℝ) :=
  let s := scan 0 0 0 (.fin 0) x
  if s.hasNan || decide (s.nposinf > 1) || eq s.xmax .ninf then
    List.replicate x.length .nan
  else if s.nposinf = 1 then
    (List.replicate x.length (.fin 0)).set s.posinfIndex (.fin 1)
  else
    let expsum := x.foldl (fun acc v => add rd acc (exp (sub rd v s.xmax))) (.fin 0)
    x.map (fun v => div rd (exp (sub rd v s.xmax)) expsum)

/-- `step`, src/step/step.h lines 10-22. -/
noncomputable def step (x a flow fa fhigh : SF ℝ) : SF ℝ := if lt x a then flow else if lt a x then fhigh else fa

/-- `linearstep`, lines 24-41. -/
noncomputable def linearstep (x a b fa fb : SF ℝ) : SF ℝ :=
  if lt b a then .nan
  else if le x a then fa
  else if le b x then fb
  else if eq a b then div rd (add rd fa fb) (.fin 2)
  else
    let u := div rd (sub rd x a) (sub rd b a)
    add rd (mul rd fa (sub rd (.fin 1) u)) (mul rd fb u)

/-- `smoothstep3`, lines 51-68. -/
noncomputable def smoothstep3 (x a b fa fb : SF ℝ) : SF ℝ :=
  if lt b a then .nan
  else if le x a then fa
  else if le b x then fb
  else if eq a b then div rd (add rd fa fb) (.fin 2)
  else
    let u := div rd (sub rd x a) (sub rd b a)
    add rd fa (mul rd (mul rd (mul rd (sub rd fb fa) u) u) (sub rd (.fin 3) (mul rd (.fin 2) u)))

/-- `smoothstep5`, lines 103-120. -/
noncomputable def smoothstep5 (x a b fa fb : SF ℝ) : SF ℝ :=
  if lt b a then .nan
  else if le x a then fa
  else if le b x then fb
  else if eq a b then div rd (add rd fa fb) (.fin 2)
  else
    let u := div rd (sub rd x a) (sub rd b a)
    add rd fa (mul rd (mul rd (mul rd (mul rd (sub rd fb fa) u) u) u)
      (add rd (mul rd u (sub rd (mul rd (.fin 6) u) (.fin 15))) (.fin 10)))

/-- `trapezoid_pulse`, src/trapezoid_pulse/trapezoid_pulse.h lines 7-29. -/
noncomputable def trapezoid (x a b c d amp : SF ℝ) : SF ℝ :=
  if !(le a b && le b c && le c d) then .nan
  else if le x a || le d x then .fin 0
  else if le b x && le x c then amp
  else if lt x b then mul rd amp (div rd (sub rd x a) (sub rd b a))
  else mul rd amp (div rd (sub rd d x) (sub rd d c))

end Ufunclab.SZ
