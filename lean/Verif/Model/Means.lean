import Verif.Model.XF
import Mathlib.Analysis.SpecialFunctions.Pow.Real
/-!
# Model of src/means/means_gufunc.c.src (gmean, gmeanw, hmean, hmeanw, pmean, pmeanw)

Exact real arithmetic with NaN and infinities; the library functions are the real functions.
A vector is the list of the elements that the pointer visits; a weighted vector the list of
pairs.  The constant `2e-6` is taken as a real number.  Length 0 raises ValueError in all
loops (`none`).
-/
namespace Ufunclab.Means
open XF

/-- C `log`. -/
noncomputable def xlog : XF ℝ → XF ℝ
  | .fin a => if a < 0 then .nan else if a = 0 then .ninf else .fin (Real.log a)
  | .pinf => .pinf
  | _ => .nan

/-- C `exp`. -/
noncomputable def xexp : XF ℝ → XF ℝ
  | .fin a => .fin (Real.exp a)
  | .pinf => .pinf
  | .ninf => .fin 0
  | .nan => .nan

/-- C `pow` for a base that is not negative and a finite exponent, the only arguments used here
(others: NaN). -/
noncomputable def xpow : XF ℝ → XF ℝ → XF ℝ
  | .fin a, .fin p =>
    if p = 0 then .fin 1 else if a < 0 then .nan else if a = 0 then (if p < 0 then .pinf else .fin 0) else .fin (a ^ p)
  | .pinf, .fin p => if p = 0 then .fin 1 else if p < 0 then .fin 0 else .pinf
  | .nan, .fin p => if p = 0 then .fin 1 else .nan
  | _, _ => .nan

/-- The local variables of `gmean_1d` (and `gmeanw_1d`). -/
structure GState where
  hasZero : Bool := false
  hasNeg : Bool := false
  hasNan : Bool := false
  hasInf : Bool := false
  allSame : Bool := true
  prev : XF ℝ := .fin 0
  sumlog : XF ℝ := .fin 0
  sumw : XF ℝ := .fin 0

/-- The loop of `gmean_1d`, lines 50-74; `k` is the number of elements already visited. -/
noncomputable def gmeanLoop : (k : Nat) → GState → List (XF ℝ) → GState
  | _, s, [] => s
  | k, s, x :: xs =>
    let prev := if k = 0 then x else s.prev
    let s := { s with prev := prev, allSame := s.allSame && XF.eq prev x }
    if isnan x then { s with hasNan := true }
    else if isinf x then gmeanLoop (k + 1) { s with hasInf := true, prev := x } xs
    else if XF.eq x (.fin 0) then gmeanLoop (k + 1) { s with hasZero := true, prev := x } xs
    else if XF.lt x (.fin 0) then { s with hasNeg := true }
    else gmeanLoop (k + 1) { s with sumlog := add s.sumlog (xlog x), prev := x } xs

/-- Lines 75-90. -/
noncomputable def gmeanFinish (s : GState) (n : Nat) : XF ℝ :=
  if s.hasNeg || s.hasNan || (s.hasZero && s.hasInf) then .nan
  else if s.hasInf then .pinf
  else if s.hasZero then .fin 0
  else if s.allSame then s.prev
  else xexp (div s.sumlog (.fin (n : ℝ)))

/-- `gmean_1d`, lines 40-91. -/
noncomputable def gmean1d (x : List (XF ℝ)) : XF ℝ := gmeanFinish (gmeanLoop 0 {} x) x.length

/-- `gmean_loop` on one vector, lines 93-114. -/
noncomputable def gmean (x : List (XF ℝ)) : Option (XF ℝ) := if x.length = 0 then none else some (gmean1d x)

/-- The loop of `gmeanw_1d`, lines 128-154. -/
noncomputable def gmeanwLoop : (k : Nat) → GState → List (XF ℝ × XF ℝ) → GState
  | _, s, [] => s
  | k, s, (x, w) :: xs =>
    let prev := if k = 0 then x else s.prev
    let s := { s with sumw := add s.sumw w, prev := prev, allSame := s.allSame && XF.eq prev x }
    if isnan x then { s with hasNan := true }
    else if isinf x then gmeanwLoop (k + 1) { s with hasInf := true, prev := x } xs
    else if XF.eq x (.fin 0) then gmeanwLoop (k + 1) { s with hasZero := true, prev := x } xs
    else if XF.lt x (.fin 0) then { s with hasNeg := true }
    else gmeanwLoop (k + 1) { s with sumlog := add s.sumlog (mul w (xlog x)), prev := x } xs

/-- Lines 155-173. -/
noncomputable def gmeanwFinish (s : GState) : XF ℝ :=
  if s.hasNeg || s.hasNan || (s.hasZero && s.hasInf) then .nan
  else if s.hasInf then .pinf
  else if s.hasZero then .fin 0
  else if s.allSame then s.prev
  else if XF.eq s.sumw (.fin 0) then .nan
  else xexp (div s.sumlog s.sumw)

/-- `gmeanw_1d`, lines 116-174. -/
noncomputable def gmeanw1d (x : List (XF ℝ × XF ℝ)) : XF ℝ := gmeanwFinish (gmeanwLoop 0 {} x)

/-- `gmeanw_loop` on one vector, lines 176-203. -/
noncomputable def gmeanw (x : List (XF ℝ × XF ℝ)) : Option (XF ℝ) := if x.length = 0 then none else some (gmeanw1d x)

/-- The inner loop of `hmean_loop`, lines 225-232: the sum of reciprocals. -/
noncomputable def hmeanSum : XF ℝ → List (XF ℝ) → XF ℝ
  | s, [] => s
  | s, x :: xs => if XF.eq x (.fin 0) then .pinf else hmeanSum (add s (div (.fin 1) x)) xs

/-- One row of `hmean_loop`, lines 222-235. -/
noncomputable def hmean1d (x : List (XF ℝ)) : XF ℝ := div (.fin (x.length : ℝ)) (hmeanSum (.fin 0) x)

/-- `hmean_loop` on one vector, lines 205-236. -/
noncomputable def hmean (x : List (XF ℝ)) : Option (XF ℝ) := if x.length = 0 then none else some (hmean1d x)

/-- The loop of `hmeanw_1d`, lines 243-254: `(sumw, sumrecip)`. -/
noncomputable def hmeanwSum : XF ℝ → XF ℝ → List (XF ℝ × XF ℝ) → XF ℝ × XF ℝ
  | sw, s, [] => (sw, s)
  | sw, s, (x, w) :: xs => if XF.eq x (.fin 0) then (sw, .pinf) else hmeanwSum (add sw w) (add s (div w x)) xs

/-- `hmeanw_1d`, lines 238-256. -/
noncomputable def hmeanw1d (x : List (XF ℝ × XF ℝ)) : XF ℝ :=
  let r := hmeanwSum (.fin 0) (.fin 0) x
  div r.1 r.2

/-- `hmeanw_loop` on one vector, lines 262-289. -/
noncomputable def hmeanw (x : List (XF ℝ × XF ℝ)) : Option (XF ℝ) := if x.length = 0 then none else some (hmeanw1d x)

/-- The local variables of the scan in `pmean_loop`. -/
structure PState where
  hasZero : Bool := false
  hasNeg : Bool := false
  hasNan : Bool := false
  hasInf : Bool := false
  xmax : XF ℝ := .fin 0
  xmin : XF ℝ := .fin 0

/-- The scan for minimum, maximum and special values, lines 359-382 (and 495-520). -/
noncomputable def pmeanScan : (k : Nat) → PState → List (XF ℝ) → PState
  | _, s, [] => s
  | k, s, x :: xs =>
    if isnan x then { s with hasNan := true }
    else
      let s := if isinf x then { s with hasInf := true } else s
      let s := if k = 0 ∨ XF.gt x s.xmax then { s with xmax := x } else s
      let s := if k = 0 ∨ XF.lt x s.xmin then { s with xmin := x } else s
      if XF.lt x (.fin 0) then { s with hasNeg := true }
      else pmeanScan (k + 1) (if XF.eq x (.fin 0) then { s with hasZero := true } else s) xs

/-- The special cases of lines 383-408 (and 521-546); `none`: continue with the power sum. -/
noncomputable def pmeanSpecial (s : PState) (p : XF ℝ) : Option (XF ℝ) :=
  if s.hasNeg || s.hasNan then some .nan
  else if XF.eq s.xmax s.xmin then some s.xmax
  else if s.hasInf && XF.gt p (.fin 0) then some .pinf
  else if s.hasZero && XF.lt p (.fin 0) then some (.fin 0)
  else if isinf p then some (if XF.lt p (.fin 0) then s.xmin else s.xmax)
  else none

/-- The sums of logarithms and squares of logarithms, lines 336-341. -/
noncomputable def logSums : XF ℝ → XF ℝ → List (XF ℝ) → XF ℝ × XF ℝ
  | s, q, [] => (s, q)
  | s, q, x :: xs => logSums (add s (xlog x)) (add q (mul (xlog x) (xlog x))) xs

/-- The power sum, lines 413-416. -/
noncomputable def powSum (scale p : XF ℝ) : XF ℝ → List (XF ℝ) → XF ℝ
  | s, [] => s
  | s, x :: xs => powSum scale p (add s (xpow (div x scale) p)) xs

/-- One row of `pmean_loop`, lines 311-418. -/
noncomputable def pmean1d (x : List (XF ℝ)) (p : XF ℝ) : XF ℝ :=
  if isnan p then .nan
  else if XF.lt (XF.abs p) (.fin 2e-6) then
    let gm := gmean1d x
    if XF.ne p (.fin 0) then
      let r := logSums (.fin 0) (.fin 0) x
      let n : XF ℝ := .fin (x.length : ℝ)
      let mean := div r.1 n
      mul gm (add (.fin 1) (mul (mul (.fin (1 / 2)) p) (sub (div r.2 n) (mul mean mean))))
    else gm
  else if XF.eq p (.fin (-1)) then hmean1d x
  else
    let s := pmeanScan 0 {} x
    match pmeanSpecial s p with
    | some v => v
    | none =>
      let scale := if XF.gt p (.fin 0) then s.xmax else s.xmin
      mul scale (xpow (div (powSum scale p (.fin 0) x) (.fin (x.length : ℝ))) (div (.fin 1) p))

/-- `pmean_loop` on one vector, lines 291-420. -/
noncomputable def pmean (x : List (XF ℝ)) (p : XF ℝ) : Option (XF ℝ) := if x.length = 0 then none else some (pmean1d x p)

/-- Lines 470-479: `(sumw, sumlnx, sumlnx_sq)`. -/
noncomputable def logSumsW : XF ℝ → XF ℝ → XF ℝ → List (XF ℝ × XF ℝ) → XF ℝ × XF ℝ × XF ℝ
  | sw, s, q, [] => (sw, s, q)
  | sw, s, q, (x, w) :: xs => logSumsW (add sw w) (add s (mul w (xlog x))) (add q (mul (mul w (xlog x)) (xlog x))) xs

/-- Lines 555-562: `(sumw, sum)`. -/
noncomputable def powSumW (scale p : XF ℝ) : XF ℝ → XF ℝ → List (XF ℝ × XF ℝ) → XF ℝ × XF ℝ
  | sw, s, [] => (sw, s)
  | sw, s, (x, w) :: xs => powSumW scale p (add sw w) (add s (mul w (xpow (div x scale) p))) xs

/-- One row of `pmeanw_loop`, lines 448-566. -/
noncomputable def pmeanw1d (x : List (XF ℝ × XF ℝ)) (p : XF ℝ) : XF ℝ :=
  if isnan p then .nan
  else if XF.lt (XF.abs p) (.fin 2e-6) then
    let gm := gmeanw1d x
    if XF.ne p (.fin 0) then
      let r := logSumsW (.fin 0) (.fin 0) (.fin 0) x
      let mean := div r.2.1 r.1
      mul gm (add (.fin 1) (mul (mul (.fin (1 / 2)) p) (sub (div r.2.2 r.1) (mul mean mean))))
    else gm
  else if XF.eq p (.fin (-1)) then hmeanw1d x
  else
    let s := pmeanScan 0 {} (x.map Prod.fst)
    match pmeanSpecial s p with
    | some v => v
    | none =>
      let scale := if XF.gt p (.fin 0) then s.xmax else s.xmin
      let r := powSumW scale p (.fin 0) (.fin 0) x
      mul scale (xpow (div r.2 r.1) (div (.fin 1) p))

/-- `pmeanw_loop` on one vector, lines 422-568. -/
noncomputable def pmeanw (x : List (XF ℝ × XF ℝ)) (p : XF ℝ) : Option (XF ℝ) := if x.length = 0 then none else some (pmeanw1d x p)

end Ufunclab.Means
