import Verif.Model.Means
/-!
# src/means/means_gufunc.c.src with rounding: hmean, gmean and pmean

A rounding `r` follows every operation: `rnd rd` without overflow, `ov rd Ω` (Spec/Overflow) with overflow.  The library functions
`logf`/`log`/`logl` and `expf`/`exp`/`expl` and `pow` are parameters.
-/
namespace Ufunclab.Means
open XF

/-- The result of an operation, rounded; NaN and infinities are not changed. -/
def rnd (rd : ℝ → ℝ) : XF ℝ → XF ℝ
  | .fin a => .fin (rd a)
  | s => s

/-- The inner loop of `hmean_loop`, lines 225-232.  `1.0L / x` and the addition are done in long
double (rounding `rx`), the sum is stored in the type of the result (rounding `r`). -/
noncomputable def hmeanSumR (r rx : XF ℝ → XF ℝ) : XF ℝ → List (XF ℝ) → XF ℝ
  | s, [] => s
  | s, x :: xs => if XF.eq x (.fin 0) then .pinf else hmeanSumR r rx (r (rx (add s (rx (div (.fin 1) x))))) xs

/-- One row of `hmean_loop`, lines 222-235. -/
noncomputable def hmean1dR (r rx : XF ℝ → XF ℝ) (x : List (XF ℝ)) : XF ℝ :=
  r (div (r (.fin (x.length : ℝ))) (hmeanSumR r rx (.fin 0) x))

/-- C `log` with a library function on the positive numbers. -/
noncomputable def xlogR (lg : ℝ → ℝ) : XF ℝ → XF ℝ
  | .fin a => if a < 0 then .nan else if a = 0 then .ninf else .fin (lg a)
  | .pinf => .pinf
  | _ => .nan

/-- C `exp` with a library function. -/
noncomputable def xexpR (ex : ℝ → ℝ) : XF ℝ → XF ℝ
  | .fin a => .fin (ex a)
  | .pinf => .pinf
  | .ninf => .fin 0
  | .nan => .nan

/-- The loop of `gmean_1d`, lines 50-74. -/
noncomputable def gmeanLoopR (r : XF ℝ → XF ℝ) (lg : ℝ → ℝ) : (k : Nat) → GState → List (XF ℝ) → GState
  | _, s, [] => s
  | k, s, x :: xs =>
    let prev := if k = 0 then x else s.prev
    let s := { s with prev := prev, allSame := s.allSame && XF.eq prev x }
    if isnan x then { s with hasNan := true }
    else if isinf x then gmeanLoopR r lg (k + 1) { s with hasInf := true, prev := x } xs
    else if XF.eq x (.fin 0) then gmeanLoopR r lg (k + 1) { s with hasZero := true, prev := x } xs
    else if XF.lt x (.fin 0) then { s with hasNeg := true }
    else gmeanLoopR r lg (k + 1) { s with sumlog := r (add s.sumlog (xlogR lg x)), prev := x } xs

/-- Lines 75-90. -/
noncomputable def gmeanFinishR (r ex : XF ℝ → XF ℝ) (s : GState) (n : Nat) : XF ℝ :=
  if s.hasNeg || s.hasNan || (s.hasZero && s.hasInf) then .nan
  else if s.hasInf then .pinf
  else if s.hasZero then .fin 0
  else if s.allSame then s.prev
  else ex (r (div s.sumlog (r (.fin (n : ℝ)))))

/-- `gmean_1d`, lines 40-91. -/
noncomputable def gmean1dR (r : XF ℝ → XF ℝ) (lg : ℝ → ℝ) (ex : XF ℝ → XF ℝ) (x : List (XF ℝ)) : XF ℝ := gmeanFinishR r ex (gmeanLoopR r lg 0 {} x) x.length

/-- C `pow` with a library function `pw` on the finite arguments that give a finite result. -/
noncomputable def xpowR (pw : ℝ → ℝ → ℝ) : XF ℝ → XF ℝ → XF ℝ
  | .fin a, .fin p => if p = 0 then .fin 1 else if a < 0 then .nan else if a = 0 ∧ p < 0 then .pinf else .fin (pw a p)
  | b, e => xpow b e

/-- The sums of logarithms and squares of logarithms, lines 336-341. -/
noncomputable def logSumsR (r : XF ℝ → XF ℝ) (lg : ℝ → ℝ) : XF ℝ → XF ℝ → List (XF ℝ) → XF ℝ × XF ℝ
  | s, q, [] => (s, q)
  | s, q, x :: xs => logSumsR r lg (r (add s (xlogR lg x))) (r (add q (r (mul (xlogR lg x) (xlogR lg x))))) xs

/-- The power sum, lines 413-416. -/
noncomputable def powSumR (r : XF ℝ → XF ℝ) (pow : XF ℝ → XF ℝ → XF ℝ) (scale p : XF ℝ) : XF ℝ → List (XF ℝ) → XF ℝ
  | s, [] => s
  | s, x :: xs => powSumR r pow scale p (r (add s (pow (r (div x scale)) p))) xs

/-- One row of `pmean_loop`, lines 311-418, for double data: the type of the data, of the result
and of `pow` is the same.  (For float and long double `pow` is still the function for double.) -/
noncomputable def pmean1dR (r rx : XF ℝ → XF ℝ) (lg : ℝ → ℝ) (ex : XF ℝ → XF ℝ) (pow : XF ℝ → XF ℝ → XF ℝ) (x : List (XF ℝ)) (p : XF ℝ) : XF ℝ :=
  if isnan p then .nan
  else if XF.lt (XF.abs p) (.fin 2e-6) then
    let gm := gmean1dR r lg ex x
    if XF.ne p (.fin 0) then
      let ls := logSumsR r lg (.fin 0) (.fin 0) x
      let n : XF ℝ := r (.fin (x.length : ℝ))
      let mean := r (div ls.1 n)
      let var := r (sub (r (div ls.2 n)) (r (mul mean mean)))
      r (mul gm (r (add (.fin 1) (r (mul (r (mul (.fin (1 / 2)) p)) var)))))
    else gm
  else if XF.eq p (.fin (-1)) then hmean1dR r rx x
  else
    let s := pmeanScan 0 {} x
    match pmeanSpecial s p with
    | some v => v
    | none =>
      let scale := if XF.gt p (.fin 0) then s.xmax else s.xmin
      r (mul scale (pow (r (div (powSumR r pow scale p (.fin 0) x) (r (.fin (x.length : ℝ))))) (r (div (.fin 1) p))))

end Ufunclab.Means
