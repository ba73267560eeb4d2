import Verif.Model.MeansRound
/-!
# src/means/means_gufunc.c.src with rounding: hmeanw, gmeanw and pmeanw

As in Model/MeansRound a rounding `r` follows every operation and the library functions are
parameters.  The pairs are (value, weight).  Data, weights and result have the same type.
-/
namespace Ufunclab.Means
open XF

/-- The loop of `hmeanw_1d`, lines 243-254: `(sumw, sumrecip)`. -/
noncomputable def hmeanwSumR (r : XF ℝ → XF ℝ) : XF ℝ → XF ℝ → List (XF ℝ × XF ℝ) → XF ℝ × XF ℝ
  | sw, s, [] => (sw, s)
  | sw, s, (x, w) :: xs => if XF.eq x (.fin 0) then (sw, .pinf) else hmeanwSumR r (r (add sw w)) (r (add s (r (div w x)))) xs

/-- `hmeanw_1d`, lines 238-256. -/
noncomputable def hmeanw1dR (r : XF ℝ → XF ℝ) (x : List (XF ℝ × XF ℝ)) : XF ℝ :=
  let t := hmeanwSumR r (.fin 0) (.fin 0) x
  r (div t.1 t.2)

/-- The loop of `gmeanw_1d`, lines 128-154. -/
noncomputable def gmeanwLoopR (r : XF ℝ → XF ℝ) (lg : ℝ → ℝ) : (k : Nat) → GState → List (XF ℝ × XF ℝ) → GState
  | _, s, [] => s
  | k, s, (x, w) :: xs =>
    let prev := if k = 0 then x else s.prev
    let s := { s with sumw := r (add s.sumw w), prev := prev, allSame := s.allSame && XF.eq prev x }
    if isnan x then { s with hasNan := true }
    else if isinf x then gmeanwLoopR r lg (k + 1) { s with hasInf := true, prev := x } xs
    else if XF.eq x (.fin 0) then gmeanwLoopR r lg (k + 1) { s with hasZero := true, prev := x } xs
    else if XF.lt x (.fin 0) then { s with hasNeg := true }
    else gmeanwLoopR r lg (k + 1) { s with sumlog := r (add s.sumlog (r (mul w (xlogR lg x)))), prev := x } xs

/-- Lines 155-173. -/
noncomputable def gmeanwFinishR (r ex : XF ℝ → XF ℝ) (s : GState) : XF ℝ :=
  if s.hasNeg || s.hasNan || (s.hasZero && s.hasInf) then .nan
  else if s.hasInf then .pinf
  else if s.hasZero then .fin 0
  else if s.allSame then s.prev
  else if XF.eq s.sumw (.fin 0) then .nan
  else ex (r (div s.sumlog s.sumw))

/-- `gmeanw_1d`, lines 116-174. -/
noncomputable def gmeanw1dR (r : XF ℝ → XF ℝ) (lg : ℝ → ℝ) (ex : XF ℝ → XF ℝ) (x : List (XF ℝ × XF ℝ)) : XF ℝ :=
  gmeanwFinishR r ex (gmeanwLoopR r lg 0 {} x)

/-- Lines 470-479: `(sumw, sumlnx, sumlnx_sq)`; `w*lnx*lnx` is `(w*lnx)*lnx`. -/
noncomputable def logSumsWR (r : XF ℝ → XF ℝ) (lg : ℝ → ℝ) : XF ℝ → XF ℝ → XF ℝ → List (XF ℝ × XF ℝ) → XF ℝ × XF ℝ × XF ℝ
  | sw, s, q, [] => (sw, s, q)
  | sw, s, q, (x, w) :: xs =>
    logSumsWR r lg (r (add sw w)) (r (add s (r (mul w (xlogR lg x))))) (r (add q (r (mul (r (mul w (xlogR lg x))) (xlogR lg x))))) xs

/-- Lines 555-562: `(sumw, sum)`. -/
noncomputable def powSumWR (r : XF ℝ → XF ℝ) (pow : XF ℝ → XF ℝ → XF ℝ) (scale p : XF ℝ) : XF ℝ → XF ℝ → List (XF ℝ × XF ℝ) → XF ℝ × XF ℝ
  | sw, s, [] => (sw, s)
  | sw, s, (x, w) :: xs => powSumWR r pow scale p (r (add sw w)) (r (add s (r (mul w (pow (r (div x scale)) p))))) xs

/-- One row of `pmeanw_loop`, lines 448-566, for double data: the type of the data, of the result
and of `pow` is the same. -/
noncomputable def pmeanw1dR (r : XF ℝ → XF ℝ) (lg : ℝ → ℝ) (ex : XF ℝ → XF ℝ) (pow : XF ℝ → XF ℝ → XF ℝ) (x : List (XF ℝ × XF ℝ)) (p : XF ℝ) : XF ℝ :=
  if isnan p then .nan
  else if XF.lt (XF.abs p) (.fin 2e-6) then
    let gm := gmeanw1dR r lg ex x
    if XF.ne p (.fin 0) then
      let t := logSumsWR r lg (.fin 0) (.fin 0) (.fin 0) x
      let mean := r (div t.2.1 t.1)
      let var := r (sub (r (div t.2.2 t.1)) (r (mul mean mean)))
      r (mul gm (r (add (.fin 1) (r (mul (r (mul (.fin (1 / 2)) p)) var)))))
    else gm
  else if XF.eq p (.fin (-1)) then hmeanw1dR r x
  else
    let s := pmeanScan 0 {} (x.map Prod.fst)
    match pmeanSpecial s p with
    | some v => v
    | none =>
      let scale := if XF.gt p (.fin 0) then s.xmax else s.xmin
      let t := powSumWR r pow scale p (.fin 0) (.fin 0) x
      r (mul scale (pow (r (div t.2 t.1)) (r (div (.fin 1) p))))

end Ufunclab.Means
