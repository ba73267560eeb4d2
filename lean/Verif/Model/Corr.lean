import Verif.Model.Mem
import Verif.Model.XF
import Mathlib.Analysis.SpecialFunctions.Sqrt
/-!
# Model of src/corr/corr_gufunc.h

Floats are `XF ℝ` (exact reals with NaN and infinities).  `x k` stands for
`get(p_x, x_stride, k)`, converted to the output type `U`.
-/
namespace Ufunclab.Corr

/-- C `sqrt` on `XF ℝ`. -/
noncomputable def xsqrt : XF ℝ → XF ℝ
  | .nan => .nan
  | .ninf => .nan
  | .pinf => .pinf
  | .fin a => if a < 0 then .nan else .fin (Real.sqrt a)

/-- The loop of `strided_mean`, lines 25-33. -/
noncomputable def meanLoop (x : Nat → XF ℝ) : (fuel k : Nat) → (mean c1 : XF ℝ) → XF ℝ
  | 0, _, mean, _ => mean
  | fuel + 1, k, mean, c1 =>
    let delta := (x k).sub mean
    let y1 := (delta.div (.fin ((k : ℝ) + 1))).sub c1
    let t1 := mean.add y1
    let c1 := (t1.sub mean).sub y1
    meanLoop x fuel (k + 1) t1 c1

/-- `strided_mean`, lines 15-35. -/
noncomputable def stridedMean (n : Nat) (x : Nat → XF ℝ) : XF ℝ :=
  meanLoop x n 0 (.fin 0) (.fin 0)

/-- The loop of `strided_delta_maxabs`, lines 47-52. -/
noncomputable def maxabsLoop (x : Nat → XF ℝ) (xmean : XF ℝ) : (fuel k : Nat) → XF ℝ → XF ℝ
  | 0, _, maxabs => maxabs
  | fuel + 1, k, maxabs =>
    let absxk := ((x k).sub xmean).abs
    maxabsLoop x xmean fuel (k + 1) (if absxk.gt maxabs then absxk else maxabs)

/-- `strided_delta_maxabs`, lines 41-54. -/
noncomputable def deltaMaxabs (n : Nat) (x : Nat → XF ℝ) (xmean : XF ℝ) : XF ℝ :=
  maxabsLoop x xmean (n - 1) 1 ((x 0).sub xmean).abs

/-- The loop of `strided_delta_norm`, lines 69-75; `pow(z, 2.0)` is `z*z`. -/
noncomputable def normLoop (x : Nat → XF ℝ) (xmean dmax : XF ℝ) : (fuel k : Nat) → (sumsq c : XF ℝ) → XF ℝ
  | 0, _, sumsq, _ => sumsq
  | fuel + 1, k, sumsq, c =>
    let z := ((x k).sub xmean).div dmax
    let z2 := z.mul z
    let y := z2.sub c
    let t := sumsq.add y
    let c := (t.sub sumsq).sub y
    normLoop x xmean dmax fuel (k + 1) t c

/-- `strided_delta_norm`, lines 63-77. -/
noncomputable def deltaNorm (n : Nat) (x : Nat → XF ℝ) (xmean dmax : XF ℝ) : XF ℝ :=
  dmax.mul (xsqrt (normLoop x xmean dmax n 0 (.fin 0) (.fin 0)))

/-- Lines 136-141 / 198-203: the final accumulation. -/
noncomputable def rLoop (x y : Nat → XF ℝ) (xmean xnorm ymean ynorm : XF ℝ) : (fuel k : Nat) → XF ℝ → XF ℝ
  | 0, _, r => r
  | fuel + 1, k, r =>
    let xk := ((x k).sub xmean).div xnorm
    let yk := ((y k).sub ymean).div ynorm
    rLoop x y xmean xnorm ymean ynorm fuel (k + 1) (r.add (xk.mul yk))

/-- Lines 120-142 = 182-204: the part common to both cores. -/
noncomputable def general (n : Nat) (x y : Nat → XF ℝ) : XF ℝ :=
  let xmean := stridedMean n x
  let xmax := deltaMaxabs n x xmean
  if xmax.eq (.fin 0) then .nan else
  let xnorm := deltaNorm n x xmean xmax
  let ymean := stridedMean n y
  let ymax := deltaMaxabs n y ymean
  if ymax.eq (.fin 0) then .nan else
  let ynorm := deltaNorm n y ymean ymax
  rLoop x y xmean xnorm ymean ynorm n 0 (.fin 0)

/-- `pearson_corr_core`, lines 146-205. -/
noncomputable def pearson (n : Nat) (m : Mem (XF ℝ)) (px xs py ys : Int) : XF ℝ :=
  if n = 1 then .nan
  else if n = 2 then
    let x0 := m px
    let x1 := get m px xs 1
    if !x0.isfinite || !x1.isfinite || x0.eq x1 then .nan else
    let y0 := m py
    let y1 := get m py ys 1
    if !y0.isfinite || !y1.isfinite || y0.eq y1 then .nan else
    if (x0.lt x1 && y0.lt y1) || (x0.gt x1 && y0.gt y1) then .fin 1 else .fin (-1)
  else general n (fun k => get m px xs k) (fun k => get m py ys k)

/-- `pearson_corr_int_core`, lines 84-143. -/
noncomputable def pearsonInt (n : Nat) (m : Mem Int) (px xs py ys : Int) : XF ℝ :=
  if n = 1 then .nan
  else if n = 2 then
    let x0 := m px
    let x1 := get m px xs 1
    if x0 = x1 then .nan else
    let y0 := m py
    let y1 := get m py ys 1
    if y0 = y1 then .nan else
    if (x0 < x1 ∧ y0 < y1) ∨ (x0 > x1 ∧ y0 > y1) then .fin 1 else .fin (-1)
  else general n (fun k => .fin ((get m px xs k : Int) : ℝ)) (fun k => .fin ((get m py ys k : Int) : ℝ))

/-- `process_core_dims`, lines 209-220: `false` = ValueError. -/
def processCoreDims (n : Int) : Bool := !(n < 2)

/-! ## With rounding

The same code with every operation followed by the rounding `rd` of the type `U` (no overflow). -/

/-- The rounding, applied to a finite result. -/
def rnd (rd : ℝ → ℝ) : XF ℝ → XF ℝ
  | .fin v => .fin (rd v)
  | v => v

/-- The loop of `strided_mean`, lines 25-33. -/
noncomputable def meanLoopR (rd : ℝ → ℝ) (x : Nat → XF ℝ) : (fuel k : Nat) → (mean c1 : XF ℝ) → XF ℝ
  | 0, _, mean, _ => mean
  | fuel + 1, k, mean, c1 =>
    let delta := rnd rd ((x k).sub mean)
    let y1 := rnd rd ((rnd rd (delta.div (rnd rd (.fin ((k : ℝ) + 1))))).sub c1)
    let t1 := rnd rd (mean.add y1)
    let c1 := rnd rd ((rnd rd (t1.sub mean)).sub y1)
    meanLoopR rd x fuel (k + 1) t1 c1

/-- `strided_mean`, lines 15-35. -/
noncomputable def stridedMeanR (rd : ℝ → ℝ) (n : Nat) (x : Nat → XF ℝ) : XF ℝ :=
  meanLoopR rd x n 0 (.fin 0) (.fin 0)

/-- The loop of `strided_delta_maxabs`, lines 47-52. -/
noncomputable def maxabsLoopR (rd : ℝ → ℝ) (x : Nat → XF ℝ) (xmean : XF ℝ) : (fuel k : Nat) → XF ℝ → XF ℝ
  | 0, _, maxabs => maxabs
  | fuel + 1, k, maxabs =>
    let absxk := (rnd rd ((x k).sub xmean)).abs
    maxabsLoopR rd x xmean fuel (k + 1) (if absxk.gt maxabs then absxk else maxabs)

/-- `strided_delta_maxabs`, lines 41-54. -/
noncomputable def deltaMaxabsR (rd : ℝ → ℝ) (n : Nat) (x : Nat → XF ℝ) (xmean : XF ℝ) : XF ℝ :=
  maxabsLoopR rd x xmean (n - 1) 1 (rnd rd ((x 0).sub xmean)).abs

/-- The loop of `strided_delta_norm`, lines 69-75; `pow(z, 2.0)` is `z*z`, rounded. -/
noncomputable def normLoopR (rd : ℝ → ℝ) (x : Nat → XF ℝ) (xmean dmax : XF ℝ) : (fuel k : Nat) → (sumsq c : XF ℝ) → XF ℝ
  | 0, _, sumsq, _ => sumsq
  | fuel + 1, k, sumsq, c =>
    let z := rnd rd ((rnd rd ((x k).sub xmean)).div dmax)
    let z2 := rnd rd (z.mul z)
    let y := rnd rd (z2.sub c)
    let t := rnd rd (sumsq.add y)
    let c := rnd rd ((rnd rd (t.sub sumsq)).sub y)
    normLoopR rd x xmean dmax fuel (k + 1) t c

/-- `strided_delta_norm`, lines 63-77. -/
noncomputable def deltaNormR (rd : ℝ → ℝ) (n : Nat) (x : Nat → XF ℝ) (xmean dmax : XF ℝ) : XF ℝ :=
  rnd rd (dmax.mul (rnd rd (xsqrt (normLoopR rd x xmean dmax n 0 (.fin 0) (.fin 0)))))

/-- Lines 136-141 / 198-203: the final accumulation. -/
noncomputable def rLoopR (rd : ℝ → ℝ) (x y : Nat → XF ℝ) (xmean xnorm ymean ynorm : XF ℝ) : (fuel k : Nat) → XF ℝ → XF ℝ
  | 0, _, r => r
  | fuel + 1, k, r =>
    let xk := rnd rd ((rnd rd ((x k).sub xmean)).div xnorm)
    let yk := rnd rd ((rnd rd ((y k).sub ymean)).div ynorm)
    rLoopR rd x y xmean xnorm ymean ynorm fuel (k + 1) (rnd rd (r.add (rnd rd (xk.mul yk))))

/-- Lines 120-142 = 182-204: the part common to both cores. -/
noncomputable def generalR (rd : ℝ → ℝ) (n : Nat) (x y : Nat → XF ℝ) : XF ℝ :=
  let xmean := stridedMeanR rd n x
  let xmax := deltaMaxabsR rd n x xmean
  if xmax.eq (.fin 0) then .nan else
  let xnorm := deltaNormR rd n x xmean xmax
  let ymean := stridedMeanR rd n y
  let ymax := deltaMaxabsR rd n y ymean
  if ymax.eq (.fin 0) then .nan else
  let ynorm := deltaNormR rd n y ymean ymax
  rLoopR rd x y xmean xnorm ymean ynorm n 0 (.fin 0)

/-- `pearson_corr_core`, lines 146-205. -/
noncomputable def pearsonR (rd : ℝ → ℝ) (n : Nat) (m : Mem (XF ℝ)) (px xs py ys : Int) : XF ℝ :=
  if n = 1 then .nan
  else if n = 2 then
    let x0 := m px
    let x1 := get m px xs 1
    if !x0.isfinite || !x1.isfinite || x0.eq x1 then .nan else
    let y0 := m py
    let y1 := get m py ys 1
    if !y0.isfinite || !y1.isfinite || y0.eq y1 then .nan else
    if (x0.lt x1 && y0.lt y1) || (x0.gt x1 && y0.gt y1) then .fin 1 else .fin (-1)
  else generalR rd n (fun k => get m px xs k) (fun k => get m py ys k)

/-- `pearson_corr_int_core`, lines 84-143; the integers are converted to `U` where they are used. -/
noncomputable def pearsonIntR (rd : ℝ → ℝ) (n : Nat) (m : Mem Int) (px xs py ys : Int) : XF ℝ :=
  if n = 1 then .nan
  else if n = 2 then
    let x0 := m px
    let x1 := get m px xs 1
    if x0 = x1 then .nan else
    let y0 := m py
    let y1 := get m py ys 1
    if y0 = y1 then .nan else
    if (x0 < x1 ∧ y0 < y1) ∨ (x0 > x1 ∧ y0 > y1) then .fin 1 else .fin (-1)
  else generalR rd n (fun k => .fin (rd ((get m px xs k : Int) : ℝ))) (fun k => .fin (rd ((get m py ys k : Int) : ℝ)))

end Ufunclab.Corr
