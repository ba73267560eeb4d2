import Verif.Model.Meanvar
import Verif.Model.Corr
/-!
# meanvar and pearson_corr with a rounding that may overflow

The functions of src/meanvar/meanvar_gufunc.h and src/corr/corr_gufunc.h with the result of every
operation, and of every conversion of an integer to the type `U`, passed through `r`: `ov rd Ω` (Spec/Overflow) rounds and
overflows.  No excess precision, no fused multiply-add; `pow(z, 2.0)` is `z*z`.
-/
namespace Ufunclab.Meanvar

/-- `compensated_update`, src/meanvar/meanvar_gufunc.h lines 16-24. -/
noncomputable def compensatedUpdateO (r : XF ℝ → XF ℝ) (val incr comp : XF ℝ) : XF ℝ × XF ℝ :=
  let y := r (incr.sub comp)
  let t := r (val.add y)
  let c := r ((r (t.sub val)).sub y)
  (t, c)

/-- The loop of `meanvar_core`, lines 39-44: `(mean, m2)` after all elements. -/
noncomputable def loopO (r : XF ℝ → XF ℝ) : (k : Nat) → (mean m2 c1 c2 : XF ℝ) → List (XF ℝ) → XF ℝ × XF ℝ
  | _, mean, m2, _, _, [] => (mean, m2)
  | k, mean, m2, c1, c2, xk :: xs =>
    let delta := r (xk.sub mean)
    let u1 := compensatedUpdateO r mean (r (delta.div (r (.fin ((k + 1 : Nat) : ℝ))))) c1
    let mean := u1.1
    let u2 := compensatedUpdateO r m2 (r (delta.mul (r (xk.sub mean)))) c2
    loopO r (k + 1) mean u2.1 u1.2 u2.2 xs

/-- `meanvar_core`, lines 26-48: the two outputs. -/
noncomputable def meanvarO (r : XF ℝ → XF ℝ) (x : List (XF ℝ)) (ddof : Int) : XF ℝ × XF ℝ :=
  let s := loopO r 0 (.fin 0) (.fin 0) (.fin 0) (.fin 0) x
  (s.1, r (s.2.div (r (.fin (((x.length : Int) - ddof : Int) : ℝ)))))

end Ufunclab.Meanvar

namespace Ufunclab.Corr

/-- The loop of `strided_mean`, src/corr/corr_gufunc.h lines 25-33. -/
noncomputable def meanLoopO (r : XF ℝ → XF ℝ) (x : Nat → XF ℝ) : (fuel k : Nat) → (mean c1 : XF ℝ) → XF ℝ
  | 0, _, mean, _ => mean
  | fuel + 1, k, mean, c1 =>
    let delta := r ((x k).sub mean)
    let y1 := r ((r (delta.div (r (.fin ((k : ℝ) + 1))))).sub c1)
    let t1 := r (mean.add y1)
    let c1 := r ((r (t1.sub mean)).sub y1)
    meanLoopO r x fuel (k + 1) t1 c1

/-- `strided_mean`, lines 15-35. -/
noncomputable def stridedMeanO (r : XF ℝ → XF ℝ) (n : Nat) (x : Nat → XF ℝ) : XF ℝ :=
  meanLoopO r x n 0 (.fin 0) (.fin 0)

/-- The loop of `strided_delta_maxabs`, lines 47-52. -/
noncomputable def maxabsLoopO (r : XF ℝ → XF ℝ) (x : Nat → XF ℝ) (xmean : XF ℝ) : (fuel k : Nat) → XF ℝ → XF ℝ
  | 0, _, maxabs => maxabs
  | fuel + 1, k, maxabs =>
    let absxk := (r ((x k).sub xmean)).abs
    maxabsLoopO r x xmean fuel (k + 1) (if absxk.gt maxabs then absxk else maxabs)

/-- `strided_delta_maxabs`, lines 41-54. -/
noncomputable def deltaMaxabsO (r : XF ℝ → XF ℝ) (n : Nat) (x : Nat → XF ℝ) (xmean : XF ℝ) : XF ℝ :=
  maxabsLoopO r x xmean (n - 1) 1 (r ((x 0).sub xmean)).abs

/-- The loop of `strided_delta_norm`, lines 69-75; `pow(z, 2.0)` is `z*z`, rounded. -/
noncomputable def normLoopO (r : XF ℝ → XF ℝ) (x : Nat → XF ℝ) (xmean dmax : XF ℝ) : (fuel k : Nat) → (sumsq c : XF ℝ) → XF ℝ
  | 0, _, sumsq, _ => sumsq
  | fuel + 1, k, sumsq, c =>
    let z := r ((r ((x k).sub xmean)).div dmax)
    let z2 := r (z.mul z)
    let y := r (z2.sub c)
    let t := r (sumsq.add y)
    let c := r ((r (t.sub sumsq)).sub y)
    normLoopO r x xmean dmax fuel (k + 1) t c

/-- `strided_delta_norm`, lines 63-77. -/
noncomputable def deltaNormO (r : XF ℝ → XF ℝ) (n : Nat) (x : Nat → XF ℝ) (xmean dmax : XF ℝ) : XF ℝ :=
  r (dmax.mul (r (xsqrt (normLoopO r x xmean dmax n 0 (.fin 0) (.fin 0)))))

/-- Lines 136-141 / 198-203: the final accumulation. -/
noncomputable def rLoopO (r : XF ℝ → XF ℝ) (x y : Nat → XF ℝ) (xmean xnorm ymean ynorm : XF ℝ) : (fuel k : Nat) → XF ℝ → XF ℝ
  | 0, _, s => s
  | fuel + 1, k, s =>
    let xk := r ((r ((x k).sub xmean)).div xnorm)
    let yk := r ((r ((y k).sub ymean)).div ynorm)
    rLoopO r x y xmean xnorm ymean ynorm fuel (k + 1) (r (s.add (r (xk.mul yk))))

/-- Lines 120-142 = 182-204: the part common to both cores. -/
noncomputable def generalO (r : XF ℝ → XF ℝ) (n : Nat) (x y : Nat → XF ℝ) : XF ℝ :=
  let xmean := stridedMeanO r n x
  let xmax := deltaMaxabsO r n x xmean
  if xmax.eq (.fin 0) then .nan else
  let xnorm := deltaNormO r n x xmean xmax
  let ymean := stridedMeanO r n y
  let ymax := deltaMaxabsO r n y ymean
  if ymax.eq (.fin 0) then .nan else
  let ynorm := deltaNormO r n y ymean ymax
  rLoopO r x y xmean xnorm ymean ynorm n 0 (.fin 0)

/-- `pearson_corr_core`, lines 146-205. -/
noncomputable def pearsonO (r : XF ℝ → XF ℝ) (n : Nat) (m : Mem (XF ℝ)) (px xs py ys : Int) : XF ℝ :=
  if n = 1 then .nan
  else if n = 2 then
    let x0 := m px
    let x1 := get m px xs 1
    if !x0.isfinite || !x1.isfinite || x0.eq x1 then .nan else
    let y0 := m py
    let y1 := get m py ys 1
    if !y0.isfinite || !y1.isfinite || y0.eq y1 then .nan else
    if (x0.lt x1 && y0.lt y1) || (x0.gt x1 && y0.gt y1) then .fin 1 else .fin (-1)
  else generalO r n (fun k => get m px xs k) (fun k => get m py ys k)

end Ufunclab.Corr
