import Verif.Model.XF
import Verif.Model.Mem
import Mathlib.Analysis.SpecialFunctions.Pow.Real
/-!
# Model of src/vnorm/vnorm_gufunc.h (vnorm, rms, vdot)

`vnorm` is modelled in exact real arithmetic with NaN and infinities; `rms` and
`vdot` with arbitrary operations on a memory.  Loop counters of type `int`
(lines 79, 92, 209, 214) are modelled as unbounded.
-/
namespace Ufunclab.Vnorm

/-- `pow(b, e)` for `b ≥ 0` or NaN and `e > 0` or NaN, the only arguments used here. -/
noncomputable def xpow (b e : XF ℝ) : XF ℝ :=
  match b, e with
  | .fin a, .fin r => .fin (a ^ r)
  | .fin a, .nan => if a = 1 then .fin 1 else .nan
  | .fin a, .pinf => if a = 1 then .fin 1 else if a < 1 then .fin 0 else .pinf
  | .pinf, .fin _ => .pinf
  | .pinf, .pinf => .pinf
  | _, _ => .nan

/-- Lines 79-85: the largest absolute value; `my_abs` (lines 25-55) is `absf`. -/
noncomputable def maxAbs {T : Type _} (absf : T → XF ℝ) (x : List T) : XF ℝ :=
  x.foldl (fun m v => if XF.lt m (absf v) then absf v else m) (.fin 0)

/-- `vnorm_core_calc`, lines 62-110. -/
noncomputable def vnorm {T : Type _} (absf : T → XF ℝ) (x : List T) (order : XF ℝ) : XF ℝ :=
  if XF.le order (.fin 0) then .nan
  else
    let m := maxAbs absf x
    if XF.eq m (.fin 0) then .fin 0
    else
      let sum := x.foldl (fun s v =>
        if XF.isinf order then (if XF.lt s (absf v) then absf v else s)
        else if XF.eq order (.fin 1) then XF.add s (absf v)
        else XF.add s (xpow (XF.div (absf v) m) order)) (.fin 0)
      if XF.isinf order || XF.eq order (.fin 1) then sum
      else XF.mul m (xpow sum (XF.div (.fin 1) order))

section
variable {α : Type _} [Add α] [Mul α] [Zero α]

/-- Lines 115-119 and 141-145: `for k: x = p[k*stride]; sum += x*x`. -/
def sumSqLoop (m : Mem α) (p stride : Int) : (fuel k : Nat) → α → α
  | 0, _, s => s
  | fuel + 1, k, s => let x := get m p stride k; sumSqLoop m p stride fuel (k + 1) (s + x * x)

/-- `rms_core_calc`, lines 130-147, including the redundant contiguous computation of
lines 138-140 (`rms_core_contig`, lines 112-121), which is stored and then
overwritten.  `fin s n` is `std::sqrt(s/n)`. -/
def rms (fin : α → Nat → α) (m : Mem α) (w p stride out : Int) (n : Nat) : Mem α :=
  let m := if stride = w then m.store out (fin (sumSqLoop m p w n 0 0) n) else m
  m.store out (fin (sumSqLoop m p stride n 0 0) n)

/-- Lines 153-158 and 183-188: `sum += x*x + y*y`, real and imaginary part at offsets
`0` and `u` of each element. -/
def csumSqLoop (m : Mem α) (p stride u : Int) : (fuel k : Nat) → α → α
  | 0, _, s => s
  | fuel + 1, k, s =>
    let x := m (p + (k : Int) * stride)
    let y := m (p + (k : Int) * stride + u)
    csumSqLoop m p stride u fuel (k + 1) (s + (x * x + y * y))

/-- `crms_core_contig`, lines 151-161: the array read as reals, `p_z[2*k]` and
`p_z[2*k+1]`. -/
def ccontigLoop (m : Mem α) (p u : Int) : (fuel k : Nat) → α → α
  | 0, _, s => s
  | fuel + 1, k, s =>
    let x := get m p u (2 * k)
    let y := get m p u (2 * k + 1)
    ccontigLoop m p u fuel (k + 1) (s + (x * x + y * y))

/-- `crms_core_calc`, lines 171-190; `u` is the size of a real, `2*u` of a complex. -/
def crms (fin : α → Nat → α) (m : Mem α) (u p stride out : Int) (n : Nat) : Mem α :=
  if stride = 2 * u then m.store out (fin (ccontigLoop m p u n 0 0) n)
  else m.store out (fin (csumSqLoop m p stride u n 0 0) n)

/-- `for k: sum += p_x[k] * p_y[k]`. -/
def dotLoop (m : Mem α) (px sx py sy : Int) : (fuel k : Nat) → α → α
  | 0, _, s => s
  | fuel + 1, k, s => dotLoop m px sx py sy fuel (k + 1) (s + get m px sx k * get m py sy k)

/-- `vdot_core_calc`, lines 198-223: the contiguous path indexes with the item size
`w`, the other one with the strides. -/
def vdot (m : Mem α) (w px sx py sy : Int) (n : Nat) : α :=
  if sx = w ∧ sy = w then dotLoop m px w py w n 0 0 else dotLoop m px sx py sy n 0 0
end

end Ufunclab.Vnorm
