import Verif.Model.XF
/-!
# Model of src/fillnan1d/fillnan1d_gufunc.h

The input is the function `x : Nat → α` giving the logical elements `x 0, ...,
x (n-1)`; the output is the function `Nat → α` of the elements of `out`
(distinct indices are distinct cells: the output stride is not 0).
`lerp left right i d` is `static_cast<T>(left + i*((right - left)/d))` computed
in `long double`.
-/
namespace Ufunclab.Fillnan
variable {α : Type _}

/-- `set(p_out, out_stride, i, v)`. -/
def upd (out : Nat → α) (i : Nat) (v : α) : Nat → α := fun j => if j = i then v else out j

/-- `for (i = lo; i < lo + fuel; ++i) set(p_out, out_stride, i, f i)`. -/
def fillRange (f : Nat → α) : (fuel lo : Nat) → (out : Nat → α) → Nat → α
  | 0, _, out => out
  | fuel + 1, lo, out => fillRange f fuel (lo + 1) (upd out lo (f lo))

/-- Lines 24-31: index of the first non-NaN, `n` if there is none
(`fuel = n - k`). -/
def findFirst (isnan : α → Bool) (x : Nat → α) : (fuel k : Nat) → Nat
  | 0, k => k
  | fuel + 1, k => if !isnan (x k) then k else findFirst isnan x fuel (k + 1)

/-- Lines 46-58: the main loop, returning left_value, left_index and out. -/
def mainLoop (isnan : α → Bool) (lerp : α → α → Nat → Nat → α) (x : Nat → α) :
    (fuel k : Nat) → (v : α) → (l : Nat) → (out : Nat → α) → α × Nat × (Nat → α)
  | 0, _, v, l, out => (v, l, out)
  | fuel + 1, k, v, l, out =>
    if !isnan (x k) then
      let out := upd out k (x k)
      let out :=
        if l ≠ k - 1 then fillRange (fun j => lerp v (x k) (j - l) (k - l)) (k - l - 1) (l + 1) out
        else out
      mainLoop isnan lerp x fuel (k + 1) (x k) k out
    else mainLoop isnan lerp x fuel (k + 1) v l out

/-- `fillnan1d_core`, lines 14-66. -/
def fillnan (isnan : α → Bool) (nan : α) (lerp : α → α → Nat → Nat → α) (n : Nat) (x : Nat → α)
    (out : Nat → α) : Nat → α :=
  let k := findFirst isnan x n 0
  if k = n then fillRange (fun _ => nan) n 0 out
  else
    let v := x k
    let out := fillRange (fun _ => v) (k + 1) 0 out
    let r := mainLoop isnan lerp x (n - (k + 1)) (k + 1) v k out
    if r.2.1 ≠ n then fillRange (fun _ => r.1) (n - (r.2.1 + 1)) (r.2.1 + 1) r.2.2 else r.2.2

/-- The interpolation of lines 50-53 on floats with special values (exact
otherwise). -/
def xlerp {K : Type _} [Field K] [LinearOrder K] (left right : XF K) (i d : Nat) : XF K :=
  XF.add left (XF.mul (.fin (i : K)) (XF.div (XF.sub right left) (.fin (d : K))))

end Ufunclab.Fillnan
