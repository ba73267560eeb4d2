import Verif.Model.Mem
/-!
# Model of src/one_hot/one_hot_gufunc.h (type signature 'p->p', T = npy_intp)
-/
namespace Ufunclab.OneHot

/-- `sizeof(T)` for `T = npy_intp`. -/
def sizeofT : Int := 8

/-- `memset(p_out, 0, n*sizeof(T))` (line 30): the `n` adjacent elements become 0. -/
def memsetZero (p_out : Int) : Nat → Mem Int → Mem Int
  | 0, mo => mo
  | n + 1, mo => memsetZero p_out n (mo.store (p_out + (n : Int) * sizeofT) 0)

/-- The loop of lines 33-35, `cnt = n - i` iterations left. -/
def zeroLoop (p_out out_stride : Int) : (cnt i : Nat) → Mem Int → Mem Int
  | 0, _, mo => mo
  | cnt + 1, i, mo => zeroLoop p_out out_stride cnt (i + 1) (set mo p_out out_stride i 0)

/-- `one_hot_core_calc(n, p_x, p_out, out_stride)`, lines 20-40.  `x = *p_x`
(the input does not overlap the output: NumPy copies overlapping operands). -/
def core (n : Nat) (x : Int) (p_out out_stride : Int) (mo : Mem Int) : Mem Int :=
  let mo :=
    if out_stride = sizeofT then memsetZero p_out n mo
    else zeroLoop p_out out_stride n 0 mo
  if 0 ≤ x ∧ x < (n : Int) then mo.store (p_out + x * out_stride) 1 else mo

end Ufunclab.OneHot
