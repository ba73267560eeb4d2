import Verif.Model.Mem
import Verif.Model.IntTy
/-!
# Model of src/convert_to_base/convert_to_base_gufunc.h
-/
namespace Ufunclab.ConvertToBase

/-- The hardware/C++ behaviour of `k / base` and `k % base` in type `T`: the
operation is undefined (an x86 `idiv`/`div` traps) when `base == 0`, and when
the quotient of the smallest value by -1 overflows.  Types narrower than `int`
are promoted to `int` first, so the overflow case needs at least 32 bits. -/
def traps (t : IntTy) (k base : Int) : Bool :=
  base == 0 || (t.signed && decide (32 ≤ t.bits) && k == t.min && base == -1)

/-- The loop of lines 23-26 of `convert_to_base_core_calc`, from index `i` on
with `cnt = n - i` iterations left: `set(p_out, out_stride, i, (T)(k % base));
k = k / base;`.  C++ division truncates towards zero (`Int.tdiv`,
`Int.tmod`); storing into a `T` wraps.  `none` = the process traps. -/
def loop (t : IntTy) (base : Int) (p_out out_stride : Int) :
    (cnt i : Nat) → (k : Int) → Mem Int → Option (Mem Int)
  | 0, _, _, mo => some mo
  | cnt + 1, i, k, mo =>
    if traps t k base then none
    else
      let mo := set mo p_out out_stride i (t.wrap (k.tmod base))
      loop t base p_out out_stride cnt (i + 1) (t.wrap (k.tdiv base)) mo

/-- `convert_to_base_core_calc(n, p_k, p_base, p_out, out_stride)`, lines 12-27. -/
def core (t : IntTy) (n : Nat) (k base : Int) (p_out out_stride : Int) (mo : Mem Int) :
    Option (Mem Int) :=
  loop t base p_out out_stride n 0 k mo

end Ufunclab.ConvertToBase
