import Verif.Model.Mem
import Verif.Model.IntTy
/-!
# Model of src/bincount/bincount_gufunc.h and of the default `m` in
ufunclab/_wrapped.py

`x` is a memory of mathematical integers (the values of the element type T);
the output memory is separate (NumPy copies overlapping operands).  `szT`,
`szU` are `sizeof(T)`, `sizeof(U)`.
-/
namespace Ufunclab.Bincount

/-- `static_cast<npy_intp>(k)`: only changes uint64 values `>= 2^63`. -/
def toIntp (k : Int) : Int := IntTy.intp.wrap k

/-- The condition `k >= 0 && static_cast<npy_intp>(k) < m` (lines 39, 47, 56,
85, 133). -/
def guard (k : Int) (m : Nat) : Bool := decide (0 ≤ k) && decide (toIntp k < (m : Int))

/-- `p_out[k] += 1` resp. `set(p_out, out_stride, k, get(p_out, out_stride, k) + 1)`
(lines 40, 48, 57).  The index is a `ptrdiff_t`, and pointer arithmetic is
modulo 2^64, so the element addressed is number `toIntp k`. -/
def bump (p_out stride : Int) (k : Int) (mo : Mem Int) : Mem Int :=
  let a := p_out + toIntp k * stride
  mo.store a (mo a + 1)

/-- The three copies of the loop body: lines 37-42, 45-50, 54-59.  `getx i` is
the way `x` is read, `stride` the step of the output in that branch. -/
def loop (getx : Nat → Int) (m : Nat) (p_out stride : Int) : (cnt i : Nat) → Mem Int → Mem Int
  | 0, _, mo => mo
  | cnt + 1, i, mo =>
    let k := getx i
    let mo := if guard k m then bump p_out stride k mo else mo
    loop getx m p_out stride cnt (i + 1) mo

/-- `bincount_core_calc`, lines 21-61. -/
def core (szT szU : Int) (n m : Nat) (mx : Mem Int) (p_x x_stride p_out out_stride : Int)
    (mo : Mem Int) : Mem Int :=
  if x_stride = szT then
    if out_stride = szU then
      -- p_x[i], p_out[k]
      loop (fun i => mx (p_x + (i : Int) * szT)) m p_out szU n 0 mo
    else
      loop (fun i => mx (p_x + (i : Int) * szT)) m p_out out_stride n 0 mo
  else
    loop (fun i => get mx p_x x_stride i) m p_out out_stride n 0 mo

/-- `bincountw_core_calc`, lines 67-93, and `bincountw_complex_core_calc`,
lines 115-139 (there `W` is a pair and `+` is componentwise, lines 96-108).
`W` has a bare `+` with no laws: the theorems hold for floats bit by bit. -/
def coreW {W : Type _} [Add W] (m : Nat) (mx : Mem Int) (mw : Mem W)
    (p_x x_stride p_w w_stride p_out out_stride : Int) : (cnt i : Nat) → Mem W → Mem W
  | 0, _, mo => mo
  | cnt + 1, i, mo =>
    let k := get mx p_x x_stride i
    let mo :=
      if guard k m then
        let w := get mw p_w w_stride i
        let a := p_out + toIntp k * out_stride
        mo.store a (mo a + w)
      else mo
    coreW m mx mw p_x x_stride p_w w_stride p_out out_stride cnt (i + 1) mo

/-- Complex weights: `npy_complex_add_inplace`, lines 96-108. -/
structure Cplx (R : Type _) where
  re : R
  im : R
deriving DecidableEq

instance {R : Type _} [Add R] : Add (Cplx R) := ⟨fun a b => ⟨a.re + b.re, a.im + b.im⟩⟩

/-- `np.max(x)` for a non-empty array. -/
def npMax : Int → List Int → Int
  | a, [] => a
  | a, b :: bs => npMax (if a < b then b else a) bs

/-- `m = max(np.max(x) + 1, 0)` (ufunclab/_wrapped.py line 164).  `np.max(x)`
is a NumPy scalar of x's dtype, and adding the Python integer 1 to it stays in
that dtype and wraps (NumPy 2 promotion rules, NEP 50).  `np.max` raises
ValueError for an empty array (`none`). -/
def defaultM (t : IntTy) : List Int → Option Int
  | [] => none
  | a :: as =>
    let s := t.wrap (npMax a as + 1)
    some (if s < 0 then 0 else s)

end Ufunclab.Bincount
