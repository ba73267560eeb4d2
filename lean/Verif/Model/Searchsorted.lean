import Verif.Model.Mem
/-!
# Model of src/searchsorted/searchsorted_gufunc.c.src

The element type and its `<` are parameters (`lt`), covering all instances of
the `@typename@` template (lines 206-208), the half-float versions (lines
364-432, where `lt` compares after `npy_half_to_float`) and, with `lt`
possibly raising, the object versions (lines 280-355).

The bisection functions return the pair (result, list of the indices `mid`
that were dereferenced, in order) so that statements about memory reads can
be made.  `npy_intp` is modelled by `Nat` (an index of an existing array; the
sum `lo + hi` stays below 2^63 for every array that fits in memory).
-/
namespace Ufunclab.Searchsorted
variable {α : Type _}

/-- `while (lo < hi)` of `_searchsortedl_@typename@`, lines 216-224. -/
def loopL (lt : α → α → Bool) (a : Nat → α) (v : α) (lo hi : Nat) : Nat × List Nat :=
  if lo < hi then
    let mid := (lo + hi) / 2
    if lt (a mid) v then
      let r := loopL lt a v (mid + 1) hi
      (r.1, mid :: r.2)
    else
      let r := loopL lt a v lo mid
      (r.1, mid :: r.2)
  else (lo, [])
termination_by hi - lo
decreasing_by all_goals omega

/-- `while (lo < hi)` of `_searchsortedr_@typename@`, lines 233-241. -/
def loopR (lt : α → α → Bool) (a : Nat → α) (v : α) (lo hi : Nat) : Nat × List Nat :=
  if lo < hi then
    let mid := (lo + hi) / 2
    if lt v (a mid) then
      let r := loopR lt a v lo mid
      (r.1, mid :: r.2)
    else
      let r := loopR lt a v (mid + 1) hi
      (r.1, mid :: r.2)
  else (lo, [])
termination_by hi - lo
decreasing_by all_goals omega

/-- `_searchsortedl_@typename@(a, len_a, step, v)`, lines 211-226; reads
`*(a + mid*step)`. -/
def searchsortedl (lt : α → α → Bool) (m : Mem α) (a : Int) (len_a : Nat) (step : Int)
    (v : α) : Nat × List Nat :=
  loopL lt (fun mid => m (a + (mid : Int) * step)) v 0 len_a

/-- `_searchsortedr_@typename@(a, len_a, step, v)`, lines 228-243. -/
def searchsortedr (lt : α → α → Bool) (m : Mem α) (a : Int) (len_a : Nat) (step : Int)
    (v : α) : Nat × List Nat :=
  loopR lt (fun mid => m (a + (mid : Int) * step)) v 0 len_a

/-- `_searchsortedl_object`, lines 280-301.  `lt` returns `none` when
`PyObject_RichCompareBool` returns -1 (exception set); result `none` is the
error return -1. -/
def loopLObj (lt : α → α → Option Bool) (a : Nat → α) (v : α) (lo hi : Nat) : Option Nat :=
  if lo < hi then
    let mid := (lo + hi) / 2
    match lt (a mid) v with
    | none => none
    | some true => loopLObj lt a v (mid + 1) hi
    | some false => loopLObj lt a v lo mid
  else some lo
termination_by hi - lo
decreasing_by all_goals omega

/-- `_searchsortedr_object`, lines 303-324. -/
def loopRObj (lt : α → α → Option Bool) (a : Nat → α) (v : α) (lo hi : Nat) : Option Nat :=
  if lo < hi then
    let mid := (lo + hi) / 2
    match lt v (a mid) with
    | none => none
    | some true => loopRObj lt a v lo mid
    | some false => loopRObj lt a v (mid + 1) hi
  else some lo
termination_by hi - lo
decreasing_by all_goals omega

/-- The stored `npy_intp` for an object search: the index, or -1 on error. -/
def objCode : Option Nat → Int
  | none => -1
  | some k => (k : Int)

/-- `searchsorted@side@_@typename@_loop`, lines 249-270: `i`-th iteration
(starting from iteration count `k` to go) with advanced pointers; the output
memory is separate from the input memory (NumPy guarantees no overlap for
gufunc loops).  `core` is the bisection for the chosen side. -/
def loopTyped (core : Mem α → Int → Nat → Int → α → Nat × List Nat) (inp : Mem α)
    (len_a : Nat) (s0 s1 s2 s3 : Int) :
    (nloops : Nat) → (sortedarr element out : Int) → Mem Int → Mem Int
  | 0, _, _, _, mo => mo
  | k + 1, sortedarr, element, out, mo =>
    let v := inp element
    let mo := mo.store out ((core inp sortedarr len_a s3 v).1 : Int)
    loopTyped core inp len_a s0 s1 s2 s3 k (sortedarr + s0) (element + s1) (out + s2) mo

/-- `searchsorted@side@_object_loop`, lines 331-355: as above, but returns as
soon as the stored result is -1.  The second component tells whether an
exception is set. -/
def loopObject (core : (Nat → α) → α → Nat → Nat → Option Nat) (inp : Mem α)
    (len_a : Nat) (s0 s1 s2 s3 : Int) :
    (nloops : Nat) → (sortedarr element out : Int) → Mem Int → Mem Int × Bool
  | 0, _, _, _, mo => (mo, false)
  | k + 1, sortedarr, element, out, mo =>
    let v := inp element
    let r := core (fun mid => inp (sortedarr + (mid : Int) * s3)) v 0 len_a
    let mo := mo.store out (objCode r)
    if objCode r = -1 then (mo, true)
    else loopObject core inp len_a s0 s1 s2 s3 k (sortedarr + s0) (element + s1) (out + s2) mo

end Ufunclab.Searchsorted
